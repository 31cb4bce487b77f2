import Verif.Props.C73

/-!
# C73, delegations
-/

namespace Aktualizr

open Spec

namespace Gen

theorem at_cons {j x c : Json} {k : String} {p : List String} (h : j.get k = .ok c) (hc : At c p x) : At j (k :: p) x := ⟨c, h, hc⟩

theorem withDelegation_effect {g : GenEnv} {j j' : Json} {v : Int} {e name pattern : String} {term : Bool} {pub : PublicKey} (h : TargetsBody j v e)
    (hp : pub.type ≠ .unknown) (hw : withDelegation g j name pattern term pub = .ok j') :
    NewDelegation g name pattern term pub j j' ∧ VersionUp j j' ∧ SameBut j j' ["delegations", "version"] := by
  unfold withDelegation at hw
  obtain ⟨p, h1, hw⟩ := exc_bind_ok.1 hw
  obtain ⟨dl1, h2, hw⟩ := exc_bind_ok.1 hw
  obtain ⟨r0, h3, hw⟩ := exc_bind_ok.1 hw
  obtain ⟨rs, h4, hw⟩ := exc_bind_ok.1 hw
  obtain ⟨p2, h5, hw⟩ := exc_bind_ok.1 hw
  obtain ⟨dl, dl1', g1, g2, g3⟩ := setPath_cons h1
  have := (setKey_ok g3).1
  rw [h2] at this
  cases this
  obtain ⟨ks, ks', a1, a2, a3⟩ := setPath_cons g2
  obtain ⟨x, x', b1, b2, b3⟩ := setPath_cons a2
  cases b2
  have hr0 : dl.get "roles" = .ok r0 := by rw [← (setKey_ok a3).2.1 _ (by decide)]; exact h3
  obtain ⟨-, c2, -⟩ := append_ok h4
  obtain ⟨dl1', dl2, k1, k2, k3, k4, k5⟩ := setPath_two h5
  rw [h2] at k1
  cases k1
  have hv : p2.get "version" = .ok (.int v) := by
    rw [k5 _ (by decide), (setKey_ok g3).2.1 _ (by decide)]
    exact h.version
  obtain ⟨-, hset⟩ := bump_ok hv h.range hw
  have hdl : j'.get "delegations" = .ok dl2 := ((setKey_ok hset).2.1 _ (by decide)).trans k2
  have hks : dl2.get "keys" = .ok ks' := (k4 _ (by decide)).trans (setKey_ok a3).1
  refine ⟨⟨⟨r0, rs, _, at_cons g1 (at_one hr0), at_cons hdl (at_one k3), c2, at_one rfl, at_one rfl, at_one rfl, at_one rfl, at_one rfl⟩,
    ⟨ks, ks', at_cons g1 (at_one a1), at_cons hdl (at_one hks), fun k hk => (setKey_ok b3).2.1 k (by simpa using hk), at_cons (setKey_ok b3).1 ⟨_, rfl, _, rfl, rfl⟩,
      at_cons (setKey_ok b3).1 ⟨_, rfl, ?_⟩⟩⟩, ⟨v, at_one h.version, at_one (setKey_ok hset).1⟩, ?_⟩
  · cases hty : pub.type <;> first | exact absurd hty hp | rfl
  · intro k hk
    rw [(setKey_ok hset).2.1 k (fun hh => hk (by simp [hh])), k5 k (fun hh => hk (by simp [hh])), (setKey_ok g3).2.1 k (fun hh => hk (by simp [hh]))]

/-! ### Revoking -/

theorem pruned_trans {name kid : String} {a b c : Json} (h1 : Pruned name kid a b) (h2 : Pruned name kid b c) : Pruned name kid a c := by
  refine ⟨fun k hk => (h2.same k hk).trans (h1.same k hk), ?_, ?_, ?_⟩
  · obtain ⟨v, v', a1, a2, a3⟩ := h1.version
    obtain ⟨w, w', b1, b2, b3⟩ := h2.version
    have := at_det a2 b1
    cases this
    exact ⟨v, w', a1, b2, by omega⟩
  · obtain ⟨v, v', a1, a2, a3⟩ := h1.roles
    obtain ⟨w, w', b1, b2, b3⟩ := h2.roles
    have := at_det a2 b1
    subst this
    exact ⟨v, w', a1, b2, by rw [b3, a3, List.filter_filter]; simp⟩
  · obtain ⟨v, v', a1, a2, a3, a4⟩ := h1.keys
    obtain ⟨w, w', b1, b2, b3, b4⟩ := h2.keys
    have := at_det a2 b1
    subst this
    exact ⟨v, w', a1, b2, fun k hk => (b3 k hk).trans (a3 k hk), b4⟩

/-- Roles are unchanged or pruned. -/
def Prunes (g : GenEnv) (name kid : String) (d d' : Dir) : Prop :=
  ∀ p, (p = .targets ∨ ∃ n, p = .delegation n) → d'.files.lookup p = d.files.lookup p ∨ ∃ b b', Signed g d p b ∧ Signed g d' p b' ∧ Pruned name kid b b'

theorem Prunes.refl {g : GenEnv} {name kid : String} (d : Dir) : Prunes g name kid d d := fun _ _ => .inl rfl

theorem Prunes.trans {g : GenEnv} {name kid : String} {a b c : Dir} (h1 : Prunes g name kid a b) (h2 : Prunes g name kid b c) : Prunes g name kid a c := by
  intro p hp
  rcases h1 p hp with e1 | ⟨x, y, s1, s2, s3⟩ <;> rcases h2 p hp with e2 | ⟨u, w, t1, t2, t3⟩
  · exact .inl (e2.trans e1)
  · exact .inr ⟨u, w, signed_same t1 e1.symm, t2, t3⟩
  · exact .inr ⟨x, y, s1, signed_same s2 e2, s3⟩
  · have := signed_det s2 t1
    subst this
    exact .inr ⟨x, w, s1, t2, pruned_trans s3 t3⟩

theorem isNamed_iff {name : String} {x : Json} : isNamed name x = true ↔ At x ["name"] (.str name) := by
  unfold isNamed
  constructor
  · intro h
    split at h
    · rename_i n hn
      rw [eq_of_beq h] at hn
      exact at_one hn
    · cases h
  · rintro ⟨c, h1, h2⟩
    cases h2
    rw [h1]
    simp

/-- Edges to other roles stay. -/
theorem delegatesTo_prunes {g : GenEnv} {name kid n : String} {d d' : Dir} {p : Path} (hp : p = .targets ∨ ∃ m, p = .delegation m) (h : Prunes g name kid d d') (hn : n ≠ name) :
    DelegatesTo g d p n ↔ DelegatesTo g d' p n := by
  rcases h p hp with he | ⟨b, b', s1, s2, s3⟩
  · constructor
    · rintro ⟨b, rs, x, h1, h2⟩
      exact ⟨b, rs, x, signed_same h1 he, h2⟩
    · rintro ⟨b, rs, x, h1, h2⟩
      exact ⟨b, rs, x, signed_same h1 he.symm, h2⟩
  · obtain ⟨rs, rs', r1, r2, r3⟩ := s3.roles
    have hneq : ∀ x, At x ["name"] (.str n) → isNamed name x = false := by
      intro x hx
      cases hc : isNamed name x with
      | false => rfl
      | true =>
        have := at_det hx (isNamed_iff.1 hc)
        injection this with this
        exact absurd this hn
    constructor
    · rintro ⟨c, rs0, x, h1, h2, h3, h4⟩
      have := signed_det h1 s1
      subst this
      have := at_det h2 r1
      subst this
      refine ⟨b', rs', x, s2, r2, ?_, h4⟩
      rw [r3]
      exact List.mem_filter.2 ⟨h3, by simp [hneq x h4]⟩
    · rintro ⟨c, rs0, x, h1, h2, h3, h4⟩
      have := signed_det h1 s2
      subst this
      have := at_det h2 r2
      subst this
      rw [r3] at h3
      exact ⟨b, rs, x, s1, r1, (List.mem_filter.1 h3).1, h4⟩

/-- What is clean stays clean. -/
theorem clean_prunes {g : GenEnv} {name kid : String} {d d' : Dir} {p : Path} (hp : p = .targets ∨ ∃ m, p = .delegation m) (h : Prunes g name kid d d')
    (hc : ¬ DelegatesTo g d p name) : ¬ DelegatesTo g d' p name := by
  rintro ⟨b0, rs0, x, h1, h2, h3, h4⟩
  rcases h p hp with he | ⟨b, b', s1, s2, s3⟩
  · exact hc ⟨b0, rs0, x, signed_same h1 he.symm, h2, h3, h4⟩
  · obtain ⟨rs, rs', r1, r2, r3⟩ := s3.roles
    have := signed_det h1 s2
    subst this
    have := at_det h2 r2
    subst this
    rw [r3] at h3
    have := (List.mem_filter.1 h3).2
    rw [isNamed_iff.2 h4] at this
    cases this

/-- Reached without going through `name`. -/
inductive Below (g : GenEnv) (d : Dir) (name : String) : Path → Path → Prop where
  | refl (p : Path) : Below g d name p p
  | step {p q : Path} {n : String} : DelegatesTo g d p n → n ≠ name → Below g d name (.delegation n) q → Below g d name p q

theorem Below.prunes {g : GenEnv} {name kid : String} {d d' : Dir} (h : Prunes g name kid d d') {p q : Path} (hb : Below g d name p q) (hp : p = .targets ∨ ∃ m, p = .delegation m) :
    Below g d' name p q := by
  induction hb with
  | refl p => exact .refl p
  | step h1 h2 _ ih => exact .step ((delegatesTo_prunes hp h h2).1 h1) h2 (ih (.inr ⟨_, rfl⟩))

theorem Below.role {g : GenEnv} {name : String} {d : Dir} {p q : Path} (hb : Below g d name p q) (hp : p = .targets ∨ ∃ m, p = .delegation m) : q = .targets ∨ ∃ m, q = .delegation m := by
  induction hb with
  | refl p => exact hp
  | step _ _ _ ih => exact ih (.inr ⟨_, rfl⟩)

theorem pathOf_role (role : Role) : pathOf role = .targets ∨ ∃ m, pathOf role = .delegation m :=
  (pathOf_cases role).imp id (fun h => ⟨_, h⟩)

theorem removeDelegation_effect {g : GenEnv} (hg : Sound g) {name : String} {pub : PublicKey} : ∀ (n : Nat),
    (∀ {d d' : Dir} {parent : Role}, Base g d → Keyed (some name) d → Listed parent → parent.name ≠ name →
      removeDelegation g name pub n d parent = .ok d' →
      Prunes g name (g.keyId pub) d d' ∧ ∀ q, Below g d name (pathOf parent) q → ¬ DelegatesTo g d' q name) ∧
    (∀ (l : List Json) {d d' : Dir} {l' : List Json}, Base g d → Keyed (some name) d → (∀ x ∈ l, ∃ nm, At x ["name"] (.str nm)) →
      removeFrom name (removeDelegation g name pub n) d l = .ok (d', l') →
      Prunes g name (g.keyId pub) d d' ∧ l' = l.filter (fun x => !isNamed name x) ∧
      ∀ x ∈ l, ∀ nm, At x ["name"] (.str nm) → nm ≠ name → ∀ q, Below g d name (.delegation nm) q → ¬ DelegatesTo g d' q name) := by
  have step : ∀ n, (∀ {d d' : Dir} {parent : Role}, Base g d → Keyed (some name) d → Listed parent → parent.name ≠ name →
      removeDelegation g name pub n d parent = .ok d' →
      Prunes g name (g.keyId pub) d d' ∧ ∀ q, Below g d name (pathOf parent) q → ¬ DelegatesTo g d' q name) →
    (∀ (l : List Json) {d d' : Dir} {l' : List Json}, Base g d → Keyed (some name) d → (∀ x ∈ l, ∃ nm, At x ["name"] (.str nm)) →
      removeFrom name (removeDelegation g name pub n) d l = .ok (d', l') →
      Prunes g name (g.keyId pub) d d' ∧ l' = l.filter (fun x => !isNamed name x) ∧
      ∀ x ∈ l, ∀ nm, At x ["name"] (.str nm) → nm ≠ name → ∀ q, Below g d name (.delegation nm) q → ¬ DelegatesTo g d' q name) := by
    intro n first l
    induction l with
    | nil =>
      intro d d' l' hb hk _ h
      unfold removeFrom at h
      cases h
      exact ⟨.refl _, rfl, by simp⟩
    | cons r rs ih =>
      intro d d' l' hb hk hnm h
      have hnm' : ∀ x ∈ rs, ∃ nm, At x ["name"] (.str nm) := fun x hx => hnm x (List.mem_cons_of_mem _ hx)
      obtain ⟨rn, c, hrn, hc⟩ := hnm r List.mem_cons_self
      cases hc
      unfold removeFrom at h
      rw [hrn, exc_bind_of_ok, show (Json.str rn).asString = .ok rn from rfl, exc_bind_of_ok] at h
      by_cases hne : rn = name
      · rw [if_neg (by simpa using hne)] at h
        obtain ⟨v1, v2, v3⟩ := ih hb hk hnm' h
        have hnamed : isNamed name r = true := isNamed_iff.2 (by rw [← hne]; exact at_one hrn)
        refine ⟨v1, by rw [List.filter_cons, hnamed]; exact v2, ?_⟩
        intro x hx nm hxn hxne
        rcases List.mem_cons.1 hx with rfl | hx
        · have := at_det hxn (at_one hrn)
          cases this
          exact absurd hne hxne
        · exact v3 x hx nm hxn hxne
      · rw [if_pos hne] at h
        obtain ⟨role, hrole, h⟩ := exc_bind_ok.1 h
        obtain ⟨d1, h1, h⟩ := exc_bind_ok.1 h
        obtain ⟨⟨d2, l2⟩, h2, h⟩ := exc_bind_ok.1 h
        cases h
        obtain ⟨hl, hn⟩ := listed_of hrole
        obtain ⟨w, -, -⟩ := (removeDelegation_ok hg n).1 hb hk hl (by rw [hn]; exact hne) h1
        obtain ⟨w1, w2⟩ := first hb hk hl (by rw [hn]; exact hne) h1
        obtain ⟨v1, v2, v3⟩ := ih w.base w.keyed hnm' h2
        have hnamed : isNamed name r = false := by
          cases hcase : isNamed name r with
          | false => rfl
          | true =>
            have := at_det (at_one hrn) (isNamed_iff.1 hcase)
            injection this with this
            exact absurd this hne
        have hpath : pathOf role = .delegation rn := by
          rw [(delegation_ok hrole).1]
          rfl
        refine ⟨w1.trans v1, by rw [List.filter_cons, hnamed, v2]; rfl, ?_⟩
        intro x hx nm hxn hxne q hq
        rcases List.mem_cons.1 hx with rfl | hx
        · have := at_det hxn (at_one hrn)
          cases this
          rw [hpath] at w2
          exact clean_prunes (hq.role (.inr ⟨_, rfl⟩)) v1 (w2 q hq)
        · exact v3 x hx nm hxn hxne q (hq.prunes w1 (.inr ⟨_, rfl⟩))
  intro n
  induction n with
  | zero =>
    have first : ∀ {d d' : Dir} {parent : Role}, Base g d → Keyed (some name) d → Listed parent → parent.name ≠ name →
      removeDelegation g name pub 0 d parent = .ok d' →
      Prunes g name (g.keyId pub) d d' ∧ ∀ q, Below g d name (pathOf parent) q → ¬ DelegatesTo g d' q name := by
      intro d d' parent hb hk hl hn h
      unfold removeDelegation at h
      cases h
    exact ⟨first, step 0 first⟩
  | succ n IH =>
    have first : ∀ {d d' : Dir} {parent : Role}, Base g d → Keyed (some name) d → Listed parent → parent.name ≠ name →
      removeDelegation g name pub (n + 1) d parent = .ok d' →
      Prunes g name (g.keyId pub) d d' ∧ ∀ q, Below g d name (pathOf parent) q → ¬ DelegatesTo g d' q name := by
      intro d d' parent hb hk hl hn h
      unfold removeDelegation at h
      obtain ⟨s, h1, h⟩ := exc_bind_ok.1 h
      obtain ⟨dl, h2, h⟩ := exc_bind_ok.1 h
      obtain ⟨ks, h3, h⟩ := exc_bind_ok.1 h
      obtain ⟨ks', h4, h⟩ := exc_bind_ok.1 h
      obtain ⟨s1, h5, h⟩ := exc_bind_ok.1 h
      obtain ⟨dl1, h6, h⟩ := exc_bind_ok.1 h
      obtain ⟨rs, h7, h⟩ := exc_bind_ok.1 h
      obtain ⟨⟨d1, l⟩, h8, h⟩ := exc_bind_ok.1 h
      dsimp only at h
      obtain ⟨s2, h9, h⟩ := exc_bind_ok.1 h
      obtain ⟨s3, h10, h⟩ := exc_bind_ok.1 h
      obtain ⟨⟨d2, text⟩, h11, h⟩ := exc_bind_ok.1 h
      cases h
      obtain ⟨w1, -, w3⟩ := (removeDelegation_ok hg n).2 _ hb hk h8
      obtain ⟨j, v, e, hj, hbody⟩ := role_there hg hb hk hl (by simpa using hn) w1.keys h11
      rw [h1] at hj
      cases hj
      obtain ⟨dl0, k1, k2⟩ := hbody.delegations
      rw [h2] at k1
      cases k1
      obtain ⟨dlx, dly, g1, g2, g3, g4, g5⟩ := setPath_two h5
      rw [h2] at g1
      cases g1
      rw [h6] at g2
      cases g2
      have hr0 : dl.get "roles" = .ok rs := by rw [← g4 _ (by decide)]; exact h7
      obtain ⟨hrs1, hrs2⟩ := roles_before k2 hr0
      obtain ⟨u1, u2, u3⟩ := IH.2 _ hb hk (by
        intro x hx
        obtain ⟨kid, nm, pth, tm, rfl, -⟩ := hrs2 x hx
        exact ⟨nm, at_one rfl⟩) h8
      obtain ⟨dlz, dl2, f1, f2, f3, f4, f5⟩ := setPath_two h9
      rw [h6] at f1
      cases f1
      have hv2 : s2.get "version" = .ok (.int v) := by
        rw [f5 _ (by decide), g5 _ (by decide)]
        exact hbody.version
      obtain ⟨-, hset⟩ := bump_ok hv2 hbody.range h10
      have hdl3 : s3.get "delegations" = .ok dl2 := ((setKey_ok hset).2.1 _ (by decide)).trans f2
      have hks3 : dl2.get "keys" = .ok ks' := (f4 _ (by decide)).trans g3
      have hpr : Pruned name (g.keyId pub) s s3 := by
        refine ⟨?_, ⟨v, v + 1, at_one hbody.version, at_one (setKey_ok hset).1, by omega⟩, ⟨rs, .arr l, at_cons h2 (at_one hr0), at_cons hdl3 (at_one f3), ?_⟩,
          ⟨ks, ks', at_cons h2 (at_one h3), at_cons hdl3 (at_one hks3), ?_, at_one (removeMember_ok h4).2.2⟩⟩
        · intro k hk
          rw [(setKey_ok hset).2.1 k (fun hh => hk (by simp [hh])), f5 k (fun hh => hk (by simp [hh])), g5 k (fun hh => hk (by simp [hh]))]
        · rw [elems_array]; exact u2
        · exact fun k hk => (removeMember_ok h4).2.1 k (by simpa using hk)
      have hcs : Canonical s3 := by
        obtain ⟨hks1, hks2⟩ := keys_before k2 h3
        have hcdl := get_canonical hbody.canonical h2
        have hcks := (removeMember_ok h4).1 (get_canonical hcdl h3)
        obtain ⟨dl', dl1', m1, m2, m3⟩ := setPath_cons h5
        rw [h2] at m1
        cases m1
        exact ((hbody.redelegate h2 m2 m3 h9 ⟨hcks, removeMember_keys h4 hks1 hks2⟩ ⟨.arr (by
          intro y hy
          have := w3 y hy
          obtain ⟨kid, nm, pth, tm, rfl, -⟩ := hrs2 y this
          exact roleItem_canonical ..), .inr ⟨_, rfl⟩, by
          intro r hr
          rw [elems_array] at hr
          exact hrs2 r (w3 r hr)⟩).bump' h10).canonical
      obtain ⟨x1, x2, x3, x4⟩ := writeSigned_ok h11 hcs
      have hs0 : Signed g d (pathOf parent) s := role_signed h1 hbody
      have hs3 : Signed g d2 (pathOf parent) s3 := signed_wrote hg x3 x1
      have hpre : Prunes g name (g.keyId pub) d d2 := by
        intro p hp
        by_cases hpp : p = pathOf parent
        · subst hpp
          exact .inr ⟨s, s3, hs0, hs3, hpr⟩
        · rcases u1 p hp with he | ⟨b, b', t1, t2, t3⟩
          · exact .inl ((x4 p hpp).trans he)
          · exact .inr ⟨b, b', t1, signed_same t2 (x4 p hpp), t3⟩
      have hown : ¬ DelegatesTo g d2 (pathOf parent) name := by
        rintro ⟨b0, rs0, x, y1, y2, y3, y4⟩
        have := signed_det y1 hs3
        subst this
        have := at_det y2 (at_cons hdl3 (at_one f3))
        subst this
        rw [elems_array, u2] at y3
        have := (List.mem_filter.1 y3).2
        rw [isNamed_iff.2 y4] at this
        cases this
      refine ⟨hpre, ?_⟩
      intro q hq
      by_cases hqp : q = pathOf parent
      · rw [hqp]; exact hown
      · cases hq with
        | refl => exact absurd rfl hqp
        | step e1 e2 e3 =>
          obtain ⟨b0, rs0, x, y1, y2, y3, y4⟩ := e1
          have := signed_det y1 hs0
          subst this
          have := at_det y2 (at_cons h2 (at_one hr0))
          subst this
          have hc := u3 x y3 _ y4 e2 q e3
          rintro ⟨b1, rs1, z, z1, z2⟩
          exact hc ⟨b1, rs1, z, signed_same z1 (x4 q hqp).symm, z2⟩
    exact ⟨first, step _ first⟩

theorem revokeTargets_effect {g : GenEnv} (hg : Sound g) {d d' : Dir} (hb : Base g d) (hk : Keyed none d) (hp : Plain g d) {bn tn : Json} (hn : At bn ["targets"] tn)
    (h : revokeTargets g d (tn.entries.map Prod.fst) = .ok d') :
    ∃ b b', Signed g d .targets b ∧ Signed g d' .targets b' ∧ Withdrawn bn b b' ∧ Unchanged d d' [.targets, .snapshot, .timestamp] := by
  unfold revokeTargets at h
  obtain ⟨text0, j, v, e, k1, k2, hbody⟩ := hb.targets
  have hsig := Dir.signed_of hg k1 k2
  rw [hsig, exc_bind_of_ok] at h
  obtain ⟨ts, h1, h⟩ := exc_bind_ok.1 h
  obtain ⟨s1, h2, h⟩ := exc_bind_ok.1 h
  obtain ⟨s2, h3, h⟩ := exc_bind_ok.1 h
  obtain ⟨⟨d1, text⟩, h4, h⟩ := exc_bind_ok.1 h
  dsimp only at h
  obtain ⟨ts0, a1, a2, a3⟩ := hbody.targets
  rw [h1] at a1
  cases a1
  have hcan := get_canonical hbody.canonical h1
  have hb1 := hbody.withTargets h2 (by split; exact .inl rfl; exact .inr ⟨_, rfl⟩)
    (by
      split
      · simp [Json.entries]
      · intro kv hkv
        exact a3 kv (List.mem_filter.1 (show kv ∈ List.filter _ _ from hkv)).1)
    (by
      split
      · exact .null
      · rcases a2 with rfl | ⟨l, rfl⟩
        · exact .obj (by simp [Json.entries]) (by simp [Json.entries])
        · exact .obj (hcan.sorted.sublist List.filter_sublist) (fun kv hkv => hcan.members kv (List.mem_filter.1 hkv).1))
  have hb2 := hb1.bump' h3
  have h4' : writeSigned g d (pathOf Role.targets) Role.targets.name s2 = .ok (d1, text) := h4
  have hgood := put_good hb hk (.inl rfl) hb2 h4'
  obtain ⟨-, p2, p3, -⟩ := put_ok hb (.inl rfl) hb2 h4'
  obtain ⟨-, hset⟩ := bump_ok hb1.version hb1.range h3
  obtain ⟨-, -, q3⟩ := updateRepo_good hg hgood.base hgood.keyed h
  refine ⟨j, s2, signed_wrote hg k1 k2, signed_same (signed_wrote hg p3.1 p3.2) (q3.files _ (by simp) (by simp)), ⟨?_, ⟨v, at_one hbody.version, at_one hb2.version⟩, ?_⟩, ?_⟩
  · intro k hk
    rw [(setKey_ok hset).2.1 k (fun hh => hk (by simp [hh])), (setKey_ok h2).2.1 k (fun hh => hk (by simp [hh]))]
  · refine ⟨tn, ts, _, hn, at_one h1, at_one (((setKey_ok hset).2.1 _ (by decide)).trans (setKey_ok h2).1), ?_⟩
    split
    · rename_i hl
      exact hl.symm
    · rfl
  · intro q hq
    rw [q3.files q (fun hh => hq (by simp [hh])) (fun hh => hq (by simp [hh])), p2.files q (fun hh => hq (by rw [hh]; exact List.mem_cons_self))]

/-- From the top, a clean tree stays off `name`. -/
theorem inTree_below {g : GenEnv} {d : Dir} {name : String} (hc : ∀ q, Below g d name .targets q → ¬ DelegatesTo g d q name) {p : Path} (h : InTree g d p) : Below g d name .targets p := by
  have snoc : ∀ {a b : Path} {n : String}, Below g d name a b → DelegatesTo g d b n → n ≠ name → Below g d name a (.delegation n) := by
    intro a b n hab
    induction hab with
    | refl p => intro h1 h2; exact .step h1 h2 (.refl _)
    | step e1 e2 _ ih => intro h1 h2; exact .step e1 e2 (ih h1 h2)
  induction h with
  | top => exact .refl _
  | step _ h2 ih =>
    refine snoc ih h2 ?_
    rintro rfl
    exact hc _ ih h2

theorem delegatesTo_same {g : GenEnv} {d d' : Dir} {p : Path} {n : String} (h : d'.files.lookup p = d.files.lookup p) : DelegatesTo g d p n ↔ DelegatesTo g d' p n :=
  ⟨fun ⟨b, rs, x, h1, h2⟩ => ⟨b, rs, x, signed_same h1 h, h2⟩, fun ⟨b, rs, x, h1, h2⟩ => ⟨b, rs, x, signed_same h1 h.symm, h2⟩⟩

theorem Below.same {g : GenEnv} {d d' : Dir} {name : String} (h : ∀ p, (p = .targets ∨ ∃ m, p = .delegation m) → d'.files.lookup p = d.files.lookup p) {p q : Path}
    (hb : Below g d name p q) (hp : p = .targets ∨ ∃ m, p = .delegation m) : Below g d' name p q := by
  induction hb with
  | refl p => exact .refl p
  | step h1 h2 _ ih => exact .step ((delegatesTo_same (h _ hp)).1 h1) h2 (ih (.inr ⟨_, rfl⟩))

end Gen

open Gen

/-- **C73** `adddelegation`: the parent delegates to the new role, with its key, pattern and threshold 1, beside what it did
before; the new role has no targets yet. All else stays. -/
theorem C73_add_delegation {g : GenEnv} (hg : Sound g) {r r' : Repos} (hr : Reached g r) {name parent pattern : String} {terminating : Bool} {type : KeyType} {pub priv expires later : String}
    (hc : (Cmd.addDelegation name parent pattern terminating type pub priv expires later).Sensible g)
    (h : run g r (.addDelegation name parent pattern terminating type pub priv expires later) = .ok r') :
    ∃ p b b' b0, p = (if parent = "targets" then .targets else .delegation parent) ∧ r.image.files.lookup (.delegation name) = none ∧
      Signed g r.image p b ∧ Signed g r'.image p b' ∧ NewDelegation g name pattern terminating ⟨pub, type⟩ b b' ∧ VersionUp b b' ∧ SameBut b b' ["delegations", "version"] ∧
      Signed g r'.image (.delegation name) b0 ∧ At b0 ["targets"] (.obj []) ∧ At b0 ["version"] (.int 1) ∧ At b0 ["expires"] (.str (if expires = "" then later else expires)) ∧
      At b0 ["delegations"] .null ∧ r'.image.keys.lookup name = some ⟨⟨pub, type⟩, priv⟩ ∧
      Unchanged r.image r'.image [p, .delegation name, .snapshot, .timestamp] ∧ r'.director = r.director := by
  obtain ⟨-, -, hi⟩ := hr.sane hg
  obtain ⟨e, he, h⟩ := exc_bind_ok.1 h
  obtain ⟨d', hx, h'⟩ := exc_bind_ok.1 h
  injection h' with h'
  subst h'
  rw [← expirationTime_eq he]
  have htime := expirationTime_ok hc.2 he
  obtain ⟨hw, -⟩ := hc
  obtain ⟨hb, hk, -⟩ := hi
  revert hb hk hx
  generalize r.image = d
  intro hx hb hk
  unfold addDelegation at hx
  obtain ⟨role, h1, h⟩ := exc_bind_ok.1 hx
  obtain ⟨prole, h2, h⟩ := exc_bind_ok.1 h
  obtain ⟨_, h3, h⟩ := exc_bind_ok.1 h
  obtain ⟨_, h4, h⟩ := exc_bind_ok.1 h
  obtain ⟨_, h5, h⟩ := exc_bind_ok.1 h
  obtain ⟨dk, h6, h⟩ := exc_bind_ok.1 h
  obtain ⟨⟨d1, t1⟩, h7, h⟩ := exc_bind_ok.1 h
  dsimp only at h
  obtain ⟨s, h8, h⟩ := exc_bind_ok.1 h
  obtain ⟨s', h9, h⟩ := exc_bind_ok.1 h
  obtain ⟨⟨d2, t2⟩, h10, hup⟩ := exc_bind_ok.1 h
  dsimp only at hup
  rw [throwIf_ok] at h3 h5
  have hnew : d.keys.lookup name = none := by
    cases hl : d.keys.lookup name with
    | none => rfl
    | some _ => rw [hl] at h3; cases h3
  obtain ⟨hl, hname⟩ := listed_of h1
  have hres := (delegation_ok h1).2
  have hnt : ∀ r ∈ topRoles, r ≠ name := by
    intro r hr hrn
    have := reserved_top hr
    rw [hrn, hres] at this
    cases this
  have hpl : Listed prole ∧ pathOf prole = if parent = "targets" then .targets else .delegation parent := by
    by_cases hpt : parent = "targets"
    · rw [if_pos hpt] at h2 ⊢
      cases h2
      exact ⟨.inl rfl, rfl⟩
    · rw [if_neg hpt] at h2 ⊢
      refine ⟨(listed_of h2).1, ?_⟩
      rw [(delegation_ok h2).1]
      rfl
  obtain ⟨hpl, hppath⟩ := hpl
  have hnofile : d.files.lookup (.delegation name) = none := by
    cases hf : d.files.lookup (.delegation name) with
    | none => rfl
    | some text =>
      obtain ⟨-, j, v, e, ⟨-, _, kp, _, hkp, -⟩, -⟩ := hb.delegated _ _ hf
      rw [hnew] at hkp
      cases hkp
  obtain ⟨rfl, hgk⟩ := generateKeyPair_ok hw h6
  have hlk : ∀ r, r ≠ name → List.lookup r ((name, (⟨⟨pub, type⟩, priv⟩ : KeyPair)) :: d.keys.filter (fun k => k.1 ≠ name)) = d.keys.lookup r := by
    intro r hr
    rw [List.lookup_cons, beq_false_of_ne hr]
    exact lookup_filter_key hr _
  have hb0 : Base g { d with keys := (name, ⟨⟨pub, type⟩, priv⟩) :: d.keys.filter (fun k => k.1 ≠ name) } := by
    refine hb.rekey ?_ (fun r hr => hlk r (hnt r hr)) ?_
    · intro r kp hr
      by_cases hrn : r = name
      · subst hrn
        rw [List.lookup_cons_self] at hr
        cases hr
        exact hgk
      · rw [hlk r hrn] at hr
        exact hb.good r kp hr
    · intro n text hn
      refine hlk n ?_
      rintro rfl
      rw [hnofile] at hn
      cases hn
  have hk0 : Keyed (some name) { d with keys := (name, ⟨⟨pub, type⟩, priv⟩) :: d.keys.filter (fun k => k.1 ≠ name) } := by
    intro n kp a b c
    have hn : n ≠ name := fun hh => c (by rw [hh])
    rw [show List.lookup n ((name, (⟨⟨pub, type⟩, priv⟩ : KeyPair)) :: d.keys.filter (fun k => k.1 ≠ name)) = _ from hlk n hn] at a
    exact hk n kp a b (by simp)
  obtain ⟨p1, p2, p3, p4⟩ := put_ok hb0 hl (newTargets_body htime) (by rw [hname]; exact h7)
  have hpath : pathOf role = .delegation name := by
    rw [(delegation_ok h1).1]
    rfl
  rw [hpath] at p2 p3
  have hk1 : Keyed none d1 := by
    intro n kp a b c
    by_cases hn : n = name
    · subst hn
      exact ⟨t1, p3.1⟩
    · exact p4 _ hk0 n kp a b (by simpa using hn)
  obtain ⟨j, v, e', hj, hbody⟩ := role_there hg p1 hk1 hpl (by simp) rfl h10
  rw [h8] at hj
  cases hj
  have hbody' := withDelegation_ok hbody hres hw.known h9
  have hgood := put_good p1 hk1 hpl hbody' h10
  obtain ⟨-, q2, q3, -⟩ := put_ok p1 hpl hbody' h10
  obtain ⟨-, -, r3⟩ := updateRepo_good hg hgood.base hgood.keyed hup
  have hne : pathOf prole ≠ .delegation name := by
    intro hh
    rw [hh] at h5
    unfold Dir.has at h5
    rw [hnofile] at h5
    cases h5
  have hpn := pathOf_ne prole
  obtain ⟨e1, e2, e3⟩ := withDelegation_effect hbody hw.known h9
  refine ⟨pathOf prole, s, s', _, hppath, hnofile, signed_same (role_signed h8 hbody) (p2.files _ hne).symm, signed_same (signed_wrote hg q3.1 q3.2) (r3.files _ hpn.1 hpn.2), e1, e2, e3,
    signed_same (signed_wrote hg p3.1 p3.2) ((r3.files _ (by simp) (by simp)).trans (q2.files _ hne.symm)), at_one rfl, at_one rfl, at_one rfl, at_one rfl, ?_, ?_, rfl⟩
  · show d'.keys.lookup name = _
    rw [r3.keys, q2.keys, p2.keys]
    exact List.lookup_cons_self
  · intro q hq
    show d'.files.lookup q = _
    rw [r3.files q (fun hh => hq (by simp [hh])) (fun hh => hq (by simp [hh])), q2.files q (fun hh => hq (by simp [hh])), p2.files q (fun hh => hq (by simp [hh]))]

/-- **C73** `revokedelegation`: the role is gone with its key; no role reached from the top-level Targets delegates to it; the
others lose that delegation and its key and nothing else; the Director's published Targets lose the images of
the role and nothing else. -/
theorem C73_revoke_delegation {g : GenEnv} (hg : Sound g) {r r' : Repos} (hr : Reached g r) {name : String} (h : run g r (.revokeDelegation name) = .ok r') :
    ∃ key bn b b', r.image.keys.lookup name = some key ∧ Signed g r.image (.delegation name) bn ∧
      r'.image.files.lookup (.delegation name) = none ∧ r'.image.keys.lookup name = none ∧
      (∀ p, InTree g r'.image p → ¬ DelegatesTo g r'.image p name) ∧
      (∀ p, p = .targets ∨ (∃ n, n ≠ name ∧ p = .delegation n) → r'.image.files.lookup p = r.image.files.lookup p ∨
        ∃ c c', Signed g r.image p c ∧ Signed g r'.image p c' ∧ Pruned name (g.keyId key.pub) c c') ∧
      (∀ p, p ≠ .targets → (∀ n, p ≠ .delegation n) → p ≠ .snapshot → p ≠ .timestamp → r'.image.files.lookup p = r.image.files.lookup p) ∧
      Signed g r.director .targets b ∧ Signed g r'.director .targets b' ∧ Withdrawn bn b b' ∧ Unchanged r.director r'.director [.targets, .snapshot, .timestamp] := by
  obtain ⟨hd, hp, hi⟩ := hr.sane hg
  obtain ⟨ns, h1, h⟩ := exc_bind_ok.1 h
  obtain ⟨dd, h2, h⟩ := exc_bind_ok.1 h
  obtain ⟨di, h3, h⟩ := exc_bind_ok.1 h
  injection h with h
  subst h
  unfold getDelegationTargets at h1
  obtain ⟨bn, h4, h1⟩ := exc_bind_ok.1 h1
  obtain ⟨tn, h5, h1⟩ := exc_bind_ok.1 h1
  injection h1 with h1
  subst h1
  obtain ⟨b, b', e1, e2, e3, e4⟩ := revokeTargets_effect hg hd.base hd.keyed hp (at_one h5) h2
  unfold revokeDelegation at h3
  obtain ⟨role, h6, h⟩ := exc_bind_ok.1 h3
  cases hkey : r.image.keys.lookup name with
  | none => rw [hkey] at h; cases h
  | some key =>
    rw [hkey] at h
    dsimp only at h
    obtain ⟨_, h7, h⟩ := exc_bind_ok.1 h
    obtain ⟨d1, h8, h⟩ := exc_bind_ok.1 h
    obtain ⟨d2, h9, h⟩ := exc_bind_ok.1 h
    injection h with h
    subst h
    have hres := (delegation_ok h6).2
    have hnt : ∀ r ∈ topRoles, r ≠ name := by
      intro r hr hrn
      have := reserved_top hr
      rw [hrn, hres] at this
      cases this
    have hb0 := hi.base.remove (p := .delegation name) (.inl ⟨_, rfl⟩)
    have hk0 : Keyed (some name) (r.image.remove (.delegation name)) := by
      intro n kp a b c
      rw [lookup_remove_other (by simpa using c)]
      exact hi.keyed n kp a b (by simp)
    obtain ⟨w, -, -⟩ := (removeDelegation_ok hg _).1 hb0 hk0 (.inl rfl) (hnt "targets" (by decide)) h8
    obtain ⟨z1, z2⟩ := (removeDelegation_effect hg _).1 hb0 hk0 (.inl rfl) (hnt "targets" (by decide)) h8
    obtain ⟨-, -, r2, -, -⟩ := updateRepo_ok hg w.base h9
    have hfile : ∀ p, p ≠ Path.snapshot → p ≠ Path.timestamp → d2.files.lookup p = d1.files.lookup p := fun p a b => r2.files p a b
    have hroles : ∀ p, (p = Path.targets ∨ ∃ m, p = Path.delegation m) → d2.files.lookup p = d1.files.lookup p := by
      rintro p (rfl | ⟨m, rfl⟩) <;> exact hfile _ (by simp) (by simp)
    obtain ⟨text, hfl⟩ := hi.keyed name key hkey (fun hh => hnt name hh rfl) (by simp)
    refine ⟨key, bn, b, b', rfl, signed_text hfl h4, ?_, lookup_filter_gone _, ?_, ?_, ?_, e1, e2, e3, e4⟩
    · exact (hfile _ (by simp) (by simp)).trans (w.gone lookup_remove_same)
    · have hclean : ∀ q, Below g d1 name .targets q → ¬ DelegatesTo g d1 q name := by
        intro q hq
        refine z2 q ?_
        have hback : ∀ {p q : Path}, Below g d1 name p q → (p = .targets ∨ ∃ m, p = .delegation m) → Below g (r.image.remove (.delegation name)) name p q := by
          intro p q hb hp
          induction hb with
          | refl p => exact .refl p
          | step h1 h2 _ ih => exact .step ((delegatesTo_prunes hp z1 h2).2 h1) h2 (ih (.inr ⟨_, rfl⟩))
        exact hback hq (.inl rfl)
      have hclean2 : ∀ q, Below g d2 name .targets q → ¬ DelegatesTo g d2 q name := by
        intro q hq hd2
        have hq1 := hq.same (d' := d1) (fun p hp => (hroles p hp).symm) (.inl rfl)
        exact hclean q hq1 ((delegatesTo_same (hroles q (hq.role (.inl rfl)))).2 hd2)
      intro p hp
      have hp2 : InTree g d2 p := by
        induction hp with
        | top => exact .top
        | step _ h2 ih => exact .step ih ⟨_, _, _, h2.choose_spec.choose_spec.choose_spec.1, h2.choose_spec.choose_spec.choose_spec.2⟩
      have := hclean2 p (inTree_below hclean2 hp2)
      rintro ⟨c, rs, x, y⟩
      exact this ⟨c, rs, x, y⟩
    · intro p hp
      have hp' : p = .targets ∨ ∃ m, p = .delegation m := hp.imp id (fun ⟨n, _, hn⟩ => ⟨n, hn⟩)
      have hsame : (r.image.remove (.delegation name)).files.lookup p = r.image.files.lookup p := by
        refine lookup_remove_other ?_
        rcases hp with rfl | ⟨n, hn, rfl⟩
        · simp
        · simpa using hn
      rcases z1 p hp' with he | ⟨c, c', y1, y2, y3⟩
      · exact .inl ((hroles p hp').trans (he.trans hsame))
      · exact .inr ⟨c, c', signed_same y1 hsame.symm, signed_same y2 (hroles p hp'), y3⟩
    · intro p a1 a2 a3 a4
      show d2.files.lookup p = _
      rw [hfile p a3 a4, w.files p a1 a2]
      exact lookup_remove_other (a2 name)

namespace Gen

theorem under_snoc {g : GenEnv} {d : Dir} {a b c : Role} (h : Under g d a b) (hl : Lists g d b c) : Under g d a c := by
  induction h with
  | refl p => exact .step hl (.refl _)
  | step h1 _ ih => exact .step h1 (ih hl)

theorem signed_model {g : GenEnv} {d : Dir} {p : Path} {b : Json} (h : Signed g d p b) : d.signed g p = .ok b := by
  obtain ⟨t, h1, x, h2, h3⟩ := h
  cases h3
  unfold Dir.signed Dir.json
  rw [h1]
  exact h2

/-- The roles of the tree as the generator walks it. -/
theorem inTree_under {g : GenEnv} (hg : Sound g) {d : Dir} (hb : Base g d) {p : Path} (h : InTree g d p) :
    ∃ role, Listed role ∧ pathOf role = p ∧ Under g d Role.targets role ∧ fileName p = role.name ++ ".json" := by
  induction h with
  | top => exact ⟨Role.targets, .inl rfl, rfl, .refl _, rfl⟩
  | @step p n _ h2 ih =>
    obtain ⟨role, h3, h4, h5, -⟩ := ih
    obtain ⟨b, rs, x, k1, ⟨dl, k2, rs', k3, k4⟩, k5, nj, k6, k7⟩ := h2
    cases k4
    cases k7
    have hm := signed_model k1
    obtain ⟨v, e, hbody⟩ : ∃ v e, TargetsBody b v e := by
      obtain ⟨text, t1, -⟩ := k1
      rcases h3.cases with hc | ⟨hc, -⟩
      · subst hc
        cases h4
        obtain ⟨text', j, v, e, a1, a2, a3⟩ := hb.targets
        have := Dir.signed_of hg a1 a2
        rw [show d.signed g .targets = _ from hm] at this
        cases this
        exact ⟨v, e, a3⟩
      · rw [← h4, hc] at t1 hm
        obtain ⟨-, j, v, e, a2, a3⟩ := hb.delegated _ _ t1
        have := Dir.signed_of hg t1 a2
        rw [hm] at this
        cases this
        exact ⟨v, e, a3⟩
    have hres : Role.isReserved (lower n) = false := by
      obtain ⟨dl', a1, a2⟩ := hbody.delegations
      rw [k2] at a1
      cases a1
      rcases a2 with rfl | a2
      · cases k3
        simp [Json.elems, Json.entries] at k5
      · obtain ⟨rs', b1, -, b2⟩ := a2.roles
        rw [k3] at b1
        cases b1
        obtain ⟨kid, name, path, term, rfl, b3⟩ := b2 x k5
        cases k6
        exact b3
    have hrole : Role.delegation n = .ok ⟨.delegation, n⟩ := by
      unfold Role.delegation
      rw [if_neg (by rw [hres]; decide)]
    refine ⟨⟨.delegation, n⟩, .inr hrole, rfl, under_snoc h5 ⟨b, dl, _, x, _, n, ?_, k2, k3, k5, k6, rfl, hrole⟩, rfl⟩
    rw [h4]
    exact hm

end Gen

/-- **C73** After any commands, the Snapshot of each repository lists every role that is reached from its Targets, in the
version that is published. -/
theorem C73_snapshot {g : GenEnv} (hg : Sound g) {r : Repos} (hr : Reached g r) {repo : Repo} {p : Gen.Path} {b : Json} {v : Int} (hp : InTree g (dirOf r repo) p)
    (hs : Signed g (dirOf r repo) p b) (hv : At b ["version"] (.int v)) :
    ∃ s, Signed g (dirOf r repo) .snapshot s ∧ At s ["meta", fileName p, "version"] (.int v) := by
  have hf : Base g (dirOf r repo) ∧ Gen.Synced g (dirOf r repo) := by
    have := hr.sane hg
    match repo with
    | .director => exact ⟨this.director.base, this.director.synced⟩
    | .image => exact ⟨this.image.base, this.image.synced⟩
  obtain ⟨hb, a, m, vs, es, t, vt, et, k1, k2, k3, k4, -⟩ := hf
  obtain ⟨role, h1, h2, h3, h4⟩ := inTree_under hg hb hp
  obtain ⟨x, hx⟩ := k4 role h3
  refine ⟨_, signed_wrote hg k1 k2, _, rfl, x, ?_, ?_⟩
  · rw [h4]
    show Except.ok ((m.lookup _).getD .null) = _
    rw [hx]
    rfl
  · rcases k3 _ (Gen.lookup_mem hx) with ⟨a1, -⟩ | ⟨role', v', a1, a2, a3, a4⟩
    · exact absurd (dotJson_inj (a1.trans (show "root.json" = "root" ++ ".json" from rfl))) h1.name
    · have hname : role.name = role'.name := dotJson_inj a2
      have hrole : role' = role := by
        rcases h1 with rfl | h1 <;> rcases a1 with rfl | a1
        · rfl
        · rw [← hname] at a1; cases a1
        · rw [hname] at h1; cases h1
        · rw [hname, a1] at h1; cases h1; rfl
      subst hrole
      have hm := signed_model hs
      obtain ⟨w, w1, w2⟩ := hv
      cases w2
      have : v' = v := by
        rcases a4 with ⟨j, b1, b2, -⟩ | ⟨b1, -⟩
        · rw [h2, hm] at b1
          cases b1
          rw [w1] at b2
          cases b2
          rfl
        · obtain ⟨text, t1, -⟩ := hs
          rw [h2, t1] at b1
          cases b1
      subst this
      rw [show x = _ from a3]
      exact at_one rfl

end Aktualizr
