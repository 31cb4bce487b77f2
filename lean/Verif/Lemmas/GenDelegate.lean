import Verif.Lemmas.GenPut

/-! # Lemmas on the generator: delegations -/

namespace Aktualizr.Gen

open Spec

theorem toUptane_canonical (k : PublicKey) : Canonical (toUptane k) := by
  refine .obj (by simp; decide) ?_
  intro kv hkv
  simp at hkv
  rcases hkv with rfl | rfl
  · exact .str _
  · refine .obj (by simp) ?_
    intro kv hkv
    rw [List.mem_singleton.1 hkv]
    exact .str _

theorem roleItem_canonical (kid name path : String) (term : Bool) :
    Canonical (.obj [("keyids", .arr [.str kid]), ("name", .str name), ("paths", .arr [.str path]), ("terminating", .bool term), ("threshold", .int 1)]) := by
  refine .obj (by simp; decide) ?_
  intro kv hkv
  simp at hkv
  rcases hkv with rfl | rfl | rfl | rfl | rfl
  · exact .arr (by simpa using .str _)
  · exact .str _
  · exact .arr (by simpa using .str _)
  · exact .bool _
  · exact .int (by decide) (by decide)

/-- The keys part as it is before the change. -/
theorem keys_before {dl ks : Json} (h : dl = .null ∨ DelegationsOk dl) (hk : dl.get "keys" = .ok ks) :
    (ks = .null ∨ ∃ l, ks = .obj l) ∧ ∀ kv ∈ ks.entries, ∃ k : PublicKey, kv.2 = toUptane k ∧ k.type ≠ .unknown := by
  rcases h with rfl | h
  · cases hk
    exact ⟨.inl rfl, by simp [Json.entries]⟩
  · obtain ⟨k0, h1, h2⟩ := h.keys
    rw [hk] at h1
    cases h1
    exact h2

theorem roles_before {dl rs : Json} (h : dl = .null ∨ DelegationsOk dl) (hk : dl.get "roles" = .ok rs) :
    (rs = .null ∨ ∃ l, rs = .arr l) ∧ ∀ r ∈ rs.elems, ∃ kid name path term,
      r = .obj [("keyids", .arr [.str kid]), ("name", .str name), ("paths", .arr [.str path]), ("terminating", .bool term), ("threshold", .int 1)] ∧
      Role.isReserved (lower name) = false := by
  rcases h with rfl | h
  · cases hk
    exact ⟨.inl rfl, by simp [Json.elems, Json.entries]⟩
  · obtain ⟨k0, h1, h2⟩ := h.roles
    rw [hk] at h1
    cases h1
    exact h2

theorem withDelegation_ok {g : GenEnv} {j j' : Json} {v : Int} {e name pattern : String} {term : Bool} {pub : PublicKey} (h : TargetsBody j v e)
    (hn : Role.isReserved (lower name) = false) (hp : pub.type ≠ .unknown) (hw : withDelegation g j name pattern term pub = .ok j') :
    TargetsBody j' (v + 1) e := by
  unfold withDelegation at hw
  obtain ⟨p, h1, hw⟩ := exc_bind_ok.1 hw
  obtain ⟨dl1, h2, hw⟩ := exc_bind_ok.1 hw
  obtain ⟨r0, h3, hw⟩ := exc_bind_ok.1 hw
  obtain ⟨rs, h4, hw⟩ := exc_bind_ok.1 hw
  obtain ⟨p2, h5, hw⟩ := exc_bind_ok.1 hw
  obtain ⟨dl, dl1', g1, g2, g3⟩ := setPath_cons h1
  have := (setKey_ok g3).1
  rw [h2] at this
  cases this
  obtain ⟨dl0, k1, k2⟩ := h.delegations
  rw [g1] at k1
  cases k1
  obtain ⟨ks, ks', a1, a2, a3⟩ := setPath_cons g2
  obtain ⟨x, x', b1, b2, b3⟩ := setPath_cons a2
  cases b2
  obtain ⟨hks1, hks2⟩ := keys_before k2 a1
  have hcdl := get_canonical h.canonical g1
  have hcks := (setKey_ok b3).2.2.2 (get_canonical hcdl a1) (toUptane_canonical pub)
  have hr0 : dl.get "roles" = .ok r0 := by rw [← (setKey_ok a3).2.1 _ (by decide)]; exact h3
  obtain ⟨hrs1, hrs2⟩ := roles_before k2 hr0
  obtain ⟨c1, c2, c3⟩ := append_ok h4
  refine (h.redelegate g1 (ks := ks') (dl1 := dl1) ?_ g3 h5 ⟨hcks, .inr (setKey_ok b3).2.2.1, ?_⟩ ⟨c1 (get_canonical hcdl hr0) (roleItem_canonical ..), .inr c3, ?_⟩).bump' hw
  · unfold setPath
    exact exc_bind_ok.2 ⟨ks, a1, exc_bind_ok.2 ⟨ks', rfl, a3⟩⟩
  · rcases hks1 with rfl | ⟨l, rfl⟩
    · cases b3
      intro kv hkv
      have : kv = (g.keyId pub, toUptane pub) := by simpa [Json.entries] using hkv
      exact ⟨pub, by rw [this], hp⟩
    · cases b3
      intro kv hkv
      rcases insertKey_mem (show kv ∈ insertKey _ _ _ from hkv) with rfl | hkv
      · exact ⟨pub, rfl, hp⟩
      · exact hks2 kv hkv
  · intro r hr
    rw [c2] at hr
    rcases List.mem_append.1 hr with hr | hr
    · exact hrs2 r hr
    · rw [List.mem_singleton.1 hr]
      exact ⟨_, _, _, _, rfl, hn⟩

theorem newTargets_body {e : String} (he : IsTime e) :
    TargetsBody (.obj [("_type", .str "Targets"), ("expires", .str e), ("targets", .obj []), ("version", .int 1)]) 1 e := by
  refine ⟨?_, rfl, rfl, by omega, rfl, he, ⟨.obj [], rfl, .inr ⟨_, rfl⟩, by simp [Json.entries]⟩, ⟨.null, rfl, .inl rfl⟩, ⟨.null, rfl, .inl rfl⟩⟩
  refine .obj (by simp; decide) ?_
  intro kv hkv
  simp at hkv
  rcases hkv with rfl | rfl | rfl | rfl
  · exact .str _
  · exact .str _
  · exact .obj (by simp) (by simp)
  · exact .int (by decide) (by decide)

/-- Adding a delegation. -/
theorem addDelegation_ok {g : GenEnv} (hg : Sound g) {d d' : Dir} (hb : Base g d) (hk : Keyed none d) {name parent pattern : String} {term : Bool} {type : KeyType}
    {pub priv e : String} (hw : Works g ⟨⟨pub, type⟩, priv⟩) (he : IsTime e) (h : addDelegation g d name parent pattern term type pub priv e = .ok d') :
    Good g d d' ∧ Synced g d' ∧ Later g .targets d d' := by
  unfold addDelegation at h
  obtain ⟨role, h1, h⟩ := exc_bind_ok.1 h
  obtain ⟨prole, h2, h⟩ := exc_bind_ok.1 h
  obtain ⟨_, h3, h⟩ := exc_bind_ok.1 h
  obtain ⟨_, h4, h⟩ := exc_bind_ok.1 h
  obtain ⟨_, h5, h⟩ := exc_bind_ok.1 h
  obtain ⟨dk, h6, h⟩ := exc_bind_ok.1 h
  obtain ⟨⟨d1, t1⟩, h7, h⟩ := exc_bind_ok.1 h
  dsimp only at h
  obtain ⟨s, h8, h⟩ := exc_bind_ok.1 h
  obtain ⟨s', h9, h⟩ := exc_bind_ok.1 h
  obtain ⟨⟨d2, t2⟩, h10, hup⟩ := exc_bind_ok.1 h
  dsimp only at hup
  rw [throwIf_ok] at h3
  have hnew : d.keys.lookup name = none := by
    cases hl : d.keys.lookup name with
    | none => rfl
    | some _ => rw [hl] at h3; cases h3
  obtain ⟨hl, hname⟩ := listed_of h1
  have hres := (delegation_ok h1).2
  have hnt : ∀ r ∈ topRoles, r ≠ name := by
    intro r hr hrn
    have := reserved_top hr
    rw [hrn, hres] at this
    cases this
  have hpl : Listed prole := by
    split at h2
    · cases h2; exact .inl rfl
    · exact (listed_of h2).1
  obtain ⟨rfl, hgk⟩ := generateKeyPair_ok hw h6
  -- the new key
  have hlk : ∀ r, r ≠ name → List.lookup r ((name, (⟨⟨pub, type⟩, priv⟩ : KeyPair)) :: d.keys.filter (fun k => k.1 ≠ name)) = d.keys.lookup r := by
    intro r hr
    rw [List.lookup_cons, beq_false_of_ne hr]
    exact lookup_filter_key hr _
  have hb0 : Base g { d with keys := (name, ⟨⟨pub, type⟩, priv⟩) :: d.keys.filter (fun k => k.1 ≠ name) } := by
    refine hb.rekey ?_ (fun r hr => hlk r (hnt r hr)) ?_
    · intro r kp hr
      by_cases hrn : r = name
      · subst hrn
        rw [List.lookup_cons_self] at hr
        cases hr
        exact hgk
      · rw [hlk r hrn] at hr
        exact hb.good r kp hr
    · intro n text hn
      refine hlk n ?_
      intro hnn
      subst hnn
      obtain ⟨-, j, v, e, ⟨-, _, kp, _, hkp, -⟩, -⟩ := hb.delegated _ _ hn
      rw [hnew] at hkp
      cases hkp
  have hk0 : Keyed (some name) { d with keys := (name, ⟨⟨pub, type⟩, priv⟩) :: d.keys.filter (fun k => k.1 ≠ name) } := by
    intro n kp a b c
    have hn : n ≠ name := fun hh => c (by rw [hh])
    rw [show List.lookup n ((name, (⟨⟨pub, type⟩, priv⟩ : KeyPair)) :: d.keys.filter (fun k => k.1 ≠ name)) = _ from hlk n hn] at a
    exact hk n kp a b (by simp)
  obtain ⟨p1, p2, p3, p4⟩ := put_ok hb0 hl (newTargets_body he) (by rw [hname]; exact h7)
  have hpath : pathOf role = .delegation name := by
    rcases hl.cases with hh | ⟨hh, -⟩
    · rw [hh] at hname
      exact absurd hname (hnt "targets" (by decide))
    · rw [hh, hname]
  rw [hpath] at p2 p3
  have hk1 : Keyed none d1 := by
    intro n kp a b c
    by_cases hn : n = name
    · subst hn
      exact ⟨t1, p3.1⟩
    · exact p4 _ hk0 n kp a b (by simpa using hn)
  obtain ⟨j, v, e', hj, hbody⟩ := role_there hg p1 hk1 hpl (by simp) rfl h10
  rw [h8] at hj
  cases hj
  have hbody' := withDelegation_ok hbody hres hw.known h9
  have hgood := put_good p1 hk1 hpl hbody' h10
  obtain ⟨-, q2, q3, -⟩ := put_ok p1 hpl hbody' h10
  obtain ⟨r1, r2, r3⟩ := updateRepo_good hg hgood.base hgood.keyed hup
  have hg1 : Good g d d1 := by
    refine ⟨p1, hk1, .of_same (fun r hr => ?_) (fun v => p2.files _ (by simp)) (p2.files _ (by simp)), .inl (p2.files _ (by simp)), .inl (p2.files _ (by simp))⟩
    rw [p2.keys]
    exact hlk r (hnt r hr)
  refine ⟨(hg1.trans hgood).trans r1, r2, ?_⟩
  have ht1 : d1.files.lookup .targets = d.files.lookup .targets := p2.files _ (by simp)
  by_cases hp : pathOf prole = .targets
  · rw [hp] at q3 h8
    refine .inr ⟨v, v + 1, ?_, ?_, by omega⟩
    · exact VersionAt.congr ht1.symm ⟨_, h8, hbody.version, hbody.range⟩
    · exact (signed_at hg q3.1 q3.2 hbody'.version hbody'.range).congr (r3.files _ (by simp) (by simp))
  · exact .inl ((r3.files _ (by simp) (by simp)).trans ((q2.files _ (fun hh => hp hh.symm)).trans ht1))

/-! ### Revoking -/

/-- What the walk through the delegations may change: Targets roles. -/
structure Walk (g : GenEnv) (name : String) (d d' : Dir) : Prop where
  base : Base g d'
  keyed : Keyed (some name) d'
  keys : d'.keys = d.keys
  files : ∀ p, p ≠ .targets → (∀ n, p ≠ .delegation n) → d'.files.lookup p = d.files.lookup p
  gone : d.files.lookup (.delegation name) = none → d'.files.lookup (.delegation name) = none

theorem Walk.trans {g : GenEnv} {name : String} {a b c : Dir} (h1 : Walk g name a b) (h2 : Walk g name b c) : Walk g name a c :=
  ⟨h2.base, h2.keyed, h2.keys.trans h1.keys, fun p hp hq => (h2.files p hp hq).trans (h1.files p hp hq), fun h => h2.gone (h1.gone h)⟩

theorem removeMember_keys {ks ks' : Json} {k : String} (h : removeMember ks k = .ok ks') (h1 : ks = .null ∨ ∃ l, ks = .obj l)
    (h2 : ∀ kv ∈ ks.entries, ∃ k : PublicKey, kv.2 = toUptane k ∧ k.type ≠ .unknown) :
    (ks' = .null ∨ ∃ l, ks' = .obj l) ∧ ∀ kv ∈ ks'.entries, ∃ k : PublicKey, kv.2 = toUptane k ∧ k.type ≠ .unknown := by
  rcases h1 with rfl | ⟨l, rfl⟩
  · cases h
    exact ⟨.inl rfl, h2⟩
  · cases h
    exact ⟨.inr ⟨_, rfl⟩, fun kv hkv => h2 kv (List.mem_filter.1 hkv).1⟩

theorem removeDelegation_ok {g : GenEnv} (hg : Sound g) {name : String} {pub : PublicKey} : ∀ (n : Nat),
    (∀ {d d' : Dir} {parent : Role}, Base g d → Keyed (some name) d → Listed parent → parent.name ≠ name →
      removeDelegation g name pub n d parent = .ok d' →
      Walk g name d d' ∧ (parent ≠ Role.targets → d'.files.lookup .targets = d.files.lookup .targets) ∧ (parent = Role.targets → Later g .targets d d')) ∧
    (∀ (l : List Json) {d d' : Dir} {l' : List Json}, Base g d → Keyed (some name) d → removeFrom name (removeDelegation g name pub n) d l = .ok (d', l') →
      Walk g name d d' ∧ d'.files.lookup .targets = d.files.lookup .targets ∧ ∀ r ∈ l', r ∈ l) := by
  have step : ∀ n, (∀ {d d' : Dir} {parent : Role}, Base g d → Keyed (some name) d → Listed parent → parent.name ≠ name →
      removeDelegation g name pub n d parent = .ok d' →
      Walk g name d d' ∧ (parent ≠ Role.targets → d'.files.lookup .targets = d.files.lookup .targets) ∧ (parent = Role.targets → Later g .targets d d')) →
      (∀ (l : List Json) {d d' : Dir} {l' : List Json}, Base g d → Keyed (some name) d → removeFrom name (removeDelegation g name pub n) d l = .ok (d', l') →
      Walk g name d d' ∧ d'.files.lookup .targets = d.files.lookup .targets ∧ ∀ r ∈ l', r ∈ l) := by
    intro n first l
    induction l with
    | nil =>
      intro d d' l' hb hk h
      unfold removeFrom at h
      cases h
      exact ⟨⟨hb, hk, rfl, fun _ _ _ => rfl, id⟩, rfl, fun _ h => h⟩
    | cons r rs ih =>
      intro d d' l' hb hk h
      unfold removeFrom at h
      obtain ⟨nj, hnj, h⟩ := exc_bind_ok.1 h
      obtain ⟨nm, hnm, h⟩ := exc_bind_ok.1 h
      split at h
      · rename_i hne
        obtain ⟨role, hrole, h⟩ := exc_bind_ok.1 h
        obtain ⟨d1, h1, h⟩ := exc_bind_ok.1 h
        obtain ⟨⟨d2, l2⟩, h2, h⟩ := exc_bind_ok.1 h
        cases h
        obtain ⟨hl, hn⟩ := listed_of hrole
        obtain ⟨w1, w2, -⟩ := first hb hk hl (by rw [hn]; exact hne) h1
        have hnt : role ≠ Role.targets := by
          rw [(delegation_ok hrole).1]; intro hh; cases hh
        obtain ⟨v1, v2, v3⟩ := ih w1.base w1.keyed h2
        refine ⟨w1.trans v1, v2.trans (w2 hnt), ?_⟩
        intro x hx
        rcases List.mem_cons.1 hx with rfl | hx
        · exact List.mem_cons_self
        · exact List.mem_cons_of_mem _ (v3 x hx)
      · obtain ⟨v1, v2, v3⟩ := ih hb hk h
        exact ⟨v1, v2, fun x hx => List.mem_cons_of_mem _ (v3 x hx)⟩
  intro n
  induction n with
  | zero =>
    have first : ∀ {d d' : Dir} {parent : Role}, Base g d → Keyed (some name) d → Listed parent → parent.name ≠ name →
      removeDelegation g name pub 0 d parent = .ok d' →
      Walk g name d d' ∧ (parent ≠ Role.targets → d'.files.lookup .targets = d.files.lookup .targets) ∧ (parent = Role.targets → Later g .targets d d') := by
      intro d d' parent hb hk hl hn h
      unfold removeDelegation at h
      cases h
    exact ⟨first, step 0 first⟩
  | succ n IH =>
    have first : ∀ {d d' : Dir} {parent : Role}, Base g d → Keyed (some name) d → Listed parent → parent.name ≠ name →
      removeDelegation g name pub (n + 1) d parent = .ok d' →
      Walk g name d d' ∧ (parent ≠ Role.targets → d'.files.lookup .targets = d.files.lookup .targets) ∧ (parent = Role.targets → Later g .targets d d') := by
      intro d d' parent hb hk hl hn h
      unfold removeDelegation at h
      obtain ⟨s, h1, h⟩ := exc_bind_ok.1 h
      obtain ⟨dl, h2, h⟩ := exc_bind_ok.1 h
      obtain ⟨ks, h3, h⟩ := exc_bind_ok.1 h
      obtain ⟨ks', h4, h⟩ := exc_bind_ok.1 h
      obtain ⟨s1, h5, h⟩ := exc_bind_ok.1 h
      obtain ⟨dl1, h6, h⟩ := exc_bind_ok.1 h
      obtain ⟨rs, h7, h⟩ := exc_bind_ok.1 h
      obtain ⟨⟨d1, l⟩, h8, h⟩ := exc_bind_ok.1 h
      dsimp only at h
      obtain ⟨s2, h9, h⟩ := exc_bind_ok.1 h
      obtain ⟨s3, h10, h⟩ := exc_bind_ok.1 h
      obtain ⟨⟨d2, text⟩, h11, h⟩ := exc_bind_ok.1 h
      cases h
      obtain ⟨w1, w2, w3⟩ := IH.2 _ hb hk h8
      obtain ⟨j, v, e, hj, hbody⟩ := role_there hg hb hk hl (by simpa using hn) w1.keys h11
      rw [h1] at hj
      cases hj
      obtain ⟨dl0, k1, k2⟩ := hbody.delegations
      rw [h2] at k1
      cases k1
      obtain ⟨hks1, hks2⟩ := keys_before k2 h3
      have hcdl := get_canonical hbody.canonical h2
      have hcks := (removeMember_ok h4).1 (get_canonical hcdl h3)
      obtain ⟨dl', dl1', g1, g2, g3⟩ := setPath_cons h5
      rw [h2] at g1
      cases g1
      have := (setKey_ok g3).1
      rw [h6] at this
      cases this
      obtain ⟨x, x', a1, a2, a3⟩ := setPath_cons g2
      cases a2
      have hr0 : dl.get "roles" = .ok rs := by rw [← (setKey_ok a3).2.1 _ (by decide)]; exact h7
      obtain ⟨hrs1, hrs2⟩ := roles_before k2 hr0
      have hcrs := get_canonical hcdl hr0
      have hbody2 := (hbody.redelegate h2 g2 g3 h9 ⟨hcks, removeMember_keys h4 hks1 hks2⟩ ⟨.arr (by
          intro y hy
          have := w3 y hy
          obtain ⟨kid, nm, pth, tm, rfl, -⟩ := hrs2 y this
          exact roleItem_canonical ..), .inr ⟨_, rfl⟩, by
          intro r hr
          rw [elems_array] at hr
          exact hrs2 r (w3 r hr)⟩).bump' h10
      obtain ⟨p1, p2, p3, p4⟩ := put_ok w1.base hl hbody2 h11
      refine ⟨w1.trans ⟨p1, p4 _ w1.keyed, p2.keys, ?_, ?_⟩, ?_, ?_⟩
      · intro p hp hq
        refine p2.files p ?_
        intro hh
        rcases pathOf_cases parent with hc | hc
        · exact hp (hh.trans hc)
        · exact hq _ (hh.trans hc)
      · intro hgone
        refine (p2.files _ ?_).trans hgone
        intro hh
        rcases pathOf_cases parent with hc | hc
        · cases hh.trans hc
        · cases hh.trans hc
          exact hn rfl
      · intro hnt
        refine (p2.files _ ?_).trans w2
        exact fun hh => hnt (pathOf_targets hl hh.symm)
      · rintro rfl
        refine .inr ⟨v, v + 1, ⟨_, h1, hbody.version, hbody.range⟩, ?_, by omega⟩
        exact signed_at hg p3.1 p3.2 hbody2.version hbody2.range
    exact ⟨first, step _ first⟩

theorem Base.remove {g : GenEnv} {d : Dir} (hb : Base g d) {p : Path} (hp : (∃ n, p = .delegation n) ∨ p = .staging) : Base g (d.remove p) := by
  have ho : ∀ q, q ≠ p → (d.remove p).files.lookup q = d.files.lookup q := fun q hq => lookup_remove_other hq
  have hroots : ∀ v, Path.numbered v ≠ p := by rcases hp with ⟨n, rfl⟩ | rfl <;> simp
  have hr : Path.root ≠ p ∧ Path.targets ≠ p ∧ Path.snapshot ≠ p ∧ Path.timestamp ≠ p := by rcases hp with ⟨n, rfl⟩ | rfl <;> simp
  constructor
  · exact hb.good
  · exact hb.four
  · obtain ⟨tab, top, h⟩ := hb.roots
    exact ⟨tab, top, h.congr (fun _ _ => rfl) (fun v => ho _ (hroots v)) (ho _ hr.1)⟩
  · rw [ho _ hr.2.1]; exact hb.targets
  · intro n text h
    by_cases hq : Path.delegation n = p
    · rw [hq, lookup_remove_same] at h
      cases h
    · rw [ho _ hq] at h
      exact hb.delegated n text h
  · intro text h
    by_cases hq : Path.staging = p
    · rw [hq, lookup_remove_same] at h
      cases h
    · rw [ho _ hq] at h
      exact hb.staging text h
  · rw [ho _ hr.2.2.1]; exact hb.snapshot
  · rw [ho _ hr.2.2.2]; exact hb.timestamp

/-- Revoking a delegation. -/
theorem revokeDelegation_ok {g : GenEnv} (hg : Sound g) {d d' : Dir} (hb : Base g d) (hk : Keyed none d) {name : String}
    (h : revokeDelegation g d name = .ok d') : Good g d d' ∧ Synced g d' ∧ Later g .targets d d' := by
  unfold revokeDelegation at h
  obtain ⟨role, h1, h⟩ := exc_bind_ok.1 h
  cases hkey : d.keys.lookup name with
  | none => rw [hkey] at h; cases h
  | some key =>
    rw [hkey] at h
    dsimp only at h
    obtain ⟨_, h2, h⟩ := exc_bind_ok.1 h
    obtain ⟨d1, h3, h⟩ := exc_bind_ok.1 h
    obtain ⟨d2, h4, h⟩ := exc_bind_ok.1 h
    cases h
    have hres := (delegation_ok h1).2
    have hnt : ∀ r ∈ topRoles, r ≠ name := by
      intro r hr hrn
      have := reserved_top hr
      rw [hrn, hres] at this
      cases this
    have hb0 := hb.remove (p := .delegation name) (.inl ⟨_, rfl⟩)
    have hk0 : Keyed (some name) (d.remove (.delegation name)) := by
      intro n kp a b c
      rw [lookup_remove_other (by simpa using c)]
      exact hk n kp a b (by simp)
    obtain ⟨w, -, w3⟩ := (removeDelegation_ok hg _).1 hb0 hk0 (.inl rfl) (hnt "targets" (by decide)) h3
    obtain ⟨b2, s2, r2, l2, l3⟩ := updateRepo_ok hg w.base h4
    have hfile : ∀ p, p ≠ .targets → (∀ n, p ≠ .delegation n) → p ≠ .snapshot → p ≠ .timestamp → d2.files.lookup p = d.files.lookup p := by
      intro p hp hq hs ht
      rw [r2.files p hs ht, w.files p hp hq]
      exact lookup_remove_other (hq name)
    have hkeys : d2.keys = d.keys := r2.keys.trans w.keys
    have htop : ∀ r ∈ topRoles, (d2.keys.filter (fun k => k.1 ≠ name)).lookup r = d2.keys.lookup r := fun r hr => lookup_filter_key (hnt r hr) _
    have hgone : ∀ text, d2.files.lookup (.delegation name) = some text → False := by
      intro text ht
      rw [r2.files _ (by simp) (by simp), w.gone lookup_remove_same] at ht
      cases ht
    refine ⟨⟨b2.rekey ?_ htop ?_, ?_, .of_same ?_ ?_ ?_, ?_, ?_⟩, s2.rekey htop, ?_⟩
    · intro r kp hr
      by_cases hrn : r = name
      · subst hrn
        rw [lookup_filter_gone] at hr
        cases hr
      · rw [lookup_filter_key hrn] at hr
        exact b2.good r kp hr
    · intro n text hn
      refine lookup_filter_key ?_ _
      rintro rfl
      exact hgone text hn
    · intro n kp a b c
      have hn : n ≠ name := by
        rintro rfl
        have := lookup_filter_gone (n := n) d2.keys
        rw [show List.lookup n (d2.keys.filter (fun k => k.1 ≠ n)) = some kp from a] at this
        cases this
      rw [show List.lookup n (d2.keys.filter (fun k => k.1 ≠ name)) = _ from lookup_filter_key hn _, r2.keys] at a
      obtain ⟨t, ht⟩ := w.keyed n kp a b (by simpa using hn)
      exact ⟨t, (r2.files _ (by simp) (by simp)).trans ht⟩
    · intro r hr
      exact (htop r hr).trans (by rw [hkeys])
    · exact fun v => hfile _ (by simp) (by simp) (by simp) (by simp)
    · exact hfile _ (by simp) (by simp) (by simp) (by simp)
    · have h5 : d1.files.lookup .snapshot = d.files.lookup .snapshot := (w.files _ (by simp) (by simp)).trans (lookup_remove_other (by simp))
      exact Later.trans (.inl h5) l2
    · have h5 : d1.files.lookup .timestamp = d.files.lookup .timestamp := (w.files _ (by simp) (by simp)).trans (lookup_remove_other (by simp))
      exact Later.trans (.inl h5) l3
    · have h5 : (d.remove (.delegation name)).files.lookup .targets = d.files.lookup .targets := lookup_remove_other (by simp)
      exact (Later.trans (.inl h5) (w3 rfl)).trans (.inl (r2.files _ (by simp) (by simp)))

end Aktualizr.Gen
