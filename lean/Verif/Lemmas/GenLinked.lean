import Verif.Lemmas.GenHonest
import Verif.Lemmas.HonestTree

/-! # Lemmas on the generator: the keys of delegated roles -/

namespace Aktualizr.Gen

open Spec

/-- The entry of a delegated role. -/
def roleItem (kid name path : String) (term : Bool) : Json :=
  .obj [("keyids", .arr [.str kid]), ("name", .str name), ("paths", .arr [.str path]), ("terminating", .bool term), ("threshold", .int 1)]

/-- The delegations name the keys the tool has; those keys are among `U`. -/
def LinkedPart (g : GenEnv) (U : PublicKey → Prop) (keys : List (String × KeyPair)) (dl : Json) : Prop :=
  ∀ rs r, dl.get "roles" = .ok rs → r ∈ rs.elems → ∃ name path term kp ks,
    r = roleItem (g.keyId kp.pub) name path term ∧ keys.lookup name = some kp ∧ U kp.pub ∧ Role.isReserved (lower name) = false ∧ name ≠ "invalidrole" ∧
    dl.get "keys" = .ok ks ∧ ks.get (g.keyId kp.pub) = .ok (toUptane kp.pub)

theorem linkedPart_null {g : GenEnv} {U : PublicKey → Prop} {keys : List (String × KeyPair)} : LinkedPart g U keys .null := by
  intro rs r h hr
  cases h
  cases hr

theorem LinkedPart.keys {g : GenEnv} {U : PublicKey → Prop} {keys keys' : List (String × KeyPair)} {dl : Json} (h : LinkedPart g U keys dl)
    (hk : ∀ n kp, keys.lookup n = some kp → keys'.lookup n = some kp) : LinkedPart g U keys' dl := by
  intro rs r h1 h2
  obtain ⟨name, path, term, kp, ks, a1, a2, a3⟩ := h rs r h1 h2
  exact ⟨name, path, term, kp, ks, a1, hk _ _ a2, a3⟩

/-- The files of Targets roles. -/
def IsRole (p : Path) : Prop := p = .targets ∨ ∃ n, p = .delegation n

theorem isRole_pathOf (role : Role) : IsRole (pathOf role) := by
  rcases pathOf_cases role with h | h <;> rw [h]
  · exact .inl rfl
  · exact .inr ⟨_, rfl⟩

/-- All delegations name the keys the tool has. -/
def Linked (g : GenEnv) (U : PublicKey → Prop) (d : Dir) : Prop :=
  ∀ p, IsRole p → ∀ j dl, d.signed g p = .ok j → j.get "delegations" = .ok dl → LinkedPart g U d.keys dl

/-- What a command without revocation does to the roles. -/
structure Kept (g : GenEnv) (U : PublicKey → Prop) (d d' : Dir) : Prop where
  linked : Linked g U d → Linked g U d'
  later : ∀ n text, d.files.lookup (.delegation n) = some text → Later g (.delegation n) d d'

theorem VersionAt.there {g : GenEnv} {d : Dir} {p : Path} {v : Int} (h : VersionAt g d p v) : ∃ text, d.files.lookup p = some text := by
  obtain ⟨j, h1, h2, -⟩ := h
  cases hl : d.files.lookup p with
  | some t => exact ⟨t, rfl⟩
  | none =>
    unfold Dir.signed Dir.json at h1
    rw [hl] at h1
    cases h1
    cases h2

theorem Later.there {g : GenEnv} {d d' : Dir} {p : Path} {text : String} (h : Later g p d d') (ht : d.files.lookup p = some text) : ∃ t, d'.files.lookup p = some t := by
  rcases h with h | ⟨v, v', -, h, -⟩
  · exact ⟨text, h.trans ht⟩
  · exact h.there

theorem Kept.refl {g : GenEnv} {U : PublicKey → Prop} (d : Dir) : Kept g U d d := ⟨id, fun _ _ _ => .inl rfl⟩

theorem Kept.trans {g : GenEnv} {U : PublicKey → Prop} {a b c : Dir} (h1 : Kept g U a b) (h2 : Kept g U b c) : Kept g U a c := by
  refine ⟨fun h => h2.linked (h1.linked h), fun n text ht => ?_⟩
  have hl := h1.later n text ht
  obtain ⟨t, ht'⟩ := hl.there ht
  exact hl.trans (h2.later n t ht')

/-- Nothing changes for the roles. -/
theorem Kept.of_same {g : GenEnv} {U : PublicKey → Prop} {d d' : Dir} (hk : d'.keys = d.keys) (hf : ∀ p, IsRole p → d'.files.lookup p = d.files.lookup p) : Kept g U d d' := by
  refine ⟨fun h p hp j dl hj hdl => ?_, fun n _ _ => .inl (hf _ (.inr ⟨n, rfl⟩))⟩
  rw [hk]
  rw [signed_congr (hf p hp)] at hj
  exact h p hp j dl hj hdl

theorem Resync.kept {g : GenEnv} {U : PublicKey → Prop} {d d' : Dir} (h : Resync d d') : Kept g U d d' :=
  .of_same h.keys (fun p hp => h.files p (by rcases hp with rfl | ⟨n, rfl⟩ <;> simp) (by rcases hp with rfl | ⟨n, rfl⟩ <;> simp))

theorem Only.kept {g : GenEnv} {U : PublicKey → Prop} {p : Path} {d d' : Dir} (h : Only p d d') (hp : ¬ IsRole p) : Kept g U d d' :=
  .of_same h.keys (fun q hq => h.files q (fun hh => hp (hh ▸ hq)))

/-- A role is written anew, with a higher version and proper delegations. -/
theorem kept_put {g : GenEnv} {U : PublicKey → Prop} (hg : Sound g) {d d1 : Dir} (hb : Base g d) {role : Role} (hr : Listed role) {s s' : Json} {v v' : Int} {e e' text : String}
    (hs : d.signed g (pathOf role) = .ok s) (hbody : TargetsBody s v e) (hbody' : TargetsBody s' v' e') (hv : v < v')
    (hw : writeSigned g d (pathOf role) role.name s' = .ok (d1, text))
    (hdl : Linked g U d → ∀ dl', s'.get "delegations" = .ok dl' → LinkedPart g U d.keys dl') : Kept g U d d1 := by
  obtain ⟨-, p2, p3, -⟩ := put_ok hb hr hbody' hw
  have hsig := Dir.signed_of hg p3.1 p3.2
  refine ⟨fun h p hp j dl hj hd => ?_, fun n t ht => ?_⟩
  · rw [p2.keys]
    by_cases hpp : p = pathOf role
    · subst hpp
      rw [hsig] at hj
      cases hj
      exact hdl h dl hd
    · rw [signed_congr (p2.files _ hpp)] at hj
      exact h p hp j dl hj hd
  · by_cases hpp : Path.delegation n = pathOf role
    · rw [hpp]
      exact .inr ⟨v, v', ⟨_, hs, hbody.version, hbody.range⟩, signed_at hg p3.1 p3.2 hbody'.version hbody'.range, hv⟩
    · exact .inl (p2.files _ hpp)

theorem bump_get {j j' : Json} {k : String} (h : bump j = .ok j') (hk : k ≠ "version") : j'.get k = j.get k := by
  unfold bump at h
  obtain ⟨_, _, h⟩ := exc_bind_ok.1 h
  obtain ⟨_, _, h⟩ := exc_bind_ok.1 h
  obtain ⟨_, _, h⟩ := exc_bind_ok.1 h
  exact (setKey_ok h).2.1 _ hk

theorem addImage_kept {g : GenEnv} {U : PublicKey → Prop} (hg : Sound g) {d d' : Dir} (hb : Base g d) (hk : Keyed none d) {name hw : String} {target : Json} {deleg : Option String}
    (ht : EntryOk target) (hc : Canonical target) (hh : ∃ x, mkHwId hw = .ok x) (h : addImage g d name target hw deleg = .ok d') : Kept g U d d' := by
  unfold addImage at h
  obtain ⟨role, hrole, h⟩ := exc_bind_ok.1 h
  obtain ⟨s, hs, h⟩ := exc_bind_ok.1 h
  obtain ⟨c, h1, h⟩ := exc_bind_ok.1 h
  obtain ⟨hj, h2, h⟩ := exc_bind_ok.1 h
  obtain ⟨hw', h3, h⟩ := exc_bind_ok.1 h
  obtain ⟨t', h4, h⟩ := exc_bind_ok.1 h
  obtain ⟨s1, h5, h⟩ := exc_bind_ok.1 h
  obtain ⟨s2, h6, h⟩ := exc_bind_ok.1 h
  obtain ⟨⟨d1, text⟩, h7, h⟩ := exc_bind_ok.1 h
  dsimp only at h
  obtain ⟨hok, hcan⟩ := withHardware_ok ht hc hh h1 h2 h3 h4
  have hl := imageRole_listed hrole
  obtain ⟨j, v, e, hj, hbody⟩ := role_there hg hb hk hl (by simp) rfl h7
  rw [hs] at hj
  cases hj
  have hb2 := (hbody.withEntry h5 hok hcan).bump' h6
  have hgood := put_good hb hk hl hb2 h7
  obtain ⟨-, -, q3⟩ := updateRepo_good hg hgood.base hgood.keyed h
  refine (kept_put hg hb hl hs hbody hb2 (by omega) h7 ?_).trans q3.kept
  intro hlk dl hdl
  rw [bump_get h6 (by decide), setPath_other h5 (by decide)] at hdl
  exact hlk _ (isRole_pathOf role) s dl hs hdl

/-! ### Adding a delegation -/

theorem withDelegation_linked {g : GenEnv} {U : PublicKey → Prop} (hU : ∀ k k', U k → U k' → g.keyId k = g.keyId k' → k = k') {keys : List (String × KeyPair)}
    {j j' : Json} {name pattern : String} {term : Bool} {kp : KeyPair} (hkp : keys.lookup name = some kp) (hu : U kp.pub) (hres : Role.isReserved (lower name) = false)
    (hinv : name ≠ "invalidrole") (hl : ∀ dl, j.get "delegations" = .ok dl → LinkedPart g U keys dl)
    (hw : withDelegation g j name pattern term kp.pub = .ok j') : ∀ dl, j'.get "delegations" = .ok dl → LinkedPart g U keys dl := by
  unfold withDelegation at hw
  obtain ⟨p1, h1, hw⟩ := exc_bind_ok.1 hw
  obtain ⟨dl1, h2, hw⟩ := exc_bind_ok.1 hw
  obtain ⟨r0, h3, hw⟩ := exc_bind_ok.1 hw
  obtain ⟨rs, h4, hw⟩ := exc_bind_ok.1 hw
  obtain ⟨p2, h5, hw⟩ := exc_bind_ok.1 hw
  obtain ⟨dl, dl1', g1, g2, g3⟩ := setPath_cons h1
  have := (setKey_ok g3).1
  rw [h2] at this
  cases this
  obtain ⟨ks, ks', a1, a2, a3⟩ := setPath_cons g2
  obtain ⟨x, x', b1, b2, b3⟩ := setPath_cons a2
  cases b2
  obtain ⟨y, dl2, c1, c2, c3⟩ := setPath_cons h5
  rw [h2] at c1
  cases c1
  obtain ⟨z, z', e1, e2, e3⟩ := setPath_cons c2
  cases e2
  intro dl' hdl'
  rw [bump_get hw (by decide), (setKey_ok c3).1] at hdl'
  cases hdl'
  have hkeys : dl2.get "keys" = .ok ks' := by rw [(setKey_ok e3).2.1 _ (by decide)]; exact (setKey_ok a3).1
  have hr0 : dl.get "roles" = .ok r0 := by rw [← (setKey_ok a3).2.1 _ (by decide)]; exact h3
  intro rs' r hrs hr
  rw [(setKey_ok e3).1] at hrs
  cases hrs
  rw [(append_ok h4).2.1] at hr
  rcases List.mem_append.1 hr with hr | hr
  · obtain ⟨n, p, t, k, ks0, i1, i2, i3, i4, i5, i6, i7⟩ := hl dl g1 r0 r hr0 hr
    rw [a1] at i6
    cases i6
    refine ⟨n, p, t, k, ks', i1, i2, i3, i4, i5, hkeys, ?_⟩
    by_cases hid : g.keyId k.pub = g.keyId kp.pub
    · have := hU _ _ i3 hu hid
      rw [this]
      exact (setKey_ok b3).1
    · rw [(setKey_ok b3).2.1 _ hid]
      exact i7
  · rw [List.mem_singleton.1 hr]
    exact ⟨name, pattern, term, kp, ks', rfl, hkp, hu, hres, hinv, hkeys, (setKey_ok b3).1⟩

theorem addDelegation_kept {g : GenEnv} {U : PublicKey → Prop} (hU : ∀ k k', U k → U k' → g.keyId k = g.keyId k' → k = k') (hg : Sound g) {d d' : Dir} (hb : Base g d)
    (hk : Keyed none d) {name parent pattern : String} {term : Bool} {type : KeyType} {pub priv e : String} (hw : Works g ⟨⟨pub, type⟩, priv⟩) (he : IsTime e)
    (hu : U ⟨pub, type⟩) (hinv : name ≠ "invalidrole") (h : addDelegation g d name parent pattern term type pub priv e = .ok d') : Kept g U d d' := by
  unfold addDelegation at h
  obtain ⟨role, h1, h⟩ := exc_bind_ok.1 h
  obtain ⟨prole, h2, h⟩ := exc_bind_ok.1 h
  obtain ⟨_, h3, h⟩ := exc_bind_ok.1 h
  obtain ⟨_, h4, h⟩ := exc_bind_ok.1 h
  obtain ⟨_, h5, h⟩ := exc_bind_ok.1 h
  obtain ⟨dk, h6, h⟩ := exc_bind_ok.1 h
  obtain ⟨⟨d1, t1⟩, h7, h⟩ := exc_bind_ok.1 h
  dsimp only at h
  obtain ⟨s, h8, h⟩ := exc_bind_ok.1 h
  obtain ⟨s', h9, h⟩ := exc_bind_ok.1 h
  obtain ⟨⟨d2, t2⟩, h10, hup⟩ := exc_bind_ok.1 h
  dsimp only at hup
  rw [throwIf_ok] at h3
  have hnew : d.keys.lookup name = none := by
    cases hl : d.keys.lookup name with
    | none => rfl
    | some _ => rw [hl] at h3; cases h3
  obtain ⟨hl, hname⟩ := listed_of h1
  have hres := (delegation_ok h1).2
  have hnt : ∀ r ∈ topRoles, r ≠ name := by
    intro r hr hrn
    have := reserved_top hr
    rw [hrn, hres] at this
    cases this
  have hpl : Listed prole := by
    split at h2
    · cases h2; exact .inl rfl
    · exact (listed_of h2).1
  obtain ⟨rfl, hgk⟩ := generateKeyPair_ok hw h6
  have hlk : ∀ r, r ≠ name → List.lookup r ((name, (⟨⟨pub, type⟩, priv⟩ : KeyPair)) :: d.keys.filter (fun k => k.1 ≠ name)) = d.keys.lookup r := by
    intro r hr
    rw [List.lookup_cons, beq_false_of_ne hr]
    exact lookup_filter_key hr _
  have hfile : d.files.lookup (.delegation name) = none := by
    cases hf : d.files.lookup (.delegation name) with
    | none => rfl
    | some t =>
      obtain ⟨-, j, v, e, ⟨-, _, kp, _, hkp, -⟩, -⟩ := hb.delegated _ _ hf
      rw [hnew] at hkp
      cases hkp
  have hb0 : Base g { d with keys := (name, ⟨⟨pub, type⟩, priv⟩) :: d.keys.filter (fun k => k.1 ≠ name) } := by
    refine hb.rekey ?_ (fun r hr => hlk r (hnt r hr)) ?_
    · intro r kp hr
      by_cases hrn : r = name
      · subst hrn
        rw [List.lookup_cons_self] at hr
        cases hr
        exact hgk
      · rw [hlk r hrn] at hr
        exact hb.good r kp hr
    · intro n text hn
      refine hlk n ?_
      intro hnn
      subst hnn
      rw [hfile] at hn
      cases hn
  have hk0 : Keyed (some name) { d with keys := (name, ⟨⟨pub, type⟩, priv⟩) :: d.keys.filter (fun k => k.1 ≠ name) } := by
    intro n kp a b c
    have hn : n ≠ name := fun hh => c (by rw [hh])
    rw [show List.lookup n ((name, (⟨⟨pub, type⟩, priv⟩ : KeyPair)) :: d.keys.filter (fun k => k.1 ≠ name)) = _ from hlk n hn] at a
    exact hk n kp a b (by simp)
  obtain ⟨p1, p2, p3, p4⟩ := put_ok hb0 hl (newTargets_body he) (by rw [hname]; exact h7)
  have hpath : pathOf role = .delegation name := by
    rcases hl.cases with hh | ⟨hh, -⟩
    · rw [hh] at hname
      exact absurd hname (hnt "targets" (by decide))
    · rw [hh, hname]
  rw [hpath] at p2 p3
  have hk1 : Keyed none d1 := by
    intro n kp a b c
    by_cases hn : n = name
    · subst hn
      exact ⟨t1, p3.1⟩
    · exact p4 _ hk0 n kp a b (by simpa using hn)
  obtain ⟨j, v, e', hj, hbody⟩ := role_there hg p1 hk1 hpl (by simp) rfl h10
  rw [h8] at hj
  cases hj
  have hbody' := withDelegation_ok hbody hres hw.known h9
  have hgood := put_good p1 hk1 hpl hbody' h10
  obtain ⟨-, -, r3⟩ := updateRepo_good hg hgood.base hgood.keyed hup
  have hkept1 : Kept g U d d1 := by
    refine ⟨fun h p hp j dl hj hd => ?_, fun n t ht => .inl (p2.files _ ?_)⟩
    · by_cases hpp : p = .delegation name
      · subst hpp
        rw [Dir.signed_of hg p3.1 p3.2] at hj
        cases hj
        cases hd
        exact linkedPart_null
      · rw [signed_congr (show d1.files.lookup p = d.files.lookup p from p2.files _ hpp)] at hj
        refine (h p hp j dl hj hd).keys ?_
        intro n kp hn
        rw [p2.keys]
        refine (hlk n ?_).trans hn
        intro hh
        rw [hh, hnew] at hn
        cases hn
    · intro hh
      injection hh with hh
      subst hh
      rw [hfile] at ht
      cases ht
  have hkey : d1.keys.lookup name = some ⟨⟨pub, type⟩, priv⟩ := by
    rw [p2.keys]
    exact List.lookup_cons_self
  refine (hkept1.trans (kept_put hg p1 hpl h8 hbody hbody' (by omega) h10 ?_)).trans r3.kept
  intro hlk1
  exact withDelegation_linked hU hkey hu hres hinv (fun dl hdl => hlk1 _ (isRole_pathOf prole) s dl h8 hdl) h9

/-! ### Refreshing -/

theorem writeSigned_only {g : GenEnv} {d d' : Dir} {p : Path} {role text : String} {j : Json} (h : writeSigned g d p role j = .ok (d', text)) : Only p d d' := by
  unfold writeSigned signTuf at h
  obtain ⟨⟨doc, d1⟩, h1, h⟩ := exc_bind_ok.1 h
  cases h
  obtain ⟨m, hm, h1⟩ := exc_bind_ok.1 h1
  cases h1
  exact ⟨rfl, fun q hq => lookup_write_other hq⟩

theorem updateRepo_kept {g : GenEnv} {U : PublicKey → Prop} {d d' : Dir} (h : updateRepo g d = .ok d') : Kept g U d d' := by
  unfold updateRepo at h
  obtain ⟨sn, -, h⟩ := exc_bind_ok.1 h
  obtain ⟨⟨d1, t1⟩, h1, h⟩ := exc_bind_ok.1 h
  dsimp only at h
  obtain ⟨_, -, h⟩ := exc_bind_ok.1 h
  obtain ⟨ts, -, h⟩ := exc_bind_ok.1 h
  obtain ⟨⟨d2, t2⟩, h2, h⟩ := exc_bind_ok.1 h
  cases h
  exact ((writeSigned_only h1).kept (by rintro (h | ⟨_, h⟩) <;> cases h)).trans ((writeSigned_only h2).kept (by rintro (h | ⟨_, h⟩) <;> cases h))

theorem refresh_kept {g : GenEnv} {U : PublicKey → Prop} (hg : Sound g) {repo : Repo} {d d' : Dir} (hb : Base g d) {name soon : String} {now : TimeStamp}
    (hs : IsTime soon) (h : refresh g repo d (Role.ofName name) now soon = .ok d') : Kept g U d d' := by
  unfold refresh at h
  obtain ⟨_, h1, h⟩ := exc_bind_ok.1 h
  rcases ofName_five name with hn | hn | hn | hn | hn
  all_goals rw [hn] at h h1
  · obtain ⟨s0, h2, h⟩ := exc_bind_ok.1 h
    obtain ⟨s, h3, h⟩ := exc_bind_ok.1 h
    obtain ⟨⟨d1, text⟩, h4, h⟩ := exc_bind_ok.1 h
    dsimp only at h
    obtain ⟨vj, h5, h⟩ := exc_bind_ok.1 h
    obtain ⟨v, h6, hup⟩ := exc_bind_ok.1 h
    have hup : updateRepo g (d1.write (.numbered v) text) = .ok d' := hup
    refine (((writeSigned_only h4).kept (by rintro (h | ⟨_, h⟩) <;> cases h)).trans ?_).trans (updateRepo_kept hup)
    exact Only.kept (p := .numbered v) ⟨rfl, fun q hq => lookup_write_other hq⟩ (by rintro (h | ⟨_, h⟩) <;> cases h)
  · obtain ⟨s0, h2, h⟩ := exc_bind_ok.1 h
    obtain ⟨s, h3, h⟩ := exc_bind_ok.1 h
    obtain ⟨⟨d1, text⟩, h4, h⟩ := exc_bind_ok.1 h
    dsimp only at h
    obtain ⟨vj, h5, h⟩ := exc_bind_ok.1 h
    obtain ⟨v, h6, hup⟩ := exc_bind_ok.1 h
    have hup : updateRepo g d1 = .ok d' := hup
    exact ((writeSigned_only h4).kept (by rintro (h | ⟨_, h⟩) <;> cases h)).trans (updateRepo_kept hup)
  · obtain ⟨s0, h2, h⟩ := exc_bind_ok.1 h
    obtain ⟨s, h3, h⟩ := exc_bind_ok.1 h
    obtain ⟨⟨d1, text⟩, h4, h⟩ := exc_bind_ok.1 h
    dsimp only at h
    obtain ⟨vj, h5, h⟩ := exc_bind_ok.1 h
    obtain ⟨v, h6, hup⟩ := exc_bind_ok.1 h
    obtain ⟨text0, j, v0, e, a1, a2, a3⟩ := hb.targets
    have hsig := Dir.signed_of hg a1 a2
    have h2' := h2
    rw [show d.signed g .targets = .ok j from hsig] at h2
    cases h2
    have hs' : ∃ e', TargetsBody s (v0 + 1) e' ∧ s.get "delegations" = s0.get "delegations" := by
      obtain ⟨b1, b2⟩ := refreshed_ok a3.expires a3.version a3.range h3
      have hr := a3.range
      rcases b2 with b2 | ⟨s1, b2, b3⟩
      · exact ⟨e, a3.withVersion b2 ⟨by omega, b1⟩, (setKey_ok b2).2.1 _ (by decide)⟩
      · exact ⟨soon, (a3.withExpires b2 hs).withVersion b3 ⟨by omega, b1⟩, ((setKey_ok b3).2.1 _ (by decide)).trans ((setKey_ok b2).2.1 _ (by decide))⟩
    obtain ⟨e', hb2, hd2⟩ := hs'
    have h4' : writeSigned g d (pathOf Role.targets) Role.targets.name s = .ok (d1, text) := h4
    have hup : updateRepo g d1 = .ok d' := hup
    refine (kept_put hg hb (.inl rfl) (role := Role.targets) hsig a3 hb2 (by omega) h4' ?_).trans (updateRepo_kept hup)
    intro hlk dl hdl
    rw [hd2] at hdl
    exact hlk .targets (.inl rfl) s0 dl hsig hdl
  · obtain ⟨s0, h2, h⟩ := exc_bind_ok.1 h
    obtain ⟨s, h3, h⟩ := exc_bind_ok.1 h
    obtain ⟨⟨d1, text⟩, h4, h⟩ := exc_bind_ok.1 h
    dsimp only at h
    obtain ⟨vj, h5, h⟩ := exc_bind_ok.1 h
    obtain ⟨v, h6, hup⟩ := exc_bind_ok.1 h
    have hup : updateRepo g d1 = .ok d' := hup
    exact ((writeSigned_only h4).kept (by rintro (h | ⟨_, h⟩) <;> cases h)).trans (updateRepo_kept hup)
  · cases h

/-! ### Runs -/

/-- The key a command brings for a delegated role. -/
def Cmd.key : Cmd → Option PublicKey
  | .addDelegation _ _ _ _ type pub _ _ _ => some ⟨pub, type⟩
  | _ => none

/-- Delegations are not revoked, and no role is called `invalidrole`. -/
def Cmd.Lasting : Cmd → Prop
  | .revokeDelegation _ => False
  | .addDelegation name _ _ _ _ _ _ _ _ => name ≠ "invalidrole"
  | _ => True

theorem run_kept {g : GenEnv} {U : PublicKey → Prop} (hU : ∀ k k', U k → U k' → g.keyId k = g.keyId k' → k = k') (hg : Sound g) {r r' : Repos} {c : Cmd} (hs : Sane g r)
    (hc : c.Sensible g) (hlast : c.Lasting) (hu : ∀ k, c.key = some k → U k) (h : run g r c = .ok r') : Kept g U r.image r'.image := by
  obtain ⟨hd, hp, hi⟩ := hs
  cases c with
  | image content name hw url deleg =>
    obtain ⟨_, h1, h⟩ := exc_bind_ok.1 h
    obtain ⟨d', h2, h⟩ := exc_bind_ok.1 h
    cases h
    obtain ⟨b1, b2⟩ := binaryTarget_ok g url hc.2
    exact addImage_kept hg hi.base hi.keyed b1 b2 (hwid_ok hc.1) h2
  | customImage name hash length hw url deleg custom =>
    obtain ⟨_, h1, h⟩ := exc_bind_ok.1 h
    obtain ⟨t, h2, h⟩ := exc_bind_ok.1 h
    obtain ⟨d', h3, h⟩ := exc_bind_ok.1 h
    cases h
    obtain ⟨c0, k1, k2⟩ := (ofJson_iff.1 hc.2.2).custom
    cases k1
    obtain ⟨b1, b2⟩ := customTarget_ok k2 hc.2.1 h2
    exact addImage_kept hg hi.base hi.keyed b1 b2 (hwid_ok hc.1) h3
  | addTarget name hw serial url expires =>
    obtain ⟨x, h1, h⟩ := exc_bind_ok.1 h
    obtain ⟨t, h2, h⟩ := exc_bind_ok.1 h
    obtain ⟨_, h3, h⟩ := exc_bind_ok.1 h
    obtain ⟨d', h4, h⟩ := exc_bind_ok.1 h
    cases h
    exact .refl _
  | addDelegation name parent pattern terminating type pub priv expires later =>
    obtain ⟨e, h1, h⟩ := exc_bind_ok.1 h
    obtain ⟨d', h2, h⟩ := exc_bind_ok.1 h
    cases h
    exact addDelegation_kept hU hg hi.base hi.keyed hc.1 (expirationTime_ok hc.2 h1) (hu _ rfl) hlast h2
  | revokeDelegation name => exact hlast.elim
  | signTargets =>
    obtain ⟨d', h1, h⟩ := exc_bind_ok.1 h
    cases h
    exact .refl _
  | emptyTargets expires later correlation =>
    obtain ⟨e, h1, h⟩ := exc_bind_ok.1 h
    obtain ⟨d', h2, h⟩ := exc_bind_ok.1 h
    cases h
    exact .refl _
  | oldTargets =>
    obtain ⟨d', h1, h⟩ := exc_bind_ok.1 h
    cases h
    exact .refl _
  | refresh repo role now soon =>
    cases repo with
    | director =>
      obtain ⟨d', h1, h⟩ := exc_bind_ok.1 h
      cases h
      exact .refl _
    | image =>
      obtain ⟨d', h1, h⟩ := exc_bind_ok.1 h
      cases h
      exact refresh_kept hg hi.base hc h1

theorem runAll_kept {g : GenEnv} {U : PublicKey → Prop} (hU : ∀ k k', U k → U k' → g.keyId k = g.keyId k' → k = k') (hg : Sound g) : ∀ (cs : List Cmd) {r r' : Repos},
    Sane g r → (∀ c ∈ cs, c.Sensible g) → (∀ c ∈ cs, c.Lasting) → (∀ c ∈ cs, ∀ k, c.key = some k → U k) → runAll g r cs = .ok r' → Kept g U r.image r'.image
  | [], r, r', _, _, _, _, h => by cases h; exact .refl _
  | c :: cs, r, r', hs, hc, hl, hu, h => by
    obtain ⟨r1, h1, h⟩ := exc_bind_ok.1 h
    have h0 := run_kept hU hg hs (hc c List.mem_cons_self) (hl c List.mem_cons_self) (hu c List.mem_cons_self) h1
    exact h0.trans (runAll_kept hU hg cs (run_ok hg hs (hc c List.mem_cons_self) h1).1.sane (fun c hc' => hc c (List.mem_cons_of_mem _ hc'))
      (fun c hc' => hl c (List.mem_cons_of_mem _ hc')) (fun c hc' => hu c (List.mem_cons_of_mem _ hc')) h)

/-! ### A new repository -/

theorem generateRepo_linked {g : GenEnv} {U : PublicKey → Prop} (hg : Sound g) {repo : Repo} {d : Dir} {k : NewKeys} {e cor : String} (hk : k.Ok g) (he : IsTime e)
    (h : generateRepo g repo {} k e cor = .ok d) : Linked g U d ∧ ∀ n, d.files.lookup (.delegation n) = none := by
  have hplain := (generateRepo_ok hg hk he h).2
  have hnone : ∀ n, d.files.lookup (.delegation n) = none := by
    intro n
    unfold generateRepo at h
    obtain ⟨d0, h0, h⟩ := exc_bind_ok.1 h
    obtain ⟨rfl, -⟩ := generateRepoKeys_ok hk h0
    obtain ⟨⟨d1, root⟩, h1, h⟩ := exc_bind_ok.1 h
    dsimp only at h
    obtain ⟨⟨d2, ttext⟩, h2, h⟩ := exc_bind_ok.1 h
    dsimp only at h
    obtain ⟨⟨d3, sn⟩, h3, h⟩ := exc_bind_ok.1 h
    dsimp only at h
    obtain ⟨⟨d4, ts⟩, h4, h⟩ := exc_bind_ok.1 h
    have hd : d4 = d := by injection h
    subst hd
    rw [(writeSigned_only h4).files _ (by simp), (writeSigned_only h3).files _ (by simp), (writeSigned_only h2).files _ (by simp),
      show (d1.write (.numbered 1) root).files.lookup (.delegation n) = d1.files.lookup (.delegation n) from lookup_write_other (by simp),
      (writeSigned_only h1).files _ (by simp)]
    rfl
  refine ⟨?_, hnone⟩
  rintro p (rfl | ⟨n, rfl⟩) j dl hj hdl
  · rw [hplain.targets j hj] at hdl
    cases hdl
    exact linkedPart_null
  · unfold Dir.signed Dir.json at hj
    rw [hnone n] at hj
    cases hj
    cases hdl
    exact linkedPart_null

/-! ### What the client reads -/

/-- What is known of the delegated roles in a Targets role that has been read. -/
def Knows (g : GenEnv) (U : PublicKey → Prop) (keys : List (String × KeyPair)) (ts : Targets) : Prop :=
  ∀ n ∈ ts.delegatedRoleNames, ∃ kp, keys.lookup n = some kp ∧ U kp.pub ∧ Role.isReserved (lower n) = false ∧ ts.base.thresholds.lookup n = some 1 ∧
    (n, g.keyId kp.pub) ∈ ts.base.keysForRole ∧ ∃ b, ts.terminatingRole.lookup n = some b

theorem parseRole_item {m : MetaWithKeys} {kid name path : String} {term : Bool} (hn : name ≠ "invalidrole") :
    parseRole m (roleItem kid name path term) ⟨.delegation, name⟩ =
      .ok { m with thresholds := (name, 1) :: m.thresholds, keysForRole := (name, kid) :: m.keysForRole } := by
  unfold parseRole
  rw [if_neg (show ¬ (⟨.delegation, name⟩ : Role).name = Role.invalid.name from hn)]
  rfl

theorem parseDelegRoles_knows {g : GenEnv} {U : PublicKey → Prop} {keys : List (String × KeyPair)} : ∀ (l : List Json) (ts ts' : Targets),
    (∀ r ∈ l, ∃ name path term kp, r = roleItem (g.keyId kp.pub) name path term ∧ keys.lookup name = some kp ∧ U kp.pub ∧ Role.isReserved (lower name) = false ∧
      name ≠ "invalidrole") → Knows g U keys ts → parseDelegRoles ts l = .ok ts' → Knows g U keys ts' ∧ ts'.base.keys = ts.base.keys ∧
      ∀ n ∈ ts'.delegatedRoleNames, n ∈ ts.delegatedRoleNames ∨ ∃ r ∈ l, r.get "name" = .ok (.str n)
  | [], ts, ts', _, hk, h => by cases h; exact ⟨hk, rfl, fun n hn => .inl hn⟩
  | r :: l, ts, ts', hl, hk, h => by
    obtain ⟨name, path, term, kp, rfl, h1, h2, h3, h4⟩ := hl r List.mem_cons_self
    have hrole : Role.delegation name = .ok ⟨.delegation, name⟩ := by
      unfold Role.delegation
      rw [if_neg (by rw [h3]; decide)]
    unfold parseDelegRoles at h
    rw [show (roleItem (g.keyId kp.pub) name path term).get "name" = .ok (.str name) from rfl, exc_bind_of_ok, show (Json.str name).asString = .ok name from rfl,
      exc_bind_of_ok, hrole, exc_bind_of_ok, parseRole_item h4, exc_bind_of_ok,
      show (roleItem (g.keyId kp.pub) name path term).get "paths" = .ok (.arr [.str path]) from rfl, exc_bind_of_ok,
      show parsePaths (Json.arr [.str path]).elems = .ok [path] from rfl, exc_bind_of_ok,
      show (roleItem (g.keyId kp.pub) name path term).get "terminating" = .ok (.bool term) from rfl, exc_bind_of_ok,
      show (Json.bool term).asBool = .ok term from rfl, exc_bind_of_ok] at h
    obtain ⟨a1, a2, a3⟩ := parseDelegRoles_knows l _ _ (fun r hr => hl r (List.mem_cons_of_mem _ hr)) (by
      intro n hn
      dsimp only at hn ⊢
      by_cases hnn : n = name
      · subst hnn
        exact ⟨kp, h1, h2, h3, by simp, by simp, term, by simp⟩
      · rcases List.mem_append.1 hn with hn | hn
        · obtain ⟨kp', k1, k2, k3, k4, k5, b, k6⟩ := hk n hn
          refine ⟨kp', k1, k2, k3, ?_, List.mem_cons_of_mem _ k5, b, ?_⟩
          · rw [List.lookup_cons, beq_false_of_ne hnn]; exact k4
          · rw [List.lookup_cons, beq_false_of_ne hnn]; exact k6
        · exact absurd (List.mem_singleton.1 hn) hnn) h
    refine ⟨a1, a2, fun n hn => ?_⟩
    rcases a3 n hn with hn | ⟨r, hr, hrn⟩
    · rcases List.mem_append.1 hn with hn | hn
      · exact .inl hn
      · rw [List.mem_singleton.1 hn]
        exact .inr ⟨_, List.mem_cons_self, rfl⟩
    · exact .inr ⟨r, List.mem_cons_of_mem _ hr, hrn⟩

/-- A Targets role as the client reads it. -/
structure ReadRole (g : GenEnv) (U : PublicKey → Prop) (keys : List (String × KeyPair)) (j : Json) (ts : Targets) : Prop where
  knows : Knows g U keys ts
  table : ∀ n ∈ ts.delegatedRoleNames, ∀ kp, keys.lookup n = some kp → GoodKey g kp → ts.base.keys.lookup (g.keyId kp.pub) = some kp.pub
  named : ∀ n ∈ ts.delegatedRoleNames, ∃ dl rs r, j.get "delegations" = .ok dl ∧ dl.get "roles" = .ok rs ∧ r ∈ rs.elems ∧ r.get "name" = .ok (.str n)

theorem role_read {g : GenEnv} {U : PublicKey → Prop} (hg : Sound g) {keys : List (String × KeyPair)} {role text : String} {j : Json} {v : Int} {e : String}
    (hw : Wrote g keys role j text) (hb : TargetsBody j v e) (hl : ∀ dl, j.get "delegations" = .ok dl → LinkedPart g U keys dl) {ts : Targets}
    (h : ReadsAsTargets g.env text ts) : ReadRole g U keys j ts := by
  obtain ⟨n, kp, m, -, -, hp⟩ := hw.parse hg
  obtain ⟨v', e', -, h⟩ := h
  rw [hp] at h
  unfold targetsInit at h
  obtain ⟨_, -, h⟩ := exc_bind_ok.1 h
  obtain ⟨s, hs, h⟩ := exc_bind_ok.1 h
  rw [docOf_signed] at hs
  cases hs
  obtain ⟨_, -, h⟩ := exc_bind_ok.1 h
  obtain ⟨_, -, h⟩ := exc_bind_ok.1 h
  obtain ⟨tj, -, h⟩ := exc_bind_ok.1 h
  obtain ⟨tl, -, h⟩ := exc_bind_ok.1 h
  obtain ⟨dl, hdl, h⟩ := exc_bind_ok.1 h
  obtain ⟨ts1, h1, h⟩ := exc_bind_ok.1 h
  obtain ⟨_, -, h⟩ := exc_bind_ok.1 h
  obtain ⟨_, -, h⟩ := exc_bind_ok.1 h
  have key : ReadRole g U keys j ts1 := by
    split at h1 <;> rename_i hob
    · obtain ⟨ks, k1, h1⟩ := exc_bind_ok.1 h1
      obtain ⟨m1, k2, h1⟩ := exc_bind_ok.1 h1
      obtain ⟨rs, k3, h1⟩ := exc_bind_ok.1 h1
      have hd : DelegationsOk dl := by
        obtain ⟨dl', x1, x2⟩ := hb.delegations
        rw [hdl] at x1
        cases x1
        rcases x2 with rfl | x2
        · cases hob
        · exact x2
      obtain ⟨ks', y1, y2, y3⟩ := hd.keys
      rw [k1] at y1
      cases y1
      obtain ⟨kt, z1, -, z3⟩ := parseKeysLoop_ok (env := g.env) ks.entries { version := v', expiry := e' } y3
      have hm1 : m1 = { version := v', expiry := e', keys := kt } := by
        have : parseKeys g.env { version := v', expiry := e' } ks = .ok m1 := k2
        unfold parseKeys at this
        rw [z1] at this
        cases this
        rfl
      obtain ⟨a1, a2, a3⟩ := parseDelegRoles_knows (g := g) (U := U) (keys := keys) rs.elems _ _ (fun r hr => by
        obtain ⟨name, path, term, kp, ks, b1, b2, b3, b4, b5, -⟩ := hl dl hdl rs r k3 hr
        exact ⟨name, path, term, kp, b1, b2, b3, b4, b5⟩) (fun n hn => by cases hn) h1
      have hnamed : ∀ n ∈ ts1.delegatedRoleNames, ∃ dl rs r, j.get "delegations" = .ok dl ∧ dl.get "roles" = .ok rs ∧ r ∈ rs.elems ∧ r.get "name" = .ok (.str n) := by
        intro n hn
        rcases a3 n hn with hn | ⟨r, hr, hrn⟩
        · cases hn
        · exact ⟨dl, rs, r, hdl, k3, hr, hrn⟩
      refine ⟨a1, ?_, hnamed⟩
      intro n hn kp hkp hgood
      obtain ⟨dl', rs', r, b1, b2, b3, b4⟩ := hnamed n hn
      rw [hdl] at b1
      cases b1
      obtain ⟨name, path, term, kp', ks', c1, c2, -, -, -, c6, c7⟩ := hl dl hdl rs' r b2 b3
      rw [c1] at b4
      have hnn : name = n := by
        have : Json.str name = .str n := by
          have b4 : (.ok (.str name) : Except Err Json) = .ok (.str n) := b4
          injection b4
        injection this
      subst hnn
      rw [hkp] at c2
      cases c2
      rw [k1] at c6
      cases c6
      rw [a2, show ({ base := m1, targets := tl } : Targets).base.keys = kt from by rw [hm1]]
      have hsort : ks.entries.Pairwise (fun a b => a.1 ≠ b.1) := by
        rcases y2 with rfl | ⟨l, rfl⟩
        · simp [Json.entries]
        · have := (get_canonical (get_canonical hb.canonical hdl) k1).sorted
          refine this.imp ?_
          intro a b hab hh
          rw [hh, ltChars_irrefl] at hab
          cases hab
      have hlook : ks.entries.lookup (g.keyId kp.pub) = some (toUptane kp.pub) := by
        rcases y2 with rfl | ⟨l, rfl⟩
        · cases c7
        · have c7 : (.ok ((l.lookup (g.keyId kp.pub)).getD .null) : Except Err Json) = .ok (toUptane kp.pub) := by simpa [Json.get] using c7
          show l.lookup _ = _
          cases hx : l.lookup (g.keyId kp.pub) with
          | none =>
            rw [hx] at c7
            have c7 : Json.null = toUptane kp.pub := by injection c7
            cases c7
          | some y =>
            rw [hx] at c7
            have c7 : y = toUptane kp.pub := by injection c7
            rw [c7]
      rw [z3 hsort _ _ hlook, hgood.back]
    · cases h1
      exact ⟨fun n hn => (nomatch hn), fun n hn => (nomatch hn), fun n hn => (nomatch hn)⟩
  cases h
  exact ⟨key.knows, key.table, key.named⟩

/-- What the generator signs for a delegated role is genuine under the role that delegates. -/
theorem role_genuine {g : GenEnv} {U : PublicKey → Prop} (hg : Sound g) {keys : List (String × KeyPair)} (hgood : ∀ r kp, keys.lookup r = some kp → GoodKey g kp)
    {j j' : Json} {cur : Targets} (hr : ReadRole g U keys j cur) {n text : String} {v : Int} {e : String} (hn : n ∈ cur.delegatedRoleNames)
    (hw : Wrote g keys n j' text) (hb : TargetsBody j' v e) :
    SignedToThreshold g.env cur.base n (g.env.parseJson text) ∧ DeclaresType ⟨.delegation, n⟩ (g.env.parseJson text) ∧
      WellFormedSignatures (g.env.parseJson text) ∧ text ≠ "" := by
  obtain ⟨i, kp, m, hk, hm, hp⟩ := hw.parse hg
  have hkp := hgood _ _ hk
  obtain ⟨kp', k1, -, -, k4, k5, -⟩ := hr.knows n hn
  rw [hk] at k1
  cases k1
  have hsigs : (docOf g i kp m j').get "signatures" = .ok (.arr [.obj [("keyid", .str (g.keyId kp.pub)), ("method", .str m), ("sig", .str (g.sign i kp.pub kp.priv (g.env.canon j')))]]) := rfl
  refine ⟨⟨j', _, 1, [g.keyId kp.pub], by rw [hp]; exact docOf_signed .., by rw [hp]; exact hsigs, k4, by decide, by decide, by simp, by simp, ?_⟩, ?_, ?_, ?_⟩
  · intro kid hkid
    rw [List.mem_singleton.1 hkid]
    exact ⟨_, by rw [elems_array]; exact List.mem_singleton_self _, kp.pub, g.sign i kp.pub kp.priv (g.env.canon j'), ⟨_, rfl, rfl⟩, hr.table n hn kp hk hkp, k5, ⟨_, rfl, rfl⟩, hkp.works _ _⟩
  · refine ⟨j', "Targets", by rw [hp]; exact docOf_signed .., ⟨_, hb.type, rfl⟩, ?_⟩
    rw [if_pos rfl]
    decide
  · rw [hp]
    refine ⟨_, hsigs, ?_, ?_⟩
    · intro sig hsig
      rw [elems_array] at hsig
      rw [List.mem_singleton.1 hsig]
      refine ⟨⟨_, _, rfl, rfl⟩, ⟨_, _, rfl, rfl⟩, m, ⟨_, rfl, rfl⟩, ?_⟩
      unfold method at hm
      cases ht : kp.pub.type <;> rw [ht] at hm <;> cases hm <;> decide
    · rw [elems_array]; simp
  · obtain ⟨-, _, _, _, _, _, rfl⟩ := hw
    exact hg.nonempty _

/-- The Snapshot lists a role in force. -/
theorem snapshot_lists_role {g : GenEnv} (hg : Sound g) {d : Dir} {keys : List (String × KeyPair)} {textS e raw name : String} {w v : Int} {m : List (String × Json)}
    (hws : Wrote g keys "snapshot" (snapshotWith e m w) textS) (hm : MetaTrue g d m) (hx : ∃ x, m.lookup (name ++ ".json") = some x) {j : Json}
    (hres : Role.isReserved (lower name) = false)
    (hj : d.signed g (.delegation name) = .ok j) (hv : j.get "version" = .ok (.int v)) (h0 : 0 ≤ v) (h1 : v ≤ 2147483647) : SnapshotLists g.env textS name raw v := by
  obtain ⟨x, hx⟩ := hx
  refine ⟨.obj m, ⟨_, hws.signed hg, _, rfl, rfl⟩, ⟨_, lookup_mem hx, stripExtension_json name⟩, ?_⟩
  intro kj hkj hname
  rcases hm kj hkj with ⟨hk, _⟩ | ⟨role, v', hrole, hk, hobj, hh⟩
  · rw [hk] at hname
    have hname : "root" = name := hname.symm.trans (by decide) |>.symm
    rw [← hname] at hres
    exact absurd hres (by decide)
  · rw [hk, stripExtension_json] at hname
    have hrt : role = ⟨.delegation, name⟩ := by
      rcases hrole with h | h
      · subst h
        rw [← hname] at hres
        exact absurd hres (by decide)
      · rw [(delegation_ok h).1, hname]
    subst hrt
    have hvv : v' = v := by
      rcases hh with ⟨j', a1, a2, -⟩ | ⟨hn, -⟩
      · have a1 : d.signed g (.delegation name) = .ok j' := a1
        rw [hj] at a1
        cases a1
        rw [hv] at a2
        cases a2
        rfl
      · have hn : d.files.lookup (.delegation name) = none := hn
        unfold Dir.signed Dir.json at hj
        rw [hn] at hj
        cases hj
        cases hv
    subst hvv
    rw [hobj]
    exact ⟨⟨.null, rfl, fun kj hkj => by cases hkj⟩, _, rfl, asInt_of h0 h1⟩

end Aktualizr.Gen
