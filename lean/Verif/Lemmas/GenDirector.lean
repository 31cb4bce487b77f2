import Verif.Lemmas.GenDelegate

/-! # Lemmas on the generator: the Director repository, refreshing -/

namespace Aktualizr.Gen

open Spec

/-- No delegations in the top-level Targets, published or staged. -/
structure Plain (g : GenEnv) (d : Dir) : Prop where
  targets : ∀ j, d.signed g .targets = .ok j → j.get "delegations" = .ok .null
  staging : ∀ text, d.files.lookup .staging = some text → (g.env.parseJson text).get "delegations" = .ok .null

theorem Plain.congr {g : GenEnv} {d d' : Dir} (h : Plain g d) (h1 : d'.files.lookup .targets = d.files.lookup .targets)
    (h2 : d'.files.lookup .staging = d.files.lookup .staging) : Plain g d' :=
  ⟨fun j hj => h.targets j ((signed_congr h1).symm.trans hj), fun t ht => h.staging t (h2.symm.trans ht)⟩

theorem Plain.resync {g : GenEnv} {d d' : Dir} (h : Plain g d) (hr : Resync d d') : Plain g d' :=
  h.congr (hr.files _ (by simp) (by simp)) (hr.files _ (by simp) (by simp))

theorem staged_ok {g : GenEnv} (hg : Sound g) {d : Dir} (hb : Base g d) {s : Json} (h : staged g d = .ok s) :
    (∃ v e, TargetsBody s v e) ∧ (Plain g d → s.get "delegations" = .ok .null) := by
  unfold staged at h
  split at h
  · rename_i hh
    cases h
    unfold Dir.has at hh
    cases hl : d.files.lookup .staging with
    | none => rw [hl] at hh; cases hh
    | some text =>
      obtain ⟨j, v, e, rfl, h2⟩ := hb.staging text hl
      have hj : d.json g .staging = j := by
        unfold Dir.json
        rw [hl]
        exact hg.reads _ h2.canonical
      rw [hj]
      refine ⟨⟨v, e, h2⟩, fun hp => ?_⟩
      have := hp.staging _ hl
      rwa [hg.reads _ h2.canonical] at this
  · split at h
    · obtain ⟨text, j, v, e, h1, h2, h3⟩ := hb.targets
      have := Dir.signed_of hg h1 h2
      rw [h] at this
      cases this
      exact ⟨⟨v, e, h3⟩, fun hp => hp.targets _ h⟩
    · cases h

theorem nextVersion_ok {g : GenEnv} (hg : Sound g) {d : Dir} (hb : Base g d) {x : Json} (h : nextVersion g d = .ok x) :
    ∃ v, VersionAt g d .targets v ∧ x = .int (v + 1) ∧ 0 ≤ v + 1 ∧ v + 1 ≤ 4294967295 := by
  unfold nextVersion at h
  obtain ⟨text, j, v, e, h1, h2, h3⟩ := hb.targets
  have hs := Dir.signed_of hg h1 h2
  have hr := h3.range
  rw [hs, exc_bind_of_ok, h3.version, exc_bind_of_ok, asUInt_int hr.1 hr.2, exc_bind_of_ok] at h
  obtain ⟨_, ht, h⟩ := exc_bind_ok.1 h
  rw [throwIf_ok] at ht
  have : v ≠ 4294967295 := by simpa using ht
  cases h
  exact ⟨v, ⟨j, hs, h3.version, hr⟩, rfl, by omega, by omega⟩

/-- Writing the staging file. -/
theorem stage_ok {g : GenEnv} {d : Dir} (hb : Base g d) (hk : Keyed none d) {s : Json} {v : Int} {e : String} (hs : TargetsBody s v e) :
    Good g d (d.write .staging (g.env.canon s)) := by
  have ho : ∀ q, q ≠ Path.staging → (d.write .staging (g.env.canon s)).files.lookup q = d.files.lookup q := fun q hq => lookup_write_other hq
  refine ⟨?_, ?_, .of_same (fun _ _ => rfl) (fun _ => ho _ (by simp)) (ho _ (by simp)), .inl (ho _ (by simp)), .inl (ho _ (by simp))⟩
  · constructor
    · exact hb.good
    · exact hb.four
    · obtain ⟨tab, top, h⟩ := hb.roots
      exact ⟨tab, top, h.congr (fun _ _ => rfl) (fun v => ho _ (by simp)) (ho _ (by simp))⟩
    · rw [ho _ (by simp)]; exact hb.targets
    · intro n text h
      rw [ho _ (by simp)] at h
      exact hb.delegated n text h
    · intro text h
      rw [lookup_write_same] at h
      cases h
      exact ⟨s, v, e, rfl, hs⟩
    · rw [ho _ (by simp)]; exact hb.snapshot
    · rw [ho _ (by simp)]; exact hb.timestamp
  · intro n kp a b c
    rw [ho _ (by simp)]
    exact hk n kp a b c

theorem stage_plain {g : GenEnv} (hg : Sound g) {d : Dir} {s : Json} {v : Int} {e : String} (hs : TargetsBody s v e) (hp : Plain g d) (hd : s.get "delegations" = .ok .null) :
    Plain g (d.write .staging (g.env.canon s)) := by
  refine ⟨fun j hj => hp.targets j ((signed_congr (lookup_write_other (by simp))).symm.trans hj), ?_⟩
  intro text h
  rw [lookup_write_same] at h
  cases h
  rw [hg.reads _ hs.canonical]
  exact hd

theorem Synced.stage {g : GenEnv} {d : Dir} {t : String} (hs : Synced g d) : Synced g (d.write .staging t) := by
  obtain ⟨a, m, vs, es, b, vt, et, k1, k2, k3, k4, k5, k6⟩ := hs
  have hpath : ∀ role, (d.write .staging t).files.lookup (pathOf role) = d.files.lookup (pathOf role) := by
    intro role
    rcases pathOf_cases role with hc | hc <;> rw [hc] <;> exact lookup_write_other (by simp)
  refine ⟨a, m, vs, es, b, vt, et, (lookup_write_other (by simp)).trans k1, k2, ?_, (fun role hr => k4 role (hr.congr hpath)), (lookup_write_other (by simp)).trans k5, k6⟩
  intro kv hkv
  rcases k3 kv hkv with ⟨h1, x, y, v, h2, ⟨j, h3, h4⟩, h5⟩ | ⟨role, v, h1, h2, h3, h4⟩
  · exact .inl ⟨h1, x, y, v, h2, ⟨j, (signed_congr (lookup_write_other (by simp))).trans h3, h4⟩, h5⟩
  · have hp : (d.write .staging t).files.lookup (pathOf role) = d.files.lookup (pathOf role) := by
      rcases pathOf_cases role with hc | hc <;> rw [hc] <;> exact lookup_write_other (by simp)
    refine .inr ⟨role, v, h1, h2, h3, ?_⟩
    rcases h4 with h4 | ⟨h4, h5⟩
    · exact .inl (VersionAt.congr hp h4)
    · exact .inr ⟨hp.trans h4, h5⟩

/-- The staged version is above the published one. -/
def Ahead (g : GenEnv) (d : Dir) : Prop :=
  ∃ v w s, VersionAt g d .targets v ∧ staged g d = .ok s ∧ s.get "version" = .ok (.int w) ∧ v < w

theorem Ahead.congr {g : GenEnv} {d d' : Dir} (h : Ahead g d) (h1 : d'.files.lookup .targets = d.files.lookup .targets)
    (h2 : d'.files.lookup .staging = d.files.lookup .staging) : Ahead g d' := by
  obtain ⟨v, w, s, a1, a2, a3, a4⟩ := h
  refine ⟨v, w, s, a1.congr h1, ?_, a3, a4⟩
  rw [← a2]
  unfold staged Dir.has
  rw [h1, h2, signed_congr h1]
  unfold Dir.json
  rw [h2]

theorem ahead_stage {g : GenEnv} (hg : Sound g) {d : Dir} {s x : Json} {w : Int} {e : String} (hb : Base g d) (hx : nextVersion g d = .ok x) (hw : x = .int w)
    (hs : TargetsBody s w e) : Ahead g (d.write .staging (g.env.canon s)) := by
  obtain ⟨text0, j, v, e, k1, k2, hbody⟩ := hb.targets
  have hsig := Dir.signed_of hg k1 k2
  unfold nextVersion at hx
  rw [hsig, exc_bind_of_ok, hbody.version, exc_bind_of_ok, asUInt_int hbody.range.1 hbody.range.2, exc_bind_of_ok] at hx
  obtain ⟨_, _, hx⟩ := exc_bind_ok.1 hx
  cases hx
  cases hw
  refine ⟨v, v + 1, s, ⟨j, (signed_congr (lookup_write_other (by simp))).trans hsig, hbody.version, hbody.range⟩, ?_, hs.version, by omega⟩
  unfold staged Dir.has Dir.json
  rw [lookup_write_same]
  show Except.ok (g.env.parseJson (g.env.canon s)) = _
  rw [hg.reads _ hs.canonical]

/-- Adding a target. -/
theorem addTarget_ok {g : GenEnv} (hg : Sound g) {d d' : Dir} (hb : Base g d) (hk : Keyed none d) (hp : Plain g d) {name hw serial url expires : String} {target : Json}
    (ht : EntryOk target) (hc : Canonical target) (hs : ∃ e, mkEcuSerial serial = .ok e) (hh : ∃ x, mkHwId hw = .ok x) (he : expires ≠ "" → IsTime expires)
    (h : addTarget g d name target hw serial url expires = .ok d') :
    Good g d d' ∧ Synced g d' ∧ Plain g d' ∧ d'.files.lookup .targets = d.files.lookup .targets ∧ Ahead g d' := by
  unfold addTarget at h
  obtain ⟨s, h1, h⟩ := exc_bind_ok.1 h
  obtain ⟨s1, h2, h⟩ := exc_bind_ok.1 h
  obtain ⟨t, h3, h⟩ := exc_bind_ok.1 h
  obtain ⟨s2, h4, h⟩ := exc_bind_ok.1 h
  obtain ⟨x, h5, h⟩ := exc_bind_ok.1 h
  obtain ⟨s3, h6, hup⟩ := exc_bind_ok.1 h
  obtain ⟨⟨v, e, hbody⟩, hpl⟩ := staged_ok hg hb h1
  obtain ⟨hok, hcan⟩ := directorTarget_ok ht hc hs hh h3
  have hb1 : ∃ e, TargetsBody s1 v e ∧ s1.get "delegations" = s.get "delegations" := by
    split at h2
    · cases h2; exact ⟨e, hbody, rfl⟩
    · rename_i hne
      exact ⟨_, hbody.withExpires h2 (he hne), (setKey_ok h2).2.1 _ (by decide)⟩
  obtain ⟨e1, hb1, hd1⟩ := hb1
  obtain ⟨w, hw, rfl, hr⟩ := nextVersion_ok hg hb h5
  have hb3 := (hb1.withEntry h4 hok hcan).withVersion h6 hr
  have hd3 : s3.get "delegations" = .ok .null := by
    rw [(setKey_ok h6).2.1 _ (by decide), setPath_other h4 (by decide), hd1]
    exact hpl hp
  have hgood := stage_ok hb hk hb3
  obtain ⟨q1, q2, q3⟩ := updateRepo_good hg hgood.base hgood.keyed hup
  exact ⟨hgood.trans q1, q2, (stage_plain hg hb3 hp hd3).resync q3, (q3.files _ (by simp) (by simp)).trans (lookup_write_other (by simp)),
    (ahead_stage hg hb h5 rfl hb3).congr (q3.files _ (by simp) (by simp)) (q3.files _ (by simp) (by simp))⟩

theorem put_plain {g : GenEnv} (hg : Sound g) {d d' : Dir} {s : Json} {text : String} (hp : Plain g d) (ho : Only .targets d d')
    (hw : d'.files.lookup .targets = some text ∧ Wrote g d'.keys "targets" s text) (hd : s.get "delegations" = .ok .null) : Plain g d' := by
  refine ⟨?_, fun t ht => hp.staging t ((ho.files _ (by simp)).symm.trans ht)⟩
  intro j hj
  rw [Dir.signed_of hg hw.1 hw.2] at hj
  cases hj
  exact hd

/-- Publishing what is staged. -/
theorem signTargets_ok {g : GenEnv} (hg : Sound g) {d d' : Dir} (hb : Base g d) (hk : Keyed none d) (hp : Plain g d) (h : signTargets g d = .ok d') :
    Good g d d' ∧ Synced g d' ∧ Plain g d' ∧ (Ahead g d → Later g .targets d d') := by
  unfold signTargets at h
  obtain ⟨s, h1, h⟩ := exc_bind_ok.1 h
  obtain ⟨⟨d1, text⟩, h2, h⟩ := exc_bind_ok.1 h
  dsimp only at h
  obtain ⟨⟨v, e, hbody⟩, hpl⟩ := staged_ok hg hb h1
  have h2' : writeSigned g d (pathOf Role.targets) Role.targets.name s = .ok (d1, text) := h2
  have hgood := put_good hb hk (.inl rfl) hbody h2'
  obtain ⟨-, p2, p3, -⟩ := put_ok hb (.inl rfl) hbody h2'
  have hpl1 := put_plain hg hp p2 p3 (hpl hp)
  have ho : ∀ q, q ≠ Path.staging → (d1.remove .staging).files.lookup q = d1.files.lookup q := fun q hq => lookup_remove_other hq
  have hgood2 : Good g d1 (d1.remove .staging) := by
    refine ⟨hgood.base.remove (.inr rfl), ?_, .of_same (fun _ _ => rfl) (fun _ => ho _ (by simp)) (ho _ (by simp)), .inl (ho _ (by simp)), .inl (ho _ (by simp))⟩
    intro n kp a b c
    rw [ho _ (by simp)]
    exact hgood.keyed n kp a b c
  have hpl2 : Plain g (d1.remove .staging) := by
    refine ⟨fun j hj => hpl1.targets j ((signed_congr (ho _ (by simp))).symm.trans hj), ?_⟩
    intro t ht
    rw [lookup_remove_same] at ht
    cases ht
  obtain ⟨q1, q2, q3⟩ := updateRepo_good hg hgood2.base hgood2.keyed h
  refine ⟨(hgood.trans hgood2).trans q1, q2, hpl2.resync q3, ?_⟩
  rintro ⟨v0, w, s0, a1, a2, a3, a4⟩
  rw [h1] at a2
  cases a2
  rw [hbody.version] at a3
  cases a3
  refine .inr ⟨v0, v, a1, ?_, a4⟩
  exact (signed_at hg p3.1 p3.2 hbody.version hbody.range).congr ((q3.files _ (by simp) (by simp)).trans (ho _ (by simp)))

/-- Revoking targets. -/
theorem revokeTargets_ok {g : GenEnv} (hg : Sound g) {d d' : Dir} (hb : Base g d) (hk : Keyed none d) (hp : Plain g d) {names : List String}
    (h : revokeTargets g d names = .ok d') : Good g d d' ∧ Synced g d' ∧ Plain g d' ∧ Later g .targets d d' := by
  unfold revokeTargets at h
  obtain ⟨text0, j, v, e, k1, k2, hbody⟩ := hb.targets
  have hsig := Dir.signed_of hg k1 k2
  rw [hsig, exc_bind_of_ok] at h
  obtain ⟨ts, h1, h⟩ := exc_bind_ok.1 h
  obtain ⟨s1, h2, h⟩ := exc_bind_ok.1 h
  obtain ⟨s2, h3, h⟩ := exc_bind_ok.1 h
  obtain ⟨⟨d1, text⟩, h4, h⟩ := exc_bind_ok.1 h
  dsimp only at h
  obtain ⟨ts0, a1, a2, a3⟩ := hbody.targets
  rw [h1] at a1
  cases a1
  have hcan := get_canonical hbody.canonical h1
  have hb2 := (hbody.withTargets h2 (by split; exact .inl rfl; exact .inr ⟨_, rfl⟩)
    (by
      split
      · simp [Json.entries]
      · intro kv hkv
        exact a3 kv (List.mem_filter.1 (show kv ∈ List.filter _ _ from hkv)).1)
    (by
      split
      · exact .null
      · rcases a2 with rfl | ⟨l, rfl⟩
        · exact .obj (by simp [Json.entries]) (by simp [Json.entries])
        · exact .obj (hcan.sorted.sublist List.filter_sublist) (fun kv hkv => hcan.members kv (List.mem_filter.1 hkv).1))).bump' h3
  have h4' : writeSigned g d (pathOf Role.targets) Role.targets.name s2 = .ok (d1, text) := h4
  have hgood := put_good hb hk (.inl rfl) hb2 h4'
  obtain ⟨-, p2, p3, -⟩ := put_ok hb (.inl rfl) hb2 h4'
  have hv2 := bump_ok (hbody.withTargets h2 (by split; exact .inl rfl; exact .inr ⟨_, rfl⟩)
    (by
      split
      · simp [Json.entries]
      · intro kv hkv
        exact a3 kv (List.mem_filter.1 (show kv ∈ List.filter _ _ from hkv)).1)
    (by
      split
      · exact .null
      · rcases a2 with rfl | ⟨l, rfl⟩
        · exact .obj (by simp [Json.entries]) (by simp [Json.entries])
        · exact .obj (hcan.sorted.sublist List.filter_sublist) (fun kv hkv => hcan.members kv (List.mem_filter.1 hkv).1))).version hbody.range h3
  have hd : s2.get "delegations" = .ok .null := by
    rw [(setKey_ok hv2.2).2.1 _ (by decide), (setKey_ok h2).2.1 _ (by decide)]
    exact hp.targets _ hsig
  have hpl1 := put_plain hg hp p2 p3 hd
  obtain ⟨q1, q2, q3⟩ := updateRepo_good hg hgood.base hgood.keyed h
  refine ⟨hgood.trans q1, q2, hpl1.resync q3, .inr ⟨v, v + 1, ⟨_, hsig, hbody.version, hbody.range⟩, ?_, by omega⟩⟩
  exact (signed_at hg p3.1 p3.2 hb2.version hb2.range).congr (q3.files _ (by simp) (by simp))

theorem emptied_body {s0 s1 s2 s3 s4 s5 : Json} {w : Int} {e cor : String} (h0 : s0 = .null ∨ ∃ v e, TargetsBody s0 v e) (he : IsTime e)
    (hw : 0 ≤ w ∧ w ≤ 4294967295) (h1 : setKey s0 "_type" (.str "Targets") = .ok s1) (h2 : setKey s1 "expires" (.str e) = .ok s2)
    (h3 : setKey s2 "version" (.int w) = .ok s3) (h4 : setKey s3 "targets" (.obj []) = .ok s4)
    (h5 : (if cor = "" then .ok s4 else setPath s4 ["custom", "correlationId"] (.str cor)) = .ok s5) :
    TargetsBody s5 w e ∧ s5.get "delegations" = s0.get "delegations" := by
  obtain ⟨a1, b1, -, c1⟩ := setKey_ok h1
  obtain ⟨a2, b2, -, c2⟩ := setKey_ok h2
  obtain ⟨a3, b3, -, c3⟩ := setKey_ok h3
  obtain ⟨a4, b4, o4, c4⟩ := setKey_ok h4
  have hc0 : Canonical s0 := by
    rcases h0 with rfl | ⟨v, e, h⟩
    · exact .null
    · exact h.canonical
  have hc4 := c4 (c3 (c2 (c1 hc0 (.str _)) (.str _)) (.int (by omega) (by omega))) (.obj (by simp) (by simp))
  have hdl : s4.get "delegations" = s0.get "delegations" := by
    rw [b4 _ (by decide), b3 _ (by decide), b2 _ (by decide), b1 _ (by decide)]
  have hcu : s4.get "custom" = s0.get "custom" := by
    rw [b4 _ (by decide), b3 _ (by decide), b2 _ (by decide), b1 _ (by decide)]
  have hdl0 : ∃ dl, s0.get "delegations" = .ok dl ∧ (dl = .null ∨ DelegationsOk dl) := by
    rcases h0 with rfl | ⟨v, e, h⟩
    · exact ⟨.null, rfl, .inl rfl⟩
    · exact h.delegations
  have hcu0 : ∃ c, s0.get "custom" = .ok c ∧ (c = .null ∨ ∃ l cid s, c = .obj l ∧ c.get "correlationId" = .ok cid ∧ cid.asString = .ok s) := by
    rcases h0 with rfl | ⟨v, e, h⟩
    · exact ⟨.null, rfl, .inl rfl⟩
    · exact h.custom
  have t4 : s4.get "_type" = .ok (.str "Targets") := by
    rw [b4 _ (by decide), b3 _ (by decide), b2 _ (by decide)]; exact a1
  have e4 : s4.get "expires" = .ok (.str e) := by
    rw [b4 _ (by decide), b3 _ (by decide)]; exact a2
  have v4 : s4.get "version" = .ok (.int w) := by
    rw [b4 _ (by decide)]; exact a3
  split at h5
  · cases h5
    exact ⟨⟨hc4, t4, v4, hw, e4, he, ⟨_, a4, .inr ⟨_, rfl⟩, by simp [Json.entries]⟩, by rw [hdl]; exact hdl0, by rw [hcu]; exact hcu0⟩, hdl⟩
  · have hc5 := setPath_canonical h5 hc4 (.str _)
    have ho := fun {k : String} => setPath_other h5 (k' := k)
    obtain ⟨c, c', g1, g2, g3⟩ := setPath_cons h5
    obtain ⟨y, y', g4, g5, g6⟩ := setPath_cons g2
    cases g5
    obtain ⟨l, rfl⟩ := (setKey_ok g6).2.2.1
    refine ⟨⟨hc5, ?_, ?_, hw, ?_, he, ?_, ?_, ⟨_, (setKey_ok g3).1, .inr ⟨l, _, _, rfl, (setKey_ok g6).1, rfl⟩⟩⟩, ?_⟩
    · rw [ho (by decide)]; exact t4
    · rw [ho (by decide)]; exact v4
    · rw [ho (by decide)]; exact e4
    · rw [ho (by decide)]; exact ⟨_, a4, .inr ⟨_, rfl⟩, by simp [Json.entries]⟩
    · rw [ho (by decide), hdl]; exact hdl0
    · rw [ho (by decide)]; exact hdl

/-- Staging empty Targets. -/
theorem emptyTargets_ok {g : GenEnv} (hg : Sound g) {d d' : Dir} (hb : Base g d) (hk : Keyed none d) (hp : Plain g d) (hs : Synced g d) {e cor : String} (he : IsTime e)
    (h : emptyTargets g d e cor = .ok d') : Good g d d' ∧ Synced g d' ∧ Plain g d' ∧ d'.files.lookup .targets = d.files.lookup .targets ∧
      Ahead g d' := by
  unfold emptyTargets at h
  obtain ⟨s1, h1, h⟩ := exc_bind_ok.1 h
  obtain ⟨s2, h2, h⟩ := exc_bind_ok.1 h
  obtain ⟨x, hx, h⟩ := exc_bind_ok.1 h
  obtain ⟨s3, h3, h⟩ := exc_bind_ok.1 h
  obtain ⟨s4, h4, h⟩ := exc_bind_ok.1 h
  obtain ⟨s5, h5, h⟩ := exc_bind_ok.1 h
  cases h
  obtain ⟨w, hw, rfl, hr⟩ := nextVersion_ok hg hb hx
  have h0 : d.json g .staging = .null ∨ ∃ v e, TargetsBody (d.json g .staging) v e := by
    unfold Dir.json
    cases hl : d.files.lookup .staging with
    | none => exact .inl rfl
    | some text =>
      obtain ⟨j, v, e, rfl, h2⟩ := hb.staging text hl
      right
      exact ⟨v, e, by show TargetsBody (g.env.parseJson (g.env.canon j)) v e; rw [hg.reads _ h2.canonical]; exact h2⟩
  obtain ⟨hb5, hd5⟩ := emptied_body h0 he hr h1 h2 h3 h4 h5
  have hd0 : (d.json g .staging).get "delegations" = .ok .null := by
    unfold Dir.json
    cases hl : d.files.lookup .staging with
    | none => rfl
    | some text => exact hp.staging text hl
  refine ⟨stage_ok hb hk hb5, ?_, stage_plain hg hb5 hp (hd5.trans hd0), lookup_write_other (by simp), ahead_stage hg hb hx rfl hb5⟩
  exact hs.stage

/-- Staging the published Targets. -/
theorem oldTargets_ok {g : GenEnv} (hg : Sound g) {d d' : Dir} (hb : Base g d) (hk : Keyed none d) (hp : Plain g d) (hs : Synced g d) (h : oldTargets g d = .ok d') :
    Good g d d' ∧ Synced g d' ∧ Plain g d' ∧ d'.files.lookup .targets = d.files.lookup .targets := by
  unfold oldTargets at h
  obtain ⟨_, h1, h⟩ := exc_bind_ok.1 h
  obtain ⟨s, h2, h⟩ := exc_bind_ok.1 h
  cases h
  obtain ⟨text0, j, v, e, k1, k2, hbody⟩ := hb.targets
  have hsig := Dir.signed_of hg k1 k2
  rw [h2] at hsig
  cases hsig
  exact ⟨stage_ok hb hk hbody, hs.stage, stage_plain hg hbody hp (hp.targets _ h2), lookup_write_other (by simp)⟩

/-! ### Refreshing -/

theorem refreshed_ok {s s' : Json} {now : TimeStamp} {soon e : String} {v : Int} (he : s.get "expires" = .ok (.str e)) (hv : s.get "version" = .ok (.int v))
    (hr : 0 ≤ v ∧ v ≤ 4294967295) (h : refreshed s now soon = .ok s') :
    v + 1 ≤ 4294967295 ∧ (setKey s "version" (.int (v + 1)) = .ok s' ∨
      ∃ s1, setKey s "expires" (.str soon) = .ok s1 ∧ setKey s1 "version" (.int (v + 1)) = .ok s') := by
  unfold refreshed at h
  rw [he, exc_bind_of_ok, show (Json.str e).asString = .ok e from rfl, exc_bind_of_ok] at h
  cases ht : TimeStamp.parse e with
  | none => rw [ht] at h; cases h
  | some t =>
    rw [ht] at h
    dsimp only at h
    obtain ⟨s1, h1, h⟩ := exc_bind_ok.1 h
    split at h1
    · obtain ⟨a, b⟩ := bump_ok (by rw [(setKey_ok h1).2.1 _ (by decide)]; exact hv) hr h
      exact ⟨a, .inr ⟨s1, h1, b⟩⟩
    · cases h1
      obtain ⟨a, b⟩ := bump_ok hv hr h
      exact ⟨a, .inl b⟩

theorem rootWith_canonical {g : GenEnv} {tab : List (String × Json)} {keys : List (String × KeyPair)} {v : Int} {e : String} (ht : KeyTable g keys tab)
    (h0 : 0 ≤ v) (h1 : v ≤ 4294967295) : Canonical (rootWith g tab keys v e) := by
  have hr : ∀ r, Canonical (roleEntry g { keys := keys } r) := by
    intro r
    refine .obj (by simp; decide) ?_
    intro kv hkv
    simp at hkv
    rcases hkv with rfl | rfl
    · exact .arr (by simpa using .str _)
    · exact .int (by decide) (by decide)
  refine .obj (by simp; decide) ?_
  intro kv hkv
  simp at hkv
  rcases hkv with rfl | rfl | rfl | rfl | rfl
  · exact .str _
  · exact .str _
  · refine .obj ht.sorted ?_
    intro kv hkv
    obtain ⟨k, hk, -⟩ := ht.only kv hkv
    rw [hk]
    exact toUptane_canonical k
  · refine .obj (by simp; decide) ?_
    intro kv hkv
    simp at hkv
    rcases hkv with rfl | rfl | rfl | rfl <;> exact hr _
  · exact .int (by omega) (by omega)

theorem RootFiles.unique {g : GenEnv} (hg : Sound g) {d : Dir} {tab tab' : List (String × Json)} {top top' : Int} (h : RootFiles g d tab top)
    (h' : RootFiles g d tab' top') : tab' = tab ∧ top' = top := by
  have t1 := h.one
  have t2 := h'.one
  have hle : ∀ {t t' : List (String × Json)} {a b : Int}, RootFiles g d t a → RootFiles g d t' b → a ≤ b := by
    intro t t' a b ha hb
    rcases Decidable.em (b < a) with hlt | hge
    · obtain ⟨e, text, hx, -⟩ := ha.all a ha.one (Int.le_refl _)
      rw [hb.none a (.inr hlt)] at hx
      cases hx
    · omega
  obtain ⟨e, text, a1, a2, -⟩ := h.all 1 (by omega) t1
  obtain ⟨e', text', b1, b2, -⟩ := h'.all 1 (by omega) t2
  have c1 := Dir.signed_of hg a1 a2
  have c2 := Dir.signed_of hg b1 b2
  rw [c1] at c2
  refine ⟨?_, Int.le_antisymm (hle h' h) (hle h h')⟩
  unfold rootWith at c2
  simp only [Except.ok.injEq, Json.obj.injEq, List.cons.injEq, Prod.mk.injEq] at c2
  exact c2.2.2.1.2.symm

/-- A new Root. -/
theorem newRoot_good {g : GenEnv} (hg : Sound g) {d d1 : Dir} (hb : Base g d) (hk : Keyed none d) {tab : List (String × Json)} {top : Int} {e text : String}
    (hr : RootFiles g d tab top) (he : IsTime e) (htop : top + 1 ≤ 4294967295) (h : writeSigned g d .root "root" (rootWith g tab d.keys (top + 1) e) = .ok (d1, text)) :
    Good g d (d1.write (.numbered (top + 1)) text) ∧ ∀ q, q ≠ .root → q ≠ .numbered (top + 1) → (d1.write (.numbered (top + 1)) text).files.lookup q = d.files.lookup q := by
  have h1 := hr.one
  obtain ⟨w1, w2, w3, w4⟩ := writeSigned_ok h (rootWith_canonical hr.table (by omega) htop)
  have ho : ∀ q, q ≠ .root → q ≠ .numbered (top + 1) → (d1.write (.numbered (top + 1)) text).files.lookup q = d.files.lookup q :=
    fun q hq hn => (lookup_write_other hn).trans (w4 q hq)
  have hkeys : (d1.write (.numbered (top + 1)) text).keys = d.keys := w2
  have hmore : RootFiles g (d1.write (.numbered (top + 1)) text) tab (top + 1) := by
    refine ⟨by rw [hkeys]; exact hr.table, by omega, htop, ?_, ?_, ?_⟩
    · intro v hv1 hv2
      by_cases hv : v = top + 1
      · subst hv
        exact ⟨e, text, lookup_write_same, by rw [hkeys]; exact w1, he⟩
      · rw [ho _ (by simp) (by simpa using hv), hkeys]
        exact hr.all v hv1 (by omega)
    · intro v hv
      rw [ho _ (by simp) (by simp; omega)]
      exact hr.none v (by omega)
    · rw [lookup_write_same, lookup_write_other (by simp)]
      exact w3
  refine ⟨⟨?_, ?_, ?_, .inl (ho _ (by simp) (by simp)), .inl (ho _ (by simp) (by simp))⟩, ho⟩
  · constructor
    · rw [hkeys]; exact hb.good
    · rw [hkeys]; exact hb.four
    · exact ⟨tab, _, hmore⟩
    · rw [ho _ (by simp) (by simp), hkeys]; exact hb.targets
    · intro n t
      rw [ho _ (by simp) (by simp), hkeys]
      exact hb.delegated n t
    · rw [ho _ (by simp) (by simp)]; exact hb.staging
    · rw [ho _ (by simp) (by simp), hkeys]; exact hb.snapshot
    · rw [ho _ (by simp) (by simp), hkeys]; exact hb.timestamp
  · intro n kp a b c
    rw [ho _ (by simp) (by simp)]
    exact hk n kp (hkeys ▸ a) b c
  · intro tab' top' hr'
    obtain ⟨rfl, rfl⟩ := hr.unique hg hr'
    exact ⟨_, by omega, hmore, fun v hv => ho _ (by simp) (by simp; omega)⟩

theorem ofName_five (n : String) : Role.ofName n = Role.root ∨ Role.ofName n = Role.snapshot ∨ Role.ofName n = Role.targets ∨ Role.ofName n = Role.timestamp ∨
    Role.ofName n = Role.invalid := by
  unfold Role.ofName
  simp only
  by_cases h1 : lower n = "root"
  · rw [if_pos h1, h1]; exact .inl rfl
  rw [if_neg h1]
  by_cases h2 : lower n = "snapshot"
  · rw [if_pos h2, h2]; exact .inr (.inl rfl)
  rw [if_neg h2]
  by_cases h3 : lower n = "targets"
  · rw [if_pos h3, h3]; exact .inr (.inr (.inl rfl))
  rw [if_neg h3]
  by_cases h4 : lower n = "timestamp"
  · rw [if_pos h4, h4]; exact .inr (.inr (.inr (.inl rfl)))
  rw [if_neg h4]; exact .inr (.inr (.inr (.inr rfl)))

/-- A new Snapshot or Timestamp file. -/
theorem Base.patch {g : GenEnv} {d d1 : Dir} (hb : Base g d) (hk : Keyed none d) {p : Path} (hp : p = .snapshot ∨ p = .timestamp) (ho : Only p d d1)
    (hsn : ∃ text m v e, d1.files.lookup .snapshot = some text ∧ Wrote g d1.keys "snapshot" (snapshotWith e m v) text ∧ IsTime e ∧ 0 ≤ v ∧ v ≤ 4294967295)
    (hts : ∃ text a b l w v e, d1.files.lookup .timestamp = some text ∧ Wrote g d1.keys "timestamp" (timestampWith e a b l w v) text ∧
      IsTime e ∧ 0 ≤ v ∧ v ≤ 4294967295) : Base g d1 ∧ Keyed none d1 ∧ RootsMore g d d1 ∧ d1.files.lookup .targets = d.files.lookup .targets ∧
      d1.files.lookup .staging = d.files.lookup .staging := by
  have hq : ∀ q, q ≠ .snapshot → q ≠ .timestamp → d1.files.lookup q = d.files.lookup q := by
    intro q h1 h2
    refine ho.files q ?_
    rcases hp with rfl | rfl
    · exact h1
    · exact h2
  refine ⟨?_, ?_, .of_same (fun _ _ => by rw [ho.keys]) (fun _ => hq _ (by simp) (by simp)) (hq _ (by simp) (by simp)), hq _ (by simp) (by simp), hq _ (by simp) (by simp)⟩
  · constructor
    · rw [ho.keys]; exact hb.good
    · rw [ho.keys]; exact hb.four
    · obtain ⟨tab, top, h⟩ := hb.roots
      exact ⟨tab, top, h.congr (fun _ _ => by rw [ho.keys]) (fun v => hq _ (by simp) (by simp)) (hq _ (by simp) (by simp))⟩
    · rw [hq _ (by simp) (by simp), ho.keys]; exact hb.targets
    · intro n text
      rw [hq _ (by simp) (by simp), ho.keys]
      exact hb.delegated n text
    · rw [hq _ (by simp) (by simp)]; exact hb.staging
    · exact hsn
    · exact hts
  · intro n kp a b c
    rw [hq _ (by simp) (by simp)]
    exact hk n kp (ho.keys ▸ a) b c

/-- Refreshing a top-level role. -/
theorem refresh_ok {g : GenEnv} (hg : Sound g) {repo : Repo} {d d' : Dir} (hb : Base g d) (hk : Keyed none d) {name soon : String} {now : TimeStamp} (hs : IsTime soon)
    (h : refresh g repo d (Role.ofName name) now soon = .ok d') :
    Good g d d' ∧ Synced g d' ∧ (Plain g d → Plain g d') ∧ Later g .targets d d' ∧
      (Role.ofName name ≠ Role.targets → d'.files.lookup .targets = d.files.lookup .targets ∧ d'.files.lookup .staging = d.files.lookup .staging) := by
  unfold refresh at h
  obtain ⟨_, h1, h⟩ := exc_bind_ok.1 h
  rcases ofName_five name with hn | hn | hn | hn | hn
  all_goals rw [hn] at h h1
  · -- Root
    obtain ⟨s0, h2, h⟩ := exc_bind_ok.1 h
    obtain ⟨s, h3, h⟩ := exc_bind_ok.1 h
    obtain ⟨⟨d1, text⟩, h4, h⟩ := exc_bind_ok.1 h
    dsimp only at h
    obtain ⟨vj, h5, h⟩ := exc_bind_ok.1 h
    obtain ⟨v, h6, hup⟩ := exc_bind_ok.1 h
    obtain ⟨tab, top, hr⟩ := hb.roots
    have hone := hr.one
    obtain ⟨e, text0, a1, a2, a3⟩ := hr.all top hr.one (Int.le_refl _)
    have hsig := Dir.signed_of hg (hr.last.trans a1) a2
    rw [hsig] at h2
    cases h2
    have hs' : ∃ e', IsTime e' ∧ s = rootWith g tab d.keys (top + 1) e' ∧ top + 1 ≤ 4294967295 := by
      obtain ⟨b1, b2⟩ := refreshed_ok (e := e) (v := top) rfl rfl ⟨by omega, hr.range⟩ h3
      rcases b2 with b2 | ⟨s1, b2, b3⟩
      · cases b2; exact ⟨e, a3, rfl, b1⟩
      · cases b2; cases b3; exact ⟨soon, hs, rfl, b1⟩
    obtain ⟨e', he', rfl, htop⟩ := hs'
    cases h5
    have h6' : asUInt (.int (top + 1)) = .ok v := h6
    rw [asUInt_int (by omega) htop] at h6'
    cases h6'
    have hgood := newRoot_good hg hb hk hr he' htop h4
    have hup : updateRepo g (d1.write (.numbered (top + 1)) text) = .ok d' := hup
    obtain ⟨q1, q2, q3⟩ := updateRepo_good hg hgood.1.base hgood.1.keyed hup
    have ht := hgood.2 .targets (by simp) (by simp)
    exact ⟨hgood.1.trans q1, q2, fun hp => (hp.congr ht (hgood.2 .staging (by simp) (by simp))).resync q3, .inl ((q3.files _ (by simp) (by simp)).trans ht),
      fun _ => ⟨(q3.files _ (by simp) (by simp)).trans ht, (q3.files _ (by simp) (by simp)).trans (hgood.2 .staging (by simp) (by simp))⟩⟩
  · -- Snapshot
    obtain ⟨s0, h2, h⟩ := exc_bind_ok.1 h
    obtain ⟨s, h3, h⟩ := exc_bind_ok.1 h
    obtain ⟨⟨d1, text⟩, h4, h⟩ := exc_bind_ok.1 h
    dsimp only at h
    obtain ⟨vj, h5, h⟩ := exc_bind_ok.1 h
    obtain ⟨v, h6, hup⟩ := exc_bind_ok.1 h
    obtain ⟨text0, m, v0, e, a1, a2, a3, a4, a5⟩ := hb.snapshot
    have hsig := Dir.signed_of hg a1 a2
    rw [hsig] at h2
    cases h2
    have hs' : ∃ e', IsTime e' ∧ s = snapshotWith e' m (v0 + 1) ∧ v0 + 1 ≤ 4294967295 := by
      obtain ⟨b1, b2⟩ := refreshed_ok (e := e) (v := v0) rfl rfl ⟨a4, a5⟩ h3
      rcases b2 with b2 | ⟨s1, b2, b3⟩
      · cases b2; exact ⟨e, a3, rfl, b1⟩
      · cases b2; cases b3; exact ⟨soon, hs, rfl, b1⟩
    obtain ⟨e', he', rfl, htop⟩ := hs'
    have hcm : Canonical (.obj m) := get_canonical a2.1 (show (snapshotWith e m v0).get "meta" = _ from rfl)
    obtain ⟨w1, w2, w3, w4⟩ := writeSigned_ok h4 (snapshotWith_canonical hcm (by omega) htop)
    have hw : Wrote g d1.keys "snapshot" (snapshotWith e' m (v0 + 1)) text := by rw [w2]; exact w1
    obtain ⟨c1, c2, c3, c4, c5⟩ := hb.patch hk (.inl rfl) ⟨w2, w4⟩ ⟨text, m, v0 + 1, e', w3, hw, he', by omega, htop⟩
      (by rw [w4 _ (by simp), w2]; exact hb.timestamp)
    have hgood : Good g d d1 := ⟨c1, c2, c3, .inr ⟨v0, v0 + 1, ⟨_, hsig, rfl, a4, a5⟩, ⟨_, Dir.signed_of hg w3 hw, rfl, by omega, htop⟩, by omega⟩, .inl (w4 _ (by simp))⟩
    have hup : updateRepo g d1 = .ok d' := hup
    obtain ⟨q1, q2, q3⟩ := updateRepo_good hg hgood.base hgood.keyed hup
    exact ⟨hgood.trans q1, q2, fun hp => (hp.congr c4 c5).resync q3, .inl ((q3.files _ (by simp) (by simp)).trans c4),
      fun _ => ⟨(q3.files _ (by simp) (by simp)).trans c4, (q3.files _ (by simp) (by simp)).trans c5⟩⟩
  · -- Targets
    obtain ⟨s0, h2, h⟩ := exc_bind_ok.1 h
    obtain ⟨s, h3, h⟩ := exc_bind_ok.1 h
    obtain ⟨⟨d1, text⟩, h4, h⟩ := exc_bind_ok.1 h
    dsimp only at h
    obtain ⟨vj, h5, h⟩ := exc_bind_ok.1 h
    obtain ⟨v, h6, hup⟩ := exc_bind_ok.1 h
    obtain ⟨text0, j, v0, e, a1, a2, a3⟩ := hb.targets
    have hsig := Dir.signed_of hg a1 a2
    rw [hsig] at h2
    cases h2
    have hs' : ∃ e', TargetsBody s (v0 + 1) e' ∧ s.get "delegations" = s0.get "delegations" := by
      obtain ⟨b1, b2⟩ := refreshed_ok a3.expires a3.version a3.range h3
      have hr := a3.range
      rcases b2 with b2 | ⟨s1, b2, b3⟩
      · exact ⟨e, a3.withVersion b2 ⟨by omega, b1⟩, (setKey_ok b2).2.1 _ (by decide)⟩
      · exact ⟨soon, (a3.withExpires b2 hs).withVersion b3 ⟨by omega, b1⟩, ((setKey_ok b3).2.1 _ (by decide)).trans ((setKey_ok b2).2.1 _ (by decide))⟩
    obtain ⟨e', hb2, hd2⟩ := hs'
    have h4' : writeSigned g d (pathOf Role.targets) Role.targets.name s = .ok (d1, text) := h4
    have hgood := put_good hb hk (.inl rfl) hb2 h4'
    obtain ⟨-, p2, p3, -⟩ := put_ok hb (.inl rfl) hb2 h4'
    have hup : updateRepo g d1 = .ok d' := hup
    obtain ⟨q1, q2, q3⟩ := updateRepo_good hg hgood.base hgood.keyed hup
    refine ⟨hgood.trans q1, q2, fun hp => (put_plain hg hp p2 p3 (hd2.trans (hp.targets _ hsig))).resync q3,
      .inr ⟨v0, v0 + 1, ⟨_, hsig, a3.version, a3.range⟩, ?_, by omega⟩, fun hne => absurd hn hne⟩
    exact (signed_at hg p3.1 p3.2 hb2.version hb2.range).congr (q3.files _ (by simp) (by simp))
  · -- Timestamp
    obtain ⟨s0, h2, h⟩ := exc_bind_ok.1 h
    obtain ⟨s, h3, h⟩ := exc_bind_ok.1 h
    obtain ⟨⟨d1, text⟩, h4, h⟩ := exc_bind_ok.1 h
    dsimp only at h
    obtain ⟨vj, h5, h⟩ := exc_bind_ok.1 h
    obtain ⟨v, h6, hup⟩ := exc_bind_ok.1 h
    obtain ⟨text0, a, b, l, w, v0, e, a1, a2, a3, a4, a5⟩ := hb.timestamp
    have hsig := Dir.signed_of hg a1 a2
    rw [hsig] at h2
    cases h2
    have hs' : ∃ e', IsTime e' ∧ s = timestampWith e' a b l w (v0 + 1) ∧ v0 + 1 ≤ 4294967295 ∧ Canonical s := by
      obtain ⟨b1, b2⟩ := refreshed_ok (e := e) (v := v0) rfl rfl ⟨a4, a5⟩ h3
      rcases b2 with b2 | ⟨s1, b2, b3⟩
      · have hc := (setKey_ok b2).2.2.2 a2.1 (.int (by omega) (by omega))
        cases b2; exact ⟨e, a3, rfl, b1, hc⟩
      · have hc := (setKey_ok b3).2.2.2 ((setKey_ok b2).2.2.2 a2.1 (.str _)) (.int (by omega) (by omega))
        cases b2; cases b3; exact ⟨soon, hs, rfl, b1, hc⟩
    obtain ⟨e', he', rfl, htop, hcan⟩ := hs'
    obtain ⟨w1, w2, w3, w4⟩ := writeSigned_ok h4 hcan
    have hw : Wrote g d1.keys "timestamp" (timestampWith e' a b l w (v0 + 1)) text := by rw [w2]; exact w1
    obtain ⟨c1, c2, c3, c4, c5⟩ := hb.patch hk (.inr rfl) ⟨w2, w4⟩ (by rw [w4 _ (by simp), w2]; exact hb.snapshot)
      ⟨text, a, b, l, w, v0 + 1, e', w3, hw, he', by omega, htop⟩
    have hgood : Good g d d1 := ⟨c1, c2, c3, .inl (w4 _ (by simp)), .inr ⟨v0, v0 + 1, ⟨_, hsig, rfl, a4, a5⟩, ⟨_, Dir.signed_of hg w3 hw, rfl, by omega, htop⟩, by omega⟩⟩
    have hup : updateRepo g d1 = .ok d' := hup
    obtain ⟨q1, q2, q3⟩ := updateRepo_good hg hgood.base hgood.keyed hup
    exact ⟨hgood.trans q1, q2, fun hp => (hp.congr c4 c5).resync q3, .inl ((q3.files _ (by simp) (by simp)).trans c4),
      fun _ => ⟨(q3.files _ (by simp) (by simp)).trans c4, (q3.files _ (by simp) (by simp)).trans c5⟩⟩
  · cases h

end Aktualizr.Gen
