import Verif.Lemmas.GenSnapshot

/-! # Lemmas on the generator: content of the Targets roles -/

namespace Aktualizr.Gen

open Spec

/-! ### Entries -/

theorem get_ok_of_obj {j : Json} (h : j = .null ∨ ∃ l, j = .obj l) (k : String) : ∃ x, j.get k = .ok x := by
  rcases h with rfl | ⟨l, rfl⟩
  · exact ⟨_, rfl⟩
  · exact ⟨_, rfl⟩

theorem obj_of_get {j x : Json} {k : String} (h : j.get k = .ok x) : j = .null ∨ ∃ l, j = .obj l := by
  cases j <;> first | cases h | skip
  · exact .inl rfl
  · exact .inr ⟨_, rfl⟩

theorem isMember_get {j x : Json} {k : String} (h : j.get k = .ok x) : ∃ b, j.isMember k = .ok b ∧ (b = false → x = .null) := by
  cases j <;> first | (cases h; done) | skip
  · cases h; exact ⟨false, rfl, fun _ => rfl⟩
  · rename_i kvs
    refine ⟨_, rfl, ?_⟩
    intro hb
    have hx : (kvs.lookup k).getD .null = x := by simpa [Json.get] using h
    cases hl : kvs.lookup k with
    | none => rw [hl] at hx; exact hx.symm
    | some y => rw [hl] at hb; cases hb

theorem parseHwids_iff : ∀ (l : List Json), (∃ r, parseHwids l = .ok r) ↔ ∀ j ∈ l, ∃ s, j.asString = .ok s ∧ ∃ h, mkHwId s = .ok h
  | [] => by simp [parseHwids]
  | j :: l => by
    have ih := parseHwids_iff l
    constructor
    · rintro ⟨r, h⟩
      unfold parseHwids at h
      obtain ⟨s, h1, h⟩ := exc_bind_ok.1 h
      obtain ⟨x, h2, h⟩ := exc_bind_ok.1 h
      obtain ⟨y, h3, h⟩ := exc_bind_ok.1 h
      intro j' hj'
      rcases List.mem_cons.1 hj' with rfl | hj'
      · exact ⟨s, h1, x, h2⟩
      · exact ih.1 ⟨y, h3⟩ j' hj'
    · intro h
      obtain ⟨s, h1, x, h2⟩ := h j List.mem_cons_self
      obtain ⟨r, hr⟩ := ih.2 (fun j' hj' => h j' (List.mem_cons_of_mem _ hj'))
      unfold parseHwids
      exact ⟨_, exc_bind_ok.2 ⟨s, h1, exc_bind_ok.2 ⟨x, h2, exc_bind_ok.2 ⟨r, hr, rfl⟩⟩⟩⟩

def EcuOk (kv : String × Json) : Prop :=
  (∃ e, mkEcuSerial kv.1 = .ok e) ∧ ∃ x s h, kv.2.get "hardwareId" = .ok x ∧ x.asString = .ok s ∧ mkHwId s = .ok h

theorem parseEcus_iff : ∀ (l : List (String × Json)), (∃ r, parseEcus l = .ok r) ↔ ∀ kv ∈ l, EcuOk kv
  | [] => by simp [parseEcus]
  | (k, j) :: l => by
    have ih := parseEcus_iff l
    constructor
    · rintro ⟨r, h⟩
      unfold parseEcus at h
      obtain ⟨e, h1, h⟩ := exc_bind_ok.1 h
      obtain ⟨x, h2, h⟩ := exc_bind_ok.1 h
      obtain ⟨s, h3, h⟩ := exc_bind_ok.1 h
      obtain ⟨y, h4, h⟩ := exc_bind_ok.1 h
      obtain ⟨z, h5, h⟩ := exc_bind_ok.1 h
      intro j' hj'
      rcases List.mem_cons.1 hj' with rfl | hj'
      · exact ⟨⟨e, h1⟩, x, s, y, h2, h3, h4⟩
      · exact ih.1 ⟨z, h5⟩ j' hj'
    · intro h
      obtain ⟨⟨e, h1⟩, x, s, y, h2, h3, h4⟩ := h _ List.mem_cons_self
      obtain ⟨r, hr⟩ := ih.2 (fun j' hj' => h j' (List.mem_cons_of_mem _ hj'))
      unfold parseEcus
      exact ⟨_, exc_bind_ok.2 ⟨e, h1, exc_bind_ok.2 ⟨x, h2, exc_bind_ok.2 ⟨s, h3, exc_bind_ok.2 ⟨y, h4, exc_bind_ok.2 ⟨r, hr, rfl⟩⟩⟩⟩⟩⟩

/-- A `custom` part the client can read. -/
structure CustomOk (c : Json) : Prop where
  hwids : ∃ h, c.get "hardwareIds" = .ok h ∧ ∀ j ∈ h.elems, ∃ s, j.asString = .ok s ∧ ∃ x, mkHwId s = .ok x
  ecus : ∃ e, c.get "ecuIdentifiers" = .ok e ∧ ∀ kv ∈ e.entries, EcuOk kv
  format : ∃ f s, c.get "targetFormat" = .ok f ∧ f.asString = .ok s
  uri : ∃ f s, c.get "uri" = .ok f ∧ f.asString = .ok s

theorem CustomOk.obj {c : Json} (h : CustomOk c) : c = .null ∨ ∃ l, c = .obj l := obj_of_get h.hwids.choose_spec.1

theorem opt_ok {α : Type} {c : Json} {k : String} {b : Bool} {f : Json → Except Err α} {d r : α} (hm : c.isMember k = .ok b)
    (h : (if b then (do let x ← c.get k; f x) else pure d : Except Err α) = .ok r) (hnull : ∃ y, f .null = .ok y) :
    ∃ x y, c.get k = .ok x ∧ f x = .ok y := by
  cases b with
  | true =>
    obtain ⟨x, h1, h2⟩ := exc_bind_ok.1 h
    exact ⟨x, r, h1, h2⟩
  | false =>
    cases c <;> first | (cases hm; done) | skip
    · exact ⟨.null, hnull.choose, rfl, hnull.choose_spec⟩
    · rename_i kvs
      have hl : kvs.lookup k = none := by
        cases hl : kvs.lookup k with
        | none => rfl
        | some y => simp [Json.isMember, hl] at hm
      exact ⟨.null, hnull.choose, by simp [Json.get, hl], hnull.choose_spec⟩

theorem opt_some {α : Type} {c x : Json} {k : String} {f : Json → Except Err α} {d : α} {y : α} (h1 : c.get k = .ok x) (h2 : f x = .ok y) :
    ∃ b r, c.isMember k = .ok b ∧ (if b then (do let x ← c.get k; f x) else pure d : Except Err α) = .ok r := by
  obtain ⟨b, hb, -⟩ := isMember_get h1
  refine ⟨b, if b then y else d, hb, ?_⟩
  cases b with
  | true => exact exc_bind_ok.2 ⟨x, h1, h2⟩
  | false => rfl

theorem updateCustom_iff {t : Target} {c : Json} : (∃ t', t.updateCustom c = .ok t') ↔ CustomOk c := by
  constructor
  · rintro ⟨t', h⟩
    unfold Target.updateCustom at h
    obtain ⟨b1, m1, h⟩ := exc_bind_ok.1 h
    obtain ⟨hw, h1, h⟩ := exc_bind_ok.1 h
    obtain ⟨e, he, h⟩ := exc_bind_ok.1 h
    obtain ⟨es, hes, h⟩ := exc_bind_ok.1 h
    obtain ⟨b2, m2, h⟩ := exc_bind_ok.1 h
    obtain ⟨ty, h2, h⟩ := exc_bind_ok.1 h
    obtain ⟨b3, m3, h⟩ := exc_bind_ok.1 h
    obtain ⟨u, h3, h⟩ := exc_bind_ok.1 h
    obtain ⟨x, y, g1, g2⟩ := opt_ok (f := fun j => parseHwids j.elems) m1 h1 ⟨[], rfl⟩
    obtain ⟨x2, y2, g3, g4⟩ := opt_ok (f := fun j => j.asString) m2 h2 ⟨"", rfl⟩
    obtain ⟨x3, y3, g5, g6⟩ := opt_ok (f := fun j => do
      let u ← j.asString
      pure (if u != "https://example.com/" then u else t.uri)) m3 h3 ⟨_, rfl⟩
    obtain ⟨s3, g6, -⟩ := exc_bind_ok.1 g6
    exact ⟨⟨x, g1, (parseHwids_iff _).1 ⟨y, g2⟩⟩, ⟨e, he, (parseEcus_iff _).1 ⟨es, hes⟩⟩, ⟨x2, y2, g3, g4⟩, ⟨x3, s3, g5, g6⟩⟩
  · rintro ⟨⟨x, g1, g2⟩, ⟨e, he, hes⟩, ⟨x2, y2, g3, g4⟩, ⟨x3, s3, g5, g6⟩⟩
    obtain ⟨hw, hhw⟩ := (parseHwids_iff _).2 g2
    obtain ⟨es, hes⟩ := (parseEcus_iff _).2 hes
    obtain ⟨b1, r1, m1, h1⟩ := opt_some (f := fun j => parseHwids j.elems) (d := []) g1 hhw
    obtain ⟨b2, r2, m2, h2⟩ := opt_some (f := fun j => j.asString) (d := t.type) g3 g4
    obtain ⟨b3, r3, m3, h3⟩ := opt_some (f := fun j => do
      let u ← j.asString
      pure (if u != "https://example.com/" then u else t.uri)) (d := t.uri) g5 (exc_bind_ok.2 ⟨s3, g6, rfl⟩)
    unfold Target.updateCustom
    exact ⟨_, exc_bind_ok.2 ⟨b1, m1, exc_bind_ok.2 ⟨r1, h1, exc_bind_ok.2 ⟨e, he, exc_bind_ok.2 ⟨es, hes, exc_bind_ok.2 ⟨b2, m2,
      exc_bind_ok.2 ⟨r2, h2, exc_bind_ok.2 ⟨b3, m3, exc_bind_ok.2 ⟨r3, h3, rfl⟩⟩⟩⟩⟩⟩⟩⟩⟩

theorem customOk_null : CustomOk .null :=
  ⟨⟨.null, rfl, by simp [Json.elems, Json.entries]⟩, ⟨.null, rfl, by simp [Json.entries]⟩, ⟨.null, "", rfl, rfl⟩, ⟨.null, "", rfl, rfl⟩⟩

theorem parseHashes_iff : ∀ (l : List (String × Json)), (∃ r, parseHashes l = .ok r) ↔ ∀ kv ∈ l, ∃ s, kv.2.asString = .ok s
  | [] => by simp [parseHashes]
  | (k, j) :: l => by
    have ih := parseHashes_iff l
    constructor
    · rintro ⟨r, h⟩
      unfold parseHashes at h
      obtain ⟨s, h1, h⟩ := exc_bind_ok.1 h
      obtain ⟨y, h3, h⟩ := exc_bind_ok.1 h
      intro j' hj'
      rcases List.mem_cons.1 hj' with rfl | hj'
      · exact ⟨s, h1⟩
      · exact ih.1 ⟨y, h3⟩ j' hj'
    · intro h
      obtain ⟨s, h1⟩ := h _ List.mem_cons_self
      obtain ⟨r, hr⟩ := ih.2 (fun j' hj' => h j' (List.mem_cons_of_mem _ hj'))
      unfold parseHashes
      exact ⟨_, exc_bind_ok.2 ⟨s, h1, exc_bind_ok.2 ⟨r, hr, rfl⟩⟩⟩

/-- An entry the client can read. -/
structure EntryOk (t : Json) : Prop where
  custom : ∃ c, t.get "custom" = .ok c ∧ CustomOk c
  length : ∃ l i, t.get "length" = .ok l ∧ l.asUInt64 = .ok i
  hashes : ∃ h, t.get "hashes" = .ok h ∧ ∀ kv ∈ h.entries, ∃ s, kv.2.asString = .ok s

theorem EntryOk.obj {c : Json} (h : EntryOk c) : c = .null ∨ ∃ l, c = .obj l := obj_of_get h.hashes.choose_spec.1

theorem ofJson_iff {name : String} {t : Json} : (∃ x, Target.ofJson name t = .ok x) ↔ EntryOk t := by
  constructor
  · rintro ⟨x, h⟩
    unfold Target.ofJson at h
    obtain ⟨b, m, h⟩ := exc_bind_ok.1 h
    obtain ⟨t1, h1, h⟩ := exc_bind_ok.1 h
    obtain ⟨l, hl, h⟩ := exc_bind_ok.1 h
    obtain ⟨i, hi, h⟩ := exc_bind_ok.1 h
    obtain ⟨hs, hhs, h⟩ := exc_bind_ok.1 h
    obtain ⟨r, hr, h⟩ := exc_bind_ok.1 h
    obtain ⟨c, y, hc, hy⟩ := opt_ok (f := fun c => Target.updateCustom { filename := name } c) m h1 (updateCustom_iff.2 customOk_null)
    exact ⟨⟨c, hc, updateCustom_iff.1 ⟨y, hy⟩⟩, ⟨l, i, hl, hi⟩, ⟨hs, hhs, (parseHashes_iff _).1 ⟨r, hr⟩⟩⟩
  · rintro ⟨⟨c, hc, hok⟩, ⟨l, i, hl, hi⟩, ⟨hs, hhs, hr⟩⟩
    obtain ⟨r, hr⟩ := (parseHashes_iff _).2 hr
    obtain ⟨y, hy⟩ := (updateCustom_iff (t := { filename := name })).2 hok
    obtain ⟨b, t1, m, h1⟩ := opt_some (f := fun c => Target.updateCustom { filename := name } c) (d := { filename := name }) hc hy
    unfold Target.ofJson
    exact ⟨_, exc_bind_ok.2 ⟨b, m, exc_bind_ok.2 ⟨t1, h1, exc_bind_ok.2 ⟨l, hl, exc_bind_ok.2 ⟨i, hi, exc_bind_ok.2 ⟨hs, hhs, exc_bind_ok.2 ⟨r, hr, rfl⟩⟩⟩⟩⟩⟩⟩

theorem CustomOk.congr {c c' : Json} (h : CustomOk c) (hg : ∀ k ∈ ["hardwareIds", "ecuIdentifiers", "targetFormat", "uri"], c'.get k = c.get k) : CustomOk c' := by
  obtain ⟨h1, h2, h3, h4⟩ := h
  refine ⟨?_, ?_, ?_, ?_⟩
  · rw [hg _ (by simp)]; exact h1
  · rw [hg _ (by simp)]; exact h2
  · rw [hg _ (by simp)]; exact h3
  · rw [hg _ (by simp)]; exact h4

theorem EntryOk.withCustom {t t' c : Json} (h : EntryOk t) (hc : CustomOk c) (hk : setKey t "custom" c = .ok t') : EntryOk t' := by
  obtain ⟨h1, h2, -, -⟩ := setKey_ok hk
  refine ⟨⟨c, h1, hc⟩, ?_, ?_⟩
  · rw [h2 _ (by decide)]; exact h.length
  · rw [h2 _ (by decide)]; exact h.hashes

theorem CustomOk.uri' {c c' : Json} {u : String} (h : CustomOk c) (hk : setKey c "uri" (.str u) = .ok c') : CustomOk c' := by
  obtain ⟨h1, h2, -, -⟩ := setKey_ok hk
  refine ⟨?_, ?_, ?_, ⟨_, u, h1, rfl⟩⟩
  · rw [h2 _ (by decide)]; exact h.hwids
  · rw [h2 _ (by decide)]; exact h.ecus
  · rw [h2 _ (by decide)]; exact h.format

theorem CustomOk.noUri {c c' : Json} (h : CustomOk c) (hk : removeMember c "uri" = .ok c') : CustomOk c' := by
  obtain ⟨-, h2, h1⟩ := removeMember_ok hk
  refine ⟨?_, ?_, ?_, ⟨_, _, h1, rfl⟩⟩
  · rw [h2 _ (by decide)]; exact h.hwids
  · rw [h2 _ (by decide)]; exact h.ecus
  · rw [h2 _ (by decide)]; exact h.format

theorem CustomOk.noHwids {c c' : Json} (h : CustomOk c) (hk : removeMember c "hardwareIds" = .ok c') : CustomOk c' := by
  obtain ⟨-, h2, h1⟩ := removeMember_ok hk
  refine ⟨⟨_, h1, by simp [Json.elems, Json.entries]⟩, ?_, ?_, ?_⟩
  · rw [h2 _ (by decide)]; exact h.ecus
  · rw [h2 _ (by decide)]; exact h.format
  · rw [h2 _ (by decide)]; exact h.uri

theorem CustomOk.withHwids {c c' x : Json} (h : CustomOk c) (hx : ∀ j ∈ x.elems, ∃ s, j.asString = .ok s ∧ ∃ x, mkHwId s = .ok x)
    (hk : setKey c "hardwareIds" x = .ok c') : CustomOk c' := by
  obtain ⟨h1, h2, -, -⟩ := setKey_ok hk
  refine ⟨⟨_, h1, hx⟩, ?_, ?_, ?_⟩
  · rw [h2 _ (by decide)]; exact h.ecus
  · rw [h2 _ (by decide)]; exact h.format
  · rw [h2 _ (by decide)]; exact h.uri

theorem CustomOk.withEcu {c c' : Json} {serial hw : String} (h : CustomOk c) (hs : ∃ e, mkEcuSerial serial = .ok e) (hh : ∃ x, mkHwId hw = .ok x)
    (hk : setPath c ["ecuIdentifiers", serial, "hardwareId"] (.str hw) = .ok c') : CustomOk c' := by
  obtain ⟨e, e', he, hp, hk⟩ := setPath_cons hk
  obtain ⟨x, x', hx, hp2, hk2⟩ := setPath_cons hp
  obtain ⟨y, y', hy, hp3, hk3⟩ := setPath_cons hp2
  cases hp3
  obtain ⟨g1, g2, -, -⟩ := setKey_ok hk
  obtain ⟨e0, he0, hall⟩ := h.ecus
  rw [he] at he0
  cases he0
  have hnew : EcuOk (serial, x') := by
    obtain ⟨z, hz⟩ := hh
    exact ⟨hs, _, hw, z, (setKey_ok hk3).1, rfl, hz⟩
  refine ⟨?_, ⟨_, g1, ?_⟩, ?_, ?_⟩
  · rw [g2 _ (by decide)]; exact h.hwids
  · cases e <;> first | (cases hk2; done) | skip
    · cases hk2
      intro kv hkv
      have : kv = (serial, x') := by simpa [Json.entries] using hkv
      rw [this]; exact hnew
    · cases hk2
      intro kv hkv
      rcases insertKey_mem (show kv ∈ insertKey _ _ _ from hkv) with rfl | hkv
      · exact hnew
      · exact hall kv hkv
  · rw [g2 _ (by decide)]; exact h.format
  · rw [g2 _ (by decide)]; exact h.uri

/-- What the Director makes of a readable entry is readable. -/
theorem directorTarget_ok {t t' : Json} {hw serial url : String} (h : EntryOk t) (hc : Canonical t) (hs : ∃ e, mkEcuSerial serial = .ok e)
    (hh : ∃ x, mkHwId hw = .ok x) (hk : directorTarget t hw serial url = .ok t') : EntryOk t' ∧ Canonical t' := by
  unfold directorTarget at hk
  obtain ⟨c, h1, hk⟩ := exc_bind_ok.1 hk
  obtain ⟨c1, h2, hk⟩ := exc_bind_ok.1 hk
  obtain ⟨c2, h3, hk⟩ := exc_bind_ok.1 hk
  obtain ⟨c3, h4, hk⟩ := exc_bind_ok.1 hk
  obtain ⟨c0, h0, hok⟩ := h.custom
  rw [h1] at h0
  cases h0
  have k0 := get_canonical hc h1
  have k1 := (removeMember_ok h2).1 k0
  have k2 := setPath_canonical h3 k1 (.str _)
  have o2 := (hok.noHwids h2).withEcu hs hh h3
  have o3 : CustomOk c3 ∧ Canonical c3 := by
    split at h4
    · exact ⟨o2.noUri h4, (removeMember_ok h4).1 k2⟩
    · exact ⟨o2.uri' h4, (setKey_ok h4).2.2.2 k2 (.str _)⟩
  exact ⟨h.withCustom o3.1 hk, (setKey_ok hk).2.2.2 hc o3.2⟩

theorem setFirst_hwids {c h h' : Json} {hw : String} (hok : CustomOk c) (hc : Canonical c) (hg : c.get "hardwareIds" = .ok h) (hh : ∃ x, mkHwId hw = .ok x)
    (hs : setFirst h (.str hw) = .ok h') : (∀ j ∈ h'.elems, ∃ s, j.asString = .ok s ∧ ∃ x, mkHwId s = .ok x) ∧ Canonical h' := by
  obtain ⟨h0, hg0, hall⟩ := hok.hwids
  rw [hg] at hg0
  cases hg0
  have hch := get_canonical hc hg
  cases h <;> first | (cases hs; done) | skip
  · cases hs
    refine ⟨?_, .arr (by simpa using .str _)⟩
    intro j hj
    rw [elems_array] at hj
    rw [List.mem_singleton.1 hj]
    exact ⟨hw, rfl, hh⟩
  · rename_i xs
    cases hs
    refine ⟨?_, .arr ?_⟩
    · intro j hj
      rw [elems_array] at hj
      rcases List.mem_cons.1 hj with rfl | hj
      · exact ⟨hw, rfl, hh⟩
      · exact hall j (by rw [elems_array]; exact List.mem_of_mem_tail hj)
    · intro j hj
      rcases List.mem_cons.1 hj with rfl | hj
      · exact .str _
      · exact hch.elements j (List.mem_of_mem_tail hj)

/-- The entry with the hardware id put in front (image_repo.cc:9). -/
theorem withHardware_ok {t t' c h h' : Json} {hw : String} (hok : EntryOk t) (hc : Canonical t) (hh : ∃ x, mkHwId hw = .ok x)
    (h1 : t.get "custom" = .ok c) (h2 : c.get "hardwareIds" = .ok h) (h3 : setFirst h (.str hw) = .ok h')
    (h4 : setPath t ["custom", "hardwareIds"] h' = .ok t') : EntryOk t' ∧ Canonical t' := by
  obtain ⟨c0, hc0, hcok⟩ := hok.custom
  rw [h1] at hc0
  cases hc0
  obtain ⟨g1, g2⟩ := setFirst_hwids hcok (get_canonical hc h1) h2 hh h3
  refine ⟨?_, setPath_canonical h4 hc g2⟩
  obtain ⟨d, d', hd, hp, hk⟩ := setPath_cons h4
  rw [h1] at hd
  cases hd
  obtain ⟨y, y', hy, hp2, hk2⟩ := setPath_cons hp
  cases hp2
  exact hok.withCustom (hcok.withHwids g1 hk2) hk

/-! ### The role as a whole -/

theorem TargetsBody.obj {j : Json} {v : Int} {e : String} (h : TargetsBody j v e) : ∃ l, j = .obj l := by
  rcases obj_of_get h.type with rfl | hl
  · have := h.type; cases this
  · exact hl

/-- Changing the version. -/
theorem TargetsBody.withVersion {j j' : Json} {v v' : Int} {e : String} (h : TargetsBody j v e) (hk : setKey j "version" (.int v') = .ok j')
    (hv : 0 ≤ v' ∧ v' ≤ 4294967295) : TargetsBody j' v' e := by
  obtain ⟨h1, h2, -, h4⟩ := setKey_ok hk
  refine ⟨h4 h.canonical (.int (by omega) (by omega)), ?_, h1, hv, ?_, h.time, ?_, ?_, ?_⟩
  · rw [h2 _ (by decide)]; exact h.type
  · rw [h2 _ (by decide)]; exact h.expires
  · rw [h2 _ (by decide)]; exact h.targets
  · rw [h2 _ (by decide)]; exact h.delegations
  · rw [h2 _ (by decide)]; exact h.custom

theorem bump_ok {j j' : Json} {v : Int} (hv : j.get "version" = .ok (.int v)) (hr : 0 ≤ v ∧ v ≤ 4294967295) (h : bump j = .ok j') :
    v + 1 ≤ 4294967295 ∧ setKey j "version" (.int (v + 1)) = .ok j' := by
  unfold bump at h
  rw [hv, exc_bind_of_ok, asUInt_int hr.1 hr.2, exc_bind_of_ok] at h
  obtain ⟨_, ht, h⟩ := exc_bind_ok.1 h
  rw [throwIf_ok] at ht
  have : v ≠ 4294967295 := by simpa using ht
  exact ⟨by omega, h⟩

theorem TargetsBody.bump' {j j' : Json} {v : Int} {e : String} (h : TargetsBody j v e) (hk : bump j = .ok j') : TargetsBody j' (v + 1) e := by
  obtain ⟨h1, h2⟩ := bump_ok h.version h.range hk
  have := h.range
  exact h.withVersion h2 ⟨by omega, h1⟩

theorem TargetsBody.withExpires {j j' : Json} {v : Int} {e e' : String} (h : TargetsBody j v e) (hk : setKey j "expires" (.str e') = .ok j')
    (ht : IsTime e') : TargetsBody j' v e' := by
  obtain ⟨h1, h2, -, h4⟩ := setKey_ok hk
  refine ⟨h4 h.canonical (.str _), ?_, ?_, h.range, h1, ht, ?_, ?_, ?_⟩
  · rw [h2 _ (by decide)]; exact h.type
  · rw [h2 _ (by decide)]; exact h.version
  · rw [h2 _ (by decide)]; exact h.targets
  · rw [h2 _ (by decide)]; exact h.delegations
  · rw [h2 _ (by decide)]; exact h.custom

/-- Adding or replacing an entry. -/
theorem TargetsBody.withEntry {j j' t : Json} {v : Int} {e name : String} (h : TargetsBody j v e) (hk : setPath j ["targets", name] t = .ok j')
    (ht : EntryOk t) (hc : Canonical t) : TargetsBody j' v e := by
  have hcan := setPath_canonical hk h.canonical hc
  obtain ⟨ts, ts', g1, g2, g3⟩ := setPath_cons hk
  obtain ⟨x, x', g4, g5, g6⟩ := setPath_cons g2
  cases g5
  obtain ⟨h1, h2, -, -⟩ := setKey_ok g3
  refine ⟨hcan, ?_, ?_, h.range, ?_, h.time, ⟨ts', h1, .inr (setKey_ok g6).2.2.1, ?_⟩, ?_, ?_⟩
  · rw [h2 _ (by decide)]; exact h.type
  · rw [h2 _ (by decide)]; exact h.version
  · rw [h2 _ (by decide)]; exact h.expires
  · obtain ⟨ts0, k1, k2, k3⟩ := h.targets
    rw [g1] at k1
    cases k1
    rcases k2 with rfl | ⟨l, rfl⟩
    · cases g6
      intro kv hkv
      have : kv = (name, t) := by simpa [Json.entries] using hkv
      rw [this]; exact ofJson_iff.2 ht
    · cases g6
      intro kv hkv
      rcases insertKey_mem (show kv ∈ insertKey _ _ _ from hkv) with rfl | hkv
      · exact ofJson_iff.2 ht
      · exact k3 kv hkv
  · rw [h2 _ (by decide)]; exact h.delegations
  · rw [h2 _ (by decide)]; exact h.custom

/-- Replacing the list of entries. -/
theorem TargetsBody.withTargets {j j' ts : Json} {v : Int} {e : String} (h : TargetsBody j v e) (hk : setKey j "targets" ts = .ok j')
    (ho : ts = .null ∨ ∃ l, ts = .obj l) (ht : ∀ kv ∈ ts.entries, ∃ x, Target.ofJson kv.1 kv.2 = .ok x) (hc : Canonical ts) : TargetsBody j' v e := by
  obtain ⟨h1, h2, -, h4⟩ := setKey_ok hk
  refine ⟨h4 h.canonical hc, ?_, ?_, h.range, ?_, h.time, ⟨ts, h1, ho, ht⟩, ?_, ?_⟩
  · rw [h2 _ (by decide)]; exact h.type
  · rw [h2 _ (by decide)]; exact h.version
  · rw [h2 _ (by decide)]; exact h.expires
  · rw [h2 _ (by decide)]; exact h.delegations
  · rw [h2 _ (by decide)]; exact h.custom

/-- Replacing the delegations. -/
theorem TargetsBody.withDelegations {j j' dl : Json} {v : Int} {e : String} (h : TargetsBody j v e) (hk : setKey j "delegations" dl = .ok j')
    (ho : DelegationsOk dl) (hc : Canonical dl) : TargetsBody j' v e := by
  obtain ⟨h1, h2, -, h4⟩ := setKey_ok hk
  refine ⟨h4 h.canonical hc, ?_, ?_, h.range, ?_, h.time, ?_, ⟨dl, h1, .inr ho⟩, ?_⟩
  · rw [h2 _ (by decide)]; exact h.type
  · rw [h2 _ (by decide)]; exact h.version
  · rw [h2 _ (by decide)]; exact h.expires
  · rw [h2 _ (by decide)]; exact h.targets
  · rw [h2 _ (by decide)]; exact h.custom

end Aktualizr.Gen
