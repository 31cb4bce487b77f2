import Verif.Model.Versions
import Verif.Lemmas.Except

/-! Lemmas on the installed-versions table. -/

namespace Aktualizr

theorem updateCustom_ok {t t1 : Target} {j : Json} (h : t.updateCustom j = .ok t1) :
    t1.valid = t.valid ∧ t1.filename = t.filename ∧ t1.hashes = t.hashes ∧ t1.length = t.length ∧
      t1.correlationId = t.correlationId := by
  unfold Target.updateCustom at h
  simp only [exc_bind_ok] at h
  obtain ⟨a, ha, b, hb, d, hd, e, he, f, hf, g, hg, i, hi, k, hk, h⟩ := h
  rw [exc_pure_ok] at h
  subst h
  exact ⟨rfl, rfl, rfl, rfl, rfl⟩

theorem updateCustom_corr {t t1 : Target} {j : Json} (c : String) (h : t.updateCustom j = .ok t1) :
    ({ t with correlationId := c } : Target).updateCustom j = .ok { t1 with correlationId := c } := by
  unfold Target.updateCustom at h ⊢
  simp only [exc_bind_ok] at h ⊢
  obtain ⟨a, ha, b, hb, d, hd, e, he, f, hf, g, hg, i, hi, k, hk, h⟩ := h
  rw [exc_pure_ok] at h
  subst h
  exact ⟨a, ha, b, hb, d, hd, e, he, f, hf, g, hg, i, hi, k, hk, rfl⟩

theorem mem_insertHash {a h : Hash} {l : List Hash} : a ∈ insertHash h l ↔ a = h ∨ a ∈ l := by
  induction l with
  | nil => simp [insertHash]
  | cons x xs ih =>
    unfold insertHash
    split
    · simp
    · simp only [List.mem_cons, ih]
      constructor
      · rintro (h | h | h)
        · exact .inr (.inl h)
        · exact .inl h
        · exact .inr (.inr h)
      · rintro (h | h | h)
        · exact .inr (.inl h)
        · exact .inl h
        · exact .inr (.inr h)

theorem mem_sortHashes {a : Hash} {l : List Hash} : a ∈ sortHashes l ↔ a ∈ l := by
  induction l with
  | nil => simp [sortHashes]
  | cons x xs ih => simp [sortHashes, mem_insertHash, ih]

namespace VersionDb

/-- Row ids increase along the table. -/
def Ordered (rows : List VersionRow) : Prop := rows.Pairwise (fun a b => a.id < b.id)

theorem Ordered.inj {rows : List VersionRow} (h : Ordered rows) {a b : VersionRow} (ha : a ∈ rows) (hb : b ∈ rows)
    (hid : a.id = b.id) : a = b := by
  induction rows with
  | nil => cases ha
  | cons x xs ih =>
    rw [Ordered, List.pairwise_cons] at h
    rcases List.mem_cons.1 ha with rfl | ha' <;> rcases List.mem_cons.1 hb with rfl | hb'
    · rfl
    · have := h.1 _ hb'; omega
    · have := h.1 _ ha'; omega
    · exact ih h.2 ha' hb'

theorem Ordered.map {rows : List VersionRow} (h : Ordered rows) {f : VersionRow → VersionRow} (hf : ∀ r, (f r).id = r.id) :
    Ordered (rows.map f) := by
  unfold Ordered
  rw [List.pairwise_map]
  simp only [hf]
  exact h

theorem Ordered.lt_nextId {rows : List VersionRow} (h : Ordered rows) {a : VersionRow} (ha : a ∈ rows) : a.id < nextId rows := by
  induction rows generalizing a with
  | nil => cases ha
  | cons x xs ih =>
    rw [Ordered, List.pairwise_cons] at h
    cases xs with
    | nil => rcases List.mem_cons.1 ha with rfl | ha' <;> simp_all [nextId]
    | cons y ys =>
      have hn : nextId (x :: y :: ys) = nextId (y :: ys) := by simp [nextId, List.getLast?_cons_cons]
      rw [hn]
      rcases List.mem_cons.1 ha with rfl | ha'
      · have h1 := h.1 y (by simp)
        have h2 := ih h.2 (a := y) (by simp)
        omega
      · exact ih h.2 ha'

theorem Ordered.snoc {rows : List VersionRow} (h : Ordered rows) {r : VersionRow} (hr : r.id = nextId rows) :
    Ordered (rows ++ [r]) := by
  unfold Ordered
  rw [List.pairwise_append]
  refine ⟨h, by simp, ?_⟩
  intro a ha b hb
  rw [List.mem_singleton] at hb
  subst hb
  rw [hr]
  exact h.lt_nextId ha

/-- What clearing flags does to one row. -/
def clear1 (ecu : String) (mode : UpdateMode) (r : VersionRow) : VersionRow :=
  if r.ecu = ecu then
    match mode with
    | .current => { r with isCurrent := false, isPending := false }
    | .pending => { r with isPending := false }
    | .none => r
  else r

theorem clearFlags_eq (rows : List VersionRow) (ecu : String) (mode : UpdateMode) :
    clearFlags rows ecu mode = rows.map (clear1 ecu mode) := by
  cases mode with
  | none =>
    have : clear1 ecu .none = id := by funext r; simp [clear1]
    simp [clearFlags, this]
  | current => rfl
  | pending => rfl

theorem clear1_id (ecu : String) (mode : UpdateMode) (r : VersionRow) : (clear1 ecu mode r).id = r.id := by
  unfold clear1; split <;> (try cases mode) <;> rfl

/-- What saving does to an existing row. -/
def save1 (ecu : String) (t : Target) (mode : UpdateMode) (old : Option VersionRow) (r : VersionRow) : VersionRow :=
  match old with
  | some o => if r.id = o.id then reflag t mode o (clear1 ecu mode r) else clear1 ecu mode r
  | none => clear1 ecu mode r

theorem save1_id (ecu : String) (t : Target) (mode : UpdateMode) (old : Option VersionRow) (r : VersionRow) :
    (save1 ecu t mode old r).id = r.id := by
  unfold save1
  split
  · split
    · simp [reflag, clear1_id]
    · exact clear1_id ..
  · exact clear1_id ..

theorem save_rows (env : Env) (db : VersionDb) (serial : String) (t : Target) (mode : UpdateMode) :
    (saveInstalledVersion env db serial t mode).rows =
      db.rows.map (save1 (db.realSerial serial) t mode (oldRow db.rows (db.realSerial serial) t)) ++
      (if (oldRow db.rows (db.realSerial serial) t).isSome then []
       else [freshRow env (nextId db.rows) (db.realSerial serial) t mode]) := by
  unfold saveInstalledVersion
  have hid : nextId (db.rows.map (clear1 (db.realSerial serial) mode)) = nextId db.rows := by
    unfold nextId
    rw [List.getLast?_map]
    cases db.rows.getLast? <;> simp [clear1_id]
  cases h : oldRow db.rows (db.realSerial serial) t with
  | none =>
    simp only [h, clearFlags_eq, hid, Option.isSome_none, Bool.false_eq_true, if_false]
    rfl
  | some o =>
    simp only [h, clearFlags_eq, List.map_map, Option.isSome_some, if_true, List.append_nil]
    apply List.map_congr_left
    intro r _
    simp only [Function.comp, save1, clear1_id]

theorem save_ecus (env : Env) (db : VersionDb) (serial : String) (t : Target) (mode : UpdateMode) :
    (saveInstalledVersion env db serial t mode).ecus = db.ecus := by
  unfold saveInstalledVersion
  cases h : oldRow db.rows (db.realSerial serial) t <;> simp [h]

theorem oldRow_some {rows : List VersionRow} {ecu : String} {t : Target} {o : VersionRow} (h : oldRow rows ecu t = some o) :
    o ∈ rows ∧ o.ecu = ecu ∧ o.sha256 = t.sha256Hash ∧ o.name = t.filename := by
  unfold oldRow at h
  cases hl : lastRow rows ecu with
  | none => simp [hl] at h
  | some r =>
    simp only [hl] at h
    split at h
    · next hc =>
      cases h
      have hm : o ∈ rows.filter (fun r => r.ecu == ecu) := List.mem_of_getLast? (by simpa [lastRow] using hl)
      simp at hm
      exact ⟨hm.1, hm.2, hc.1, hc.2⟩
    · cases h

theorem save1_ecu (ecu : String) (t : Target) (mode : UpdateMode) (old : Option VersionRow) (r : VersionRow) :
    (save1 ecu t mode old r).ecu = r.ecu := by
  have hc : (clear1 ecu mode r).ecu = r.ecu := by unfold clear1; split <;> (try cases mode) <;> rfl
  unfold save1
  split
  · split
    · simp [reflag, hc]
    · exact hc
  · exact hc

/-- Rows of other ECUs are not changed. -/
theorem save1_other {rows : List VersionRow} (ho : Ordered rows) {ecu : String} {t : Target} (mode : UpdateMode)
    {r : VersionRow} (hr : r ∈ rows) (hne : r.ecu ≠ ecu) : save1 ecu t mode (oldRow rows ecu t) r = r := by
  have hc : clear1 ecu mode r = r := by simp [clear1, hne]
  unfold save1
  cases h : oldRow rows ecu t with
  | none => exact hc
  | some o =>
    obtain ⟨hm, he, _⟩ := oldRow_some h
    have : r.id ≠ o.id := fun hid => hne (by rw [ho.inj hr hm hid]; exact he)
    simp [this, hc]

theorem save_ordered {env : Env} {db : VersionDb} (serial : String) (t : Target) (mode : UpdateMode) (ho : Ordered db.rows) :
    Ordered (saveInstalledVersion env db serial t mode).rows := by
  rw [save_rows]
  split
  · simpa using ho.map (save1_id _ _ _ _)
  · refine (ho.map (save1_id _ _ _ _)).snoc ?_
    unfold nextId
    rw [List.getLast?_map]
    cases h : db.rows.getLast? <;> simp [freshRow, save1_id]

/-- At most one current and at most one pending row per ECU. -/
structure Tidy (rows : List VersionRow) : Prop where
  ordered : Ordered rows
  current : ∀ a ∈ rows, ∀ b ∈ rows, a.ecu = b.ecu → a.isCurrent = true → b.isCurrent = true → a.id = b.id
  pending : ∀ a ∈ rows, ∀ b ∈ rows, a.ecu = b.ecu → a.isPending = true → b.isPending = true → a.id = b.id

theorem save1_isCurrent {ecu : String} {t : Target} {mode : UpdateMode} {old : Option VersionRow} {r : VersionRow}
    (he : r.ecu = ecu) (h : (save1 ecu t mode old r).isCurrent = true) :
    (mode = .current ∧ ∃ o, old = some o ∧ r.id = o.id) ∨ (mode ≠ .current ∧ r.isCurrent = true ∧ ∀ o, old = some o → r.id ≠ o.id) := by
  unfold save1 at h
  cases old with
  | none => cases mode <;> simp_all [clear1]
  | some o =>
    simp only at h
    split at h
    · next hid => cases mode <;> simp_all [reflag]
    · next hid => cases mode <;> simp_all [clear1]

theorem save1_isPending {ecu : String} {t : Target} {mode : UpdateMode} {old : Option VersionRow} {r : VersionRow}
    (he : r.ecu = ecu) (h : (save1 ecu t mode old r).isPending = true) :
    (mode = .pending ∧ ∃ o, old = some o ∧ r.id = o.id) ∨ (mode = .none ∧ r.isPending = true ∧ ∀ o, old = some o → r.id ≠ o.id) := by
  unfold save1 at h
  cases old with
  | none => cases mode <;> simp_all [clear1]
  | some o =>
    simp only at h
    split at h
    · next hid => cases mode <;> simp_all [reflag]
    · next hid => cases mode <;> simp_all [clear1]

theorem save_tidy {env : Env} {db : VersionDb} (serial : String) (t : Target) (mode : UpdateMode) (h : Tidy db.rows) :
    Tidy (saveInstalledVersion env db serial t mode).rows := by
  refine ⟨save_ordered serial t mode h.ordered, ?_, ?_⟩
  all_goals
    intro a ha b hb he hca hcb
    rw [save_rows] at ha hb
    generalize hecu : db.realSerial serial = ecu at ha hb
    generalize hold : oldRow db.rows ecu t = old at ha hb
    have hother : ∀ r ∈ db.rows, r.ecu ≠ ecu → save1 ecu t mode old r = r := fun r hr hne => by
      rw [← hold]; exact save1_other h.ordered mode hr hne
    simp only [List.mem_append, List.mem_map] at ha hb
    rcases ha with ⟨a0, ha0, rfl⟩ | ha <;> rcases hb with ⟨b0, hb0, rfl⟩ | hb
    · simp only [save1_ecu, save1_id] at he ⊢
      by_cases hae : a0.ecu = ecu
      · have hbe : b0.ecu = ecu := he ▸ hae
        first
        | rcases save1_isCurrent hae hca with ⟨h1, o, h2, h3⟩ | ⟨h1, h2, h3⟩ <;>
            rcases save1_isCurrent hbe hcb with ⟨h4, o', h5, h6⟩ | ⟨h4, h5, h6⟩
          · rw [h2] at h5; cases h5; omega
          · exact absurd h1 h4
          · exact absurd h4 h1
          · exact h.current a0 ha0 b0 hb0 he h2 h5
        | rcases save1_isPending hae hca with ⟨h1, o, h2, h3⟩ | ⟨h1, h2, h3⟩ <;>
            rcases save1_isPending hbe hcb with ⟨h4, o', h5, h6⟩ | ⟨h4, h5, h6⟩
          · rw [h2] at h5; cases h5; omega
          · rw [h1] at h4; cases h4
          · rw [h1] at h4; cases h4
          · exact h.pending a0 ha0 b0 hb0 he h2 h5
      · have hbe : b0.ecu ≠ ecu := he ▸ hae
        rw [hother a0 ha0 hae] at hca
        rw [hother b0 hb0 hbe] at hcb
        first
        | exact h.current a0 ha0 b0 hb0 he hca hcb
        | exact h.pending a0 ha0 b0 hb0 he hca hcb
    · split at hb
      · cases hb
      · next hn =>
        rw [List.mem_singleton] at hb
        subst hb
        have hae : a0.ecu = ecu := by simpa [save1_ecu, freshRow] using he
        have hnone : old = none := by simpa using hn
        first
        | rcases save1_isCurrent hae hca with ⟨_, o, h2, _⟩ | ⟨h1, h2, _⟩
          · rw [hnone] at h2; cases h2
          · simp [freshRow] at hcb; exact absurd hcb h1
        | rcases save1_isPending hae hca with ⟨_, o, h2, _⟩ | ⟨h1, h2, _⟩
          · rw [hnone] at h2; cases h2
          · simp [freshRow, h1] at hcb
    · split at ha
      · cases ha
      · next hn =>
        rw [List.mem_singleton] at ha
        subst ha
        have hbe : b0.ecu = ecu := by simpa [save1_ecu, freshRow] using he.symm
        have hnone : old = none := by simpa using hn
        first
        | rcases save1_isCurrent hbe hcb with ⟨_, o, h2, _⟩ | ⟨h1, h2, _⟩
          · rw [hnone] at h2; cases h2
          · simp [freshRow] at hca; exact absurd hca h1
        | rcases save1_isPending hbe hcb with ⟨_, o, h2, _⟩ | ⟨h1, h2, _⟩
          · rw [hnone] at h2; cases h2
          · simp [freshRow, h1] at hca
    · split at ha
      · cases ha
      · rw [if_neg (by assumption)] at hb
        rw [List.mem_singleton] at ha hb
        rw [ha, hb]

/-! ### The log -/

/-- The part of a row that is never updated. -/
def SameEntry (a b : VersionRow) : Prop :=
  a.ecu = b.ecu ∧ a.sha256 = b.sha256 ∧ a.name = b.name ∧ a.hashes = b.hashes ∧ a.length = b.length ∧ a.custom = b.custom

theorem save1_entry (ecu : String) (t : Target) (mode : UpdateMode) (old : Option VersionRow) (r : VersionRow) :
    SameEntry r (save1 ecu t mode old r) := by
  have hc : SameEntry r (clear1 ecu mode r) := by
    unfold clear1; split <;> (try cases mode) <;> exact ⟨rfl, rfl, rfl, rfl, rfl, rfl⟩
  unfold save1
  split
  · split
    · exact hc
    · exact hc
  · exact hc

theorem readTarget_entry {env : Env} {ecus : List (String × String)} {a b : VersionRow} (h : SameEntry a b) {t : Target}
    (ha : readTarget env ecus a = .ok t) : readTarget env ecus b = .ok { t with correlationId := b.correlationId } := by
  obtain ⟨_, h1, h2, h3, h4, h5⟩ := h
  unfold readTarget at ha ⊢
  simp only [← h1, ← h2, ← h3, ← h4, ← h5]
  split
  · next hc => simp only [hc, if_true] at ha; cases ha; rfl
  · next hc =>
    simp only [hc, if_false] at ha
    exact updateCustom_corr b.correlationId ha

end VersionDb

end Aktualizr
