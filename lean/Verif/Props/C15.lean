import Verif.Lemmas.Versions
import Verif.Props.C30
import Verif.Spec.Toy

/-!
# C15 At most one current and one pending version per ECU, C16 Installation log only grows
-/

namespace Aktualizr

namespace Spec

/-- A call of `saveInstalledVersion`. An empty serial means the Primary. -/
structure Recording where
  serial : String
  target : Target
  mode : UpdateMode

/-- The tables after a sequence of recordings. -/
def recordAll (env : Env) (db : VersionDb) (l : List Recording) : VersionDb :=
  l.foldl (fun d r => d.saveInstalledVersion env r.serial r.target r.mode) db

/-- The rows of an ECU with a property. -/
def rowsWith (db : VersionDb) (ecu : String) (p : VersionRow → Bool) : List VersionRow :=
  db.rows.filter (fun r => r.ecu == ecu && p r)

/-- A log entry without the correlation id of the update that asked for it last. -/
def entry (t : Target) : Target := { t with correlationId := "" }

/-- The row is the record of target `t`, apart from flags and correlation id. -/
def RecordOf (env : Env) (t : Target) (r : VersionRow) : Prop :=
  r.name = t.filename ∧ r.sha256 = t.sha256Hash ∧ r.hashes = encodeHashes t.hashes ∧ r.length = t.length ∧ r.custom = env.canon t.custom

end Spec

open Spec VersionDb

/-! ### C15 -/

theorem recordAll_ecus (env : Env) (db : VersionDb) (l : List Recording) : (recordAll env db l).ecus = db.ecus := by
  induction l generalizing db with
  | nil => rfl
  | cons a l ih => exact (ih _).trans (save_ecus ..)

theorem recordAll_tidy (env : Env) {db : VersionDb} (l : List Recording) (h : Tidy db.rows) : Tidy (recordAll env db l).rows := by
  induction l generalizing db with
  | nil => exact h
  | cons a l ih => exact ih (save_tidy _ _ _ h)

theorem tidy_nil : Tidy [] := ⟨List.Pairwise.nil, by simp, by simp⟩

theorem filter_length_le_one {rows : List VersionRow} (ho : Ordered rows) {p : VersionRow → Bool}
    (h : ∀ a ∈ rows, ∀ b ∈ rows, p a = true → p b = true → a.id = b.id) : (rows.filter p).length ≤ 1 := by
  induction rows with
  | nil => simp
  | cons x xs ih =>
    have ho' := ho
    rw [Ordered, List.pairwise_cons] at ho
    have ih := ih ho.2 (fun a ha b hb => h a (List.mem_cons_of_mem _ ha) b (List.mem_cons_of_mem _ hb))
    rw [List.filter_cons]
    split
    · next hx =>
      have : xs.filter p = [] := by
        rw [List.filter_eq_nil_iff]
        intro a ha hpa
        have := h x (by simp) a (by simp [ha]) hx hpa
        have := ho.1 a ha
        omega
      simp [this]
    · exact ih

/-- C15, first part. Starting without recorded versions, after any sequence of recordings
(current, pending or merely known, for any ECUs) every ECU has at most one current and at most
one pending version. -/
theorem C15_at_most_one (env : Env) (ecus : List EcuRow) (l : List Recording) (ecu : String) :
    (rowsWith (recordAll env { ecus := ecus } l) ecu (·.isCurrent)).length ≤ 1 ∧
    (rowsWith (recordAll env { ecus := ecus } l) ecu (·.isPending)).length ≤ 1 := by
  have h := recordAll_tidy env (db := { ecus := ecus }) l tidy_nil
  constructor
  · refine filter_length_le_one h.ordered fun a ha b hb h1 h2 => ?_
    simp at h1 h2
    exact h.current a ha b hb (h1.1.trans h2.1.symm) h1.2 h2.2
  · refine filter_length_le_one h.ordered fun a ha b hb h1 h2 => ?_
    simp at h1 h2
    exact h.pending a ha b hb (h1.1.trans h2.1.symm) h1.2 h2.2

theorem filter_map_other {rows : List VersionRow} {s : VersionRow → VersionRow} {p : VersionRow → Bool}
    (hp : ∀ r ∈ rows, p (s r) = p r) (hs : ∀ r ∈ rows, p r = true → s r = r) : (rows.map s).filter p = rows.filter p := by
  induction rows with
  | nil => rfl
  | cons x xs ih =>
    have ih := ih (fun r hr => hp r (List.mem_cons_of_mem _ hr)) (fun r hr => hs r (List.mem_cons_of_mem _ hr))
    rw [List.map_cons, List.filter_cons, List.filter_cons, hp x (by simp), ih]
    split
    · next h => rw [hs x (by simp) h]
    · rfl

theorem save_other {env : Env} {db : VersionDb} (h : Ordered db.rows) (r : Recording) {ecu : String}
    (hne : ecu ≠ db.realSerial r.serial) (p : VersionRow → Bool) :
    rowsWith (db.saveInstalledVersion env r.serial r.target r.mode) ecu p = rowsWith db ecu p := by
  unfold rowsWith
  rw [save_rows, List.filter_append]
  have h2 : List.filter (fun x => x.ecu == ecu && p x) (if (oldRow db.rows (db.realSerial r.serial) r.target).isSome = true then []
      else [freshRow env (nextId db.rows) (db.realSerial r.serial) r.target r.mode]) = [] := by
    split
    · rfl
    · simp [freshRow, hne.symm]
  rw [h2, List.append_nil]
  apply filter_map_other
  · intro x hx
    by_cases he : x.ecu = ecu
    · rw [save1_other h r.mode hx (by rw [he]; exact hne)]
    · have : (x.ecu == ecu) = false := by simpa using he
      rw [save1_ecu, this, Bool.false_and, Bool.false_and]
  · intro x hx hp
    simp at hp
    exact save1_other h r.mode hx (by rw [hp.1]; exact hne)

/-- C15, last part. Recording a version for one ECU leaves the rows of every other ECU as they
are. -/
theorem C15_others_untouched (env : Env) (ecus : List EcuRow) (l : List Recording) (r : Recording) (ecu : String)
    (hne : ecu ≠ (recordAll env { ecus := ecus } l).realSerial r.serial) :
    rowsWith (recordAll env { ecus := ecus } (l ++ [r])) ecu (fun _ => true) =
      rowsWith (recordAll env { ecus := ecus } l) ecu (fun _ => true) := by
  have := save_other (env := env) (recordAll_tidy env (db := { ecus := ecus }) l tidy_nil).ordered r hne (fun _ => true)
  simpa [recordAll] using this

theorem record_origin {env : Env} {db : VersionDb} {l : List Recording} {S : Target → Prop}
    (h : ∀ x ∈ db.rows, ∃ t, S t ∧ RecordOf env t x) (hl : ∀ r ∈ l, S r.target) :
    ∀ x ∈ (recordAll env db l).rows, ∃ t, S t ∧ RecordOf env t x := by
  induction l generalizing db with
  | nil => exact h
  | cons r l ih =>
    refine ih (db := db.saveInstalledVersion env r.serial r.target r.mode) ?_ (fun x hx => hl x (List.mem_cons_of_mem _ hx))
    intro x hx
    rw [save_rows] at hx
    rcases List.mem_append.1 hx with hx | hx
    · obtain ⟨y, hy, rfl⟩ := List.mem_map.1 hx
      obtain ⟨t, ht, h1, h2, h3, h4, h5⟩ := h y hy
      obtain ⟨_, e1, e2, e3, e4, e5⟩ := save1_entry (db.realSerial r.serial) r.target r.mode (oldRow db.rows (db.realSerial r.serial) r.target) y
      exact ⟨t, ht, e2 ▸ h1, e1 ▸ h2, e3 ▸ h3, e4 ▸ h4, e5 ▸ h5⟩
    · split at hx
      · cases hx
      · rw [List.mem_singleton] at hx
        subst hx
        exact ⟨r.target, hl r (by simp), rfl, rfl, rfl, rfl, rfl⟩

/-- After recording `t` as current, the only row of the ECU with a flag is one for the same
file name and sha256. -/
theorem save_current_row (env : Env) (db : VersionDb) (serial : String) (t : Target) (h : Ordered db.rows) :
    (∃ r, (db.saveInstalledVersion env serial t .current).currentRow (db.realSerial serial) = some r ∧
      r.name = t.filename ∧ r.sha256 = t.sha256Hash ∧ r.correlationId = t.correlationId) ∧
    (db.saveInstalledVersion env serial t .current).pendingRow (db.realSerial serial) = none := by
  constructor
  · unfold currentRow
    have hex : ∃ x ∈ (db.saveInstalledVersion env serial t .current).rows, x.ecu = db.realSerial serial ∧ x.isCurrent = true := by
      rw [save_rows]
      cases ho : oldRow db.rows (db.realSerial serial) t with
      | none => exact ⟨freshRow env (nextId db.rows) (db.realSerial serial) t .current, by simp, rfl, rfl⟩
      | some o =>
        obtain ⟨hm, he, _⟩ := oldRow_some ho
        refine ⟨save1 (db.realSerial serial) t .current (some o) o, by simp; exact ⟨o, hm, rfl⟩, ?_, ?_⟩
        · rw [save1_ecu]; exact he
        · simp [save1, reflag]
    cases hf : List.find? (fun r => r.ecu == db.realSerial serial && r.isCurrent) (db.saveInstalledVersion env serial t .current).rows with
    | none =>
      obtain ⟨x, hx, h1, h2⟩ := hex
      have := List.find?_eq_none.1 hf x hx
      simp [h1, h2] at this
    | some r =>
      refine ⟨r, rfl, ?_⟩
      have hr := List.mem_of_find?_eq_some hf
      have hp := List.find?_some hf
      simp at hp
      rw [save_rows] at hr
      rcases List.mem_append.1 hr with hr | hr
      · obtain ⟨y, hy, rfl⟩ := List.mem_map.1 hr
        have hye : y.ecu = db.realSerial serial := by rw [← hp.1, save1_ecu]
        rcases save1_isCurrent hye hp.2 with ⟨_, o, h2, h3⟩ | ⟨h1, _⟩
        · obtain ⟨hm, _, hs, hn⟩ := oldRow_some h2
          obtain rfl : y = o := h.inj hy hm h3
          rw [h2]
          obtain ⟨_, e1, e2, _⟩ := save1_entry (db.realSerial serial) t .current (some y) y
          refine ⟨e2 ▸ hn, e1 ▸ hs, ?_⟩
          simp [save1, reflag]
        · exact absurd rfl h1
      · split at hr
        · cases hr
        · rw [List.mem_singleton] at hr
          subst hr
          exact ⟨rfl, rfl, rfl⟩
  · unfold pendingRow
    rw [List.find?_eq_none]
    intro x hx hp
    simp at hp
    rw [save_rows] at hx
    rcases List.mem_append.1 hx with hx | hx
    · obtain ⟨y, hy, rfl⟩ := List.mem_map.1 hx
      have hye : y.ecu = db.realSerial serial := by rw [← hp.1, save1_ecu]
      rcases save1_isPending hye hp.2 with ⟨h1, _⟩ | ⟨h1, _⟩ <;> cases h1
    · split at hx
      · cases hx
      · rw [List.mem_singleton] at hx
        subst hx
        simp [freshRow] at hp

theorem save_realSerial (env : Env) (db : VersionDb) (serial s : String) (t : Target) (mode : UpdateMode) :
    (db.saveInstalledVersion env serial t mode).realSerial s = db.realSerial s := by
  unfold realSerial; rw [save_ecus]

theorem save_ecuMap (env : Env) (db : VersionDb) (serial s : String) (t : Target) (mode : UpdateMode) :
    (db.saveInstalledVersion env serial t mode).ecuMap s = db.ecuMap s := by
  unfold ecuMap; rw [save_ecus]

theorem readTarget_of_record {env : Env} {ecus : List (String × String)} {t t' : Target} {r : VersionRow} (hr : RecordOf env t r)
    (h : readTarget env ecus r = .ok t') :
    t'.filename = t.filename ∧ t'.length = t.length ∧ t'.correlationId = r.correlationId ∧
      ((∀ x ∈ t.hashes, Storable x) → (∃ x ∈ t.hashes, x.type = .sha256) → ∀ x, x ∈ t'.hashes ↔ x ∈ t.hashes) := by
  obtain ⟨h1, h2, h3, h4, h5⟩ := hr
  have key : ∀ t0 : Target, t0.filename = t.filename → t0.length = t.length → t0.correlationId = r.correlationId →
      t0.hashes = sortHashes (if (decodeHashes r.hashes).any (fun h => h.type == .sha256) then decodeHashes r.hashes
        else decodeHashes r.hashes ++ [Hash.mk' .sha256 r.sha256]) →
      t0.filename = t.filename ∧ t0.length = t.length ∧ t0.correlationId = r.correlationId ∧
      ((∀ x ∈ t.hashes, Storable x) → (∃ x ∈ t.hashes, x.type = .sha256) → ∀ x, x ∈ t0.hashes ↔ x ∈ t.hashes) := by
    intro t0 e1 e2 e3 e4
    refine ⟨e1, e2, e3, fun hs hx x => ?_⟩
    rw [e4, h3, C30_round_trip _ hs, if_pos, mem_sortHashes]
    obtain ⟨y, hy, ht⟩ := hx
    rw [List.any_eq_true]
    exact ⟨y, hy, by simp [ht]⟩
  unfold readTarget at h
  split at h
  · cases h
    exact key _ h1 h4 rfl rfl
  · obtain ⟨_, e1, e2, e3, e4⟩ := updateCustom_ok h
    exact key _ (e1.trans h1) (e3.trans h4) e4 e2

/-- C15, second part, for versions identified by their sha256. Whatever was recorded before,
after recording `t` as current for an ECU, reading the installed versions of that ECU gives no
pending version, and a current version with the file name of `t` and the correlation id of `t`
that is the record of some target `t0` recorded so far (possibly `t` itself) with the same file
name and sha256. If the recorded hashes are proper (`Storable`, among them a sha256), and
targets recorded under the same file name and sha256 have the same content, then the current
version has exactly the length and hashes of `t`. -/
theorem C15_recorded_is_current_partial (env : Env) (ecus : List EcuRow) (l : List Recording) (serial : String) (t : Target)
    (cur pend : Option Target) (db' : VersionDb)
    (hdb : db' = recordAll env { ecus := ecus } (l ++ [⟨serial, t, .current⟩]))
    (hc : db'.loadCurrent env serial = .ok cur) (hp : db'.loadPending env serial = .ok pend) :
    pend = none ∧ ∃ t' t0, cur = some t' ∧ (t0 = t ∨ ∃ r ∈ l, r.target = t0) ∧
      t0.filename = t.filename ∧ t0.sha256Hash = t.sha256Hash ∧
      t'.filename = t.filename ∧ t'.correlationId = t.correlationId ∧ t'.length = t0.length ∧
      ((∀ x ∈ t0.hashes, Storable x) → (∃ x ∈ t0.hashes, x.type = .sha256) → ∀ x, x ∈ t'.hashes ↔ x ∈ t0.hashes) := by
  subst hdb
  have hrec : recordAll env { ecus := ecus } (l ++ [⟨serial, t, .current⟩]) =
      (recordAll env { ecus := ecus } l).saveInstalledVersion env serial t .current := by simp [recordAll]
  have horig := record_origin (env := env) (db := { ecus := ecus }) (l := l ++ [⟨serial, t, .current⟩])
    (S := fun t0 => t0 = t ∨ ∃ r ∈ l, r.target = t0) (by simp) (by
      intro r hr
      rcases List.mem_append.1 hr with hr | hr
      · exact .inr ⟨r, hr, rfl⟩
      · rw [List.mem_singleton] at hr; subst hr; exact .inl rfl)
  have ho := (recordAll_tidy env (db := { ecus := ecus }) l tidy_nil).ordered
  rw [hrec] at hc hp horig
  generalize recordAll env { ecus := ecus } l = db at *
  obtain ⟨⟨r, hr, hn, hsha, hcor⟩, hnone⟩ := save_current_row env db serial t ho
  simp only [loadCurrent, loadPending, save_realSerial, save_ecuMap, exc_bind_ok, hr, hnone, readRow, exc_pure_ok] at hc hp
  obtain ⟨m, hm, t', ht', hcur⟩ := hc
  obtain ⟨_, _, hpe⟩ := hp
  cases hpe
  obtain ⟨t0, ht0, hrec0⟩ := horig r (List.mem_of_find?_eq_some hr)
  obtain ⟨h1, h2, h3, h4⟩ := readTarget_of_record hrec0 ht'
  exact ⟨rfl, t', t0, hcur.symm, ht0, hrec0.1.symm.trans hn, hrec0.2.1.symm.trans hsha,
    h1.trans (hrec0.1.symm.trans hn), h3.trans hcor, h2, h4⟩

/-- C15, second part, when the sha256 says which content is meant: every recorded target has
proper hashes (`Storable`, among them a sha256), and those with the file name and sha256 of `t`
have its length and hashes. Then the current version read back has exactly the file name, length
and hashes of `t`, and there is no pending version. -/
theorem C15_recorded_is_current (env : Env) (ecus : List EcuRow) (l : List Recording) (serial : String) (t : Target)
    (cur pend : Option Target) (db' : VersionDb)
    (hdb : db' = recordAll env { ecus := ecus } (l ++ [⟨serial, t, .current⟩]))
    (hc : db'.loadCurrent env serial = .ok cur) (hp : db'.loadPending env serial = .ok pend)
    (hstore : ∀ x ∈ t.hashes, Storable x) (hsha : ∃ x ∈ t.hashes, x.type = .sha256)
    (hid : ∀ r ∈ l, r.target.filename = t.filename → r.target.sha256Hash = t.sha256Hash →
      r.target.length = t.length ∧ r.target.hashes = t.hashes) :
    pend = none ∧ ∃ t', cur = some t' ∧ t'.filename = t.filename ∧ t'.correlationId = t.correlationId ∧
      t'.length = t.length ∧ ∀ x, x ∈ t'.hashes ↔ x ∈ t.hashes := by
  obtain ⟨h1, t', t0, h2, h3, h4, h5, h6, h7, h8, h9⟩ := C15_recorded_is_current_partial env ecus l serial t cur pend db' hdb hc hp
  have : t0.length = t.length ∧ t0.hashes = t.hashes := by
    rcases h3 with rfl | ⟨r, hr, rfl⟩
    · exact ⟨rfl, rfl⟩
    · exact hid r hr h4 h5
  rw [this.2] at h9
  exact ⟨h1, t', h2, h6, h7, h8.trans this.1, h9 hstore hsha⟩

/-- Not vacuous: two ECUs, an upgrade of the first one through a pending state. -/
example :
    let ecus : List EcuRow := [⟨"p", "h", true⟩, ⟨"s", "h2", false⟩]
    let a : Target := { filename := "a", length := 1, hashes := [Hash.mk' .sha256 "aa"] }
    let b : Target := { filename := "b", length := 2, hashes := [Hash.mk' .sha256 "bb"] }
    let l : List Recording := [⟨"", a, .current⟩, ⟨"s", a, .current⟩, ⟨"p", b, .none⟩, ⟨"p", b, .pending⟩]
    let env := Toy.env []
    ((recordAll env { ecus := ecus } l).loadPending env "p").map (·.map (·.filename)) = .ok (some "b") ∧
    ((recordAll env { ecus := ecus } l).loadCurrent env "").map (·.map (·.filename)) = .ok (some "a") ∧
    ((recordAll env { ecus := ecus } (l ++ [⟨"p", b, .current⟩])).loadCurrent env "p").map (·.map (·.filename)) = .ok (some "b") ∧
    ((recordAll env { ecus := ecus } (l ++ [⟨"p", b, .current⟩])).loadCurrent env "s").map (·.map (·.filename)) = .ok (some "a") ∧
    ((recordAll env { ecus := ecus } (l ++ [⟨"p", b, .current⟩])).rows.map (·.wasInstalled)) = [true, true, true] := by
  decide +kernel

/-- Why the second part of C15 is partial: versions are told apart by file name and sha256 only.
A target listed with a sha512 hash only has an empty sha256; recording another one under the
same file name as current keeps the old hashes and length, so the version reported as current is
the old one. -/
theorem C15_sha512_only_stays_old :
    ∃ (ecus : List EcuRow) (a b t' : Target), a.filename = b.filename ∧ a.hashes ≠ b.hashes ∧ a.length ≠ b.length ∧
      (∀ x ∈ b.hashes, Storable x) ∧
      (recordAll (Toy.env []) { ecus := ecus } [⟨"p", a, .current⟩, ⟨"p", b, .current⟩]).loadCurrent (Toy.env []) "p" = .ok (some t') ∧
      t'.length = a.length ∧ Hash.mk' .sha512 "aa" ∈ a.hashes ∧ Hash.mk' .sha512 "aa" ∈ t'.hashes ∧ Hash.mk' .sha512 "aa" ∉ b.hashes := by
  let a : Target := { filename := "fw", length := 1, hashes := [Hash.mk' .sha512 "aa"] }
  let b : Target := { filename := "fw", length := 2, hashes := [Hash.mk' .sha512 "bb"] }
  let db := recordAll (Toy.env []) { ecus := [⟨"p", "h", true⟩] } [⟨"p", a, .current⟩, ⟨"p", b, .current⟩]
  cases h : db.loadCurrent (Toy.env []) "p" with
  | error e =>
    have : ((db.loadCurrent (Toy.env []) "p").map (·.isSome)) = .ok true := by decide +kernel
    rw [h] at this; cases this
  | ok o =>
    cases o with
    | none =>
      have : ((db.loadCurrent (Toy.env []) "p").map (·.isSome)) = .ok true := by decide +kernel
      rw [h] at this; cases this
    | some t' =>
      have h1 : (db.loadCurrent (Toy.env []) "p").map (·.map (fun t => (t.length, t.hashes))) =
          .ok (some (1, [Hash.mk' .sha256 "", Hash.mk' .sha512 "aa"])) := by decide +kernel
      rw [h] at h1
      simp only [Except.map, Option.map, Except.ok.injEq, Option.some.injEq, Prod.mk.injEq] at h1
      refine ⟨[⟨"p", "h", true⟩], a, b, t', rfl, by decide +kernel, by decide, ?_, h, h1.1, by decide +kernel, ?_, by decide +kernel⟩
      · have : ∀ x ∈ b.hashes, (x.type = .sha256 ∨ x.type = .sha512) ∧ x.hash ≠ "" ∧ upper x.hash = x.hash ∧ ';' ∉ x.hash.toList := by
          decide +kernel
        exact this
      · rw [h1.2]; decide +kernel

/-- Replacing the ECU table keeps "at most one" as long as nothing is recorded under the empty
serial (used while the Primary's serial is not known yet), or nothing under the new Primary's
serial. -/
theorem C15_store_serials_partial (db : VersionDb) (h : Tidy db.rows) (l : List (String × String))
    (hl : (∀ r ∈ db.rows, r.ecu ≠ "") ∨ ∀ p rest, l = p :: rest → ∀ r ∈ db.rows, r.ecu ≠ p.1) :
    Tidy (db.storeEcuSerials l).rows := by
  cases l with
  | nil => exact h
  | cons p rest =>
    simp only [storeEcuSerials]
    split
    · refine ⟨h.ordered.map (fun r => by split <;> rfl), ?_, ?_⟩
      all_goals
        intro a ha b hb he h1 h2
        obtain ⟨a0, ha0, rfl⟩ := List.mem_map.1 ha
        obtain ⟨b0, hb0, rfl⟩ := List.mem_map.1 hb
        have hk : a0.ecu = b0.ecu := by
          rcases hl with hl | hl
          · simpa [hl a0 ha0, hl b0 hb0] using he
          · have e1 := hl p rest rfl a0 ha0
            have e2 := hl p rest rfl b0 hb0
            by_cases ha' : a0.ecu = "" <;> by_cases hb' : b0.ecu = ""
            · rw [ha', hb']
            · simp [ha', hb'] at he; exact absurd he.symm e2
            · simp [ha', hb'] at he; exact absurd he e1
            · simpa [ha', hb'] using he
        have i1 : ∀ r : VersionRow, (if r.ecu = "" then { r with ecu := p.1 } else r).id = r.id := fun r => by split <;> rfl
        have i2 : ∀ r : VersionRow, (if r.ecu = "" then { r with ecu := p.1 } else r).isCurrent = r.isCurrent := fun r => by split <;> rfl
        have i3 : ∀ r : VersionRow, (if r.ecu = "" then { r with ecu := p.1 } else r).isPending = r.isPending := fun r => by split <;> rfl
        simp only [i1, i2, i3] at h1 h2 ⊢
        first
        | exact h.current a0 ha0 b0 hb0 hk h1 h2
        | exact h.pending a0 ha0 b0 hb0 hk h1 h2
    · exact h

/-- The limit: a version recorded for the (still unknown) Primary under the empty serial becomes
a second current version of the Primary when its serial is stored, if one was recorded under that
serial explicitly before. -/
theorem C15_lazy_serial_two_current :
    ∃ a b : Target, (rowsWith ((recordAll (Toy.env []) {} [⟨"p", a, .current⟩, ⟨"", b, .current⟩]).storeEcuSerials [("p", "h")]) "p"
      (·.isCurrent)).length = 2 :=
  ⟨{ filename := "a" }, { filename := "b" }, by decide +kernel⟩

/-! ### C16 -/

/-- `l'` is `l` with entries unchanged (apart from flags and correlation ids), plus new ones at
the end. -/
def Grow (l l' : List VersionRow) : Prop :=
  ∃ (s : VersionRow → VersionRow) (extra : List VersionRow), (∀ r, SameEntry r (s r)) ∧ l' = l.map s ++ extra

theorem Grow.refl (l : List VersionRow) : Grow l l := ⟨id, [], fun _ => ⟨rfl, rfl, rfl, rfl, rfl, rfl⟩, by simp⟩

theorem SameEntry.trans' {a b c : VersionRow} (h : SameEntry a b) (h' : SameEntry b c) : SameEntry a c := by
  obtain ⟨h1, h2, h3, h4, h5, h6⟩ := h
  obtain ⟨k1, k2, k3, k4, k5, k6⟩ := h'
  exact ⟨h1.trans k1, h2.trans k2, h3.trans k3, h4.trans k4, h5.trans k5, h6.trans k6⟩

theorem Grow.trans {a b c : List VersionRow} (h : Grow a b) (h' : Grow b c) : Grow a c := by
  obtain ⟨s, e, hs, rfl⟩ := h
  obtain ⟨s', e', hs', rfl⟩ := h'
  exact ⟨s' ∘ s, e.map s' ++ e', fun r => SameEntry.trans' (hs r) (hs' (s r)), by simp⟩

theorem filter_map_comm {rows : List VersionRow} {s : VersionRow → VersionRow} {p : VersionRow → Bool}
    (hp : ∀ r ∈ rows, p (s r) = p r) : (rows.map s).filter p = (rows.filter p).map s := by
  induction rows with
  | nil => rfl
  | cons x xs ih =>
    have ih := ih (fun r hr => hp r (List.mem_cons_of_mem _ hr))
    rw [List.map_cons, List.filter_cons, List.filter_cons, hp x (by simp), ih]
    split <;> simp

theorem save1_was {ecu : String} {t : Target} {mode : UpdateMode} {o : VersionRow} {r : VersionRow} (h : r.id ≠ o.id) :
    (save1 ecu t mode (some o) r).wasInstalled = r.wasInstalled := by
  simp only [save1, if_neg h]
  unfold clear1; split <;> (try cases mode) <;> rfl

theorem save1_was_none {ecu : String} {t : Target} {mode : UpdateMode} {r : VersionRow} :
    (save1 ecu t mode none r).wasInstalled = r.wasInstalled := by
  simp only [save1]
  unfold clear1; split <;> (try cases mode) <;> rfl

theorem save_grow {env : Env} {db : VersionDb} (h : Ordered db.rows) (r : Recording) (ecu : String) (inst : Bool) :
    Grow (rowsWith db ecu (fun x => !inst || x.wasInstalled))
      (rowsWith (db.saveInstalledVersion env r.serial r.target r.mode) ecu (fun x => !inst || x.wasInstalled)) := by
  by_cases hne : ecu = db.realSerial r.serial
  · subst hne
    unfold rowsWith
    rw [save_rows, List.filter_append]
    generalize hs : save1 (db.realSerial r.serial) r.target r.mode (oldRow db.rows (db.realSerial r.serial) r.target) = s
    have hent : ∀ x, SameEntry x (s x) := fun x => by rw [← hs]; exact save1_entry ..
    have key : ∃ extra, List.filter (fun x => x.ecu == db.realSerial r.serial && (!inst || x.wasInstalled)) (db.rows.map s) =
        (List.filter (fun x => x.ecu == db.realSerial r.serial && (!inst || x.wasInstalled)) db.rows).map s ++ extra := by
      cases ho : oldRow db.rows (db.realSerial r.serial) r.target with
      | none =>
        refine ⟨[], ?_⟩
        rw [List.append_nil]
        apply filter_map_comm
        intro x _
        rw [← (hent x).1, ← hs, ho, save1_was_none]
      | some o =>
        obtain ⟨hom, hoe, _⟩ := oldRow_some ho
        -- the updated row is the last one of the ECU
        have hlast : (db.rows.filter (fun x => x.ecu == db.realSerial r.serial)).getLast? = some o := by
          unfold oldRow at ho
          cases hl : lastRow db.rows (db.realSerial r.serial) with
          | none => simp [hl] at ho
          | some z =>
            simp only [hl] at ho
            split at ho
            · cases ho; exact hl
            · cases ho
        obtain ⟨init, hinit⟩ := List.getLast?_eq_some_iff.1 hlast
        have hsplit : ∀ q : VersionRow → Bool, ∀ l : List VersionRow,
            l.filter (fun x => x.ecu == db.realSerial r.serial && q x) = (l.filter (fun x => x.ecu == db.realSerial r.serial)).filter q := by
          intro q l
          rw [List.filter_filter]
          congr 1
          funext x
          exact Bool.and_comm _ _
        have hcomm : (db.rows.map s).filter (fun x => x.ecu == db.realSerial r.serial) =
            (db.rows.filter (fun x => x.ecu == db.realSerial r.serial)).map s := by
          apply filter_map_comm
          intro x _
          rw [← (hent x).1]
        rw [hsplit, hsplit, hcomm, hinit, List.map_append, List.filter_append, List.filter_append, List.map_append]
        have hi : (init.map s).filter (fun x => !inst || x.wasInstalled) = (init.filter (fun x => !inst || x.wasInstalled)).map s := by
          apply filter_map_comm
          intro x hx
          have hxm : x ∈ db.rows := by
            have : x ∈ db.rows.filter (fun x => x.ecu == db.realSerial r.serial) := by rw [hinit]; simp [hx]
            exact (List.mem_filter.1 this).1
          have hord : (init ++ [o]).Pairwise (fun a b => a.id < b.id) := by
            rw [← hinit]; exact List.Pairwise.filter _ h
          have hlt : x.id < o.id := (List.pairwise_append.1 hord).2.2 x hx o (by simp)
          rw [← hs, ho, save1_was (by omega)]
        rw [hi]
        cases hb : (!inst || o.wasInstalled) with
        | false =>
          refine ⟨List.filter (fun x => !inst || x.wasInstalled) (List.map s [o]), ?_⟩
          rw [show List.filter (fun x => !inst || x.wasInstalled) [o] = [] by simp [hb]]
          simp
        | true =>
          refine ⟨[], ?_⟩
          have hb' : (!inst || (s o).wasInstalled) = true := by
            rw [← hs, ho]
            simp only [save1, if_true, reflag]
            cases inst <;> simp_all
          rw [List.append_nil, List.map_cons, List.map_nil]
          congr 1
          rw [List.filter_cons, hb', List.filter_cons, hb]
          rfl
    obtain ⟨extra, hkey⟩ := key
    rw [hkey]
    exact ⟨s, _, hent, by rw [List.append_assoc]⟩
  · rw [save_other h r hne]
    exact Grow.refl _

theorem readAll_grow {env : Env} {ecus : List (String × String)} {s : VersionRow → VersionRow} (hs : ∀ r, SameEntry r (s r))
    {l extra : List VersionRow} {a b : List Target} (ha : readAll env ecus l = .ok a) (hb : readAll env ecus (l.map s ++ extra) = .ok b) :
    a.map entry <+: b.map entry := by
  induction l generalizing a b with
  | nil => simp [readAll] at ha; subst ha; exact List.nil_prefix
  | cons r l ih =>
    simp only [readAll, exc_bind_ok, exc_pure_ok, List.map_cons, List.cons_append] at ha hb
    obtain ⟨t, ht, ts, hts, rfl⟩ := ha
    obtain ⟨t', ht', ts', hts', rfl⟩ := hb
    have := readTarget_entry (hs r) ht
    rw [ht'] at this
    cases this
    have := ih hts hts'
    rw [List.map_cons, List.map_cons]
    show entry t :: _ <+: entry t :: _
    rw [List.cons_prefix_cons]
    exact ⟨rfl, this⟩

/-- C16. Recording further versions (for any ECUs, in any mode) only appends to the installation
log of an ECU: the log read before is a prefix of the log read after, up to correlation ids.
With `onlyInstalled` the same holds for the versions reported as once installed: none of them is
ever dropped, or overtaken by another. -/
theorem C16_log_grows (env : Env) (ecus : List EcuRow) (l l' : List Recording) (serial : String) (onlyInstalled : Bool)
    (a b : List Target)
    (ha : (recordAll env { ecus := ecus } l).loadInstallationLog env serial onlyInstalled = .ok a)
    (hb : (recordAll env { ecus := ecus } (l ++ l')).loadInstallationLog env serial onlyInstalled = .ok b) :
    a.map entry <+: b.map entry := by
  have happ : recordAll env { ecus := ecus } (l ++ l') = recordAll env (recordAll env { ecus := ecus } l) l' := by
    simp [recordAll, List.foldl_append]
  rw [happ] at hb
  have ht := recordAll_tidy env (db := { ecus := ecus }) l tidy_nil
  generalize recordAll env { ecus := ecus } l = db at *
  have hreal : (recordAll env db l').realSerial serial = db.realSerial serial := by
    unfold realSerial; rw [recordAll_ecus]
  have hmap : (recordAll env db l').ecuMap (db.realSerial serial) = db.ecuMap (db.realSerial serial) := by
    unfold ecuMap; rw [recordAll_ecus]
  unfold loadInstallationLog at ha hb
  simp only [hreal, hmap, exc_bind_ok] at ha hb
  obtain ⟨m, hm, ha⟩ := ha
  obtain ⟨m', hm', hb⟩ := hb
  rw [hm] at hm'; cases hm'
  have hg : Grow (rowsWith db (db.realSerial serial) (fun x => !onlyInstalled || x.wasInstalled))
      (rowsWith (recordAll env db l') (db.realSerial serial) (fun x => !onlyInstalled || x.wasInstalled)) := by
    clear ha hb hm hreal hmap happ
    generalize db.realSerial serial = e
    induction l' generalizing db with
    | nil => exact Grow.refl _
    | cons r l' ih => exact (save_grow ht.ordered r e onlyInstalled).trans (ih _ (save_tidy _ _ _ ht))
  obtain ⟨s, extra, hs, he⟩ := hg
  have he' : List.filter (fun r => r.ecu == db.realSerial serial && (!onlyInstalled || r.wasInstalled)) (recordAll env db l').rows = _ := he
  rw [he'] at hb
  exact readAll_grow hs ha hb

/-- C16. A version recorded as current is the newest entry of its ECU's log of installed
versions, right away. With `C16_log_grows` it stays in that log. -/
theorem C16_current_is_logged (env : Env) (ecus : List EcuRow) (l : List Recording) (serial : String) (t : Target) (b : List Target)
    (hb : (recordAll env { ecus := ecus } (l ++ [⟨serial, t, .current⟩])).loadInstallationLog env serial true = .ok b) :
    ∃ t' ∈ b, t'.filename = t.filename ∧ t'.correlationId = t.correlationId := by
  have hrec : recordAll env { ecus := ecus } (l ++ [⟨serial, t, .current⟩]) =
      (recordAll env { ecus := ecus } l).saveInstalledVersion env serial t .current := by simp [recordAll]
  rw [hrec] at hb
  generalize recordAll env { ecus := ecus } l = db at *
  have hex : ∃ x ∈ (db.saveInstalledVersion env serial t .current).rows, x.ecu = db.realSerial serial ∧ x.wasInstalled = true ∧
      x.name = t.filename ∧ x.correlationId = t.correlationId := by
    rw [save_rows]
    cases ho : oldRow db.rows (db.realSerial serial) t with
    | none => exact ⟨freshRow env (nextId db.rows) (db.realSerial serial) t .current, by simp, rfl, rfl, rfl, rfl⟩
    | some o =>
      obtain ⟨hm, he, hsh, hn⟩ := oldRow_some ho
      obtain ⟨e1, e2, e3, _⟩ := save1_entry (db.realSerial serial) t .current (some o) o
      refine ⟨save1 (db.realSerial serial) t .current (some o) o, by simp; exact ⟨o, hm, rfl⟩, e1 ▸ he, ?_, e3 ▸ hn, ?_⟩
      · simp [save1, reflag]
      · simp [save1, reflag]
  obtain ⟨x, hx, h1, h2, h3, h4⟩ := hex
  unfold loadInstallationLog at hb
  simp only [save_realSerial, save_ecuMap, exc_bind_ok] at hb
  obtain ⟨m, _, hb⟩ := hb
  have hxm : x ∈ List.filter (fun r => r.ecu == db.realSerial serial && (!true || r.wasInstalled))
      (db.saveInstalledVersion env serial t .current).rows := by simp [hx, h1, h2]
  have : ∀ (rows : List VersionRow) (ts : List Target), readAll env m rows = .ok ts → x ∈ rows →
      ∃ t' ∈ ts, t'.filename = x.name ∧ t'.correlationId = x.correlationId := by
    intro rows
    induction rows with
    | nil => intro _ _ h; cases h
    | cons r rows ih =>
      intro ts hts hmem
      simp only [readAll, exc_bind_ok, exc_pure_ok] at hts
      obtain ⟨t1, ht1, ts1, hts1, rfl⟩ := hts
      rcases List.mem_cons.1 hmem with rfl | hmem
      · refine ⟨t1, by simp, ?_⟩
        unfold readTarget at ht1
        split at ht1
        · cases ht1; exact ⟨rfl, rfl⟩
        · obtain ⟨_, e1, _, _, e4⟩ := updateCustom_ok ht1
          exact ⟨e1, e4⟩
      · obtain ⟨t2, ht2, h⟩ := ih ts1 hts1 hmem
        exact ⟨t2, List.mem_cons_of_mem _ ht2, h⟩
  obtain ⟨t', ht', h5, h6⟩ := this _ _ hb hxm
  exact ⟨t', ht', h5.trans h3, h6.trans h4⟩

/-- Not vacuous: reinstalling an older version adds an entry, a merely known one is not in the
log of installed versions. -/
example :
    let ecus : List EcuRow := [⟨"p", "h", true⟩]
    let a : Target := { filename := "a", hashes := [Hash.mk' .sha256 "aa"] }
    let b : Target := { filename := "b", hashes := [Hash.mk' .sha256 "bb"] }
    let l : List Recording := [⟨"", a, .current⟩, ⟨"", b, .none⟩]
    let l' : List Recording := [⟨"p", b, .current⟩, ⟨"p", a, .current⟩, ⟨"p", b, .pending⟩]
    let env := Toy.env []
    ((recordAll env { ecus := ecus } l).loadInstallationLog env "" false).map (·.map (·.filename)) = .ok ["a", "b"] ∧
    ((recordAll env { ecus := ecus } l).loadInstallationLog env "" true).map (·.map (·.filename)) = .ok ["a"] ∧
    ((recordAll env { ecus := ecus } (l ++ l')).loadInstallationLog env "" true).map (·.map (·.filename)) = .ok ["a", "b", "a"] ∧
    ((recordAll env { ecus := ecus } (l ++ l')).loadInstallationLog env "" false).map (·.map (·.filename)) = .ok ["a", "b", "a", "b"] := by
  decide +kernel

end Aktualizr
