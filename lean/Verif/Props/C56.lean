import Verif.Props.C26
import Verif.Props.C15

/-!
# C56 A file Secondary reports the image it holds
-/

namespace Aktualizr

open Spec VersionDb

theorem readTarget_filename {env : Env} {ecus : List (String × String)} {r : VersionRow} {t : Target}
    (h : readTarget env ecus r = .ok t) : t.filename = r.name := by
  unfold readTarget at h
  simp only at h
  split at h
  · cases h; rfl
  · exact (updateCustom_ok h).2.1

/-- After recording `t` as the current version of the Primary, it is read back under its name. -/
theorem save_current_filename {env : Env} {db : VersionDb} {serial : String} {t : Target} (h : Ordered db.rows)
    (he : db.realSerial "" = db.realSerial serial) {cur : Option Target}
    (hc : (db.saveInstalledVersion env serial t .current).loadCurrent env "" = .ok cur) :
    ∃ t', cur = some t' ∧ t'.filename = t.filename := by
  have hs : (db.saveInstalledVersion env serial t .current).realSerial "" = db.realSerial serial := by
    rw [← he]; unfold realSerial; rw [save_ecus]
  unfold loadCurrent at hc
  rw [hs] at hc
  simp only [exc_bind_ok] at hc
  obtain ⟨m, _, hc⟩ := hc
  have hname : ∀ r ∈ (db.saveInstalledVersion env serial t .current).rows, r.ecu = db.realSerial serial → r.isCurrent = true →
      r.name = t.filename := by
    intro r hr hre hrc
    rw [save_rows] at hr
    rcases List.mem_append.mp hr with hr | hr
    · obtain ⟨r0, hr0, rfl⟩ := List.mem_map.mp hr
      rw [save1_ecu] at hre
      rcases save1_isCurrent hre hrc with ⟨_, o, ho, hid⟩ | ⟨hm, _⟩
      · obtain ⟨h1, _, _, h4⟩ := oldRow_some ho
        have := h.inj hr0 h1 hid
        obtain ⟨_, e1, e2, e3, e4, e5⟩ := save1_entry (db.realSerial serial) t .current (oldRow db.rows (db.realSerial serial) t) r0
        rw [this] at e1 e2 e3 e4 e5 ⊢
        grind
      · exact absurd rfl hm
    · split at hr
      · cases hr
      · simp at hr; rw [hr]; rfl
  have hex : ∃ r ∈ (db.saveInstalledVersion env serial t .current).rows, r.ecu = db.realSerial serial ∧ r.isCurrent = true := by
    rw [save_rows]
    cases ho : oldRow db.rows (db.realSerial serial) t with
    | none => exact ⟨freshRow env (nextId db.rows) (db.realSerial serial) t .current, by simp, rfl, rfl⟩
    | some o =>
      obtain ⟨h1, h2, _⟩ := oldRow_some ho
      refine ⟨save1 (db.realSerial serial) t .current (some o) o, by simp; exact ⟨o, h1, rfl⟩, ?_, ?_⟩
      · rw [save1_ecu]; exact h2
      · simp [save1, reflag]
  cases hr : (db.saveInstalledVersion env serial t .current).currentRow (db.realSerial serial) with
  | none =>
    exfalso
    unfold currentRow at hr
    rw [List.find?_eq_none] at hr
    obtain ⟨r, h1, h2, h3⟩ := hex
    exact hr r h1 (by simp [h2, h3])
  | some r =>
    rw [hr] at hc
    simp only [readRow, exc_bind_ok, exc_pure_ok] at hc
    obtain ⟨t', ht', rfl⟩ := hc
    refine ⟨t', rfl, (readTarget_filename ht').trans ?_⟩
    unfold currentRow at hr
    have h1 := List.mem_of_find?_eq_some hr
    have h2 := List.find?_some hr
    simp only [Bool.and_eq_true, beq_iff_eq] at h2
    exact hname r h1 h2.1 h2.2

namespace Sec

/-- What does not change the image nor the versions. -/
theorem step_quiet {env : Env} {hs : Hashing} {s s' : State} {o : Op} {a : Option Answer} (h : step env hs s o = .ok (a, s'))
    (hf : s'.firmware = s.firmware) (ho : ¬ ∃ r f, o = .install r f ∧ a = some .ok) :
    s'.versions = s.versions ∧
      (s'.up = true → (s.up = true ∧ s'.name = s.name) ∨
        ∃ cur, s.versions.loadCurrent env "" = .ok cur ∧ s'.name = (match cur with | some t => t.filename | none => "unknown")) := by
  cases o with
  | putMeta m clock fuel =>
    rcases request_ok h with ⟨_, rfl, rfl⟩ | ⟨_, o, s1, hm, _, h⟩
    · exact ⟨rfl, fun h => .inl ⟨h, rfl⟩⟩
    · obtain ⟨w', ⟨ho, rfl⟩ | ⟨t, rfl, rfl, hd, hi, _⟩⟩ := putMeta_cases hm <;>
        rcases h with ⟨x, _, rfl, rfl⟩ | ⟨e, _, rfl, rfl⟩ <;> first | exact ⟨rfl, fun h => .inl ⟨h, rfl⟩⟩ | exact ⟨rfl, fun h => by cases h⟩
  | upload io data =>
    rcases request_ok h with ⟨_, rfl, rfl⟩ | ⟨_, o, s1, hm, _, h⟩
    · exact ⟨rfl, fun h => .inl ⟨h, rfl⟩⟩
    · rcases upload_cases hm with ⟨_, rfl, _⟩ | ⟨t, _, hr⟩
      · rcases h with ⟨x, _, rfl, rfl⟩ | ⟨e, _, rfl, rfl⟩ <;> first | exact ⟨rfl, fun h => .inl ⟨h, rfl⟩⟩ | exact ⟨rfl, fun h => by cases h⟩
      · obtain ⟨⟨nt, hh, rfl⟩, _⟩ := receiveData_cases hr
        rcases h with ⟨x, _, rfl, rfl⟩ | ⟨e, _, rfl, rfl⟩ <;> first | exact ⟨rfl, fun h => .inl ⟨h, rfl⟩⟩ | exact ⟨rfl, fun h => by cases h⟩
  | restart clock fuel =>
    obtain ⟨o, s1, hm, h⟩ := restart_ok h
    rcases h with ⟨rfl, rfl, rfl⟩ | ⟨e, rfl, rfl, rfl⟩
    · obtain ⟨⟨w', pd, nm, u, he⟩, hp⟩ := start_cases hm
      refine ⟨by rw [he], fun _ => .inr (start_name hm)⟩
    · obtain ⟨⟨w', pd, nm, u, rfl⟩, hp⟩ := start_cases hm
      exact ⟨rfl, fun h => by cases h⟩
  | install renames fuel =>
    rcases request_ok h with ⟨_, rfl, rfl⟩ | ⟨hu, o, s1, hm, _, h⟩
    · exact ⟨rfl, fun h => .inl ⟨h, rfl⟩⟩
    · rcases install_cases hm with ⟨hp, rfl, rfl⟩ | ⟨t, hp, ⟨fw, nt, nm, hh, n, vs, pd, rfl⟩, hx⟩
      · rcases h with ⟨x, hx, rfl, rfl⟩ | ⟨e, he, _⟩
        · exact ⟨rfl, fun h => .inl ⟨h, rfl⟩⟩
        · cases he
      · rcases hx with ⟨_, _, hv, _, _, _, hname⟩ | ⟨b, h0, k1, k2, k3, k4, k5, k6, k7, _, hx⟩
        · rcases h with ⟨x, rfl, rfl, rfl⟩ | ⟨e, rfl, rfl, rfl⟩
          · exact ⟨hv, fun _ => .inl ⟨hu, hname⟩⟩
          · exact ⟨hv, fun h => by cases h⟩
        · rcases hx with ⟨rfl, hpd, hv⟩ | ⟨rfl, hpd, hv⟩
          · rcases h with ⟨x, hx, rfl, rfl⟩ | ⟨e, he, _⟩
            · injection hx with hx
              subst hx
              exact absurd ⟨_, _, rfl, rfl⟩ ho
            · cases he
          · rcases h with ⟨x, hx, _⟩ | ⟨e, _, rfl, rfl⟩
            · cases hx
            · exact ⟨hv, fun h => by cases h⟩

/-- Every step keeps the versions in order, and the ECU. -/
theorem step_versions {env : Env} {hs : Hashing} {s s' : State} {o : Op} {a : Option Answer} (h : step env hs s o = .ok (a, s'))
    (ht : Tidy s.versions.rows) : Tidy s'.versions.rows ∧ s'.versions.ecus = s.versions.ecus := by
  by_cases hc : s'.firmware ≠ s.firmware ∨ ∃ r f, o = .install r f ∧ a = some .ok
  · obtain ⟨_, _, t, _, _, _, _, _, _, _, _, _, _, _, h1 | h1⟩ := step_firmware h hc
    · rw [h1.2.2.2]; exact ⟨save_tidy _ _ _ ht, save_ecus ..⟩
    · rw [h1.2.2]; exact ⟨ht, rfl⟩
  · rw [not_or] at hc
    rw [(step_quiet h (Classical.not_not.mp hc.1) hc.2).1]
    exact ⟨ht, rfl⟩

theorem run_versions {env : Env} {hs : Hashing} {s s' : State} (ops : List Op) (h : run env hs s ops = .ok s')
    (ht : Tidy s.versions.rows) : Tidy s'.versions.rows ∧ s'.versions.ecus = s.versions.ecus := by
  induction ops generalizing s with
  | nil => cases h; exact ⟨ht, rfl⟩
  | cons o ops ih =>
    simp only [run, exc_bind_ok] at h
    obtain ⟨⟨a, s1⟩, h1, h2⟩ := h
    obtain ⟨a1, a2⟩ := step_versions h1 ht
    obtain ⟨b1, b2⟩ := ih h2 a1
    exact ⟨b1, b2.trans a2⟩

/-- Nothing in the history replaces the image. -/
def _root_.Aktualizr.Spec.Sec.Quiet (env : Env) (hs : Hashing) (s : State) (ops : List Op) : Prop :=
  ∀ p o q s1 a s2, ops = p ++ o :: q → run env hs s p = .ok s1 → step env hs s1 o = .ok (a, s2) →
    s2.firmware = s1.firmware ∧ ¬ ∃ r f, o = .install r f ∧ a = some .ok

theorem quiet_named {env : Env} {hs : Hashing} {n : String} {b : Bytes} (ops : List Op) {s s' : State}
    (h : run env hs s ops = .ok s') (hq : Sec.Quiet env hs s ops) (hf : s.firmware = some b) (hn : s.up = true → s.name = n)
    (hv : ∀ cur, s.versions.loadCurrent env "" = .ok cur → ∃ t, cur = some t ∧ t.filename = n) :
    s'.firmware = some b ∧ (s'.up = true → s'.name = n) := by
  induction ops generalizing s with
  | nil => cases h; exact ⟨hf, hn⟩
  | cons o ops ih =>
    simp only [run, exc_bind_ok] at h
    obtain ⟨⟨a, s1⟩, h1, h2⟩ := h
    obtain ⟨q1, q2⟩ := hq [] o ops s a s1 rfl rfl h1
    obtain ⟨e1, e2⟩ := step_quiet h1 q1 q2
    refine ih h2 ?_ (q1.trans hf) ?_ ?_
    · intro p o' q s2 a' s3 he hp hst
      refine hq (o :: p) o' q s2 a' s3 (by rw [he]; rfl) ?_ hst
      simp only [run, exc_bind_ok]
      exact ⟨(a, s1), h1, hp⟩
    · intro hu
      rcases e2 hu with ⟨h3, h4⟩ | ⟨cur, h3, h4⟩
      · rw [h4]; exact hn h3
      · obtain ⟨t, rfl, ht⟩ := hv cur h3
        rw [h4]; exact ht
    · rw [e1]; exact hv

/-- **C56** (partial). An install request is answered with success; afterwards, however many requests come (other
metadata, uploads, installations that fail) and however often the process restarts or dies, a running Secondary reports
the name of the Target it was given, its length and the SHA-256 digest of the image — until another image is
installed. Missing from the property: installations during which the process dies (`C27_crash_leaves_old_name`). -/
theorem C56_partial (env : Env) (hs : Hashing) (s0 s s1 s2 : State) (ops ops' : List Op) (r : Bool) (f : Nat)
    (hdb : s0.versions = { ecus := [⟨s0.serial, s0.hwid, true⟩], rows := [] }) (h : run env hs s0 ops = .ok s)
    (hstep : step env hs s (.install r f) = .ok (some .ok, s1)) (h' : run env hs s1 ops' = .ok s2)
    (hq : Sec.Quiet env hs s1 ops') (hup : s2.up = true) :
    ∃ t b, s.pending = some t ∧ s.newtarget = some b ∧
      installedImage s2 hs = (t.filename, t.length, hs.digest .sha256 b) := by
  obtain ⟨_, _, t, b, _, _, _, hp, hn, hlen, _, _, hf, _, h1 | h1⟩ := step_firmware hstep (.inr ⟨r, f, rfl, rfl⟩)
  · refine ⟨t, b, hp, hn, ?_⟩
    obtain ⟨htidy, hecus⟩ := run_versions ops h (by rw [hdb]; exact tidy_nil)
    have hser : s.serial = s0.serial := (run_names ops h).1
    obtain ⟨hname, hvers⟩ := h1.2.2
    obtain ⟨e1, e2⟩ := quiet_named ops' h' hq hf (fun _ => hname) (by
      intro cur hc
      rw [hvers] at hc
      refine save_current_filename htidy.ordered ?_ hc
      unfold realSerial
      rw [hecus, hdb, hser]
      simp)
    unfold installedImage
    rw [e1, e2 hup, ← hlen]
  · cases h1.1

/-- Not vacuous: an installation, a refused installation, a restart; then the image is reported. -/
example :
    (match history { fresh with versions := { ecus := [⟨"e1", "h1", true⟩] } }
        [boot, send agreed, whole [97, 98, 99], .install true 10, .install true 10, boot, send onlyDirector] with
     | .ok (as, s) => some (as, installedImage s toyHashing, s.up)
     | .error _ => none) =
    some ([some .ok, some .ok, some .ok, some .ok, some .internalError, some .ok, some .verificationFailed],
      ("fw", 3, "abc"), true) := by decide +kernel

end Sec

end Aktualizr
