import Verif.Model.Bootloader
import Verif.Lemmas.Monad
import Verif.Props.C15

/-!
# C21: pending updates are finalised only after a real reboot

* `C21_partial`: a successful result recorded when finalising was preceded by an installation of
  that version that set both flags, and after it by a reboot; with OSTree the running version is
  the one that was pending. Every installation, finalisation and start may die at any point.
* `C21_booted`: the last part without assumptions on reboot detection.
* `C21_not_rebooted`, `C21_rebooted_right`, `C21_rebooted_wrong`: what a start that is not
  interrupted does: nothing, or recording success, or recording failure.
* `C21_stuck`, `C21_crash_stuck`: an update whose finalisation was interrupted after clearing the
  flag stays pending for good.
* `C21_unsupported_then_supported`: without reboot detection at installation time the full claim
  fails (so `C21_partial` assumes it works at every start).
* `C21_failed_stays_pending`, `C21_sentinel_failure`: two more ways in which what is recorded and
  what boots disagree.
-/

namespace Aktualizr.Spec

open Aktualizr.Boot

/-- The version was recorded as pending with both flags set, and the machine was restarted
later. -/
def FlaggedThenRebooted (log : List Note) (t : Target) : Prop :=
  ∃ before t0 after, log = before ++ .pending t0 true true :: after ∧ Note.reboot ∈ after ∧
    t0.filename = t.filename ∧ t0.sha256Hash = t.sha256Hash

/-- Targets whose hashes survive storage: well-formed, in order, with a SHA-256 hash. -/
def WellHashed (t : Target) : Prop :=
  (∀ x ∈ t.hashes, Storable x) ∧ (∃ x ∈ t.hashes, x.type = .sha256) ∧ sortHashes t.hashes = t.hashes

/-- Reboot detection works whenever a process starts. -/
def AlwaysSupported (es : List Event) : Prop := ∀ s io fuel, Event.start s io fuel ∈ es → s = true

/-- `t` is installed, in the Primary or in an OSTree Secondary. -/
def Installs (es : List Event) (t : Target) : Prop :=
  ∃ io fuel, Event.install io t fuel ∈ es ∨ Event.installSec io t fuel ∈ es

/-- The version recorded as pending for the Primary. -/
def PendingFor (env : Env) (b : Board) (t : Target) : Prop :=
  b.v.loadPending env b.primary = .ok (some t)

end Aktualizr.Spec

namespace Aktualizr.Boot

open Aktualizr.Spec VersionDb

/-! ### Steps -/

theorem effect_cases (f : Board → Board) (b : Board) :
    (effect f b = (.error .crash, b)) ∨ ∃ k, b.fuel = k + 1 ∧ effect f b = (.ok (), { f b with fuel := k }) := by
  unfold effect
  cases h : b.fuel with
  | zero => exact .inl rfl
  | succ k => exact .inr ⟨k, rfl, rfl⟩

/-- What two states that differ in the flags, the next deployment and the fuel have in common. -/
structure Same (b b' : Board) : Prop where
  v : b'.v = b.v
  primary : b'.primary = b.primary
  supported : b'.supported = b.supported
  booted : b'.booted = b.booted
  log : b'.log = b.log

theorem Same.refl (b : Board) : Same b b := ⟨rfl, rfl, rfl, rfl, rfl⟩

theorem Same.trans {a b c : Board} (h : Same a b) (h' : Same b c) : Same a c :=
  ⟨h'.v.trans h.v, h'.primary.trans h.primary, h'.supported.trans h.supported, h'.booted.trans h.booted,
    h'.log.trans h.log⟩

theorem flagSet_cases {ok : Bool} {b b' : Board} {o : Except Err Unit} (h : rebootFlagSet ok b = (o, b')) :
    Same b b' ∧ (b.sentinel = true → b'.sentinel = true) ∧
    (o = .ok () → b.supported = true → b'.sentinel = true ∧ b'.needReboot = true) := by
  unfold rebootFlagSet at h
  rw [M.run_bind (M.gets_eq)] at h
  simp only [id] at h
  rw [M.ite_app] at h
  split at h
  · rename_i hs
    simp only [M.pure_eq, Prod.mk.injEq] at h
    obtain ⟨rfl, rfl⟩ := h
    exact ⟨Same.refl _, fun h => h, fun _ h => by simp [h] at hs⟩
  · rcases M.bind_cases h with ⟨u, b1, h1, h2⟩ | ⟨e, h1, rfl⟩
    · rw [M.throwWhen_ok] at h1
      obtain ⟨-, rfl⟩ := h1
      rcases effect_cases (fun b => { b with sentinel := true }) b with he | ⟨k, -, he⟩
      · rw [M.run_bind_err he] at h2
        simp only [Prod.mk.injEq] at h2
        obtain ⟨rfl, rfl⟩ := h2
        exact ⟨Same.refl _, fun h => h, by simp⟩
      · rw [M.run_bind he] at h2
        rcases effect_cases (fun b => { b with needReboot := true }) { b with sentinel := true, fuel := k } with he2 | ⟨k2, -, he2⟩
        · rw [he2] at h2
          simp only [Prod.mk.injEq] at h2
          obtain ⟨rfl, rfl⟩ := h2
          exact ⟨⟨rfl, rfl, rfl, rfl, rfl⟩, fun _ => rfl, by simp⟩
        · rw [he2] at h2
          simp only [Prod.mk.injEq] at h2
          obtain ⟨rfl, rfl⟩ := h2
          exact ⟨⟨rfl, rfl, rfl, rfl, rfl⟩, fun _ => rfl, fun _ _ => ⟨rfl, rfl⟩⟩
    · unfold M.throwWhen at h1
      simp only [Prod.mk.injEq] at h1
      obtain ⟨-, rfl⟩ := h1
      exact ⟨Same.refl _, fun h => h, by simp⟩

theorem flagClear_cases {b b' : Board} {o : Except Err Unit} (h : rebootFlagClear b = (o, b')) :
    Same b b' ∧ (b.sentinel = false → b'.sentinel = false) ∧
    (2 ≤ b.fuel → o = .ok () ∧ b'.fuel + 2 ≥ b.fuel) ∧ (o = .ok () → b.supported = true → b'.needReboot = false) := by
  unfold rebootFlagClear at h
  rw [M.run_bind (M.gets_eq)] at h
  simp only [id] at h
  rw [M.ite_app] at h
  split at h
  · rename_i hs
    simp only [M.pure_eq, Prod.mk.injEq] at h
    obtain ⟨rfl, rfl⟩ := h
    exact ⟨Same.refl _, fun h => h, fun _ => ⟨rfl, by omega⟩, fun _ h => by simp [h] at hs⟩
  · rcases effect_cases (fun b => { b with needReboot := false }) b with he | ⟨k, hk, he⟩
    · have hf : b.fuel = 0 := by
        unfold effect at he
        cases hf : b.fuel with
        | zero => rfl
        | succ k => rw [hf] at he; simp at he
      rw [M.run_bind_err he] at h
      simp only [Prod.mk.injEq] at h
      obtain ⟨rfl, rfl⟩ := h
      exact ⟨Same.refl _, fun h => h, fun h => by omega, by simp⟩
    · rw [M.run_bind he] at h
      cases k with
      | zero =>
        have he2 : effect (fun b => { b with sentinel := false }) { b with needReboot := false, fuel := 0 } =
          (.error .crash, { b with needReboot := false, fuel := 0 }) := rfl
        rw [he2] at h
        simp only [Prod.mk.injEq] at h
        obtain ⟨rfl, rfl⟩ := h
        exact ⟨⟨rfl, rfl, rfl, rfl, rfl⟩, fun h => h, fun h => by omega, by simp⟩
      | succ k =>
        have he2 : effect (fun b => { b with sentinel := false }) { b with needReboot := false, fuel := k + 1 } =
          (.ok (), { b with needReboot := false, sentinel := false, fuel := k }) := rfl
        rw [he2] at h
        simp only [Prod.mk.injEq] at h
        obtain ⟨rfl, rfl⟩ := h
        exact ⟨⟨rfl, rfl, rfl, rfl, rfl⟩, fun _ => rfl, fun _ => ⟨rfl, by simp only; omega⟩, fun _ _ => rfl⟩

theorem pmInstall_cases {kind : Kind} {io : Io} {t : Target} {b b' : Board} {o : Except Err InstResult}
    (h : pmInstall kind io t b = (o, b')) :
    Same b b' ∧ (b.sentinel = true → b'.sentinel = true) ∧
    ∀ r, o = .ok r → r.code.num ≠ 0 ∧
      (r.code.num = 21 → b.supported = true → b'.sentinel = true ∧ b'.needReboot = true) := by
  have tail : ∀ (b1 : Board), (do
      rebootFlagSet io.writes
      pure (InstResult.ofCode .needCompletion "Application successful, need reboot")) b1 = (o, b') →
      Same b1 b' ∧ (b1.sentinel = true → b'.sentinel = true) ∧
      ∀ r, o = .ok r → r.code.num ≠ 0 ∧
        (r.code.num = 21 → b1.supported = true → b'.sentinel = true ∧ b'.needReboot = true) := by
    intro b1 h
    rcases M.bind_cases h with ⟨u, b2, h1, h2⟩ | ⟨e, h1, rfl⟩
    · obtain ⟨p1, p2, p3⟩ := flagSet_cases h1
      simp only [M.pure_eq, Prod.mk.injEq] at h2
      obtain ⟨rfl, rfl⟩ := h2
      refine ⟨p1, p2, fun r hr => ?_⟩
      simp only [Except.ok.injEq] at hr
      subst hr
      exact ⟨by decide, fun _ hs => p3 rfl hs⟩
    · obtain ⟨p1, p2, -⟩ := flagSet_cases h1
      exact ⟨p1, p2, by simp⟩
  unfold pmInstall at h
  cases kind with
  | ostree =>
    simp only at h
    rw [M.ite_app] at h
    split at h
    · simp only [M.pure_eq, Prod.mk.injEq] at h
      obtain ⟨rfl, rfl⟩ := h
      refine ⟨Same.refl _, fun h => h, fun r hr => ?_⟩
      simp only [Except.ok.injEq] at hr
      subst hr
      exact ⟨by decide, fun h => absurd h (by decide)⟩
    · rcases effect_cases (fun b => { b with next := some t.sha256Hash }) b with he | ⟨k, -, he⟩
      · rw [M.run_bind_err he] at h
        simp only [Prod.mk.injEq] at h
        obtain ⟨rfl, rfl⟩ := h
        exact ⟨Same.refl _, fun h => h, by simp⟩
      · rw [M.run_bind he] at h
        obtain ⟨q1, q2, q3⟩ := tail _ h
        exact ⟨⟨q1.v, q1.primary, q1.supported, q1.booted, q1.log⟩, q2, q3⟩
  | fake =>
    simp only at h
    cases hf : io.fault with
    | some c =>
      rw [hf] at h
      simp only [M.pure_eq, Prod.mk.injEq] at h
      obtain ⟨rfl, rfl⟩ := h
      refine ⟨Same.refl _, fun h => h, fun r hr => ?_⟩
      simp only [Except.ok.injEq] at hr
      subst hr
      exact ⟨by decide, fun h => absurd h (by decide)⟩
    | none =>
      rw [hf] at h
      exact tail _ h

theorem pmFinalize_cases {env : Env} {kind : Kind} {io : Io} {t : Target} {b b' : Board} {o : Except Err InstResult}
    (h : pmFinalize env kind io t b = (o, b')) :
    Same b b' ∧ (b.sentinel = true → b'.sentinel = true) ∧
    ∀ r, o = .ok r →
      (b.rebootDetected = false ∧ r = .ofCode .needCompletion "Reboot is required for the pending update application" ∧ b' = b) ∨
      (b.rebootDetected = true ∧ (r.success = true → kind = .ostree → b.booted = some t.sha256Hash)) := by
  unfold pmFinalize at h
  rw [M.run_bind (M.gets_eq)] at h
  simp only [id] at h
  rw [M.ite_app] at h
  split at h
  · rename_i hd
    simp only [M.pure_eq, Prod.mk.injEq] at h
    obtain ⟨rfl, rfl⟩ := h
    refine ⟨Same.refl _, fun h => h, fun r hr => ?_⟩
    simp only [Except.ok.injEq] at hr
    subst hr
    exact .inl ⟨by simpa using hd, rfl, rfl⟩
  · rename_i hd
    have hd' : b.rebootDetected = true := by simpa using hd
    have hsent : b.sentinel = false := by
      unfold Board.rebootDetected at hd'
      split at hd'
      · simp at hd'
      · simp only [Bool.and_eq_true, Bool.not_eq_true'] at hd'
        exact hd'.2
    have clear : ∀ (r0 : InstResult), (do rebootFlagClear; pure r0) b = (o, b') →
        (r0.success = true → kind = .ostree → b.booted = some t.sha256Hash) →
        Same b b' ∧ (b.sentinel = true → b'.sentinel = true) ∧
        ∀ r, o = .ok r →
          (b.rebootDetected = false ∧ r = .ofCode .needCompletion "Reboot is required for the pending update application" ∧ b' = b) ∨
          (b.rebootDetected = true ∧ (r.success = true → kind = .ostree → b.booted = some t.sha256Hash)) := by
      intro r0 h0 hr0
      rcases M.bind_cases h0 with ⟨u, b2, h1, h2⟩ | ⟨e, h1, rfl⟩
      · obtain ⟨p1, p2, -⟩ := flagClear_cases h1
        simp only [M.pure_eq, Prod.mk.injEq] at h2
        obtain ⟨rfl, rfl⟩ := h2
        refine ⟨p1, fun hs => by simp [hsent] at hs, fun r hr => ?_⟩
        simp only [Except.ok.injEq] at hr
        subst hr
        exact .inr ⟨hd', hr0⟩
      · obtain ⟨p1, p2, -⟩ := flagClear_cases h1
        exact ⟨p1, fun hs => by simp [hsent] at hs, by simp⟩
    cases kind with
    | ostree =>
      simp only at h
      rcases M.bind_cases h with ⟨cur, b1, h1, h2⟩ | ⟨e, h1, rfl⟩
      · rw [M.orThrow_ok] at h1
        obtain ⟨h1, rfl⟩ := h1
        refine clear _ h2 ?_
        intro hs _
        by_cases hc : cur = t.sha256Hash
        · rw [h1, hc]
        · rw [if_pos hc] at hs
          exact absurd hs (by decide)
      · have := @M.orThrow_snd Board _ b b.booted (.std "Could not get booted deployment")
        rw [h1] at this
        simp only at this
        subst this
        exact ⟨Same.refl _, fun h => h, by simp⟩
    | fake =>
      simp only at h
      rcases M.bind_cases h with ⟨p, b1, h1, h2⟩ | ⟨e, h1, rfl⟩
      · simp only [M.lift_eq, Prod.mk.injEq] at h1
        obtain ⟨-, rfl⟩ := h1
        rcases M.bind_cases h2 with ⟨q, b1, h3, h4⟩ | ⟨e, h3, rfl⟩
        · rw [M.orThrow_ok] at h3
          obtain ⟨-, rfl⟩ := h3
          exact clear _ h4 (fun _ hk => by simp at hk)
        · have := @M.orThrow_snd Board _ b p (.std "No pending update, nothing to finalize")
          rw [h3] at this
          simp only at this
          subst this
          exact ⟨Same.refl _, fun h => h, by simp⟩
      · simp only [M.lift_eq, Prod.mk.injEq] at h1
        obtain ⟨-, rfl⟩ := h1
        exact ⟨Same.refl _, fun h => h, by simp⟩

/-! ### The version tables -/

/-- Where pending rows come from. -/
theorem pend_save {env : Env} {db : VersionDb} {p : String} (hp : p ≠ "") (ho : Ordered db.rows) {t : Target}
    {mode : UpdateMode} {x : VersionRow} (hx : x ∈ (db.saveInstalledVersion env p t mode).rows) (he : x.ecu = p)
    (hpend : x.isPending = true) :
    (mode = .pending ∧ x.name = t.filename ∧ x.sha256 = t.sha256Hash) ∨
    ∃ r ∈ db.rows, r.ecu = p ∧ r.isPending = true ∧ r.name = x.name ∧ r.sha256 = x.sha256 := by
  have hreal : db.realSerial p = p := by simp [realSerial, hp]
  rw [save_rows, hreal] at hx
  rcases List.mem_append.1 hx with hx | hx
  · obtain ⟨r, hr, rfl⟩ := List.mem_map.1 hx
    rw [save1_ecu] at he
    have hent := save1_entry p t mode (oldRow db.rows p t) r
    rcases save1_isPending he hpend with ⟨h1, o, h2, h3⟩ | ⟨h1, h2, -⟩
    · obtain ⟨q1, q2, q3, q4⟩ := oldRow_some h2
      obtain rfl := ho.inj hr q1 h3
      exact .inl ⟨h1, by rw [← q4]; exact hent.2.2.1.symm, by rw [← q3]; exact hent.2.1.symm⟩
    · exact .inr ⟨r, hr, he, h2, hent.2.2.1, hent.2.1⟩
  · split at hx
    · simp at hx
    · simp only [List.mem_singleton] at hx
      subst hx
      cases mode with
      | pending => exact .inl ⟨rfl, rfl, rfl⟩
      | none => simp [freshRow] at hpend
      | current => simp [freshRow] at hpend

theorem read_sha {env : Env} {ecus : List (String × String)} {t0 t : Target} {r : VersionRow} (hw : WellHashed t0)
    (hr : RecordOf env t0 r) (h : readTarget env ecus r = .ok t) : t.filename = r.name ∧ t.sha256Hash = r.sha256 ∧ WellHashed t := by
  obtain ⟨h1, h2, h3, h4, h5⟩ := hr
  obtain ⟨w1, w2, w3⟩ := hw
  have hdec : decodeHashes r.hashes = t0.hashes := by rw [h3]; exact C30_round_trip _ w1
  have hany : t0.hashes.any (fun h => h.type == .sha256) = true := by
    obtain ⟨x, hx, ht⟩ := w2
    exact List.any_eq_true.2 ⟨x, hx, by simp [ht]⟩
  unfold readTarget at h
  rw [hdec] at h
  simp only [hany, if_true, w3] at h
  have key : t.filename = r.name ∧ t.hashes = t0.hashes := by
    split at h
    · simp only [Except.ok.injEq] at h
      subst h
      exact ⟨rfl, rfl⟩
    · obtain ⟨-, q1, q2, -⟩ := updateCustom_ok h
      exact ⟨q1, q2⟩
  refine ⟨key.1, ?_, by unfold WellHashed; rw [key.2]; exact ⟨w1, w2, w3⟩⟩
  rw [h2]
  simp only [Target.sha256Hash, Target.hashString, key.2]

theorem loadPending_row {env : Env} {db : VersionDb} {p : String} (hp : p ≠ "") {t : Target}
    (h : db.loadPending env p = .ok (some t)) :
    ∃ r ecus, r ∈ db.rows ∧ r.ecu = p ∧ r.isPending = true ∧ readTarget env ecus r = .ok t := by
  have hreal : db.realSerial p = p := by simp [realSerial, hp]
  unfold loadPending at h
  rw [hreal] at h
  simp only [exc_bind_ok] at h
  obtain ⟨ecus, -, h⟩ := h
  cases hr : db.pendingRow p with
  | none => simp [hr, readRow] at h
  | some r =>
    rw [hr] at h
    simp only [readRow, exc_bind_ok] at h
    obtain ⟨t', ht, h⟩ := h
    rw [exc_pure_ok] at h
    simp only [Option.some.injEq] at h
    subst h
    unfold pendingRow at hr
    have hm := List.mem_of_find?_eq_some hr
    have hq := List.find?_some hr
    simp only [Bool.and_eq_true, beq_iff_eq] at hq
    exact ⟨r, ecus, hm, hq.1, hq.2, ht⟩

/-! ### The invariant -/

/-- What holds between any two steps. -/
structure Inv (env : Env) (kind : Kind) (b : Board) : Prop where
  primary : b.primary ≠ ""
  ordered : Ordered b.v.rows
  recorded : ∀ r ∈ b.v.rows, ∃ t0, WellHashed t0 ∧ RecordOf env t0 r
  pend : ∀ r ∈ b.v.rows, r.ecu = b.primary → r.isPending = true → ∃ before t after,
    b.log = before ++ .pending t true true :: after ∧ r.name = t.filename ∧ r.sha256 = t.sha256Hash ∧
    (b.sentinel = true ∨ Note.reboot ∈ after)
  result : ∀ before t r h after, b.log = before ++ .result t r h :: after → r.success = true →
    FlaggedThenRebooted before t ∧ (kind = .ostree → h = some t.sha256Hash)

/-- The invariant does not depend on the rest of the state. -/
theorem Inv.same {env : Env} {kind : Kind} {b b' : Board} (h : Inv env kind b)
    (hs : Same b b') (hsent : b.sentinel = true → b'.sentinel = true) : Inv env kind b' := by
  obtain ⟨i1, i2, i3, i4, i5⟩ := h
  refine ⟨by rw [hs.primary]; exact i1, by rw [hs.v]; exact i2, by rw [hs.v]; exact i3, ?_, by rw [hs.log]; exact i5⟩
  rw [hs.v, hs.primary, hs.log]
  intro r hr he hp
  obtain ⟨before, t, after, q1, q2, q3, q4⟩ := i4 r hr he hp
  exact ⟨before, t, after, q1, q2, q3, q4.imp hsent id⟩

theorem recorded_save {env : Env} {db : VersionDb} {p : String} {t : Target} {mode : UpdateMode}
    (h : ∀ r ∈ db.rows, ∃ t0, WellHashed t0 ∧ RecordOf env t0 r) (ht : WellHashed t) :
    ∀ r ∈ (db.saveInstalledVersion env p t mode).rows, ∃ t0, WellHashed t0 ∧ RecordOf env t0 r :=
  record_origin (l := [⟨p, t, mode⟩]) h (by simp [ht])

/-- Saving in another mode than `kPending`. -/
theorem Inv.save {env : Env} {kind : Kind} {b b' : Board} (h : Inv env kind b) {t : Target}
    {mode : UpdateMode} (ht : WellHashed t) (hm : mode ≠ .pending) {o : Except Err Unit}
    (hs : Boot.save env t mode b = (o, b')) : Inv env kind b' ∧ b'.sentinel = b.sentinel ∧
      b'.needReboot = b.needReboot ∧ b'.supported = b.supported := by
  unfold Boot.save at hs
  rcases effect_cases (fun b => { b with v := b.v.saveInstalledVersion env b.primary t mode }) b with he | ⟨k, -, he⟩
  · rw [he] at hs
    simp only [Prod.mk.injEq] at hs
    obtain ⟨-, rfl⟩ := hs
    exact ⟨h, rfl, rfl, rfl⟩
  · rw [he] at hs
    simp only [Prod.mk.injEq] at hs
    obtain ⟨-, rfl⟩ := hs
    obtain ⟨i1, i2, i3, i4, i5⟩ := h
    refine ⟨⟨i1, save_ordered _ _ _ i2, recorded_save i3 ht, ?_, i5⟩, rfl, rfl, rfl⟩
    intro x hx hxe hxp
    rcases pend_save i1 i2 hx hxe hxp with ⟨hm', -⟩ | ⟨r, hr, q1, q2, q3, q4⟩
    · exact absurd hm' hm
    · obtain ⟨before, t1, after, p1, p2, p3, p4⟩ := i4 r hr q1 q2
      exact ⟨before, t1, after, p1, by rw [← q3]; exact p2, by rw [← q4]; exact p3, p4⟩

/-- Saving as pending, with both flags set, and the note. -/
theorem Inv.savePending {env : Env} {kind : Kind} {b b1 b2 : Board} (h : Inv env kind b)
    {t : Target} (ht : WellHashed t) (hflag : b.needReboot = true) (hsent : b.sentinel = true) {u : Unit}
    (hs : Boot.save env t .pending b = (.ok u, b1))
    (h2 : b2 = { b1 with log := b1.log ++ [.pending t b1.needReboot b1.sentinel] }) : Inv env kind b2 := by
  unfold Boot.save at hs
  rcases effect_cases (fun b => { b with v := b.v.saveInstalledVersion env b.primary t .pending }) b with he | ⟨k, -, he⟩
  · rw [he] at hs
    simp at hs
  · rw [he] at hs
    simp only [Prod.mk.injEq] at hs
    obtain ⟨-, rfl⟩ := hs
    obtain ⟨i1, i2, i3, i4, i5⟩ := h
    subst h2
    refine ⟨i1, save_ordered _ _ _ i2, recorded_save i3 ht, ?_, ?_⟩
    · intro x hx hxe hxp
      rcases pend_save i1 i2 hx hxe hxp with ⟨-, q1, q2⟩ | ⟨r, hr, q1, q2, q3, q4⟩
      · exact ⟨b.log, t, [], by simp [hflag, hsent], q1, q2, .inl hsent⟩
      · obtain ⟨before, t1, after, p1, p2, p3, p4⟩ := i4 r hr q1 q2
        exact ⟨before, t1, after ++ [.pending t b.needReboot b.sentinel], by simp [p1], by rw [← q3]; exact p2,
          by rw [← q4]; exact p3, .inl hsent⟩
    · intro before t1 r h1 after hl
      simp only at hl
      rcases List.eq_nil_or_concat after with rfl | ⟨after', n, rfl⟩
      · have := (List.append_inj' hl (by simp)).2
        simp at this
      · have hl' : b.log = before ++ .result t1 r h1 :: after' := by
          rw [List.concat_eq_append, ← List.cons_append, ← List.append_assoc] at hl
          exact (List.append_inj' hl (by simp)).1
        exact i5 before t1 r h1 after' hl'

theorem installPrimary_inv {env : Env} {kind : Kind} {io : Io} {t : Target} {b : Board}
    (h : Inv env kind b) (ht : WellHashed t) (hsup : b.supported = true) :
    Inv env kind (installPrimary env kind io t b).2 ∧ (installPrimary env kind io t b).2.supported = true := by
  cases hr : installPrimary env kind io t b with
  | mk o b' =>
    unfold installPrimary at hr
    simp only
    have tail : ∀ (r : InstResult) (bx : Board), Inv env kind bx → bx.supported = true →
        (do effect id; pure r : B InstResult) bx = (o, b') → Inv env kind b' ∧ b'.supported = true := by
      intro r bx hi hsx hx
      rcases effect_cases id bx with he | ⟨k, -, he⟩
      · rw [M.run_bind_err he] at hx
        simp only [Prod.mk.injEq] at hx
        obtain ⟨-, rfl⟩ := hx
        exact ⟨hi, hsx⟩
      · rw [M.run_bind he] at hx
        simp only [M.pure_eq, Prod.mk.injEq] at hx
        obtain ⟨-, rfl⟩ := hx
        exact ⟨hi.same ⟨rfl, rfl, rfl, rfl, rfl⟩ (fun h => h), hsx⟩
    rcases M.bind_cases hr with ⟨u, b1, h1, h2⟩ | ⟨e, h1, -⟩
    · obtain ⟨j1, -, -, j4⟩ := h.save ht (by simp) h1
      have hs1 : b1.supported = true := j4.trans hsup
      rcases M.bind_cases h2 with ⟨r, b2, h3, h4⟩ | ⟨e, h3, -⟩
      · -- the result of the package manager
        have hpm : Inv env kind b2 ∧ b2.supported = true ∧ r.code.num ≠ 0 ∧
            (r.code.num = 21 → b2.sentinel = true ∧ b2.needReboot = true) := by
          unfold M.catchStd at h3
          cases hp : pmInstall kind io t b1 with
          | mk o1 b3 =>
            obtain ⟨p1, p2, p3⟩ := pmInstall_cases hp
            rw [hp] at h3
            cases o1 with
            | ok r1 =>
              simp only [Prod.mk.injEq, Except.ok.injEq] at h3
              obtain ⟨rfl, rfl⟩ := h3
              obtain ⟨q1, q2⟩ := p3 _ rfl
              exact ⟨j1.same p1 p2, p1.supported.trans hs1, q1, fun hn => q2 hn hs1⟩
            | error e =>
              simp only at h3
              split at h3
              · simp only [M.pure_eq, Prod.mk.injEq, Except.ok.injEq] at h3
                obtain ⟨rfl, rfl⟩ := h3
                exact ⟨j1.same p1 p2, p1.supported.trans hs1, by decide, fun hn => absurd hn (by decide)⟩
              · simp at h3
        obtain ⟨k1, k2, k3, k4⟩ := hpm
        rw [if_neg k3] at h4
        by_cases hn : r.code.num = 21
        · obtain ⟨k5, k6⟩ := k4 hn
          rw [if_pos hn] at h4
          rcases M.bind_cases h4 with ⟨u, b3, h7, h6⟩ | ⟨e, h7, -⟩
          · have hs3 : b3.supported = true := by
              unfold Boot.save at h7
              rcases effect_cases (fun b => { b with v := b.v.saveInstalledVersion env b.primary t .pending }) b2 with he | ⟨k, -, he⟩
              · rw [he] at h7; simp at h7
              · rw [he] at h7
                simp only [Prod.mk.injEq] at h7
                rw [← h7.2]
                exact k2
            rw [M.run_bind (M.modify_eq)] at h6
            exact tail r _ (k1.savePending ht k6 k5 h7 rfl) hs3 h6
          · unfold Boot.save at h7
            rcases effect_cases (fun b => { b with v := b.v.saveInstalledVersion env b.primary t .pending }) b2 with hc | ⟨k, -, hc⟩
            · rw [hc] at h7
              simp only [Prod.mk.injEq] at h7
              obtain ⟨-, rfl⟩ := h7
              exact ⟨k1, k2⟩
            · rw [hc] at h7; simp at h7
        · rw [if_neg hn] at h4
          exact tail r b2 k1 k2 h4
      · unfold M.catchStd at h3
        cases hp : pmInstall kind io t b1 with
        | mk o1 b3 =>
          obtain ⟨p1, p2, -⟩ := pmInstall_cases hp
          rw [hp] at h3
          cases o1 with
          | ok r1 => simp at h3
          | error e1 =>
            simp only at h3
            split at h3
            · simp at h3
            · simp only [Prod.mk.injEq] at h3
              obtain ⟨-, rfl⟩ := h3
              exact ⟨j1.same p1 p2, p1.supported.trans hs1⟩
    · obtain ⟨j1, -, -, j4⟩ := h.save ht (by simp) h1
      exact ⟨j1, j4.trans hsup⟩

theorem installSecondary_inv {env : Env} {kind : Kind} {io : Io} {t : Target} {b : Board}
    (h : Inv env kind b) (ht : WellHashed t) (hsup : b.supported = true) :
    Inv env kind (installSecondary env kind io t b).2 ∧ (installSecondary env kind io t b).2.supported = true := by
  cases hr : installSecondary env kind io t b with
  | mk o b' =>
    unfold installSecondary at hr
    simp only
    rcases M.bind_cases hr with ⟨r, b2, h3, h4⟩ | ⟨e, h3, -⟩
    · obtain ⟨p1, p2, p3⟩ := pmInstall_cases h3
      obtain ⟨k3, k4⟩ := p3 _ rfl
      have k1 := h.same p1 p2
      have k2 := p1.supported.trans hsup
      rw [if_neg k3] at h4
      by_cases hn : r.code.num = 21
      · obtain ⟨k5, k6⟩ := k4 hn hsup
        rw [if_pos hn] at h4
        rcases M.bind_cases h4 with ⟨u, b3, h7, h6⟩ | ⟨e, h7, -⟩
        · have hs3 : b3.supported = true := by
            unfold Boot.save at h7
            rcases effect_cases (fun b => { b with v := b.v.saveInstalledVersion env b.primary t .pending }) b2 with he | ⟨k, -, he⟩
            · rw [he] at h7; simp at h7
            · rw [he] at h7
              simp only [Prod.mk.injEq] at h7
              rw [← h7.2]
              exact k2
          rw [M.run_bind (M.modify_eq)] at h6
          simp only [M.pure_eq, Prod.mk.injEq] at h6
          exact ⟨k1.savePending ht k6 k5 h7 h6.2.symm, by rw [← h6.2]; exact hs3⟩
        · unfold Boot.save at h7
          rcases effect_cases (fun b => { b with v := b.v.saveInstalledVersion env b.primary t .pending }) b2 with hc | ⟨k, -, hc⟩
          · rw [hc] at h7
            simp only [Prod.mk.injEq] at h7
            obtain ⟨-, rfl⟩ := h7
            exact ⟨k1, k2⟩
          · rw [hc] at h7; simp at h7
      · rw [if_neg hn] at h4
        simp only [M.pure_eq, M.run_bind, Prod.mk.injEq] at h4
        rw [← h4.2]
        exact ⟨k1, k2⟩
    · obtain ⟨p1, p2, -⟩ := pmInstall_cases h3
      exact ⟨h.same p1 p2, p1.supported.trans hsup⟩

/-- A finalisation: nothing happened, or the package manager was asked about the pending version. -/
theorem finalize_cases {env : Env} {kind : Kind} {io : Io} {b b' : Board} {o : Except Err Unit}
    (h : finalizeAfterReboot env kind io b = (o, b')) :
    b' = b ∨ ∃ t, PendingFor env b t ∧ ∃ o1 b1, pmFinalize env kind io t b = (o1, b1) ∧
      (b' = b1 ∨ ∃ r, o1 = .ok r ∧ r.code.same .needCompletion = .ok false ∧ ∃ k,
        (b' = { b1 with log := b1.log ++ [.result t r b1.booted], fuel := k } ∨
         ∃ o2, save env t (if r.success then .current else .none)
            { b1 with log := b1.log ++ [.result t r b1.booted], fuel := k } = (o2, b'))) := by
  unfold finalizeAfterReboot at h
  rw [M.run_bind (M.gets_eq)] at h
  simp only [id] at h
  rw [M.ite_app] at h
  split at h
  · simp only [M.pure_eq, Prod.mk.injEq] at h
    exact .inl h.2.symm
  · rcases M.bind_cases h with ⟨p, b1, h1, h2⟩ | ⟨e, h1, -⟩
    · simp only [M.lift_eq, Prod.mk.injEq] at h1
      obtain ⟨h1, rfl⟩ := h1
      cases p with
      | none =>
        simp only [M.pure_eq, Prod.mk.injEq] at h2
        exact .inl h2.2.symm
      | some t =>
        simp only at h2
        refine .inr ⟨t, h1, ?_⟩
        rcases M.bind_cases h2 with ⟨r, b2, h3, h4⟩ | ⟨e, h3, -⟩
        · refine ⟨_, _, h3, ?_⟩
          rcases M.bind_cases h4 with ⟨c, b3, h5, h6⟩ | ⟨e, h5, -⟩
          · simp only [M.lift_eq, Prod.mk.injEq] at h5
            obtain ⟨h5, rfl⟩ := h5
            rw [M.ite_app] at h6
            split at h6
            · simp only [M.pure_eq, Prod.mk.injEq] at h6
              exact .inl h6.2.symm
            · rename_i hc
              have hc' : c = false := by simpa using hc
              subst hc'
              rcases effect_cases (fun b => { b with log := b.log ++ [.result t r b.booted] }) b2 with he | ⟨k, -, he⟩
              · rw [M.run_bind_err he] at h6
                simp only [Prod.mk.injEq] at h6
                exact .inl h6.2.symm
              · rw [M.run_bind he] at h6
                exact .inr ⟨r, rfl, h5, k, .inr ⟨o, h6⟩⟩
          · simp only [M.lift_eq, Prod.mk.injEq] at h5
            exact .inl h5.2.symm
        · exact ⟨_, _, h3, .inl rfl⟩
    · simp only [M.lift_eq, Prod.mk.injEq] at h1
      exact .inl h1.2.symm

/-- Recording a result. -/
theorem Inv.note {env : Env} {kind : Kind} {b : Board} (h : Inv env kind b) {t : Target} {r : InstResult} {k : Nat}
    (hr : r.success = true → FlaggedThenRebooted b.log t ∧ (kind = .ostree → b.booted = some t.sha256Hash)) :
    Inv env kind { b with log := b.log ++ [.result t r b.booted], fuel := k } := by
  obtain ⟨i1, i2, i3, i4, i5⟩ := h
  refine ⟨i1, i2, i3, ?_, ?_⟩
  · intro x hx he hp
    obtain ⟨before, t1, after, p1, p2, p3, p4⟩ := i4 x hx he hp
    exact ⟨before, t1, after ++ [.result t r b.booted], by simp [p1], p2, p3, p4.imp id (fun h => by simp [h])⟩
  · intro before t1 r1 h1 after hl
    simp only at hl
    rcases List.eq_nil_or_concat after with rfl | ⟨after', n, rfl⟩
    · obtain ⟨q1, q2⟩ := List.append_inj' hl (by simp)
      simp only [List.cons.injEq, Note.result.injEq, and_true] at q2
      obtain ⟨rfl, rfl, rfl⟩ := q2
      rw [← q1]
      exact hr
    · have hl' : b.log = before ++ .result t1 r1 h1 :: after' := by
        rw [List.concat_eq_append, ← List.cons_append, ← List.append_assoc] at hl
        exact (List.append_inj' hl (by simp)).1
      exact i5 before t1 r1 h1 after' hl'

theorem finalize_inv {env : Env} {kind : Kind} {io : Io} {b b' : Board} {o : Except Err Unit}
    (h : Inv env kind b) (hf : finalizeAfterReboot env kind io b = (o, b')) :
    Inv env kind b' ∧ b'.supported = b.supported := by
  rcases finalize_cases hf with rfl | ⟨t, hpf, o1, b1, hpm, hc⟩
  · exact ⟨h, rfl⟩
  · obtain ⟨p1, p2, p3⟩ := pmFinalize_cases hpm
    have hi1 := h.same p1 p2
    rcases hc with rfl | ⟨r, rfl, hcode, k, hc⟩
    · exact ⟨hi1, p1.supported⟩
    · rcases p3 r rfl with ⟨-, rfl, -⟩ | ⟨hd, hb⟩
      · exact absurd hcode (by decide +kernel)
      · have hsent : b.sentinel = false := by
          unfold Board.rebootDetected at hd
          split at hd
          · simp at hd
          · simp only [Bool.and_eq_true, Bool.not_eq_true'] at hd
            exact hd.2
        obtain ⟨row, ecus, q1, q2, q3, q4⟩ := loadPending_row h.primary hpf
        obtain ⟨t0, hw, hrec⟩ := h.recorded row q1
        obtain ⟨n1, n2, n3⟩ := read_sha hw hrec q4
        obtain ⟨before, t1, after, m1, m2, m3, m4⟩ := h.pend row q1 q2 q3
        have hre : Note.reboot ∈ after := by
          rcases m4 with m4 | m4
          · rw [hsent] at m4; simp at m4
          · exact m4
        have hnote : Inv env kind { b1 with log := b1.log ++ [.result t r b1.booted], fuel := k } := by
          refine hi1.note fun hs => ⟨⟨before, t1, after, by rw [p1.log]; exact m1, hre, ?_, ?_⟩, fun hk => ?_⟩
          · rw [n1, m2]
          · rw [n2, m3]
          · rw [p1.booted]; exact hb hs hk
        rcases hc with rfl | ⟨o2, hsv⟩
        · exact ⟨hnote, p1.supported⟩
        · obtain ⟨j1, -, -, j4⟩ := hnote.save n3 (by split <;> simp) hsv
          exact ⟨j1, j4.trans p1.supported⟩

theorem append_reboot {env : Env} {kind : Kind} {b b' : Board} (h : Inv env kind b) (hv : b'.v = b.v)
    (hp : b'.primary = b.primary) (hl : b'.log = b.log ++ [.reboot]) : Inv env kind b' := by
  obtain ⟨i1, i2, i3, i4, i5⟩ := h
  refine ⟨by rw [hp]; exact i1, by rw [hv]; exact i2, by rw [hv]; exact i3, ?_, ?_⟩
  · rw [hv, hp, hl]
    intro x hx he hpd
    obtain ⟨before, t1, after, p1, p2, p3, p4⟩ := i4 x hx he hpd
    exact ⟨before, t1, after ++ [.reboot], by simp [p1], p2, p3, .inr (by simp)⟩
  · rw [hl]
    intro before t1 r1 h1 after hl
    rcases List.eq_nil_or_concat after with rfl | ⟨after', n, rfl⟩
    · obtain ⟨q1, q2⟩ := List.append_inj' hl (by simp)
      simp at q2
    · have hl' : b.log = before ++ .result t1 r1 h1 :: after' := by
        rw [List.concat_eq_append, ← List.cons_append, ← List.append_assoc] at hl
        exact (List.append_inj' hl (by simp)).1
      exact i5 before t1 r1 h1 after' hl'

theorem run_inv {env : Env} {kind : Kind} : ∀ (es : List Event) {b : Board}, Inv env kind b → b.supported = true →
    AlwaysSupported es → (∀ t, Installs es t → WellHashed t) →
    Inv env kind (run env kind b es)
  | [], b, h, _, _, _ => h
  | e :: es, b, h, hs, ha, hw => by
    have step : Inv env kind (e.step env kind b) ∧ (e.step env kind b).supported = true := by
      cases e with
      | start s io fuel =>
        have hst : s = true := ha s io fuel (by simp)
        simp only [Event.step]
        cases hf : finalizeAfterReboot env kind io { b with supported := s, fuel := fuel } with
        | mk o b' =>
          obtain ⟨q1, q2⟩ := finalize_inv (b := { b with supported := s, fuel := fuel })
            ⟨h.primary, h.ordered, h.recorded, h.pend, h.result⟩ hf
          exact ⟨q1, q2.trans hst⟩
      | install io t fuel =>
        exact installPrimary_inv (b := { b with fuel := fuel })
          ⟨h.primary, h.ordered, h.recorded, h.pend, h.result⟩ (hw t ⟨io, fuel, by simp⟩) hs
      | installSec io t fuel =>
        exact installSecondary_inv (b := { b with fuel := fuel })
          ⟨h.primary, h.ordered, h.recorded, h.pend, h.result⟩ (hw t ⟨io, fuel, by simp⟩) hs
      | reboot boots => exact ⟨append_reboot h rfl rfl rfl, hs⟩
      | fakeReboot =>
        simp only [Event.step]
        split
        · exact ⟨append_reboot h rfl rfl rfl, hs⟩
        · exact ⟨h, hs⟩
    exact run_inv es step.1 step.2 (fun s io fuel hm => ha s io fuel (by simp [hm]))
      (fun t ⟨io, fuel, hm⟩ => hw t ⟨io, fuel, hm.imp (List.mem_cons_of_mem _) (List.mem_cons_of_mem _)⟩)

/-! ### The property -/

/-- Whatever happens to a device (installations, starts, reboots; each process dying anywhere):
a success recorded when finalising was preceded by an installation of that very version with both
flags set and, after it, a reboot; and with OSTree, by running that very version. -/
theorem C21_partial {env : Env} {kind : Kind} {b : Board} {es : List Event} (hv : b.v.rows = []) (hl : b.log = [])
    (hp : b.primary ≠ "") (hs : b.supported = true) (ha : AlwaysSupported es)
    (hw : ∀ t, Installs es t → WellHashed t)
    {before after : List Note} {t : Target} {r : InstResult} {h : Option String}
    (hlog : (run env kind b es).log = before ++ .result t r h :: after) (hr : r.success = true) :
    FlaggedThenRebooted before t ∧ (kind = .ostree → h = some t.sha256Hash) := by
  have hi : Inv env kind b := ⟨hp, by simp [hv, Ordered], by simp [hv], by simp [hv], by simp [hl]⟩
  exact (run_inv es hi hs ha hw).result before t r h after hlog hr

/-- Only what is asked of the package manager and what was recorded matter for the log. -/
theorem finalize_log {env : Env} {kind : Kind} {io : Io} {b b' : Board} {o : Except Err Unit}
    (hf : finalizeAfterReboot env kind io b = (o, b')) :
    b'.log = b.log ∨ ∃ t r, PendingFor env b t ∧ b.rebootDetected = true ∧ b'.log = b.log ++ [.result t r b.booted] ∧
      (r.success = true → kind = .ostree → b.booted = some t.sha256Hash) := by
  rcases finalize_cases hf with rfl | ⟨t, hpf, o1, b1, hpm, hc⟩
  · exact .inl rfl
  · obtain ⟨p1, p2, p3⟩ := pmFinalize_cases hpm
    rcases hc with rfl | ⟨r, rfl, hcode, k, hc⟩
    · exact .inl p1.log
    · rcases p3 r rfl with ⟨-, rfl, -⟩ | ⟨hd, hb⟩
      · exact absurd hcode (by decide +kernel)
      · refine .inr ⟨t, r, hpf, hd, ?_, hb⟩
        have key : b'.log = b1.log ++ [.result t r b1.booted] := by
          rcases hc with rfl | ⟨o2, hsv⟩
          · rfl
          · unfold Boot.save at hsv
            rcases effect_cases (fun b => { b with v := b.v.saveInstalledVersion env b.primary t (if r.success then .current else .none) })
              { b1 with log := b1.log ++ [.result t r b1.booted], fuel := k } with he | ⟨k', -, he⟩
            · rw [he] at hsv; simp only [Prod.mk.injEq] at hsv; rw [← hsv.2]
            · rw [he] at hsv; simp only [Prod.mk.injEq] at hsv; rw [← hsv.2]
        rw [key, p1.log, p1.booted]

/-- Installations record no results. -/
theorem install_log {env : Env} {kind : Kind} {io : Io} {t : Target} {b : Board} :
    (installPrimary env kind io t b).2.log = b.log ∨ ∃ f s, (installPrimary env kind io t b).2.log = b.log ++ [.pending t f s] := by
  have hsv : ∀ (m : UpdateMode) (b b' : Board) (o : Except Err Unit), save env t m b = (o, b') → b'.log = b.log := by
    intro m b b' o h
    unfold Boot.save at h
    rcases effect_cases (fun b => { b with v := b.v.saveInstalledVersion env b.primary t m }) b with he | ⟨k', -, he⟩
    · rw [he] at h; simp only [Prod.mk.injEq] at h; rw [← h.2]
    · rw [he] at h; simp only [Prod.mk.injEq] at h; rw [← h.2]
  have htail : ∀ (r : InstResult) (b : Board), ((do effect id; pure r : B InstResult) b).2.log = b.log := by
    intro r b
    rcases effect_cases id b with he | ⟨k', -, he⟩
    · rw [M.run_bind_err he]
    · rw [M.run_bind he]; rfl
  have hpm : ∀ (b b' : Board) (o : Except Err InstResult),
      M.catchStd (pmInstall kind io t) (fun _ => pure (.ofCode .installFailed "exception")) b = (o, b') → b'.log = b.log := by
    intro b b' o h
    unfold M.catchStd at h
    cases hp : pmInstall kind io t b with
    | mk o1 b3 =>
      obtain ⟨p1, -, -⟩ := pmInstall_cases hp
      rw [hp] at h
      cases o1 with
      | ok r1 => simp only [Prod.mk.injEq] at h; rw [← h.2]; exact p1.log
      | error e1 =>
        simp only at h
        split at h
        · simp only [M.pure_eq, Prod.mk.injEq] at h; rw [← h.2]; exact p1.log
        · simp only [Prod.mk.injEq] at h; rw [← h.2]; exact p1.log
  generalize hres : installPrimary env kind io t b = res
  obtain ⟨o, b'⟩ := res
  unfold installPrimary at hres
  rcases M.bind_cases hres with ⟨u, b1, h1, h2⟩ | ⟨e, h1, -⟩
  · have e1 := hsv _ _ _ _ h1
    rcases M.bind_cases h2 with ⟨r, b2, h3, h4⟩ | ⟨e, h3, -⟩
    · have e2 := hpm _ _ _ h3
      by_cases h0 : r.code.num = 0
      · rw [if_pos h0] at h4
        rcases M.bind_cases h4 with ⟨u, b3, h5, h6⟩ | ⟨e, h5, -⟩
        · have := htail r b3
          rw [show (do effect id; pure r : B InstResult) b3 = _ from h6] at this
          exact .inl (this.trans ((hsv _ _ _ _ h5).trans (e2.trans e1)))
        · exact .inl ((hsv _ _ _ _ h5).trans (e2.trans e1))
      · rw [if_neg h0] at h4
        by_cases hn : r.code.num = 21
        · rw [if_pos hn] at h4
          rcases M.bind_cases h4 with ⟨u, b3, h5, h6⟩ | ⟨e, h5, -⟩
          · rw [M.run_bind (M.modify_eq)] at h6
            have := htail r { b3 with log := b3.log ++ [.pending t b3.needReboot b3.sentinel] }
            rw [show (do effect id; pure r : B InstResult) { b3 with log := b3.log ++ [.pending t b3.needReboot b3.sentinel] } = _ from h6] at this
            exact .inr ⟨b3.needReboot, b3.sentinel, by rw [this]; simp only; rw [hsv _ _ _ _ h5, e2, e1]⟩
          · exact .inl ((hsv _ _ _ _ h5).trans (e2.trans e1))
        · rw [if_neg hn] at h4
          have := htail r b2
          rw [show (do effect id; pure r : B InstResult) b2 = _ from h4] at this
          exact .inl (this.trans (e2.trans e1))
    · exact .inl ((hpm _ _ _ h3).trans e1)
  · exact .inl (hsv _ _ _ _ h1)

theorem installSec_log {env : Env} {kind : Kind} {io : Io} {t : Target} {b : Board} :
    (installSecondary env kind io t b).2.log = b.log ∨
    ∃ f s, (installSecondary env kind io t b).2.log = b.log ++ [.pending t f s] := by
  have hsv : ∀ (m : UpdateMode) (b b' : Board) (o : Except Err Unit), save env t m b = (o, b') → b'.log = b.log := by
    intro m b b' o h
    unfold Boot.save at h
    rcases effect_cases (fun b => { b with v := b.v.saveInstalledVersion env b.primary t m }) b with he | ⟨k', -, he⟩
    · rw [he] at h; simp only [Prod.mk.injEq] at h; rw [← h.2]
    · rw [he] at h; simp only [Prod.mk.injEq] at h; rw [← h.2]
  generalize hres : installSecondary env kind io t b = res
  obtain ⟨o, b'⟩ := res
  unfold installSecondary at hres
  rcases M.bind_cases hres with ⟨r, b2, h3, h4⟩ | ⟨e, h3, -⟩
  · obtain ⟨p1, -, p3⟩ := pmInstall_cases h3
    rw [if_neg (p3 _ rfl).1] at h4
    by_cases hn : r.code.num = 21
    · rw [if_pos hn] at h4
      rcases M.bind_cases h4 with ⟨u, b3, h5, h6⟩ | ⟨e, h5, -⟩
      · rw [M.run_bind (M.modify_eq)] at h6
        simp only [M.pure_eq, Prod.mk.injEq] at h6
        exact .inr ⟨b3.needReboot, b3.sentinel, by rw [← h6.2]; simp only; rw [hsv _ _ _ _ h5, p1.log]⟩
      · exact .inl ((hsv _ _ _ _ h5).trans p1.log)
    · rw [if_neg hn] at h4
      simp only [M.pure_eq, Prod.mk.injEq] at h4
      exact .inl (by rw [← h4.2]; exact p1.log)
  · obtain ⟨p1, -, -⟩ := pmInstall_cases h3
    exact .inl p1.log

/-- With OSTree, success is recorded only while running the pending version, however the device got
there (any initial state, any Targets, reboot detection or not). -/
theorem C21_booted {env : Env} : ∀ (es : List Event) {b : Board},
    (∀ t r h, Note.result t r h ∈ b.log → r.success = true → h = some t.sha256Hash) →
    ∀ t r h, Note.result t r h ∈ (run env .ostree b es).log → r.success = true → h = some t.sha256Hash
  | [], b, h => h
  | e :: es, b, h => by
    refine C21_booted es (b := e.step env .ostree b) ?_
    cases e with
    | start s io fuel =>
      intro t r x hm hs
      simp only [Event.step] at hm
      cases hf : finalizeAfterReboot env .ostree io { b with supported := s, fuel := fuel } with
      | mk o b' =>
        rw [hf] at hm
        rcases finalize_log hf with he | ⟨t1, r1, -, -, he, hb⟩
        · simp only [he] at hm; exact h t r x hm hs
        · simp only [he, List.mem_append, List.mem_singleton] at hm
          rcases hm with hm | hm
          · exact h t r x hm hs
          · simp only [Note.result.injEq] at hm
            obtain ⟨rfl, rfl, rfl⟩ := hm
            exact hb hs rfl
    | install io t0 fuel =>
      intro t r x hm hs
      simp only [Event.step] at hm
      rcases install_log (env := env) (kind := .ostree) (io := io) (t := t0) (b := { b with fuel := fuel }) with he | ⟨f, s, he⟩
      · rw [he] at hm; exact h t r x hm hs
      · rw [he] at hm
        simp only [List.mem_append, List.mem_singleton, reduceCtorEq, or_false] at hm
        exact h t r x hm hs
    | installSec io t0 fuel =>
      intro t r x hm hs
      simp only [Event.step] at hm
      rcases installSec_log (env := env) (kind := .ostree) (io := io) (t := t0) (b := { b with fuel := fuel }) with he | ⟨f, s, he⟩
      · rw [he] at hm; exact h t r x hm hs
      · rw [he] at hm
        simp only [List.mem_append, List.mem_singleton, reduceCtorEq, or_false] at hm
        exact h t r x hm hs
    | reboot boots =>
      intro t r x hm hs
      simp only [Event.step, List.mem_append, List.mem_singleton, reduceCtorEq, or_false] at hm
      exact h t r x hm hs
    | fakeReboot =>
      intro t r x hm hs
      exact h t r x hm hs

/-- A start without a reboot since the installation changes nothing. -/
theorem C21_not_rebooted {env : Env} {kind : Kind} {io : Io} {b : Board} (h : b.rebootDetected = false) :
    (finalizeAfterReboot env kind io b).2 = b := by
  cases hf : finalizeAfterReboot env kind io b with
  | mk o b' =>
    rcases finalize_cases hf with rfl | ⟨t, hpf, o1, b1, hpm, hc⟩
    · rfl
    · have hp : pmFinalize env kind io t b =
          (.ok (.ofCode .needCompletion "Reboot is required for the pending update application"), b) := by
        unfold pmFinalize
        rw [M.run_bind (M.gets_eq)]
        simp only [id, h]
        rfl
      rw [hp] at hpm
      simp only [Prod.mk.injEq] at hpm
      obtain ⟨rfl, rfl⟩ := hpm
      rcases hc with rfl | ⟨r, hr, hcode, -⟩
      · rfl
      · simp only [Except.ok.injEq] at hr
        subst hr
        exact absurd hcode (by decide +kernel)

theorem pending_any {env : Env} {b : Board} {t : Target} (hp : b.primary ≠ "") (h : PendingFor env b t) :
    b.v.hasPendingInstall = true := by
  obtain ⟨r, -, q1, -, q3, -⟩ := loadPending_row hp h
  exact List.any_eq_true.2 ⟨r, q1, q3⟩

/-- A finalisation with OSTree after a reboot, not interrupted. -/
theorem finalize_ostree {env : Env} {io : Io} {b : Board} {t : Target} {x : String} {k : Nat} (hp : b.primary ≠ "")
    (hpend : PendingFor env b t) (hd : b.rebootDetected = true) (hb : b.booted = some x) (hf : b.fuel = k + 4) :
    let r : InstResult := if x ≠ t.sha256Hash then .ofCode .installFailed "Wrong version booted"
      else .ofCode .ok "Successfully booted on new version"
    finalizeAfterReboot env .ostree io b = (.ok (), { b with
      needReboot := false, sentinel := false, fuel := k,
      log := b.log ++ [.result t r (some x)],
      v := b.v.saveInstalledVersion env b.primary t (if x = t.sha256Hash then .current else .none) }) := by
  intro r
  have hsup : b.supported = true := by
    unfold Board.rebootDetected at hd
    split at hd
    · simp at hd
    · simpa using ‹¬(!b.supported) = true›
  have hany := pending_any hp hpend
  have hsame : r.code.same .needCompletion = .ok false := by
    by_cases hx : x = t.sha256Hash <;> simp only [r, hx, ne_eq, not_true_eq_false, not_false_eq_true, if_true, if_false] <;>
      decide +kernel
  have hsucc : r.success = decide (x = t.sha256Hash) := by
    by_cases hx : x = t.sha256Hash
    · simp only [r, hx, ne_eq, not_true_eq_false, if_false]; decide +kernel
    · simp only [r, hx, ne_eq, not_false_eq_true, if_true, decide_false]; decide +kernel
  unfold PendingFor at hpend
  obtain ⟨v, primary, nr, sent, sup, next, booted, fuel, log⟩ := b
  simp only at hp hpend hb hf hsup hany
  subst hb hf hsup
  have hfin : pmFinalize env .ostree io t ⟨v, primary, nr, sent, true, next, some x, k + 4, log⟩ =
      (.ok r, ⟨v, primary, false, false, true, next, some x, k + 2, log⟩) := by
    unfold pmFinalize
    rw [M.run_bind (M.gets_eq)]
    simp only [id, hd, Bool.not_true, Bool.false_eq_true, if_false]
    rfl
  unfold finalizeAfterReboot
  rw [M.run_bind (M.gets_eq)]
  simp only [id, hany, Bool.not_true, Bool.false_eq_true, if_false]
  rw [M.run_bind (show M.lift (v.loadPending env primary) _ = (.ok (some t), _) by rw [M.lift_eq, hpend])]
  simp only
  rw [M.run_bind hfin]
  refine (M.run_bind (a := false) (w1 := ⟨v, primary, false, false, true, next, some x, k + 2, log⟩) ?_).trans ?_
  · rw [M.lift_eq, hsame]
  · simp only [Bool.false_eq_true, if_false]
    have : (if r.success = true then UpdateMode.current else .none) = (if x = t.sha256Hash then UpdateMode.current else .none) := by
      rw [hsucc]; simp
    rw [this]
    rfl

/-- After rebooting into the pending version, a start that is not interrupted records success,
makes it the current version and leaves nothing pending. -/
theorem C21_rebooted_right {env : Env} {io : Io} {b : Board} {t : Target} (hp : b.primary ≠ "")
    (hpend : PendingFor env b t) (hd : b.rebootDetected = true) (hb : b.booted = some t.sha256Hash) (hf : 4 ≤ b.fuel) :
    ∃ b' r, finalizeAfterReboot env .ostree io b = (.ok (), b') ∧ b'.log = b.log ++ [.result t r b.booted] ∧
      r.success = true ∧ b'.v = b.v.saveInstalledVersion env b.primary t .current ∧
      (∀ x ∈ b'.v.rows, x.ecu = b.primary → x.isPending = false) ∧
      ∃ x ∈ b'.v.rows, x.ecu = b.primary ∧ x.isCurrent = true ∧ x.name = t.filename ∧ x.sha256 = t.sha256Hash := by
  obtain ⟨k, hk⟩ : ∃ k, b.fuel = k + 4 := ⟨b.fuel - 4, by omega⟩
  have h := finalize_ostree (io := io) hp hpend hd hb hk
  have hreal : b.v.realSerial b.primary = b.primary := by simp [realSerial, hp]
  simp only [ne_eq, not_true_eq_false, if_false, if_true] at h
  refine ⟨_, _, h, by rw [hb], by decide +kernel, rfl, ?_, ?_⟩
  · intro x hx he
    simp only [saveInstalledVersion, hreal] at hx
    split at hx
    · rename_i old ho
      obtain ⟨y, hy, rfl⟩ := List.mem_map.1 hx
      simp only [clearFlags] at hy
      obtain ⟨z, hz, rfl⟩ := List.mem_map.1 hy
      by_cases h1 : z.ecu = b.primary <;> by_cases h2 : z.id = old.id <;> simp_all [reflag]
    · rcases List.mem_append.1 hx with hx | hx
      · simp only [clearFlags] at hx
        obtain ⟨z, hz, rfl⟩ := List.mem_map.1 hx
        by_cases h1 : z.ecu = b.primary <;> simp_all
      · simp only [List.mem_singleton] at hx
        subst hx
        rfl
  · simp only [saveInstalledVersion, hreal]
    cases ho : oldRow b.v.rows b.primary t with
    | none => exact ⟨_, List.mem_append_right _ (List.mem_singleton.2 rfl), rfl, rfl, rfl, rfl⟩
    | some old =>
      obtain ⟨hm, he, hsh, hn⟩ := oldRow_some ho
      refine ⟨reflag t .current old { old with isCurrent := false, isPending := false }, ?_, he, rfl, hn, hsh⟩
      simp only [clearFlags]
      refine List.mem_map.2 ⟨{ old with isCurrent := false, isPending := false }, List.mem_map.2 ⟨old, hm, by rw [if_pos he]⟩, by simp⟩

/-- After rebooting into something else, a start that is not interrupted records a failure; the
version is no longer pending if it was the last one recorded for the Primary. -/
theorem C21_rebooted_wrong {env : Env} {io : Io} {b : Board} {t : Target} {x : String} (hp : b.primary ≠ "")
    (hpend : PendingFor env b t) (hd : b.rebootDetected = true) (hb : b.booted = some x) (hx : x ≠ t.sha256Hash)
    (hf : 4 ≤ b.fuel) :
    ∃ b' r, finalizeAfterReboot env .ostree io b = (.ok (), b') ∧ b'.log = b.log ++ [.result t r b.booted] ∧
      r.success = false ∧ b'.v = b.v.saveInstalledVersion env b.primary t .none ∧
      (∀ old, oldRow b.v.rows b.primary t = some old → ∀ y ∈ b'.v.rows, y.id = old.id → y.isPending = false) := by
  obtain ⟨k, hk⟩ : ∃ k, b.fuel = k + 4 := ⟨b.fuel - 4, by omega⟩
  have h := finalize_ostree (io := io) hp hpend hd hb hk
  simp only [ne_eq, hx, not_false_eq_true, if_false, if_true] at h
  refine ⟨_, _, h, by rw [hb], by decide +kernel, rfl, ?_⟩
  intro old ho y hy hid
  have hreal : b.v.realSerial b.primary = b.primary := by simp [realSerial, hp]
  simp only [saveInstalledVersion, hreal, ho, clearFlags] at hy
  obtain ⟨z, hz, rfl⟩ := List.mem_map.1 hy
  by_cases h2 : z.id = old.id
  · simp [h2, reflag]
  · rw [if_neg h2] at hid
    exact absurd hid h2

/-! ### What is lost when a finalisation dies -/

/-- Is the event a start or a restart of the machine (no installation)? -/
def _root_.Aktualizr.Spec.NoInstall (e : Event) : Prop :=
  ∀ io t fuel, e ≠ .install io t fuel ∧ e ≠ .installSec io t fuel

/-- Once the flag in storage is clear, a pending version stays pending, without any result, until
something is installed: starting and rebooting do not help. -/
theorem C21_stuck {env : Env} {kind : Kind} : ∀ (es : List Event) {b : Board}, b.needReboot = false →
    (∀ e ∈ es, NoInstall e) →
    (run env kind b es).v = b.v ∧ ∀ t r h, Note.result t r h ∈ (run env kind b es).log → Note.result t r h ∈ b.log
  | [], b, _, _ => ⟨rfl, fun _ _ _ h => h⟩
  | e :: es, b, hn, he => by
    have step : (e.step env kind b).needReboot = false ∧ (e.step env kind b).v = b.v ∧
        ∀ t r h, Note.result t r h ∈ (e.step env kind b).log → Note.result t r h ∈ b.log := by
      cases e with
      | start s io fuel =>
        have : ({ b with supported := s, fuel := fuel } : Board).rebootDetected = false := by
          simp [Board.rebootDetected, hn]
        simp only [Event.step]
        rw [C21_not_rebooted this]
        exact ⟨hn, rfl, fun _ _ _ h => h⟩
      | install io t fuel => exact absurd rfl (he _ (by simp) io t fuel).1
      | installSec io t fuel => exact absurd rfl (he _ (by simp) io t fuel).2
      | reboot boots => exact ⟨hn, rfl, by simp [Event.step]⟩
      | fakeReboot =>
        simp only [Event.step]
        split
        · exact ⟨hn, rfl, by simp⟩
        · exact ⟨hn, rfl, fun _ _ _ h => h⟩
    obtain ⟨r1, r2⟩ := C21_stuck es (b := e.step env kind b) step.1 (fun e' h => he e' (by simp [h]))
    exact ⟨r1.trans step.2.1, fun t r h hm => step.2.2 t r h (r2 t r h hm)⟩

/-- A finalisation that dies after its first effect (clearing the flag in storage), whatever
booted: the version stays pending with no result, however often the device is started or
rebooted afterwards. -/
theorem C21_crash_stuck {env : Env} {io : Io} {b : Board} {t : Target} {x : String} (hp : b.primary ≠ "")
    (hpend : PendingFor env b t) (hd : b.rebootDetected = true) (hb : b.booted = some x) (es : List Event)
    (he : ∀ e ∈ es, NoInstall e) :
    let b' := run env .ostree b (.start true io 1 :: es)
    PendingFor env b' t ∧ ∀ t r h, Note.result t r h ∈ b'.log → Note.result t r h ∈ b.log := by
  have hd' : ({ b with supported := true, fuel := 1 } : Board).rebootDetected = true := by
    unfold Board.rebootDetected at hd ⊢
    split at hd
    · simp at hd
    · simpa using hd
  have hany := pending_any hp hpend
  have hstep : (Event.start true io 1).step env .ostree b =
      { b with supported := true, needReboot := false, fuel := 0 } := by
    unfold PendingFor at hpend
    obtain ⟨v, primary, nr, sent, sup, next, booted, fuel, log⟩ := b
    simp only at hp hpend hb hany hd'
    subst hb
    simp only [Event.step]
    have hfin : pmFinalize env .ostree io t ⟨v, primary, nr, sent, true, next, some x, 1, log⟩ =
        (.error .crash, ⟨v, primary, false, sent, true, next, some x, 0, log⟩) := by
      unfold pmFinalize
      rw [M.run_bind (M.gets_eq)]
      simp only [id, hd', Bool.not_true, Bool.false_eq_true, if_false]
      rfl
    unfold finalizeAfterReboot
    rw [M.run_bind (M.gets_eq)]
    simp only [id, hany, Bool.not_true, Bool.false_eq_true, if_false]
    rw [M.run_bind (show M.lift (v.loadPending env primary) _ = (.ok (some t), _) by rw [M.lift_eq, hpend])]
    simp only
    rw [M.run_bind_err hfin]
  obtain ⟨r1, r2⟩ := C21_stuck (env := env) (kind := .ostree) es
    (b := { b with supported := true, needReboot := false, fuel := 0 }) rfl he
  simp only [run, List.foldl_cons, hstep]
  refine ⟨?_, r2⟩
  have hpr : ∀ (es : List Event) (b : Board), (∀ e ∈ es, NoInstall e) → b.needReboot = false →
      (es.foldl (Event.step env .ostree) b).primary = b.primary := by
    intro es
    induction es with
    | nil => intro b _ _; rfl
    | cons e es ih =>
      intro b he hn
      have : (e.step env .ostree b).primary = b.primary ∧ (e.step env .ostree b).needReboot = false := by
        cases e with
        | start s io fuel =>
          have : ({ b with supported := s, fuel := fuel } : Board).rebootDetected = false := by
            simp [Board.rebootDetected, hn]
          simp only [Event.step]
          rw [C21_not_rebooted this]
          exact ⟨rfl, hn⟩
        | install io t fuel => exact absurd rfl (he _ (by simp) io t fuel).1
        | installSec io t fuel => exact absurd rfl (he _ (by simp) io t fuel).2
        | reboot boots => exact ⟨rfl, hn⟩
        | fakeReboot => exact ⟨rfl, hn⟩
      rw [List.foldl_cons, ih _ (fun e' h => he e' (by simp [h])) this.2]
      exact this.1
  unfold PendingFor
  rw [hpr es _ he rfl]
  unfold run at r1
  rw [r1]
  exact hpend

/-! ### Cases -/

/-- Success without a reboot in between: an installation dies after setting the flags, the machine
reboots (the flag in storage is never cleared since nothing is pending), the next process cannot
create the sentinel directory and installs another version, the one after that can. With the fake
package manager. -/
theorem C21_unsupported_then_supported :
    let a : Target := { filename := "a", hashes := [Hash.mk' .sha256 "aa"] }
    let b : Target := { filename := "b", hashes := [Hash.mk' .sha256 "bb"] }
    let env := Toy.env []
    let es : List Event := [.start true {} 9, .install {} a 3, .reboot none, .start false {} 9, .install {} b 9, .start true {} 9]
    ((run env .fake { v := { ecus := [⟨"p", "h", true⟩] }, primary := "p" } es).log.map (fun n => match n with
      | .pending t f s => (t.filename, f, s)
      | .reboot => ("reboot", false, false)
      | .result t r _ => (t.filename, r.success, false))) = [("reboot", false, false), ("b", true, false), ("b", true, false)] := by
  decide +kernel

/-- A failed installation between the reboot and the finalisation does not exist in one process
(finalisation comes first), but one between the installation and the reboot does: then a wrong
version booted is reported as failed, and the version still stays pending. -/
theorem C21_failed_stays_pending :
    let a : Target := { filename := "a", hashes := [Hash.mk' .sha256 "aa"] }
    let b : Target := { filename := "b", hashes := [Hash.mk' .sha256 "bb"] }
    let env := Toy.env []
    let es : List Event := [.start true {} 9, .install {} a 9, .install { deploys := false } b 9, .reboot (some "cc"), .start true {} 9]
    let d := run env .ostree { v := { ecus := [⟨"p", "h", true⟩] }, primary := "p" } es
    (d.log.map (fun n => match n with
      | .pending t f s => (t.filename, f, s)
      | .reboot => ("reboot", false, false)
      | .result t r _ => (t.filename, r.success, false))) = [("a", true, true), ("reboot", false, false), ("a", false, false)] ∧
    (d.v.loadPending env "p").map (·.map (·.filename)) = .ok (some "a") ∧ d.needReboot = false := by
  decide +kernel

/-- If the sentinel cannot be written, the installation is recorded as failed, although the new
version is the one that boots next. -/
theorem C21_sentinel_failure :
    let a : Target := { filename := "a", hashes := [Hash.mk' .sha256 "aa"] }
    let env := Toy.env []
    let d := run env .ostree { v := { ecus := [⟨"p", "h", true⟩] }, primary := "p" } [.start true {} 9, .install { writes := false } a 9]
    (d.v.loadPending env "p").map (·.map (·.filename)) = .ok none ∧ d.next = some a.sha256Hash ∧ d.log.length = 0 := by
  decide +kernel

/-- Not vacuous: a successful update, with a start before the reboot that changes nothing, then a
second update after which the old version boots. -/
example :
    let a : Target := { filename := "a", hashes := [Hash.mk' .sha256 "aa"] }
    let b : Target := { filename := "b", hashes := [Hash.mk' .sha256 "bb"] }
    let env := Toy.env []
    let d0 : Board := { v := { ecus := [⟨"p", "h", true⟩] }, primary := "p" }
    let es : List Event := [.start true {} 9, .install {} a 9, .start true {} 9, .reboot (some a.sha256Hash), .start true {} 9,
      .install {} b 9, .reboot (some a.sha256Hash), .start true {} 9]
    d0.v.rows = [] ∧ d0.primary ≠ "" ∧ sortHashes a.hashes = a.hashes ∧
    ((run env .ostree d0 es).log.map (fun n => match n with
      | .pending t f s => (t.filename, f, s)
      | .reboot => ("reboot", false, false)
      | .result t r _ => (t.filename, r.success, false))) =
        [("a", true, true), ("reboot", false, false), ("a", true, false), ("b", true, true), ("reboot", false, false), ("b", false, false)] ∧
    ((run env .ostree d0 es).v.loadCurrent env "p").map (·.map (·.filename)) = .ok (some "a") ∧
    ((run env .ostree d0 es).v.loadPending env "p").map (·.map (·.filename)) = .ok none := by
  decide +kernel

end Aktualizr.Boot
