import Verif.Model.Signals

/-!
# C90: a signal ends the daemon
-/

namespace Aktualizr

open Signals

namespace Spec

/-- How often `e` is seen. -/
def times (e : Event) (t : List Event) : Nat := (t.filter (· = e)).length

end Spec

theorem times_append {e : Event} {a b : List Event} : Spec.times e (a ++ b) = Spec.times e a + Spec.times e b := by
  simp [Spec.times]

theorem sig_run_append {s : State} {xs ys : List Step} : run s (xs ++ ys) = run (run s xs) ys := by
  induction xs generalizing s with
  | nil => rfl
  | cons x xs ih => exact ih

/-- What holds at all times. -/
structure SigInv (s : State) : Prop where
  alive : s.gone = false → s.handler ≠ .joining → s.handler ≠ .flushing → s.handler ≠ .restarting → s.worker = .alive
  busy : s.daemon.busy = true → s.worker = .alive
  none : s.handler = .flushing ∨ s.handler = .restarting → s.worker ≠ .alive
  ended : s.gone = true → ∃ ok, s.daemon = .ended ok
  held : s.gone = true → s.aborting = false
  out : s.exited = true → s.gone = true ∧ s.handler = .over
  told : s.gone = false → s.handler = .notifying ∨ s.handler = .over → s.flag = true

theorem sig_step_inv {s : State} {x : Step} (h : SigInv s) : SigInv (step s x) := by
  obtain ⟨h1, h2, h3, h4, h5, h6, h7⟩ := h
  unfold step
  split <;> (try split) <;> (try split) <;> first
    | exact ⟨h1, h2, h3, h4, h5, h6, h7⟩
    | (constructor <;> simp_all [State.aborting, Daemon.busy])
  rename_i o c _
  cases c <;> cases o <;> simp [after]

theorem sig_run_inv {s : State} {xs : List Step} (h : SigInv s) : SigInv (run s xs) := by
  induction xs generalizing s with
  | nil => exact h
  | cons x xs ih => exact ih (sig_step_inv h)

theorem sig_init_inv : SigInv init := by
  constructor <;> simp [init, Daemon.busy]

/-! ## The handler is called once -/

theorem once_step {s : State} {x : Step} : Spec.times .handled (seen s x) + (if (step s x).handler = .polling then 1 else 0) ≤
    (if s.handler = .polling then 1 else 0) := by
  by_cases hp : s.handler = .polling
  · cases x <;> simp only [seen, step, hp, Spec.times] <;> (try split) <;> (try split) <;> (try split) <;> simp_all
  · have : (step s x).handler ≠ .polling := by
      unfold step
      split <;> (try split) <;> (try split) <;> simp_all
    cases x <;> simp [seen, this, hp, Spec.times] <;> (try split) <;> (try split) <;> simp_all

theorem once_run {s : State} {xs : List Step} : Spec.times .handled (trace s xs) ≤ (if s.handler = .polling then 1 else 0) := by
  induction xs generalizing s with
  | nil => simp [trace, Spec.times]
  | cons x xs ih =>
    have h1 := once_step (s := s) (x := x)
    have h2 := ih (s := step s x)
    show Spec.times .handled (seen s x ++ trace (step s x) xs) ≤ _
    rw [times_append]
    omega

/-- C90. However many signals come, and however the threads are scheduled, the daemon is told to end at most once. -/
theorem C90_once {xs : List Step} : Spec.times .handled (trace init xs) ≤ 1 := once_run (s := init)

theorem quiet_run {s : State} {xs : List Step} (hn : .signal ∉ xs) (hm : s.marker = false) (hp : s.handler = .polling ∨ s.exited = true ∧ s.handler = .over) :
    .handled ∉ trace s xs ∧ .shutdown ∉ trace s xs ∧ (run s xs).ub = s.ub ∧ (run s xs).flag = s.flag := by
  induction xs generalizing s with
  | nil => simp [trace, run]
  | cons x xs ih =>
    have hx : x ≠ .signal := fun h => hn (by simp [h])
    have key : (step s x).marker = false ∧ ((step s x).handler = .polling ∨ (step s x).exited = true ∧ (step s x).handler = .over) ∧
        .handled ∉ seen s x ∧ .shutdown ∉ seen s x ∧ (step s x).ub = s.ub ∧ (step s x).flag = s.flag := by
      rcases hp with hp | ⟨he, hp⟩
      all_goals
        cases x <;> simp only [seen, step, hp] <;> (try split) <;> (try split) <;> (try split) <;> simp_all
    obtain ⟨k1, k2, k3, k4, k5, k6⟩ := key
    obtain ⟨i1, i2, i3, i4⟩ := ih (s := step s x) (fun h => hn (by simp [h])) k1 k2
    refine ⟨?_, ?_, i3.trans k5, i4.trans k6⟩
    · simp [trace, k3, i1]
    · simp [trace, k4, i2]

/-- C90. Without a signal it is never told to. -/
theorem C90_only {xs : List Step} (hn : .signal ∉ xs) :
    .handled ∉ trace init xs ∧ .shutdown ∉ trace init xs ∧ (run init xs).ub = false :=
  let ⟨h1, h2, h3, _⟩ := quiet_run (s := init) hn rfl (.inl rfl)
  ⟨h1, h2, h3⟩

/-! ## What is not begun any more -/

/-- Nothing will be done any more. -/
def Final (s : State) : Prop := s.flag = true ∧ s.daemon.cmd = none

theorem final_step {s : State} {x : Step} (h : Final s) : Final (step s x) ∧ ∀ c, .begins c ∉ seen s x := by
  obtain ⟨h1, h2⟩ := h
  refine ⟨?_, ?_⟩
  · unfold step Final
    split <;> (try split) <;> (try split) <;> simp_all [Daemon.cmd]
  · intro c
    cases x <;> simp only [seen] <;> (try split) <;> (try split) <;> simp_all [Daemon.cmd]

theorem final_run {s : State} {xs : List Step} (h : Final s) : ∀ c, .begins c ∉ trace s xs := by
  induction xs generalizing s with
  | nil => simp [trace]
  | cons x xs ih =>
    intro c
    simp [trace, (final_step (x := x) h).2 c, ih (final_step (x := x) h).1 c]

theorem lock_seen {s : State} (h : .shutdown ∈ seen s .lock) : s.handler = .locking ∧ s.gone = false ∧ s.daemon.unlocked = true ∧
    step s .lock = { s with flag := true, handler := .notifying } := by
  have hf : s.flag = false ∧ (step s .lock).flag = true := by
    by_cases hc : s.flag = false ∧ (step s .lock).flag = true
    · exact hc
    · simp only [seen, hc, if_false] at h
      cases h
  have : s.handler = .locking ∧ s.gone = false ∧ s.daemon.unlocked = true := by
    obtain ⟨hf, hl⟩ := hf
    cases hh : s.handler with
    | locking =>
      simp only [step, hh] at hl
      cases hg : s.gone with
      | true => rw [hg, if_pos rfl] at hl; exact absurd (hf.symm.trans hl) nofun
      | false =>
        cases hu : s.daemon.unlocked with
        | true => exact ⟨rfl, rfl, rfl⟩
        | false => rw [hg, hu] at hl; exact absurd (hf.symm.trans hl) nofun
    | _ => simp only [step, hh] at hl; exact absurd (hf.symm.trans hl) nofun
  obtain ⟨h1, h2, h3⟩ := this
  refine ⟨h1, h2, h3, ?_⟩
  simp only [step, h1, h2, h3]
  simp

/-- C90. After `Shutdown`, no command is begun, if the daemon has got to its first cycle. -/
theorem C90_shutdown_partial {xs ys : List Step} (h : .shutdown ∈ seen (run init xs) .lock)
    (hd : (run init xs).daemon.cmd ≠ some .data) : ∀ c, .begins c ∉ trace (step (run init xs) .lock) ys := by
  obtain ⟨-, -, h3, h4⟩ := lock_seen h
  apply final_run
  rw [h4]
  refine ⟨rfl, ?_⟩
  simp only [Daemon.unlocked, Bool.or_eq_true, decide_eq_true_eq] at h3
  exact h3.resolve_right hd

/-- The checks for updates that can still begin. -/
def checksLeft : Daemon → Nat
  | .ask .data | .queued .data | .running .data | .answered .data => 1
  | .ask .check | .queued .check => 1
  | _ => 0

theorem left_step {s : State} {x : Step} (h : s.flag = true) :
    (step s x).flag = true ∧ Spec.times (.begins .check) (seen s x) + checksLeft (step s x).daemon ≤ checksLeft s.daemon := by
  refine ⟨?_, ?_⟩
  · unfold step
    split <;> (try split) <;> (try split) <;> simp_all
  · cases x
    case get o =>
      obtain ⟨d, w, hd, m, f, g, e, u⟩ := s
      rcases d with c | c | c | c | c | _ | c <;> first
        | exact Nat.le_refl _
        | exact Nat.zero_le _
        | (cases c <;> cases o <;> first | exact Nat.le_refl _ | exact Nat.zero_le _)
    case take =>
      obtain ⟨d, w, hd, m, f, g, e, u⟩ := s
      cases d
      case queued c =>
        simp only [step, seen, Spec.times]
        split <;> cases c <;> simp [checksLeft]
      all_goals simp [step, seen, Spec.times]
    case enqueue =>
      obtain ⟨d, w, hd, m, f, g, e, u⟩ := s
      rcases d with c | c | c | c | c | _ | c <;> first
        | exact Nat.le_refl _
        | (cases c <;> first | exact Nat.le_refl _ | exact Nat.zero_le _)
    case finish =>
      obtain ⟨d, w, hd, m, f, g, e, u⟩ := s
      rcases d with c | c | c | c | c | _ | c <;> first
        | exact Nat.le_refl _
        | (cases c <;> first | exact Nat.le_refl _ | exact Nat.zero_le _)
    case flush =>
      simp only [step, seen, Spec.times]
      split <;> (try split) <;> simp_all [checksLeft]
    all_goals
      simp only [step, seen, Spec.times]
      (try split) <;> (try split) <;> (try split) <;> (try split) <;> simp_all [checksLeft]

theorem left_run {s : State} {xs : List Step} (h : s.flag = true) : Spec.times (.begins .check) (trace s xs) ≤ checksLeft s.daemon := by
  induction xs generalizing s with
  | nil => simp [trace, Spec.times]
  | cons x xs ih =>
    obtain ⟨h1, h2⟩ := left_step (x := x) h
    have h3 := ih h1
    show Spec.times _ (seen s x ++ trace (step s x) xs) ≤ _
    rw [times_append]
    omega

/-- C90. In any case at most one more cycle is begun after it. -/
theorem C90_last_cycle {xs ys : List Step} (h : .shutdown ∈ seen (run init xs) .lock) :
    Spec.times (.begins .check) (trace (step (run init xs) .lock) ys) ≤ 1 := by
  obtain ⟨-, -, h3, h4⟩ := lock_seen h
  rw [h4]
  refine Nat.le_trans (left_run rfl) ?_
  show checksLeft (run init xs).daemon ≤ 1
  unfold checksLeft
  split <;> omega

/-- What was in the queue when the signal was handled. -/
def Cut (s : State) : Prop :=
  (s.aborting = true ∧ ∃ c, s.daemon = .queued c) ∨ (∃ c, s.daemon = .dropped c) ∨ ∃ ok, s.daemon = .ended ok

theorem cut_step {s : State} {x : Step} (h : Cut s) : Cut (step s x) ∧ ∀ c, .begins c ∉ seen s x := by
  refine ⟨?_, ?_⟩
  · rcases h with ⟨h1, c, h2⟩ | ⟨c, h2⟩ | ⟨ok, h2⟩
    · simp only [State.aborting, Bool.or_eq_true, decide_eq_true_eq] at h1
      rcases h1 with h1 | h1
      all_goals
        unfold step Cut
        split <;> (try split) <;> (try split) <;> simp_all [State.aborting]
    all_goals
      unfold step Cut
      split <;> (try split) <;> (try split) <;> simp_all [State.aborting]
  · intro c
    rcases h with ⟨h1, c, h2⟩ | ⟨c, h2⟩ | ⟨ok, h2⟩
    all_goals
      cases x <;> simp only [seen] <;> (try split) <;> (try split) <;> simp_all

/-- C90. A command that waits in the queue when the signal is handled is not begun, and no command after it. -/
theorem C90_queued {s : State} {xs ys : List Step} {c : Cmd} (hs : s = run init xs) (hp : .handled ∈ seen s .poll)
    (hq : s.daemon = .queued c) : ∀ d, .begins d ∉ trace (step s .poll) ys := by
  have hg : s.gone = false := by
    have hi : SigInv s := hs ▸ sig_run_inv sig_init_inv
    cases hg : s.gone with
    | false => rfl
    | true => obtain ⟨ok, h⟩ := hi.ended hg; rw [hq] at h; cases h
  have : Cut (step s .poll) := by
    left
    have : s.handler = .polling ∧ s.marker = true ∧ s.exited = false := by
      revert hp
      simp only [seen]
      split <;> simp_all
    obtain ⟨h1, h2, h3⟩ := this
    simp only [step, h1, h2, h3, hg, hq]
    simp [State.aborting]
  clear hs hp hg hq
  generalize step s .poll = s at this
  intro d
  induction ys generalizing s with
  | nil => simp [trace]
  | cons x xs ih => simp [trace, (cut_step (x := x) this).2 d, ih (s := step s x) (cut_step this).1]

/-! ## It can end -/

/-- What brings the daemon to its end. -/
def closing : List Step :=
  [.poll, .finish, .quit, .join, .flush, .restart, .get .rest, .enqueue, .take, .finish, .get .rest, .enqueue, .take, .finish, .get .rest,
   .lock, .notify, .wake, .destroy, .leave]

/-- C90. The daemon is never stuck: whatever happened, from a signal until `main` destroys its object, the threads can go on so that the process
ends properly. -/
theorem C90_can_end_partial {s : State} {xs : List Step} (hs : s = run init xs) (hm : s.marker = true ∨ s.handler ≠ .polling)
    (hg : s.gone = false) (hu : s.ub = false) : ∃ ys, .signal ∉ ys ∧ (run s ys).exited = true ∧ (run s ys).ub = false := by
  have hi : SigInv s := hs ▸ sig_run_inv sig_init_inv
  clear hs
  obtain ⟨h1, h2, h3, h4, h5, h6, h7⟩ := hi
  obtain ⟨d, w, h, m, f, g, e, u⟩ := s
  dsimp only at *
  subst hg hu
  cases e
  case true => simp at h6
  refine ⟨closing, by decide, ?_⟩
  have hb : d.busy = true → w = .alive := h2
  clear h2 h4 h5 h6
  have key : ∀ w h m f, (h = .polling → m = true ∧ w = .alive) → (d.busy = true → w = .alive) →
      (h = .flushing ∨ h = .restarting → w ≠ .alive) → (h = .locking → w = .alive) →
      (h = .notifying ∨ h = .over → w = .alive ∧ f = true) →
      (run ⟨d, w, h, m, f, false, false, false⟩ closing).exited = true ∧ (run ⟨d, w, h, m, f, false, false, false⟩ closing).ub = false := by
    clear h1 h3 h7 hb hm
    intro w h m f
    rcases d with c | c | c | c | c | _ | c <;> (try cases c) <;> cases h <;> cases w <;> cases m <;> cases f <;> decide +kernel
  apply key
  · rintro rfl; exact ⟨hm.resolve_right (fun h => h rfl), h1 rfl nofun nofun nofun⟩
  · exact hb
  · exact h3
  · rintro rfl; exact h1 rfl nofun nofun nofun
  · rintro (rfl | rfl)
    · exact ⟨h1 rfl nofun nofun nofun, h7 rfl (.inl rfl)⟩
    · exact ⟨h1 rfl nofun nofun nofun, h7 rfl (.inr rfl)⟩

/-! ## What goes wrong -/

/-- C90, violated. The command that the daemon waits for is dropped, which ends the daemon and destroys the object, before the handler has
finished with it. -/
theorem C90_dangling : (run init [.enqueue, .signal, .poll, .quit, .join, .flush, .get .rest, .destroy, .restart]).ub = true := by decide

/-- C90, violated. Also without `Abort`: `Shutdown` sets the flag, the daemon wakes up and ends, and then `Shutdown` notifies. -/
theorem C90_dangling_notify :
    (run init [.enqueue, .take, .finish, .get .next, .enqueue, .take, .finish, .get .rest, .signal, .poll, .quit, .join, .flush, .restart, .lock,
      .wake, .destroy, .notify]).ub = true := by decide

/-- C90, violated. A signal that comes when the daemon has ended by itself. -/
theorem C90_dangling_late :
    (run init [.enqueue, .take, .finish, .get .next, .enqueue, .take, .finish, .get .next, .enqueue, .take, .finish, .get .next, .enqueue, .take,
      .finish, .get .leave, .destroy, .signal, .poll]).ub = true := by decide

/-- C90, violated. A signal while the daemon checks for updates: `Abort` waits for the check, and then the updates are downloaded and installed
all the same. -/
theorem C90_carries_on :
    trace init [.enqueue, .take, .finish, .get .next, .enqueue, .take, .signal, .poll, .finish, .quit, .join, .flush, .restart, .get .next,
      .enqueue, .take, .finish, .get .next, .enqueue, .take] =
      [.begins .data, .begins .check, .signalled, .handled, .begins .download, .begins .install] := by decide

/-- C90, violated. `Shutdown` before the first cycle: the cycle is gone through all the same. -/
theorem C90_first_cycle :
    trace init [.enqueue, .take, .signal, .poll, .finish, .quit, .join, .flush, .restart, .lock, .notify, .get .next,
      .enqueue, .take, .finish, .get .next, .enqueue, .take, .finish, .get .next, .enqueue, .take] =
      [.begins .data, .signalled, .handled, .shutdown, .begins .check, .begins .download, .begins .install] := by decide

/-! ## Cases -/

/-- A signal while the daemon sleeps. -/
example :
    let xs : List Step := [.enqueue, .take, .finish, .get .next, .enqueue, .take, .finish, .get .rest, .signal, .poll, .quit, .join, .flush, .restart]
    .shutdown ∈ seen (run init xs) .lock ∧ (run init xs).daemon.cmd ≠ some .data ∧
    (run init (xs ++ [.lock, .notify, .wake, .destroy, .leave])) = { daemon := .ended true, worker := .none, handler := .over, flag := true, gone := true, exited := true } := by
  decide

/-- A signal while a download waits in the queue. -/
example :
    let s := run init [.enqueue, .take, .finish, .get .next, .enqueue, .take, .finish, .get .next, .enqueue, .signal]
    .handled ∈ seen s .poll ∧ s.daemon = .queued .download ∧
    (run s closing).daemon = .ended false ∧ (run s closing).exited = true := by
  decide

/-- Three signals. -/
example : Spec.times .handled (trace init [.signal, .signal, .poll, .quit, .signal, .poll, .join]) = 1 := by decide

end Aktualizr
