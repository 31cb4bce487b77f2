import Verif.Model.Cycle
import Verif.Props.C18
import Verif.Props.C19
import Verif.Props.C58

/-!
# C18 and C19 for whole lives, with the cycles of the daemon
-/

namespace Aktualizr

open M (throw gets lift catchStd Preserves IsPre)
open Spec

namespace DevBase

variable {R : Client → Client → Prop} {A : Action → Prop} {Q : Dev → Dev → Prop}

theorem downloadEach (h : DevBase R A Q) (f : Fetched) : ∀ ts, Preserves Q (downloadEach f ts)
  | [] => .pure h.pre
  | t :: ts => by
    have ih := downloadEach h f ts
    unfold Aktualizr.downloadEach
    wpres h.pre
    exact h.ask _

theorem downloadImages (h : DevBase R A Q) (c : Ctx) (f : Fetched) (ts : List Target) : Preserves Q (downloadImages c f ts) := by
  unfold Aktualizr.downloadImages downloadResult recheck
  wpres h.pre
  all_goals first
    | exact h.inClient (.catchStd h.cl.pre (h.cl.checkUpdatesOffline _ _) (fun _ => .pure h.cl.pre))
    | exact h.inClient (h.storeInstallationFailure _)
    | exact h.downloadEach _ _

end DevBase

/-- A cycle, from its parts. -/
theorem uptaneCycle_pres {Q : Dev → Dev → Prop} (hq : IsPre Q) {c : Ctx} {p : Peers} {f : Fetched} {force : Bool}
    (h1 : Preserves Q (fetchMeta c p)) (h2 : ∀ ts, Preserves Q (downloadImages c f ts))
    (h3 : ∀ ts, Preserves Q (uptaneInstall c p ts)) (h4 : Preserves Q (putManifestSimple c.env p)) :
    Preserves Q (uptaneCycle c p f force) := by
  unfold Aktualizr.uptaneCycle cycleDownload cycleInstall cycleEnd completionRequired
  wpres hq
  all_goals first
    | exact h1
    | exact h2 _
    | exact h3 _
    | exact h4

/-! ### C18 -/

section

variable {Good : String → Prop}

theorem uptaneCycle_keeps (c : Ctx) (p : Peers) (f : Fetched) (force : Bool) :
    Preserves (Keeps Good) (uptaneCycle c p f force) :=
  uptaneCycle_pres (keeps_pre Good) (fetchMeta_keeps c p) (fun _ => quiet_keeps (quiet_frame.downloadImages _ _ _))
    (fun _ => quiet_keeps (quiet_frame.uptaneInstall plain_all _ _ _)) (putManifestSimple_keeps _ p)

/-- Every configuration in the life has a Primary among `Good` and no Secondary there. -/
def Spec.KeepsRolesLife (Good : String → Prop) (es : List LifeEvent) : Prop :=
  ∀ e, .call e ∈ es → ∀ cfg ok, e.call = .init cfg ok → Good cfg.primary.1 ∧ ∀ s ∈ cfg.secondaries, ¬ Good s.1

theorem lifeStep_inv {env : Env} {d : Dev} {e : LifeEvent} (hi : CounterInv Good d)
    (hc : ∀ e', e = .call e' → ∀ cfg ok, e'.call = .init cfg ok → Good cfg.primary.1 ∧ ∀ s ∈ cfg.secondaries, ¬ Good s.1) :
    CounterInv Good (e.step env d) := by
  cases e with
  | call e => exact step_inv hi (hc e rfl)
  | turn t force =>
    show CounterInv Good (if d.up then _ else d)
    split
    · next hu =>
      have hp : d.cl.primary ≠ "" := by simpa [Dev.up] using hu
      have hi' : CounterInv Good { d with cl := { d.cl with w := { d.cl.w with fuel := t.fuel, tick := 0 } } } :=
        ⟨hi.ecus, hi.keys, hi.signed, hi.sent, hi.live⟩
      have run := uptaneCycle_keeps (Good := Good) { env := env, net := t.net, clock := t.clock } t.peers t.fetched force
        _ hi' hp
      unfold Turn.run
      split
      · next hx => rw [hx] at run; exact run.1.off
      · next hx => rw [hx] at run; exact run.1.off
      · next hx => rw [hx] at run; exact run.1
    · exact hi

/-- C18 for whole lives: any calls, starts, crashes and cycles of the daemon, with any servers, Secondaries and
downloads. The counters in the version manifests signed by an ECU as Primary, and those in the manifests it sent, are
all present and strictly increase. Missing: as for `C18_counters_increase_partial`. -/
theorem C18_life_partial (env : Env) (Good : String → Prop) (es : List LifeEvent) (h : KeepsRolesLife Good es) (s : String) :
    StrictlyIncreasing (signedBy s (live env Dev.fresh es).log) ∧
    StrictlyIncreasing (sentBy s (live env Dev.fresh es).log) := by
  have base : CounterInv Good Dev.fresh := by
    refine ⟨?_, ?_, fun s => Counted.nil _, fun s => Counted.nil _, fun hc => absurd rfl hc⟩
    · intro e rest he; cases he
    · intro q hq; cases hq
  have : ∀ (es : List LifeEvent) d, CounterInv Good d → KeepsRolesLife Good es → CounterInv Good (live env d es) := by
    intro es
    induction es with
    | nil => exact fun d h _ => h
    | cons e es ih =>
      intro d hd he
      exact ih _ (lifeStep_inv hd (fun e' h' => he e' (by rw [h']; exact .head _))) (fun e' h' => he e' (.tail _ h'))
  have inv := this es _ base h
  exact ⟨(inv.signed s).increasing, (inv.sent s).increasing⟩

end

/-! ### C19 -/

section

variable {q : Prop} {s : String}

theorem uptaneCycle_carries (c : Ctx) (p : Peers) (f : Fetched) (force : Bool) :
    Preserves (Carries q s) (uptaneCycle c p f force) :=
  have hf := carries_frame (q := q) (s := s)
  uptaneCycle_pres carries_pre (fetchMeta_carries c p) (fun _ => hf.downloadImages _ _ _)
    (fun _ => hf.uptaneInstall (fun _ _ h => h) _ _ _) (putManifestSimple_carries _ p)

theorem lifeStep_carries (env : Env) (d : Dev) (e : LifeEvent)
    (hs : ∀ e', e = .call e' → ∀ cfg ok, e'.call = .init cfg ok → q → s ∈ cfg.serials.map (·.1)) :
    Carries q s d (e.step env d) := by
  cases e with
  | call e => exact step_carries env d e (hs e rfl)
  | turn t force =>
    have off : ∀ d : Dev, Carries q s d d.off := fun d => carries_of_cl ⟨id, fun _ h => h, id⟩ (List.append_nil _).symm (by simp)
    have start : Carries q s d { d with cl := { d.cl with w := { d.cl.w with fuel := t.fuel, tick := 0 } } } :=
      carries_of_cl ⟨id, fun _ h => h, id⟩ (List.append_nil _).symm (by simp)
    have run := uptaneCycle_carries (q := q) (s := s) { env := env, net := t.net, clock := t.clock } t.peers t.fetched force
    show Carries q s d (if d.up then _ else d)
    split
    · unfold Turn.run
      split
      · next hx => exact carries_pre.trans _ _ _ (carries_pre.trans _ _ _ start (run.of_eq hx)) (off _)
      · next hx => exact carries_pre.trans _ _ _ (carries_pre.trans _ _ _ start (run.of_eq hx)) (off _)
      · next hx => exact carries_pre.trans _ _ _ start (run.of_eq hx)
    · exact carries_pre.refl _

/-- `s` is configured at each start in the life. -/
def Spec.StaysConfiguredLife (s : String) (es : List LifeEvent) : Prop :=
  ∀ e, .call e ∈ es → ∀ cfg ok, e.call = .init cfg ok → s ∈ cfg.serials.map (·.1)

theorem live_carries (env : Env) : ∀ (es : List LifeEvent) (d : Dev), (q → StaysConfiguredLife s es) → Carries q s d (live env d es)
  | [], d, _ => carries_pre.refl d
  | e :: es, d, h => carries_pre.trans _ _ _
      (lifeStep_carries env d e (fun e' he cfg ok hc hq => h hq e' (by rw [he]; exact .head _) cfg ok hc))
      (live_carries env es _ (fun hq e' h' => h hq e' (.tail _ h')))

end

/-- C19 (device) for whole lives with cycles of the daemon: up to the first manifest the server acknowledged each
manifest carries a report, and the stored result is kept until then. -/
theorem C19_life_device_result (env : Env) (d : Dev) (es : List LifeEvent) (h : HasDeviceResult d) :
    ∃ new, (live env d es).log = d.log ++ new ∧ UntilAck (fun m => m.report.isSome = true) new ∧
      (NoAck new → HasDeviceResult (live env d es)) := by
  obtain ⟨new, h1, h2, _⟩ := live_carries (q := False) (s := "") env es d False.elim
  exact ⟨new, h1, h2 h⟩

/-- C19 (ECUs) for whole lives with cycles. Missing: as for `C19_ecu_results_reported_partial`. -/
theorem C19_life_ecu_results_partial (env : Env) (d : Dev) (es : List LifeEvent) (s : String) (hd : HasDeviceResult d)
    (hr : IsRegistered s d) (he : HasEcuResult s d) (hs : StaysConfiguredLife s es) :
    ∃ new, (live env d es).log = d.log ++ new ∧ UntilAck (ReportsEcu s) new ∧
      (NoAck new → HasEcuResult s (live env d es)) := by
  obtain ⟨new, h1, _, _, h4, h5⟩ := live_carries env es d (fun _ : True => hs)
  exact ⟨new, h1, h5 trivial hd hr he, h4 he⟩

/-! ### Cases -/

/-- Not vacuous: two starts and three cycles of the daemon, the first of which cannot get the image and the second of which
dies after its counter was raised; that number is not used. -/
example :
    let es := [Toy.boots, .turn (Toy.cycleWith Toy.both (Toy.peers .good) (got := false)) true,
      .turn (Toy.cycleWith Toy.both (Toy.peers .good) (fuel := 18)) true, Toy.boots,
      .turn (Toy.cycleWith Toy.both (Toy.peers .good)) true]
    KeepsRolesLife (· = "e1") es ∧ sentBy "e1" (live Toy.E Dev.fresh es).log = [some 1, some 2, some 3, some 5, some 6] := by
  refine ⟨?_, by decide +kernel⟩
  intro e he cfg ok hc
  simp only [Toy.boots, List.mem_cons, LifeEvent.call.injEq, reduceCtorEq, List.not_mem_nil, or_false, false_or, or_self] at he
  subst he
  simp only [Toy.event, DevCall.init.injEq] at hc
  obtain ⟨rfl, rfl⟩ := hc
  decide

/-- Not vacuous: the result of a failed download is stored while the server takes no manifest, and the next cycle reports it. -/
example :
    let d := live Toy.E Dev.fresh [Toy.boots,
      .turn (Toy.cycleWith Toy.both { Toy.peers .good with putManifest := fun _ _ => false } (got := false)) true]
    HasDeviceResult d ∧
    Toy.sends (live Toy.E d [.turn (Toy.cycleWith Toy.both (Toy.peers .good)) true]).log =
      [(false, none), (false, some (5, [])), (true, some (5, [])), (true, some (0, [("e1", 0), ("e2", 0)]))] := by
  unfold HasDeviceResult
  refine ⟨by decide +kernel, by decide +kernel⟩

end Aktualizr
