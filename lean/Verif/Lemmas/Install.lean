import Verif.Model.Install
import Verif.Lemmas.Client

/-! What the installation code leaves alone, and what it adds to the log. -/

namespace Aktualizr

namespace M

variable {σ α β : Type}

/-- One run of `m`, from state `w`, ends in an `R`-related state. -/
def Runs (R : σ → σ → Prop) (m : M σ α) (w : σ) : Prop := R w (m w).2

theorem Runs.bind {R : σ → σ → Prop} (hR : IsPre R) {m : M σ α} {f : α → M σ β} {w : σ}
    (hm : Runs R m w) (hf : ∀ a w1, m w = (.ok a, w1) → Runs R (f a) w1) : Runs R (m >>= f) w := by
  unfold Runs at *
  show R w (match m w with | (.ok a, w') => f a w' | (.error e, w') => (.error e, w')).2
  cases h : m w with
  | mk o w1 =>
    rw [h] at hm
    cases o with
    | ok a => exact hR.trans _ _ _ hm (hf a w1 h)
    | error e => exact hm

theorem Runs.gets {R : σ → σ → Prop} {g : σ → α} {f : α → M σ β} {w : σ} (hf : Runs R (f (g w)) w) :
    Runs R (M.gets g >>= f) w := hf

theorem Preserves.runs {R : σ → σ → Prop} {m : M σ α} (h : Preserves R m) {w : σ} : Runs R m w := h w

theorem Runs.of_eq {R : σ → σ → Prop} {m : M σ α} {w w' : σ} {o : Except Err α} (h : Runs R m w) (he : m w = (o, w')) : R w w' := by
  unfold Runs at h; rw [he] at h; exact h

theorem runs_of_eq {R : σ → σ → Prop} {m : M σ α} {w w' : σ} {o : Except Err α} (he : m w = (o, w')) (h : R w w') : Runs R m w := by
  unfold Runs; rw [he]; exact h

end M

open M

variable {α : Type}

/-! ### Basic operations -/

theorem inClient_eq (m : C α) (d : Dev) : inClient m d = ((m d.cl).1, { d with cl := (m d.cl).2 }) := rfl

theorem inClient_ok {m : C α} {d d' : Dev} {a : α} :
    inClient m d = (.ok a, d') ↔ ∃ cl', m d.cl = (.ok a, cl') ∧ d' = { d with cl := cl' } := by
  rw [inClient_eq, Prod.mk.injEq]
  constructor
  · rintro ⟨h1, rfl⟩
    exact ⟨_, by rw [← h1], rfl⟩
  · rintro ⟨w', h1, rfl⟩
    rw [h1]
    exact ⟨rfl, rfl⟩

theorem inClient_run {m : C α} {d d' : Dev} {o : Except Err α} (h : inClient m d = (o, d')) :
    ∃ cl', m d.cl = (o, cl') ∧ d' = { d with cl := cl' } := by
  rw [inClient_eq, Prod.mk.injEq] at h
  obtain ⟨rfl, rfl⟩ := h
  exact ⟨_, rfl, rfl⟩

@[simp] theorem ask_eq (f : Nat → α) (d : Dev) : ask f d = (.ok (f d.n), { d with n := d.n + 1 }) := rfl

theorem act_ok {a : Action} {d d' : Dev} {u : Unit} :
    act a d = (.ok u, d') ↔ ∃ k, d.cl.w.fuel = k + 1 ∧
      d' = { d with cl := { d.cl with w := { d.cl.w with fuel := k } }, log := d.log ++ [a] } := by
  unfold act
  cases hf : d.cl.w.fuel with
  | zero => simp
  | succ n =>
    constructor
    · intro h; simp only [Prod.mk.injEq, true_and] at h; exact ⟨n, rfl, h.symm⟩
    · rintro ⟨m, hm, rfl⟩; cases hm; rfl

theorem act_cases {a : Action} {d d' : Dev} {o : Except Err Unit} (h : act a d = (o, d')) :
    (∃ k, d.cl.w.fuel = k + 1 ∧ o = .ok () ∧
      d' = { d with cl := { d.cl with w := { d.cl.w with fuel := k } }, log := d.log ++ [a] }) ∨ (o = .error .crash ∧ d' = d) := by
  unfold act at h
  split at h
  · next hf => simp only [Prod.mk.injEq] at h; exact .inr ⟨h.1.symm, h.2.symm⟩
  · next k hf => simp only [Prod.mk.injEq] at h; exact .inl ⟨k, hf, h.1.symm, h.2.symm⟩

/-! ### Relations on the client -/

/-- A preorder on clients that does not look at the metadata layer. -/
structure ClPre (R : Client → Client → Prop) : Prop where
  pre : IsPre R
  world : ∀ cl w, R cl { cl with w := w }

namespace ClPre

variable {R : Client → Client → Prop}

theorem inWorld (h : ClPre R) (m : U α) : Preserves R (inWorld m) := fun cl => h.world cl _

theorem cwrite (h : ClPre R) {f : Client → Client} (hf : ∀ cl, R cl (f cl)) : Preserves R (cwrite f) := by
  intro cl
  unfold Aktualizr.cwrite
  split
  · exact h.pre.refl _
  · exact h.pre.trans _ _ _ (hf cl) (h.world _ _)

theorem saveEcuResult (h : ClPre R) (hs : ∀ cl s row, R cl { cl with ecuResults := upsert s row cl.ecuResults }) (s : String) (r : InstResult) :
    Preserves R (saveEcuResult s r) := by
  unfold Aktualizr.saveEcuResult
  exact .bind h.pre (.lift h.pre) (fun row => h.cwrite (fun cl => hs cl _ _))

theorem storeDeviceResult (h : ClPre R) (hs : ∀ cl row, R cl { cl with devResult := some row }) (r : InstResult) (raw cid : String) :
    Preserves R (storeDeviceResult r raw cid) := by
  unfold Aktualizr.storeDeviceResult
  exact .bind h.pre (.lift h.pre) (fun row => h.cwrite (fun cl => hs cl _))

theorem offlineLoop (h : ClPre R) (c : Ctx) (dir : List Target) : ∀ ts, Preserves R (offlineLoop c dir ts)
  | [] => .pure h.pre
  | t :: ts => by
    have ih := offlineLoop h c dir ts
    unfold Aktualizr.offlineLoop
    wpres h.pre
    exact h.inWorld _

theorem checkUpdatesOffline (h : ClPre R) (c : Ctx) (ts : List Target) : Preserves R (checkUpdatesOffline c ts) := by
  unfold Aktualizr.checkUpdatesOffline uptaneOfflineIteration checkImageMetaOffline
  wpres h.pre
  all_goals first | exact h.inWorld _ | exact h.offlineLoop _ _ _

theorem matchLoop (h : ClPre R) (c : Ctx) : ∀ ts, Preserves R (matchLoop c ts)
  | [] => .pure h.pre
  | t :: ts => by
    have ih := matchLoop h c ts
    unfold Aktualizr.matchLoop
    wpres h.pre
    exact h.inWorld _

theorem checkUpdates (h : ClPre R) (hs : ∀ cl row, R cl { cl with devResult := some row }) (c : Ctx) : Preserves R (checkUpdates c) := by
  unfold Aktualizr.checkUpdates uptaneIteration checkMatches storeInstallationFailure
  wpres h.pre
  all_goals first | exact h.inWorld _ | exact h.matchLoop _ _ | exact h.storeDeviceResult hs _ _ _

end ClPre

/-- A computation of the client on the device. -/
theorem inClient_pres {R : Client → Client → Prop} {Q : Dev → Dev → Prop} (hQ : ∀ (d : Dev) cl', R d.cl cl' → Q d { d with cl := cl' })
    {m : C α} (hm : Preserves R m) : Preserves Q (inClient m) := by
  intro d
  exact hQ d _ (hm d.cl)

end Aktualizr
