import Verif.Model.Device
import Verif.Lemmas.Install

/-! Frame lemmas for the operations of a device: a relation `Q` on devices that allows the
elementary changes is preserved by every operation made of them. -/

namespace Aktualizr

open M

/-- `Q` allows the changes made outside of reporting; `R` is its part on clients and `A` the
allowed actions. -/
structure DevBase (R : Client → Client → Prop) (A : Action → Prop) (Q : Dev → Dev → Prop) : Prop where
  cl : ClPre R
  versions : ∀ cl env s t m, R cl { cl with v := cl.v.saveInstalledVersion env s t m }
  ecuResult : ∀ cl s row, R cl { cl with ecuResults := upsert s row cl.ecuResults }
  devResult : ∀ cl row, R cl { cl with devResult := some row }
  pre : IsPre Q
  client : ∀ (d : Dev) cl', R d.cl cl' → Q d { d with cl := cl' }
  log : ∀ (d : Dev) a, A a → Q d { d with log := d.log ++ [a] }
  asked : ∀ (d : Dev) n, Q d { d with n := n }

/-- Also the kept manifests of the Secondaries may change. -/
structure DevFrame (R : Client → Client → Prop) (A : Action → Prop) (Q : Dev → Dev → Prop) : Prop extends DevBase R A Q where
  cache : ∀ (d : Dev) c, Q d { d with cache := c }

namespace DevBase

variable {R : Client → Client → Prop} {A : Action → Prop} {Q : Dev → Dev → Prop} {α : Type}

theorem inClient (h : DevBase R A Q) {m : C α} (hm : Preserves R m) : Preserves Q (inClient m) := fun d => h.client d _ (hm d.cl)

theorem ask (h : DevBase R A Q) (f : Nat → α) : Preserves Q (ask f) := fun d => h.asked d _

theorem act (h : DevBase R A Q) {a : Action} (ha : A a) : Preserves Q (act a) := by
  intro d
  unfold Aktualizr.act
  split
  · exact h.pre.refl _
  · exact h.pre.trans _ _ _ (h.client d _ (h.cl.world d.cl _)) (h.log _ a ha)

theorem saveVersion (h : DevBase R A Q) (env : Env) (s : String) (t : Target) (mode : UpdateMode) :
    Preserves Q (saveVersion env s t mode) := h.inClient (h.cl.cwrite (fun cl => h.versions cl _ _ _ _))

theorem saveEcuResult (h : DevBase R A Q) (s : String) (r : InstResult) : Preserves Q (Aktualizr.inClient (saveEcuResult s r)) :=
  h.inClient (h.cl.saveEcuResult h.ecuResult _ _)

theorem storeDeviceResult (h : DevBase R A Q) (r : InstResult) (raw cid : String) :
    Preserves Q (Aktualizr.inClient (storeDeviceResult r raw cid)) :=
  h.inClient (h.cl.storeDeviceResult h.devResult _ _ _)

theorem inWorld (h : DevBase R A Q) (m : U α) : Preserves Q (Aktualizr.inClient (Aktualizr.inWorld m)) := h.inClient (h.cl.inWorld m)

theorem storeInstallationFailure (h : DevBase R A Q) (r : InstResult) : Preserves R (storeInstallationFailure r) := by
  unfold Aktualizr.storeInstallationFailure
  wpres h.cl.pre
  · exact h.cl.storeDeviceResult h.devResult _ _ _
  · exact h.cl.inWorld _

section install

variable (h : DevBase R A Q) (hA : ∀ a, (∀ s k, a ≠ .signed s k) → (∀ m ok, a ≠ .sent m ok) → A a)

include h hA

theorem rotateSecLoop (c : Ctx) (p : Peers) (repo : Repo) (serial : String) : ∀ k v r, Preserves Q (rotateSecLoop c p repo serial k v r)
  | 0, _, _ => .pure h.pre
  | k + 1, v, r => by
    have ih := rotateSecLoop c p repo serial k
    unfold Aktualizr.rotateSecLoop rootForSecondary
    wpres h.pre
    all_goals first
      | exact h.inWorld _
      | exact h.ask _
      | exact ih _ _
      | exact h.act (hA _ (by intros; simp) (by intros; simp))

theorem sendMetadataTo (c : Ctx) (p : Peers) (serial : String) (t : Target) : Preserves Q (sendMetadataTo c p serial t) := by
  unfold Aktualizr.sendMetadataTo rotateSecondaryRoot
  wpres h.pre
  all_goals first
    | exact h.inWorld _
    | exact h.ask _
    | exact h.rotateSecLoop hA _ _ _ _ _ _ _
    | exact h.act (hA _ (by intros; simp) (by intros; simp))

theorem sendMetadataLoop (c : Ctx) (p : Peers) : ∀ l failed, Preserves Q (sendMetadataLoop c p l failed)
  | [], _ => .pure h.pre
  | (t, s, hw) :: l, failed => by
    have ih := sendMetadataLoop c p l
    unfold Aktualizr.sendMetadataLoop
    wpres h.pre
    all_goals first
      | exact ih _
      | exact h.sendMetadataTo hA _ _ _ _

theorem sendAll (p : Peers) : ∀ l, Preserves Q (sendAll p l)
  | [] => .pure h.pre
  | (t, s, hw) :: l => by
    have ih := sendAll p l
    unfold Aktualizr.sendAll sendFirmware
    wpres h.pre
    all_goals first
      | exact h.ask _
      | exact h.act (hA _ (by intros; simp) (by intros; simp))

omit hA in
theorem recordAllResults (env : Env) : ∀ l, Preserves Q (recordAllResults env l)
  | [] => .pure h.pre
  | (t, s, r) :: l => by
    have ih := recordAllResults env l
    unfold Aktualizr.recordAllResults
    wpres h.pre
    all_goals first
      | exact h.saveVersion _ _ _ _
      | exact h.saveEcuResult _ _

theorem verifyAll (p : Peers) : ∀ l, Preserves Q (verifyAll p l)
  | [] => .pure h.pre
  | t :: l => by
    have ih := verifyAll p l
    unfold Aktualizr.verifyAll
    wpres h.pre
    all_goals first
      | exact h.ask _
      | exact h.log _ _ (hA _ (by intros; simp) (by intros; simp))

theorem uptaneInstall (c : Ctx) (p : Peers) (ts : List Target) : Preserves Q (uptaneInstall c p ts) := by
  unfold Aktualizr.uptaneInstall installBody recheck installVerified waitSecondariesReachable sendMetadataToEcus installPrimary
    packageInstallSetResult sendImagesToEcus
  wpres h.pre
  all_goals first
    | exact h.inClient (.catchStd h.cl.pre (h.cl.checkUpdatesOffline _ _) (fun _ => .pure h.cl.pre))
    | exact h.ask _
    | exact h.verifyAll hA _ _
    | exact h.sendMetadataLoop hA _ _ _ _
    | exact h.sendAll hA _ _
    | exact h.recordAllResults _ _
    | exact h.saveVersion _ _ _ _
    | exact h.saveEcuResult _ _
    | exact h.storeDeviceResult _ _ _
    | exact h.act (hA _ (by intros; simp) (by intros; simp))

omit hA in
theorem confirmSecondary (env : Env) (s : String) : Preserves Q (confirmSecondary env s) := by
  unfold Aktualizr.confirmSecondary
  wpres h.pre
  all_goals first
    | exact h.saveVersion _ _ _ _
    | exact h.saveEcuResult _ _
    | exact h.storeDeviceResult _ _ _

omit hA in
theorem pendingSecondaryLoop (env : Env) (p : Peers) : ∀ l, Preserves Q (pendingSecondaryLoop env p l)
  | [] => .pure h.pre
  | (s, hash) :: l => by
    have ih := pendingSecondaryLoop env p l
    unfold Aktualizr.pendingSecondaryLoop
    wpres h.pre
    all_goals first
      | exact h.ask _
      | exact h.confirmSecondary _ _

omit hA in
theorem checkPending (env : Env) (p : Peers) : Preserves Q (checkAndUpdatePendingSecondaries env p) := by
  unfold checkAndUpdatePendingSecondaries
  wpres h.pre
  exact h.pendingSecondaryLoop _ _ _

omit hA in
theorem assembleReport : Preserves Q assembleReport := by
  unfold Aktualizr.assembleReport
  wpres h.pre
  exact h.inWorld _

end install

end DevBase

theorem DevFrame.secondaryManifests {R : Client → Client → Prop} {A : Action → Prop} {Q : Dev → Dev → Prop} (h : DevFrame R A Q) (env : Env) (p : Peers) : ∀ l, Preserves Q (secondaryManifests env p l)
  | [] => .pure h.pre
  | (s, _) :: l => by
    have ih := secondaryManifests h env p l
    unfold Aktualizr.secondaryManifests obtainManifest storeCached
    wpres h.pre
    all_goals first
      | exact h.ask _
      | exact h.inClient (h.cl.cwrite (fun _ => h.cl.pre.refl _))
      | exact h.cache _ _

end Aktualizr
