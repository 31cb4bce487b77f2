import Verif.Model.Cycle
import Verif.Lemmas.Device
import Verif.Lemmas.Frame

/-! What the operations of a device do to the metadata storage: nothing but the metadata
operations of the client. -/

namespace Aktualizr

open M

/-- `P` relates the metadata storages. -/
def clDb (P : MetaDb → MetaDb → Prop) (a b : Client) : Prop := P a.w.db b.w.db

/-- `P` relates the metadata storages of two devices. -/
def devDb (P : MetaDb → MetaDb → Prop) (a b : Dev) : Prop := P a.cl.w.db b.cl.w.db

variable {P : MetaDb → MetaDb → Prop} {α : Type} {env : Env}

namespace Closed

theorem clPre (h : Closed env P) : IsPre (clDb P) := ⟨fun _ => h.pre.refl _, fun _ _ _ h1 h2 => h.pre.trans _ _ _ h1 h2⟩

theorem devPre (h : Closed env P) : IsPre (devDb P) := ⟨fun _ => h.pre.refl _, fun _ _ _ h1 h2 => h.pre.trans _ _ _ h1 h2⟩

theorem inWorld (_ : Closed env P) {m : U α} (hm : Preserves (onDb P) m) : Preserves (clDb P) (inWorld m) := fun cl => hm cl.w

theorem inClient (_ : Closed env P) {m : C α} (hm : Preserves (clDb P) m) : Preserves (devDb P) (inClient m) := fun d => hm d.cl

theorem cwrite (h : Closed env P) {f : Client → Client} (hf : ∀ cl, (f cl).w.db = cl.w.db) : Preserves (clDb P) (cwrite f) := by
  intro cl
  unfold Aktualizr.cwrite
  split
  · exact h.pre.refl _
  · show P cl.w.db (f cl).w.db
    rw [hf]; exact h.pre.refl _

theorem cmodify (h : Closed env P) {f : Client → Client} (hf : ∀ cl, (f cl).w.db = cl.w.db) : Preserves (clDb P) (M.modify f) := by
  refine .modify (fun cl => ?_)
  show P cl.w.db (f cl).w.db
  rw [hf]; exact h.pre.refl _

theorem saveEcuResult (h : Closed env P) (s : String) (r : InstResult) : Preserves (clDb P) (saveEcuResult s r) := by
  unfold Aktualizr.saveEcuResult
  wpres h.clPre
  exact h.cwrite (fun _ => rfl)

theorem storeDeviceResult (h : Closed env P) (r : InstResult) (raw cid : String) : Preserves (clDb P) (storeDeviceResult r raw cid) := by
  unfold Aktualizr.storeDeviceResult
  wpres h.clPre
  exact h.cwrite (fun _ => rfl)

theorem storeInstallationFailure (h : Closed env P) (r : InstResult) : Preserves (clDb P) (storeInstallationFailure r) := by
  unfold Aktualizr.storeInstallationFailure
  wpres h.clPre
  · exact h.storeDeviceResult _ _ _
  · exact h.inWorld (Director.dropTargets_pres h.pre h.drop)

theorem findInTree (h : Closed env P) (c : Ctx) (q : Target) (offline : Bool) : Preserves (clDb P) (Aktualizr.inWorld (Delegation.findInTree c q offline)) :=
  h.inWorld (Delegation.findInTree_pres h.pre c q offline h.storeDelegation h.deleteDelegation)

theorem matchLoop (h : Closed env P) (c : Ctx) : ∀ ts, Preserves (clDb P) (matchLoop c ts)
  | [] => .pure h.clPre
  | t :: ts => by
    have ih := h.matchLoop c ts
    unfold Aktualizr.matchLoop
    wpres h.clPre
    exact h.findInTree _ _ _

theorem offlineLoop (h : Closed env P) (c : Ctx) (dir : List Target) : ∀ ts, Preserves (clDb P) (offlineLoop c dir ts)
  | [] => .pure h.clPre
  | t :: ts => by
    have ih := h.offlineLoop c dir ts
    unfold Aktualizr.offlineLoop
    wpres h.clPre
    exact h.findInTree _ _ _

theorem checkUpdates (h : Closed env P) (c : Ctx) (hc : c.env = env) : Preserves (clDb P) (checkUpdates c) := by
  unfold Aktualizr.checkUpdates uptaneIteration checkMatches
  wpres h.clPre
  all_goals first
    | exact h.inWorld (Director.updateMeta_pres h.pre c (h.root c hc _) h.directorTargets)
    | exact h.inWorld (Image.updateMeta_pres h.pre c (h.root c hc _) h.image)
    | exact h.inWorld (h.pre.ofEq (loadNonRoot_same _ _))
    | exact h.matchLoop _ _
    | exact h.storeInstallationFailure _

theorem checkUpdatesOffline (h : Closed env P) (c : Ctx) (ts : List Target) : Preserves (clDb P) (checkUpdatesOffline c ts) := by
  unfold Aktualizr.checkUpdatesOffline uptaneOfflineIteration checkImageMetaOffline
  wpres h.clPre
  all_goals first
    | exact h.inWorld (Director.checkMetaOffline_pres h.pre c)
    | exact h.inWorld (Image.checkMetaOffline_pres h.pre c)
    | exact h.offlineLoop _ _ _

theorem recheck (h : Closed env P) (c : Ctx) (ts : List Target) : Preserves (devDb P) (recheck c ts) :=
  h.inClient (.catchStd h.clPre (h.checkUpdatesOffline c ts) (fun _ => .pure h.clPre))

theorem ask (h : Closed env P) (f : Nat → α) : Preserves (devDb P) (ask f) := fun _ => h.pre.refl _

theorem act (h : Closed env P) (a : Action) : Preserves (devDb P) (act a) := by
  intro d
  unfold Aktualizr.act
  split <;> exact h.pre.refl _

theorem saveVersion (h : Closed env P) (e : Env) (s : String) (t : Target) (mode : UpdateMode) : Preserves (devDb P) (saveVersion e s t mode) :=
  h.inClient (h.cwrite (fun _ => rfl))

theorem rotateSecLoop (h : Closed env P) (c : Ctx) (p : Peers) (repo : Repo) (serial : String) :
    ∀ k v r, Preserves (devDb P) (rotateSecLoop c p repo serial k v r)
  | 0, _, _ => .pure h.devPre
  | k + 1, v, r => by
    have ih := h.rotateSecLoop c p repo serial k
    unfold Aktualizr.rotateSecLoop rootForSecondary
    wpres h.devPre
    all_goals first
      | exact h.inClient (h.inWorld (h.pre.ofSame (tryFetchRoot_same _ _ _)))
      | exact h.ask _
      | exact ih _ _
      | exact h.act _

theorem sendMetadataTo (h : Closed env P) (c : Ctx) (p : Peers) (serial : String) (t : Target) : Preserves (devDb P) (sendMetadataTo c p serial t) := by
  unfold Aktualizr.sendMetadataTo rotateSecondaryRoot
  wpres h.devPre
  all_goals first
    | exact h.inClient (h.inWorld (h.pre.ofEq (loadLatestRoot_same _)))
    | exact h.ask _
    | exact h.rotateSecLoop _ _ _ _ _ _ _
    | exact h.act _

theorem sendMetadataLoop (h : Closed env P) (c : Ctx) (p : Peers) : ∀ l failed, Preserves (devDb P) (sendMetadataLoop c p l failed)
  | [], _ => .pure h.devPre
  | (t, s, hw) :: l, failed => by
    have ih := h.sendMetadataLoop c p l
    unfold Aktualizr.sendMetadataLoop
    wpres h.devPre
    all_goals first
      | exact ih _
      | exact h.sendMetadataTo _ _ _ _

theorem sendAll (h : Closed env P) (p : Peers) : ∀ l, Preserves (devDb P) (sendAll p l)
  | [] => .pure h.devPre
  | (t, s, hw) :: l => by
    have ih := h.sendAll p l
    unfold Aktualizr.sendAll sendFirmware
    wpres h.devPre
    all_goals first
      | exact h.ask _
      | exact h.act _

theorem recordAllResults (h : Closed env P) (e : Env) : ∀ l, Preserves (devDb P) (recordAllResults e l)
  | [] => .pure h.devPre
  | (t, s, r) :: l => by
    have ih := h.recordAllResults e l
    unfold Aktualizr.recordAllResults
    wpres h.devPre
    all_goals first
      | exact h.saveVersion _ _ _ _
      | exact h.inClient (h.saveEcuResult _ _)

theorem verifyAll (h : Closed env P) (p : Peers) : ∀ l, Preserves (devDb P) (verifyAll p l)
  | [] => .pure h.devPre
  | t :: l => by
    have ih := h.verifyAll p l
    unfold Aktualizr.verifyAll
    wpres h.devPre
    all_goals first
      | exact h.ask _
      | exact h.pre.refl _

theorem uptaneInstall (h : Closed env P) (c : Ctx) (p : Peers) (ts : List Target) : Preserves (devDb P) (uptaneInstall c p ts) := by
  unfold Aktualizr.uptaneInstall installBody installVerified waitSecondariesReachable sendMetadataToEcus installPrimary
    packageInstallSetResult sendImagesToEcus
  wpres h.devPre
  all_goals first
    | exact h.recheck _ _
    | exact h.ask _
    | exact h.verifyAll _ _
    | exact h.sendMetadataLoop _ _ _ _
    | exact h.sendAll _ _
    | exact h.recordAllResults _ _
    | exact h.saveVersion _ _ _ _
    | exact h.inClient (h.saveEcuResult _ _)
    | exact h.inClient (h.storeDeviceResult _ _ _)
    | exact h.act _

theorem confirmSecondary (h : Closed env P) (e : Env) (s : String) : Preserves (devDb P) (confirmSecondary e s) := by
  unfold Aktualizr.confirmSecondary
  wpres h.devPre
  all_goals first
    | exact h.saveVersion _ _ _ _
    | exact h.inClient (h.saveEcuResult _ _)
    | exact h.inClient (h.storeDeviceResult _ _ _)

theorem pendingSecondaryLoop (h : Closed env P) (e : Env) (p : Peers) : ∀ l, Preserves (devDb P) (pendingSecondaryLoop e p l)
  | [] => .pure h.devPre
  | (s, hash) :: l => by
    have ih := h.pendingSecondaryLoop e p l
    unfold Aktualizr.pendingSecondaryLoop
    wpres h.devPre
    all_goals first
      | exact h.ask _
      | exact h.confirmSecondary _ _

theorem checkPending (h : Closed env P) (e : Env) (p : Peers) : Preserves (devDb P) (checkAndUpdatePendingSecondaries e p) := by
  unfold checkAndUpdatePendingSecondaries
  wpres h.devPre
  exact h.pendingSecondaryLoop _ _ _

theorem secondaryManifests (h : Closed env P) (e : Env) (p : Peers) : ∀ l, Preserves (devDb P) (secondaryManifests e p l)
  | [] => .pure h.devPre
  | (s, _) :: l => by
    have ih := h.secondaryManifests e p l
    unfold Aktualizr.secondaryManifests obtainManifest storeCached
    wpres h.devPre
    all_goals first
      | exact h.ask _
      | exact h.inClient (h.cwrite (fun _ => rfl))
      | exact h.pre.refl _

theorem putManifestSimple (h : Closed env P) (e : Env) (p : Peers) : Preserves (devDb P) (putManifestSimple e p) := by
  unfold Aktualizr.putManifestSimple assembleManifest nextCounter assembleReport clearInstallationResults
  wpres h.devPre
  all_goals first
    | exact h.ask _
    | exact h.act _
    | exact h.secondaryManifests _ _ _
    | exact h.inClient (h.cwrite (fun _ => rfl))
    | exact h.inClient (h.inWorld (Director.dropTargets_pres h.pre h.drop))

theorem finalizeAfterReboot (h : Closed env P) (e : Env) (p : Peers) : Preserves (devDb P) (finalizeAfterReboot e p) := by
  unfold Aktualizr.finalizeAfterReboot
  wpres h.devPre
  all_goals first
    | exact h.ask _
    | exact h.act _
    | exact h.saveVersion _ _ _ _
    | exact h.inClient (h.saveEcuResult _ _)
    | exact h.inClient (h.storeDeviceResult _ _ _)
    | exact h.inClient (h.inWorld (Director.dropTargets_pres h.pre h.drop))
    | exact h.putManifestSimple _ _

theorem fetchMeta (h : Closed env P) (c : Ctx) (hc : c.env = env) (p : Peers) : Preserves (devDb P) (fetchMeta c p) := by
  unfold Aktualizr.fetchMeta
  wpres h.devPre
  all_goals first
    | exact h.checkPending _ _
    | exact h.putManifestSimple _ _
    | exact h.inClient (h.checkUpdates c hc)

theorem startUp (h : Closed env P) (e : Env) (p : Peers) (cfg : EcuConfig) (ok : Bool) : Preserves (devDb P) (startUp e p cfg ok) := by
  have hi : Preserves (clDb P) (initEcus cfg ok) := by
    unfold initEcus initReportCounter
    wpres h.clPre
    all_goals exact h.cwrite (fun _ => rfl)
  unfold Aktualizr.startUp
  wpres h.devPre
  all_goals first
    | exact h.inClient (h.cmodify (fun _ => rfl))
    | exact h.inClient hi
    | exact h.pre.refl _
    | exact h.finalizeAfterReboot _ _

theorem devCall (h : Closed env P) (c : Ctx) (hc : c.env = env) (p : Peers) (call : DevCall) : Preserves (devDb P) (call.run c p) := by
  cases call with
  | init cfg ok => exact h.startUp _ _ _ _
  | install ts => exact .bind h.devPre (h.uptaneInstall _ _ _) (fun _ => .pure h.devPre)
  | putManifest => exact .bind h.devPre (h.putManifestSimple _ _) (fun _ => .pure h.devPre)
  | fetchMeta => exact .bind h.devPre (h.fetchMeta _ hc _) (fun _ => .pure h.devPre)
  | checkUpdates => exact .bind h.devPre (h.inClient (h.checkUpdates _ hc)) (fun _ => .pure h.devPre)
  | checkPending => exact h.checkPending _ _
  | storeFailure r => exact h.inClient (h.storeInstallationFailure _)
  | setRaw raw => exact h.inClient (h.cwrite (fun _ => rfl))

theorem downloadEach (h : Closed env P) (f : Fetched) : ∀ ts, Preserves (devDb P) (downloadEach f ts)
  | [] => .pure h.devPre
  | t :: ts => by
    have ih := h.downloadEach f ts
    unfold Aktualizr.downloadEach
    wpres h.devPre
    exact h.ask _

theorem downloadImages (h : Closed env P) (c : Ctx) (f : Fetched) (ts : List Target) : Preserves (devDb P) (downloadImages c f ts) := by
  unfold Aktualizr.downloadImages downloadResult
  wpres h.devPre
  all_goals first
    | exact h.recheck _ _
    | exact h.inClient (h.storeInstallationFailure _)
    | exact h.downloadEach _ _

theorem uptaneCycle (h : Closed env P) (c : Ctx) (hc : c.env = env) (p : Peers) (f : Fetched) (force : Bool) :
    Preserves (devDb P) (uptaneCycle c p f force) := by
  unfold Aktualizr.uptaneCycle cycleDownload cycleInstall cycleEnd completionRequired
  wpres h.devPre
  all_goals first
    | exact h.fetchMeta _ hc _
    | exact h.downloadImages _ _ _
    | exact h.uptaneInstall _ _ _
    | exact h.putManifestSimple _ _

theorem devStep (h : Closed env P) (d : Dev) (e : DevEvent) : devDb P d (e.step env d) := by
  unfold DevEvent.step
  split
  swap_goal
  · exact h.pre.refl _
  have run := h.devCall { env := env, net := e.net, clock := e.clock } rfl e.peers e.call (e.start d)
  have start : (e.start d).cl.w.db = d.cl.w.db := by
    unfold DevEvent.start Dev.off boot
    split <;> rfl
  unfold devDb at run
  rw [start] at run
  split
  · next hx => rw [hx] at run; exact run
  · next hx => rw [hx] at run; exact run
  · next hx => rw [hx] at run; exact run

end Closed

end Aktualizr
