import Verif.Lemmas.Roots
import Verif.Model.History

/-! Every call changes the database only through a few kinds of write. -/

namespace Aktualizr

open Spec M

theorem loadNonRoot_same (repo : Repo) (t : RoleKind) : Preserves Eq (loadNonRoot repo t) := fun w => readBlob_same _ w
theorem loadDelegationM_same (role : Role) : Preserves Eq (loadDelegationM role) := fun w => readBlob_same _ w
theorem fetchLatestRole_same (c : Ctx) (m : Int) (repo : Repo) (role : Role) :
    Preserves SameMem (fetchLatestRole c m repo role) := fetchRole_same c m repo role (-1)

/-- Relation on worlds induced by a relation on databases. -/
def onDb (P : MetaDb → MetaDb → Prop) (w w' : World) : Prop := P w.db w'.db

/-- Preorder on databases. -/
structure DbPre (P : MetaDb → MetaDb → Prop) : Prop where
  refl : ∀ d, P d d
  trans : ∀ a b c, P a b → P b c → P a c

theorem DbPre.isPre {P : MetaDb → MetaDb → Prop} (h : DbPre P) : IsPre (onDb P) :=
  ⟨fun w => h.refl w.db, fun a b c => h.trans a.db b.db c.db⟩

variable {P : MetaDb → MetaDb → Prop}

theorem DbPre.ofSame (h : DbPre P) {α : Type} {m : U α} (hm : Preserves SameMem m) : Preserves (onDb P) m := by
  intro w
  have := (hm w).1
  unfold onDb
  rw [this]
  exact h.refl _

theorem DbPre.ofSameDb (h : DbPre P) {α : Type} {m : U α} (hm : Preserves SameDb m) : Preserves (onDb P) m := by
  intro w
  have := hm w
  unfold onDb
  rw [this]
  exact h.refl _

theorem DbPre.ofEq (h : DbPre P) {α : Type} {m : U α} (hm : Preserves Eq m) : Preserves (onDb P) m := by
  intro w
  rw [← hm w]
  exact h.refl _

theorem DbPre.write (h : DbPre P) {f : MetaDb → MetaDb} (hf : ∀ d, P d (f d)) : Preserves (onDb P) (write f) := by
  intro w
  unfold Aktualizr.write
  split
  · exact h.refl _
  · exact hf _

theorem DbPre.modify (h : DbPre P) {f : World → World} (hf : ∀ w, (f w).db = w.db) : Preserves (onDb P) (M.modify f) := by
  intro w
  show P w.db (f w).db
  rw [hf]
  exact h.refl _

/-- One step of a preservation proof: `hP : DbPre P`. -/
macro "pres_step" h:term : tactic => `(tactic| with_reducible first
  | assumption
  | exact Preserves.pure (DbPre.isPre $h)
  | exact Preserves.throw (DbPre.isPre $h)
  | exact Preserves.lift (DbPre.isPre $h)
  | exact Preserves.gets (DbPre.isPre $h)
  | exact Preserves.throwWhen (DbPre.isPre $h)
  | exact Preserves.orThrow (DbPre.isPre $h)
  | exact DbPre.ofSame $h (fetchRole_same _ _ _ _ _)
  | exact DbPre.ofSame $h (fetchLatestRole_same _ _ _ _)
  | exact DbPre.ofSame $h (now_same _)
  | exact DbPre.ofEq $h (loadLatestRoot_same _)
  | exact DbPre.ofEq $h (loadNonRoot_same _ _)
  | exact DbPre.ofEq $h (loadDelegationM_same _)
  | (refine DbPre.modify $h (fun w => ?_); first | rfl | exact setRoot_db _ _ _ | (split <;> rfl))
  | refine Preserves.bind (DbPre.isPre $h) ?_ (fun _ => ?_)
  | refine Preserves.map ?_
  | refine Preserves.catchStd (DbPre.isPre $h) ?_ (fun _ => ?_)
  | refine Preserves.catchUpt (DbPre.isPre $h) ?_ (fun _ => ?_)
  | split)

macro "pres" h:term : tactic => `(tactic| repeat' pres_step $h)

theorem initRoot_pres (hP : DbPre P) (c : Ctx) (repo : Repo) (raw : String) : Preserves (onDb P) (initRoot c repo raw) := by
  unfold initRoot; pres hP

theorem verifyRoot_pres (hP : DbPre P) (c : Ctx) (repo : Repo) (raw : String) : Preserves (onDb P) (verifyRoot c repo raw) := by
  unfold verifyRoot; pres hP

theorem checkRootExpired_pres (hP : DbPre P) (c : Ctx) (repo : Repo) : Preserves (onDb P) (checkRootExpired c repo) := by
  unfold checkRootExpired; pres hP

theorem rotateLoop_pres (hP : DbPre P) (c : Ctx) (repo : Repo)
    (hs : ∀ d raw v, P d (d.storeRoot raw repo v)) (hc : ∀ d, P d (d.clearNonRoot repo)) :
    ∀ n v, Preserves (onDb P) (rotateLoop c repo n v)
  | 0, v => by unfold rotateLoop; pres hP
  | n + 1, v => by
    have ih := rotateLoop_pres hP c repo hs hc n
    unfold rotateLoop tryFetchRoot
    pres hP
    · exact verifyRoot_pres hP c repo _
    · exact hP.write (fun d => hs d _ _)
    · exact hP.write hc
    · exact ih _

theorem updateRoot_pres (hP : DbPre P) (c : Ctx) (repo : Repo)
    (hs : ∀ d raw v, P d (d.storeRoot raw repo v)) (hc : ∀ d, P d (d.clearNonRoot repo)) :
    Preserves (onDb P) (updateRoot c repo) := by
  have h1 := rotateLoop_pres hP c repo hs hc
  unfold updateRoot loadOrFetchRoot
  pres hP
  · exact initRoot_pres hP c repo _
  · exact initRoot_pres hP c repo _
  · exact hP.write (fun d => hs d _ _)
  · exact h1 _ _
  · exact checkRootExpired_pres hP c repo

namespace Director

theorem verifyTargets_pres (hP : DbPre P) (c : Ctx) (raw : String) : Preserves (onDb P) (verifyTargets c raw) := by
  unfold verifyTargets; pres hP

theorem checkTargetsExpired_pres (hP : DbPre P) (c : Ctx) : Preserves (onDb P) (checkTargetsExpired c) := by
  unfold checkTargetsExpired; pres hP

theorem targetsSanityCheck_pres (hP : DbPre P) : Preserves (onDb P) targetsSanityCheck := by
  unfold targetsSanityCheck; pres hP

theorem resetMeta_pres (hP : DbPre P) : Preserves (onDb P) resetMeta := by
  unfold resetMeta; pres hP

theorem checkMetaOffline_pres (hP : DbPre P) (c : Ctx) : Preserves (onDb P) (checkMetaOffline c) := by
  unfold checkMetaOffline
  pres hP
  · exact resetMeta_pres hP
  · exact initRoot_pres hP c _ _
  · exact checkRootExpired_pres hP c _
  · exact verifyTargets_pres hP c _
  · exact checkTargetsExpired_pres hP c
  · exact targetsSanityCheck_pres hP

theorem loadStoredTargets_pres (hP : DbPre P) (c : Ctx) : Preserves (onDb P) (loadStoredTargets c) := by
  unfold loadStoredTargets
  pres hP
  exact verifyTargets_pres hP c _

theorem updateMeta_pres (hP : DbPre P) (c : Ctx) (hr : Preserves (onDb P) (updateRoot c .director))
    (ht : ∀ d raw, P d (d.storeNonRoot raw .director .targets)) : Preserves (onDb P) (updateMeta c) := by
  unfold updateMeta compareAndStore
  pres hP
  · exact resetMeta_pres hP
  · exact loadStoredTargets_pres hP c
  · exact verifyTargets_pres hP c _
  · exact hP.write (fun d => ht d _)
  · exact checkTargetsExpired_pres hP c
  · exact targetsSanityCheck_pres hP

theorem dropTargets_pres (hP : DbPre P) (hc : ∀ d, P d (d.clearNonRoot .director)) : Preserves (onDb P) dropTargets := by
  unfold dropTargets
  pres hP
  · exact hP.write hc
  · exact resetMeta_pres hP

end Director

namespace Image

theorem resetMeta_pres (hP : DbPre P) : Preserves (onDb P) resetMeta := by
  unfold resetMeta; pres hP

theorem verifyTimestamp_pres (hP : DbPre P) (c : Ctx) (raw : String) : Preserves (onDb P) (verifyTimestamp c raw) := by
  unfold verifyTimestamp; pres hP

theorem checkTimestampExpired_pres (hP : DbPre P) (c : Ctx) : Preserves (onDb P) (checkTimestampExpired c) := by
  unfold checkTimestampExpired; pres hP

theorem verifySnapshot_pres (hP : DbPre P) (c : Ctx) (raw : String) : Preserves (onDb P) (verifySnapshot c raw) := by
  unfold verifySnapshot; pres hP

theorem checkSnapshotExpired_pres (hP : DbPre P) (c : Ctx) : Preserves (onDb P) (checkSnapshotExpired c) := by
  unfold checkSnapshotExpired; pres hP

theorem verifyTargets_pres (hP : DbPre P) (c : Ctx) (raw : String) : Preserves (onDb P) (verifyTargets c raw) := by
  unfold verifyTargets; pres hP

theorem checkTargetsExpired_pres (hP : DbPre P) (c : Ctx) : Preserves (onDb P) (checkTargetsExpired c) := by
  unfold checkTargetsExpired; pres hP

theorem compareAndStore_pres (hP : DbPre P) (a b : Int) (raw : String) (t : RoleKind)
    (h : ∀ d, P d (d.storeNonRoot raw .image t)) : Preserves (onDb P) (compareAndStore a b raw t) := by
  unfold compareAndStore
  pres hP
  exact hP.write h

theorem updateTimestamp_pres (hP : DbPre P) (c : Ctx) (h : ∀ d raw, P d (d.storeNonRoot raw .image .timestamp)) :
    Preserves (onDb P) (updateTimestamp c) := by
  unfold updateTimestamp
  pres hP
  · exact verifyTimestamp_pres hP c _
  · exact compareAndStore_pres hP _ _ _ _ (fun d => h d _)
  · exact checkTimestampExpired_pres hP c

theorem updateSnapshot_pres (hP : DbPre P) (c : Ctx) (h : ∀ d raw, P d (d.storeNonRoot raw .image .snapshot)) :
    Preserves (onDb P) (updateSnapshot c) := by
  unfold updateSnapshot tryStoredSnapshot fetchSnapshot
  pres hP
  · exact verifySnapshot_pres hP c _
  · exact verifySnapshot_pres hP c _
  · exact compareAndStore_pres hP _ _ _ _ (fun d => h d _)
  · exact checkSnapshotExpired_pres hP c
  · exact checkSnapshotExpired_pres hP c

theorem updateTargets_pres (hP : DbPre P) (c : Ctx) (h : ∀ d raw, P d (d.storeNonRoot raw .image .targets)) :
    Preserves (onDb P) (updateTargets c) := by
  unfold updateTargets tryStoredTargets fetchTargets
  pres hP
  · exact verifyTargets_pres hP c _
  · exact verifyTargets_pres hP c _
  · exact compareAndStore_pres hP _ _ _ _ (fun d => h d _)
  · exact checkTargetsExpired_pres hP c
  · exact checkTargetsExpired_pres hP c

theorem updateMeta_pres (hP : DbPre P) (c : Ctx) (hr : Preserves (onDb P) (updateRoot c .image))
    (h : ∀ d raw t, t ≠ .root → P d (d.storeNonRoot raw .image t)) : Preserves (onDb P) (updateMeta c) := by
  unfold updateMeta
  pres hP
  · exact resetMeta_pres hP
  · exact updateTimestamp_pres hP c (fun d raw => h d raw _ (by decide))
  · exact updateSnapshot_pres hP c (fun d raw => h d raw _ (by decide))
  · exact updateTargets_pres hP c (fun d raw => h d raw _ (by decide))

theorem checkMetaOffline_pres (hP : DbPre P) (c : Ctx) : Preserves (onDb P) (checkMetaOffline c) := by
  unfold checkMetaOffline
  pres hP
  · exact resetMeta_pres hP
  · exact initRoot_pres hP c _ _
  · exact checkRootExpired_pres hP c _
  · exact verifyTimestamp_pres hP c _
  · exact checkTimestampExpired_pres hP c
  · exact verifySnapshot_pres hP c _
  · exact checkSnapshotExpired_pres hP c
  · exact verifyTargets_pres hP c _
  · exact checkTargetsExpired_pres hP c

end Image

namespace Delegation

theorem getTrusted_pres (hP : DbPre P) (c : Ctx) (role : Role) (parent : Targets) (offline : Bool)
    (hs : ∀ d raw n, P d (d.storeDelegation raw n)) (hd : ∀ d n, P d (d.deleteDelegation n)) :
    Preserves (onDb P) (getTrusted c role parent offline) := by
  unfold getTrusted stored fetch checkHashes
  pres hP
  · exact hP.write (fun d => hd d _)
  · exact hP.write (fun d => hs d _ _)

theorem searchNames_pres (hP : DbPre P) (c : Ctx) (q : Target) (offline : Bool) (cur : Targets)
    (sub : Targets → Bool → U (Option Target)) (hsub : ∀ a b, Preserves (onDb P) (sub a b))
    (hs : ∀ d raw n, P d (d.storeDelegation raw n)) (hd : ∀ d n, P d (d.deleteDelegation n)) :
    ∀ names, Preserves (onDb P) (searchNames c q offline cur sub names)
  | [] => by unfold searchNames; pres hP
  | n :: names => by
    have ih := searchNames_pres hP c q offline cur sub hsub hs hd names
    unfold searchNames
    pres hP
    · exact getTrusted_pres hP c _ _ _ hs hd
    · exact hsub _ _

theorem findTarget_pres (hP : DbPre P) (c : Ctx) (q : Target) (offline : Bool)
    (hs : ∀ d raw n, P d (d.storeDelegation raw n)) (hd : ∀ d n, P d (d.deleteDelegation n)) :
    ∀ n cur term, Preserves (onDb P) (findTarget c q offline n cur term)
  | 0, cur, term => by unfold findTarget; pres hP
  | n + 1, cur, term => by
    have ih := findTarget_pres hP c q offline hs hd n
    unfold findTarget
    pres hP
    exact searchNames_pres hP c q offline cur _ ih hs hd _

theorem findInTree_pres (hP : DbPre P) (c : Ctx) (q : Target) (offline : Bool)
    (hs : ∀ d raw n, P d (d.storeDelegation raw n)) (hd : ∀ d n, P d (d.deleteDelegation n)) :
    Preserves (onDb P) (findInTree c q offline) := by
  unfold findInTree
  pres hP
  exact findTarget_pres hP c q offline hs hd _ _ _

end Delegation

/-- `P` allows every write the client makes, where the two `updateRoot`s are taken as wholes. -/
structure Closed (env : Env) (P : MetaDb → MetaDb → Prop) : Prop where
  pre : DbPre P
  root : ∀ c : Ctx, c.env = env → ∀ repo, Preserves (onDb P) (updateRoot c repo)
  directorTargets : ∀ d raw, P d (d.storeNonRoot raw .director .targets)
  image : ∀ d raw t, t ≠ .root → P d (d.storeNonRoot raw .image t)
  drop : ∀ d, P d (d.clearNonRoot .director)
  storeDelegation : ∀ d raw n, P d (d.storeDelegation raw n)
  deleteDelegation : ∀ d n, P d (d.deleteDelegation n)

theorem Closed.run {env : Env} (h : Closed env P) (c : Ctx) (hc : c.env = env) (call : Call) :
    Preserves (onDb P) (call.run c) := by
  cases call with
  | updateDirector => exact Director.updateMeta_pres h.pre c (h.root c hc _) h.directorTargets
  | updateImage => exact Image.updateMeta_pres h.pre c (h.root c hc _) h.image
  | offlineDirector => exact Director.checkMetaOffline_pres h.pre c
  | offlineImage => exact Image.checkMetaOffline_pres h.pre c
  | dropTargets => exact Director.dropTargets_pres h.pre h.drop
  | find q offline =>
    unfold Call.run
    have := Delegation.findInTree_pres h.pre c q offline h.storeDelegation h.deleteDelegation
    have hP := h.pre
    pres hP
  | restart => exact fun w => h.pre.refl _

theorem step_db (env : Env) (w : World) (e : Event) : (e.step env w).db = (e.exec env w).2.db := by
  unfold Event.step
  split <;> (rename_i h; rw [h])
  · rfl
  · rfl

theorem Closed.history {env : Env} (h : Closed env P) (w : World) (es : List Event) :
    P w.db (runHistory env w es).db := by
  induction es generalizing w with
  | nil => exact h.pre.refl _
  | cons e es ih =>
    refine h.pre.trans _ _ _ ?_ (ih (e.step env w))
    rw [step_db]
    exact h.run { env := env, net := e.net, clock := e.clock } rfl e.call { w with tick := 0, fuel := e.fuel }

end Aktualizr
