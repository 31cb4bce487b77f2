import Verif.Model.FsMigrate
import Verif.Lemmas.Monad

/-! What the parts of the migration do to the disk. -/

namespace Aktualizr.FsMig
open M

theorem fs_bind {α β : Type} (m : F α) (k : α → F β) (s : St) :
    (m >>= k) s = match m s with
      | (.ok a, s') => k a s'
      | (.error e, s') => (.error e, s') := by
  cases h : m s with
  | mk o s' =>
    cases o with
    | ok a => exact run_bind h
    | error e => exact run_bind_err h

/-- A part that only stores: the files stay, and if it gets through, `g` has happened to the
database; it gets through with `n` steps left if `ok` holds of the database. -/
structure Copies (m : F Unit) (g : Db → Db) (n : Nat) (ok : Db → Prop) : Prop where
  files : ∀ s, (m s).2.files = s.files
  present : ∀ s, (m s).2.present = s.present
  db : ∀ s, (m s).1 = .ok () → (m s).2.db = g s.db
  goes : ∀ s, ok s.db → n ≤ s.fuel → (m s).1 = .ok () ∧ s.fuel ≤ (m s).2.fuel + n
  needs : ∀ s, (m s).1 = .ok () → ok s.db

theorem Copies.pure : Copies (pure ()) id 0 (fun _ => True) :=
  ⟨fun _ => rfl, fun _ => rfl, fun _ _ => rfl, fun _ _ _ => ⟨rfl, Nat.le_refl _⟩, fun _ _ => trivial⟩

theorem Copies.store (g : Db → Db) : Copies (store g) g 1 (fun _ => True) := by
  refine ⟨?_, ?_, ?_, ?_, fun _ _ => trivial⟩
  all_goals intro s
  all_goals unfold FsMig.store step
  all_goals cases hf : s.fuel with
    | zero => simp
    | succ k => simp

theorem Copies.fail {e : Err} {g : Db → Db} {n : Nat} : Copies (M.throw e) g n (fun _ => False) :=
  ⟨fun _ => rfl, fun _ => rfl, fun _ h => by simp [M.throw] at h, fun _ h => h.elim, fun _ h => by simp [M.throw] at h⟩

theorem fs_bind_cases (m : F Unit) (k : Unit → F Unit) (s : St) :
    (∃ e s1, m s = (.error e, s1) ∧ (m >>= k) s = (.error e, s1)) ∨
      ∃ s1, m s = (.ok (), s1) ∧ (m >>= k) s = k () s1 := by
  cases h : m s with
  | mk o s1 =>
    cases o with
    | ok a => exact .inr ⟨s1, rfl, run_bind h⟩
    | error e => exact .inl ⟨e, s1, rfl, run_bind_err h⟩

theorem Copies.bind {m : F Unit} {k : Unit → F Unit} {g g' : Db → Db} {n n' : Nat} {ok ok' : Db → Prop}
    (hm : Copies m g n ok) (hk : Copies (k ()) g' n' ok') :
    Copies (m >>= k) (g' ∘ g) (n + n') (fun d => ok d ∧ ok' (g d)) := by
  refine ⟨?_, ?_, ?_, ?_, ?_⟩
  · intro s
    rcases fs_bind_cases m k s with ⟨e, s1, h, h'⟩ | ⟨s1, h, h'⟩
    · rw [h']; have := hm.files s; rw [h] at this; exact this
    · rw [h', hk.files s1]; have := hm.files s; rw [h] at this; exact this
  · intro s
    rcases fs_bind_cases m k s with ⟨e, s1, h, h'⟩ | ⟨s1, h, h'⟩
    · rw [h']; have := hm.present s; rw [h] at this; exact this
    · rw [h', hk.present s1]; have := hm.present s; rw [h] at this; exact this
  · intro s hs
    rcases fs_bind_cases m k s with ⟨e, s1, h, h'⟩ | ⟨s1, h, h'⟩
    · rw [h'] at hs; simp at hs
    · rw [h'] at hs ⊢
      have h1 : s1.db = g s.db := by have := hm.db s (by rw [h]); rw [h] at this; exact this
      rw [hk.db s1 hs, h1]
      rfl
  · rintro s ⟨ha, hb⟩ hn
    have h1 := hm.goes s ha (by omega)
    rcases fs_bind_cases m k s with ⟨e, s1, h, h'⟩ | ⟨s1, h, h'⟩
    · rw [h] at h1; simp at h1
    · have h2 : s1.db = g s.db := by have := hm.db s (by rw [h]); rw [h] at this; exact this
      rw [h] at h1
      have h3 : s.fuel ≤ s1.fuel + n := h1.2
      have h4 := hk.goes s1 (by rw [h2]; exact hb) (by omega)
      rw [h']
      exact ⟨h4.1, by omega⟩
  · intro s hs
    rcases fs_bind_cases m k s with ⟨e, s1, h, h'⟩ | ⟨s1, h, h'⟩
    · rw [h'] at hs; simp at hs
    · rw [h'] at hs
      have h1 : s1.db = g s.db := by have := hm.db s (by rw [h]); rw [h] at this; exact this
      have h2 := hk.needs s1 hs
      rw [h1] at h2
      exact ⟨hm.needs s (by rw [h]), h2⟩

theorem Copies.mono {m : F Unit} {g g' : Db → Db} {n n' : Nat} {ok ok' : Db → Prop} (h : Copies m g n ok)
    (hg : ∀ d, ok d → g d = g' d) (hn : n ≤ n') (hok : ∀ d, ok d ↔ ok' d) : Copies m g' n' ok' := by
  refine ⟨h.files, h.present, ?_, ?_, fun s hs => (hok _).1 (h.needs s hs)⟩
  · intro s hs
    rw [h.db s hs, hg _ (h.needs s hs)]
  · intro s hs hf
    have := h.goes s ((hok _).2 hs) (by omega)
    exact ⟨this.1, by omega⟩

/-- What is done with a value if there is one. -/
def onOk {α : Type} (x : Except Err α) (g : α → Db → Db) (d : Db) : Db := match x with
  | .ok a => g a d
  | .error _ => d

theorem Copies.lift {α : Type} {x : Except Err α} {k : α → F Unit} {g : α → Db → Db} {n : Nat} {ok : α → Db → Prop}
    (hk : ∀ a, x = .ok a → Copies (k a) (g a) n (ok a)) :
    Copies (M.lift x >>= k) (onOk x g) n
      (fun d => ∃ a, x = .ok a ∧ ok a d) := by
  cases x with
  | error e =>
    exact ⟨fun _ => rfl, fun _ => rfl, fun s h => by simp [fs_bind, M.lift] at h,
      fun s ⟨a, ha, _⟩ => by simp at ha, fun s h => by simp [fs_bind, M.lift] at h⟩
  | ok a =>
    have h := hk a rfl
    refine ⟨h.files, h.present, h.db, ?_, fun s hs => ⟨a, rfl, h.needs s hs⟩⟩
    rintro s ⟨a', ha, hok⟩ hn
    simp at ha
    subst ha
    exact h.goes s hok hn

/-! ## The parts -/

/-- What the parts store. -/
def gKeys (f : Files) (d : Db) : Db := match f.pub, f.priv with
  | some a, some b => { d with keys := some (a, b) }
  | _, _ => d

theorem copyKeys_spec (f : Files) : Copies (copyKeys f) (gKeys f) 1 (fun _ => True) := by
  unfold copyKeys gKeys
  cases f.pub <;> cases f.priv <;>
    first
      | exact Copies.store _
      | exact Copies.pure.mono (fun _ _ => rfl) (by omega) (fun _ => Iff.rfl)

def gCa (f : Files) (d : Db) : Db := match f.ca with
  | some c => { d with ca := some c }
  | none => d

theorem copyCa_spec (f : Files) : Copies (copyCa f) (gCa f) 1 (fun _ => True) := by
  unfold copyCa gCa
  cases f.ca <;>
    first
      | exact Copies.store _
      | exact Copies.pure.mono (fun _ _ => rfl) (by omega) (fun _ => Iff.rfl)

def gCert (f : Files) (d : Db) : Db := match f.cert with
  | some c => { d with cert := some c }
  | none => d

theorem copyCert_spec (f : Files) : Copies (copyCert f) (gCert f) 1 (fun _ => True) := by
  unfold copyCert gCert
  cases f.cert <;>
    first
      | exact Copies.store _
      | exact Copies.pure.mono (fun _ _ => rfl) (by omega) (fun _ => Iff.rfl)

def gPkey (f : Files) (d : Db) : Db := match f.pkey with
  | some c => { d with pkey := some c }
  | none => d

theorem copyPkey_spec (f : Files) : Copies (copyPkey f) (gPkey f) 1 (fun _ => True) := by
  unfold copyPkey gPkey
  cases f.pkey <;>
    first
      | exact Copies.store _
      | exact Copies.pure.mono (fun _ _ => rfl) (by omega) (fun _ => Iff.rfl)

def gDevice (f : Files) (d : Db) : Db := match f.deviceId with
  | some i => { d with device := some (i, false) }
  | none => d

theorem copyDeviceId_spec (f : Files) : Copies (copyDeviceId f) (gDevice f) 1 (fun _ => True) := by
  unfold copyDeviceId gDevice
  cases f.deviceId <;>
    first
      | exact Copies.store _
      | exact Copies.pure.mono (fun _ _ => rfl) (by omega) (fun _ => Iff.rfl)

def gSerials (hostname : String) (f : Files) (d : Db) : Db := match loadEcuSerials hostname f with
  | .ok (some l) => { d with vers := d.vers.storeEcuSerials l }
  | _ => d

theorem copySerials_spec (hostname : String) (f : Files) :
    Copies (copySerials hostname f) (gSerials hostname f) 1 (fun _ => ∃ l, loadEcuSerials hostname f = .ok l) := by
  unfold copySerials gSerials
  refine (Copies.lift (g := fun l d => match l with
    | none => d
    | some l => { d with vers := d.vers.storeEcuSerials l }) (n := 1) (ok := fun _ _ => True) ?_).mono ?_ (by omega) ?_
  · intro l _
    cases l with
    | none => exact Copies.pure.mono (fun _ _ => rfl) (by omega) (fun _ => Iff.rfl)
    | some l => exact Copies.store _
  · intro d _
    cases loadEcuSerials hostname f with
    | error e => rfl
    | ok l => cases l <;> rfl
  · intro d
    simp

def gRegistered (f : Files) (d : Db) : Db :=
  if f.registered then { d with device := d.device.map (fun p => (p.1, true)) } else d

theorem copyRegistered_spec (f : Files) :
    Copies (copyRegistered f) (gRegistered f) 1 (fun d => f.registered = true → d.device.isSome = true) := by
  unfold copyRegistered gRegistered
  by_cases h : f.registered = true
  · simp only [h, if_true, true_implies]
    have hs := Copies.store (fun d => { d with device := d.device.map (fun p => (p.1, true)) })
    have hrun : ∀ s : St, (do
        let d ← gets (fun s => s.db.device)
        throwWhen d.isNone (.std "Failed to set ECU registered because device info is empty.")
        store (fun d => { d with device := d.device.map (fun p => (p.1, true)) }) : F Unit) s =
        if s.db.device.isNone then
          (.error (.std "Failed to set ECU registered because device info is empty."), s)
        else store (fun d => { d with device := d.device.map (fun p => (p.1, true)) }) s := by
      intro s
      cases hd : s.db.device with
      | none => simp [fs_bind, gets, throwWhen, hd]
      | some p => simp [fs_bind, gets, throwWhen, hd]
    refine ⟨?_, ?_, ?_, ?_, ?_⟩
    · intro s
      rw [hrun]
      split
      · rfl
      · exact hs.files s
    · intro s
      rw [hrun]
      split
      · rfl
      · exact hs.present s
    · intro s
      rw [hrun]
      split
      · simp
      · exact hs.db s
    · intro s hd hn
      rw [hrun, if_neg (by cases hx : s.db.device with
        | none => rw [hx] at hd; simp at hd
        | some p => simp)]
      exact hs.goes s trivial hn
    · intro s
      rw [hrun]
      split
      · simp
      · rename_i hd
        intro _
        cases hx : s.db.device with
        | none => rw [hx] at hd; simp at hd
        | some p => rfl
  · simp only [h]
    exact Copies.pure.mono (fun _ _ => by simp) (by omega) (fun _ => by simp)

def gMisconfigured (l : List (String × String × Int)) (d : Db) : Db :=
  { d with misconfigured := l.foldl (fun t e => putMisconfigured e t) d.misconfigured }

theorem copyMisconfigured_spec (l : List (String × String × Int)) :
    Copies (copyMisconfigured l) (gMisconfigured l) l.length (fun _ => True) := by
  induction l with
  | nil => exact Copies.pure
  | cons e r ih =>
    unfold copyMisconfigured
    exact ((Copies.store _).bind ih).mono (fun d _ => rfl) (by simp; omega) (fun _ => by simp)

/-- The table after the loop over the versions from index `k`. -/
def gInst (env : Env) (current : Option Nat) : Nat → List Target → VersionDb → VersionDb
  | _, [], d => d
  | k, t :: ts, d => gInst env current (k + 1) ts (d.saveInstalledVersion env "" t (if current = some k then .current else .none))

theorem copyInstalled_spec (env : Env) (current : Option Nat) (ts : List Target) (k : Nat) :
    Copies (copyInstalled env current k ts) (fun d => { d with vers := gInst env current k ts d.vers }) ts.length
      (fun _ => True) := by
  induction ts generalizing k with
  | nil => exact Copies.pure
  | cons t ts ih =>
    unfold copyInstalled
    exact ((Copies.store _).bind (ih (k + 1))).mono (fun d _ => rfl) (by simp; omega) (fun _ => by simp)

def gNonRoot (f : Files) (repo : Repo) (role : RoleKind) (d : MetaDb) : MetaDb := match loadNonRoot f repo role with
  | some m => d.storeNonRoot m repo role
  | none => d

theorem copyNonRoot_spec (f : Files) (repo : Repo) (role : RoleKind) :
    Copies (copyNonRoot f repo role) (fun d => { d with metas := gNonRoot f repo role d.metas }) 1 (fun _ => True) := by
  unfold copyNonRoot gNonRoot
  cases loadNonRoot f repo role <;>
    first
      | exact Copies.store _
      | exact Copies.pure.mono (fun _ _ => rfl) (by omega) (fun _ => Iff.rfl)

def gNonRoots (f : Files) (d : MetaDb) : MetaDb :=
  gNonRoot f .image .timestamp (gNonRoot f .director .timestamp (gNonRoot f .image .targets
    (gNonRoot f .director .targets (gNonRoot f .image .snapshot (gNonRoot f .director .snapshot d)))))

theorem copyNonRoots_spec (f : Files) :
    Copies (copyNonRoots f) (fun d => { d with metas := gNonRoots f d.metas }) 6 (fun _ => True) := by
  unfold copyNonRoots
  exact ((copyNonRoot_spec f _ _).bind ((copyNonRoot_spec f _ _).bind ((copyNonRoot_spec f _ _).bind
    ((copyNonRoot_spec f _ _).bind ((copyNonRoot_spec f _ _).bind (copyNonRoot_spec f _ _)))))).mono
    (fun d _ => rfl) (by omega) (fun _ => by simp)

/-- The table after the loop over `n` versions from `v`. -/
def gChain (f : Files) (repo : Repo) : Nat → Int → MetaDb → MetaDb
  | 0, _, d => d
  | n + 1, v, d => gChain f repo n (v + 1) (match loadRoot f repo v with
    | some r => d.storeRoot r repo v
    | none => d)

theorem copyChain_spec (f : Files) (repo : Repo) (n : Nat) (v : Int) :
    Copies (copyChain f repo v n) (fun d => { d with metas := gChain f repo n v d.metas }) n (fun _ => True) := by
  induction n generalizing v with
  | zero => exact Copies.pure
  | succ n ih =>
    unfold copyChain
    cases h : loadRoot f repo v with
    | none =>
      exact (Copies.pure.bind (ih (v + 1))).mono (fun d _ => by simp [gChain, h]) (by omega) (fun _ => by simp)
    | some r =>
      exact ((Copies.store _).bind (ih (v + 1))).mono (fun d _ => by simp [gChain, h]) (by omega) (fun _ => by simp)

/-- How many versions are looked at. -/
def turns (env : Env) (f : Files) : Nat := match loadRoot f .director (-1) with
  | none => 0
  | some latest => match extractVersionUntrusted env latest with
    | .ok n => (n + 1).toNat
    | .error _ => 0

/-- The latest Root of the Director can be looked into. -/
def Readable (env : Env) (f : Files) : Prop :=
  ∀ latest, loadRoot f .director (-1) = some latest → ∃ n, extractVersionUntrusted env latest = .ok n

theorem copyRoots_spec (env : Env) (f : Files) (repo : Repo) :
    Copies (copyRoots env f repo) (fun d => { d with metas := gChain f repo (turns env f) 0 d.metas }) (turns env f)
      (fun _ => Readable env f) := by
  unfold copyRoots turns Readable
  cases h : loadRoot f .director (-1) with
  | none => exact Copies.pure.mono (fun _ _ => rfl) (Nat.le_refl 0) (fun _ => by simp)
  | some latest =>
    dsimp only
    have hl := Copies.lift (x := extractVersionUntrusted env latest)
      (k := fun n : Int => copyChain f repo 0 (n + 1).toNat)
      (g := fun (n : Int) d => { d with metas := gChain f repo (n + 1).toNat 0 d.metas })
      (ok := fun _ _ => True)
      (n := match extractVersionUntrusted env latest with
        | .ok n => (n + 1).toNat
        | .error _ => 0)
      (by
        intro a ha
        rw [ha]
        exact copyChain_spec f repo _ 0)
    refine hl.mono ?_ (Nat.le_refl _) ?_
    · rintro d ⟨n, hx, _⟩
      rw [hx]
      rfl
    · intro d
      simp

/-- Everything that is stored. -/
def gAll (env : Env) (hostname : String) (f : Files) (d : Db) : Db :=
  let d1 := gRegistered f (gSerials hostname f (gDevice f (gPkey f (gCert f (gCa f (gKeys f d))))))
  let d2 := gMisconfigured (loadMisconfigured env f) d1
  { d2 with
    vers := gInst env (loadInstalled env f).2 0 (loadInstalled env f).1 d2.vers,
    metas := gChain f .image (turns env f) 0 (gChain f .director (turns env f) 0 (gNonRoots f d2.metas)) }

theorem gSerials_device (hostname : String) (f : Files) (d : Db) : (gSerials hostname f d).device = d.device := by
  unfold gSerials
  split <;> rfl

theorem gPkey_device (f : Files) (d : Db) : (gPkey f d).device = d.device := by
  unfold gPkey
  split <;> rfl

theorem gCert_device (f : Files) (d : Db) : (gCert f d).device = d.device := by
  unfold gCert
  split <;> rfl

theorem gCa_device (f : Files) (d : Db) : (gCa f d).device = d.device := by
  unfold gCa
  split <;> rfl

theorem gKeys_device (f : Files) (d : Db) : (gKeys f d).device = d.device := by
  unfold gKeys
  split <;> rfl

/-- The number of steps of the copying part. -/
def copySteps (env : Env) (f : Files) : Nat :=
  13 + (loadMisconfigured env f).length + (loadInstalled env f).1.length + 2 * turns env f

theorem copyAll_spec (env : Env) (hostname : String) (f : Files) :
    Copies (copyAll env hostname f) (gAll env hostname f) (copySteps env f)
      (fun d => (∃ l, loadEcuSerials hostname f = .ok l) ∧
        (f.registered = true → (gDevice f d).device.isSome = true) ∧ Readable env f) := by
  unfold copyAll
  refine ((copyKeys_spec f).bind ((copyCa_spec f).bind ((copyCert_spec f).bind ((copyPkey_spec f).bind
    ((copyDeviceId_spec f).bind ((copySerials_spec hostname f).bind ((copyRegistered_spec f).bind
    ((copyMisconfigured_spec _).bind ((copyInstalled_spec env _ _ 0).bind ((copyNonRoots_spec f).bind
    ((copyRoots_spec env f .director).bind (copyRoots_spec env f .image)))))))))))).mono ?_ ?_ ?_
  · intro d _
    rfl
  · unfold copySteps
    omega
  · intro d
    simp only [gSerials_device, true_and, and_self]
    have h : (gDevice f (gPkey f (gCert f (gCa f (gKeys f d))))).device = (gDevice f d).device := by
      unfold gDevice
      cases f.deviceId with
      | some i => rfl
      | none => simp only [gPkey_device, gCert_device, gCa_device, gKeys_device]
    rw [h]

/-! ## Removing -/

theorem removeAll_run (gs : List (Files → Files)) (s : St) :
    (removeAll gs s).2.db = s.db ∧ (removeAll gs s).2.present = s.present ∧
      ((removeAll gs s).1 = .ok () → (removeAll gs s).2.files = gs.foldl (fun f g => g f) s.files) ∧
      (gs.length ≤ s.fuel → (removeAll gs s).1 = .ok ()) := by
  induction gs generalizing s with
  | nil => exact ⟨rfl, rfl, fun _ => rfl, fun _ => rfl⟩
  | cons g gs ih =>
    unfold removeAll
    rw [fs_bind]
    unfold change step
    cases hf : s.fuel with
    | zero => simp
    | succ k =>
      simp only
      have h := ih { s with fuel := k, files := g s.files }
      refine ⟨h.1, h.2.1, h.2.2.1, fun hn => h.2.2.2 ?_⟩
      simp at hn ⊢
      exact hn

end Aktualizr.FsMig
