import Verif.Model.Managed
import Verif.Lemmas.Honest
import Verif.Props.C25
import Verif.Props.C62

/-!
# C64 Virtual Secondaries keep their identity, report what they hold, check what they are given

The model is `Model/Managed.lean`.
-/

namespace Aktualizr.Managed

open M Spec
open Ip (Bundle)
open Sec (Bytes)

/-! ### Specification -/

namespace Spec

/-- The keys in the files. -/
def OnDisk (s : St) (pub priv : String) : Prop := s.disk.pub = some pub ∧ s.disk.priv = some priv

/-- No write is cut short: the disk is never full. -/
def Roomy (s : St) : Prop := ∀ n, s.kept n = none

/-- The key generator gives keys of the configured type, and the public key verifies what was signed
with the private key. -/
def SoundKeys (c : Cfg) : Prop :=
  ∀ seed pub priv, c.signing.generate seed = some (pub, priv) →
    c.keyType ∈ [KeyType.rsa2048, .rsa3072, .rsa4096] ∧ c.env.rsaType pub = c.keyType ∧
    ∀ m, c.env.rsaVerify pub (c.signing.sign priv m) m = true

/-- The process is not started in these operations. -/
def Op.isStart : Op → Bool
  | .start _ _ => true
  | _ => false

/-- Nothing is installed in these operations. -/
def Op.isInstall : Op → Bool
  | .install _ _ _ => true
  | _ => false

/-- The manifest names image, digest, length, and the attack noticed. -/
structure Discloses (j : Json) (serial name sha : String) (length : Int) (attack : String) : Prop where
  serial : At j ["signed", "ecu_serial"] (.str serial)
  name : At j ["signed", "installed_image", "filepath"] (.str name)
  sha : At j ["signed", "installed_image", "fileinfo", "hashes", "sha256"] (.str sha)
  length : At j ["signed", "installed_image", "fileinfo", "length"] (.int length)
  attack : At j ["signed", "attacks_detected"] (.str attack)

/-- The serial is the configured one, or else the id of the key. -/
def Names (c : Cfg) (pub : PublicKey) (serial : String) : Prop :=
  (c.serial ≠ "" → serial = c.serial) ∧ (c.serial = "" → serial = c.signing.keyId pub)

/-- The six documents can be read. -/
structure Readable (env : Env) (b : Bundle) (r : Root) (ts : Targets) : Prop where
  directorRoot : ReadsAsRoot env b.directorRoot r
  directorTargets : ReadsAsTargets env b.directorTargets ts
  imageRoot : ∃ r, ReadsAsRoot env b.imageRoot r
  imageTimestamp : timestampOfJson (env.parseJson b.imageTimestamp) = .ok ()
  imageSnapshot : snapshotOfJson (env.parseJson b.imageSnapshot) = .ok ()
  imageTargets : ∃ ts, ReadsAsTargets env b.imageTargets ts

end Spec

open Spec

/-! ### Running -/

section
variable {σ α β : Type}
theorem run_gets {f : σ → α} {g : α → M σ β} {w : σ} : (gets f >>= g) w = g (f w) w := rfl
theorem run_modify {f : σ → σ} {g : Unit → M σ β} {w : σ} : (M.modify f >>= g) w = g () (f w) := rfl
theorem run_lift {a : α} {g : α → M σ β} {w : σ} : (lift (.ok a) >>= g) w = g a w := rfl
theorem run_lift_err {e : Err} {g : α → M σ β} {w : σ} : (lift (.error e) >>= g) w = (.error e, w) := rfl
theorem run_some {a : α} {e : Err} {g : α → M σ β} {w : σ} : (orThrow (some a) e >>= g) w = g a w := rfl
theorem run_none {e : Err} {g : α → M σ β} {w : σ} : (orThrow none e >>= g) w = (.error e, w) := rfl
end

theorem writeFile_zero {set : Option String → Disk → Disk} {t : String} {s : St} (h : s.left = 0) :
    writeFile set t s = (.error .crash, { s with writes := s.writes + 1 }) := by
  unfold writeFile
  rw [run_gets, run_modify]
  unfold effect
  simp only [h]

theorem writeFile_succ {set : Option String → Disk → Disk} {t : String} {s : St} {k : Nat} (h : s.left = k + 1) :
    writeFile set t s = (.ok (), { s with writes := s.writes + 1, left := k, disk := set (some (part (s.kept s.writes) t)) s.disk }) := by
  unfold writeFile
  rw [run_gets, run_modify]
  unfold effect
  simp only [h]

/-! ### What the operations change -/

/-- Only memory other than the keys changes. -/
structure Calm (s s' : St) : Prop where
  disk : s'.disk = s.disk
  priv : s'.priv = s.priv
  pub : s'.pub = s.pub
  kept : s'.kept = s.kept

theorem calm_pre : IsPre Calm :=
  ⟨fun _ => ⟨rfl, rfl, rfl, rfl⟩, fun _ _ _ h1 h2 => ⟨h2.disk.trans h1.disk, h2.priv.trans h1.priv, h2.pub.trans h1.pub, h2.kept.trans h1.kept⟩⟩

theorem rawToMeta_calm (env : Env) (b : Bundle) : Preserves Calm (rawToMeta env b) := by
  unfold rawToMeta
  repeat' first
    | exact Preserves.pure calm_pre
    | exact Preserves.lift calm_pre
    | exact Preserves.modify (fun _ => ⟨rfl, rfl, rfl, rfl⟩)
    | refine Preserves.bind calm_pre ?_ (fun _ => ?_)

theorem putMetadata_calm (env : Env) (b : Option Bundle) : Preserves Calm (putMetadata env b) := by
  unfold putMetadata
  cases b with
  | none => exact Preserves.pure calm_pre
  | some b =>
    repeat' first
      | exact rawToMeta_calm env b
      | exact Preserves.pure calm_pre
      | exact Preserves.lift calm_pre
      | exact Preserves.gets calm_pre
      | exact Preserves.modify (fun _ => ⟨rfl, rfl, rfl, rfl⟩)
      | refine Preserves.bind calm_pre ?_ (fun _ => ?_)
      | split

theorem takeRoot_calm {d : Bool} {j : Json} {r : Root} (s : St) : Calm s (takeRoot d j r s) := by
  unfold takeRoot
  dsimp only
  split
  · split <;> exact ⟨rfl, rfl, rfl, rfl⟩
  · exact ⟨rfl, rfl, rfl, rfl⟩

theorem putRoot_calm (env : Env) (raw : String) (d : Bool) : Preserves Calm (putRoot env raw d) := by
  unfold putRoot
  repeat' first
    | exact Preserves.pure calm_pre
    | exact Preserves.lift calm_pre
    | exact Preserves.gets calm_pre
    | exact Preserves.throwWhen calm_pre
    | exact Preserves.modify (fun s => takeRoot_calm s)
    | refine Preserves.bind calm_pre ?_ (fun _ => ?_)
    | split

/-- The keys are left alone. -/
structure SameKeys (s s' : St) : Prop where
  diskPriv : s'.disk.priv = s.disk.priv
  diskPub : s'.disk.pub = s.disk.pub
  priv : s'.priv = s.priv
  pub : s'.pub = s.pub
  kept : s'.kept = s.kept

theorem sameKeys_pre : IsPre SameKeys :=
  ⟨fun _ => ⟨rfl, rfl, rfl, rfl, rfl⟩, fun _ _ _ h1 h2 => ⟨h2.diskPriv.trans h1.diskPriv, h2.diskPub.trans h1.diskPub,
    h2.priv.trans h1.priv, h2.pub.trans h1.pub, h2.kept.trans h1.kept⟩⟩

theorem Calm.sameKeys {s s' : St} (h : Calm s s') : SameKeys s s' := ⟨by rw [h.disk], by rw [h.disk], h.priv, h.pub, h.kept⟩

theorem effect_pres {R : St → St → Prop} {f : Disk → Disk} (h0 : ∀ s, R s s) (h : ∀ s k, R s { s with left := k, disk := f s.disk }) :
    Preserves R (effect f) := fun s => by
  unfold effect
  split
  · exact h0 s
  · exact h s _

theorem install_sameKeys (name : String) (image : Option Bytes) : Preserves SameKeys (install name image) := by
  unfold install writeFile
  repeat' first
    | exact Preserves.pure sameKeys_pre
    | exact Preserves.orThrow sameKeys_pre
    | exact Preserves.gets sameKeys_pre
    | exact effect_pres sameKeys_pre.1 (fun _ _ => ⟨rfl, rfl, rfl, rfl, rfl⟩)
    | exact Preserves.modify (fun _ => ⟨rfl, rfl, rfl, rfl, rfl⟩)
    | refine Preserves.bind sameKeys_pre ?_ (fun _ => ?_)

/-- The image and its name are left alone. -/
structure SameImage (s s' : St) : Prop where
  name : s'.disk.name = s.disk.name
  firmware : s'.disk.firmware = s.disk.firmware
  kept : s'.kept = s.kept

theorem sameImage_pre : IsPre SameImage :=
  ⟨fun _ => ⟨rfl, rfl, rfl⟩, fun _ _ _ h1 h2 => ⟨h2.name.trans h1.name, h2.firmware.trans h1.firmware, h2.kept.trans h1.kept⟩⟩

theorem Calm.sameImage {s s' : St} (h : Calm s s') : SameImage s s' := ⟨by rw [h.disk], by rw [h.disk], h.kept⟩

theorem start_sameImage (c : Cfg) (seed : Nat) : Preserves SameImage (start c seed) := by
  unfold start storeKeys writeFile
  repeat' first
    | exact Preserves.pure sameImage_pre
    | exact Preserves.lift sameImage_pre
    | exact Preserves.orThrow sameImage_pre
    | exact Preserves.gets sameImage_pre
    | exact effect_pres sameImage_pre.1 (fun _ _ => ⟨rfl, rfl, rfl⟩)
    | exact Preserves.modify (fun _ => ⟨rfl, rfl, rfl⟩)
    | refine Preserves.bind sameImage_pre ?_ (fun _ => ?_)

/-! ### Starting -/

/-- Storing keys on a roomy disk. -/
theorem storeKeys_cases {pub priv : String} {s s' : St} {o : Except Err Unit} (hk : Roomy s) (h : storeKeys pub priv s = (o, s')) :
    s'.pub = s.pub ∧ s'.priv = s.priv ∧ s'.kept = s.kept ∧
    ((o = .error .crash ∧ s'.disk = s.disk) ∨ (o = .error .crash ∧ s'.disk = { s.disk with priv := some priv }) ∨
     (o = .ok () ∧ s'.disk = { s.disk with priv := some priv, pub := some pub })) := by
  unfold storeKeys at h
  have hp : ∀ n t, part (s.kept n) t = t := fun n t => by rw [hk n]; rfl
  cases hl : s.left with
  | zero =>
    rw [run_bind_err (writeFile_zero hl)] at h
    cases h
    exact ⟨rfl, rfl, rfl, .inl ⟨rfl, rfl⟩⟩
  | succ k =>
    rw [run_bind (writeFile_succ hl), hp] at h
    cases k with
    | zero =>
      rw [writeFile_zero rfl] at h
      cases h
      exact ⟨rfl, rfl, rfl, .inr (.inl ⟨rfl, rfl⟩)⟩
    | succ k =>
      rw [writeFile_succ rfl] at h
      cases h
      refine ⟨rfl, rfl, rfl, .inr (.inr ⟨rfl, ?_⟩)⟩
      show ({ s.disk with priv := _, pub := some (part (s.kept _) pub) } : Disk) = _
      rw [hp]

/-- Storing keys works if the process lives long enough. -/
theorem storeKeys_run {pub priv : String} {s : St} (hl : 2 ≤ s.left) : (storeKeys pub priv s).1 = .ok () := by
  obtain ⟨k, hk⟩ : ∃ k, s.left = k + 2 := ⟨s.left - 2, by omega⟩
  unfold storeKeys
  rw [run_bind (writeFile_succ hk), writeFile_succ rfl]

/-- The keys a start uses. -/
def chosen (c : Cfg) (seed : Nat) (d : Disk) : Option (String × String) :=
  match loadKeys d with
  | some k => some k
  | none => c.signing.generate seed

/-- A start: it takes the keys in the files, or new ones, and files them. -/
theorem start_cases {c : Cfg} {seed : Nat} {s s' : St} {o : Except Err Unit} (hk : Roomy s) (h : start c seed s = (o, s')) :
    s'.kept = s.kept ∧
    ((s'.disk = s.disk ∧ ∃ e, o = .error e) ∨
     ∃ pub priv, chosen c seed s.disk = some (pub, priv) ∧ makeKey c.env pub c.keyType = .ok ⟨pub, c.keyType⟩ ∧ s'.pub = ⟨pub, c.keyType⟩ ∧ s'.priv = priv ∧
      ((o = .error .crash ∧ s'.disk = s.disk) ∨ (o = .error .crash ∧ s'.disk = { s.disk with priv := some priv }) ∨
       (o = .ok () ∧ s'.disk = { s.disk with priv := some priv, pub := some pub }))) := by
  unfold start at h
  rw [run_modify, run_gets] at h
  change (orThrow (chosen c seed s.disk) _ >>= _) _ = _ at h
  cases hc : chosen c seed s.disk with
  | none =>
    rw [hc, run_none] at h
    cases h
    exact ⟨rfl, .inl ⟨rfl, _, rfl⟩⟩
  | some keys =>
    rw [hc, run_some] at h
    cases hm : makeKey c.env keys.1 c.keyType with
    | error e =>
      rw [hm, run_lift_err] at h
      cases h
      exact ⟨rfl, .inl ⟨rfl, _, rfl⟩⟩
    | ok key =>
      rw [hm, run_lift, run_modify] at h
      have hkey : key = ⟨keys.1, c.keyType⟩ := by
        unfold makeKey at hm
        split at hm
        · cases hm
        · exact (Except.ok.inj hm).symm
      obtain ⟨h1, h2, h3, h4⟩ := (fun hk => storeKeys_cases hk h) hk
      refine ⟨h3, .inr ⟨keys.1, keys.2, rfl, by rw [hm, hkey], by rw [h1]; exact hkey, h2, h4⟩⟩

/-- A start works if there are keys of the right type and the process lives. -/
theorem start_run {c : Cfg} {seed : Nat} {s : St} {pub priv : String} (hl : 2 ≤ s.left) (hc : chosen c seed s.disk = some (pub, priv))
    (hm : makeKey c.env pub c.keyType = .ok ⟨pub, c.keyType⟩) : (start c seed s).1 = .ok () := by
  unfold start
  rw [run_modify, run_gets]
  change ((orThrow (chosen c seed s.disk) _ >>= _) _).1 = _
  rw [hc, run_some]
  show ((lift (makeKey c.env pub c.keyType) >>= _) _).1 = _
  rw [hm, run_lift, run_modify]
  exact storeKeys_run hl

/-! ### Lives -/

theorem life_append (c : Cfg) : ∀ (os os' : List Op) (s : St), life c s (os ++ os') = life c (life c s os) os'
  | [], _, _ => rfl
  | _ :: os, os', _ => life_append c os os' _

theorem op_install {c : Cfg} {n : String} {i : Option Bytes} {fuel : Nat} {s : St} :
    ((Op.install n i fuel).run c s).2 = (install n i { s with left := fuel }).2 := by
  simp only [Op.run]
  rw [run_modify]
  cases h : install n i { s with left := fuel } with
  | mk o s' =>
    cases o with
    | ok a => rw [run_bind h]; rfl
    | error e => rw [run_bind_err h]

theorem op_putMetadata {c : Cfg} {b : Option Bundle} {s : St} : ((Op.putMetadata b).run c s).2 = (putMetadata c.env b s).2 := by
  simp only [Op.run]
  cases h : putMetadata c.env b s with
  | mk o s' =>
    cases o with
    | ok a => simp only [run_bind h]; rfl
    | error e => simp only [run_bind_err h]

theorem op_putRoot {c : Cfg} {raw : String} {d : Bool} {s : St} : ((Op.putRoot raw d).run c s).2 = (putRoot c.env raw d s).2 := by
  simp only [Op.run]
  cases h : putRoot c.env raw d s with
  | mk o s' =>
    cases o with
    | ok a => simp only [run_bind h]; rfl
    | error e => simp only [run_bind_err h]

theorem op_start {c : Cfg} {seed fuel : Nat} {s : St} : ((Op.start seed fuel).run c s).2 = (start c seed { s with left := fuel }).2 := by
  simp only [Op.run]
  rw [run_modify]
  cases h : start c seed { s with left := fuel } with
  | mk o s' =>
    cases o with
    | ok a => rw [run_bind h]; rfl
    | error e => rw [run_bind_err h]

theorem op_start_ok {c : Cfg} {seed fuel : Nat} {s s' : St} {x : Out} (h : (Op.start seed fuel).run c s = (.ok x, s')) :
    start c seed { s with left := fuel } = (.ok (), s') := by
  simp only [Op.run] at h
  simp at h
  obtain ⟨⟨⟨⟩, h⟩, -⟩ := h
  exact h

/-- No operation but a start touches the keys. -/
theorem op_sameKeys {c : Cfg} {o : Op} (ho : Op.isStart o = false) (s : St) : SameKeys s (o.run c s).2 := by
  cases o with
  | start => cases ho
  | putMetadata b => rw [op_putMetadata]; exact (putMetadata_calm _ _ s).sameKeys
  | putRoot raw d => rw [op_putRoot]; exact (putRoot_calm _ _ _ s).sameKeys
  | install n i fuel =>
    rw [op_install]
    have := install_sameKeys n i { s with left := fuel }
    exact ⟨this.diskPriv, this.diskPub, this.priv, this.pub, this.kept⟩

/-- No operation but an installation touches the image. -/
theorem op_sameImage {c : Cfg} {o : Op} (ho : Op.isInstall o = false) (s : St) : SameImage s (o.run c s).2 := by
  cases o with
  | start seed fuel =>
    rw [op_start]
    have := start_sameImage c seed { s with left := fuel }
    exact ⟨this.name, this.firmware, this.kept⟩
  | putMetadata b => rw [op_putMetadata]; exact (putMetadata_calm _ _ s).sameImage
  | putRoot raw d => rw [op_putRoot]; exact (putRoot_calm _ _ _ s).sameImage
  | install => cases ho

theorem life_sameKeys {c : Cfg} : ∀ {os : List Op} {s : St}, (∀ o ∈ os, Op.isStart o = false) → SameKeys s (life c s os)
  | [], _, _ => sameKeys_pre.1 _
  | o :: _, s, h => sameKeys_pre.2 _ _ _ (op_sameKeys (h o (.head _)) s) (life_sameKeys (fun x hx => h x (.tail _ hx)))

theorem life_sameImage {c : Cfg} : ∀ {os : List Op} {s : St}, (∀ o ∈ os, Op.isInstall o = false) → SameImage s (life c s os)
  | [], _, _ => sameImage_pre.1 _
  | o :: _, s, h => sameImage_pre.2 _ _ _ (op_sameImage (h o (.head _)) s) (life_sameImage (fun x hx => h x (.tail _ hx)))

theorem op_kept {c : Cfg} {o : Op} (s : St) : (o.run c s).2.kept = s.kept := by
  cases h : Op.isInstall o with
  | false => exact (op_sameImage h s).kept
  | true =>
    cases o with
    | install n i f => exact (op_sameKeys (o := .install n i f) rfl s).kept
    | start => cases h
    | putMetadata => cases h
    | putRoot => cases h

theorem life_kept {c : Cfg} : ∀ (os : List Op) (s : St), (life c s os).kept = s.kept
  | [], _ => rfl
  | _ :: os, s => (life_kept os _).trans (op_kept s)

theorem chosen_onDisk {c : Cfg} {seed : Nat} {s : St} {pub priv : String} (h : OnDisk s pub priv) : chosen c seed s.disk = some (pub, priv) := by
  unfold chosen loadKeys
  rw [h.1, h.2]

theorem op_onDisk {c : Cfg} {o : Op} {s : St} {pub priv : String} (hk : Roomy s) (h : OnDisk s pub priv) : OnDisk (o.run c s).2 pub priv := by
  cases hs : Op.isStart o with
  | false =>
    have := op_sameKeys (c := c) hs s
    exact ⟨this.diskPub.trans h.1, this.diskPriv.trans h.2⟩
  | true =>
    cases o with
    | start seed fuel =>
      rw [op_start]
      cases hr : start c seed { s with left := fuel } with
      | mk x s' =>
        obtain ⟨-, ⟨h1, -⟩ | ⟨pub', priv', h1, -, -, -, ⟨-, h2⟩ | ⟨-, h2⟩ | ⟨-, h2⟩⟩⟩ := (fun hk => start_cases hk hr) hk
        · exact ⟨by rw [h1]; exact h.1, by rw [h1]; exact h.2⟩
        · exact ⟨by rw [h2]; exact h.1, by rw [h2]; exact h.2⟩
        all_goals
          rw [chosen_onDisk (s := { s with left := fuel }) h] at h1
          cases h1
          rw [OnDisk, h2]
        · exact ⟨h.1, rfl⟩
        · exact ⟨rfl, rfl⟩
    | putMetadata => cases hs
    | putRoot => cases hs
    | install => cases hs

theorem life_onDisk {c : Cfg} {pub priv : String} : ∀ {os : List Op} {s : St}, Roomy s → OnDisk s pub priv → OnDisk (life c s os) pub priv
  | [], _, _, h => h
  | o :: os, s, hk, h => life_onDisk (os := os) (s := (o.run c s).2) (by unfold Roomy; rw [op_kept]; exact hk) (op_onDisk hk h)

/-! ### Identity -/

/-- Once a virtual Secondary has started, it has the same keys at each later start, whatever happened in
between and wherever it died, and so the same serial; and it does start. (`_partial`: if no write was cut
short, see `C64_full_disk_loses_identity`.) -/
theorem C64_identity_partial (c : Cfg) (s0 s1 s2 : St) (os : List Op) (seed fuel seed' fuel' : Nat) (hroom : Roomy s0)
    (h1 : (Op.start seed fuel).run c s0 = (.ok .started, s1)) :
    (∀ x, (Op.start seed' fuel').run c (life c s1 os) = (.ok x, s2) → s2.pub = s1.pub ∧ s2.priv = s1.priv ∧ getSerial c s2 = getSerial c s1) ∧
    (2 ≤ fuel' → ((Op.start seed' fuel').run c (life c s1 os)).1 = .ok .started) := by
  have h1 := op_start_ok h1
  obtain ⟨hk1, ⟨-, e, h⟩ | ⟨pub, priv, hc, hm, hp, hq, ⟨h, -⟩ | ⟨h, -⟩ | ⟨-, hd⟩⟩⟩ := (fun hk => start_cases hk h1) hroom
  · cases h
  · cases h
  · cases h
  have hr1 : Roomy s1 := by unfold Roomy; rw [hk1]; exact hroom
  have hon : OnDisk (life c s1 os) pub priv := life_onDisk hr1 ⟨by rw [hd], by rw [hd]⟩
  have hr2 : Roomy (life c s1 os) := by unfold Roomy; rw [life_kept]; exact hr1
  constructor
  · intro x h2
    have h2 := op_start_ok h2
    obtain ⟨-, ⟨-, e, h⟩ | ⟨pub', priv', hc', -, hp', hq', -⟩⟩ := (fun hk => start_cases hk h2) hr2
    · cases h
    · rw [chosen_onDisk (s := { life c s1 os with left := fuel' }) hon] at hc'
      cases hc'
      have e1 : s2.pub = s1.pub := hp'.trans hp.symm
      exact ⟨e1, hq'.trans hq.symm, by unfold getSerial; rw [e1]⟩
  · intro hf
    simp only [Op.run]
    rw [run_modify]
    have := start_run (c := c) (seed := seed') (s := { life c s1 os with left := fuel' }) hf (chosen_onDisk hon) hm
    cases hx : start c seed' { life c s1 os with left := fuel' } with
    | mk o s' =>
      rw [hx] at this
      cases this
      rw [run_bind hx]
      rfl

/-! ### Manifests -/

/-- The keys in the files were generated together. -/
def Paired (c : Cfg) (s : St) : Prop := s.disk.pub = none ∨ ∃ seed pub priv, OnDisk s pub priv ∧ c.signing.generate seed = some (pub, priv)

theorem chosen_paired {c : Cfg} {seed : Nat} {s : St} {k : String × String} (h : Paired c s) (hc : chosen c seed s.disk = some k) :
    ∃ seed, c.signing.generate seed = some k := by
  rcases h with h | ⟨seed', pub, priv, h, hg⟩
  · refine ⟨seed, ?_⟩
    unfold chosen loadKeys at hc
    rw [h] at hc
    exact hc
  · rw [chosen_onDisk h] at hc
    cases hc
    exact ⟨seed', hg⟩

theorem op_paired {c : Cfg} {o : Op} {s : St} (hk : Roomy s) (h : Paired c s) : Paired c (o.run c s).2 := by
  rcases h with h | ⟨seed', pub, priv, h, hg⟩
  · cases hs : Op.isStart o with
    | false => exact .inl ((op_sameKeys (c := c) hs s).diskPub.trans h)
    | true =>
      cases o with
      | start seed fuel =>
        rw [op_start]
        cases hr : start c seed { s with left := fuel } with
        | mk x s' =>
          obtain ⟨-, ⟨h1, -⟩ | ⟨pub', priv', h1, -, -, -, ⟨-, h2⟩ | ⟨-, h2⟩ | ⟨-, h2⟩⟩⟩ := (fun hk => start_cases hk hr) hk
          · exact .inl (by rw [h1]; exact h)
          · exact .inl (by rw [h2]; exact h)
          · exact .inl (by rw [h2]; exact h)
          · obtain ⟨seed', hg⟩ := chosen_paired (s := { s with left := fuel }) (.inl h) h1
            exact .inr ⟨seed', pub', priv', ⟨by rw [h2], by rw [h2]⟩, hg⟩
      | putMetadata => cases hs
      | putRoot => cases hs
      | install => cases hs
  · exact .inr ⟨seed', pub, priv, op_onDisk hk h, hg⟩

theorem life_paired {c : Cfg} : ∀ {os : List Op} {s : St}, Roomy s → Paired c s → Paired c (life c s os)
  | [], _, _, h => h
  | o :: os, s, hk, h => life_paired (os := os) (s := (o.run c s).2) (by unfold Roomy; rw [op_kept]; exact hk) (op_paired hk h)

/-- What a manifest says. -/
theorem reports_manifest {c : Cfg} {s : St} {serial : String} {j : Json} (hs : getSerial c s = .ok serial) (h : getManifest c s = .ok j) :
    Discloses j serial (firmwareInfo s.disk).1 (c.sha256 (firmwareInfo s.disk).2) (firmwareInfo s.disk).2.length s.attack := by
  unfold getManifest at h
  rw [hs] at h
  simp at h
  subst h
  exact ⟨⟨_, rfl, _, rfl, rfl⟩, ⟨_, rfl, _, rfl, _, rfl, rfl⟩, ⟨_, rfl, _, rfl, _, rfl, _, rfl, _, rfl, rfl⟩, ⟨_, rfl, _, rfl, _, rfl, _, rfl, rfl⟩,
    ⟨_, rfl, _, rfl, rfl⟩⟩

theorem mkEcuSerial_same {x y : String} (h : mkEcuSerial x = .ok y) : y = x := by
  unfold mkEcuSerial at h
  by_cases h1 : x.utf8ByteSize < 1
  · rw [if_pos h1] at h; cases h
  · rw [if_neg h1] at h
    by_cases h2 : 64 < x.utf8ByteSize
    · rw [if_pos h2] at h; cases h
    · rw [if_neg h2] at h; cases h; rfl

theorem getSerial_names {c : Cfg} {s : St} {serial : String} (h : getSerial c s = .ok serial) : Names c s.pub serial := by
  have := mkEcuSerial_same h
  constructor
  · intro hc; rwa [if_pos hc] at this
  · intro hc; rwa [if_neg (by simpa using hc)] at this

theorem manifest_serial {c : Cfg} {s : St} {j : Json} (h : getManifest c s = .ok j) : ∃ serial, getSerial c s = .ok serial := by
  unfold getManifest at h
  simp at h
  obtain ⟨serial, hs, -⟩ := h
  exact ⟨serial, hs⟩

/-- What a running virtual Secondary sends as its manifest verifies under the public key it was registered
with, and tells the name, the digest and the length of what is in its files (nothing, if either file is
missing) and the attack it noticed. (`_partial`: if no write was cut short.) -/
theorem C64_manifest_partial (c : Cfg) (s0 s1 s : St) (before after : List Op) (seed fuel : Nat) (j : Json) (hsound : SoundKeys c)
    (hroom : Roomy s0) (hnew : s0.disk.pub = none)
    (h1 : (Op.start seed fuel).run c (life c s0 before) = (.ok .started, s1))
    (h2 : ∀ o ∈ after, Op.isStart o = false) (hs : s = life c s1 after) (hj : getManifest c s = .ok j) :
    manifestVerifies c.env j s1.pub = .ok true ∧ s.pub = s1.pub ∧
    ∃ serial, Names c s1.pub serial ∧
      (∀ name image, s.disk.name = some name → s.disk.firmware = some image → Discloses j serial name (c.sha256 image) image.length s.attack) ∧
      (s.disk.name = none ∨ s.disk.firmware = none → Discloses j serial "noimage" (c.sha256 []) 0 s.attack) := by
  have hr : Roomy (life c s0 before) := by unfold Roomy; rw [life_kept]; exact hroom
  have hp : Paired c (life c s0 before) := life_paired hroom (.inl hnew)
  have h1 := op_start_ok h1
  obtain ⟨-, ⟨-, e, h⟩ | ⟨pub, priv, hc, -, hpub, hpriv, -⟩⟩ := (fun hk => start_cases hk h1) hr
  · cases h
  obtain ⟨seed', hg⟩ := chosen_paired (s := { life c s0 before with left := fuel }) hp hc
  obtain ⟨k1, k2, k3⟩ := hsound _ _ _ hg
  have hsame := life_sameKeys (c := c) (s := s1) h2
  rw [← hs] at hsame
  have hser : getSerial c s = getSerial c s1 := by unfold getSerial; rw [hsame.pub]
  obtain ⟨serial, hserial⟩ := manifest_serial hj
  have hrep := reports_manifest hserial hj
  refine ⟨?_, hsame.pub, serial, getSerial_names (hser.symm.trans hserial), ?_, ?_⟩
  · unfold getManifest at hj
    rw [hserial, hsame.pub, hsame.priv, hpub, hpriv] at hj
    simp at hj
    subst hj
    have hv : (PublicKey.mk pub c.keyType).verifySignature c.env (c.signing.sign priv (c.env.canon (manifestPayload c serial s)))
        (c.env.canon (manifestPayload c serial s)) = true := (verifySignature_iff _ _ _ _).2 (.inr ⟨k1, k3 _⟩)
    rw [hpub]
    unfold manifestVerifies manifestSignature manifestBody
    simpa [Json.isMember, Json.get, bind, Except.bind, pure, Except.pure, Json.asString, List.lookup] using hv
  · intro name image hn hf
    simpa [firmwareInfo, hn, hf] using hrep
  · intro h
    have : firmwareInfo s.disk = ("noimage", []) := by
      unfold firmwareInfo
      rcases h with h | h <;> rw [h]
      cases s.disk.name <;> rfl
    simpa [this] using hrep

/-- An installation that is given the image ends well if the process lives. -/
theorem install_cases {name : String} {image : Bytes} {s s' : St} {o : Except Err InstResult} (hk : Roomy s)
    (h : install name (some image) s = (o, s')) :
    (3 ≤ s.left → ∃ r, o = .ok r) ∧ ∀ r, o = .ok r → r = .ofCode .ok "" ∧ s'.disk.name = some name ∧ s'.disk.firmware = some image := by
  unfold install at h
  rw [run_some] at h
  have hp : ∀ n t, part (s.kept n) t = t := fun n t => by rw [hk n]; rfl
  rcases hl : s.left with _ | _ | _ | k
  · rw [run_bind_err (show effect _ s = (.error .crash, s) by unfold effect; rw [hl])] at h
    cases h
    exact ⟨by omega, by simp⟩
  · rw [run_bind (show effect _ s = (.ok (), _) by unfold effect; rw [hl]), run_gets, run_modify, run_bind_err (show effect _ _ = (.error .crash, _) from rfl)] at h
    cases h
    exact ⟨by omega, by simp⟩
  · rw [run_bind (show effect _ s = (.ok (), _) by unfold effect; rw [hl]), run_gets, run_modify, run_bind (show effect _ _ = (.ok (), _) from rfl),
      run_bind_err (writeFile_zero rfl)] at h
    cases h
    exact ⟨by omega, by simp⟩
  · rw [run_bind (show effect _ s = (.ok (), _) by unfold effect; rw [hl]), run_gets, run_modify, run_bind (show effect _ _ = (.ok (), _) from rfl),
      run_bind (writeFile_succ rfl)] at h
    cases h
    refine ⟨fun _ => ⟨_, rfl⟩, fun r hr => ?_⟩
    cases hr
    refine ⟨rfl, ?_, ?_⟩
    · show some (part (s.kept _) name) = _
      rw [hp]
    · show some (match s.kept _ with | none => image | some k => image.take k) = _
      rw [hk]

theorem op_install_ok {c : Cfg} {n : String} {i : Option Bytes} {fuel : Nat} {s s' : St} {x : Out} (h : (Op.install n i fuel).run c s = (.ok x, s')) :
    ∃ r, x = .result r ∧ install n i { s with left := fuel } = (.ok r, s') := by
  simp only [Op.run] at h
  simp at h
  obtain ⟨r, h1, h2⟩ := h
  exact ⟨r, h2.symm, h1⟩

/-- An installation does not fail unless the process dies; when it has ended the manifest names the image
that was to be installed, its digest and its length, through restarts, until the next installation.
(`_partial`: if no write was cut short.) -/
theorem C64_install_partial (c : Cfg) (s0 s1 s : St) (name : String) (image : Bytes) (fuel : Nat) (after : List Op) (hroom : Roomy s0)
    (h2 : ∀ o ∈ after, Op.isInstall o = false) (hs : s = life c s1 after) :
    (3 ≤ fuel → ∃ x, ((Op.install name (some image) fuel).run c s0).1 = .ok x) ∧
    ∀ x, (Op.install name (some image) fuel).run c s0 = (.ok x, s1) →
      (∃ r, x = .result r ∧ r.success = true) ∧
      ∀ j, getManifest c s = .ok j → ∃ serial, Names c s.pub serial ∧ Discloses j serial name (c.sha256 image) image.length s.attack := by
  constructor
  · intro hf
    cases hx : install name (some image) { s0 with left := fuel } with
    | mk o s' =>
      obtain ⟨r, rfl⟩ := ((fun hk => install_cases hk hx) hroom).1 hf
      refine ⟨.result r, ?_⟩
      simp only [Op.run]
      rw [run_modify, run_bind hx]
      rfl
  · intro x h1
    obtain ⟨r, rfl, h1'⟩ := op_install_ok h1
    obtain ⟨h3, h4, h5⟩ := ((fun hk => install_cases hk h1') hroom).2 r rfl
    refine ⟨⟨r, rfl, by rw [h3]; rfl⟩, fun j hj => ?_⟩
    obtain ⟨serial, hserial⟩ := manifest_serial hj
    have hrep := reports_manifest hserial hj
    have hsame := life_sameImage (c := c) (s := s1) h2
    rw [← hs] at hsame
    refine ⟨serial, getSerial_names hserial, ?_⟩
    simpa [firmwareInfo, hsame.name, hsame.firmware, h4, h5] using hrep

/-! ### Metadata -/

theorem targetsOfJson_iff {env : Env} {raw : String} {ts : Targets} : targetsOfJson env (env.parseJson raw) = .ok ts ↔ ReadsAsTargets env raw ts := by
  unfold targetsOfJson ReadsAsTargets
  simp

/-- The state after the documents were read. -/
def filled (env : Env) (b : Bundle) (r ir : Root) (s : St) : St :=
  { s with directorRoot := r, directorRootOriginal := env.parseJson b.directorRoot, directorTargetsOriginal := env.parseJson b.directorTargets, imageRoot := ir }

theorem rawToMeta_ok {env : Env} {b : Bundle} {s s' : St} (h : rawToMeta env b s = (.ok (), s')) :
    ∃ r ts ir, Readable env b r ts ∧ ReadsAsRoot env b.imageRoot ir ∧ s' = filled env b r ir s := by
  unfold rawToMeta at h
  dsimp only at h
  cases h1 : Root.ofJson env (env.parseJson b.directorRoot) with
  | error e => rw [h1, run_lift_err] at h; cases h
  | ok r =>
    rw [h1, run_lift, run_modify] at h
    cases h2 : targetsOfJson env (env.parseJson b.directorTargets) with
    | error e => rw [h2, run_lift_err] at h; cases h
    | ok ts =>
      rw [h2, run_lift, run_modify] at h
      cases h3 : Root.ofJson env (env.parseJson b.imageRoot) with
      | error e => rw [h3, run_lift_err] at h; cases h
      | ok ir =>
        rw [h3, run_lift, run_modify] at h
        cases h4 : timestampOfJson (env.parseJson b.imageTimestamp) with
        | error e => rw [h4, run_lift_err] at h; cases h
        | ok _ =>
          rw [h4, run_lift] at h
          cases h5 : snapshotOfJson (env.parseJson b.imageSnapshot) with
          | error e => rw [h5, run_lift_err] at h; cases h
          | ok _ =>
            rw [h5, run_lift] at h
            cases h6 : targetsOfJson env (env.parseJson b.imageTargets) with
            | error e => rw [h6, run_lift_err] at h; cases h
            | ok it =>
              rw [h6, run_lift] at h
              cases h
              exact ⟨r, ts, ir, ⟨h1, targetsOfJson_iff.1 h2, ⟨ir, h3⟩, h4, h5, ⟨it, targetsOfJson_iff.1 h6⟩⟩, h3, rfl⟩

theorem rawToMeta_run {env : Env} {b : Bundle} {s : St} {r ir : Root} {ts : Targets} (h : Readable env b r ts) (hi : ReadsAsRoot env b.imageRoot ir) :
    rawToMeta env b s = (.ok (), filled env b r ir s) := by
  obtain ⟨it, hit⟩ := h.imageTargets
  unfold rawToMeta
  dsimp only
  rw [show Root.ofJson env (env.parseJson b.directorRoot) = .ok r from h.directorRoot, run_lift, run_modify, targetsOfJson_iff.2 h.directorTargets, run_lift, run_modify,
    show Root.ofJson env (env.parseJson b.imageRoot) = .ok ir from hi, run_lift, run_modify, h.imageTimestamp, run_lift, h.imageSnapshot, run_lift,
    targetsOfJson_iff.2 hit, run_lift]
  rfl

theorem root_not_empty {env : Env} {raw : String} {r : Root} (h : ReadsAsRoot env raw r) : (env.parseJson raw).isEmpty = false := by
  unfold ReadsAsRoot Root.ofJson baseInit at h
  cases hj : env.parseJson raw with
  | obj l =>
    cases l with
    | nil => rw [hj] at h; simp [Json.isMember, Json.get] at h
    | cons => rfl
  | arr l => rw [hj] at h; simp [Json.isObject] at h
  | null => rw [hj] at h; simp [Json.isObject] at h
  | _ => rfl

theorem targets_not_empty {env : Env} {raw : String} {ts : Targets} (h : ReadsAsTargets env raw ts) : (env.parseJson raw).isEmpty = false := by
  obtain ⟨v, e, h, -⟩ := h
  unfold baseInit at h
  cases hj : env.parseJson raw with
  | obj l =>
    cases l with
    | nil => rw [hj] at h; simp [Json.isMember, Json.get] at h
    | cons => rfl
  | arr l => rw [hj] at h; simp [Json.isObject] at h
  | null => rw [hj] at h; simp [Json.isObject] at h
  | _ => rfl

/-- Checking and reading are independent. -/
theorem baseMetaSigned_iff {env : Env} {role : Role} {j : Json} {signer : MetaWithKeys} {p : Int × TimeStamp} :
    baseMetaSigned env role j signer = .ok p ↔ unpackSignedObject env signer role j = .ok () ∧ baseInit j = .ok p := by
  unfold baseMetaSigned
  simp only [exc_bind_ok, throwIf_ok]
  constructor
  · rintro ⟨_, _, _, _, _, _, ⟨⟩, h, hb⟩
    exact ⟨h, hb⟩
  · rintro ⟨h, hb⟩
    have hb' := hb
    unfold baseInit at hb'
    simp only [exc_bind_ok, throwIf_ok] at hb'
    obtain ⟨_, h1, b, h2, _, h3, _⟩ := hb'
    exact ⟨(), h1, b, h2, (), h3, (), h, hb⟩

theorem targetsSigned_iff {env : Env} {role : Role} {raw : String} {signer : MetaWithKeys} {ts : Targets} :
    Targets.ofJsonSigned env role (env.parseJson raw) signer = .ok ts ↔
      unpackSignedObject env signer role (env.parseJson raw) = .ok () ∧ ReadsAsTargets env raw ts := by
  unfold Targets.ofJsonSigned ReadsAsTargets
  simp only [exc_bind_ok, Prod.exists, baseMetaSigned_iff]
  exact ⟨fun ⟨v, e, ⟨h1, h2⟩, h3⟩ => ⟨h1, v, e, h2, h3⟩, fun ⟨h1, v, e, h2, h3⟩ => ⟨v, e, ⟨h1, h2⟩, h3⟩⟩

/-- The check of the Root, spelled out. -/
theorem checkRoot_ok {env : Env} {j : Json} {r : Root} (h : Root.ofJson env j = .ok r) :
    checkRoot env j = .ok () ↔ unpackSignedObject env r.base Role.root j = .ok () := by
  unfold checkRoot Root.unpackSignedObject
  rw [h, exc_bind_of_ok, Root.ofJson_policy h]
  simp only [exc_bind_ok]
  exact ⟨fun ⟨_, _, h⟩ => h, fun h => ⟨(), h, h⟩⟩

theorem checkPack_iff {env : Env} {b : Bundle} {r ir : Root} {ts : Targets} {s : St} (h : Readable env b r ts) :
    checkPack env (filled env b r ir s) = .ok () ↔
      unpackSignedObject env r.base Role.root (env.parseJson b.directorRoot) = .ok () ∧
      unpackSignedObject env r.base Role.targets (env.parseJson b.directorTargets) = .ok () := by
  unfold checkPack filled
  simp only [root_not_empty h.directorRoot, targets_not_empty h.directorTargets]
  rw [if_neg (by simp), if_neg (by simp)]
  simp only [exc_bind_ok, targetsSigned_iff]
  constructor
  · rintro ⟨⟨⟩, h3, ts', h4, -⟩
    exact ⟨(checkRoot_ok h.directorRoot).1 h3, h4.1⟩
  · rintro ⟨h3, h4⟩
    exact ⟨(), (checkRoot_ok h.directorRoot).2 h3, ts, ⟨h4, h.directorTargets⟩, rfl⟩

theorem isConsistent_true {env : Env} {s : St} : isConsistent env s = .ok true ↔ checkPack env s = .ok () := by
  unfold isConsistent
  cases h : checkPack env s with
  | ok u => simp
  | error e => cases e <;> simp [Err.isUpt]

/-- The end of `putMetadata` and of `putRoot`. -/
theorem consistent_end {env : Env} {s s' : St} {text : String} {r : InstResult}
    (h : (gets id >>= fun s => lift (isConsistent env s) >>= fun ok =>
      if ok = true then (pure (.ofCode .ok "") : V InstResult) else pure (.ofCode .verificationFailed text)) s = (.ok r, s')) :
    s' = s ∧ (r.success = true ↔ checkPack env s = .ok ()) := by
  rw [run_gets] at h
  cases hc : isConsistent env (id s) with
  | error e => rw [hc, run_lift_err] at h; cases h
  | ok b =>
    rw [hc, run_lift] at h
    cases b with
    | false =>
      cases h
      refine ⟨rfl, ?_⟩
      constructor
      · intro h; cases h
      · intro h; rw [← isConsistent_true] at h; rw [show id s = s from rfl, h] at hc; cases hc
    | true =>
      cases h
      exact ⟨rfl, fun _ => isConsistent_true.1 hc, fun _ => rfl⟩

/-- Metadata a virtual Secondary accepts: all six documents can be read, the Director's Root is signed by
its own keys, and the Director's Targets by those of that Root. It then holds that Root, and tells of no
attack. Nothing is asked of the signatures of the Image repository (`C64_image_metadata_unchecked`). -/
theorem C64_metadata_accepted (env : Env) (b : Option Bundle) (s s' : St) (r : InstResult) (h : putMetadata env b s = (.ok r, s'))
    (hr : r.success = true) :
    ∃ b' root ts, b = some b' ∧ Readable env b' root ts ∧ SignedFor env root Role.root b'.directorRoot ∧ SignedFor env root Role.targets b'.directorTargets ∧
      getRootVersion true s' = root.base.version ∧ s'.attack = "" := by
  unfold putMetadata at h
  cases b with
  | none => cases h; cases hr
  | some b =>
    simp only at h
    rw [run_modify] at h
    cases hm : rawToMeta env b { s with attack := "", bundle := some b } with
    | mk o s1 =>
      cases o with
      | error e => rw [run_bind_err hm] at h; cases h
      | ok u =>
        rw [run_bind hm] at h
        obtain ⟨root, ts, ir, h1, h2, h3⟩ := rawToMeta_ok hm
        obtain ⟨h4, h5⟩ := consistent_end h
        have h6 := h5.1 hr
        rw [h3] at h6
        obtain ⟨h7, h8⟩ := (checkPack_iff h1).1 h6
        refine ⟨b, root, ts, rfl, h1, ?_, ?_, ?_, ?_⟩
        · exact C01_accepted_is_signed env _ _ _ properRoot h7
        · exact C01_accepted_is_signed env _ _ _ properTargets h8
        · rw [h4, h3]; rfl
        · rw [h4, h3]; rfl

theorem putMetadata_run {env : Env} {b : Bundle} {s : St} {root ir : Root} {ts : Targets} (h : Readable env b root ts) (hi : ReadsAsRoot env b.imageRoot ir)
    (h1 : unpackSignedObject env root.base Role.root (env.parseJson b.directorRoot) = .ok ())
    (h2 : unpackSignedObject env root.base Role.targets (env.parseJson b.directorTargets) = .ok ()) :
    putMetadata env (some b) s = (.ok (.ofCode .ok ""), filled env b root ir { s with attack := "", bundle := some b }) := by
  unfold putMetadata
  simp only
  rw [run_modify, run_bind (rawToMeta_run h hi), run_gets]
  have := isConsistent_true.2 ((checkPack_iff (ir := ir) (s := { s with attack := "", bundle := some b }) h).2 ⟨h1, h2⟩)
  rw [show id (filled env b root ir { s with attack := "", bundle := some b }) = filled env b root ir { s with attack := "", bundle := some b } from rfl, this, run_lift]
  rfl

/-- It accepts all such metadata, whatever it held before. -/
theorem C64_metadata_accepts (env : Env) (b : Bundle) (s : St) (root : Root) (ts : Targets) (h : Readable env b root ts)
    (h1 : Genuine env root Role.root b.directorRoot) (h2 : Genuine env root Role.targets b.directorTargets) :
    ∃ s', putMetadata env (some b) s = (.ok (.ofCode .ok ""), s') := by
  obtain ⟨ir, hi⟩ := h.imageRoot
  exact ⟨_, putMetadata_run h hi (h1.unpack properRoot) (h2.unpack properTargets)⟩

/-! ### What the Primary verified -/

theorem initRoot_unpack {c : Ctx} {repo : Repo} {raw : String} {w w' : World} {u : Unit} (h : initRoot c repo raw w = (.ok u, w')) :
    ∃ r, ReadsAsRoot c.env raw r ∧ unpackSignedObject c.env r.base Role.root (c.env.parseJson raw) = .ok () ∧ w' = setRoot repo r w := by
  unfold initRoot at h
  cases h1 : Root.ofJson c.env (c.env.parseJson raw) with
  | error e => rw [h1, run_lift_err] at h; cases h
  | ok r =>
    rw [h1, run_lift, run_modify] at h
    cases h2 : Root.ofJsonSigned c.env (c.env.parseJson raw) r with
    | error e => rw [h2, run_lift_err] at h; cases h
    | ok r2 =>
      rw [h2, run_lift] at h
      cases h
      unfold Root.ofJsonSigned at h2
      simp only [h1, exc_bind_of_ok, exc_bind_ok] at h2
      obtain ⟨_, h3, _, h4, h5⟩ := h2
      cases h5
      unfold Root.unpackSignedObject at h4
      rw [Root.ofJson_policy h1] at h4
      exact ⟨r, h1, h4, by cases repo <;> rfl⟩

/-- What the Primary's check of the stored Director metadata shows. -/
theorem director_offline {c : Ctx} {w w' : World} (h : Director.checkMetaOffline c w = (.ok (), w')) :
    ∃ rootRaw raw r ts, Stored w.db .director .root rootRaw ∧ Stored w.db .director .targets raw ∧ ReadsAsRoot c.env rootRaw r ∧ ReadsAsTargets c.env raw ts ∧
      unpackSignedObject c.env r.base Role.root (c.env.parseJson rootRaw) = .ok () ∧ unpackSignedObject c.env r.base Role.targets (c.env.parseJson raw) = .ok () := by
  unfold Director.checkMetaOffline at h
  simp only [M.bind_ok] at h
  obtain ⟨_, w0, h0, o, w1, h1, root, w2, h2, _, w3, h3, _, w4, h4, o', w5, h5, raw, w6, h6, _, w7, h7, _⟩ := h
  simp only [Director.resetMeta, modify_eq, Prod.mk.injEq, true_and] at h0
  subst h0
  simp only [orThrow_ok] at h2 h6
  obtain ⟨rfl, rfl⟩ := h2
  obtain ⟨rfl, rfl⟩ := h6
  obtain ⟨rfl, _, hrow⟩ := loadLatestRoot_some h1
  obtain ⟨r, hr, hu, rfl⟩ := initRoot_unpack h3
  obtain ⟨rfl, -⟩ := checkRootExpired_ok h4
  obtain ⟨rfl, _, hst⟩ := loadNonRoot_some h5
  rcases Director.verifyTargets_cases h7 with ⟨ts, _, hts, -⟩ | ⟨e, he, _⟩
  swap_goal
  · simp at he
  have hts' : Targets.ofJsonSigned c.env Role.targets (c.env.parseJson raw) r.base = .ok ts := hts
  rw [targetsSigned_iff] at hts'
  exact ⟨root, raw, r, ts, hrow, hst, hr, hts'.2, hu, hts'.1⟩

theorem timestamp_reads {env : Env} {raw : String} {t : TimestampMeta} (h : ReadsAsTimestamp env raw t) : timestampOfJson (env.parseJson raw) = .ok () := by
  obtain ⟨signer, h⟩ := h
  unfold TimestampMeta.ofJsonSigned at h
  unfold timestampOfJson
  simp only [exc_bind_ok, baseMetaSigned_iff] at h ⊢
  obtain ⟨p, ⟨-, h1⟩, s, h2, a, h3, b, h4, d, h5, e, h6, f, h7, g, h8, ⟨⟩, h9, k, h10, l, h11, m, h12, -⟩ := h
  exact ⟨p, h1, s, h2, a, h3, b, h4, d, h5, e, h6, f, h7, g, h8, (), h9, k, h10, l, h11, m, h12, rfl⟩

theorem snapshotLoop_any : ∀ {l : List (String × Json)} {sn sn' x : Snapshot}, snapshotLoop sn l = .ok x → ∃ y, snapshotLoop sn' l = .ok y
  | [], _, sn', _, _ => ⟨sn', rfl⟩
  | (k, j) :: rest, sn, sn', x, h => by
    unfold snapshotLoop at h ⊢
    simp only [exc_bind_ok] at h ⊢
    obtain ⟨a, h1, b, h2, d, h3, e, h4, f, h5, g, h6, i, h7, m, h8, h⟩ := h
    obtain ⟨y, hy⟩ := snapshotLoop_any h
    exact ⟨y, a, h1, b, h2, d, h3, e, h4, f, h5, g, h6, i, h7, m, h8, hy⟩

theorem snapshot_reads {env : Env} {raw : String} {t : Snapshot} (h : ReadsAsSnapshot env raw t) : snapshotOfJson (env.parseJson raw) = .ok () := by
  obtain ⟨signer, h⟩ := h
  unfold Snapshot.ofJsonSigned at h
  unfold snapshotOfJson
  simp only [exc_bind_ok, baseMetaSigned_iff] at h ⊢
  obtain ⟨p, ⟨-, h1⟩, s, h2, a, h3, b, h4, d, h5, h⟩ := h
  obtain ⟨y, hy⟩ := snapshotLoop_any h
  exact ⟨p, h1, s, h2, a, h3, b, h4, d, h5, y, hy, rfl⟩

theorem load_cases {w w1 : World} {o : Option String} {repo : Repo} {t : RoleKind} {m : U (Option String)} (hm : m = loadNonRoot repo t ∨ (m = loadLatestRoot repo ∧ t = .root))
    (h : m w = (.ok o, w1)) : w1 = w ∧ ((o = none ∧ w.db.latestOf repo t = none) ∨ ∃ raw, o = some raw ∧ Stored w.db repo t raw) := by
  have h' : readBlob ((w.db.latestOf repo t).map (·.data)) w = (.ok o, w1) := by
    rcases hm with rfl | ⟨rfl, rfl⟩ <;> exact h
  unfold readBlob at h'
  cases hl : w.db.latestOf repo t with
  | none => rw [hl] at h'; cases h'; exact ⟨rfl, .inl ⟨rfl, rfl⟩⟩
  | some row =>
    rw [hl] at h'
    simp only [Option.map_some] at h'
    split at h'
    · cases h'
    · cases h'
      exact ⟨rfl, .inr ⟨_, rfl, row, hl, rfl⟩⟩

/-- What `getMetadata` gives is what is stored; nothing only if something is missing. -/
theorem getMetadata_ok {w w' : World} {o : Option Bundle} (h : getMetadata w = (.ok o, w')) :
    (o = none ∧ (w.db.latestOf .director .root = none ∨ w.db.latestOf .director .targets = none ∨ w.db.latestOf .image .root = none ∨
      w.db.latestOf .image .timestamp = none ∨ w.db.latestOf .image .snapshot = none ∨ w.db.latestOf .image .targets = none)) ∨
    ∃ b, o = some b ∧ Stored w.db .director .root b.directorRoot ∧ Stored w.db .director .targets b.directorTargets ∧ Stored w.db .image .root b.imageRoot ∧
      Stored w.db .image .timestamp b.imageTimestamp ∧ Stored w.db .image .snapshot b.imageSnapshot ∧ Stored w.db .image .targets b.imageTargets := by
  unfold getMetadata at h
  obtain ⟨o1, w1, h1, h⟩ := M.bind_ok.1 h
  obtain ⟨rfl, ⟨rfl, hn⟩ | ⟨dr, rfl, k1⟩⟩ := load_cases (t := .root) (.inr ⟨rfl, rfl⟩) h1
  · cases h; exact .inl ⟨rfl, .inl hn⟩
  obtain ⟨o2, w2, h2, h⟩ := M.bind_ok.1 h
  obtain ⟨rfl, ⟨rfl, hn⟩ | ⟨dt, rfl, k2⟩⟩ := load_cases (.inl rfl) h2
  · cases h; exact .inl ⟨rfl, .inr (.inl hn)⟩
  obtain ⟨o3, w3, h3, h⟩ := M.bind_ok.1 h
  obtain ⟨rfl, ⟨rfl, hn⟩ | ⟨ir, rfl, k3⟩⟩ := load_cases (t := .root) (.inr ⟨rfl, rfl⟩) h3
  · cases h; exact .inl ⟨rfl, .inr (.inr (.inl hn))⟩
  obtain ⟨o4, w4, h4, h⟩ := M.bind_ok.1 h
  obtain ⟨rfl, ⟨rfl, hn⟩ | ⟨its, rfl, k4⟩⟩ := load_cases (.inl rfl) h4
  · cases h; exact .inl ⟨rfl, .inr (.inr (.inr (.inl hn)))⟩
  obtain ⟨o5, w5, h5, h⟩ := M.bind_ok.1 h
  obtain ⟨rfl, ⟨rfl, hn⟩ | ⟨isn, rfl, k5⟩⟩ := load_cases (.inl rfl) h5
  · cases h; exact .inl ⟨rfl, .inr (.inr (.inr (.inr (.inl hn))))⟩
  obtain ⟨o6, w6, h6, h⟩ := M.bind_ok.1 h
  obtain ⟨rfl, ⟨rfl, hn⟩ | ⟨it, rfl, k6⟩⟩ := load_cases (.inl rfl) h6
  · cases h; exact .inl ⟨rfl, .inr (.inr (.inr (.inr (.inr hn))))⟩
  cases h
  exact .inr ⟨⟨dr, dt, ir, its, isn, it⟩, rfl, k1, k2, k3, k4, k5, k6⟩

theorem stored_unique {db : MetaDb} {repo : Repo} {t : RoleKind} {a b : String} (h1 : Stored db repo t a) (h2 : Stored db repo t b) : a = b := by
  obtain ⟨r1, e1, rfl⟩ := h1
  obtain ⟨r2, e2, rfl⟩ := h2
  rw [e1] at e2
  cases e2
  rfl

theorem stored_some {db : MetaDb} {repo : Repo} {t : RoleKind} {a : String} (h1 : Stored db repo t a) : db.latestOf repo t ≠ none := by
  obtain ⟨r1, e1, rfl⟩ := h1
  rw [e1]
  simp

theorem dbPre_eq : DbPre (fun d d' => d' = d) := ⟨fun _ => rfl, fun _ _ _ h1 h2 => h2.trans h1⟩

/-- When the Primary's check of its stored metadata has succeeded, what it hands to a virtual Secondary is
complete, and the Secondary accepts it. -/
theorem C64_accepts_what_the_primary_verified (c : Ctx) (w w1 w2 w3 : World) (o : Option Bundle) (s : St)
    (h1 : Director.checkMetaOffline c w = (.ok (), w1)) (h2 : Image.checkMetaOffline c w1 = (.ok (), w2)) (h3 : getMetadata w2 = (.ok o, w3)) :
    ∃ s', putMetadata c.env o s = (.ok (.ofCode .ok ""), s') := by
  have e1 : w1.db = w.db := (Director.checkMetaOffline_pres dbPre_eq c).of_eq h1
  have e2 : w2.db = w1.db := (Image.checkMetaOffline_pres dbPre_eq c).of_eq h2
  obtain ⟨dr, dt, r, ts, d1, d2, d3, d4, d5, d6⟩ := director_offline h1
  obtain ⟨rawT, rawS, raw, its, hv, -⟩ := C25_image c _ _ h2
  rw [← e1, ← e2] at d1 d2
  obtain ⟨row, hrow, hread, -⟩ := hv.root
  have hrow : Stored w2.db .image .root row.data := ⟨row, hrow, rfl⟩
  rcases getMetadata_ok h3 with ⟨-, h | h | h | h | h | h⟩ | ⟨b, rfl, k1, k2, k3, k4, k5, k6⟩
  · exact absurd h (stored_some d1)
  · exact absurd h (stored_some d2)
  · exact absurd h (stored_some hrow)
  · exact absurd h (stored_some hv.storedT)
  · exact absurd h (stored_some hv.storedS)
  · exact absurd h (stored_some hv.stored)
  cases stored_unique k1 d1
  cases stored_unique k2 d2
  have hi : ReadsAsRoot c.env b.imageRoot w2.img.root := by rw [stored_unique k3 hrow]; exact hread
  refine ⟨_, putMetadata_run (root := r) (ts := ts) ⟨d3, d4, ⟨_, hi⟩, ?_, ?_, ?_⟩ hi d5 d6⟩
  · rw [stored_unique k4 hv.storedT]; exact timestamp_reads hv.readsT
  · rw [stored_unique k5 hv.storedS]; exact snapshot_reads hv.readsS
  · rw [stored_unique k6 hv.stored]; exact ⟨_, hv.reads⟩

/-! ### Roots -/

/-- A Root given to a virtual Secondary is either the next version, and held from then on, or it is refused
and the next manifest tells of an attack (until new metadata arrives). -/
theorem C64_root (env : Env) (raw : String) (director : Bool) (s s' : St) (r : InstResult) (h : putRoot env raw director s = (.ok r, s')) :
    ∃ root, ReadsAsRoot env raw root ∧
      (∀ d, d ≠ director → getRootVersion d s' = getRootVersion d s) ∧
      ((root.base.version = getRootVersion director s + 1 ∧ getRootVersion director s' = root.base.version ∧ s'.attack = s.attack) ∨
       (root.base.version ≠ getRootVersion director s + 1 ∧ getRootVersion director s' = getRootVersion director s ∧
        s'.attack = "Tried to update Root version " ++ toString (getRootVersion director s) ++ " with version " ++ toString root.base.version)) := by
  unfold putRoot at h
  rw [run_gets] at h
  rcases bind_cases h with ⟨_, w1, h1, h⟩ | ⟨e, _, he⟩
  swap_goal
  · cases he
  simp only [throwWhen_ok, id] at h1
  obtain ⟨-, rfl⟩ := h1
  dsimp only at h
  cases hr : Root.ofJson env (env.parseJson raw) with
  | error e => rw [hr, run_lift_err] at h; cases h
  | ok root =>
    rw [hr, run_lift, run_modify] at h
    obtain ⟨rfl, -⟩ := consistent_end h
    refine ⟨root, hr, ?_, ?_⟩
    · intro d hd
      unfold takeRoot
      dsimp only
      cases d <;> cases director <;> first | exact absurd rfl hd | (split <;> rfl)
    · unfold takeRoot
      dsimp only
      by_cases hv : root.base.version = getRootVersion director s + 1
      · rw [if_pos hv]
        exact .inl ⟨hv, by cases director <;> rfl, by cases director <;> rfl⟩
      · rw [if_neg hv]
        exact .inr ⟨hv, rfl, rfl⟩

/-! ### Cases, and where the code falls short -/

namespace Toy

open Aktualizr.Toy

/-- A second Root with a new key for Roots and the old key for Targets. -/
def otherRoot : List (String × Json) :=
  common "Root" 2 ++ [("keys", .obj ((dk ++ dk2).map (fun p => (p.1, key p.2)))), ("roles", .obj [("root", role 1 ["dk2"]), ("targets", role 1 ["dk"])])]

/-- The toy environment with keys of the right length; a signature of private key `priv<n>` is one of
public key `pub<n>`. -/
def menv : Env := { E with
  parseJson := fun t => if t = "drother2" then doc "drother2" otherRoot dk2 else E.parseJson t
  rsaType := fun k => if k = "pub1" ∨ k = "pub2" then .rsa2048 else .unknown
  rsaVerify := fun k sig m => (k == "pub1" && sig == "priv1:" ++ m) || (k == "pub2" && sig == "priv2:" ++ m) }

/-- A virtual Secondary without a configured serial. -/
def mcfg : Cfg where
  env := menv
  signing := {
    generate := fun seed => if seed = 0 then none else if seed = 1 then some ("pub1", "priv1") else some ("pub2", "priv2")
    sign := fun k m => k ++ ":" ++ m
    keyId := fun k => "id of " ++ k.value }
  sha256 := fun b => if b = [1, 2, 3] then "abc" else if b = [] then "e3b0" else "?"

/-- What the Primary hands over. -/
def handed (dr dt it : String) : Bundle := ⟨dr, dt, "ir1", "its1", "isn1", it⟩

/-- The first start, generating the key pair `seed`. -/
def begun (seed fuel : Nat) (s : St := {}) : Except Err Out × St := (Op.start seed fuel).run mcfg s

/-- Installing an image of three bytes. -/
def installs (fuel : Nat) : Op := .install "fw" (some [1, 2, 3]) fuel

/-- Name and content in the files. -/
def holds (s : St) : Option String × Option Bytes := (s.disk.name, s.disk.firmware)

/-- The result of giving a Root, and the version then held. -/
def rooted (raw : String) (s : St) : Option Bool × Int × String :=
  let x := putRoot menv raw true s
  ((match x.1 with | .ok r => some r.success | .error _ => none), getRootVersion true x.2, x.2.attack)

/-- Whether metadata is accepted, and the state after. -/
def given (b : Bundle) (s : St) : Option Bool × St :=
  let x := putMetadata menv (some b) s
  ((match x.1 with | .ok r => some r.success | .error _ => none), x.2)

end Toy

open Managed.Toy

theorem soundKeys_toy : SoundKeys mcfg := by
  intro seed pub priv h
  simp only [mcfg] at h
  split at h
  · cases h
  split at h
  · cases h
    refine ⟨by decide, by decide, fun m => by simp [mcfg, menv]⟩
  · cases h
    refine ⟨by decide, by decide, fun m => by simp [mcfg, menv]⟩

/-- A Secondary dies in its first start, starts, gets metadata and an image, dies in a start, and starts
again with other random numbers: it is still the same. -/
example : (begun 1 1).1 = .error .crash ∧ ∃ s1, begun 2 2 (begun 1 1).2 = (.ok .started, s1) ∧
    let s := life mcfg s1 [.putMetadata (some (handed "dr1" "dt1" "it1")), installs 3, .start 1 1]
    (begun 1 2 s).2.pub = ⟨"pub2", .rsa2048⟩ ∧ holds s = (some "fw", some [1, 2, 3]) :=
  ⟨rfl, _, rfl, by decide +kernel, by decide +kernel⟩

/-- The manifest of such a Secondary. -/
example : (getManifest mcfg (life mcfg (begun 1 2).2 [installs 3])).isOk = true ∧ getSerial mcfg (begun 1 2).2 = .ok "id of pub1" := by decide +kernel

/-- The metadata of the toy repositories is accepted. -/
example : (given (handed "dr1" "dt1" "it1") {}).1 = some true ∧ (given (handed "dr2" "dt1" "it1") {}).1 = some false := by decide +kernel

/-- The next Root is taken. A later one is not, and this is reported, though the answer is success. -/
example : rooted "dr2s" (given (handed "dr1" "dt1" "it1") {}).2 = (some true, 2, "") ∧
    rooted "dr3" (given (handed "dr1" "dt1" "it1") {}).2 = (some true, 1, "Tried to update Root version 1 with version 3") := by decide +kernel

/-- The keys are written anew at each start. If the disk is full at the third write, the private key is
gone, and the Secondary starts with a private key that does not fit its public key. If it is full at the
fourth, the public key is gone and the Secondary, and with it the Primary, does not start any more. -/
theorem C64_full_disk_loses_identity :
    (let s := (begun 1 2 (begun 1 2 { kept := fun n => if n = 2 then some 0 else none }).2).2
     (begun 1 2 s).1 = .ok .started ∧ (begun 1 2 s).2.priv = "" ∧ (begun 1 2 s).2.pub = ⟨"pub1", .rsa2048⟩) ∧
    (let s := (begun 1 2 (begun 1 2 { kept := fun n => if n = 3 then some 0 else none }).2).2
     (begun 1 2 s).1 = .error (.std "RSA key length is incorrect")) := by
  decide +kernel

/-- If the process dies in an installation, the files hold a part of the new image, or all of it, under the
name of the old one; and if the disk is full the installation of a part ends with success. -/
theorem C64_torn_installation :
    (let s := (begun 1 2 { disk := { name := some "old", firmware := some [9] } }).2
     holds ((installs 1).run mcfg s).2 = (some "old", some []) ∧ holds ((installs 2).run mcfg s).2 = (some "old", some [1, 2, 3])) ∧
    (let x := install "fw" (some [1, 2, 3]) { left := 3, kept := fun n => if n = 0 then some 2 else none }
     x.1 = .ok (.ofCode .ok "") ∧ holds x.2 = (some "fw", some [1, 2])) := by
  decide +kernel

/-- Whether a document is signed for a role under a Root. -/
def Toy.signedUnder (root : String) (role : Role) (raw : String) : Bool :=
  match Root.ofJson menv (menv.parseJson root) with
  | .ok r => (unpackSignedObject menv r.base role (menv.parseJson raw)).isOk
  | .error _ => false

/-- As Targets of the Image repository a document is accepted that nobody of the Image repository signed. -/
theorem C64_image_metadata_unchecked : (given (handed "dr1" "dt1" "dt2") {}).1 = some true ∧
    signedUnder "ir1" Role.targets "it1" = true ∧ signedUnder "ir1" Role.targets "dt2" = false := by
  decide +kernel

/-- A Root signed with its own keys only, not with those of the Root held, is accepted as its successor. -/
theorem C64_root_not_chained : rooted "drother2" (given (handed "dr1" "dt1" "it1") {}).2 = (some true, 2, "") ∧
    signedUnder "dr1" Role.root "drother2" = false := by
  decide +kernel

/-- A Root for which the Secondary answers that verification failed is held from then on. -/
theorem C64_refused_root_stays : rooted "drbad2" (given (handed "dr1" "dt1" "it1") {}).2 = (some false, 2, "") := by
  decide +kernel

/-- A Root that replaces the key for Targets is refused, even if both Roots signed it, as the Targets held are
still the old ones. -/
theorem C64_key_rotation_refused : signedUnder "dr1" Role.root "dr2" = true ∧ signedUnder "dr2" Role.root "dr2" = true ∧
    rooted "dr2" (given (handed "dr1" "dt1" "it1") {}).2 = (some false, 2, "") := by
  decide +kernel

/-- Nothing needs to be verified for an installation: metadata was refused, the image is installed. -/
theorem C64_installs_after_refusal : (given (handed "dr2" "dt1" "it1") {}).1 = some false ∧
    holds ((installs 3).run mcfg (given (handed "dr2" "dt1" "it1") {}).2).2 = (some "fw", some [1, 2, 3]) := by
  decide +kernel

end Aktualizr.Managed
