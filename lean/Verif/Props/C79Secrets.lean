import Verif.Props.C79Main

/-! # C79: private keys are printed only on request -/

namespace Aktualizr.Info

open M

namespace Spec

/-- The same but for the private keys; only whether one is there and whether it is empty is the same. -/
structure AlikeButKeys (d d' : Db) : Prop where
  device : d.device = d'.device
  ca : d.ca = d'.ca
  cert : d.cert = d'.cert
  versions : d.versions = d'.versions
  metadata : d.metadata = d'.metadata
  misconfigured : d.misconfigured = d'.misconfigured
  pkey : d.pkey.map (fun k => k == "") = d'.pkey.map (fun k => k == "")
  keys : d.keys.map (fun k => (k.1, k.2 == "")) = d'.keys.map (fun k => (k.1, k.2 == ""))

/-- The options that ask for a private key. -/
def privateOptions : List String := ["tls-creds", "tls-prv-key", "ecu-keys", "ecu-prv-key"]

end Spec

theorem bind_congr2 {σ α β : Type} {m m' : M σ α} {k k' : α → M σ β} (hm : m = m') (hk : ∀ v, k v = k' v) : (m >>= k) = (m' >>= k') := by
  rw [hm, funext hk]

theorem read_congr {α : Type} {a : Around} {db : Nat → Db} {f : Db → α} (h : ∀ t, f (a.db t) = f (db t)) :
    read a f = read { a with db := db } f := by
  funext s
  simp only [read, h]

theorem readE_congr {α : Type} {a : Around} {db : Nat → Db} {f : Db → Except Err α} (h : ∀ t, f (a.db t) = f (db t)) :
    readE a f = readE { a with db := db } f := by
  funext s
  simp only [readE, h]

theorem tls_alike {d d' : Db} (h : Spec.AlikeButKeys d d') :
    (!(d.tls.1 == "" && d.tls.2.1 == "" && d.tls.2.2 == "")) = (!(d'.tls.1 == "" && d'.tls.2.1 == "" && d'.tls.2.2 == "")) := by
  obtain ⟨_, h1, h2, _, _, _, h3, _⟩ := h
  unfold Db.tls
  rw [← h1, ← h2]
  cases d.ca <;> cases d.cert <;> cases hp : d.pkey <;> cases hp' : d'.pkey <;> rw [hp, hp'] at h3 <;> simp_all

theorem keys_alike {d d' : Db} (h : Spec.AlikeButKeys d d') :
    (d.ecuKeys.1 != "" && d.ecuKeys.2 != "") = (d'.ecuKeys.1 != "" && d'.ecuKeys.2 != "") := by
  have h3 := h.keys
  unfold Db.ecuKeys
  cases hp : d.keys <;> cases hp' : d'.keys <;> rw [hp, hp'] at h3 <;> simp_all [bne]

/-- `credentials` when no private key is asked for. -/
theorem credentials_public {a : Around} {o : Options} (h1 : o.has "tls-creds" = false) (h2 : o.has "tls-prv-key" = false)
    (h3 : o.has "ecu-keys" = false) : credentials a o = (do
      let b ← read a (fun d => !(d.tls.1 == "" && d.tls.2.1 == "" && d.tls.2.2 == ""))
      let _ ← (if o.has "tls-root-ca" then do line (← read a (fun d => d.ca.getD "")) else pure ())
      let _ ← (if o.has "tls-cert" then do line (← read a (fun d => d.cert.getD "")) else pure ())
      let k ← read a (fun d => d.ecuKeys.1 != "" && d.ecuKeys.2 != "")
      pure (b, k, ["tls-creds", "tls-root-ca", "tls-cert", "tls-prv-key", "ecu-keys"].any o.has)) := by
  unfold credentials
  rw [h1, h2, h3]
  rfl

section Alike

variable {a : Around} {db : Nat → Db} {o : Options}

theorem credentials_alike (h : ∀ t, Spec.AlikeButKeys (a.db t) (db t)) (ho : ∀ n ∈ Spec.privateOptions, o.has n = false) :
    credentials a o = credentials { a with db := db } o := by
  rw [credentials_public (ho _ (by simp [Spec.privateOptions])) (ho _ (by simp [Spec.privateOptions])) (ho _ (by simp [Spec.privateOptions])),
    credentials_public (ho _ (by simp [Spec.privateOptions])) (ho _ (by simp [Spec.privateOptions])) (ho _ (by simp [Spec.privateOptions])),
    read_congr (a := a) (db := db) (f := fun d => !(d.tls.1 == "" && d.tls.2.1 == "" && d.tls.2.2 == "")) (fun t => tls_alike (h t)),
    read_congr (a := a) (db := db) (f := fun d => d.ca.getD "") (fun t => by rw [(h t).ca]),
    read_congr (a := a) (db := db) (f := fun d => d.cert.getD "") (fun t => by rw [(h t).cert]),
    read_congr (a := a) (db := db) (f := fun d => d.ecuKeys.1 != "" && d.ecuKeys.2 != "") (fun t => keys_alike (h t))]

theorem showDoc_alike (h : ∀ t, (a.db t).metadata = (db t).metadata) (repo : Repo) (type : RoleKind) :
    showDoc a repo type = showDoc { a with db := db } repo type := by
  unfold showDoc
  rw [readE_congr (a := a) (db := db) (fun t => by unfold Db.doc; rw [h t])]

theorem metadataOptions_alike (h : ∀ t, (a.db t).metadata = (db t).metadata) (has : Bool) (root : String) :
    metadataOptions a o has root = metadataOptions { a with db := db } o has root := by
  have hd : showDelegations a = showDelegations { a with db := db } := by
    unfold showDelegations
    rw [read_congr (a := a) (db := db) (fun t => by unfold Db.delegations; rw [h t])]
  unfold metadataOptions
  simp only [showDoc_alike h, hd]

theorem secondaries_alike (h : ∀ t, (a.db t).versions = (db t).versions) : ∀ (l : List (String × String)) (n : Nat),
    secondaries a n l = secondaries { a with db := db } n l
  | [], _ => rfl
  | e :: l, n => by
    unfold secondaries
    rw [readE_congr (a := a) (db := db) (fun t => by unfold Db.installed; rw [h t])]
    refine bind_congr2 rfl (fun _ => bind_congr2 rfl (fun _ => bind_congr2 rfl (fun _ => secondaries_alike h l (n + 1))))

theorem general_alike (h : ∀ t, (a.db t).versions = (db t).versions) (hm : ∀ t, (a.db t).misconfigured = (db t).misconfigured)
    (device : Option String) (tls keys registered has : Bool) :
    general a device tls keys registered has = general { a with db := db } device tls keys registered has := by
  unfold general
  rw [readE_congr (a := a) (db := db) (f := fun d => d.versions.loadEcuSerials) (fun t => by rw [h t]),
    readE_congr (a := a) (db := db) (f := fun d => misconfiguredLoop d.misconfigured) (fun t => by rw [hm t]),
    readE_congr (a := a) (db := db) (f := fun d => current a.env d.versions a.pacman) (fun t => by rw [h t]),
    readE_congr (a := a) (db := db) (f := fun d => d.versions.loadPending a.env "") (fun t => by rw [h t])]
  simp only [secondaries_alike h]

theorem inform_alike (h : ∀ t, Spec.AlikeButKeys (a.db t) (db t)) (ho : ∀ n ∈ Spec.privateOptions, o.has n = false)
    (registered has : Bool) (root : String) : inform a o registered has root = inform { a with db := db } o registered has root := by
  unfold inform
  rw [read_congr (a := a) (db := db) (f := fun d => d.device.map (·.1)) (fun t => by rw [(h t).device]),
    read_congr (a := a) (db := db) (f := Db.registered) (fun t => by unfold Db.registered; rw [(h t).device]),
    readE_congr (a := a) (db := db) (f := fun d => d.doc .director .root) (fun t => by unfold Db.doc; rw [(h t).metadata]),
    credentials_alike h ho,
    read_congr (a := a) (db := db) (f := fun d => (d.keys.map (·.1)).getD "") (fun t => by
      have := congrArg (fun x => (x.map (·.1)).getD "") (h t).keys
      simpa [Option.map_map, Function.comp_def] using this),
    ho "ecu-prv-key" (by simp [Spec.privateOptions])]
  simp only [metadataOptions_alike (fun t => (h t).metadata), general_alike (fun t => (h t).versions) (fun t => (h t).misconfigured)]
  rfl

theorem wait_alike (h : ∀ t, Spec.AlikeButKeys (a.db t) (db t)) : ∀ (n : Nat) (r m : Bool) (root : String),
    wait a n r m root = wait { a with db := db } n r m root
  | 0, _, _, _ => rfl
  | n + 1, r, m, root => by
    unfold wait
    rw [read_congr (a := a) (db := db) (f := Db.registered) (fun t => by unfold Db.registered; rw [(h t).device]),
      readE_congr (a := a) (db := db) (f := fun d => d.doc .director .root) (fun t => by unfold Db.doc; rw [(h t).metadata])]
    simp only [wait_alike h n]

end Alike

/-- C79. Unless an option asks for a private key, what aktualizr-info prints and how it ends does not depend on the private keys. -/
theorem C79_secrets (a : Around) (db : Nat → Db) (o : Options) (attempts : Nat) (h : ∀ t, Spec.AlikeButKeys (a.db t) (db t))
    (ho : ∀ n ∈ Spec.privateOptions, o.has n = false) : main a o attempts = main { a with db := db } o attempts := by
  unfold main
  simp only [wait_alike h, inform_alike h ho]
  rfl

end Aktualizr.Info
