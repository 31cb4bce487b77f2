import Verif.Lemmas.Initializer

/-! When the steps of provisioning succeed, and what they leave. -/

namespace Aktualizr.Prov

open M (gets modify throwWhen orThrow)

variable {σ : Type} {env : Env} {server : Server σ} {cfg : Config} {secondaries : List (String × Secondary)}

/-- With complete credentials a run neither uses the shared ones nor asks for others. -/
theorem tr_isOk {a b : St σ}
    (h : Tr env server cfg secondaries a b) (ha : isOk a.store = true) (hh : a.http ≠ .shared) :
    isOk b.store = true ∧ b.http ≠ .shared ∧ own b.store = own a.store ∧
      (∀ d r, a.store.device = some (d, r) → ∃ r', b.store.device = some (d, r')) ∧
      (∀ c d r, (c, Req.device d, r) ∈ b.log → (c, Req.device d, r) ∈ a.log) := by
  refine h.inv (I := fun s => isOk s.store = true ∧ s.http ≠ .shared ∧ own s.store = own a.store ∧
      (∀ d r, a.store.device = some (d, r) → ∃ r', s.store.device = some (d, r')) ∧
      (∀ c d r, (c, Req.device d, r) ∈ s.log → (c, Req.device d, r) ∈ a.log)) ?_
      ⟨ha, hh, rfl, fun d r h => ⟨r, h⟩, fun _ _ _ h => h⟩
  intro x y hc ⟨h1, h2, h3, h4, h5⟩
  cases hc <;> first
    | exact ⟨h1, h2, h3, h4, h5⟩
    | exact ⟨h1, own_ne _, h3, h4, h5⟩
    | exact absurd ‹x.http = .shared› h2
    | (refine ⟨h1, h2, h3, ?_, h5⟩
       intro d r hd
       obtain ⟨r', hr⟩ := h4 d r hd
       simp_all)
    | (refine ⟨h1, h2, h3, h4, ?_⟩
       intro c d r hd
       simp at hd
       exact h5 c d r hd)
    | simp_all

/-- With `n` effects left the process gets through `m`. -/
def Goes {α : Type} (m : P σ α) (n : Nat) (s : St σ) : Prop :=
  n ≤ s.fuel → ∃ a s', m s = (.ok a, s') ∧ s.fuel ≤ s'.fuel + n

theorem Goes.mono {α : Type} {m : P σ α} {n k : Nat} {s : St σ} (h : Goes m n s) (hk : n ≤ k) : Goes m k s := by
  intro hf
  obtain ⟨a, s', h1, h2⟩ := h (by omega)
  exact ⟨a, s', h1, by omega⟩

theorem Goes.bind {α β : Type} {m : P σ α} {f : α → P σ β} {n k : Nat} {s : St σ} (h : Goes m n s)
    (hf : ∀ a s', m s = (.ok a, s') → Goes (f a) k s') : Goes (m >>= f) (n + k) s := by
  intro hfu
  obtain ⟨a, s', h1, h2⟩ := h (by omega)
  obtain ⟨b, s'', h3, h4⟩ := hf a s' h1 (by omega)
  exact ⟨b, s'', by rw [M.run_bind h1]; exact h3, by omega⟩

theorem Goes.pure {α : Type} (a : α) (s : St σ) : Goes (Pure.pure a : P σ α) 0 s := fun _ => ⟨a, s, rfl, by omega⟩

theorem Goes.gets {α : Type} {g : St σ → α} {s : St σ} : Goes (M.gets g) 0 s := fun _ => ⟨g s, s, rfl, by omega⟩

theorem Goes.write {f : Store → Store} {s : St σ} : Goes (write f) 1 s := by
  intro h
  unfold Prov.write
  cases hf : s.fuel with
  | zero => omega
  | succ k => exact ⟨(), _, rfl, by simp⟩

theorem Goes.post {q : Req} {s : St σ} : Goes (post server q) 1 s := by
  intro h
  unfold Prov.post
  cases hf : s.fuel with
  | zero => omega
  | succ k => exact ⟨_, _, rfl, by simp⟩

theorem Goes.throwWhen {b : Bool} {e : Err} {s : St σ} (h : b = false) : Goes (throwWhen b e : P σ Unit) 0 s := by
  subst h
  exact fun _ => ⟨(), s, rfl, by omega⟩

theorem Goes.orThrow {α : Type} {o : Option α} {e : Err} {s : St σ} (h : o.isSome = true) :
    Goes (orThrow o e : P σ α) 0 s := by
  cases o with
  | none => simp at h
  | some a => exact fun _ => ⟨a, s, rfl, by omega⟩

/-! ## The device id and the credentials -/

theorem initDeviceId_goes {s : St σ} (h : cfg.mode ≠ .deviceCred) : Goes (initDeviceId env cfg) 1 s := by
  unfold initDeviceId
  refine (Goes.bind .gets (k := 1) ?_).mono (by omega)
  intro d s' hd
  cases d with
  | some _ => exact (Goes.pure _ _).mono (by omega)
  | none =>
    refine (Goes.bind (n := 0) (k := 1) ?_ (fun _ _ _ => .write)).mono (by omega)
    split
    · exact .pure _ _
    · intro _
      have hcn : getCN env s' = (.error (.std "Certificate is not found, can't extract device_id"), s') ∨
          getCN env s' = (.error (.std "Could not parse certificate"), s') ∨ ∃ n, getCN env s' = (.ok n, s') := by
        unfold getCN
        cases hc : s'.store.cert with
        | none => left; simp [bind_app, hc, orThrow]
        | some c =>
          cases h2 : env.cn c with
          | none => right; left; simp [bind_app, hc, h2, orThrow]
          | some n => right; right; exact ⟨n, by simp [bind_app, hc, h2, orThrow]⟩
      unfold M.catchStd
      rcases hcn with hcn | hcn | ⟨n, hcn⟩
      · rw [hcn]
        cases hm : cfg.mode with
        | deviceCred => exact absurd hm h
        | sharedCred => exact ⟨_, _, rfl, by simp⟩
        | sharedCredReuse => exact ⟨_, _, rfl, by simp⟩
      · rw [hcn]
        cases hm : cfg.mode with
        | deviceCred => exact absurd hm h
        | sharedCred => exact ⟨_, _, rfl, by simp⟩
        | sharedCredReuse => exact ⟨_, _, rfl, by simp⟩
      · rw [hcn]
        exact ⟨n, s', rfl, by simp⟩

theorem initDeviceId_some {s s' : St σ} {u : Unit} (h : initDeviceId env cfg s = (.ok u, s')) :
    s'.store.device.isSome = true := by
  unfold initDeviceId at h
  obtain ⟨d, s1, h1, h2⟩ := M.bind_ok.1 h
  simp at h1
  obtain ⟨rfl, rfl⟩ := h1
  cases hd : s.store.device with
  | some d => rw [hd] at h2; simp at h2; rw [← h2, hd]; rfl
  | none =>
    rw [hd] at h2
    obtain ⟨id, s2, _, h3⟩ := M.bind_ok.1 h2
    obtain ⟨_, _, rfl⟩ := write_ok h3
    rfl

/-- An answer to the registration of a device that can be used. -/
def Accepts (env : Env) (r : Resp) : Prop :=
  ∃ b c, r = .ok b ∧ env.p12 b = some c ∧ c.1 ≠ "" ∧ c.2.1 ≠ "" ∧ c.2.2 ≠ ""

theorem loadSet_run (s : St σ) :
    loadSetTlsCreds s = (.ok (isOk s.store), if isOk s.store then { s with http := own s.store } else s) := by
  unfold loadSetTlsCreds
  show (if isOk s.store then _ else _ : P σ Bool) s = _
  by_cases h : isOk s.store = true
  · rw [if_pos h, if_pos h, h]; rfl
  · rw [if_neg h, if_neg h]
    simp at h
    rw [h]; rfl

theorem tls_goes {s : St σ} (d : String × Bool) (hd : s.store.device = some d)
    (hc : isOk s.store = true ∨ (cfg.mode ≠ .deviceCred ∧ s.store.shared = true))
    (ha : isOk s.store = false → Accepts env (server s.srv .shared (.device d.1)).1) :
    5 ≤ s.fuel → ∃ s', initTlsCreds env server cfg s = (.ok (), s') ∧ s.fuel ≤ s'.fuel + 5 ∧
      s'.store.device = some d ∧ s'.store.keys = s.store.keys ∧ s'.store.ecus = s.store.ecus ∧
      s'.store.secs = s.store.secs := by
  intro hf
  obtain ⟨n, hn⟩ := Nat.exists_eq_add_of_le hf
  unfold initTlsCreds
  by_cases hk : isOk s.store = true
  · simp [bind_app, loadSet_run, hk, hd]
  · have hk : isOk s.store = false := by simpa using hk
    obtain ⟨hm, hs⟩ : cfg.mode ≠ .deviceCred ∧ s.store.shared = true := by
      rcases hc with h | h
      · rw [hk] at h; simp at h
      · exact h
    obtain ⟨b, c, h1, h2, h3, h4, h5⟩ := ha hk
    have hn : s.fuel = n + 4 + 1 := by omega
    have hnew : ∀ t : Store, t.ca = some c.1 → t.cert = some c.2.1 → t.pkey = some c.2.2 → isOk t = true := by
      intro t e1 e2 e3
      simp [isOk, tls, e1, e2, e3, h3, h4, h5]
    by_cases hr : cfg.mode = .sharedCredReuse
    · simp [bind_app, loadSet_run, hk, hd, hs, h1, h2, hn, throwWhen, orThrow, post, write, hr, hnew]
    · simp [bind_app, loadSet_run, hk, hd, hm, hs, h1, h2, hn, throwWhen, orThrow, post, write, hr, hnew]

theorem tls_taken {s : St σ} (d : String × Bool) (hd : s.store.device = some d) (hk : isOk s.store = false)
    (hm : cfg.mode ≠ .deviceCred) (hs : s.store.shared = true)
    (ha : (server s.srv .shared (.device d.1)).1 = .refused (some "device_already_registered")) :
    1 ≤ s.fuel → ∃ s', initTlsCreds env server cfg s = (.error occupied, s') ∧ s.fuel ≤ s'.fuel + 1 ∧
      s'.store = s.store := by
  intro hf
  obtain ⟨n, hn⟩ := Nat.exists_eq_add_of_le hf
  have hn : s.fuel = n + 1 := by omega
  unfold initTlsCreds
  simp [bind_app, loadSet_run, hk, hd, hm, hs, ha, hn, throwWhen, orThrow, post]

/-- Only the device id is changed by its initialisation. -/
theorem initDeviceId_frame {s s' : St σ} {u : Unit} (h : initDeviceId env cfg s = (.ok u, s')) :
    ∃ d m n, s' = { s with store := { s.store with device := d }, drawn := m, fuel := n } := by
  unfold initDeviceId at h
  obtain ⟨d, s1, h1, h2⟩ := M.bind_ok.1 h
  simp at h1
  obtain ⟨rfl, rfl⟩ := h1
  cases hd : s.store.device with
  | some d => rw [hd] at h2; simp at h2; exact ⟨s.store.device, s.drawn, s.fuel, by rw [← h2]⟩
  | none =>
    rw [hd] at h2
    obtain ⟨id, s2, h3, h4⟩ := M.bind_ok.1 h2
    obtain ⟨_, _, rfl⟩ := write_ok h4
    have : ∃ m, s2 = { s with drawn := m } := by
      split at h3
      · simp at h3; exact ⟨s.drawn, by rw [← h3.2]⟩
      · unfold M.catchStd at h3
        have h1 := getCN_snd (env := env) (s := s)
        split at h3
        · rename_i e w' heq
          rw [heq] at h1
          subst h1
          split at h3
          · cases hm : cfg.mode <;> rw [hm] at h3 <;> simp [draw, bind_app] at h3
            · exact ⟨_, h3.2.symm⟩
            · exact ⟨_, h3.2.symm⟩
          · simp at h3
        · rw [h3] at h1
          exact ⟨s.drawn, by rw [← h1]⟩
    obtain ⟨m, rfl⟩ := this
    exact ⟨_, m, _, rfl⟩

/-- Without a name in the configuration and without a certificate the name is a random one. -/
theorem initDeviceId_random {s s' : St σ} {u : Unit} (h : initDeviceId env cfg s = (.ok u, s'))
    (hd : s.store.device = none) (hi : cfg.deviceId = "") (hc : s.store.cert = none) :
    ∃ n, s'.store.device = some (env.newName n, false) := by
  unfold initDeviceId at h
  obtain ⟨d, s1, h1, h2⟩ := M.bind_ok.1 h
  simp at h1
  obtain ⟨rfl, rfl⟩ := h1
  rw [hd] at h2
  obtain ⟨id, s2, h3, h4⟩ := M.bind_ok.1 h2
  obtain ⟨_, _, rfl⟩ := write_ok h4
  rw [if_neg (by simp [hi])] at h3
  have hcn : getCN env s = (.error (.std "Certificate is not found, can't extract device_id"), s) := by
    unfold getCN
    simp [bind_app, hc, orThrow]
  unfold M.catchStd at h3
  rw [hcn] at h3
  simp only [Err.isStd, if_true] at h3
  cases hm : cfg.mode <;> rw [hm] at h3 <;> simp [draw, bind_app] at h3
  · exact ⟨s.drawn, by rw [h3.1]⟩
  · exact ⟨s.drawn, by rw [h3.1]⟩

/-! ## After the credentials -/

/-- A text usable as the public key of the Primary. -/
def KeyOk (env : Env) (type : KeyType) (p : String) : Prop := p ≠ "" ∧ PubOk env ⟨p, type⟩

theorem publicKey_goes {v : String} {t : KeyType} {s : St σ} (h : PubOk env ⟨v, t⟩) : Goes (publicKey env v t) 0 s := by
  unfold publicKey
  refine (Goes.bind (n := 0) (k := 0) (.throwWhen ?_) (fun _ _ _ => .pure _ _))
  by_cases hm : t ∈ [KeyType.rsa2048, .rsa3072, .rsa4096]
  · have := h hm
    simp at this
    simp [← this]
  · simp [hm]

theorem uptanePublicKey_goes {s : St σ} (h : ∃ k, s.store.keys = some k ∧ KeyOk env cfg.keyType k.1) :
    Goes (uptanePublicKey env cfg) 0 s := by
  obtain ⟨k, hk, ho⟩ := h
  unfold uptanePublicKey
  refine (Goes.bind (n := 0) (k := 0) .gets ?_)
  intro a s1 h1
  simp at h1
  obtain ⟨rfl, rfl⟩ := h1
  refine (Goes.bind (n := 0) (k := 0) (.orThrow (by rw [hk]; rfl)) ?_)
  intro b s2 h2
  obtain ⟨h3, rfl⟩ := M.orThrow_ok.1 h2
  rw [hk] at h3
  obtain rfl := Option.some.inj h3
  exact publicKey_goes ho.2

theorem initKeys_goes {s : St σ} (hk : ∀ k, s.store.keys = some k → KeyOk env cfg.keyType k.1)
    (hn : ∀ n, ∃ k, env.newKey n = some k ∧ KeyOk env cfg.keyType k.1) : Goes (initPrimaryEcuKeys env) 1 s := by
  unfold initPrimaryEcuKeys
  refine (Goes.bind (n := 1) (k := 0) ?_ ?_)
  · unfold generateUptaneKeyPair
    refine (Goes.bind (n := 0) (k := 1) .gets ?_).mono (by omega)
    intro a s1 h1
    simp at h1
    obtain ⟨rfl, rfl⟩ := h1
    refine (Goes.bind (n := 1) (k := 0) ?_ ?_)
    · cases h : s.store.keys with
      | some k => exact (Goes.pure _ _).mono (by omega)
      | none =>
        refine (Goes.bind (n := 0) (k := 1) (m := draw) ?_ ?_).mono (by omega)
        · exact fun _ => ⟨_, _, rfl, by simp⟩
        intro n s2 h2
        obtain ⟨k, h3, _⟩ := hn n
        rw [h3]
        exact (Goes.bind (n := 1) (k := 0) .write (fun _ _ _ => .pure _ _))
    · intro k s2 h2
      refine (Goes.bind (n := 0) (k := 0) (.throwWhen ?_) (fun _ _ _ => .pure _ _))
      have : k.1 ≠ "" := by
        cases h : s.store.keys with
        | some k' => rw [h] at h2; simp at h2; rw [← h2.1]; exact (hk k' h).1
        | none =>
          rw [h] at h2
          obtain ⟨n, s3, h3, h4⟩ := M.bind_ok.1 h2
          obtain ⟨k', h5, h6⟩ := hn n
          rw [h5] at h4
          obtain ⟨_, s4, _, h8⟩ := M.bind_ok.1 h4
          simp at h8
          rw [← h8.1]
          exact h6.1
      simp [this]
  · intro p s1 h1
    refine .throwWhen ?_
    have : p ≠ "" := by
      unfold generateUptaneKeyPair at h1
      obtain ⟨a, s2, h2, h3⟩ := M.bind_ok.1 h1
      simp at h2
      obtain ⟨rfl, rfl⟩ := h2
      obtain ⟨k, s3, h4, h5⟩ := M.bind_ok.1 h3
      obtain ⟨_, s4, _, h7⟩ := M.bind_ok.1 h5
      simp at h7
      rw [← h7.1]
      cases h : s.store.keys with
      | some k' => rw [h] at h4; simp at h4; rw [← h4.1]; exact (hk k' h).1
      | none =>
        rw [h] at h4
        obtain ⟨n, s5, _, h8⟩ := M.bind_ok.1 h4
        obtain ⟨k', h9, h10⟩ := hn n
        rw [h9] at h8
        obtain ⟨_, s6, _, h12⟩ := M.bind_ok.1 h8
        simp at h12
        rw [← h12.1]
        exact h10.1
    simpa using this

/-- The configuration gives the Primary a usable serial and a usable hardware identifier, and no
two ECUs the same serial. -/
structure Sound (env : Env) (cfg : Config) (secondaries : List (String × Secondary)) : Prop where
  serial : ∀ p, 0 < (if cfg.primarySerial = "" then env.keyId p else cfg.primarySerial).utf8ByteSize ∧
    (if cfg.primarySerial = "" then env.keyId p else cfg.primarySerial).utf8ByteSize ≤ 64
  hw : (if cfg.primaryHwId = "" then cfg.hostname else cfg.primaryHwId) ≠ "" ∧
    (if cfg.primaryHwId = "" then cfg.hostname else cfg.primaryHwId).utf8ByteSize ≤ 200
  nodup : ∀ p, ((configured env cfg secondaries p).map Prod.fst).Nodup
  type : cfg.keyType ≠ .unknown
  key : ∀ n, ∃ k, env.newKey n = some k ∧ KeyOk env cfg.keyType k.1
  secs : ∀ x ∈ secondaries, PubOk env x.2.key

theorem saveMisconfigured_goes {l : List (String × String)} {s : St σ} : Goes (saveMisconfigured l) l.length s := by
  induction l generalizing s with
  | nil => exact .pure _ _
  | cons e r ih =>
    unfold saveMisconfigured
    exact (Goes.bind (n := 1) .write (fun _ _ _ => ih)).mono (by simp; omega)

theorem initEcuSerials_goes {s : St σ} (hs : Sound env cfg secondaries) (k : String × String)
    (hk : s.store.keys = some k) (ho : KeyOk env cfg.keyType k.1) :
    Goes (initEcuSerials env cfg secondaries) s.store.ecus.length s := by
  unfold initEcuSerials
  refine (Goes.bind (n := 0) .gets ?_).mono (Nat.le_of_eq (Nat.zero_add s.store.ecus.length))
  intro st s1 h1
  simp at h1
  obtain ⟨rfl, rfl⟩ := h1
  refine (Goes.bind (n := 0) (m := primarySerial env cfg) ?_ ?_).mono (Nat.le_of_eq (Nat.zero_add _))
  · unfold primarySerial
    split
    · exact .pure _ _
    · exact (Goes.bind (n := 0) (k := 0) (uptanePublicKey_goes ⟨k, hk, ho⟩) (fun _ _ _ => .pure _ _))
  intro x s1 h1
  obtain ⟨hx, rfl⟩ := primarySerial_run hk h1
  dsimp only
  have hw := hs.hw
  have hh : (if cfg.primaryHwId != "" then cfg.primaryHwId else cfg.hostname) =
      if cfg.primaryHwId = "" then cfg.hostname else cfg.primaryHwId := by
    by_cases h : cfg.primaryHwId = "" <;> simp [h]
  rw [hh]
  refine (Goes.bind (n := 0) (.throwWhen ?_) ?_).mono (Nat.le_of_eq (Nat.zero_add _))
  · simpa using hw.1
  intro _ s2 h2
  obtain ⟨_, rfl⟩ := throwWhen_run h2
  have hp := hs.serial k.1
  rw [← hx] at hp
  refine (Goes.bind (n := 0) ?_ ?_).mono (Nat.le_of_eq (Nat.zero_add _))
  · unfold ecuSerial
    refine (Goes.bind (n := 0) (k := 0) (.throwWhen ?_) (fun _ _ _ => Goes.bind (n := 0) (k := 0) (.throwWhen ?_) (fun _ _ _ => .pure _ _)))
    · simp; intro h0; rw [h0] at hp; simp at hp
    · simp; exact hp.2
  intro x' s3 h3
  obtain ⟨rfl, rfl⟩ := ecuSerial_run h3
  refine (Goes.bind (n := 0) ?_ ?_).mono (Nat.le_of_eq (Nat.zero_add _))
  · unfold hardwareId
    refine (Goes.bind (n := 0) (k := 0) (.throwWhen ?_) (fun _ _ _ => .pure _ _))
    simpa using hw.2
  intro y s4 h4
  obtain ⟨rfl, rfl⟩ := hardwareId_run h4
  split
  · exact (Goes.pure _ _).mono (by omega)
  · refine (Goes.bind (k := 0) saveMisconfigured_goes (fun _ _ _ => .pure _ _)).mono ?_
    exact List.length_filter_le _ _

/-- The keys stored for Secondaries can be read. -/
def SecsOk (env : Env) (t : Store) : Prop :=
  ∀ x r, (x, r) ∈ t.secs → r.keyType = "" ∨ PubOk env ⟨r.key, keyTypeOf r.keyType⟩

theorem loadInfo_goes {x : String} {s : St σ} (h : SecsOk env s.store) : Goes (loadSecondaryInfo env x) 0 s := by
  unfold loadSecondaryInfo
  refine (Goes.bind (n := 0) (k := 0) .gets ?_)
  intro t s1 h1
  simp at h1
  obtain ⟨rfl, rfl⟩ := h1
  cases s.store.ecus.tail.lookup x with
  | none => exact .pure _ _
  | some hw =>
    dsimp only
    refine (Goes.bind (n := 0) (k := 0) ?_ (fun _ _ _ => .pure _ _))
    split
    · exact .pure _ _
    · rename_i hne
      apply publicKey_goes
      cases hl : s.store.secs.lookup x with
      | none => rw [hl] at hne; exact absurd rfl hne
      | some r =>
        obtain ⟨l1, l2, hm, _⟩ := List.lookup_eq_some_iff.1 hl
        rcases h x r (by rw [hm]; simp) with h | h
        · rw [hl] at hne; exact absurd h hne
        · exact h

theorem saveInfo_goes {i : Info} {s : St σ}
    (h : (s.store.secs.lookup i.serial).isSome = true ∨ (s.store.ecus.tail.lookup i.serial).isSome = true) :
    Goes (saveSecondaryInfo i) 1 s := by
  unfold saveSecondaryInfo
  refine (Goes.bind (n := 0) (k := 1) .gets ?_).mono (by omega)
  intro t s1 h1
  simp at h1
  obtain ⟨rfl, rfl⟩ := h1
  refine (Goes.bind (n := 0) (k := 1) (.throwWhen ?_) (fun _ _ _ => .write)).mono (by omega)
  rcases h with h | h
  · cases h2 : s.store.secs.lookup i.serial with
    | none => rw [h2] at h; simp at h
    | some _ => rfl
  · cases h2 : s.store.ecus.tail.lookup i.serial with
    | none => rw [h2] at h; simp at h
    | some _ => simp

theorem lookup_isSome {α : Type} {l : List (String × α)} {x : String} (h : x ∈ l.map Prod.fst) :
    (l.lookup x).isSome = true := by
  induction l with
  | nil => simp at h
  | cons r l ih =>
    rw [List.lookup_cons]
    by_cases hx : x = r.1
    · simp [hx]
    · have : (x == r.1) = false := by simpa using hx
      rw [this]
      apply ih
      simpa [hx] using h

theorem keyTypeOf_name (k : KeyType) : keyTypeOf (keyTypeName k) = k := by
  cases k <;> decide

theorem mem_put {α : Type} {k : String} {v : α} {t : List (String × α)} {r : String × α} (h : r ∈ put k v t) :
    r ∈ t ∨ r = (k, v) := by
  unfold put at h
  split at h
  · simp only [List.mem_map] at h
    obtain ⟨a, ha, hr⟩ := h
    split at hr
    · exact .inr hr.symm
    · exact .inl (hr ▸ ha)
  · simp only [List.mem_append, List.mem_singleton] at h
    exact h

theorem SecsOk.put {t : Store} (h : SecsOk env t) {i : Info} (hi : PubOk env i.key) :
    SecsOk env { t with secs := put i.serial ⟨i.type, keyTypeName i.key.type, i.key.value⟩ t.secs } := by
  intro x r hm
  rcases mem_put hm with hm | hm
  · exact h x r hm
  · simp only [Prod.mk.injEq] at hm
    obtain ⟨_, rfl⟩ := hm
    right
    simp only [keyTypeOf_name]
    exact hi

theorem secInfo_goes {b : Bool} {x : String × Secondary} {s : St σ} (hs : SecsOk env s.store)
    (hb : b = false → (s.store.ecus.tail.lookup x.1).isSome = true) :
    Goes (secondaryInfo env b x) 1 s := by
  unfold secondaryInfo
  refine (Goes.bind (n := 0) (k := 1) (loadInfo_goes hs) ?_).mono (by omega)
  intro i s1 h1
  obtain ⟨rfl, hi⟩ := loadInfo_run h1
  cases hf : i.filter (fun i => i.type != "" && i.key.type != .unknown) with
  | some _ => exact (Goes.pure _ _).mono (by omega)
  | none =>
    dsimp only
    cases b with
    | true => exact (Goes.bind (n := 0) (k := 0) (.pure _ _) (fun _ _ _ => .pure _ _)).mono (by omega)
    | false =>
      simp only [Bool.not_false, if_true]
      exact (Goes.bind (n := 1) (k := 0) (saveInfo_goes (.inr (hb rfl))) (fun _ _ _ => .pure _ _))

theorem secsOk_tr {a b : St σ} (h : Tr env server cfg secondaries a b) (hs : ∀ x ∈ secondaries, PubOk env x.2.key)
    (ha : SecsOk env a.store) : SecsOk env b.store := by
  refine h.inv (I := fun s => SecsOk env s.store) ?_ ha
  intro x y hc hx
  cases hc with
  | sec i n g1 g2 =>
    refine hx.put ?_
    rcases g2 with g2 | ⟨z, hz, g2⟩
    · exact g2
    · rw [g2]; exact hs z hz
  | _ => exact hx

theorem initSecInfo_goes {server : Server σ} {b : Bool} {l : List (String × Secondary)} {s : St σ}
    (hl : ∀ x ∈ l, PubOk env x.2.key) (hs : SecsOk env s.store)
    (hb : b = false → ∀ x ∈ l, (s.store.ecus.tail.lookup x.1).isSome = true) :
    Goes (initSecondaryInfo env b l) l.length s := by
  induction l generalizing s with
  | nil => exact .pure _ _
  | cons x r ih =>
    unfold initSecondaryInfo
    refine (Goes.bind (n := 1) (k := r.length) (secInfo_goes hs (fun h => hb h x (by simp))) ?_).mono (by simp; omega)
    intro i s1 h1
    have htr := secInfo_tr (env := env) (server := server) (cfg := { }) (secondaries := x :: r) (b := b) (x := x)
      (s := s) (by simp)
    rw [h1] at htr
    have hs1 := secsOk_tr htr hl hs
    obtain ⟨_, ⟨m, n, rfl⟩, _⟩ := secInfo_ok h1
    refine (Goes.bind (k := 0) (ih (fun y hy => hl y (by simp [hy])) hs1 ?_) (fun _ _ _ => .pure _ _))
    exact fun h y hy => hb h y (by simp [hy])

theorem saveAll_goes {l : List Info} {s : St σ}
    (h : ∀ i ∈ l, (s.store.ecus.tail.lookup i.serial).isSome = true) : Goes (saveAll l) l.length s := by
  induction l generalizing s with
  | nil => exact .pure _ _
  | cons i r ih =>
    unfold saveAll
    refine (Goes.bind (n := 1) (k := r.length) (saveInfo_goes (.inr (h i (by simp)))) ?_).mono (by simp; omega)
    intro _ s1 h1
    obtain ⟨m, n, rfl⟩ := saveInfo_frame h1
    exact ih (fun j hj => h j (by simp [hj]))

theorem register_goes {b : Bool} {k : String × String} {is : List Info} {s : St σ} (hs : Sound env cfg secondaries)
    (hk : s.store.keys = some k) (ho : KeyOk env cfg.keyType k.1) (hd : s.store.device.isSome = true)
    (ha : ∀ srv c p l, ∃ body, (server srv c (.ecus p l)).1 = .ok body)
    (his : is.map (fun i => i.serial) = secondaries.map Prod.fst) :
    Goes (initEcuRegister env server cfg (configured env cfg secondaries k.1) b is) (3 + secondaries.length) s := by
  unfold initEcuRegister
  cases b with
  | false => exact (Goes.pure _ _).mono (by omega)
  | true =>
    simp only [Bool.not_true, Bool.false_eq_true, if_false]
    refine (Goes.bind (n := 0) (k := 3 + secondaries.length) (uptanePublicKey_goes ⟨k, hk, ho⟩) ?_).mono (by omega)
    intro p s1 h1
    obtain ⟨rfl, v, hv, rfl⟩ := uptanePublicKey_run h1
    refine (Goes.bind (n := 0) (k := 3 + secondaries.length) (.throwWhen ?_) ?_).mono (by omega)
    · simpa using hs.type
    intro _ s2 h2
    obtain ⟨_, rfl⟩ := throwWhen_run h2
    refine (Goes.bind (n := 1) (k := 2 + secondaries.length) .post ?_).mono (by omega)
    intro r s3 h3
    obtain ⟨hr, n, rfl⟩ := post_ok h3
    obtain ⟨body, hbody⟩ := ha s2.srv s2.http _ _
    rw [hbody] at hr
    subst hr
    dsimp only
    refine (Goes.bind (n := 1) (k := 1 + secondaries.length) ?_ ?_).mono (by omega)
    · unfold storeEcuSerials
      rw [if_neg (by simp [configured]), if_pos (hs.nodup k.1)]
      exact .write
    intro _ s4 h4
    unfold storeEcuSerials at h4
    rw [if_neg (by simp [configured]), if_pos (hs.nodup k.1)] at h4
    obtain ⟨_, _, rfl⟩ := write_ok h4
    have hlen : is.length = secondaries.length := by simpa using congrArg List.length his
    refine (Goes.bind (n := secondaries.length) (k := 1) ?_ ?_).mono (by omega)
    · rw [← hlen]
      apply saveAll_goes
      intro i hi
      apply lookup_isSome
      have hm : i.serial ∈ is.map (fun i => i.serial) := List.mem_map_of_mem hi
      rw [his] at hm
      simpa [configured] using hm
    intro _ s5 h5
    obtain ⟨m, n5, rfl⟩ := saveAll_frame h5
    unfold storeEcuRegistered
    refine (Goes.bind (n := 0) (k := 1) .gets ?_).mono (by omega)
    intro d s6 h6
    simp at h6
    obtain ⟨rfl, rfl⟩ := h6
    refine (Goes.bind (n := 0) (k := 1) (.throwWhen ?_) (fun _ _ _ => .write)).mono (by omega)
    cases h : s2.store.device with
    | none => rw [h] at hd; simp at hd
    | some _ => rfl

/-- After a registration the table has the configured ECUs, if no two of them have the same serial. -/
theorem register_ok {b : Bool} {new : List (String × String)} {is : List Info} {s s' : St σ} {u : Unit}
    (h : initEcuRegister env server cfg new b is s = (.ok u, s')) (hne : new ≠ []) (hn : (new.map Prod.fst).Nodup) :
    s'.store.ecus = (if b then new else s.store.ecus) ∧ s'.store.keys = s.store.keys ∧
      s'.store.device.map Prod.fst = s.store.device.map Prod.fst ∧ own s'.store = own s.store := by
  unfold initEcuRegister at h
  cases b with
  | false => simp at h; rw [← h]; exact ⟨rfl, rfl, rfl, rfl⟩
  | true =>
    simp only [Bool.not_true, Bool.false_eq_true, if_false] at h
    obtain ⟨p, s1, e1, h2⟩ := M.bind_ok.1 h
    obtain ⟨_, s2, e2, h4⟩ := M.bind_ok.1 h2
    obtain ⟨r, s3, e3, h6⟩ := M.bind_ok.1 h4
    obtain ⟨rfl, _⟩ := uptanePublicKey_run e1
    obtain ⟨_, rfl⟩ := throwWhen_run e2
    obtain ⟨_, _, rfl⟩ := post_ok e3
    cases r with
    | odd => simp at h6
    | refused code => simp at h6
    | ok body =>
      dsimp only at h6
      obtain ⟨_, s4, h7, h8⟩ := M.bind_ok.1 h6
      obtain ⟨_, s5, h9, h10⟩ := M.bind_ok.1 h8
      unfold storeEcuSerials at h7
      rw [if_neg hne, if_pos hn] at h7
      obtain ⟨_, _, rfl⟩ := write_ok h7
      obtain ⟨m, n, rfl⟩ := saveAll_frame h9
      unfold storeEcuRegistered at h10
      obtain ⟨d, s6, h11, h12⟩ := M.bind_ok.1 h10
      simp at h11
      obtain ⟨rfl, rfl⟩ := h11
      obtain ⟨_, s7, h13, h14⟩ := M.bind_ok.1 h12
      obtain ⟨_, rfl⟩ := throwWhen_run h13
      obtain ⟨_, _, rfl⟩ := write_ok h14
      refine ⟨rfl, rfl, ?_, rfl⟩
      show (s2.store.device.map _).map _ = _
      cases s2.store.device <;> rfl

theorem counter_goes {s : St σ} (h : s.store.ecus ≠ []) : Goes initEcuReportCounter 1 s := by
  unfold initEcuReportCounter
  refine (Goes.bind (n := 0) (k := 1) .gets ?_).mono (by omega)
  intro t s1 h1
  simp at h1
  obtain ⟨rfl, rfl⟩ := h1
  split
  · exact (Goes.pure _ _).mono (by omega)
  · cases he : s.store.ecus with
    | nil => exact absurd he h
    | cons e r => exact .write

theorem counter_ok {s s' : St σ} {u : Unit} (h : initEcuReportCounter s = (.ok u, s')) :
    s'.store.ecus = s.store.ecus ∧ s'.store.keys = s.store.keys ∧ ∃ c ∈ s'.store.counters, ∃ e ∈ s'.store.ecus, e.1 = c.1 := by
  unfold initEcuReportCounter at h
  obtain ⟨t, s1, h1, h2⟩ := M.bind_ok.1 h
  simp at h1
  obtain ⟨rfl, rfl⟩ := h1
  split at h2
  · rename_i hc
    simp at h2
    subst h2
    simp only [List.any_eq_true, beq_iff_eq] at hc
    exact ⟨rfl, rfl, hc⟩
  · cases he : s.store.ecus with
    | nil => rw [he] at h2; simp at h2
    | cons e r =>
      rw [he] at h2
      obtain ⟨_, _, rfl⟩ := write_ok h2
      refine ⟨he, rfl, (e.1, 0), ?_, e, by simp [he], rfl⟩
      show (e.1, (0 : Int)) ∈ put e.1 0 s.store.counters
      unfold put
      split
      · rename_i ha
        simp only [List.any_eq_true, beq_iff_eq] at ha
        obtain ⟨c, hc, hce⟩ := ha
        refine List.mem_map.2 ⟨c, hc, ?_⟩
        simp [hce]
      · simp

/-- What `rest` needs to get to its end. -/
theorem rest_goes {s : St σ} (L : Nat) (hs : Sound env cfg secondaries) (hr : Ready s)
    (hk : ∀ k, s.store.keys = some k → KeyOk env cfg.keyType k.1) (hd : s.store.device.isSome = true)
    (ha : ∀ srv c p l, ∃ body, (server srv c (.ecus p l)).1 = .ok body) (hsec : SecsOk env s.store)
    (hL : s.store.ecus.length ≤ L)
    (hp : ∀ e, s.store.ecus.head? = some e → e.1 ∉ secondaries.map Prod.fst) :
    Goes (rest env server cfg secondaries) (5 + L + 2 * secondaries.length) s := by
  unfold rest
  refine (Goes.bind (n := 1) (k := 4 + L + 2 * secondaries.length) (initKeys_goes hk hs.key) ?_).mono (by omega)
  intro _ s1 h1
  have t1 := initKeys_tr (env := env) (server := server) (cfg := cfg) (secondaries := secondaries) (s := s)
  rw [h1] at t1
  obtain ⟨k, hk1, hk2, hk3, he1⟩ := initKeys_ok h1
  have hko : KeyOk env cfg.keyType k.1 := by
    rcases hk3 with h | h
    · refine (t1.inv (I := fun s => ∀ k, s.store.keys = some k → KeyOk env cfg.keyType k.1) ?_ hk) k hk1
      intro a b hc ha
      cases hc with
      | key k' m n g1 g2 =>
        obtain ⟨k'', h3, h4⟩ := hs.key m
        rw [h3] at g2
        obtain rfl := Option.some.inj g2
        intro k h
        obtain rfl := Option.some.inj h
        exact h4
      | _ => exact ha
    · exact hk k h
  have hr1 := (t1.ready hr).1
  have hn1 : s.http ≠ .shared := hr.2 ▸ own_ne _
  have hsec1 := secsOk_tr t1 hs.secs hsec
  refine (Goes.bind (n := L) (k := 4 + 2 * secondaries.length)
    ((initEcuSerials_goes hs k hk1 hko).mono (by rw [he1]; exact hL)) ?_).mono (by omega)
  intro n s2 h2
  obtain ⟨hn, hreg, m2, f2, rfl⟩ := initEcuSerials_ok hk1 h2
  refine Goes.mono (n := secondaries.length + (4 + secondaries.length)) ?_ (by omega)
  refine Goes.bind (initSecInfo_goes (server := server) hs.secs hsec1 ?_) ?_
  · intro hb x hx
    show (s1.store.ecus.tail.lookup x.1).isSome = true
    apply lookup_isSome
    have hb' : ¬ (s1.store.ecus = [] ∨ ¬ SameEcus s1.store.ecus (configured env cfg secondaries k.1)) := by
      rw [← hreg, hb]; simp
    simp only [not_or, Classical.not_not] at hb'
    obtain ⟨hne, hsame⟩ := hb'
    have hmem : (x.1, x.2.hwId) ∈ s1.store.ecus := by
      apply (hsame _).2
      simp only [configured, List.mem_cons, List.mem_map]
      exact .inr ⟨x, hx, rfl⟩
    rw [he1] at hmem ⊢
    cases hec : s.store.ecus with
    | nil => rw [hec] at hmem; simp at hmem
    | cons e r =>
      rw [hec] at hmem
      rcases List.mem_cons.1 hmem with h | h
      · exact absurd (List.mem_map_of_mem hx) (h ▸ hp e (by rw [hec]; rfl))
      · exact List.mem_map_of_mem h
  intro is s3 h3
  obtain ⟨hi, ⟨m3, f3, rfl⟩, _, _⟩ := initSecInfo_ok h3
  have hd1 : s1.store.device.isSome = true := by
    cases hd2 : s.store.device with
    | none => rw [hd2] at hd; simp at hd
    | some d =>
      obtain ⟨r', h⟩ := (tr_isOk t1 hr.1 hn1).2.2.2.1 d.1 d.2 hd2
      rw [h]; rfl
  rw [hn]
  refine Goes.mono (n := 3 + secondaries.length + 1) ?_ (by omega)
  refine Goes.bind (register_goes hs hk1 hko hd1 ha hi) ?_
  intro _ s4 h4
  apply counter_goes
  rw [(register_ok h4 (by simp [configured]) (hs.nodup k.1)).1]
  split
  · simp [configured]
  · rename_i hb
    have hb' : ¬ (s1.store.ecus = [] ∨ ¬ SameEcus s1.store.ecus (configured env cfg secondaries k.1)) := by
      rw [← hreg]; exact hb
    exact fun h => hb' (.inl h)

/-- What a completed `rest` leaves. -/
theorem rest_ok {s s' : St σ} {u : Unit} (h : rest env server cfg secondaries s = (.ok u, s'))
    (hnd : ∀ p, ((configured env cfg secondaries p).map Prod.fst).Nodup) :
    ∃ k, s'.store.keys = some k ∧ k.1 ≠ "" ∧ SameEcus s'.store.ecus (configured env cfg secondaries k.1) ∧
      ∃ c ∈ s'.store.counters, ∃ e ∈ s'.store.ecus, e.1 = c.1 := by
  unfold rest at h
  obtain ⟨_, s1, h1, g1⟩ := M.bind_ok.1 h
  obtain ⟨k, hk, hk2, _, _⟩ := initKeys_ok h1
  obtain ⟨n, s2, h2, g2⟩ := M.bind_ok.1 g1
  obtain ⟨hn, hreg, m2, f2, rfl⟩ := initEcuSerials_ok hk h2
  obtain ⟨is, s3, h3, g3⟩ := M.bind_ok.1 g2
  obtain ⟨hi, ⟨m3, f3, rfl⟩, _, _⟩ := initSecInfo_ok h3
  obtain ⟨_, s4, h4, h5⟩ := M.bind_ok.1 g3
  rw [hn] at h4
  obtain ⟨he, hk4, _⟩ := register_ok h4 (by simp [configured]) (hnd k.1)
  obtain ⟨hc1, hck, hc2⟩ := counter_ok h5
  refine ⟨k, ?_, hk2, ?_, hc2⟩
  · rw [hck, hk4]; exact hk
  · rw [hc1, he]
    by_cases hb : n.2 = true
    · rw [if_pos hb]; exact fun e => Iff.rfl
    · rw [if_neg hb]
      have hb' : ¬ (s1.store.ecus = [] ∨ ¬ SameEcus s1.store.ecus (configured env cfg secondaries k.1)) := by
        rw [← hreg]; exact hb
      simp only [not_or, Classical.not_not] at hb'
      exact hb'.2

/-! ## The whole -/

/-- What the storage has to be like for an initialisation to get to its end. -/
structure Sane (env : Env) (cfg : Config) (secondaries : List (String × Secondary)) (t : Store) : Prop where
  keys : ∀ k, t.keys = some k → KeyOk env cfg.keyType k.1
  secs : SecsOk env t
  creds : isOk t = true ∨ t.shared = true
  primary : ∀ e, t.ecus.head? = some e → e.1 ∉ secondaries.map Prod.fst

theorem Sane.device {t : Store} {d : Option (String × Bool)} (h : Sane env cfg secondaries t) :
    Sane env cfg secondaries { t with device := d } := ⟨h.keys, h.secs, h.creds, h.primary⟩

theorem isOccupied_ok {m : P σ Unit} {s s' : St σ} {u : Unit} (h : m s = (.ok u, s')) :
    isOccupied m s = (.ok false, s') := by
  unfold isOccupied
  rw [h]

theorem isOccupied_err {m : P σ Unit} {s s' : St σ} (h : m s = (.error occupied, s')) :
    isOccupied m s = (.ok true, s') := by
  unfold isOccupied
  rw [h]
  simp

/-- An attempt gets to its end if the server accepts the device. -/
theorem attempt_goes {n : Nat} {s : St σ} (L : Nat) (hs : Sound env cfg secondaries)
    (hm : cfg.mode ≠ .deviceCred) (ht : Sane env cfg secondaries s.store) (hL : s.store.ecus.length ≤ L)
    (ha : ∀ srv c p l, ∃ body, (server srv c (.ecus p l)).1 = .ok body)
    (hdev : isOk s.store = false → ∀ s' u d, initDeviceId env cfg s = (.ok u, s') → s'.store.device = some d →
      Accepts env (server s'.srv .shared (.device d.1)).1) :
    Goes (attempts env server cfg secondaries (n + 1)) (11 + L + 2 * secondaries.length) s := by
  unfold attempts
  intro hf
  obtain ⟨u1, s1, h1, hf1⟩ := initDeviceId_goes (env := env) (s := s) hm (by omega)
  have hd1 := initDeviceId_some h1
  obtain ⟨d1, hd⟩ := Option.isSome_iff_exists.1 hd1
  have hdev := fun h => hdev h s1 _ d1 h1 hd
  obtain ⟨d, m, f, rfl⟩ := initDeviceId_frame h1
  have hsane : Sane env cfg secondaries { s.store with device := d } := ht.device
  obtain ⟨s2, h2, hf2, hd2, hk2, he2, hs2⟩ := tls_goes (env := env) (server := server) (cfg := cfg) d1 hd
    (by rcases hsane.creds with h | h
        · exact .inl h
        · exact .inr ⟨hm, h⟩)
    (fun h => hdev h) (by omega)
  have hrest := rest_goes (server := server) (s := s2) L hs (tls_post h2) (by rw [hk2]; exact hsane.keys) (by rw [hd2]; rfl) ha
    (by unfold SecsOk; rw [hs2]; exact hsane.secs) (by rw [he2]; exact hL) (by rw [he2]; exact hsane.primary)
  obtain ⟨u3, s3, h3, hf3⟩ := hrest (by omega)
  refine ⟨u3, s3, ?_, by omega⟩
  rw [M.run_bind h1, M.run_bind (isOccupied_ok h2)]
  exact h3

/-- An initialisation gets to its end if the server accepts every device, or refuses some names, but
not the random ones, and no certificate is in the storage that tells a name. -/
theorem initialize_goes {s : St σ} (L : Nat) (hs : Sound env cfg secondaries)
    (hm : cfg.mode ≠ .deviceCred) (ht : Sane env cfg secondaries s.store) (hL : s.store.ecus.length ≤ L)
    (ha : ∀ srv c p l, ∃ body, (server srv c (.ecus p l)).1 = .ok body)
    (hdev : ∀ srv d, Accepts env (server srv .shared (.device d)).1 ∨
      ((server srv .shared (.device d)).1 = .refused (some "device_already_registered") ∧
        cfg.deviceId = "" ∧ s.store.cert = none ∧ ∀ srv n, Accepts env (server srv .shared (.device (env.newName n))).1)) :
    Goes (initialize' env server cfg secondaries) (14 + L + 2 * secondaries.length) s := by
  intro hf
  unfold initialize'
  by_cases hall : isOk s.store = true ∨ ∀ s' u d, initDeviceId env cfg s = (.ok u, s') → s'.store.device = some d →
      Accepts env (server s'.srv .shared (.device d.1)).1
  · refine (attempt_goes L hs hm ht hL ha ?_).mono (by omega) hf
    intro hk
    rcases hall with h | h
    · rw [hk] at h; simp at h
    · exact h
  · simp only [not_or] at hall
    obtain ⟨hk, hn⟩ := hall
    have hk : isOk s.store = false := by simpa using hk
    obtain ⟨u1, s1, h1, hf1⟩ := initDeviceId_goes (env := env) (s := s) hm (by omega)
    have hd1 := initDeviceId_some h1
    obtain ⟨d1, hd⟩ := Option.isSome_iff_exists.1 hd1
    have hna : ¬ Accepts env (server s1.srv .shared (.device d1.1)).1 := by
      intro hacc
      apply hn
      intro s' u d g1 g2
      rw [h1] at g1
      simp at g1
      subst g1
      rw [hd] at g2
      obtain rfl := Option.some.inj g2
      exact hacc
    obtain ⟨hr, hid, hcert, hfree⟩ := (hdev s1.srv d1.1).resolve_left hna
    obtain ⟨d, m, f, rfl⟩ := initDeviceId_frame h1
    have hsh : s.store.shared = true := by
      rcases ht.creds with h | h
      · rw [hk] at h; simp at h
      · exact h
    obtain ⟨s2, h2, hf2, hs2⟩ := tls_taken (env := env) (server := server) (cfg := cfg) d1 hd hk hm hsh hr (by omega)
    obtain ⟨u3, s3, h3, hf3⟩ := Goes.write (f := fun t => { t with device := none }) (s := s2) (by omega)
    obtain ⟨n3, hn3, rfl⟩ := write_ok h3
    have hst : ({ s2.store with device := none } : Store) = { s.store with device := none } := by rw [hs2]
    have hgo := attempt_goes (env := env) (server := server) (cfg := cfg) (secondaries := secondaries) (n := 1)
      (s := { s2 with store := { s2.store with device := none }, fuel := n3 }) L hs hm
      (by rw [hst]; exact ht.device) (by rw [hst]; exact hL) ha ?_
    · obtain ⟨u4, s4, h4, hf4⟩ := hgo (by simp at hf1 hf2 ⊢; omega)
      refine ⟨u4, s4, ?_, by simp at hf1 hf2 hf4 ⊢; omega⟩
      unfold attempts
      rw [M.run_bind h1, M.run_bind (isOccupied_err h2)]
      simp only [if_true]
      unfold resetDeviceId
      rw [M.run_bind h3]
      exact h4
    · intro _ s' u d' g1 g2
      obtain ⟨n, g3⟩ := initDeviceId_random g1 rfl hid (by show s2.store.cert = none; rw [hs2]; exact hcert)
      rw [g2] at g3
      obtain rfl := Option.some.inj g3
      exact hfree _ n

/-- A completed registration of the device leaves its id alone and, if it had to be made, removes the
shared credentials unless they are to be used again. -/
theorem tls_frame {s s' : St σ} {u : Unit} (h : initTlsCreds env server cfg s = (.ok u, s')) :
    s'.store.device = s.store.device ∧
      (isOk s.store = false → cfg.mode = .sharedCred → s'.store.shared = false) := by
  unfold initTlsCreds at h
  obtain ⟨b, s1, h1, h2⟩ := M.bind_ok.1 h
  obtain ⟨hb, hs1⟩ := loadSet_ok h1
  cases b with
  | true =>
    simp at h2
    subst h2
    rw [← hb] at hs1 ⊢
    subst hs1
    exact ⟨rfl, by simp⟩
  | false =>
    rw [← hb] at hs1
    simp at hs1
    subst hs1
    simp only [Bool.false_eq_true, if_false] at h2
    obtain ⟨_, s2, e2, h3⟩ := M.bind_ok.1 h2
    obtain ⟨_, rfl⟩ := throwWhen_run e2
    obtain ⟨_, s3, e3, h4⟩ := M.bind_ok.1 h3
    simp at e3
    obtain ⟨rfl, rfl⟩ := e3
    obtain ⟨_, s4, e4, h5⟩ := M.bind_ok.1 h4
    obtain ⟨_, rfl⟩ := throwWhen_run e4
    obtain ⟨_, s5, e5, h6⟩ := M.bind_ok.1 h5
    simp at e5
    subst e5
    obtain ⟨_, s6, e6, h7⟩ := M.bind_ok.1 h6
    simp at e6
    obtain ⟨rfl, rfl⟩ := e6
    obtain ⟨_, s7, e7, h8⟩ := M.bind_ok.1 h7
    obtain ⟨_, rfl⟩ := M.orThrow_ok.1 e7
    obtain ⟨r, s8, e8, h9⟩ := M.bind_ok.1 h8
    obtain ⟨_, _, rfl⟩ := post_ok e8
    cases r with
    | odd => simp at h9
    | refused code => simp at h9
    | ok body =>
      dsimp only at h9
      obtain ⟨_, s9, e9, h10⟩ := M.bind_ok.1 h9
      obtain ⟨_, rfl⟩ := M.orThrow_ok.1 e9
      obtain ⟨_, s10, e10, h11⟩ := M.bind_ok.1 h10
      obtain ⟨_, _, rfl⟩ := write_ok e10
      obtain ⟨_, s11, e11, h12⟩ := M.bind_ok.1 h11
      obtain ⟨_, _, rfl⟩ := write_ok e11
      obtain ⟨_, s12, e12, h13⟩ := M.bind_ok.1 h12
      obtain ⟨_, _, rfl⟩ := write_ok e12
      obtain ⟨b2, s13, h14, h15⟩ := M.bind_ok.1 h13
      obtain ⟨_, s14, h16, h17⟩ := M.bind_ok.1 h15
      obtain ⟨hb2, rfl⟩ := throwWhen_run h16
      obtain ⟨hb3, hs13⟩ := loadSet_ok h14
      split at hs13 <;> subst hs13 <;> split at h17
      all_goals first
        | (obtain ⟨_, _, rfl⟩ := write_ok h17
           exact ⟨rfl, fun _ _ => rfl⟩)
        | (rename_i hmode
           simp at h17
           subst h17
           simp at hmode
           exact ⟨rfl, fun _ h => by rw [hmode] at h; simp at h⟩)

/-- A completed initialisation went through a registration of the device and all that follows. -/
theorem attempts_ok {n : Nat} {s s' : St σ} {u : Unit} (h : attempts env server cfg secondaries n s = (.ok u, s')) :
    ∃ s1 s2 u2, isOk s1.store = isOk s.store ∧ s1.store.device.isSome = true ∧
      initTlsCreds env server cfg s1 = (.ok u2, s2) ∧ rest env server cfg secondaries s2 = (.ok u, s') := by
  induction n generalizing s with
  | zero => simp [attempts] at h
  | succ n ih =>
    unfold attempts at h
    obtain ⟨u1, s1, h1, h2⟩ := M.bind_ok.1 h
    have hd := initDeviceId_some h1
    have hk : isOk s1.store = isOk s.store := by
      obtain ⟨d, m, f, rfl⟩ := initDeviceId_frame h1
      exact (isOk_congr rfl rfl rfl).1
    obtain ⟨b, s2, h3, h4⟩ := M.bind_ok.1 h2
    cases b with
    | false =>
      simp only [Bool.false_eq_true, if_false] at h4
      obtain ⟨u2, h5⟩ := isOccupied_false h3
      exact ⟨s1, s2, u2, hk, hd, h5, h4⟩
    | true =>
      simp only [if_true] at h4
      obtain ⟨_, s3, h5, h6⟩ := M.bind_ok.1 h4
      obtain ⟨_, _, rfl⟩ := write_ok h5
      obtain ⟨a, b, c, g1, g2⟩ := ih h6
      have hst := (tls_occupied (isOccupied_true h3)).2.1
      refine ⟨a, b, c, ?_, g2⟩
      rw [g1, ← hk]
      exact (isOk_congr (by show s2.store.ca = _; rw [hst]) (by show s2.store.cert = _; rw [hst])
        (by show s2.store.pkey = _; rw [hst])).1

end Aktualizr.Prov
