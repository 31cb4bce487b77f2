import Verif.Model.Initializer
import Verif.Lemmas.Monad

/-! Every run of the initialiser is a sequence of small changes, each made only in certain
circumstances. -/

namespace Aktualizr.Prov

open M (gets modify throwWhen orThrow)

variable {σ : Type}

/-- The list of ECUs a configuration asks for, given the public key. -/
def configured (env : Env) (cfg : Config) (secondaries : List (String × Secondary)) (pub : String) :
    List (String × String) :=
  (if cfg.primarySerial = "" then env.keyId pub else cfg.primarySerial,
    if cfg.primaryHwId = "" then cfg.hostname else cfg.primaryHwId) :: secondaries.map (fun x => (x.1, x.2.hwId))

/-- The credentials in the storage. -/
def own (t : Store) : Creds := .device (t.ca.getD "") (t.cert.getD "") (t.pkey.getD "")

/-- Whether a public key can be made of a text and a type (`PublicKey(value, type)`). -/
def PubOk (env : Env) (k : PublicKey) : Prop :=
  k.type ∈ [KeyType.rsa2048, .rsa3072, .rsa4096] → k.type = env.rsaType k.value

/-- The changes an initialisation is made of, and when they are made. -/
inductive Chg (env : Env) (server : Server σ) (cfg : Config) (secondaries : List (String × Secondary)) :
    St σ → St σ → Prop
  | draw (s) (n) : Chg env server cfg secondaries s { s with drawn := n }
  | useShared (s) (h1 : isOk s.store = false) (h2 : cfg.mode ≠ .deviceCred) (h3 : s.store.shared = true) :
      Chg env server cfg secondaries s { s with http := .shared }
  | useOwn (s) (h1 : isOk s.store = true) : Chg env server cfg secondaries s { s with http := own s.store }
  | name (s) (id n) (h1 : s.store.device = none) (h2 : cfg.deviceId ≠ "" → id = cfg.deviceId)
      (h3 : cfg.deviceId = "" → cfg.mode = .deviceCred → ∃ c, s.store.cert = some c ∧ env.cn c = some id) :
      Chg env server cfg secondaries s { s with store := { s.store with device := some (id, false) }, fuel := n }
  | reset (s) (d r n) (h1 : s.store.device = some (d, r)) (h2 : s.http = .shared)
      (h3 : (.shared, .device d, .refused (some "device_already_registered")) ∈ s.log) :
      Chg env server cfg secondaries s { s with store := { s.store with device := none }, fuel := n }
  | ask (s) (d r n) (h1 : s.store.device = some (d, r)) (h2 : s.http = .shared) (h3 : cfg.mode ≠ .deviceCred) :
      Chg env server cfg secondaries s { s with
        srv := (server s.srv .shared (.device d)).2
        log := s.log ++ [(.shared, .device d, (server s.srv .shared (.device d)).1)]
        fuel := n }
  | ca (s) (d r body c n) (h1 : s.store.device = some (d, r)) (h2 : s.http = .shared)
      (h3 : (.shared, .device d, .ok body) ∈ s.log) (h4 : env.p12 body = some c) :
      Chg env server cfg secondaries s { s with store := { s.store with ca := some c.1 }, fuel := n }
  | cert (s) (d r body c n) (h1 : s.store.device = some (d, r)) (h2 : s.http = .shared)
      (h3 : (.shared, .device d, .ok body) ∈ s.log) (h4 : env.p12 body = some c) :
      Chg env server cfg secondaries s { s with store := { s.store with cert := some c.2.1 }, fuel := n }
  | pkey (s) (d r body c n) (h1 : s.store.device = some (d, r)) (h2 : s.http = .shared)
      (h3 : (.shared, .device d, .ok body) ∈ s.log) (h4 : env.p12 body = some c) :
      Chg env server cfg secondaries s { s with store := { s.store with pkey := some c.2.2 }, fuel := n }
  | clean (s) (n) (h1 : isOk s.store = true) (h2 : cfg.mode ≠ .sharedCredReuse)
      (h3 : s.http = own s.store) :
      Chg env server cfg secondaries s { s with store := { s.store with shared := false }, fuel := n }
  | key (s) (k m n) (h1 : s.store.keys = none) (h2 : env.newKey m = some k) :
      Chg env server cfg secondaries s { s with store := { s.store with keys := some k }, fuel := n }
  | gone (s) (k e n) (h1 : s.store.keys = some k) (h2 : e ∈ s.store.ecus)
      (h3 : e ∉ configured env cfg secondaries k.1) :
      Chg env server cfg secondaries s
        { s with store := { s.store with misconfigured := put e.1 e.2 s.store.misconfigured }, fuel := n }
  | sec (s) (i : Info) (n) (h1 : i.serial ∈ secondaries.map Prod.fst)
      (h2 : PubOk env i.key ∨ ∃ x ∈ secondaries, i.key = x.2.key) :
      Chg env server cfg secondaries s { s with
        store := { s.store with secs := put i.serial ⟨i.type, keyTypeName i.key.type, i.key.value⟩ s.store.secs }
        fuel := n }
  | register (s) (k) (l : List Ecu) (n) (h1 : isOk s.store = true) (h2 : s.http = own s.store) (h3 : s.store.keys = some k)
      (h4 : l.map (fun e => e.serial) = (configured env cfg secondaries k.1).map Prod.fst)
      (h5 : (l.head?.map (fun e => (e.hwId, e.key))) =
        some (((configured env cfg secondaries k.1).headD ("", "")).2, ⟨k.1, cfg.keyType⟩))
      (h6 : (∀ e ∈ s.store.ecus, e ∈ configured env cfg secondaries k.1) →
        (∀ e ∈ configured env cfg secondaries k.1, e ∈ s.store.ecus) → s.store.ecus = []) :
      Chg env server cfg secondaries s { s with
        srv := (server s.srv (own s.store) (.ecus ((configured env cfg secondaries k.1).headD ("", "")).1 l)).2
        log := s.log ++ [(own s.store, .ecus ((configured env cfg secondaries k.1).headD ("", "")).1 l,
          (server s.srv (own s.store) (.ecus ((configured env cfg secondaries k.1).headD ("", "")).1 l)).1)]
        fuel := n }
  | ecus (s) (k) (l : List Ecu) (b n) (h1 : s.store.keys = some k)
      (h2 : (own s.store, .ecus ((configured env cfg secondaries k.1).headD ("", "")).1 l, .ok b) ∈ s.log)
      (h3 : l.map (fun e => e.serial) = (configured env cfg secondaries k.1).map Prod.fst)
      (h4 : ((configured env cfg secondaries k.1).map Prod.fst).Nodup)
      (h6 : (∀ e ∈ s.store.ecus, e ∈ configured env cfg secondaries k.1) →
        (∀ e ∈ configured env cfg secondaries k.1, e ∈ s.store.ecus) → s.store.ecus = []) :
      Chg env server cfg secondaries s
        { s with store := { s.store with ecus := configured env cfg secondaries k.1 }, fuel := n }
  | registered (s) (p l b n) (h1 : (own s.store, .ecus p l, .ok b) ∈ s.log) :
      Chg env server cfg secondaries s
        { s with store := { s.store with device := s.store.device.map (fun d => (d.1, true)) }, fuel := n }
  | counter (s) (e r n) (h1 : s.store.ecus = e :: r)
      (h2 : ∀ c ∈ s.store.counters, ∀ x ∈ s.store.ecus, x.1 ≠ c.1) :
      Chg env server cfg secondaries s
        { s with store := { s.store with counters := put e.1 0 s.store.counters }, fuel := n }

/-- A sequence of changes. -/
inductive Tr (env : Env) (server : Server σ) (cfg : Config) (secondaries : List (String × Secondary)) :
    St σ → St σ → Prop
  | refl (s) : Tr env server cfg secondaries s s
  | step {a b c} : Chg env server cfg secondaries a b → Tr env server cfg secondaries b c →
      Tr env server cfg secondaries a c

theorem Tr.trans {env : Env} {server : Server σ} {cfg : Config} {secondaries : List (String × Secondary)} {a b c : St σ}
    (h1 : Tr env server cfg secondaries a b) (h2 : Tr env server cfg secondaries b c) :
    Tr env server cfg secondaries a c := by
  induction h1 with
  | refl => exact h2
  | step h _ ih => exact .step h (ih h2)

theorem Tr.one {env : Env} {server : Server σ} {cfg : Config} {secondaries : List (String × Secondary)} {a b : St σ}
    (h : Chg env server cfg secondaries a b) : Tr env server cfg secondaries a b := .step h (.refl _)

/-- What every change keeps, a run keeps. -/
theorem Tr.inv {env : Env} {server : Server σ} {cfg : Config} {secondaries : List (String × Secondary)}
    {I : St σ → Prop} (hI : ∀ a b, Chg env server cfg secondaries a b → I a → I b) {a b : St σ}
    (h : Tr env server cfg secondaries a b) (ha : I a) : I b := by
  induction h with
  | refl => exact ha
  | step h _ ih => exact ih (hI _ _ h ha)

/-- Credentials are complete and in use. -/
def Ready (s : St σ) : Prop := isOk s.store = true ∧ s.http = own s.store

theorem isOk_congr {t t' : Store} (h1 : t'.ca = t.ca) (h2 : t'.cert = t.cert) (h3 : t'.pkey = t.pkey) :
    isOk t' = isOk t ∧ own t' = own t := by
  simp [isOk, tls, own, h1, h2, h3]

theorem own_ne (t : Store) : own t ≠ .shared := by simp [own]

theorem ready_chg {env : Env} {server : Server σ} {cfg : Config} {secondaries : List (String × Secondary)}
    {c : Creds} {a b : St σ} (h : Chg env server cfg secondaries a b)
    (ha : Ready a ∧ own a.store = c) : Ready b ∧ own b.store = c := by
  obtain ⟨⟨h1, h2⟩, h3⟩ := ha
  have hn : a.http ≠ .shared := h2 ▸ own_ne _
  cases h <;> first
    | exact ⟨⟨h1, h2⟩, h3⟩
    | exact ⟨⟨h1, rfl⟩, h3⟩
    | exact absurd ‹a.http = .shared› hn
    | simp_all

theorem Tr.ready {env : Env} {server : Server σ} {cfg : Config} {secondaries : List (String × Secondary)}
    {a b : St σ} (h : Tr env server cfg secondaries a b) (ha : Ready a) : Ready b ∧ own b.store = own a.store :=
  h.inv (I := fun s => Ready s ∧ own s.store = own a.store) (fun _ _ h h' => ready_chg h h') ⟨ha, rfl⟩

/-! ### The steps are such sequences -/

section

variable {env : Env} {server : Server σ} {cfg : Config} {secondaries : List (String × Secondary)}

theorem bind_app {α β : Type} {m : P σ α} {f : α → P σ β} {s : St σ} :
    (m >>= f) s = match m s with | (.ok a, s') => f a s' | (.error e, s') => (.error e, s') := by
  cases h : m s with
  | mk o s' => cases o with
    | ok a => exact M.run_bind h
    | error e => exact M.run_bind_err h

theorem tr_bind {α β : Type} {m : P σ α} {f : α → P σ β} {s : St σ}
    (hm : Tr env server cfg secondaries s (m s).2)
    (hf : ∀ a s', m s = (.ok a, s') → Tr env server cfg secondaries s' (f a s').2) :
    Tr env server cfg secondaries s ((m >>= f) s).2 := by
  rw [bind_app]
  cases h : m s with
  | mk o s' =>
    rw [h] at hm
    cases o with
    | ok a => exact hm.trans (hf a s' h)
    | error e => exact hm

theorem tr_throwWhen {β : Type} {b : Bool} {e : Err} {f : Unit → P σ β} {s : St σ}
    (h : b = false → Tr env server cfg secondaries s (f () s).2) :
    Tr env server cfg secondaries s ((throwWhen b e >>= f) s).2 := by
  cases b with
  | true => exact .refl _
  | false => exact h rfl

theorem tr_orThrow {α β : Type} {o : Option α} {e : Err} {f : α → P σ β} {s : St σ}
    (h : ∀ a, o = some a → Tr env server cfg secondaries s (f a s).2) :
    Tr env server cfg secondaries s ((orThrow o e >>= f) s).2 := by
  cases o with
  | none => exact .refl _
  | some a => exact h a rfl

theorem tr_gets {α β : Type} {g : St σ → α} {f : α → P σ β} {s : St σ}
    (h : Tr env server cfg secondaries s (f (g s) s).2) :
    Tr env server cfg secondaries s ((gets g >>= f) s).2 := h

theorem tr_draw {β : Type} {f : Nat → P σ β} {s : St σ}
    (h : Tr env server cfg secondaries { s with drawn := s.drawn + 1 } (f s.drawn { s with drawn := s.drawn + 1 }).2) :
    Tr env server cfg secondaries s ((draw >>= f) s).2 := .step (.draw s _) h

theorem throwWhen_snd' {b : Bool} {e : Err} {s : St σ} : (throwWhen b e s : _ × St σ).2 = s := rfl

theorem write_ok {f : Store → Store} {s s' : St σ} {u : Unit} (h : write f s = (.ok u, s')) :
    ∃ k, s.fuel = k + 1 ∧ s' = { s with store := f s.store, fuel := k } := by
  unfold write at h
  cases hf : s.fuel with
  | zero => rw [hf] at h; simp at h
  | succ k => rw [hf] at h; simp at h; exact ⟨k, rfl, h.symm⟩

theorem tr_write {f : Store → Store} {s : St σ}
    (h : ∀ k, Chg env server cfg secondaries s { s with store := f s.store, fuel := k }) :
    Tr env server cfg secondaries s (write f s).2 := by
  unfold write
  split
  · exact .refl _
  · exact .one (h _)

theorem post_ok {q : Req} {s s' : St σ} {r : Resp} (h : post server q s = (.ok r, s')) :
    r = (server s.srv s.http q).1 ∧ ∃ k, s' = { s with
      srv := (server s.srv s.http q).2, log := s.log ++ [(s.http, q, (server s.srv s.http q).1)], fuel := k } := by
  unfold post at h
  cases hf : s.fuel with
  | zero => rw [hf] at h; simp at h
  | succ k => rw [hf] at h; simp at h; exact ⟨h.1.symm, k, h.2.symm⟩

theorem tr_post {q : Req} {s : St σ}
    (h : ∀ k, Chg env server cfg secondaries s { s with
      srv := (server s.srv s.http q).2, log := s.log ++ [(s.http, q, (server s.srv s.http q).1)], fuel := k }) :
    Tr env server cfg secondaries s (post server q s).2 := by
  unfold post
  split
  · exact .refl _
  · exact .one (h _)

theorem getCN_snd {s : St σ} : (getCN env s).2 = s := by
  unfold getCN
  cases h : s.store.cert with
  | none => simp [bind_app, h, orThrow]
  | some c => cases h2 : env.cn c <;> simp [bind_app, h, h2, orThrow]

theorem initDeviceId_tr {s : St σ} : Tr env server cfg secondaries s (initDeviceId env cfg s).2 := by
  unfold initDeviceId
  show Tr _ _ _ _ s ((match s.store.device with | some _ => _ | none => _ : P σ Unit) s).2
  cases hd : s.store.device with
  | some d => exact .refl _
  | none =>
    apply tr_bind
    · split
      · exact .refl _
      · unfold M.catchStd
        have h1 := getCN_snd (env := env) (s := s)
        split
        · rename_i e w' heq
          rw [heq] at h1
          subst h1
          split
          · cases cfg.mode
            · exact .one (.draw _ _)
            · exact .one (.draw _ _)
            · exact .refl _
          · exact .refl _
        · rename_i heq
          rw [h1]
          exact .refl _
    · intro id s' h
      apply tr_write
      intro k
      have hs : s'.store = s.store := by
        split at h
        · simp at h; rw [h.2]
        · unfold M.catchStd at h
          have h1 := getCN_snd (env := env) (s := s)
          split at h
          · rename_i e w' heq
            rw [heq] at h1
            subst h1
            split at h
            · cases hm : cfg.mode <;> rw [hm] at h <;> simp [draw, bind_app] at h <;> rw [← h.2]
            · simp at h
          · rw [h] at h1
            exact congrArg St.store h1
      refine .name s' id k (by rw [hs]; exact hd) ?_ ?_
      · intro hne
        rw [if_pos (by simpa using hne)] at h
        simp at h
        exact h.1.symm
      · intro he hm
        rw [if_neg (by simp [he])] at h
        rw [hs]
        unfold M.catchStd at h
        split at h
        · rw [hm] at h
          split at h <;> cases h
        · unfold getCN at h
          obtain ⟨c, s1, h1, h⟩ := M.bind_ok.1 h
          cases h1
          obtain ⟨c', s2, h2, h⟩ := M.bind_ok.1 h
          obtain ⟨h3, rfl⟩ := M.orThrow_ok.1 h2
          obtain ⟨h4, -⟩ := M.orThrow_ok.1 h
          exact ⟨c', h3, h4⟩

theorem loadSet_tr {s : St σ} : Tr env server cfg secondaries s (loadSetTlsCreds s).2 := by
  unfold loadSetTlsCreds
  show Tr _ _ _ _ s ((if isOk s.store then _ else _ : P σ Bool) s).2
  by_cases h : isOk s.store = true
  · rw [if_pos h]
    exact .one (.useOwn s h)
  · rw [if_neg h]
    exact .refl _

theorem loadSet_ok {s s' : St σ} {b : Bool} (h : loadSetTlsCreds s = (.ok b, s')) :
    b = isOk s.store ∧ s' = if isOk s.store then { s with http := own s.store } else s := by
  unfold loadSetTlsCreds at h
  change (if isOk s.store then _ else _ : P σ Bool) s = _ at h
  by_cases hk : isOk s.store = true
  · rw [if_pos hk] at h
    simp [bind_app] at h
    rw [hk]
    exact ⟨h.1, h.2.symm⟩
  · rw [if_neg hk] at h
    simp at h
    simp at hk
    rw [hk]
    exact ⟨h.1, h.2.symm⟩

theorem initTlsCreds_tr {s : St σ} : Tr env server cfg secondaries s (initTlsCreds env server cfg s).2 := by
  unfold initTlsCreds
  apply tr_bind loadSet_tr
  intro b s1 h1
  obtain ⟨hb, hs1⟩ := loadSet_ok h1
  cases b with
  | true => exact .refl _
  | false =>
    rw [← hb] at hs1
    simp at hs1
    subst hs1
    simp only [Bool.false_eq_true, if_false]
    apply tr_throwWhen
    intro hm
    show Tr _ _ _ _ s1 ((throwWhen (!s1.store.shared) _ >>= _ : P σ Unit) s1).2
    apply tr_throwWhen
    intro hsh
    refine Tr.trans (.one (.useShared s1 hb.symm (by simpa using hm) (by simpa using hsh))) ?_
    show Tr _ _ _ _ _ ((orThrow s1.store.device _ >>= _ : P σ Unit) { s1 with http := .shared }).2
    apply tr_orThrow
    intro d hd
    have hmode : cfg.mode ≠ .deviceCred := by simpa using hm
    apply tr_bind
    · apply tr_post
      intro k
      exact .ask _ d.1 d.2 k hd rfl hmode
    · intro r s2 h2
      obtain ⟨hr, k, hs2⟩ := post_ok h2
      subst hs2
      cases r with
      | odd => exact .refl _
      | refused code => exact .refl _
      | ok body =>
        dsimp only
        apply tr_orThrow
        intro c hc
        have hin : ∀ l, (Creds.shared, Req.device d.1, Resp.ok body) ∈
            l ++ [(Creds.shared, Req.device d.1, (server s1.srv .shared (.device d.1)).1)] := by
          intro l; rw [hr]; simp
        apply tr_bind
        · exact tr_write (fun k => .ca _ d.1 d.2 body c k hd rfl (hin _) hc)
        intro _ s3 h3
        obtain ⟨_, _, hs3⟩ := write_ok h3
        subst hs3
        apply tr_bind
        · exact tr_write (fun k => .cert _ d.1 d.2 body c k hd rfl (hin _) hc)
        intro _ s4 h4
        obtain ⟨_, _, hs4⟩ := write_ok h4
        subst hs4
        apply tr_bind
        · exact tr_write (fun k => .pkey _ d.1 d.2 body c k hd rfl (hin _) hc)
        intro _ s5 h5
        obtain ⟨_, _, hs5⟩ := write_ok h5
        subst hs5
        apply tr_bind loadSet_tr
        intro b s6 h6
        obtain ⟨hb6, hs6⟩ := loadSet_ok h6
        apply tr_throwWhen
        intro hbt
        have hbt' : b = true := by simpa using hbt
        rw [← hb6, hbt'] at hs6
        split
        · rename_i hre
          refine tr_write (fun k => .clean _ k ?_ hre ?_)
          · rw [hs6]
            exact hb6 ▸ hbt'
          · rw [hs6]
            rfl
        · exact .refl _

/-! ### After the credentials -/

theorem publicKey_run {v : String} {t : KeyType} {s s' : St σ} {k : PublicKey}
    (h : publicKey env v t s = (.ok k, s')) : k = ⟨v, t⟩ ∧ s' = s := by
  unfold publicKey at h
  obtain ⟨_, s1, h1, h2⟩ := M.bind_ok.1 h
  obtain ⟨_, rfl⟩ := M.throwWhen_ok.1 h1
  simp at h2
  exact ⟨h2.1.symm, h2.2.symm⟩

theorem publicKey_pubOk {v : String} {t : KeyType} {s s' : St σ} {k : PublicKey}
    (h : publicKey env v t s = (.ok k, s')) : PubOk env k := by
  obtain ⟨rfl, _⟩ := publicKey_run h
  unfold publicKey at h
  obtain ⟨_, s1, h1, h2⟩ := M.bind_ok.1 h
  have h3 := (M.throwWhen_ok.1 h1).1
  intro hm
  simp only [Bool.and_eq_false_iff, decide_eq_false_iff_not, Classical.not_not, ne_eq] at h3
  rcases h3 with h3 | h3
  · exact absurd hm h3
  · exact h3

theorem publicKey_snd {v : String} {t : KeyType} {s : St σ} : (publicKey env v t s).2 = s := by
  unfold publicKey
  rw [bind_app]
  unfold throwWhen
  split <;> rename_i h <;> simp at h
  · rw [← h.2]; rfl
  · exact h.2.symm

theorem uptanePublicKey_run {s s' : St σ} {k : PublicKey} (h : uptanePublicKey env cfg s = (.ok k, s')) :
    s' = s ∧ ∃ v, s.store.keys = some v ∧ k = ⟨v.1, cfg.keyType⟩ := by
  unfold uptanePublicKey at h
  obtain ⟨_, s1, h1, h⟩ := M.bind_ok.1 h
  simp at h1
  obtain ⟨rfl, rfl⟩ := h1
  obtain ⟨v, s2, h2, h⟩ := M.bind_ok.1 h
  obtain ⟨hk, rfl⟩ := M.orThrow_ok.1 h2
  obtain ⟨h1, h2⟩ := publicKey_run h
  exact ⟨h2, v, hk, h1⟩

theorem uptanePublicKey_snd {s : St σ} : (uptanePublicKey env cfg s).2 = s := by
  unfold uptanePublicKey
  show ((orThrow s.store.keys _ >>= _ : P σ PublicKey) s).2 = s
  cases h : s.store.keys with
  | none => rfl
  | some k => exact publicKey_snd

theorem initKeys_tr {s : St σ} : Tr env server cfg secondaries s (initPrimaryEcuKeys env s).2 := by
  unfold initPrimaryEcuKeys
  apply tr_bind
  · unfold generateUptaneKeyPair
    apply tr_gets
    apply tr_bind
    · cases hk : s.store.keys with
      | some k => exact .refl _
      | none =>
        dsimp only
        apply tr_draw
        cases hn : env.newKey s.drawn with
        | none => exact .refl _
        | some k =>
          apply tr_bind
          · exact tr_write (fun n => .key _ k s.drawn n hk hn)
          · intro _ _ _; exact .refl _
    · intro k s' _
      apply tr_throwWhen
      intro _
      exact .refl _
  · intro k s' _
    exact .refl _

theorem throwWhen_run {b : Bool} {e : Err} {s s' : St σ} {u : Unit} (h : throwWhen b e s = (.ok u, s')) :
    b = false ∧ s' = s := by
  obtain ⟨h1, h2⟩ := M.throwWhen_ok.1 h
  exact ⟨h1, h2.symm⟩

theorem initKeys_ok {s s' : St σ} {u : Unit} (h : initPrimaryEcuKeys env s = (.ok u, s')) :
    ∃ k, s'.store.keys = some k ∧ k.1 ≠ "" ∧ (s.store.keys = none ∨ s.store.keys = some k) ∧
      s'.store.ecus = s.store.ecus := by
  unfold initPrimaryEcuKeys at h
  obtain ⟨p, s1, h1, h2⟩ := M.bind_ok.1 h
  obtain ⟨hp, rfl⟩ := throwWhen_run h2
  have hp : p ≠ "" := by simpa using hp
  unfold generateUptaneKeyPair at h1
  obtain ⟨k, s2, h3, h4⟩ := M.bind_ok.1 h1
  simp at h3
  obtain ⟨rfl, rfl⟩ := h3
  obtain ⟨k, s3, h5, h6⟩ := M.bind_ok.1 h4
  obtain ⟨_, s4, h7, h8⟩ := M.bind_ok.1 h6
  obtain ⟨_, rfl⟩ := throwWhen_run h7
  simp at h8
  obtain ⟨rfl, rfl⟩ := h8
  cases hk : s.store.keys with
  | some v =>
    rw [hk] at h5
    simp at h5
    obtain ⟨rfl, rfl⟩ := h5
    exact ⟨v, hk, hp, .inr rfl, rfl⟩
  | none =>
    rw [hk] at h5
    obtain ⟨n, s5, h9, h10⟩ := M.bind_ok.1 h5
    simp [draw] at h9
    obtain ⟨rfl, rfl⟩ := h9
    cases hn : env.newKey s.drawn with
    | none => rw [hn] at h10; simp at h10; rw [← h10.1] at hp; simp at hp
    | some v =>
      rw [hn] at h10
      obtain ⟨_, s6, h11, h12⟩ := M.bind_ok.1 h10
      obtain ⟨_, _, rfl⟩ := write_ok h11
      simp at h12
      obtain ⟨rfl, rfl⟩ := h12
      exact ⟨v, rfl, hp, .inl rfl, rfl⟩

theorem saveMisconfigured_tr {k : String × String} {l : List (String × String)} {s : St σ} (hk : s.store.keys = some k)
    (hl : ∀ e ∈ l, e ∈ s.store.ecus ∧ e ∉ configured env cfg secondaries k.1) :
    Tr env server cfg secondaries s (saveMisconfigured l s).2 := by
  induction l generalizing s with
  | nil => exact .refl _
  | cons e r ih =>
    unfold saveMisconfigured
    have he := hl e (by simp)
    apply tr_bind
    · exact tr_write (fun n => .gone _ k e n hk he.1 he.2)
    · intro _ s' h
      obtain ⟨_, _, rfl⟩ := write_ok h
      exact ih hk (fun x hx => hl x (by simp [hx]))

/-- Only the table of misconfigured ECUs changes. -/
def Misc (s s' : St σ) : Prop := ∃ m n, s' = { s with store := { s.store with misconfigured := m }, fuel := n }

theorem saveMisconfigured_frame {l : List (String × String)} {s s' : St σ} {u : Unit}
    (h : saveMisconfigured l s = (.ok u, s')) : Misc s s' := by
  induction l generalizing s with
  | nil => simp [saveMisconfigured] at h; exact ⟨s.store.misconfigured, s.fuel, by rw [← h]⟩
  | cons e r ih =>
    unfold saveMisconfigured at h
    obtain ⟨_, s1, h1, h2⟩ := M.bind_ok.1 h
    obtain ⟨_, _, rfl⟩ := write_ok h1
    obtain ⟨m, n, rfl⟩ := ih h2
    exact ⟨m, n, rfl⟩

theorem ecuSerial_run {x y : String} {s s' : St σ} (h : ecuSerial x s = (.ok y, s')) : y = x ∧ s' = s := by
  unfold ecuSerial at h
  obtain ⟨_, s1, h1, h2⟩ := M.bind_ok.1 h
  obtain ⟨_, rfl⟩ := throwWhen_run h1
  obtain ⟨_, s2, h3, h4⟩ := M.bind_ok.1 h2
  obtain ⟨_, rfl⟩ := throwWhen_run h3
  simp at h4
  exact ⟨h4.1.symm, h4.2.symm⟩

theorem throwWhen_bind_snd {α : Type} {b : Bool} {e : Err} {f : Unit → P σ α} {s : St σ} (h : (f () s).2 = s) :
    ((throwWhen b e >>= f) s).2 = s := by
  cases b with
  | true => rfl
  | false => exact h

theorem ecuSerial_snd {x : String} {s : St σ} : (ecuSerial x s).2 = s :=
  throwWhen_bind_snd (throwWhen_bind_snd rfl)

theorem hardwareId_run {x y : String} {s s' : St σ} (h : hardwareId x s = (.ok y, s')) : y = x ∧ s' = s := by
  unfold hardwareId at h
  obtain ⟨_, s1, h1, h2⟩ := M.bind_ok.1 h
  obtain ⟨_, rfl⟩ := throwWhen_run h1
  simp at h2
  exact ⟨h2.1.symm, h2.2.symm⟩

theorem hardwareId_snd {x : String} {s : St σ} : (hardwareId x s).2 = s := throwWhen_bind_snd rfl

/-- The serial number of the Primary. -/
def primarySerial (env : Env) (cfg : Config) : P σ String :=
  if cfg.primarySerial != "" then pure cfg.primarySerial
    else do let k ← uptanePublicKey env cfg; pure (env.keyId k.value)

theorem primarySerial_snd {s : St σ} : (primarySerial env cfg s).2 = s := by
  unfold primarySerial
  split
  · rfl
  · have h := uptanePublicKey_snd (env := env) (cfg := cfg) (s := s)
    rw [bind_app]
    split <;> rename_i heq <;> rw [heq] at h <;> exact h

theorem primarySerial_run {k : String × String} {x : String} {s s' : St σ} (hk : s.store.keys = some k)
    (h : primarySerial env cfg s = (.ok x, s')) :
    x = (if cfg.primarySerial = "" then env.keyId k.1 else cfg.primarySerial) ∧ s' = s := by
  unfold primarySerial at h
  by_cases hc : cfg.primarySerial = ""
  · rw [if_neg (by simp [hc])] at h
    obtain ⟨p, s1, h1, h2⟩ := M.bind_ok.1 h
    obtain ⟨rfl, v, hv, rfl⟩ := uptanePublicKey_run h1
    rw [hk] at hv
    obtain rfl := Option.some.inj hv
    simp at h2
    rw [if_pos hc]
    exact ⟨h2.1.symm, h2.2.symm⟩
  · rw [if_pos (by simpa using hc)] at h
    simp at h
    rw [if_neg hc]
    exact ⟨h.1.symm, h.2.symm⟩

/-- The stored and the configured list have the same members. -/
def SameEcus (a b : List (String × String)) : Prop := ∀ e, e ∈ a ↔ e ∈ b

theorem initEcuSerials_tr {k : String × String} {s : St σ} (hk : s.store.keys = some k) :
    Tr env server cfg secondaries s (initEcuSerials env cfg secondaries s).2 := by
  unfold initEcuSerials
  apply tr_gets
  show Tr _ _ _ _ s ((primarySerial env cfg >>= _ : P σ _) s).2
  apply tr_bind
  · rw [primarySerial_snd]; exact .refl _
  intro x s1 h1
  obtain ⟨hx, rfl⟩ := primarySerial_run hk h1
  dsimp only
  apply tr_throwWhen
  intro hh
  apply tr_bind
  · rw [ecuSerial_snd]; exact .refl _
  intro x' s2 h2
  obtain ⟨rfl, rfl⟩ := ecuSerial_run h2
  apply tr_bind
  · rw [hardwareId_snd]; exact .refl _
  intro y s3 h3
  obtain ⟨rfl, rfl⟩ := hardwareId_run h3
  have hnew : (x', if cfg.primaryHwId != "" then cfg.primaryHwId else cfg.hostname) ::
      secondaries.map (fun x => (x.1, x.2.hwId)) = configured env cfg secondaries k.1 := by
    rw [hx]; unfold configured; congr 2; by_cases h : cfg.primaryHwId = "" <;> simp [h]
  rw [hnew]
  split
  · exact .refl _
  · apply tr_bind
    · apply saveMisconfigured_tr hk
      intro e he
      simpa using he
    · intro _ _ _
      exact .refl _

theorem initEcuSerials_ok {k : String × String} {s s' : St σ} {r : List (String × String) × Bool}
    (hk : s.store.keys = some k) (h : initEcuSerials env cfg secondaries s = (.ok r, s')) :
    r.1 = configured env cfg secondaries k.1 ∧
      (r.2 = true ↔ s.store.ecus = [] ∨ ¬ SameEcus s.store.ecus (configured env cfg secondaries k.1)) ∧ Misc s s' := by
  unfold initEcuSerials at h
  obtain ⟨st, s0, h0, g1⟩ := M.bind_ok.1 h
  simp at h0
  obtain ⟨rfl, rfl⟩ := h0
  obtain ⟨x, s1, h1, g2⟩ := M.bind_ok.1 g1
  obtain ⟨hx, rfl⟩ := primarySerial_run hk h1
  dsimp only at g2
  obtain ⟨_, s2, h2, g3⟩ := M.bind_ok.1 g2
  obtain ⟨_, rfl⟩ := throwWhen_run h2
  obtain ⟨x', s3, h3, g4⟩ := M.bind_ok.1 g3
  obtain ⟨rfl, rfl⟩ := ecuSerial_run h3
  obtain ⟨y, s4, h4, g5⟩ := M.bind_ok.1 g4
  obtain ⟨rfl, rfl⟩ := hardwareId_run h4
  clear h g1 g2 g3 g4 h1 h2 h3 h4
  have hnew : (x', if cfg.primaryHwId != "" then cfg.primaryHwId else cfg.hostname) ::
      secondaries.map (fun x => (x.1, x.2.hwId)) = configured env cfg secondaries k.1 := by
    rw [hx]; unfold configured; congr 2; by_cases h : cfg.primaryHwId = "" <;> simp [h]
  rw [hnew] at g5
  have h := g5
  by_cases he : s4.store.ecus = []
  · rw [if_pos he] at h
    simp at h
    obtain ⟨rfl, rfl⟩ := h
    exact ⟨rfl, by simp [he], s4.store.misconfigured, s4.fuel, rfl⟩
  · rw [if_neg he] at h
    obtain ⟨_, s5, h5, h6⟩ := M.bind_ok.1 h
    have hm := saveMisconfigured_frame h5
    simp only [M.pure_eq, Prod.mk.injEq, Except.ok.injEq] at h6
    obtain ⟨rfl, rfl⟩ := h6
    refine ⟨rfl, ?_, hm⟩
    simp only [he, false_or, SameEcus]
    constructor
    · intro h hs
      simp only [Bool.or_eq_true, bne_iff_ne, ne_eq, List.filter_eq_nil_iff, List.any_eq_true] at h
      rcases h with h | ⟨e, h1, h2⟩
      · exact h (fun a ha => by simpa using (hs a).1 ha)
      · simp [(hs e).2 h1] at h2
    · intro h
      simp only [Bool.or_eq_true, bne_iff_ne, ne_eq, List.filter_eq_nil_iff, List.any_eq_true]
      apply Classical.byContradiction
      intro hc
      simp only [not_or, Classical.not_not, not_exists, not_and] at hc
      apply h
      intro e
      constructor
      · intro h1; simpa using hc.1 e h1
      · intro h1; simpa using hc.2 e h1

theorem loadInfo_snd {x : String} {s : St σ} : (loadSecondaryInfo env x s).2 = s := by
  unfold loadSecondaryInfo
  show ((match s.store.ecus.tail.lookup x with | none => _ | some hw => _ : P σ (Option Info)) s).2 = s
  cases h : s.store.ecus.tail.lookup x with
  | none => rfl
  | some hw =>
    dsimp only
    rw [bind_app]
    split
    · rename_i a s' heq
      split at heq
      · simp at heq; exact heq.2.symm
      · exact (publicKey_run heq).2
    · rename_i e s' heq
      split at heq
      · simp at heq
      · have := publicKey_snd (env := env) (v := ((s.store.secs.lookup x).getD {}).key)
          (t := keyTypeOf ((s.store.secs.lookup x).getD {}).keyType) (s := s)
        rw [heq] at this
        exact this

theorem loadInfo_run {x : String} {s s' : St σ} {i : Option Info} (h : loadSecondaryInfo env x s = (.ok i, s')) :
    s' = s ∧ ∀ j, i = some j → j.serial = x ∧ PubOk env j.key := by
  have h1 := loadInfo_snd (env := env) (x := x) (s := s)
  rw [h] at h1
  refine ⟨h1, ?_⟩
  intro j hj
  unfold loadSecondaryInfo at h
  change (match s.store.ecus.tail.lookup x with | none => _ | some hw => _ : P σ (Option Info)) s = _ at h
  cases h2 : s.store.ecus.tail.lookup x with
  | none => rw [h2] at h; simp at h; rw [← h.1] at hj; simp at hj
  | some hw =>
    rw [h2] at h
    obtain ⟨k, s1, h3, h4⟩ := M.bind_ok.1 h
    simp at h4
    rw [← h4.1] at hj
    simp at hj
    subst hj
    refine ⟨rfl, ?_⟩
    split at h3
    · simp at h3
      rw [← h3.1]
      intro hm
      simp at hm
    · exact publicKey_pubOk h3

theorem saveInfo_tr {i : Info} {s : St σ} (hi : i.serial ∈ secondaries.map Prod.fst)
    (hp : PubOk env i.key ∨ ∃ x ∈ secondaries, i.key = x.2.key) :
    Tr env server cfg secondaries s (saveSecondaryInfo i s).2 := by
  unfold saveSecondaryInfo
  apply tr_gets
  apply tr_throwWhen
  intro _
  exact tr_write (fun n => .sec _ i n hi hp)

/-- Only the table of Secondaries changes. -/
def Secs (s s' : St σ) : Prop := ∃ m n, s' = { s with store := { s.store with secs := m }, fuel := n }

theorem Secs.refl (s : St σ) : Secs s s := ⟨s.store.secs, s.fuel, rfl⟩

theorem Secs.trans {a b c : St σ} (h1 : Secs a b) (h2 : Secs b c) : Secs a c := by
  obtain ⟨m, n, rfl⟩ := h1
  obtain ⟨m', n', rfl⟩ := h2
  exact ⟨m', n', rfl⟩

theorem saveInfo_frame {i : Info} {s s' : St σ} {u : Unit} (h : saveSecondaryInfo i s = (.ok u, s')) : Secs s s' := by
  unfold saveSecondaryInfo at h
  obtain ⟨_, s1, h1, h2⟩ := M.bind_ok.1 h
  simp at h1
  obtain ⟨rfl, rfl⟩ := h1
  obtain ⟨_, s2, h3, h4⟩ := M.bind_ok.1 h2
  obtain ⟨_, rfl⟩ := throwWhen_run h3
  obtain ⟨_, _, rfl⟩ := write_ok h4
  exact ⟨_, _, rfl⟩

/-- The key a Secondary is entered with. -/
theorem newKey_pubOk {x : String × Secondary} {i : Option Info} (hi : ∀ j, i = some j → j.serial = x.1 ∧ PubOk env j.key) :
    PubOk env (if x.2.key.type ≠ .unknown then x.2.key else (i.map (fun i => i.key)).getD ⟨"", .unknown⟩) ∨
      (if x.2.key.type ≠ .unknown then x.2.key else (i.map (fun i => i.key)).getD ⟨"", .unknown⟩) = x.2.key := by
  split
  · exact .inr rfl
  · cases i with
    | none => left; intro hm; simp at hm
    | some j => exact .inl (hi j rfl).2

theorem secInfo_tr {b : Bool} {x : String × Secondary} {s : St σ} (hx : x ∈ secondaries) :
    Tr env server cfg secondaries s (secondaryInfo env b x s).2 := by
  unfold secondaryInfo
  apply tr_bind
  · rw [loadInfo_snd]; exact .refl _
  intro i s1 h1
  obtain ⟨rfl, hi⟩ := loadInfo_run h1
  cases hf : i.filter (fun i => i.type != "" && i.key.type != .unknown) with
  | some _ => exact .refl _
  | none =>
    dsimp only
    cases b with
    | true => exact .refl _
    | false =>
      simp only [Bool.not_false, if_true]
      apply tr_bind
      · refine saveInfo_tr (List.mem_map_of_mem hx) ?_
        rcases newKey_pubOk hi with h | h
        · exact .inl h
        · exact .inr ⟨x, hx, h⟩
      · intro _ _ _; exact .refl _

theorem secInfo_ok {b : Bool} {x : String × Secondary} {i : Info} {s s' : St σ}
    (h : secondaryInfo env b x s = (.ok i, s')) : i.serial = x.1 ∧ Secs s s' ∧ (b = true → s' = s) ∧
      (PubOk env i.key ∨ i.key = x.2.key) := by
  unfold secondaryInfo at h
  obtain ⟨j, s1, h1, h2⟩ := M.bind_ok.1 h
  obtain ⟨rfl, hj⟩ := loadInfo_run h1
  cases hk : j.filter (fun i => i.type != "" && i.key.type != .unknown) with
  | some k =>
    rw [hk] at h2
    simp at h2
    obtain ⟨rfl, rfl⟩ := h2
    obtain ⟨g1, g2⟩ := hj k (Option.filter_eq_some_iff.1 hk).1
    exact ⟨g1, Secs.refl _, fun _ => rfl, .inl g2⟩
  | none =>
    rw [hk] at h2
    dsimp only at h2
    cases b with
    | true =>
      simp only [Bool.not_true, Bool.false_eq_true, if_false, M.pure_eq, Prod.mk.injEq, Except.ok.injEq] at h2
      obtain ⟨rfl, rfl⟩ := h2
      exact ⟨rfl, Secs.refl _, fun _ => rfl, newKey_pubOk hj⟩
    | false =>
      simp only [Bool.not_false, if_true] at h2
      obtain ⟨_, s2, h3, h4⟩ := M.bind_ok.1 h2
      simp only [M.pure_eq, Prod.mk.injEq, Except.ok.injEq] at h4
      obtain ⟨rfl, rfl⟩ := h4
      exact ⟨rfl, saveInfo_frame h3, by simp, newKey_pubOk hj⟩

theorem initSecInfo_tr {b : Bool} {l : List (String × Secondary)} {s : St σ} (hl : ∀ x ∈ l, x ∈ secondaries) :
    Tr env server cfg secondaries s (initSecondaryInfo env b l s).2 := by
  induction l generalizing s with
  | nil => exact .refl _
  | cons x r ih =>
    unfold initSecondaryInfo
    apply tr_bind (secInfo_tr (hl x (by simp)))
    intro i s1 _
    apply tr_bind (ih (fun y hy => hl y (by simp [hy])))
    intro _ _ _
    exact .refl _

theorem initSecInfo_ok {b : Bool} {l : List (String × Secondary)} {is : List Info} {s s' : St σ}
    (h : initSecondaryInfo env b l s = (.ok is, s')) :
    is.map (fun i => i.serial) = l.map Prod.fst ∧ Secs s s' ∧ (b = true → s' = s) ∧
      ∀ i ∈ is, PubOk env i.key ∨ ∃ x ∈ l, i.key = x.2.key := by
  induction l generalizing s is with
  | nil =>
    simp [initSecondaryInfo] at h
    obtain ⟨rfl, rfl⟩ := h
    exact ⟨rfl, Secs.refl _, fun _ => rfl, by simp⟩
  | cons x r ih =>
    unfold initSecondaryInfo at h
    obtain ⟨i, s1, h1, h2⟩ := M.bind_ok.1 h
    obtain ⟨is', s2, h3, h4⟩ := M.bind_ok.1 h2
    simp at h4
    obtain ⟨rfl, rfl⟩ := h4
    obtain ⟨a1, a2, a3, a4⟩ := secInfo_ok h1
    obtain ⟨b1, b2, b3, b4⟩ := ih h3
    refine ⟨by simp [a1, b1], a2.trans b2, fun hb => ?_, ?_⟩
    · rw [b3 hb, a3 hb]
    · intro j hj
      rcases List.mem_cons.1 hj with rfl | hj
      · rcases a4 with h | h
        · exact .inl h
        · exact .inr ⟨x, by simp, h⟩
      · rcases b4 j hj with h | ⟨y, hy, h⟩
        · exact .inl h
        · exact .inr ⟨y, by simp [hy], h⟩

theorem saveAll_tr {l : List Info} {s : St σ} (hl : ∀ i ∈ l, i.serial ∈ secondaries.map Prod.fst)
    (hp : ∀ i ∈ l, PubOk env i.key ∨ ∃ x ∈ secondaries, i.key = x.2.key) :
    Tr env server cfg secondaries s (saveAll l s).2 := by
  induction l generalizing s with
  | nil => exact .refl _
  | cons x r ih =>
    unfold saveAll
    apply tr_bind (saveInfo_tr (hl x (by simp)) (hp x (by simp)))
    intro _ s1 _
    exact ih (fun y hy => hl y (by simp [hy])) (fun y hy => hp y (by simp [hy]))

theorem saveAll_frame {l : List Info} {s s' : St σ} {u : Unit} (h : saveAll l s = (.ok u, s')) : Secs s s' := by
  induction l generalizing s with
  | nil => simp [saveAll] at h; rw [← h]; exact Secs.refl _
  | cons x r ih =>
    unfold saveAll at h
    obtain ⟨_, s1, h1, h2⟩ := M.bind_ok.1 h
    exact (saveInfo_frame h1).trans (ih h2)

theorem storeSerials_frame {l : List (String × String)} {s s' : St σ} {u : Unit}
    (h : storeEcuSerials l s = (.ok u, s')) :
    ∃ e n, s' = { s with store := { s.store with ecus := e }, fuel := n } := by
  unfold storeEcuSerials at h
  split at h
  · simp at h; rw [← h]; exact ⟨s.store.ecus, s.fuel, rfl⟩
  · split at h
    · obtain ⟨_, _, rfl⟩ := write_ok h
      exact ⟨_, _, rfl⟩
    · simp at h; rw [← h]; exact ⟨s.store.ecus, s.fuel, rfl⟩

theorem register_tr {k : String × String} {b : Bool} {is : List Info} {s : St σ} (hr : Ready s)
    (hk : s.store.keys = some k) (his : is.map (fun i => i.serial) = secondaries.map Prod.fst)
    (hpk : ∀ i ∈ is, PubOk env i.key ∨ ∃ x ∈ secondaries, i.key = x.2.key)
    (hb : b = true → s.store.ecus = [] ∨ ¬ SameEcus s.store.ecus (configured env cfg secondaries k.1)) :
    Tr env server cfg secondaries s (initEcuRegister env server cfg (configured env cfg secondaries k.1) b is s).2 := by
  unfold initEcuRegister
  cases b with
  | false => exact .refl _
  | true =>
    have h6 : (∀ e ∈ s.store.ecus, e ∈ configured env cfg secondaries k.1) →
        (∀ e ∈ configured env cfg secondaries k.1, e ∈ s.store.ecus) → s.store.ecus = [] := by
      intro h1 h2
      rcases hb rfl with h | h
      · exact h
      · exact absurd (fun e => ⟨h1 e, h2 e⟩) h
    simp only [Bool.not_true, Bool.false_eq_true, if_false]
    apply tr_bind
    · rw [uptanePublicKey_snd]; exact .refl _
    intro p s1 h1
    obtain ⟨rfl, v, hv, rfl⟩ := uptanePublicKey_run h1
    rw [hk] at hv
    obtain rfl := Option.some.inj hv
    apply tr_throwWhen
    intro _
    generalize hl : (⟨((configured env cfg secondaries k.1).headD ("", "")).1,
      ((configured env cfg secondaries k.1).headD ("", "")).2, ⟨k.1, cfg.keyType⟩⟩ ::
      is.map (fun i => ⟨i.serial, i.hwId, i.key⟩) : List Ecu) = l
    have h4 : l.map (fun e => e.serial) = (configured env cfg secondaries k.1).map Prod.fst := by
      subst hl
      simp [configured]
      rw [show (fun i : Info => i.serial) = Info.serial from rfl] at his
      simpa [Function.comp_def] using his
    have h5 : (l.head?.map (fun e => (e.hwId, e.key))) =
        some (((configured env cfg secondaries k.1).headD ("", "")).2, ⟨k.1, cfg.keyType⟩) := by
      subst hl; rfl
    apply tr_bind
    · apply tr_post
      intro n
      have hreg := Chg.register (server := server) s1 k l n hr.1 hr.2 hk h4 h5 h6
      rw [← hr.2] at hreg
      exact hreg
    intro r s2 h2
    obtain ⟨hr2, n, rfl⟩ := post_ok h2
    cases r with
    | odd => exact .refl _
    | refused code => exact .refl _
    | ok body =>
      dsimp only
      rw [hr.2] at hr2 ⊢
      have hin : (own s1.store, Req.ecus ((configured env cfg secondaries k.1).headD ("", "")).1 l, Resp.ok body) ∈
          s1.log ++ [(own s1.store, Req.ecus ((configured env cfg secondaries k.1).headD ("", "")).1 l,
            (server s1.srv (own s1.store) (.ecus ((configured env cfg secondaries k.1).headD ("", "")).1 l)).1)] := by
        rw [hr2]; simp
      apply tr_bind
      · unfold storeEcuSerials
        split
        · exact .refl _
        · split
          · rename_i hnd
            refine tr_write (fun n => ?_)
            exact .ecus _ k l body n hk hin h4 hnd h6
          · exact .refl _
      intro _ s3 h3
      obtain ⟨e, n3, rfl⟩ := storeSerials_frame h3
      apply tr_bind
      · refine saveAll_tr ?_ hpk
        intro i hi
        rw [← his]
        exact List.mem_map_of_mem hi
      intro _ s4 h4
      obtain ⟨m, n4, rfl⟩ := saveAll_frame h4
      unfold storeEcuRegistered
      apply tr_gets
      apply tr_throwWhen
      intro _
      exact tr_write (fun n => .registered _ _ l body n hin)

theorem counter_tr {s : St σ} : Tr env server cfg secondaries s (initEcuReportCounter s).2 := by
  unfold initEcuReportCounter
  apply tr_gets
  split
  · exact .refl _
  · rename_i h
    cases he : s.store.ecus with
    | nil => exact .refl _
    | cons e r =>
      refine tr_write (fun n => .counter _ e r n he ?_)
      intro c hc x hx hxc
      apply h
      simp only [List.any_eq_true, beq_iff_eq]
      exact ⟨c, hc, x, hx, hxc⟩

theorem rest_tr {s : St σ} (hr : Ready s) : Tr env server cfg secondaries s (rest env server cfg secondaries s).2 := by
  unfold rest
  have h0 := initKeys_tr (env := env) (server := server) (cfg := cfg) (secondaries := secondaries) (s := s)
  apply tr_bind h0
  intro _ s1 h1
  rw [h1] at h0
  have hr1 := (h0.ready hr).1
  obtain ⟨k, hk, _, _, _⟩ := initKeys_ok h1
  have t2 := initEcuSerials_tr (server := server) (env := env) (cfg := cfg) (secondaries := secondaries) hk
  apply tr_bind t2
  intro n s2 h2
  rw [h2] at t2
  have hr2 := (t2.ready hr1).1
  obtain ⟨hn1, hn2, hm⟩ := initEcuSerials_ok hk h2
  have t3 := initSecInfo_tr (env := env) (server := server) (cfg := cfg) (secondaries := secondaries) (b := n.2)
    (l := secondaries) (s := s2) (fun _ h => h)
  apply tr_bind t3
  intro is s3 h3
  rw [h3] at t3
  have hr3 := (t3.ready hr2).1
  obtain ⟨hi, hsec, _, hpk⟩ := initSecInfo_ok h3
  apply tr_bind
  · rw [hn1]
    obtain ⟨m, f, rfl⟩ := hm
    obtain ⟨m', f', rfl⟩ := hsec
    exact register_tr hr3 hk hi hpk (fun hb => hn2.1 hb)
  · intro _ _ _
    exact counter_tr

theorem tls_post {s s' : St σ} {u : Unit} (h : initTlsCreds env server cfg s = (.ok u, s')) : Ready s' := by
  unfold initTlsCreds at h
  obtain ⟨b, s1, h1, h2⟩ := M.bind_ok.1 h
  obtain ⟨hb, hs1⟩ := loadSet_ok h1
  cases b with
  | true =>
    simp at h2
    subst h2
    rw [← hb] at hs1
    subst hs1
    exact ⟨hb.symm, rfl⟩
  | false =>
    simp only [Bool.false_eq_true, if_false] at h2
    obtain ⟨_, s2, _, h3⟩ := M.bind_ok.1 h2
    obtain ⟨_, s3, _, h4⟩ := M.bind_ok.1 h3
    obtain ⟨_, s4, _, h5⟩ := M.bind_ok.1 h4
    obtain ⟨_, s5, _, h6⟩ := M.bind_ok.1 h5
    obtain ⟨_, s6, _, h7⟩ := M.bind_ok.1 h6
    obtain ⟨_, s7, _, h8⟩ := M.bind_ok.1 h7
    obtain ⟨r, s8, _, h9⟩ := M.bind_ok.1 h8
    cases r with
    | odd => simp at h9
    | refused code => simp at h9
    | ok body =>
      dsimp only at h9
      obtain ⟨_, s9, _, h10⟩ := M.bind_ok.1 h9
      obtain ⟨_, s10, _, h11⟩ := M.bind_ok.1 h10
      obtain ⟨_, s11, _, h12⟩ := M.bind_ok.1 h11
      obtain ⟨_, s12, _, h13⟩ := M.bind_ok.1 h12
      obtain ⟨b2, s13, h14, h15⟩ := M.bind_ok.1 h13
      obtain ⟨_, s14, h16, h17⟩ := M.bind_ok.1 h15
      obtain ⟨hb2, rfl⟩ := throwWhen_run h16
      obtain ⟨hb3, hs13⟩ := loadSet_ok h14
      have hb2' : b2 = true := by simpa using hb2
      have hok : isOk s12.store = true := by rw [← hb3]; exact hb2'
      rw [if_pos hok] at hs13
      split at h17
      · obtain ⟨_, _, rfl⟩ := write_ok h17
        subst hs13
        exact ⟨hok, rfl⟩
      · simp at h17
        subst h17
        subst hs13
        exact ⟨hok, rfl⟩

/-- When the server says the device is already registered. -/
theorem tls_occupied {s s' : St σ} (h : initTlsCreds env server cfg s = (.error occupied, s')) :
    isOk s.store = false ∧ s'.store = s.store ∧ s'.http = .shared ∧ ∃ d, s.store.device = some d ∧
      (Creds.shared, Req.device d.1, Resp.refused (some "device_already_registered")) ∈ s'.log := by
  unfold initTlsCreds at h
  rcases M.bind_err.1 h with h1 | ⟨b, s1, h1, h2⟩
  · unfold loadSetTlsCreds at h1
    change (if isOk s.store then _ else _ : P σ Bool) s = _ at h1
    split at h1
    · simp [bind_app] at h1
    · simp at h1
  obtain ⟨hb, hs1⟩ := loadSet_ok h1
  cases b with
  | true => simp at h2
  | false =>
    rw [← hb] at hs1
    simp at hs1
    subst hs1
    simp only [Bool.false_eq_true, if_false] at h2
    rcases M.bind_err.1 h2 with h3 | ⟨_, s2, h3, h4⟩
    · unfold throwWhen at h3; split at h3 <;> simp [occupied] at h3
    obtain ⟨_, rfl⟩ := throwWhen_run h3
    rcases M.bind_err.1 h4 with h5 | ⟨_, s3, h5, h6⟩
    · simp at h5
    simp at h5
    obtain ⟨rfl, rfl⟩ := h5
    rcases M.bind_err.1 h6 with h7 | ⟨_, s4, h7, h8⟩
    · unfold throwWhen at h7; split at h7 <;> simp [occupied] at h7
    obtain ⟨_, rfl⟩ := throwWhen_run h7
    rcases M.bind_err.1 h8 with h9 | ⟨_, s5, h9, h10⟩
    · simp at h9
    simp at h9
    subst h9
    rcases M.bind_err.1 h10 with h11 | ⟨_, s6, h11, h12⟩
    · simp at h11
    simp at h11
    obtain ⟨rfl, rfl⟩ := h11
    rcases M.bind_err.1 h12 with h13 | ⟨d, s7, h13, h14⟩
    · unfold orThrow at h13; split at h13 <;> simp [occupied] at h13
    obtain ⟨hd, rfl⟩ := M.orThrow_ok.1 h13
    rcases M.bind_err.1 h14 with h15 | ⟨r, s8, h15, h16⟩
    · unfold post at h15; split at h15 <;> simp [occupied] at h15
    obtain ⟨hr, n, rfl⟩ := post_ok h15
    cases r with
    | odd => simp [occupied] at h16
    | refused code =>
      simp only [M.throw_eq, Prod.mk.injEq, Except.error.injEq] at h16
      obtain ⟨h17, rfl⟩ := h16
      refine ⟨hb.symm, rfl, rfl, d, hd, ?_⟩
      by_cases hc : code = some "device_already_registered"
      · rw [hc] at hr; rw [hr]; simp
      · rw [if_neg hc] at h17; simp [occupied] at h17
    | ok body =>
      dsimp only at h16
      rcases M.bind_err.1 h16 with h17 | ⟨_, s9, _, h18⟩
      · unfold orThrow at h17; split at h17 <;> simp [occupied] at h17
      rcases M.bind_err.1 h18 with h17 | ⟨_, s10, _, h18⟩
      · unfold write at h17; split at h17 <;> simp [occupied] at h17
      rcases M.bind_err.1 h18 with h17 | ⟨_, s11, _, h18⟩
      · unfold write at h17; split at h17 <;> simp [occupied] at h17
      rcases M.bind_err.1 h18 with h17 | ⟨_, s12, _, h18⟩
      · unfold write at h17; split at h17 <;> simp [occupied] at h17
      rcases M.bind_err.1 h18 with h17 | ⟨_, s13, _, h18⟩
      · unfold loadSetTlsCreds at h17
        change (if isOk s12.store then _ else _ : P σ Bool) s12 = _ at h17
        split at h17
        · simp [bind_app] at h17
        · simp at h17
      rcases M.bind_err.1 h18 with h17 | ⟨_, s14, _, h18⟩
      · unfold throwWhen at h17; split at h17 <;> simp [occupied] at h17
      split at h18
      · unfold write at h18; split at h18 <;> simp [occupied] at h18
      · simp at h18

theorem isOccupied_true {m : P σ Unit} {s s' : St σ} (h : isOccupied m s = (.ok true, s')) :
    m s = (.error occupied, s') := by
  unfold isOccupied at h
  split at h
  · simp at h
  · rename_i e s1 heq
    split at h
    · rename_i he; simp at h; rw [heq, he, h]
    · simp at h

theorem isOccupied_false {m : P σ Unit} {s s' : St σ} (h : isOccupied m s = (.ok false, s')) :
    ∃ u, m s = (.ok u, s') := by
  unfold isOccupied at h
  split at h
  · rename_i u s1 heq; simp at h; exact ⟨u, by rw [heq, h]⟩
  · split at h <;> simp at h

theorem isOccupied_snd {m : P σ Unit} {s : St σ} : (isOccupied m s).2 = (m s).2 := by
  unfold isOccupied
  split
  · rename_i heq; rw [heq]
  · rename_i heq; rw [heq]; split <;> rfl

theorem attempts_tr {n : Nat} {s : St σ} : Tr env server cfg secondaries s (attempts env server cfg secondaries n s).2 := by
  induction n generalizing s with
  | zero => exact .refl _
  | succ n ih =>
    unfold attempts
    apply tr_bind initDeviceId_tr
    intro _ s1 _
    apply tr_bind
    · rw [isOccupied_snd]; exact initTlsCreds_tr
    intro b s2 h2
    cases b with
    | true =>
      simp only [if_true]
      obtain ⟨_, hst, hh, d, hd, hl⟩ := tls_occupied (isOccupied_true h2)
      apply tr_bind
      · exact tr_write (fun n => .reset _ d.1 d.2 n (by rw [hst]; exact hd) hh hl)
      · intro _ _ _
        exact ih
    | false =>
      simp only [Bool.false_eq_true, if_false]
      obtain ⟨u, h3⟩ := isOccupied_false h2
      exact rest_tr (tls_post h3)

/-- A run of the initialiser is a sequence of such changes. -/
theorem initialize_tr {s : St σ} : Tr env server cfg secondaries s (initialize' env server cfg secondaries s).2 :=
  attempts_tr

end

end Aktualizr.Prov
