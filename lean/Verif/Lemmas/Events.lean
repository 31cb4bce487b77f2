import Verif.Lemmas.Install
import Verif.Model.Events

/-!
# What an operation tells

An operation that tells what it does is the operation as modelled in `Model/Install.lean` and
`Model/Cycle.lean`, together with a list of notes that depends only on the device at the beginning.
-/

namespace Aktualizr

open M

variable {α β : Type}

/-- `m` on `d` does what `m0` does and tells `l`; when the process dies in the `k`-th note, it has
told the first `k` of them. -/
def Says (m : T α) (m0 : D α) (d : Dev) (l : List Note) : Prop :=
  ∀ notes k,
    (l.length ≤ k → m ⟨d, notes, k⟩ = ((m0 d).1, ⟨(m0 d).2, notes ++ l, k - l.length⟩)) ∧
    (k < l.length → ∃ d', m ⟨d, notes, k⟩ = (.error .crash, ⟨d', notes ++ l.take k, 0⟩))

namespace Says

theorem quiet {m : D α} {d : Dev} : Says (quiet m) m d [] := by
  intro notes k
  refine ⟨fun _ => ?_, fun h => absurd h (by simp)⟩
  show ((m d).1, (⟨(m d).2, notes, k⟩ : Tel)) = _
  simp

theorem pure {a : α} {d : Dev} : Says (pure a) (pure a) d [] := by
  intro notes k
  exact ⟨fun _ => by simp, fun h => absurd h (by simp)⟩

theorem lift {x : Except Err α} {d : Dev} : Says (M.lift x) (M.lift x) d [] := by
  intro notes k
  exact ⟨fun _ => by simp, fun h => absurd h (by simp)⟩

theorem throw {e : Err} {d : Dev} : Says (M.throw e : T α) (M.throw e) d [] := by
  intro notes k
  exact ⟨fun _ => by simp, fun h => absurd h (by simp)⟩

theorem tell {x : Note} {f : Unit → T α} {m0 : D α} {d : Dev} {l : List Note} (h : Says (f ()) m0 d l) :
    Says (Aktualizr.tell x >>= f) m0 d (x :: l) := by
  intro notes k
  cases k with
  | zero =>
    refine ⟨fun h => absurd h (by simp), fun _ => ⟨d, ?_⟩⟩
    have hr : Aktualizr.tell x ⟨d, notes, 0⟩ = (.error .crash, ⟨d, notes, 0⟩) := rfl
    rw [run_bind_err hr]
    simp
  | succ k =>
    have hr : Aktualizr.tell x ⟨d, notes, k + 1⟩ = (.ok (), ⟨d, notes ++ [x], k⟩) := rfl
    rw [run_bind hr]
    obtain ⟨h1, h2⟩ := h (notes ++ [x]) k
    refine ⟨fun hk => ?_, fun hk => ?_⟩
    · rw [h1 (by simpa using hk)]
      simp
    · obtain ⟨d', e⟩ := h2 (by simpa using hk)
      exact ⟨d', by rw [e]; simp⟩

theorem tellAll {xs : List Note} {f : Unit → T α} {m0 : D α} {d : Dev} {l : List Note} (h : Says (f ()) m0 d l) :
    Says (Aktualizr.tellAll xs >>= f) m0 d (xs ++ l) := by
  induction xs with
  | nil =>
    have : (Aktualizr.tellAll [] >>= f) = f () := rfl
    rw [this]
    exact h
  | cons x xs ih =>
    have : (Aktualizr.tellAll (x :: xs) >>= f) = (Aktualizr.tell x >>= fun _ => Aktualizr.tellAll xs >>= f) := by
      funext s
      show ((Aktualizr.tell x >>= fun _ => Aktualizr.tellAll xs) >>= f) s = _
      rcases hs : Aktualizr.tell x s with ⟨_ | _, s1⟩
      · rw [run_bind_err (run_bind_err hs), run_bind_err hs]
      · rw [run_bind hs]
        rcases ht : Aktualizr.tellAll xs s1 with ⟨_ | _, s2⟩
        · rw [run_bind_err ((run_bind hs).trans ht), run_bind_err ht]
        · rw [run_bind ((run_bind hs).trans ht), run_bind ht]
    rw [this]
    exact Says.tell ih

theorem bind {m : T α} {m0 : D α} {f : α → T β} {f0 : α → D β} {d d1 : Dev} {a : α} {l1 l2 : List Note}
    (h1 : Says m m0 d l1) (e : m0 d = (.ok a, d1)) (h2 : Says (f a) (f0 a) d1 l2) :
    Says (m >>= f) (m0 >>= f0) d (l1 ++ l2) := by
  intro notes k
  obtain ⟨p1, q1⟩ := h1 notes k
  rw [e] at p1
  refine ⟨fun hk => ?_, fun hk => ?_⟩
  · simp only [List.length_append] at hk
    rw [run_bind (p1 (by omega)), run_bind e, (h2 _ _).1 (by omega)]
    simp [Nat.sub_sub]
  · simp only [List.length_append] at hk
    by_cases hl : l1.length ≤ k
    · obtain ⟨d', e'⟩ := (h2 (notes ++ l1) (k - l1.length)).2 (by omega)
      refine ⟨d', ?_⟩
      rw [run_bind (p1 hl), e', List.take_append, List.append_assoc, List.take_of_length_le (l := l1) hl]
    · obtain ⟨d', e'⟩ := q1 (by omega)
      refine ⟨d', ?_⟩
      rw [run_bind_err e', List.take_append_of_le_length (by omega)]

theorem bindErr {m : T α} {m0 : D α} {f : α → T β} {f0 : α → D β} {d d1 : Dev} {e : Err} {l : List Note}
    (h : Says m m0 d l) (he : m0 d = (.error e, d1)) : Says (m >>= f) (m0 >>= f0) d l := by
  intro notes k
  obtain ⟨p1, q1⟩ := h notes k
  rw [he] at p1
  refine ⟨fun hk => ?_, fun hk => ?_⟩
  · rw [run_bind_err (p1 hk), run_bind_err he]
  · obtain ⟨d', e'⟩ := q1 hk
    exact ⟨d', by rw [run_bind_err e']⟩

theorem gets {f : Dev → T β} {f0 : Dev → D β} {d : Dev} {l : List Note} (h : Says (f d) (f0 d) d l) :
    Says (M.gets (·.d) >>= f) (M.gets id >>= f0) d l := h

theorem reads {γ : Type} {g : Dev → γ} {f : γ → T β} {m0 : D β} {d : Dev} {l : List Note} (h : Says (f (g d)) m0 d l) :
    Says (M.gets (fun s => g s.d) >>= f) m0 d l := h

theorem congr {m : T α} {m0 m1 : D α} {d : Dev} {l : List Note} (h : Says m m0 d l) (e : m0 d = m1 d) : Says m m1 d l := by
  intro notes k
  rw [← e]
  exact h notes k

/-- Nothing else is told. -/
theorem unique {m : T α} {m0 : D α} {d : Dev} {l : List Note} (h : Says m m0 d l) {s s' : Tel} {o : Except Err α} (hd : s.d = d)
    (e : m s = (o, s')) : (o = (m0 d).1 ∧ s'.d = (m0 d).2 ∧ s'.notes = s.notes ++ l) ∨
      (o = .error .crash ∧ s'.notes = s.notes ++ l.take s.left) := by
  subst hd
  obtain ⟨p, q⟩ := h s.notes s.left
  by_cases hk : l.length ≤ s.left
  · have := (p hk).symm.trans e
    simp only [Prod.mk.injEq] at this
    obtain ⟨rfl, rfl⟩ := this
    exact .inl ⟨rfl, rfl, rfl⟩
  · obtain ⟨d', e'⟩ := q (by omega)
    have := e'.symm.trans e
    simp only [Prod.mk.injEq] at this
    obtain ⟨rfl, rfl⟩ := this
    exact .inr ⟨rfl, rfl⟩

end Says

/-! ## What stays the same during an installation -/

/-- The ECUs of the device and the Director's Targets in memory. -/
def EcusStill (d d' : Dev) : Prop :=
  d'.cl.primary = d.cl.primary ∧ d'.cl.secondaries = d.cl.secondaries ∧ d'.cl.w.dir.targets = d.cl.w.dir.targets

theorem ecusStill_pre : IsPre EcusStill :=
  ⟨fun _ => ⟨rfl, rfl, rfl⟩, fun _ _ _ h1 h2 => ⟨h2.1.trans h1.1, h2.2.1.trans h1.2.1, h2.2.2.trans h1.2.2⟩⟩

theorem EcusStill.cid {d d' : Dev} (h : EcusStill d d') : d'.cl.w.dir.targets.correlationId = d.cl.w.dir.targets.correlationId := by rw [h.2.2]

theorem ecusStill_ask (f : Nat → α) : Preserves EcusStill (ask f) := fun _ => ⟨rfl, rfl, rfl⟩

theorem ecusStill_act (a : Action) : Preserves EcusStill (act a) := by
  intro d
  unfold act
  split <;> exact ⟨rfl, rfl, rfl⟩

theorem ecusStill_cwrite {f : Client → Client} (hf : ∀ cl, (f cl).primary = cl.primary ∧ (f cl).secondaries = cl.secondaries ∧ (f cl).w = cl.w) :
    Preserves EcusStill (inClient (cwrite f)) := by
  intro d
  rw [inClient_eq]
  unfold cwrite
  split
  · exact ⟨rfl, rfl, rfl⟩
  · exact ⟨(hf _).1, (hf _).2.1, by show (f d.cl).w.dir.targets = _; rw [(hf _).2.2]⟩

theorem ecusStill_saveVersion (env : Env) (s : String) (t : Target) (mode : UpdateMode) : Preserves EcusStill (saveVersion env s t mode) :=
  ecusStill_cwrite (fun _ => ⟨rfl, rfl, rfl⟩)

theorem inClient_bind_pres {R : Dev → Dev → Prop} (hR : IsPre R) {m : C α} {f : α → C β} (h1 : Preserves R (inClient m))
    (h2 : ∀ a, Preserves R (inClient (f a))) : Preserves R (inClient (m >>= f)) := by
  have : inClient (m >>= f) = (inClient m >>= fun a => inClient (f a)) := by
    funext d
    rw [inClient_eq]
    rcases hm : m d.cl with ⟨_ | a, cl⟩
    · rw [run_bind_err hm, run_bind_err (by rw [inClient_eq, hm])]
    · rw [run_bind hm, run_bind (by rw [inClient_eq, hm])]
      rfl
  rw [this]
  exact .bind hR h1 h2

theorem ecusStill_lift {x : Except Err α} : Preserves EcusStill (inClient (M.lift x)) := fun _ => ⟨rfl, rfl, rfl⟩

theorem ecusStill_saveEcuResult (s : String) (r : InstResult) : Preserves EcusStill (inClient (saveEcuResult s r)) := by
  unfold saveEcuResult
  exact inClient_bind_pres ecusStill_pre ecusStill_lift (fun _ => ecusStill_cwrite (fun _ => ⟨rfl, rfl, rfl⟩))

theorem ecusStill_storeDeviceResult (r : InstResult) (raw cid : String) : Preserves EcusStill (inClient (storeDeviceResult r raw cid)) := by
  unfold storeDeviceResult
  exact inClient_bind_pres ecusStill_pre ecusStill_lift (fun _ => ecusStill_cwrite (fun _ => ⟨rfl, rfl, rfl⟩))

theorem ecusStill_world {m : U α} (h : Preserves SameDirTargets m) : Preserves EcusStill (inClient (inWorld m)) := fun d =>
  ⟨rfl, rfl, (h d.cl.w).1⟩

theorem ecusStill_rotateSecLoop (c : Ctx) (p : Peers) (repo : Repo) (serial : String) :
    ∀ k v r, Preserves EcusStill (rotateSecLoop c p repo serial k v r)
  | 0, _, _ => .pure ecusStill_pre
  | k + 1, v, r => by
    have ih := ecusStill_rotateSecLoop c p repo serial k
    unfold rotateSecLoop rootForSecondary
    wpres ecusStill_pre
    all_goals first
      | exact ecusStill_world (sameMem_dirTargets (tryFetchRoot_same _ _ _))
      | exact ecusStill_act _
      | exact ecusStill_ask _
      | exact ih _ _

theorem ecusStill_sendMetadataTo (c : Ctx) (p : Peers) (serial : String) (t : Target) : Preserves EcusStill (sendMetadataTo c p serial t) := by
  unfold sendMetadataTo rotateSecondaryRoot
  wpres ecusStill_pre
  all_goals first
    | exact ecusStill_world (eq_dirTargets (loadLatestRoot_same _))
    | exact ecusStill_act _
    | exact ecusStill_ask _
    | exact ecusStill_rotateSecLoop _ _ _ _ _ _ _

theorem ecusStill_sendMetadataLoop (c : Ctx) (p : Peers) : ∀ l failed, Preserves EcusStill (sendMetadataLoop c p l failed)
  | [], _ => .pure ecusStill_pre
  | (t, serial, hw) :: rest, failed => by
    have ih := ecusStill_sendMetadataLoop c p rest
    unfold sendMetadataLoop
    wpres ecusStill_pre
    all_goals first
      | exact ecusStill_sendMetadataTo _ _ _ _
      | exact ih _

theorem ecusStill_sendMetadataToEcus (c : Ctx) (p : Peers) (ts : List Target) : Preserves EcusStill (sendMetadataToEcus c p ts) := by
  unfold sendMetadataToEcus
  wpres ecusStill_pre
  exact ecusStill_sendMetadataLoop _ _ _ _

theorem ecusStill_sendFirmware (p : Peers) (serial : String) (t : Target) : Preserves EcusStill (sendFirmware p serial t) := by
  unfold sendFirmware
  wpres ecusStill_pre
  all_goals first
    | exact ecusStill_act _
    | exact ecusStill_ask _

theorem ecusStill_recordAllResults (env : Env) : ∀ l, Preserves EcusStill (recordAllResults env l)
  | [] => .pure ecusStill_pre
  | (t, serial, r) :: rest => by
    have ih := ecusStill_recordAllResults env rest
    unfold recordAllResults
    wpres ecusStill_pre
    all_goals first
      | exact ecusStill_saveVersion _ _ _ _
      | exact ecusStill_saveEcuResult _ _

theorem ecusStill_packageInstall (env : Env) (p : Peers) (t : Target) : Preserves EcusStill (packageInstallSetResult env p t) := by
  unfold packageInstallSetResult
  wpres ecusStill_pre
  all_goals first
    | exact ecusStill_saveVersion _ _ _ _
    | exact ecusStill_saveEcuResult _ _
    | exact ecusStill_act _
    | exact ecusStill_ask _

theorem ecusStill_waitReachable (p : Peers) (ts : List Target) : Preserves EcusStill (waitSecondariesReachable p ts) := by
  unfold waitSecondariesReachable
  wpres ecusStill_pre
  exact ecusStill_ask _

theorem ecusStill_verifyAll (p : Peers) : ∀ ts, Preserves EcusStill (verifyAll p ts)
  | [] => .pure ecusStill_pre
  | t :: rest => by
    have ih := ecusStill_verifyAll p rest
    unfold verifyAll
    wpres ecusStill_pre
    all_goals first
      | exact ecusStill_ask _
      | exact ⟨rfl, rfl, rfl⟩

/-! ## Downloads -/

/-- What is told of the download of one target. -/
def dlStory (cid : String) (x : Target × Bool) : List Note :=
  x.1.ecus.map (fun e => .downloadStarted e.1 cid) ++
    (x.1.ecus.map (fun e => .downloadCompleted e.1 cid x.2) ++ [.targetDownloaded x.1 x.2])

theorem downloadEachT_says (f : Fetched) : ∀ (ts : List Target) (d : Dev), ∃ oks : List Bool, oks.length = ts.length ∧
    (∀ x ∈ ts.zip oks, ∃ n, x.2 = f n x.1) ∧
    Says (downloadEachT f ts) (downloadEach f ts) d ((ts.zip oks).flatMap (dlStory d.cl.w.dir.targets.correlationId)) ∧
    ∃ d', downloadEach f ts d = (.ok (((ts.zip oks).filter (·.2)).map (·.1)), d') ∧ EcusStill d d'
  | [], d => ⟨[], rfl, by simp, Says.pure, d, rfl, ecusStill_pre.refl _⟩
  | t :: rest, d => by
    have ha : ask (fun n => f n t) d = (.ok (f d.n t), { d with n := d.n + 1 }) := rfl
    obtain ⟨oks, hl, hf, hs, d', hd, hstill⟩ := downloadEachT_says f rest { d with n := d.n + 1 }
    refine ⟨f d.n t :: oks, by simp [hl], ?_, ?_, d', ?_, ecusStill_pre.trans _ _ _ ⟨rfl, rfl, rfl⟩ hstill⟩
    · intro x hx
      simp only [List.zip_cons_cons, List.mem_cons] at hx
      rcases hx with rfl | hx
      · exact ⟨_, rfl⟩
      · exact hf x hx
    · have h2 := Says.bind (f := fun l => pure (if f d.n t then t :: l else l)) (f0 := fun l => pure (if f d.n t then t :: l else l))
        (l2 := []) hs hd Says.pure
      have h3 := Says.tell (x := .targetDownloaded t (f d.n t)) (f := fun _ => downloadEachT f rest >>= fun l => pure (if f d.n t then t :: l else l)) h2
      have h4 := Says.tellAll (xs := t.ecus.map (fun e => .downloadCompleted e.1 d.cl.w.dir.targets.correlationId (f d.n t)))
        (f := fun _ => tell (.targetDownloaded t (f d.n t)) >>= fun _ => downloadEachT f rest >>= fun l => pure (if f d.n t then t :: l else l)) h3
      have h5 := Says.bind (f := fun ok => tellAll (t.ecus.map (fun e => .downloadCompleted e.1 d.cl.w.dir.targets.correlationId ok)) >>= fun _ =>
          tell (.targetDownloaded t ok) >>= fun _ => downloadEachT f rest >>= fun l => pure (if ok then t :: l else l))
        (f0 := fun ok => downloadEach f rest >>= fun l => pure (if ok then t :: l else l)) Says.quiet ha h4
      have h6 := Says.tellAll (xs := t.ecus.map (fun e => .downloadStarted e.1 d.cl.w.dir.targets.correlationId)) (f := fun _ => _) h5
      have h7 : Says (downloadEachT f (t :: rest)) (downloadEach f (t :: rest)) d _ := Says.reads (g := fun d => d.cl.w.dir.targets.correlationId) (f := fun _ => _) h6
      refine cast (congrArg _ ?_) h7
      simp [dlStory]
    · show (ask (fun n => f n t) >>= fun ok => downloadEach f rest >>= fun l => pure (if ok then t :: l else l)) d = _
      rw [run_bind ha]
      rw [run_bind hd]
      cases f d.n t <;> simp

/-! ## Installation -/

/-- What a Secondary's thread tells at its end. -/
def secEnd (e cid : String) (r : InstResult) : List Note :=
  match r.needCompletion with
  | .error _ => []
  | .ok nc => [if nc then .installApplied e cid else .installCompleted e cid r.success, .targetInstalled e r.success]

/-- What a Secondary's thread tells. -/
def secStory (cid : String) (e : String) (r : InstResult) : List Note := .started e :: .installStarted e cid :: secEnd e cid r

/-- What is told of the Primary. -/
def primStory (cid : String) (e : String) (r : InstResult) : List Note :=
  [.installStarted e cid, .started e] ++
    (if r.code.num = 21 then [.installApplied e cid, .targetInstalled e true]
     else [.installCompleted e cid (r.code.num == 0), .targetInstalled e (r.code.num == 0)])

theorem secondaryDone_says {e cid : String} {r : InstResult} {f : Unit → T α} {m0 : D α} {d : Dev} {l : List Note}
    (h : Says (f ()) m0 d l) : Says (secondaryDone e cid r >>= f) m0 d (secEnd e cid r ++ l) := by
  unfold secondaryDone secEnd
  cases r.needCompletion with
  | error x => exact h
  | ok nc =>
    have h1 := Says.tell (x := .targetInstalled e r.success) h
    have h2 := Says.tell (x := if nc then .installApplied e cid else .installCompleted e cid r.success)
      (f := fun _ => tell (.targetInstalled e r.success) >>= f) h1
    refine cast (congrArg (fun m => Says m m0 d _) ?_) h2
    funext s
    rcases hs : tell (if nc then .installApplied e cid else .installCompleted e cid r.success) s with ⟨_ | _, s1⟩
    · rw [run_bind_err hs]
      exact (run_bind_err (run_bind_err hs)).symm
    · rw [run_bind hs]
      rcases ht : tell (.targetInstalled e r.success) s1 with ⟨_ | _, s2⟩
      · rw [run_bind_err ht]
        exact (run_bind_err ((run_bind hs).trans ht)).symm
      · rw [run_bind ht]
        exact (run_bind ((run_bind hs).trans ht)).symm

theorem bind_pure_eq {σ : Type} {m : M σ α} {w : σ} : (m >>= pure) w = m w := by
  rcases h : m w with ⟨_ | a, w1⟩
  · rw [run_bind_err h]
  · rw [run_bind h]; rfl

theorem sendFirmwareT_says (p : Peers) (e : String) (t : Target) (d : Dev) :
    Says (sendFirmwareT p e t) (sendFirmware p e t) d
      (match (sendFirmware p e t d).1 with
        | .ok r => secStory d.cl.w.dir.targets.correlationId e r
        | .error _ => [.started e, .installStarted e d.cl.w.dir.targets.correlationId]) := by
  have h0 : ∀ l, Says (quiet (sendFirmware p e t) >>= fun r => secondaryDone e d.cl.w.dir.targets.correlationId r >>= fun _ => pure r)
      (sendFirmware p e t) d l →
      Says (sendFirmwareT p e t) (sendFirmware p e t) d (.started e :: .installStarted e d.cl.w.dir.targets.correlationId :: l) := by
    intro l h
    exact Says.reads (g := fun d => d.cl.w.dir.targets.correlationId) (f := fun _ => _) (Says.tell (f := fun _ => _) (Says.tell (f := fun _ => _) h))
  rcases hs : sendFirmware p e t d with ⟨x | r, d1⟩
  · exact h0 [] ((Says.bindErr (f0 := pure) Says.quiet hs).congr bind_pure_eq)
  · refine h0 _ ((Says.congr (Says.bind (f0 := pure) (l1 := []) (l2 := secEnd e d.cl.w.dir.targets.correlationId r) Says.quiet hs ?_) bind_pure_eq))
    have := secondaryDone_says (e := e) (cid := d.cl.w.dir.targets.correlationId) (r := r) (f := fun _ => pure r) (Says.pure (a := r) (d := d1))
    rwa [List.append_nil] at this

/-- What the calls of a Secondary gave: the answer of `install`; a failed answer of `sendFirmware`; or, after an
exception, an internal error. -/
def SecAnswer (p : Peers) (e : String) (t : Target) (r : InstResult) : Prop :=
  (∃ n, p.secInstall n e t = .ok r) ∨ (∃ n, p.sendFirmware n e t = .ok r ∧ r.success = false) ∨
    (∃ n x, (p.secInstall n e t = .error x ∨ p.sendFirmware n e t = .error x) ∧ r = .ofCode .internalError "exception")

theorem sendFirmware_answer {p : Peers} {e : String} {t : Target} {d d' : Dev} {r : InstResult}
    (h : sendFirmware p e t d = (.ok r, d')) : SecAnswer p e t r := by
  unfold sendFirmware at h
  obtain ⟨_, d1, _, h⟩ := bind_ok.1 h
  obtain ⟨a, d2, ha, h⟩ := bind_ok.1 h
  have ha' : a = p.sendFirmware d1.n e t := by
    have : ask (fun n => p.sendFirmware n e t) d1 = (.ok (p.sendFirmware d1.n e t), { d1 with n := d1.n + 1 }) := rfl
    rw [this] at ha
    simp only [Prod.mk.injEq, Except.ok.injEq] at ha
    exact ha.1.symm
  obtain ⟨r1, d3, hr1, h⟩ := bind_ok.1 h
  simp only [lift_eq, Prod.mk.injEq] at hr1
  obtain ⟨hr1, rfl⟩ := hr1
  rw [ite_app] at h
  split at h
  next hc =>
    obtain ⟨_, d4, _, h⟩ := bind_ok.1 h
    obtain ⟨b, d5, hb, h⟩ := bind_ok.1 h
    have hb' : b = p.secInstall d4.n e t := by
      have : ask (fun n => p.secInstall n e t) d4 = (.ok (p.secInstall d4.n e t), { d4 with n := d4.n + 1 }) := rfl
      rw [this] at hb
      simp only [Prod.mk.injEq, Except.ok.injEq] at hb
      exact hb.1.symm
    simp only [lift_eq, Prod.mk.injEq] at h
    obtain ⟨h, _⟩ := h
    subst hb'
    unfold orFailure at h
    cases hp : p.secInstall d4.n e t with
    | ok x => rw [hp] at h; injection h with h; subst h; exact .inl ⟨_, hp⟩
    | error x =>
      rw [hp] at h
      simp only at h
      split at h
      · injection h with h; exact .inr (.inr ⟨_, x, .inl hp, h.symm⟩)
      · cases h
  next hc =>
    simp only [pure_eq, Prod.mk.injEq, Except.ok.injEq] at h
    obtain ⟨rfl, _⟩ := h
    subst ha'
    unfold orFailure at hr1
    cases hp : p.sendFirmware d1.n e t with
    | ok x =>
      rw [hp] at hr1 hc
      injection hr1 with hr1; subst hr1
      refine .inr (.inl ⟨_, hp, ?_⟩)
      cases hx : x.success with
      | false => rfl
      | true => exact absurd ⟨rfl, hx⟩ hc
    | error x =>
      rw [hp] at hr1
      simp only at hr1
      split at hr1
      · injection hr1 with hr1; exact .inr (.inr ⟨_, x, .inr hp, hr1.symm⟩)
      · cases hr1

/-- `rs` is what Secondaries answered, each asked for an assigned target, and `tail` is what was told of one more that
gave no answer. -/
structure SecTold (p : Peers) (as : List (Target × String × String)) (prim : String) (cid : String) (rs : List (Target × String × InstResult))
    (tail : List Note) : Prop where
  answers : ∀ x ∈ rs, SecAnswer p x.2.1 x.1 x.2.2 ∧ x.2.1 ≠ prim ∧ ∃ hw, (x.1, x.2.1, hw) ∈ as
  tail : tail = [] ∨ ∃ e, tail = [.started e, .installStarted e cid]

theorem sendAllT_says (p : Peers) : ∀ (as : List (Target × String × String)) (d : Dev), ∃ rs tail,
    Says (sendAllT p as) (sendAll p as) d (rs.flatMap (fun x => secStory d.cl.w.dir.targets.correlationId x.2.1 x.2.2) ++ tail) ∧
    SecTold p as d.cl.primary d.cl.w.dir.targets.correlationId rs tail ∧
    EcusStill d (sendAll p as d).2 ∧ (∀ l d', sendAll p as d = (.ok l, d') → tail = [] ∧ l = rs)
  | [], d => ⟨[], [], Says.pure, ⟨by simp, .inl rfl⟩, ecusStill_pre.refl _, by
      intro l d' h
      simp only [sendAll, pure_eq, Prod.mk.injEq, Except.ok.injEq] at h
      exact ⟨rfl, h.1.symm⟩⟩
  | (t, e, hw) :: rest, d => by
    have skip : (∃ rs tail,
        Says (sendAllT p rest) (sendAll p rest) d (rs.flatMap (fun x => secStory d.cl.w.dir.targets.correlationId x.2.1 x.2.2) ++ tail) ∧
        SecTold p ((t, e, hw) :: rest) d.cl.primary d.cl.w.dir.targets.correlationId rs tail ∧
        EcusStill d (sendAll p rest d).2 ∧ (∀ l d', sendAll p rest d = (.ok l, d') → tail = [] ∧ l = rs)) := by
      obtain ⟨rs, tail, h1, h2, h3, h4⟩ := sendAllT_says p rest d
      refine ⟨rs, tail, h1, ⟨fun x hx => ?_, h2.tail⟩, h3, h4⟩
      obtain ⟨a, b, hw', hm⟩ := h2.answers x hx
      exact ⟨a, b, hw', List.mem_cons_of_mem _ hm⟩
    have hT : sendAllT p ((t, e, hw) :: rest) = (gets (·.d) >>= fun d =>
        if e = d.cl.primary then sendAllT p rest
        else if d.cl.secondaries.any (fun q => q.1 == e) then sendFirmwareT p e t >>= fun r => sendAllT p rest >>= fun l => pure ((t, e, r) :: l)
        else sendAllT p rest) := rfl
    have hD : sendAll p ((t, e, hw) :: rest) = (gets id >>= fun d =>
        if e = d.cl.primary then sendAll p rest
        else if d.cl.secondaries.any (fun q => q.1 == e) then sendFirmware p e t >>= fun r => sendAll p rest >>= fun l => pure ((t, e, r) :: l)
        else sendAll p rest) := rfl
    rw [hT, hD]
    have hrun : ∀ f : Dev → D (List (Target × String × InstResult)), (gets id >>= f) d = f d d := fun f => rfl
    rw [hrun]
    by_cases hp : e = d.cl.primary
    · simp only [if_pos hp]
      obtain ⟨rs, tail, h1, h2⟩ := skip
      exact ⟨rs, tail, Says.gets (by simp only [if_pos hp]; exact h1), h2⟩
    · by_cases hs : d.cl.secondaries.any (fun q => q.1 == e) = true
      · simp only [if_neg hp, if_pos hs]
        have hsf := sendFirmwareT_says p e t d
        rcases hr : sendFirmware p e t d with ⟨x | r, d1⟩
        · rw [hr] at hsf
          refine ⟨[], [.started e, .installStarted e d.cl.w.dir.targets.correlationId], ?_, ⟨by simp, .inr ⟨e, rfl⟩⟩, ?_, ?_⟩
          · exact Says.gets (by simp only [if_neg hp, if_pos hs]; exact Says.bindErr hsf hr)
          · rw [run_bind_err hr]
            exact (ecusStill_sendFirmware p e t).of_eq hr
          · intro l d' h
            rw [run_bind_err hr] at h
            cases h
        · rw [hr] at hsf
          have hst : EcusStill d d1 := (ecusStill_sendFirmware p e t).of_eq hr
          obtain ⟨rs, tail, h1, h2, h3, h4⟩ := sendAllT_says p rest d1
          rw [hst.cid] at h1 h2
          rw [run_bind hr]
          have key : Says (sendAllT p rest >>= fun l => pure ((t, e, r) :: l)) (sendAll p rest >>= fun l => pure ((t, e, r) :: l)) d1
              (rs.flatMap (fun x => secStory d.cl.w.dir.targets.correlationId x.2.1 x.2.2) ++ tail) := by
            rcases hq : sendAll p rest d1 with ⟨x | l, d2⟩
            · exact Says.bindErr h1 hq
            · have := Says.bind (f := fun l => pure ((t, e, r) :: l)) (f0 := fun l => pure ((t, e, r) :: l)) h1 hq Says.pure
              rwa [List.append_nil] at this
          refine ⟨(t, e, r) :: rs, tail, ?_, ⟨?_, h2.tail⟩, ?_, ?_⟩
          · refine Says.gets ?_
            simp only [if_neg hp, if_pos hs]
            have := Says.bind (f := fun r => sendAllT p rest >>= fun l => pure ((t, e, r) :: l))
              (f0 := fun r => sendAll p rest >>= fun l => pure ((t, e, r) :: l)) hsf hr key
            rw [List.flatMap_cons, List.append_assoc]
            exact this
          · intro x hx
            rcases List.mem_cons.1 hx with rfl | hx
            · exact ⟨sendFirmware_answer hr, hp, hw, List.mem_cons_self ..⟩
            · obtain ⟨a, b, hw', hm⟩ := h2.answers x hx
              exact ⟨a, by rw [← hst.1]; exact b, hw', List.mem_cons_of_mem _ hm⟩
          · refine ecusStill_pre.trans _ _ _ hst ?_
            rcases hq : sendAll p rest d1 with ⟨x | l, d2⟩
            · rw [run_bind_err hq]; rw [hq] at h3; exact h3
            · rw [run_bind hq]; rw [hq] at h3; exact h3
          · intro l d' h
            obtain ⟨l1, d2, hq, h⟩ := bind_ok.1 h
            simp only [pure_eq, Prod.mk.injEq, Except.ok.injEq] at h
            obtain ⟨a, b⟩ := h4 _ _ hq
            subst b
            exact ⟨a, h.1.symm⟩
      · simp only [if_neg hp, if_neg hs]
        obtain ⟨rs, tail, h1, h2⟩ := skip
        exact ⟨rs, tail, Says.gets (by simp only [if_neg hp, if_neg hs]; exact h1), h2⟩

theorem bind_assoc_eq {σ γ : Type} {m : M σ α} {f : α → M σ β} {g : β → M σ γ} : ((m >>= f) >>= g) = (m >>= fun a => f a >>= g) := by
  funext w
  rcases h : m w with ⟨_ | a, w1⟩
  · rw [run_bind_err h, run_bind_err (run_bind_err h)]
  · rw [run_bind h]
    rcases h2 : f a w1 with ⟨_ | b, w2⟩
    · rw [run_bind_err h2, run_bind_err ((run_bind h).trans h2)]
    · rw [run_bind h2, run_bind ((run_bind h).trans h2)]

theorem recordAllResults_ok {env : Env} : ∀ {l : List (Target × String × InstResult)} {d d' : Dev} {es : List EcuReport},
    recordAllResults env l d = (.ok es, d') → es.map (fun r => (r.serial, r.result)) = l.map (fun x => (x.2.1, x.2.2)) ∧
      ∀ x ∈ l, ∃ nc, x.2.2.needCompletion = .ok nc
  | [], d, d', es, h => by
    simp only [recordAllResults, pure_eq, Prod.mk.injEq, Except.ok.injEq] at h
    obtain ⟨rfl, _⟩ := h
    exact ⟨rfl, by simp⟩
  | (t, e, r) :: rest, d, d', es, h => by
    unfold recordAllResults at h
    obtain ⟨nc, d1, h1, h⟩ := bind_ok.1 h
    simp only [lift_eq, Prod.mk.injEq] at h1
    obtain ⟨dx, d2, _, h⟩ := bind_ok.1 h
    have hk : ∃ t' d4 d5 l', recordAllResults env rest d4 = (.ok l', d5) ∧ (pure ((⟨t', e, r⟩ : EcuReport) :: l') : D _) d5 = (.ok es, d') := by
      rw [ite_app] at h
      split at h
      · obtain ⟨_, d3, _, h⟩ := bind_ok.1 h
        obtain ⟨_, d4, _, h⟩ := bind_ok.1 h
        obtain ⟨l', d5, hl, h⟩ := bind_ok.1 h
        exact ⟨_, d4, d5, l', hl, h⟩
      · obtain ⟨_, d4, _, h⟩ := bind_ok.1 h
        obtain ⟨l', d5, hl, h⟩ := bind_ok.1 h
        exact ⟨_, d4, d5, l', hl, h⟩
    obtain ⟨t', d4, d5, l', hl, h⟩ := hk
    simp only [pure_eq, Prod.mk.injEq, Except.ok.injEq] at h
    obtain ⟨rfl, _⟩ := h
    obtain ⟨a, b⟩ := recordAllResults_ok hl
    refine ⟨by simp [a], ?_⟩
    intro x hx
    rcases List.mem_cons.1 hx with rfl | hx
    · exact ⟨nc, h1.1⟩
    · exact b x hx

theorem sendImagesToEcusT_says (env : Env) (p : Peers) (ts : List Target) (d : Dev) : ∃ rs tail,
    Says (sendImagesToEcusT env p ts) (sendImagesToEcus env p ts) d
      (rs.flatMap (fun x => secStory d.cl.w.dir.targets.correlationId x.2.1 x.2.2) ++ tail) ∧
    SecTold p (assignments ts) d.cl.primary d.cl.w.dir.targets.correlationId rs tail ∧
    EcusStill d (sendImagesToEcus env p ts d).2 ∧
    (∀ es d', sendImagesToEcus env p ts d = (.ok es, d') → tail = [] ∧
      es.map (fun r => (r.serial, r.result)) = rs.map (fun x => (x.2.1, x.2.2)) ∧ ∀ x ∈ rs, ∃ nc, x.2.2.needCompletion = .ok nc) := by
  obtain ⟨rs, tail, h1, h2, h3, h4⟩ := sendAllT_says p (assignments ts) d
  refine ⟨rs, tail, ?_, h2, ?_, ?_⟩
  · rcases hq : sendAll p (assignments ts) d with ⟨x | l, d2⟩
    · exact Says.bindErr h1 hq
    · have := Says.bind (f := fun l => quiet (recordAllResults env l)) (f0 := fun l => recordAllResults env l) h1 hq Says.quiet
      rwa [List.append_nil] at this
  · refine ecusStill_pre.trans _ _ _ h3 ?_
    unfold sendImagesToEcus
    rcases hq : sendAll p (assignments ts) d with ⟨x | l, d2⟩
    · rw [run_bind_err hq]; exact ecusStill_pre.refl _
    · rw [run_bind hq]; exact ecusStill_recordAllResults env l d2
  · intro es d' h
    unfold sendImagesToEcus at h
    obtain ⟨l, d2, hq, h⟩ := bind_ok.1 h
    obtain ⟨a, rfl⟩ := h4 _ _ hq
    obtain ⟨b, c⟩ := recordAllResults_ok h
    exact ⟨a, b, c⟩

/-- What the package manager's `install` gave: its answer, or, after an exception, a failure. -/
def PrimAnswer (p : Peers) (t : Target) (r : InstResult) : Prop :=
  (∃ n, p.install n t = .ok r) ∨ (∃ n x, p.install n t = .error x ∧ r = .ofCode .installFailed "exception")

theorem packageInstall_answer {env : Env} {p : Peers} {t : Target} {d d' : Dev} {r : InstResult}
    (h : packageInstallSetResult env p t d = (.ok r, d')) : PrimAnswer p t r := by
  unfold packageInstallSetResult at h
  obtain ⟨dd, d0, _, h⟩ := bind_ok.1 h
  obtain ⟨_, d1, _, h⟩ := bind_ok.1 h
  obtain ⟨_, d2, _, h⟩ := bind_ok.1 h
  obtain ⟨a, d3, ha, h⟩ := bind_ok.1 h
  have ha' : a = p.install d2.n t := by
    have : ask (fun n => p.install n t) d2 = (.ok (p.install d2.n t), { d2 with n := d2.n + 1 }) := rfl
    rw [this] at ha
    simp only [Prod.mk.injEq, Except.ok.injEq] at ha
    exact ha.1.symm
  obtain ⟨r1, d4, hr, h⟩ := bind_ok.1 h
  simp only [lift_eq, Prod.mk.injEq] at hr
  obtain ⟨hr, rfl⟩ := hr
  have hk : r1 = r := by
    rw [ite_app] at h
    split at h
    · obtain ⟨_, _, _, h⟩ := bind_ok.1 h
      obtain ⟨_, _, _, h⟩ := bind_ok.1 h
      simp only [pure_eq, Prod.mk.injEq, Except.ok.injEq] at h
      exact h.1
    · rw [ite_app] at h
      split at h
      · obtain ⟨_, _, _, h⟩ := bind_ok.1 h
        obtain ⟨_, _, _, h⟩ := bind_ok.1 h
        simp only [pure_eq, Prod.mk.injEq, Except.ok.injEq] at h
        exact h.1
      · obtain ⟨_, _, _, h⟩ := bind_ok.1 h
        simp only [pure_eq, Prod.mk.injEq, Except.ok.injEq] at h
        exact h.1
  subst hk
  subst ha'
  unfold orFailure at hr
  cases hp : p.install d2.n t with
  | ok x => rw [hp] at hr; injection hr with hr; subst hr; exact .inl ⟨_, hp⟩
  | error x =>
    rw [hp] at hr
    simp only at hr
    split at hr
    · injection hr with hr; exact .inr ⟨_, x, hp, hr.symm⟩
    · cases hr

/-- What is told of the Primary's installation, whichever way it ends: `rs` is what the package manager answered, `tail`
what was told of an installation that gave no answer or whose answer could not be stored. -/
theorem installPrimaryT_says (env : Env) (p : Peers) (ts : List Target) (d : Dev) : ∃ (rs : List (Target × InstResult)) (tail : List Note),
    Says (installPrimaryT env p ts) (installPrimary env p ts) d
      (rs.flatMap (fun x => primStory d.cl.w.dir.targets.correlationId d.cl.primary x.2) ++ tail) ∧
    (∀ x ∈ rs, x.1 ∈ ts ∧ x.1.isForEcu d.cl.primary = true ∧
      PrimAnswer p { x.1 with correlationId := d.cl.w.dir.targets.correlationId } x.2) ∧
    (tail = [] ∨ rs = [] ∧ tail = [.installStarted d.cl.primary d.cl.w.dir.targets.correlationId, .started d.cl.primary]) ∧
    EcusStill d (installPrimary env p ts d).2 ∧
    (∀ es d', installPrimary env p ts d = (.ok es, d') → tail = [] ∧
      es.map (fun r => (r.serial, r.result)) = rs.map (fun x => (d.cl.primary, x.2))) := by
  have hT : installPrimaryT env p ts = (gets (·.d) >>= fun d => match ts.find? (fun t => t.isForEcu d.cl.primary) with
      | none => pure []
      | some t => tell (.installStarted d.cl.primary d.cl.w.dir.targets.correlationId) >>= fun _ => tell (.started d.cl.primary) >>= fun _ =>
          quiet (act .notify) >>= fun _ => quiet (packageInstallSetResult env p { t with correlationId := d.cl.w.dir.targets.correlationId }) >>= fun r =>
          primaryDone d.cl.primary d.cl.w.dir.targets.correlationId r >>= fun _ =>
          pure [⟨{ t with correlationId := d.cl.w.dir.targets.correlationId }, d.cl.primary, r⟩]) := rfl
  have hD : installPrimary env p ts = (gets id >>= fun d => match ts.find? (fun t => t.isForEcu d.cl.primary) with
      | none => pure []
      | some t => act .notify >>= fun _ => packageInstallSetResult env p { t with correlationId := d.cl.w.dir.targets.correlationId } >>= fun r =>
          (if r.code.num = 21 then pure () else inClient (saveEcuResult d.cl.primary r)) >>= fun _ =>
          pure [⟨{ t with correlationId := d.cl.w.dir.targets.correlationId }, d.cl.primary, r⟩]) := by
    unfold installPrimary
    congr
    funext d
    cases ts.find? (fun t => t.isForEcu d.cl.primary) with
    | none => rfl
    | some t =>
      simp only
      congr
      funext _
      congr
      funext r
      split <;> rfl
  have hrun : installPrimary env p ts d = (match ts.find? (fun t : Target => t.isForEcu d.cl.primary) with
      | none => (pure [] : D (List EcuReport))
      | some t => act .notify >>= fun _ => packageInstallSetResult env p { t with correlationId := d.cl.w.dir.targets.correlationId } >>= fun r =>
          (if r.code.num = 21 then pure () else inClient (saveEcuResult d.cl.primary r)) >>= fun _ =>
          (pure [⟨{ t with correlationId := d.cl.w.dir.targets.correlationId }, d.cl.primary, r⟩] : D (List EcuReport))) d := by
    rw [hD]; rfl
  rw [hrun]
  cases hf : ts.find? (fun t => t.isForEcu d.cl.primary) with
  | none =>
    refine ⟨[], [], by rw [hT, hD]; exact Says.gets (by simp only [hf]; exact Says.pure), by simp, .inl rfl, ecusStill_pre.refl _, ?_⟩
    intro es d' h
    simp only [pure_eq, Prod.mk.injEq, Except.ok.injEq] at h
    obtain ⟨rfl, _⟩ := h
    exact ⟨rfl, rfl⟩
  | some t =>
    have hmem := List.mem_of_find?_eq_some hf
    have hfor := List.find?_some hf
    simp only
    generalize hcid : d.cl.w.dir.targets.correlationId = cid
    generalize hpr : d.cl.primary = prim at *
    have pre : ∀ {l : List Note}, Says (quiet (act .notify) >>= fun _ => quiet (packageInstallSetResult env p { t with correlationId := cid }) >>= fun r =>
          primaryDone prim cid r >>= fun _ => (pure [⟨{ t with correlationId := cid }, prim, r⟩] : T (List EcuReport)))
        (act .notify >>= fun _ => packageInstallSetResult env p { t with correlationId := cid } >>= fun r =>
          (if r.code.num = 21 then pure () else inClient (saveEcuResult prim r)) >>= fun _ => (pure [⟨{ t with correlationId := cid }, prim, r⟩] : D (List EcuReport))) d l →
        Says (installPrimaryT env p ts) (installPrimary env p ts) d (.installStarted prim cid :: .started prim :: l) := by
      rw [hT, hD]
      intro l h
      refine Says.gets ?_
      simp only [hpr, hf, hcid]
      exact Says.tell (f := fun _ => _) (Says.tell (f := fun _ => _) h)
    rcases ha : act .notify d with ⟨x | u, d1⟩
    · have hst : EcusStill d d1 := (ecusStill_act _).of_eq ha
      refine ⟨[], [.installStarted prim cid, .started prim], pre (Says.bindErr Says.quiet ha), by simp, .inr ⟨rfl, rfl⟩, ?_, ?_⟩
      · rw [run_bind_err ha]; exact hst
      · intro es d' h; rw [run_bind_err ha] at h; cases h
    · have hst : EcusStill d d1 := (ecusStill_act _).of_eq ha
      rcases hi : packageInstallSetResult env p { t with correlationId := cid } d1 with ⟨x | r, d2⟩
      · have hst2 : EcusStill d1 d2 := (ecusStill_packageInstall _ _ _).of_eq hi
        refine ⟨[], [.installStarted prim cid, .started prim], pre (Says.bind (l1 := []) Says.quiet ha (Says.bindErr Says.quiet hi)), by simp, .inr ⟨rfl, rfl⟩, ?_, ?_⟩
        · rw [run_bind ha, run_bind_err hi]; exact ecusStill_pre.trans _ _ _ hst hst2
        · intro es d' h; rw [run_bind ha, run_bind_err hi] at h; cases h
      · have hst2 : EcusStill d1 d2 := (ecusStill_packageInstall _ _ _).of_eq hi
        have hst12 := ecusStill_pre.trans _ _ _ hst hst2
        have hans := packageInstall_answer hi
        by_cases hc : r.code.num = 21
        · refine ⟨[(t, r)], [], ?_, ?_, .inl rfl, ?_, ?_⟩
          · have h1 : Says (primaryDone prim cid r >>= fun _ => (pure [⟨{ t with correlationId := cid }, prim, r⟩] : T (List EcuReport)))
                (pure [⟨{ t with correlationId := cid }, prim, r⟩]) d2 [.installApplied prim cid, .targetInstalled prim true] := by
              have h2 := Says.tell (x := .installApplied prim cid)
                (f := fun _ => tell (.targetInstalled prim true) >>= fun _ => (pure [⟨{ t with correlationId := cid }, prim, r⟩] : T (List EcuReport)))
                (Says.tell (x := .targetInstalled prim true) (f := fun _ => (pure [⟨{ t with correlationId := cid }, prim, r⟩] : T (List EcuReport))) (Says.pure (d := d2)))
              refine cast (congrArg (fun m => Says m _ d2 _) ?_) h2
              unfold primaryDone
              rw [if_pos hc]
              exact bind_assoc_eq.symm
            have h3 := pre (Says.bind (l1 := []) Says.quiet ha (Says.bind (l1 := []) Says.quiet hi (l2 := [.installApplied prim cid, .targetInstalled prim true]) (by
              simp only [if_pos hc]; exact h1)))
            simpa [primStory, hc] using h3
          · intro x hx
            rw [List.mem_singleton] at hx
            subst hx
            exact ⟨hmem, hfor, hans⟩
          · rw [run_bind ha, run_bind hi, if_pos hc]; exact hst12
          · intro es d' h
            rw [run_bind ha, run_bind hi, if_pos hc] at h
            obtain ⟨_, _, _, h⟩ := bind_ok.1 h
            simp only [pure_eq, Prod.mk.injEq, Except.ok.injEq] at h
            obtain ⟨rfl, _⟩ := h
            exact ⟨rfl, rfl⟩
        · rcases hsv : inClient (saveEcuResult prim r) d2 with ⟨x | u, d3⟩
          · have hst3 : EcusStill d2 d3 := (ecusStill_saveEcuResult _ _).of_eq hsv
            refine ⟨[], [.installStarted prim cid, .started prim], pre (Says.bind (l1 := []) Says.quiet ha (Says.bind (l1 := []) Says.quiet hi (l2 := []) ?_)),
              by simp, .inr ⟨rfl, rfl⟩, ?_, ?_⟩
            · simp only [if_neg hc]
              refine cast (congrArg (fun m => Says m _ d2 _) ?_) (Says.bindErr (f := fun _ => tell (.installCompleted prim cid (r.code.num == 0)) >>= fun _ =>
                tell (.targetInstalled prim (r.code.num == 0)) >>= fun _ => (pure [⟨{ t with correlationId := cid }, prim, r⟩] : T (List EcuReport)))
                (Says.quiet (m := inClient (saveEcuResult prim r))) hsv)
              unfold primaryDone
              rw [if_neg hc]
              rw [bind_assoc_eq]
              congr
              funext _
              exact bind_assoc_eq.symm
            · rw [run_bind ha, run_bind hi, if_neg hc, run_bind_err hsv]; exact ecusStill_pre.trans _ _ _ hst12 hst3
            · intro es d' h; rw [run_bind ha, run_bind hi, if_neg hc, run_bind_err hsv] at h; cases h
          · have hst3 : EcusStill d2 d3 := (ecusStill_saveEcuResult _ _).of_eq hsv
            refine ⟨[(t, r)], [], ?_, ?_, .inl rfl, ?_, ?_⟩
            · have h1 : Says (primaryDone prim cid r >>= fun _ => (pure [⟨{ t with correlationId := cid }, prim, r⟩] : T (List EcuReport)))
                  (inClient (saveEcuResult prim r) >>= fun _ => pure [⟨{ t with correlationId := cid }, prim, r⟩]) d2
                  [.installCompleted prim cid (r.code.num == 0), .targetInstalled prim (r.code.num == 0)] := by
                have h2 := Says.bind (l1 := []) (f := fun _ => tell (.installCompleted prim cid (r.code.num == 0)) >>= fun _ =>
                  tell (.targetInstalled prim (r.code.num == 0)) >>= fun _ => (pure [⟨{ t with correlationId := cid }, prim, r⟩] : T (List EcuReport)))
                  (f0 := fun _ => pure [⟨{ t with correlationId := cid }, prim, r⟩])
                  (Says.quiet (m := inClient (saveEcuResult prim r))) hsv (Says.tell (f := fun _ => _) (Says.tell (f := fun _ => _) Says.pure))
                refine cast (congrArg (fun m => Says m _ d2 _) ?_) h2
                unfold primaryDone
                rw [if_neg hc]
                rw [bind_assoc_eq]
                congr
                funext _
                exact bind_assoc_eq.symm
              have h3 := pre (Says.bind (l1 := []) Says.quiet ha (Says.bind (l1 := []) Says.quiet hi
                (l2 := [.installCompleted prim cid (r.code.num == 0), .targetInstalled prim (r.code.num == 0)]) (by
                simp only [if_neg hc]; exact h1)))
              simpa [primStory, hc] using h3
            · intro x hx
              rw [List.mem_singleton] at hx
              subst hx
              exact ⟨hmem, hfor, hans⟩
            · rw [run_bind ha, run_bind hi, if_neg hc, run_bind hsv]; exact ecusStill_pre.trans _ _ _ hst12 hst3
            · intro es d' h
              rw [run_bind ha, run_bind hi, if_neg hc, run_bind hsv] at h
              simp only [pure_eq, Prod.mk.injEq, Except.ok.injEq] at h
              obtain ⟨rfl, _⟩ := h
              exact ⟨rfl, rfl⟩

/-- What is told of the ECUs: of the Primary with the package manager's answers `ps`, of Secondaries with their answers
`rs`, and the beginning of one more. -/
def instNotes (prim cid : String) (ps : List (Target × InstResult)) (rs : List (Target × String × InstResult)) (tail : List Note) : List Note :=
  ps.flatMap (fun x => primStory cid prim x.2) ++ (rs.flatMap (fun x => secStory cid x.2.1 x.2.2) ++ tail)

/-- Those answers were given, to requested targets. -/
structure InstTold (p : Peers) (ts : List Target) (prim cid : String) (ps : List (Target × InstResult)) (rs : List (Target × String × InstResult))
    (tail : List Note) : Prop where
  primary : ∀ x ∈ ps, x.1 ∈ ts ∧ x.1.isForEcu prim = true ∧ PrimAnswer p { x.1 with correlationId := cid } x.2
  secondary : ∀ x ∈ rs, SecAnswer p x.2.1 x.1 x.2.2 ∧ x.2.1 ≠ prim ∧ x.1 ∈ ts ∧ ∃ hw, (x.2.1, hw) ∈ x.1.ecus
  tail : tail = [] ∨ ∃ e, tail = [.started e, .installStarted e cid] ∨ tail = [.installStarted e cid, .started e]

theorem instTold_nil (p : Peers) (ts : List Target) (prim cid : String) : InstTold p ts prim cid [] [] [] :=
  ⟨by simp, by simp, .inl rfl⟩

theorem mem_assignments_ecus {ts : List Target} {t : Target} {e hw : String} (h : (t, e, hw) ∈ assignments ts) : t ∈ ts ∧ (e, hw) ∈ t.ecus := by
  unfold assignments at h
  simp only [List.mem_flatMap, List.mem_map, Prod.mk.injEq, Prod.exists] at h
  obtain ⟨t', ht, a, b, hab, rfl, rfl, rfl⟩ := h
  exact ⟨ht, hab⟩

/-- The outcome of an installation agrees with what was told. -/
def Agrees (prim : String) (ps : List (Target × InstResult)) (rs : List (Target × String × InstResult)) (tail : List Note) (r : InstallReport) : Prop :=
  tail = [] ∧ r.ecus.map (fun e => (e.serial, e.result)) = ps.map (fun x => (prim, x.2)) ++ rs.map (fun x => (x.2.1, x.2.2)) ∧
    ∀ x ∈ rs, ∃ nc, x.2.2.needCompletion = .ok nc

theorem installVerifiedT_says (c : Ctx) (p : Peers) (ts : List Target) (d : Dev) : ∃ ps rs tail,
    Says (installVerifiedT c p ts) (installVerified c p ts) d (instNotes d.cl.primary d.cl.w.dir.targets.correlationId ps rs tail) ∧
    InstTold p ts d.cl.primary d.cl.w.dir.targets.correlationId ps rs tail ∧
    EcusStill d (installVerified c p ts d).2 ∧
    (∀ r d', installVerified c p ts d = (.ok r, d') → Agrees d.cl.primary ps rs tail r.1) := by
  unfold installVerifiedT installVerified
  rcases h1 : waitSecondariesReachable p ts d with ⟨x | ok, d1⟩
  · have hs : EcusStill d d1 := (ecusStill_waitReachable p ts).of_eq h1
    refine ⟨[], [], [], Says.bindErr Says.quiet h1, instTold_nil .., ?_, ?_⟩
    · rw [run_bind_err h1]; exact hs
    · intro r d' h; rw [run_bind_err h1] at h; cases h
  have hs1 : EcusStill d d1 := (ecusStill_waitReachable p ts).of_eq h1
  rw [run_bind h1]
  cases ok with
  | false =>
    refine ⟨[], [], [], Says.bind (l1 := []) Says.quiet h1 Says.pure, instTold_nil .., hs1, ?_⟩
    intro r d' h
    simp only [Bool.not_false, if_true, pure_eq, Prod.mk.injEq, Except.ok.injEq] at h
    obtain ⟨rfl, _⟩ := h
    exact ⟨rfl, rfl, by simp⟩
  | true =>
    simp only [Bool.not_true, Bool.false_eq_true, if_false]
    have lift1 : ∀ {m : T (InstallReport × String)} {m0 : D (InstallReport × String)} {l : List Note}, Says m m0 d1 l →
        Says (quiet (waitSecondariesReachable p ts) >>= fun ok => if (!ok) = true then
            pure (⟨⟨false, .internalError, "Unreachable Secondary"⟩, []⟩, "Secondaries were not available") else m)
          (waitSecondariesReachable p ts >>= fun ok => if (!ok) = true then
            pure (⟨⟨false, .internalError, "Unreachable Secondary"⟩, []⟩, "Secondaries were not available") else m0) d l := by
      intro m m0 l h
      exact Says.bind (l1 := []) Says.quiet h1 h
    rcases h2 : sendMetadataToEcus c p ts d1 with ⟨x | m, d2⟩
    · have hs2 : EcusStill d1 d2 := (ecusStill_sendMetadataToEcus c p ts).of_eq h2
      refine ⟨[], [], [], lift1 (Says.bindErr Says.quiet h2), instTold_nil .., ?_, ?_⟩
      · rw [run_bind_err h2]; exact ecusStill_pre.trans _ _ _ hs1 hs2
      · intro r d' h; rw [run_bind_err h2] at h; cases h
    have hs2 : EcusStill d1 d2 := (ecusStill_sendMetadataToEcus c p ts).of_eq h2
    rw [run_bind h2]
    have hs12 := ecusStill_pre.trans _ _ _ hs1 hs2
    cases hm : m.1.success with
    | false =>
      refine ⟨[], [], [], lift1 (Says.bind (l1 := []) Says.quiet h2 (by simp only [hm, Bool.not_false, if_true]; exact Says.pure)), instTold_nil .., hs12, ?_⟩
      intro r d' h
      simp only [Bool.not_false, if_true, pure_eq, Prod.mk.injEq, Except.ok.injEq] at h
      obtain ⟨rfl, _⟩ := h
      exact ⟨rfl, rfl, by simp⟩
    | true =>
      simp only [Bool.not_true, Bool.false_eq_true, if_false]
      obtain ⟨ps, ptail, hp1, hp2, hp3, hp4, hp5⟩ := installPrimaryT_says c.env p ts d2
      rw [hs12.1, hs12.cid] at hp1 hp2 hp3
      rw [hs12.1] at hp5
      have ptail' : ptail = [] ∨ ∃ e, ptail = [.started e, .installStarted e d.cl.w.dir.targets.correlationId] ∨
          ptail = [.installStarted e d.cl.w.dir.targets.correlationId, .started e] := by
        rcases hp3 with h | ⟨_, h⟩
        · exact .inl h
        · exact .inr ⟨_, .inr h⟩
      rcases h3 : installPrimary c.env p ts d2 with ⟨x | first, d3⟩
      · rw [h3] at hp4
        refine ⟨ps, [], ptail, lift1 (Says.bind (l1 := []) Says.quiet h2 (by
          simp only [hm, Bool.not_true, Bool.false_eq_true, if_false]
          exact Says.bindErr hp1 h3)), ⟨hp2, by simp, ptail'⟩, ?_, ?_⟩
        · rw [run_bind_err h3]; exact ecusStill_pre.trans _ _ _ hs12 hp4
        · intro r d' h; rw [run_bind_err h3] at h; cases h
      rw [h3] at hp4
      have hs3 := ecusStill_pre.trans _ _ _ hs12 hp4
      obtain ⟨rfl, hpe⟩ := hp5 _ _ h3
      rw [run_bind h3]
      obtain ⟨rs, tail, hq1, hq2, hq3, hq4⟩ := sendImagesToEcusT_says c.env p ts d3
      rw [hs3.1, hs3.cid] at hq2
      rw [hs3.cid] at hq1
      have told : InstTold p ts d.cl.primary d.cl.w.dir.targets.correlationId ps rs tail := by
        refine ⟨hp2, ?_, ?_⟩
        · intro x hx
          obtain ⟨a, b, hw, hmem⟩ := hq2.answers x hx
          obtain ⟨i, j⟩ := mem_assignments_ecus hmem
          exact ⟨a, b, i, hw, j⟩
        · rcases hq2.tail with h | ⟨e, h⟩
          · exact .inl h
          · exact .inr ⟨e, .inl h⟩
      refine ⟨ps, rs, tail, ?_, told, ?_, ?_⟩
      · rw [List.append_nil] at hp1
        refine lift1 (Says.bind (l1 := []) Says.quiet h2 ?_)
        simp only [hm, Bool.not_true, Bool.false_eq_true, if_false]
        refine Says.bind hp1 h3 ?_
        rcases h4 : sendImagesToEcus c.env p ts d3 with ⟨x | others, d4⟩
        · exact Says.bindErr hq1 h4
        · have h5 : Says (gets (·.d) >>= fun d => M.lift d.cl.computeDeviceResult >>= fun r => (pure (⟨r.1, first ++ others⟩, r.2) : T (InstallReport × String)))
              (gets id >>= fun d => M.lift d.cl.computeDeviceResult >>= fun r => (pure (⟨r.1, first ++ others⟩, r.2) : D (InstallReport × String))) d4 [] := by
            refine Says.gets ?_
            cases h6 : d4.cl.computeDeviceResult with
            | error x => exact Says.bindErr Says.lift rfl
            | ok x => exact Says.bind (l1 := []) Says.lift rfl Says.pure
          have := Says.bind (f := fun others => (gets (·.d) >>= fun d => M.lift d.cl.computeDeviceResult >>= fun r => (pure (⟨r.1, first ++ others⟩, r.2) : T (InstallReport × String))))
            (f0 := fun others => (gets id >>= fun d => M.lift d.cl.computeDeviceResult >>= fun r => (pure (⟨r.1, first ++ others⟩, r.2) : D (InstallReport × String)))) hq1 h4 h5
          rwa [List.append_nil] at this
      · refine ecusStill_pre.trans _ _ _ hs3 ?_
        have : Preserves EcusStill (sendImagesToEcus c.env p ts >>= fun others => gets id >>= fun d => M.lift d.cl.computeDeviceResult >>= fun r =>
            (pure (⟨r.1, first ++ others⟩, r.2) : D (InstallReport × String))) := by
          refine .bind ecusStill_pre ?_ (fun _ => .bind ecusStill_pre (.gets ecusStill_pre) (fun _ => .bind ecusStill_pre (.lift ecusStill_pre) (fun _ => .pure ecusStill_pre)))
          intro d
          exact (sendImagesToEcusT_says c.env p ts d).choose_spec.choose_spec.2.2.1
        exact this d3
      · intro r d' h
        obtain ⟨others, d4, h4, h⟩ := bind_ok.1 h
        obtain ⟨_, d5, h5, h⟩ := bind_ok.1 h
        obtain ⟨x, d6, h6, h⟩ := bind_ok.1 h
        simp only [pure_eq, Prod.mk.injEq, Except.ok.injEq] at h
        obtain ⟨rfl, _⟩ := h
        obtain ⟨a, b, e⟩ := hq4 _ _ h4
        refine ⟨a, ?_, e⟩
        rw [List.map_append, hpe, b]

theorem installBodyT_says (c : Ctx) (p : Peers) (ts : List Target) (d : Dev) : ∃ prim cid ps rs tail,
    Says (installBodyT c p ts) (installBody c p ts) d (instNotes prim cid ps rs tail) ∧
    InstTold p ts prim cid ps rs tail ∧
    (installBody c p ts d).2.cl.primary = prim ∧ (installBody c p ts d).2.cl.w.dir.targets.correlationId = cid ∧
    (∀ r d', installBody c p ts d = (.ok r, d') → Agrees prim ps rs tail r.1) := by
  unfold installBodyT installBody
  rcases h1 : recheck c ts d with ⟨x | st, d1⟩
  · refine ⟨_, _, [], [], [], Says.bindErr Says.quiet h1, instTold_nil .., rfl, rfl, ?_⟩
    intro r d' h; rw [run_bind_err h1] at h; cases h
  · rw [run_bind h1]
    cases st with
    | noUpdates =>
      refine ⟨_, _, [], [], [], Says.bind (l1 := []) Says.quiet h1 Says.pure, instTold_nil .., rfl, rfl, ?_⟩
      intro r d' h
      simp only [pure_eq, Prod.mk.injEq, Except.ok.injEq] at h
      obtain ⟨rfl, _⟩ := h
      exact ⟨rfl, rfl, by simp⟩
    | error =>
      refine ⟨_, _, [], [], [], Says.bind (l1 := []) Says.quiet h1 Says.pure, instTold_nil .., rfl, rfl, ?_⟩
      intro r d' h
      simp only [pure_eq, Prod.mk.injEq, Except.ok.injEq] at h
      obtain ⟨rfl, _⟩ := h
      exact ⟨rfl, rfl, by simp⟩
    | available =>
      rcases h2 : verifyAll p ts d1 with ⟨x | good, d2⟩
      · refine ⟨_, _, [], [], [], Says.bind (l1 := []) Says.quiet h1 (Says.bindErr Says.quiet h2), instTold_nil .., rfl, rfl, ?_⟩
        intro r d' h
        obtain ⟨g, d3, hg, _⟩ := (bind_ok (m := verifyAll p ts)).1 h
        rw [h2] at hg
        cases hg
      · simp only
        rw [run_bind h2]
        cases good with
        | false =>
          refine ⟨_, _, [], [], [], Says.bind (l1 := []) Says.quiet h1 (Says.bind (l1 := []) Says.quiet h2 Says.pure), instTold_nil .., rfl, rfl, ?_⟩
          intro r d' h
          simp only [Bool.not_false, if_true, pure_eq, Prod.mk.injEq, Except.ok.injEq] at h
          obtain ⟨rfl, _⟩ := h
          exact ⟨rfl, rfl, by simp⟩
        | true =>
          simp only [Bool.not_true, Bool.false_eq_true, if_false]
          obtain ⟨ps, rs, tail, a, b, e, f⟩ := installVerifiedT_says c p ts d2
          exact ⟨d2.cl.primary, d2.cl.w.dir.targets.correlationId, ps, rs, tail,
            Says.bind (l1 := []) Says.quiet h1 (Says.bind (l1 := []) Says.quiet h2 a), b, e.1, e.cid, f⟩

/-- What an installation stores is what it returns. -/
theorem storeDevice_says {m : T α} {a : α} {x : Note} {r : InstResult} {raw cid : String} {d : Dev} (h : m = (tell x >>= fun _ => pure a)) :
    Says (quiet (inClient (storeDeviceResult r raw cid)) >>= fun _ => m) (inClient (storeDeviceResult r raw cid) >>= fun _ => pure a) d
      (match (inClient (storeDeviceResult r raw cid) d).1 with | .ok _ => [x] | .error _ => []) := by
  subst h
  rcases hs : inClient (storeDeviceResult r raw cid) d with ⟨e | u, d1⟩
  · exact Says.bindErr Says.quiet hs
  · exact Says.bind (l1 := []) Says.quiet hs (Says.tell (f := fun _ => pure a) Says.pure)

/-- The Primary stays the same. -/
theorem installBody_primary (c : Ctx) (p : Peers) (ts : List Target) (d : Dev) : (installBody c p ts d).2.cl.primary = d.cl.primary := by
  have hR : IsPre (fun a b : Dev => b.cl.primary = a.cl.primary) := ⟨fun _ => rfl, fun _ _ _ h1 h2 => h2.trans h1⟩
  have hC : ClPre (fun a b : Client => b.primary = a.primary) := ⟨⟨fun _ => rfl, fun _ _ _ h1 h2 => h2.trans h1⟩, fun _ _ => rfl⟩
  have : Preserves (fun a b : Dev => b.cl.primary = a.cl.primary) (installBody c p ts) := by
    unfold installBody recheck
    wpres hR
    all_goals first
      | exact inClient_pres (fun _ _ h => h) (.catchStd hC.pre (hC.checkUpdatesOffline _ _) (fun _ => .pure hC.pre))
      | exact fun d => (ecusStill_verifyAll p ts d).1
      | exact fun d => ((installVerifiedT_says c p ts d).choose_spec.choose_spec.choose_spec.2.2.1).1
  exact this d

theorem uptaneInstallT_says (c : Ctx) (p : Peers) (ts : List Target) (d : Dev) : ∃ prim cid ps rs tail last,
    Says (uptaneInstallT c p ts) (uptaneInstall c p ts) d (instNotes prim cid ps rs tail ++ last) ∧ prim = d.cl.primary ∧
    InstTold p ts prim cid ps rs tail ∧ (last = [] ∨ ∃ r, last = [.installsComplete r]) ∧
    (∀ r d', uptaneInstall c p ts d = (.ok r, d') → Agrees prim ps rs tail r ∧ last = [.installsComplete r] ∧ d'.cl.primary = prim ∧
      d'.cl.w.dir.targets.correlationId = cid ∧
      ∃ row raw, r.device.toRow = .ok row ∧ d'.cl.devResult = some ⟨row, raw, cid⟩) := by
  obtain ⟨prim, cid, ps, rs, tail, h1, h2, h3, h4, h5⟩ := installBodyT_says c p ts d
  have hp : prim = d.cl.primary := h3.symm.trans (installBody_primary c p ts d)
  rcases hb : installBody c p ts d with ⟨x | r, d1⟩
  · refine ⟨prim, cid, ps, rs, tail, [], ?_, hp, h2, .inl rfl, ?_⟩
    · rw [List.append_nil]; exact Says.bindErr h1 hb
    · intro r d' h
      unfold uptaneInstall at h
      rw [run_bind_err hb] at h
      cases h
  · rw [hb] at h3 h4
    have hs := storeDevice_says (m := tell (.installsComplete r.1) >>= fun _ => pure r.1) (a := r.1) (x := .installsComplete r.1)
      (r := r.1.device) (raw := r.2) (cid := d1.cl.w.dir.targets.correlationId) (d := d1) rfl
    refine ⟨prim, cid, ps, rs, tail, _, Says.bind h1 hb (Says.gets (f := fun d => _) (f0 := fun d => _) hs), hp, h2, ?_, ?_⟩
    · split
      · exact .inr ⟨_, rfl⟩
      · exact .inl rfl
    · intro r' d' h
      unfold uptaneInstall at h
      rw [run_bind hb] at h
      obtain ⟨d2, d3, hg, h⟩ := bind_ok.1 h
      simp only [gets_eq, Prod.mk.injEq, Except.ok.injEq, id] at hg
      obtain ⟨rfl, rfl⟩ := hg
      obtain ⟨u, d4, hst, h⟩ := bind_ok.1 h
      simp only [pure_eq, Prod.mk.injEq, Except.ok.injEq] at h
      obtain ⟨rfl, rfl⟩ := h
      have hstill : EcusStill d1 d4 := (ecusStill_storeDeviceResult _ _ _).of_eq hst
      refine ⟨h5 _ _ hb, by rw [hst], hstill.1.trans h3, hstill.cid.trans h4, ?_⟩
      obtain ⟨cl, hcl, rfl⟩ := inClient_ok.1 hst
      unfold storeDeviceResult at hcl
      obtain ⟨row, cl1, hl, hcl⟩ := bind_ok.1 hcl
      simp only [lift_eq, Prod.mk.injEq] at hl
      obtain ⟨hl, rfl⟩ := hl
      unfold cwrite at hcl
      split at hcl
      · cases hcl
      · simp only [Prod.mk.injEq] at hcl
        obtain ⟨_, rfl⟩ := hcl
        exact ⟨row, r.2, hl, by rw [h4]⟩

theorem downloadImagesT_says (c : Ctx) (f : Fetched) (ts : List Target) (d : Dev) : ∃ (cid : String) (oks : List Bool) (last : List Note),
    Says (downloadImagesT c f ts) (downloadImages c f ts) d ((ts.zip oks).flatMap (dlStory cid) ++ last) ∧
    (∀ x ∈ ts.zip oks, ∃ n, x.2 = f n x.1) ∧ (last = [] ∨ ∃ r, last = [.downloadsComplete r]) ∧
    (∀ o d1, recheck c ts d = (o, d1) → d1.cl.w.dir.targets.correlationId = cid) ∧
    (∀ r d', downloadImages c f ts d = (.ok r, d') → last = [.downloadsComplete r] ∧ r.updates = ((ts.zip oks).filter (·.2)).map (·.1) ∧
      (oks = [] ∧ (r.status = .nothing ∨ r.status = .error) ∨ oks.length = ts.length ∧ (r.status = .success ↔ r.updates.length = ts.length))) := by
  have done : ∀ {m0 : D Downloaded} {m : T Downloaded} {l : List Note}, Says m m0 d l → ∃ last : List Note,
      Says (m >>= fun r => tell (.downloadsComplete r) >>= fun _ => pure r) m0 d (l ++ last) ∧
        (last = [] ∨ ∃ r, last = [.downloadsComplete r]) ∧ ∀ r d', m0 d = (.ok r, d') → last = [.downloadsComplete r] := by
    intro m0 m l h
    rcases hm : m0 d with ⟨x | r, d1⟩
    · exact ⟨[], by rw [List.append_nil]; exact (Says.bindErr (f0 := pure) h hm).congr bind_pure_eq, .inl rfl, fun r d' h => by cases h⟩
    · refine ⟨[.downloadsComplete r], (Says.bind (f0 := pure) h hm (Says.tell (f := fun _ => pure r) Says.pure)).congr bind_pure_eq, .inr ⟨r, rfl⟩, ?_⟩
      intro r' d' h
      simp only [Prod.mk.injEq, Except.ok.injEq] at h
      rw [h.1]
  have body : ∃ (cid : String) (oks : List Bool),
      Says (downloadBodyT c f ts) (downloadImages c f ts) d ((ts.zip oks).flatMap (dlStory cid)) ∧
      (∀ x ∈ ts.zip oks, ∃ n, x.2 = f n x.1) ∧
      (∀ o d1, recheck c ts d = (o, d1) → d1.cl.w.dir.targets.correlationId = cid) ∧
      (∀ r d', downloadImages c f ts d = (.ok r, d') → r.updates = ((ts.zip oks).filter (·.2)).map (·.1) ∧
        (oks = [] ∧ (r.status = .nothing ∨ r.status = .error) ∨ oks.length = ts.length ∧ (r.status = .success ↔ r.updates.length = ts.length))) := by
    unfold downloadBodyT downloadImages
    have none : ∀ cid, (ts.zip ([] : List Bool)).flatMap (dlStory cid) = [] := by simp
    rcases h1 : recheck c ts d with ⟨x | st, d1⟩
    · refine ⟨d1.cl.w.dir.targets.correlationId, [], by rw [none]; exact Says.bindErr Says.quiet h1, by simp, by simp, ?_⟩
      intro r d' h; rw [run_bind_err h1] at h; cases h
    · rw [run_bind h1]
      cases st with
      | noUpdates =>
        refine ⟨d1.cl.w.dir.targets.correlationId, [], by rw [none]; exact Says.bind (l1 := []) Says.quiet h1 Says.pure, by simp, by simp, ?_⟩
        intro r d' h
        simp only [pure_eq, Prod.mk.injEq, Except.ok.injEq] at h
        obtain ⟨rfl, rfl⟩ := h
        exact ⟨by simp, .inl ⟨rfl, .inl rfl⟩⟩
      | error =>
        rcases h2 : inClient (storeInstallationFailure (.ofCode .internalError "Error rechecking stored metadata.")) d1 with ⟨x | u, d2⟩
        · refine ⟨d1.cl.w.dir.targets.correlationId, [], by rw [none]; exact Says.bind (l1 := []) Says.quiet h1 (Says.bindErr Says.quiet h2), by simp, by simp, ?_⟩
          intro r d' h
          obtain ⟨g, d3, hg, _⟩ := (bind_ok (m := inClient (storeInstallationFailure _))).1 h
          rw [h2] at hg
          cases hg
        · refine ⟨d1.cl.w.dir.targets.correlationId, [], by rw [none]; exact Says.bind (l1 := []) Says.quiet h1 (Says.bind (l1 := []) Says.quiet h2 Says.pure), by simp, by simp, ?_⟩
          intro r d' h
          obtain ⟨g, d3, hg, h⟩ := (bind_ok (m := inClient (storeInstallationFailure _))).1 h
          simp only [pure_eq, Prod.mk.injEq, Except.ok.injEq] at h
          obtain ⟨rfl, rfl⟩ := h
          exact ⟨by simp, .inl ⟨rfl, .inr rfl⟩⟩
      | available =>
        obtain ⟨oks, hl, hf, hs, d2, hd, hstill⟩ := downloadEachT_says f ts d1
        refine ⟨d1.cl.w.dir.targets.correlationId, oks, ?_, hf, by simp, ?_⟩
        · have := Says.bind (f := fun got => quiet (downloadResult ts got)) (f0 := fun got => downloadResult ts got) hs hd Says.quiet
          rw [List.append_nil] at this
          exact Says.bind (l1 := []) Says.quiet h1 this
        · intro r d' h
          obtain ⟨got, d3, hg, h⟩ := (bind_ok (m := downloadEach f ts)).1 h
          rw [hd] at hg
          simp only [Prod.mk.injEq, Except.ok.injEq] at hg
          obtain ⟨rfl, rfl⟩ := hg
          unfold downloadResult at h
          rw [ite_app] at h
          split at h
          next hlen =>
            simp only [pure_eq, Prod.mk.injEq, Except.ok.injEq] at h
            obtain ⟨rfl, rfl⟩ := h
            exact ⟨rfl, .inr ⟨hl, by simp [← hlen]⟩⟩
          next hlen =>
            obtain ⟨_, d4, h4, h⟩ := bind_ok.1 h
            simp only [pure_eq, Prod.mk.injEq, Except.ok.injEq] at h
            obtain ⟨rfl, rfl⟩ := h
            refine ⟨rfl, .inr ⟨hl, ?_⟩⟩
            refine ⟨fun he => ?_, fun he => absurd he.symm hlen⟩
            simp only at he
            split at he <;> cases he
  obtain ⟨cid, oks, h1, h2, hcid, h3⟩ := body
  obtain ⟨last, h4, h5, h6⟩ := done h1
  exact ⟨cid, oks, last, h4, h2, h5, hcid, fun r d' h => ⟨h6 r d' h, h3 r d' h⟩⟩

/-! ## Manifests, completion, checks, cycles -/

/-- Telling the result at the end. -/
theorem says_last {m : T α} {m0 : D α} {d : Dev} {l : List Note} (g : α → Note) (h : Says m m0 d l) :
    Says (m >>= fun r => tell (g r) >>= fun _ => pure r) m0 d (l ++ (match (m0 d).1 with | .ok r => [g r] | .error _ => [])) := by
  rcases hm : m0 d with ⟨x | r, d1⟩
  · rw [List.append_nil]; exact (Says.bindErr (f0 := pure) h hm).congr bind_pure_eq
  · exact (Says.bind (f0 := pure) h hm (Says.tell (f := fun _ => pure r) Says.pure)).congr bind_pure_eq

theorem putManifestT_says (env : Env) (p : Peers) (d : Dev) : Says (putManifestT env p) (putManifestSimple env p) d
    (match (putManifestSimple env p d).1 with | .ok r => [.manifestComplete r] | .error _ => []) := by
  have h := says_last (m := quiet (putManifestSimple env p)) (d := d) (fun r => .manifestComplete r) Says.quiet
  rw [List.nil_append] at h
  revert h
  rcases putManifestSimple env p d with ⟨x | b, d1⟩ <;> exact id

/-- What `finalizeAfterReboot` tells: nothing, or how the package manager says it ended. -/
theorem finalizeT_says (env : Env) (p : Peers) (d : Dev) : ∃ l, Says (finalizeAfterRebootT env p) (finalizeAfterReboot env p) d l ∧
    (l = [] ∨ ∃ t n r, d.cl.v.loadPending env d.cl.primary = .ok (some t) ∧ p.finalize n t = .ok r ∧ r.code.same .needCompletion = .ok false ∧
      l = [.installCompleted d.cl.primary t.correlationId r.success]) := by
  unfold finalizeAfterRebootT finalizeAfterReboot
  by_cases hp : d.cl.hasPendingUpdates = true
  swap_goal
  · have hp' : d.cl.hasPendingUpdates = false := by simpa using hp
    refine ⟨[], Says.gets ?_, .inl rfl⟩
    simp only [hp', Bool.not_false, if_true]
    exact Says.pure
  cases hl : d.cl.v.loadPending env d.cl.primary with
  | error e =>
    refine ⟨[], Says.gets ?_, .inl rfl⟩
    simp only [hp, Bool.not_true, Bool.false_eq_true, if_false, hl]
    exact Says.bindErr Says.lift rfl
  | ok o =>
    cases o with
    | none =>
      refine ⟨[], Says.gets ?_, .inl rfl⟩
      simp only [hp, Bool.not_true, Bool.false_eq_true, if_false, hl]
      exact Says.bind (l1 := []) Says.lift rfl Says.pure
    | some t =>
      suffices hh : ∃ l, Says (quiet (act (.finalize t)) >>= fun _ => quiet (ask (fun n => p.finalize n t)) >>= fun a => M.lift a >>= fun r =>
          M.lift (r.code.same .needCompletion) >>= fun b => if b = true then pure () else
            quiet (inClient (saveEcuResult d.cl.primary r)) >>= fun _ =>
            quiet (saveVersion env d.cl.primary t (if r.success then .current else .none)) >>= fun _ =>
            tell (.installCompleted d.cl.primary t.correlationId r.success) >>= fun _ =>
            quiet (inClient (inWorld Director.dropTargets)) >>= fun _ => gets (·.d) >>= fun d => M.lift d.cl.computeDeviceResult >>= fun dev =>
            quiet (inClient (storeDeviceResult dev.1 dev.2 t.correlationId)) >>= fun _ => quiet (putManifestSimple env p) >>= fun _ => pure ())
          (act (.finalize t) >>= fun _ => ask (fun n => p.finalize n t) >>= fun a => M.lift a >>= fun r =>
          M.lift (r.code.same .needCompletion) >>= fun b => if b = true then pure () else
            inClient (saveEcuResult d.cl.primary r) >>= fun _ =>
            saveVersion env d.cl.primary t (if r.success then .current else .none) >>= fun _ =>
            inClient (inWorld Director.dropTargets) >>= fun _ => gets id >>= fun d => M.lift d.cl.computeDeviceResult >>= fun dev =>
            inClient (storeDeviceResult dev.1 dev.2 t.correlationId) >>= fun _ => putManifestSimple env p >>= fun _ => pure ()) d l ∧
          (l = [] ∨ ∃ n r, p.finalize n t = .ok r ∧ r.code.same .needCompletion = .ok false ∧
            l = [.installCompleted d.cl.primary t.correlationId r.success]) by
        obtain ⟨l, h1, h2⟩ := hh
        refine ⟨l, Says.gets ?_, ?_⟩
        · simp only [hp, Bool.not_true, Bool.false_eq_true, if_false, hl]
          exact Says.bind (l1 := []) Says.lift rfl h1
        · rcases h2 with h2 | ⟨n, r, a, b, e⟩
          · exact .inl h2
          · exact .inr ⟨t, n, r, rfl, a, b, e⟩
      rcases ha : act (.finalize t) d with ⟨x | u, d1⟩
      · exact ⟨[], Says.bindErr Says.quiet ha, .inl rfl⟩
      have hk : ask (fun n => p.finalize n t) d1 = (.ok (p.finalize d1.n t), { d1 with n := d1.n + 1 }) := rfl
      cases hr : p.finalize d1.n t with
      | error e =>
        rw [hr] at hk
        exact ⟨[], Says.bind (l1 := []) Says.quiet ha (Says.bind (l1 := []) Says.quiet hk (Says.bindErr Says.lift rfl)), .inl rfl⟩
      | ok r =>
        rw [hr] at hk
        cases hb : r.code.same .needCompletion with
        | error e =>
          exact ⟨[], Says.bind (l1 := []) Says.quiet ha (Says.bind (l1 := []) Says.quiet hk (Says.bind (l1 := []) Says.lift rfl
            (by simp only [hb]; exact Says.bindErr Says.lift rfl))), .inl rfl⟩
        | ok b =>
          cases b with
          | true =>
            exact ⟨[], Says.bind (l1 := []) Says.quiet ha (Says.bind (l1 := []) Says.quiet hk (Says.bind (l1 := []) Says.lift rfl
              (by simp only [hb]; exact Says.bind (l1 := []) Says.lift rfl Says.pure))), .inl rfl⟩
          | false =>
            generalize { d1 with n := d1.n + 1 } = d2 at hk
            suffices hh : ∃ l, Says (quiet (inClient (saveEcuResult d.cl.primary r)) >>= fun _ =>
                quiet (saveVersion env d.cl.primary t (if r.success then .current else .none)) >>= fun _ =>
                tell (.installCompleted d.cl.primary t.correlationId r.success) >>= fun _ =>
                quiet (inClient (inWorld Director.dropTargets)) >>= fun _ => gets (·.d) >>= fun d => M.lift d.cl.computeDeviceResult >>= fun dev =>
                quiet (inClient (storeDeviceResult dev.1 dev.2 t.correlationId)) >>= fun _ => quiet (putManifestSimple env p) >>= fun _ => (pure () : T Unit))
                (inClient (saveEcuResult d.cl.primary r) >>= fun _ =>
                saveVersion env d.cl.primary t (if r.success then .current else .none) >>= fun _ =>
                inClient (inWorld Director.dropTargets) >>= fun _ => gets id >>= fun d => M.lift d.cl.computeDeviceResult >>= fun dev =>
                inClient (storeDeviceResult dev.1 dev.2 t.correlationId) >>= fun _ => putManifestSimple env p >>= fun _ => (pure () : D Unit)) d2 l ∧
                (l = [] ∨ l = [.installCompleted d.cl.primary t.correlationId r.success]) by
              obtain ⟨l, h1, h2⟩ := hh
              refine ⟨l, Says.bind (l1 := []) Says.quiet ha (Says.bind (l1 := []) Says.quiet hk (Says.bind (l1 := []) Says.lift rfl
                (by simp only [hb]; exact Says.bind (l1 := []) Says.lift rfl (by simp only [Bool.false_eq_true, if_false]; exact h1)))), ?_⟩
              rcases h2 with h2 | h2
              · exact .inl h2
              · exact .inr ⟨d1.n, r, hr, hb, h2⟩
            rcases h3 : inClient (saveEcuResult d.cl.primary r) d2 with ⟨x | u, d3⟩
            · exact ⟨[], Says.bindErr Says.quiet h3, .inl rfl⟩
            rcases h4 : saveVersion env d.cl.primary t (if r.success then .current else .none) d3 with ⟨x | u, d4⟩
            · exact ⟨[], Says.bind (l1 := []) Says.quiet h3 (Says.bindErr Says.quiet h4), .inl rfl⟩
            refine ⟨_, Says.bind (l1 := []) Says.quiet h3 (Says.bind (l1 := []) Says.quiet h4 (Says.tell (f := fun _ => _) (l := []) ?_)), .inr rfl⟩
            rcases h5 : inClient (inWorld Director.dropTargets) d4 with ⟨x | u, d5⟩
            · exact Says.bindErr Says.quiet h5
            refine Says.bind (l1 := []) Says.quiet h5 (Says.gets ?_)
            cases h6 : d5.cl.computeDeviceResult with
            | error e => exact Says.bindErr Says.lift rfl
            | ok dev =>
              refine Says.bind (l1 := []) Says.lift rfl ?_
              rcases h7 : inClient (storeDeviceResult dev.1 dev.2 t.correlationId) d5 with ⟨x | u, d6⟩
              · exact Says.bindErr Says.quiet h7
              refine Says.bind (l1 := []) Says.quiet h7 ?_
              rcases h8 : putManifestSimple env p d6 with ⟨x | u, d7⟩
              · exact Says.bindErr Says.quiet h8
              exact Says.bind (l1 := []) Says.quiet h8 Says.pure

/-- A Secondary's manifest, signed with its key, was obtained, and names the image with hash `h`. -/
def Confirmed (env : Env) (p : Peers) (e : String) (h : Hash) : Prop :=
  ∃ n m j k, p.secManifest n e = .ok j ∧ p.secKey m e = .ok k ∧ manifestVerifies env j k = .ok true ∧ h = manifestHash j

theorem confirmSecondaryT_says (env : Env) (e : String) (d : Dev) : ∃ l, Says (confirmSecondaryT env e) (confirmSecondary env e) d l ∧
    (l = [] ∨ ∃ t, d.cl.v.loadPending env e = .ok (some t) ∧ l = [.installCompleted e t.correlationId true]) := by
  unfold confirmSecondaryT confirmSecondary
  cases hl : d.cl.v.loadPending env e with
  | error x =>
    refine ⟨[], Says.gets ?_, .inl rfl⟩
    simp only [hl]
    exact Says.bindErr Says.lift rfl
  | ok o =>
    cases o with
    | none =>
      refine ⟨[], Says.gets ?_, .inl rfl⟩
      simp only [hl]
      exact Says.bind (l1 := []) Says.lift rfl Says.throw
    | some t =>
      have start : ∀ {l : List Note}, Says (quiet (inClient (saveEcuResult e (.ofCode .ok ""))) >>= fun _ => quiet (saveVersion env e t .current) >>= fun _ =>
          tell (.installCompleted e t.correlationId true) >>= fun _ => gets (·.d) >>= fun d => M.lift d.cl.computeDeviceResult >>= fun dev =>
          quiet (inClient (storeDeviceResult dev.1 dev.2 t.correlationId)))
          (inClient (saveEcuResult e (.ofCode .ok "")) >>= fun _ => saveVersion env e t .current >>= fun _ => gets id >>= fun d =>
          M.lift d.cl.computeDeviceResult >>= fun dev => inClient (storeDeviceResult dev.1 dev.2 t.correlationId)) d l →
          Says (confirmSecondaryT env e) (confirmSecondary env e) d l := by
        intro l h
        unfold confirmSecondaryT confirmSecondary
        refine Says.gets ?_
        simp only [hl]
        exact Says.bind (l1 := []) Says.lift rfl h
      rcases h3 : inClient (saveEcuResult e (.ofCode .ok "")) d with ⟨x | u, d3⟩
      · exact ⟨[], start (Says.bindErr Says.quiet h3), .inl rfl⟩
      rcases h4 : saveVersion env e t .current d3 with ⟨x | u, d4⟩
      · exact ⟨[], start (Says.bind (l1 := []) Says.quiet h3 (Says.bindErr Says.quiet h4)), .inl rfl⟩
      refine ⟨_, start (Says.bind (l1 := []) Says.quiet h3 (Says.bind (l1 := []) Says.quiet h4 (Says.tell (f := fun _ => _) (l := []) ?_))), .inr ⟨t, rfl, rfl⟩⟩
      refine Says.gets ?_
      cases h6 : d4.cl.computeDeviceResult with
      | error e => exact Says.bindErr Says.lift rfl
      | ok dev => exact Says.bind (l1 := []) Says.lift rfl Says.quiet

theorem pendingLoopT_says (env : Env) (p : Peers) : ∀ (es : List (String × Hash)) (d : Dev), ∃ l,
    Says (pendingSecondaryLoopT env p es) (pendingSecondaryLoop env p es) d l ∧
    ∀ x ∈ l, ∃ e h cid, (e, h) ∈ es ∧ x = .installCompleted e cid true ∧ Confirmed env p e h
  | [], d => ⟨[], Says.pure, by simp⟩
  | (e, h) :: rest, d => by
    have skip : ∀ d, ∃ l, Says (pendingSecondaryLoopT env p rest) (pendingSecondaryLoop env p rest) d l ∧
        ∀ x ∈ l, ∃ e' h' cid, (e', h') ∈ (e, h) :: rest ∧ x = .installCompleted e' cid true ∧ Confirmed env p e' h' := by
      intro d
      obtain ⟨l, h1, h2⟩ := pendingLoopT_says env p rest d
      refine ⟨l, h1, fun x hx => ?_⟩
      obtain ⟨a, b, c, m, r⟩ := h2 x hx
      exact ⟨a, b, c, List.mem_cons_of_mem _ m, r⟩
    unfold pendingSecondaryLoopT pendingSecondaryLoop
    by_cases hp : d.cl.primary = e
    · obtain ⟨l, h1, h2⟩ := skip d
      exact ⟨l, Says.gets (by simp only [if_pos hp]; exact h1), h2⟩
    by_cases hs : d.cl.secondaries.any (fun q => q.1 == e) = true
    swap_goal
    · have hs' : d.cl.secondaries.any (fun q => q.1 == e) = false := Bool.eq_false_iff.2 hs
      exact ⟨[], Says.gets (by simp only [if_neg hp, hs', Bool.not_false, if_true]; exact Says.throw), by simp⟩
    have hk : ask (fun n => p.secManifest n e) d = (.ok (p.secManifest d.n e), { d with n := d.n + 1 }) := rfl
    suffices hh : ∃ l, Says (quiet (ask (fun n => p.secManifest n e)) >>= fun a => M.lift (orDefault .null a) >>= fun j =>
        if j.isEmpty = true then pendingSecondaryLoopT env p rest else quiet (ask (fun n => p.secKey n e)) >>= fun k =>
          M.lift (orDefault false (do manifestVerifies env j (← k))) >>= fun good =>
          if good = true ∧ h = manifestHash j then confirmSecondaryT env e >>= fun _ => pendingSecondaryLoopT env p rest else pendingSecondaryLoopT env p rest)
        (ask (fun n => p.secManifest n e) >>= fun a => M.lift (orDefault .null a) >>= fun j =>
        if j.isEmpty = true then pendingSecondaryLoop env p rest else ask (fun n => p.secKey n e) >>= fun k =>
          M.lift (orDefault false (do manifestVerifies env j (← k))) >>= fun good =>
          if good = true ∧ h = manifestHash j then confirmSecondary env e >>= fun _ => pendingSecondaryLoop env p rest else pendingSecondaryLoop env p rest) d l ∧
        ∀ x ∈ l, ∃ e' h' cid, (e', h') ∈ (e, h) :: rest ∧ x = .installCompleted e' cid true ∧ Confirmed env p e' h' by
      obtain ⟨l, h1, h2⟩ := hh
      exact ⟨l, Says.gets (by simp only [if_neg hp, hs, Bool.not_true, Bool.false_eq_true, if_false]; exact h1), h2⟩
    cases hj : orDefault Json.null (p.secManifest d.n e) with
    | error x =>
      exact ⟨[], Says.bind (l1 := []) Says.quiet hk (Says.bindErr Says.lift (by rw [hj]; rfl)), by simp⟩
    | ok j =>
      have lj : (M.lift (orDefault Json.null (p.secManifest d.n e)) : D Json) { d with n := d.n + 1 } = (.ok j, { d with n := d.n + 1 }) := by rw [hj]; rfl
      generalize hd1 : { d with n := d.n + 1 } = d1 at hk lj
      by_cases he : j.isEmpty = true
      · obtain ⟨l, h1, h2⟩ := skip d1
        exact ⟨l, Says.bind (l1 := []) Says.quiet hk (Says.bind (l1 := []) Says.lift lj (by simp only [if_pos he]; exact h1)), h2⟩
      have hk2 : ask (fun n => p.secKey n e) d1 = (.ok (p.secKey d1.n e), { d1 with n := d1.n + 1 }) := rfl
      cases hg : orDefault false (do manifestVerifies env j (← p.secKey d1.n e)) with
      | error x =>
        exact ⟨[], Says.bind (l1 := []) Says.quiet hk (Says.bind (l1 := []) Says.lift lj (by
          simp only [if_neg he]
          exact Says.bind (l1 := []) Says.quiet hk2 (Says.bindErr Says.lift (by rw [hg]; rfl)))), by simp⟩
      | ok good =>
        have lg : (M.lift (orDefault false (do manifestVerifies env j (← p.secKey d1.n e))) : D Bool) { d1 with n := d1.n + 1 } =
          (.ok good, { d1 with n := d1.n + 1 }) := by rw [hg]; rfl
        generalize { d1 with n := d1.n + 1 } = d2 at hk2 lg
        by_cases hc : good = true ∧ h = manifestHash j
        swap_goal
        · obtain ⟨l, h1, h2⟩ := skip d2
          exact ⟨l, Says.bind (l1 := []) Says.quiet hk (Says.bind (l1 := []) Says.lift lj (by
            simp only [if_neg he]
            exact Says.bind (l1 := []) Says.quiet hk2 (Says.bind (l1 := []) Says.lift lg (by simp only [if_neg hc]; exact h1)))), h2⟩
        have conf : Confirmed env p e h := by
          have a1 : p.secManifest d.n e = .ok j := by
            cases hq : p.secManifest d.n e with
            | ok x => rw [hq] at hj; unfold orDefault at hj; injection hj with hj; rw [hj]
            | error x =>
              rw [hq] at hj
              unfold orDefault at hj
              simp only at hj
              split at hj
              · injection hj with hj
                subst hj
                exact absurd rfl he
              · cases hj
          obtain ⟨rfl, hh⟩ := hc
          cases hq : p.secKey d1.n e with
          | error x =>
            rw [hq] at hg
            simp only [bind, Except.bind, orDefault] at hg
            split at hg <;> cases hg
          | ok k =>
            rw [hq] at hg
            simp only [bind, Except.bind, orDefault] at hg
            cases hv : manifestVerifies env j k with
            | error x =>
              rw [hv] at hg
              simp only at hg
              split at hg <;> cases hg
            | ok b =>
              rw [hv] at hg
              injection hg with hg
              subst hg
              exact ⟨_, _, j, k, a1, hq, hv, hh⟩
        obtain ⟨l1, hc1, hc2⟩ := confirmSecondaryT_says env e d2
        have mem1 : ∀ x ∈ l1, ∃ e' h' cid, (e', h') ∈ (e, h) :: rest ∧ x = .installCompleted e' cid true ∧ Confirmed env p e' h' := by
          intro x hx
          rcases hc2 with rfl | ⟨t, _, rfl⟩
          · cases hx
          · rw [List.mem_singleton] at hx
            exact ⟨e, h, t.correlationId, List.mem_cons_self .., hx, conf⟩
        have lift2 : ∀ {l : List Note}, Says (confirmSecondaryT env e >>= fun _ => pendingSecondaryLoopT env p rest)
            (confirmSecondary env e >>= fun _ => pendingSecondaryLoop env p rest) d2 l → Says _ _ d l := fun {l} hx =>
          Says.bind (l1 := []) (f := fun a => M.lift (orDefault .null a) >>= fun j =>
            if j.isEmpty = true then pendingSecondaryLoopT env p rest else quiet (ask (fun n => p.secKey n e)) >>= fun k =>
              M.lift (orDefault false (do manifestVerifies env j (← k))) >>= fun good =>
              if good = true ∧ h = manifestHash j then confirmSecondaryT env e >>= fun _ => pendingSecondaryLoopT env p rest else pendingSecondaryLoopT env p rest)
            (f0 := fun a => M.lift (orDefault .null a) >>= fun j =>
              if j.isEmpty = true then pendingSecondaryLoop env p rest else ask (fun n => p.secKey n e) >>= fun k =>
              M.lift (orDefault false (do manifestVerifies env j (← k))) >>= fun good =>
              if good = true ∧ h = manifestHash j then confirmSecondary env e >>= fun _ => pendingSecondaryLoop env p rest else pendingSecondaryLoop env p rest)
            Says.quiet hk (Says.bind (l1 := []) Says.lift lj (by
              simp only [if_neg he]
              exact Says.bind (l1 := []) Says.quiet hk2 (Says.bind (l1 := []) Says.lift lg (by simp only [if_pos hc]; exact hx))))
        rcases h3 : confirmSecondary env e d2 with ⟨x | u, d3⟩
        · exact ⟨l1, lift2 (Says.bindErr hc1 h3), mem1⟩
        · obtain ⟨l2, h4, h5⟩ := skip d3
          refine ⟨l1 ++ l2, lift2 (Says.bind hc1 h3 h4), fun x hx => ?_⟩
          rcases List.mem_append.1 hx with hx | hx
          · exact mem1 x hx
          · exact h5 x hx

theorem pendingSecondariesT_says (env : Env) (p : Peers) (d : Dev) : ∃ l,
    Says (checkAndUpdatePendingSecondariesT env p) (checkAndUpdatePendingSecondaries env p) d l ∧
    ∀ x ∈ l, ∃ e h cid, x = .installCompleted e cid true ∧ Confirmed env p e h := by
  cases hp : d.cl.v.getPendingEcus with
  | error e =>
    refine ⟨[], Says.gets ?_, by simp⟩
    simp only [hp]
    exact Says.bindErr Says.lift rfl
  | ok es =>
    obtain ⟨l, h1, h2⟩ := pendingLoopT_says env p es d
    refine ⟨l, Says.gets ?_, fun x hx => ?_⟩
    · simp only [hp]
      exact Says.bind (l1 := []) Says.lift rfl h1
    · obtain ⟨e, h, cid, _, r⟩ := h2 x hx
      exact ⟨e, h, cid, r⟩

/-- What a check tells: confirmed installations, then its result, unless updates are pending. -/
theorem fetchMetaT_says (c : Ctx) (p : Peers) (d : Dev) : ∃ conf last,
    Says (fetchMetaT c p) (fetchMeta c p) d (conf ++ last) ∧
    (∀ x ∈ conf, ∃ e h cid, x = .installCompleted e cid true ∧ Confirmed c.env p e h) ∧
    (d.cl.hasPendingUpdates = false → conf = []) ∧ (last = [] ∨ ∃ r, last = [.checkComplete r]) ∧
    (∀ r d', fetchMeta c p d = (.ok r, d') → last = [.checkComplete r] ∨ last = [] ∧ d'.cl.hasPendingUpdates = true ∧ r.updates = [] ∧ r.status = .error) := by
  have rest : ∀ d1 : Dev, ∃ last, Says (gets (·.d) >>= fun d => if d.cl.hasPendingUpdates then
        pure ⟨[], 0, .error, .null, "There are pending updates, no new updates are checked"⟩
        else quiet (putManifestSimple c.env p) >>= fun _ => quiet (inClient (checkUpdates c)) >>= fun r => tell (.checkComplete r) >>= fun _ => pure r)
      (gets id >>= fun d => if d.cl.hasPendingUpdates then
        (pure ⟨[], 0, .error, .null, "There are pending updates, no new updates are checked"⟩ : D UpdateCheck)
        else putManifestSimple c.env p >>= fun _ => inClient (checkUpdates c)) d1 last ∧ (last = [] ∨ ∃ r, last = [.checkComplete r]) ∧
      ∀ r d', (gets id >>= fun d => if d.cl.hasPendingUpdates then
        (pure ⟨[], 0, .error, .null, "There are pending updates, no new updates are checked"⟩ : D UpdateCheck)
        else putManifestSimple c.env p >>= fun _ => inClient (checkUpdates c)) d1 = (.ok r, d') →
        last = [.checkComplete r] ∨ last = [] ∧ d'.cl.hasPendingUpdates = true ∧ r.updates = [] ∧ r.status = .error := by
    intro d1
    have hrun : ∀ f : Dev → D UpdateCheck, (gets id >>= f) d1 = f d1 d1 := fun f => rfl
    rw [hrun]
    by_cases hp : d1.cl.hasPendingUpdates = true
    · refine ⟨[], Says.gets (by simp only [hp, if_true]; exact Says.pure), .inl rfl, ?_⟩
      intro r d' h
      simp only [hp, if_true, pure_eq, Prod.mk.injEq, Except.ok.injEq] at h
      obtain ⟨rfl, rfl⟩ := h
      exact .inr ⟨rfl, hp, rfl, rfl⟩
    · simp only [if_neg hp]
      rcases h1 : putManifestSimple c.env p d1 with ⟨x | b, d2⟩
      · refine ⟨[], Says.gets (by simp only [if_neg hp]; exact Says.bindErr Says.quiet h1), .inl rfl, ?_⟩
        intro r d' h
        rw [run_bind_err h1] at h
        cases h
      · have := says_last (m := quiet (inClient (checkUpdates c))) (d := d2) (fun r => .checkComplete r) Says.quiet
        refine ⟨_, Says.gets (by simp only [if_neg hp]; exact Says.bind (l1 := []) Says.quiet h1 this), ?_, ?_⟩
        · rw [List.nil_append]
          split
          · exact .inr ⟨_, rfl⟩
          · exact .inl rfl
        · intro r d' h
          rw [run_bind h1] at h
          rw [h]
          exact .inl rfl
  unfold fetchMetaT fetchMeta
  by_cases hp : d.cl.hasPendingUpdates = true
  · obtain ⟨conf, hc1, hc2⟩ := pendingSecondariesT_says c.env p d
    have hc2' : ∀ x ∈ conf, ∃ e h cid, x = .installCompleted e cid true ∧ Confirmed c.env p e h := hc2
    have hrun : ∀ f : Dev → D UpdateCheck, (gets id >>= f) d = f d d := fun f => rfl
    rw [hrun]
    rcases h1 : checkAndUpdatePendingSecondaries c.env p d with ⟨x | u, d1⟩
    · refine ⟨conf, [], ?_, hc2', fun h => absurd (hp.symm.trans h) (by simp), .inl rfl, ?_⟩
      · rw [List.append_nil]
        exact Says.gets (by simp only [hp, if_true]; exact Says.bindErr hc1 h1)
      · intro r d' h
        simp only [hp, if_true] at h
        rw [run_bind_err h1] at h
        cases h
    · obtain ⟨last, h2, h3, h4⟩ := rest d1
      refine ⟨conf, last, ?_, hc2', fun h => absurd (hp.symm.trans h) (by simp), h3, ?_⟩
      · exact Says.gets (by simp only [hp, if_true]; exact Says.bind hc1 h1 h2)
      · intro r d' h
        simp only [hp, if_true] at h
        rw [run_bind h1] at h
        exact h4 r d' h
  · obtain ⟨last, h2, h3, h4⟩ := rest d
    refine ⟨[], last, Says.gets (by simp only [if_neg hp]; exact h2), by simp, fun _ => rfl, h3, ?_⟩
    intro r d' h
    refine h4 r d' ?_
    have h' : ((if d.cl.hasPendingUpdates = true then _ else _ : D UpdateCheck)) d = (.ok r, d') := h
    rw [if_neg hp] at h'
    exact h'

theorem cycleEndT_says (c : Ctx) (p : Peers) (force : Bool) (d : Dev) : ∃ man, Says (cycleEndT c p force) (cycleEnd c p force) d man ∧
    (man = [] ∨ ∃ b, man = [.manifestComplete b]) := by
  unfold cycleEndT cycleEnd
  rcases h1 : completionRequired force d with ⟨x | b, d1⟩
  · exact ⟨[], Says.bindErr Says.quiet h1, .inl rfl⟩
  · cases b with
    | true => exact ⟨[], Says.bind (l1 := []) Says.quiet h1 Says.pure, .inl rfl⟩
    | false =>
      by_cases hp : d1.cl.hasPendingUpdates = true
      · exact ⟨[], Says.bind (l1 := []) Says.quiet h1 (by
          simp only [Bool.false_eq_true, if_false]
          exact Says.gets (by simp only [hp, if_true]; exact Says.pure)), .inl rfl⟩
      · have hm := putManifestT_says c.env p d1
        rcases h2 : putManifestSimple c.env p d1 with ⟨x | b, d2⟩
        · rw [h2] at hm
          exact ⟨[], Says.bind (l1 := []) Says.quiet h1 (by
            simp only [Bool.false_eq_true, if_false]
            exact Says.gets (by simp only [if_neg hp]; exact Says.bindErr hm h2)), .inl rfl⟩
        · rw [h2] at hm
          refine ⟨[.manifestComplete b], Says.bind (l1 := []) Says.quiet h1 (by
            simp only [Bool.false_eq_true, if_false]
            exact Says.gets (by simp only [if_neg hp]; exact Says.bind (l2 := []) hm h2 Says.pure)), .inr ⟨_, rfl⟩⟩

theorem reportT_says (env : Env) (p : Peers) (d : Dev) : ∃ man, Says (putManifestT env p >>= fun _ => pure true) (putManifestSimple env p >>= fun _ => pure true) d man ∧
    (man = [] ∨ ∃ b, man = [.manifestComplete b]) ∧
    (∀ x d', (putManifestSimple env p >>= fun _ => pure true) d = (.ok x, d') → ∃ b, man = [.manifestComplete b]) := by
  have hm := putManifestT_says env p d
  rcases h2 : putManifestSimple env p d with ⟨x | b, d2⟩
  · rw [h2] at hm
    refine ⟨[], Says.bindErr hm h2, .inl rfl, ?_⟩
    intro x d' h
    rw [run_bind_err h2] at h
    cases h
  · rw [h2] at hm
    exact ⟨[.manifestComplete b], Says.bind (l2 := []) hm h2 Says.pure, .inr ⟨_, rfl⟩, fun _ _ _ => ⟨_, rfl⟩⟩

/-- What is told of the download of `ts`. -/
def DlTold (f : Fetched) (ts : List Target) (l : List Note) (last : Option Downloaded) : Prop :=
  ∃ cid oks, (∀ x ∈ ts.zip oks, ∃ n, x.2 = f n x.1) ∧ l = (ts.zip oks).flatMap (dlStory cid) ++ (last.map .downloadsComplete).toList

/-- What is told of the installation of `ts`. -/
def InsTold (p : Peers) (ts : List Target) (l : List Note) (last : Option InstallReport) : Prop :=
  ∃ prim cid ps rs tail, InstTold p ts prim cid ps rs tail ∧ l = instNotes prim cid ps rs tail ++ (last.map .installsComplete).toList

/-- What a cycle tells: confirmed installations, the result of the check, the download, the installation, the manifest. -/
theorem uptaneCycleT_says (c : Ctx) (p : Peers) (f : Fetched) (force : Bool) (d : Dev) :
    ∃ conf chk dl ins man, Says (uptaneCycleT c p f force) (uptaneCycle c p f force) d (conf ++ (chk ++ (dl ++ (ins ++ man)))) ∧
      (∀ x ∈ conf, ∃ e h cid, x = .installCompleted e cid true ∧ Confirmed c.env p e h) ∧
      (chk = [] ∨ ∃ r, chk = [.checkComplete r]) ∧ (dl = [] ∨ ∃ ts last, DlTold f ts dl last) ∧ (ins = [] ∨ ∃ ts last, InsTold p ts ins last) ∧
      (man = [] ∨ ∃ b, man = [.manifestComplete b]) ∧
      ∀ b d', uptaneCycle c p f force d = (.ok b, d') →
        (chk = [] ∧ dl = [] ∧ ins = [] ∧ ∃ x, man = [.manifestComplete x]) ∨
        ∃ r, chk = [.checkComplete r] ∧
          ((r.updates = [] ∧ dl = [] ∧ ins = [] ∧ (r.status = .error → ∃ x, man = [.manifestComplete x]) ∧ (r.status ≠ .error → man = [])) ∨
            r.updates ≠ [] ∧ ∃ got, DlTold f r.updates dl (some got) ∧
              (((got.status ≠ .success ∨ got.updates = []) ∧ ins = [] ∧ (got.status ≠ .nothing → ∃ x, man = [.manifestComplete x]) ∧ (got.status = .nothing → man = [])) ∨
                got.status = .success ∧ got.updates ≠ [] ∧ ∃ rep, InsTold p got.updates ins (some rep))) := by
  obtain ⟨conf, chk, h1, hconf, _, hchk, hchk'⟩ := fetchMetaT_says c p d
  unfold uptaneCycleT uptaneCycle
  rcases e1 : fetchMeta c p d with ⟨x | r, d1⟩
  · refine ⟨conf, chk, [], [], [], by simpa using Says.bindErr h1 e1, hconf, hchk, .inl rfl, .inl rfl, .inl rfl, ?_⟩
    intro b d' h
    rw [run_bind_err e1] at h
    cases h
  have hd : ∃ dl ins man, Says (cycleDownloadT c p f force r) (cycleDownload c p f force r) d1 (dl ++ (ins ++ man)) ∧
      (dl = [] ∨ ∃ ts last, DlTold f ts dl last) ∧ (ins = [] ∨ ∃ ts last, InsTold p ts ins last) ∧
      (man = [] ∨ ∃ b, man = [.manifestComplete b]) ∧ ∀ b d', cycleDownload c p f force r d1 = (.ok b, d') →
        ((r.updates = [] ∧ dl = [] ∧ ins = [] ∧ (r.status = .error → ∃ x, man = [.manifestComplete x]) ∧ (r.status ≠ .error → man = [])) ∨
            r.updates ≠ [] ∧ ∃ got, DlTold f r.updates dl (some got) ∧
              (((got.status ≠ .success ∨ got.updates = []) ∧ ins = [] ∧ (got.status ≠ .nothing → ∃ x, man = [.manifestComplete x]) ∧ (got.status = .nothing → man = [])) ∨
                got.status = .success ∧ got.updates ≠ [] ∧ ∃ rep, InsTold p got.updates ins (some rep))) := by
    unfold cycleDownloadT cycleDownload
    by_cases he : r.updates.isEmpty = true
    · have hnil : r.updates = [] := List.isEmpty_iff.1 he
      simp only [if_pos he]
      by_cases hs : r.status = .error
      · simp only [if_pos hs]
        obtain ⟨man, hm, hm2, hm3⟩ := reportT_says c.env p d1
        exact ⟨[], [], man, hm, .inl rfl, .inl rfl, hm2, fun b d' h => .inl ⟨hnil, rfl, rfl, fun _ => hm3 _ _ h, fun h => absurd hs h⟩⟩
      · simp only [if_neg hs]
        exact ⟨[], [], [], Says.pure, .inl rfl, .inl rfl, .inl rfl, fun b d' h => .inl ⟨hnil, rfl, rfl, fun h => absurd h hs, fun _ => rfl⟩⟩
    · have hnil : r.updates ≠ [] := fun h => he (by simp [h])
      simp only [if_neg he]
      obtain ⟨cid, oks, last, h2, hoks, hlast, _, hok⟩ := downloadImagesT_says c f r.updates d1
      rcases e2 : downloadImages c f r.updates d1 with ⟨x | got, d2⟩
      · have hdl : ∃ last', DlTold f r.updates ((r.updates.zip oks).flatMap (dlStory cid) ++ last) last' := by
          rcases hlast with rfl | ⟨g, rfl⟩
          · exact ⟨none, cid, oks, hoks, rfl⟩
          · exact ⟨some g, cid, oks, hoks, rfl⟩
        obtain ⟨last', hdl⟩ := hdl
        refine ⟨_, [], [], by simpa using Says.bindErr h2 e2, .inr ⟨_, _, hdl⟩, .inl rfl, .inl rfl, ?_⟩
        intro b d' h
        rw [run_bind_err e2] at h
        cases h
      obtain ⟨hlast', _⟩ := hok _ _ e2
      subst hlast'
      have hdl : DlTold f r.updates ((r.updates.zip oks).flatMap (dlStory cid) ++ [.downloadsComplete got]) (some got) := ⟨cid, oks, hoks, rfl⟩
      have hi : ∃ ins man, Says (cycleInstallT c p force got) (cycleInstall c p force got) d2 (ins ++ man) ∧ (ins = [] ∨ ∃ ts last, InsTold p ts ins last) ∧
          (man = [] ∨ ∃ b, man = [.manifestComplete b]) ∧ ∀ b d', cycleInstall c p force got d2 = (.ok b, d') →
            (((got.status ≠ .success ∨ got.updates = []) ∧ ins = [] ∧ (got.status ≠ .nothing → ∃ x, man = [.manifestComplete x]) ∧ (got.status = .nothing → man = [])) ∨
                got.status = .success ∧ got.updates ≠ [] ∧ ∃ rep, InsTold p got.updates ins (some rep)) := by
        unfold cycleInstallT cycleInstall
        by_cases hg : got.status ≠ .success ∨ got.updates.isEmpty = true
        · have hg' : got.status ≠ .success ∨ got.updates = [] := hg.imp id List.isEmpty_iff.1
          simp only [if_pos hg]
          by_cases hn : got.status ≠ .nothing
          · simp only [if_pos hn]
            obtain ⟨man, hm, hm2, hm3⟩ := reportT_says c.env p d2
            exact ⟨[], man, hm, .inl rfl, hm2, fun b d' h => .inl ⟨hg', rfl, fun _ => hm3 _ _ h, fun h => absurd h hn⟩⟩
          · simp only [if_neg hn]
            exact ⟨[], [], Says.pure, .inl rfl, .inl rfl, fun b d' h => .inl ⟨hg', rfl, fun h => absurd h hn, fun _ => rfl⟩⟩
        · have hg' : got.status = .success ∧ got.updates ≠ [] := by
            refine ⟨Decidable.of_not_not (fun h => hg (.inl h)), fun h => hg (.inr (by simp [h]))⟩
          simp only [if_neg hg]
          obtain ⟨prim, cid, ps, rs, tail, last, h3, _, told, hl, hok3⟩ := uptaneInstallT_says c p got.updates d2
          rcases e3 : uptaneInstall c p got.updates d2 with ⟨x | rep, d3⟩
          · have hin : ∃ last', InsTold p got.updates (instNotes prim cid ps rs tail ++ last) last' := by
              rcases hl with rfl | ⟨g, rfl⟩
              · exact ⟨none, prim, cid, ps, rs, tail, told, rfl⟩
              · exact ⟨some g, prim, cid, ps, rs, tail, told, rfl⟩
            obtain ⟨last', hin⟩ := hin
            refine ⟨_, [], by simpa using Says.bindErr h3 e3, .inr ⟨_, _, hin⟩, .inl rfl, ?_⟩
            intro b d' h
            rw [run_bind_err e3] at h
            cases h
          · obtain ⟨_, hl', _⟩ := hok3 _ _ e3
            subst hl'
            have hin : InsTold p got.updates (instNotes prim cid ps rs tail ++ [.installsComplete rep]) (some rep) := ⟨prim, cid, ps, rs, tail, told, rfl⟩
            obtain ⟨man, hm, hm2⟩ := cycleEndT_says c p force d3
            exact ⟨_, man, Says.bind h3 e3 hm, .inr ⟨_, _, hin⟩, hm2, fun b d' h => .inr ⟨hg'.1, hg'.2, rep, hin⟩⟩
      obtain ⟨ins, man, hs, hins, hman, hokI⟩ := hi
      refine ⟨_, ins, man, Says.bind h2 e2 hs, .inr ⟨_, _, hdl⟩, hins, hman, ?_⟩
      intro b d' h
      rw [run_bind e2] at h
      exact .inr ⟨hnil, got, hdl, hokI b d' h⟩
  obtain ⟨dl, ins, man, hs, hdl, hins, hman, hokD⟩ := hd
  refine ⟨conf, chk, dl, ins, man, ?_, hconf, hchk, hdl, hins, hman, ?_⟩
  · have := Says.bind (f := fun r => cycleDownloadT c p f force r) (f0 := fun r => cycleDownload c p f force r) h1 e1 hs
    rwa [List.append_assoc] at this
  · intro b d' h
    rw [run_bind e1] at h
    have := hokD b d' h
    rcases hchk' _ _ e1 with hc | ⟨hc, _, hu, hst⟩
    · exact .inr ⟨r, hc, this⟩
    · rcases this with ⟨_, a, b', e, _⟩ | ⟨hne, _⟩
      · exact .inl ⟨hc, a, b', e hst⟩
      · exact absurd hu hne

end Aktualizr
