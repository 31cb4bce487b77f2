import Verif.Props.C60
import Verif.Props.C61
import Verif.Lemmas.HonestOffline

/-! Installations that go well: forward execution. -/

namespace Aktualizr

open M Spec

/-! ### Installed versions -/

namespace Spec

/-- The version recorded as current on `ecu` is `t`. -/
def RecordedCurrent (v : VersionDb) (ecu : String) (t : Target) : Prop :=
  (∃ row ∈ v.rows, row.ecu = ecu ∧ row.isCurrent = true ∧ row.name = t.filename ∧ row.sha256 = t.sha256Hash) ∧
  ∀ row ∈ v.rows, row.ecu = ecu → row.isCurrent = true → row.name = t.filename ∧ row.sha256 = t.sha256Hash

/-- The version waiting for a reboot on `ecu` is `t`. -/
def RecordedPending (v : VersionDb) (ecu : String) (t : Target) : Prop :=
  (∃ row ∈ v.rows, row.ecu = ecu ∧ row.isPending = true) ∧
  (∀ row ∈ v.rows, row.ecu = ecu → row.isPending = true → row.name = t.filename ∧ row.sha256 = t.sha256Hash ∧ row.correlationId = t.correlationId) ∧
  ∀ row ∈ v.rows, ∀ row' ∈ v.rows, row.ecu = ecu → row.isPending = true → row'.ecu = ecu → row'.isPending = true → row = row'

end Spec

theorem recordedPending_congr {v v' : VersionDb} {e : String} {t : Target}
    (h : v'.rows.filter (fun r => decide (r.ecu = e)) = v.rows.filter (fun r => decide (r.ecu = e))) (hc : RecordedPending v e t) :
    RecordedPending v' e t := by
  have hm : ∀ r, r ∈ v'.rows ∧ r.ecu = e ↔ r ∈ v.rows ∧ r.ecu = e := by
    intro r
    have := congrArg (fun l => r ∈ l) h
    simpa [List.mem_filter] using this
  obtain ⟨⟨row, h1, h2, h3⟩, h5, h6⟩ := hc
  exact ⟨⟨row, ((hm row).2 ⟨h1, h2⟩).1, h2, h3⟩, fun r hr he hcur => h5 r ((hm r).1 ⟨hr, he⟩).1 he hcur,
    fun r hr r' hr' he hp he' hp' => h6 r ((hm r).1 ⟨hr, he⟩).1 r' ((hm r').1 ⟨hr', he'⟩).1 he hp he' hp'⟩

theorem recordedCurrent_congr {v v' : VersionDb} {e : String} {t : Target}
    (h : v'.rows.filter (fun r => decide (r.ecu = e)) = v.rows.filter (fun r => decide (r.ecu = e))) (hc : RecordedCurrent v e t) :
    RecordedCurrent v' e t := by
  have hm : ∀ r, r ∈ v'.rows ∧ r.ecu = e ↔ r ∈ v.rows ∧ r.ecu = e := by
    intro r
    have := congrArg (fun l => r ∈ l) h
    simpa [List.mem_filter] using this
  obtain ⟨⟨row, h1, h2, h3, h4⟩, h5⟩ := hc
  exact ⟨⟨row, ((hm row).2 ⟨h1, h2⟩).1, h2, h3, h4⟩, fun r hr he hcur => h5 r ((hm r).1 ⟨hr, he⟩).1 he hcur⟩

theorem save_recorded {env : Env} {db : VersionDb} {e : String} (he : e ≠ "") (t : Target) (ho : VersionDb.Ordered db.rows) :
    RecordedCurrent (db.saveInstalledVersion env e t .current) e t := by
  have hreal : db.realSerial e = e := by simp [VersionDb.realSerial, he]
  constructor
  · rw [VersionDb.save_rows, hreal]
    cases ho' : VersionDb.oldRow db.rows e t with
    | none =>
      exact ⟨VersionDb.freshRow env (VersionDb.nextId db.rows) e t .current, by simp, rfl, rfl, rfl, rfl⟩
    | some o =>
      obtain ⟨h1, h2, h3, h4⟩ := VersionDb.oldRow_some ho'
      refine ⟨VersionDb.save1 e t .current (some o) o, by simp only [List.mem_append, List.mem_map]; exact .inl ⟨o, h1, rfl⟩, ?_, ?_, ?_, ?_⟩
      all_goals simp [VersionDb.save1, VersionDb.reflag, VersionDb.clear1, h2, h3, h4]
  · intro row hrow hecu hcur
    rw [VersionDb.save_rows, hreal] at hrow
    rcases List.mem_append.1 hrow with h | h
    · obtain ⟨r, hr, rfl⟩ := List.mem_map.1 h
      rw [VersionDb.save1_ecu] at hecu
      rcases VersionDb.save1_isCurrent hecu hcur with ⟨_, o, h1, h2⟩ | ⟨h1, _⟩
      · obtain ⟨a1, a2, a3, a4⟩ := VersionDb.oldRow_some h1
        have : r = o := ho.inj hr a1 h2
        subst this
        rw [h1]
        simp [VersionDb.save1, VersionDb.reflag, VersionDb.clear1, a2, a3, a4]
      · exact absurd rfl h1
    · split at h
      · cases h
      · simp only [List.mem_singleton] at h
        subst h
        exact ⟨rfl, rfl⟩

theorem save_idle {env : Env} {db : VersionDb} {e : String} (t : Target) {mode : UpdateMode} (hm : mode ≠ .pending)
    (ho : VersionDb.Ordered db.rows) {S : String → Prop} (h : ∀ r ∈ db.rows, r.isPending = true → S r.ecu) :
    ∀ r ∈ (db.saveInstalledVersion env e t mode).rows, r.isPending = true → S r.ecu := by
  intro r hr hpend
  rw [VersionDb.save_rows] at hr
  rcases List.mem_append.1 hr with hr | hr
  · obtain ⟨r0, h0, rfl⟩ := List.mem_map.1 hr
    by_cases he : r0.ecu = db.realSerial e
    · rcases VersionDb.save1_isPending he hpend with ⟨h1, _⟩ | ⟨_, h2, _⟩
      · exact absurd h1 hm
      · rw [VersionDb.save1_ecu]
        exact h r0 h0 h2
    · rw [VersionDb.save1_other ho mode h0 he] at hpend ⊢
      exact h r0 h0 hpend
  · split at hr
    · cases hr
    · simp only [List.mem_singleton] at hr
      subst hr
      change (mode == .pending) = true at hpend
      exact absurd (by simpa using hpend) hm

/-! ### Runs that succeed -/

/-- From `d` on, `m` succeeds with `Q`, using at most `n` effects. -/
def WillAt {α : Type} (n : Nat) (d : Dev) (m : D α) (Q : α → Dev → Prop) : Prop :=
  n ≤ d.cl.w.fuel → ∃ a d', m d = (.ok a, d') ∧ Q a d' ∧ d.cl.w.fuel ≤ d'.cl.w.fuel + n

namespace WillAt

variable {α β : Type}

theorem bind {n k : Nat} {d : Dev} {m : D α} {f : α → D β} {Q : α → Dev → Prop} {R : β → Dev → Prop} (h : WillAt n d m Q)
    (hf : ∀ a d', Q a d' → WillAt k d' (f a) R) : WillAt (n + k) d (m >>= f) R := by
  intro hn
  obtain ⟨a, d1, h1, h2, h3⟩ := h (by omega)
  obtain ⟨b, d2, h4, h5, h6⟩ := hf a d1 h2 (by omega)
  exact ⟨b, d2, by rw [run_bind h1]; exact h4, h5, by omega⟩

theorem weaken {n k : Nat} {d : Dev} {m : D α} {Q R : α → Dev → Prop} (h : WillAt n d m Q) (hk : n ≤ k) (hq : ∀ a d, Q a d → R a d) :
    WillAt k d m R := by
  intro hn
  obtain ⟨a, d1, h1, h2, h3⟩ := h (by omega)
  exact ⟨a, d1, h1, hq _ _ h2, by omega⟩

theorem more {n k : Nat} {d : Dev} {m : D α} {Q : α → Dev → Prop} (h : WillAt n d m Q) (hk : n ≤ k) : WillAt k d m Q :=
  h.weaken hk (fun _ _ h => h)

theorem pure {d : Dev} {a : α} {Q : α → Dev → Prop} (h : Q a d) : WillAt 0 d (Pure.pure a) Q :=
  fun _ => ⟨a, d, rfl, h, by omega⟩

theorem gets {n : Nat} {d : Dev} {g : Dev → α} {f : α → D β} {R : β → Dev → Prop} (h : WillAt n d (f (g d)) R) :
    WillAt n d (M.gets g >>= f) R := h

theorem lift {d : Dev} {x : Except Err α} {a : α} {Q : α → Dev → Prop} (hx : x = .ok a) (h : Q a d) : WillAt 0 d (M.lift x) Q :=
  fun _ => ⟨a, d, by rw [lift_eq, hx], h, by omega⟩

theorem liftBind {n : Nat} {d : Dev} {x : Except Err α} {a : α} {f : α → D β} {R : β → Dev → Prop} (hx : x = .ok a) (h : WillAt n d (f a) R) :
    WillAt n d (M.lift x >>= f) R := by
  have := bind (n := 0) (k := n) (lift (Q := fun b e => b = a ∧ e = d) hx ⟨rfl, rfl⟩) (f := f) (R := R) (by rintro b e ⟨rfl, rfl⟩; exact h)
  simpa using this

theorem askBind {n : Nat} {d : Dev} {g : Nat → α} {f : α → D β} {R : β → Dev → Prop} (h : WillAt n { d with n := d.n + 1 } (f (g d.n)) R) :
    WillAt n d (ask g >>= f) R := h

theorem act {d : Dev} {a : Action} {Q : Unit → Dev → Prop}
    (h : ∀ k, Q () { d with cl := { d.cl with w := { d.cl.w with fuel := k } }, log := d.log ++ [a] }) : WillAt 1 d (act a) Q := by
  intro hn
  unfold Aktualizr.act
  cases hf : d.cl.w.fuel with
  | zero => omega
  | succ k => exact ⟨(), _, rfl, h k, by show _ ≤ k + 1; omega⟩

theorem cwrite {d : Dev} {f : Client → Client} {Q : Unit → Dev → Prop}
    (h : ∀ k, Q () { d with cl := { f d.cl with w := { (f d.cl).w with fuel := k } } }) : WillAt 1 d (inClient (cwrite f)) Q := by
  intro hn
  unfold inClient Aktualizr.cwrite zoom
  simp only
  cases hf : d.cl.w.fuel with
  | zero => omega
  | succ k => exact ⟨(), _, rfl, h k, by show _ ≤ k + 1; omega⟩

end WillAt


/-! ### Checking again -/

namespace Spec

/-- At most one hash of each type. Documents have no others, as `Json::Value` keeps the members of an
object in a map (`hashes` has at most one member `sha256` and one `sha512`; others are left out,
tuf.cc:93-98); in the model, objects are lists. -/
def OneHashEach (t : Target) : Prop := ∀ h ∈ t.hashes, ∀ h' ∈ t.hashes, h.type = h'.type → h = h'

end Spec

theorem offered_matches {t m u : Target} (ho : Offers t m u) (hl : SameContent m t ∧ SameAssignment m t) (h1 : OneHashEach t) :
    t.matchTarget u = true ∧ (∀ x : Target, x.matchTarget u = x.matchTarget t) ∧ u.filename = t.filename := by
  subst ho
  obtain ⟨⟨_, _, ⟨h, _, b3⟩, _⟩, _⟩ := hl
  exact ⟨matchTarget_iff.2 ⟨⟨rfl, rfl, ⟨h, b3, b3⟩, h1⟩, .inl ⟨rfl, rfl⟩⟩, fun _ => rfl, rfl⟩

theorem offlineLoop_run {c : Ctx} {rawS : String} {its : Targets} {news : List Target} : ∀ (us : List Target) (cl : Client),
    ReadsAsSnapshot c.env rawS cl.w.img.snapshot → cl.w.img.targets = some its →
    (∀ u ∈ us, ∃ t m stored, t ∈ news ∧ Held c stored rawS its cl.w.db t m ∧ Offers t m u ∧ OneHashEach t) →
    ∃ n, offlineLoop c news us cl = (.ok (), { cl with w := { cl.w with tick := n } })
  | [], cl, _, _, _ => ⟨cl.w.tick, rfl⟩
  | u :: us, cl, hS, hi, h => by
    obtain ⟨t, m, stored, h1, h2, h3, h4⟩ := h u (by simp)
    obtain ⟨h5, h6, h7⟩ := offered_matches h3 h2.same h4
    obtain ⟨n, hf⟩ := findInTree_offline (q := u) hS hi h2 h6 h7
    obtain ⟨n', hn⟩ := offlineLoop_run (c := c) (news := news) us { cl with w := { cl.w with tick := n } } hS hi (fun x hx => h x (by simp [hx]))
    refine ⟨n', ?_⟩
    unfold offlineLoop
    rw [run_bind (throwWhen_run (by
      have : news.any (fun d => d.matchTarget u) = true := List.any_eq_true.2 ⟨t, h1, h5⟩
      simp [this])), run_bind (inWorld_run hf)]
    exact hn

theorem recheck_run {c : Ctx} {d : Dev} {dRoot : String} {dLast : Root} {dRaw : String} {ts : Targets} {iRoot : String} {iLast : Root}
    {rawT rawS iRaw : String} {tm : TimestampMeta} {sn : Snapshot} {its : Targets} {us : List Target}
    (hd : KeepsDirector c d.cl.w.db dRoot dLast dRaw ts) (hi : KeepsImage c d.cl.w.db iRoot iLast rawT rawS iRaw tm sn its)
    (hfit : ∀ t ∈ ts.targets, FitsDevice c.env d.cl t) (hone : ∀ t ∈ ts.targets, OneHashEach t) (hpend : d.cl.hasPendingUpdates = false)
    (hne : us ≠ []) (hus : ∀ u ∈ us, ∃ t m stored, t ∈ ts.targets ∧ Outdated c.env d.cl t ∧ Held c stored rawS its d.cl.w.db t m ∧ Offers t m u) :
    ∃ w', recheck c us d = (.ok .available, { d with cl := { d.cl with w := w' } }) ∧ w'.db = d.cl.w.db ∧ w'.dir.targets = ts ∧
      w'.fuel = d.cl.w.fuel := by
  obtain ⟨n1, h1⟩ := Director.checkMetaOffline_run hd
  let cl1 : Client := { d.cl with w := { d.cl.w with dir := ⟨dLast, ts, ts⟩, tick := n1 } }
  obtain ⟨r, hr, hnew, -⟩ := newTargets_run (env := c.env) (cl := cl1) hfit
  obtain ⟨n2, h2⟩ := Image.checkMetaOffline_run (w := cl1.w) hi
  let cl2 : Client := { d.cl with w := { cl1.w with img := ⟨iLast, some its, tm, sn⟩, tick := n2 } }
  have hr0 : r.1.isEmpty = false := by
    cases hu : us with
    | nil => exact absurd hu hne
    | cons u l =>
      obtain ⟨t, m, _, h3, h4, -⟩ := hus u (by rw [hu]; simp)
      have := (hnew t).2 ⟨h3, h4⟩
      cases hl : r.1 with
      | nil => rw [hl] at this; cases this
      | cons a l => rfl
  have hit : uptaneOfflineIteration c d.cl = (.ok r, cl2) := by
    unfold uptaneOfflineIteration
    rw [run_bind (inWorld_run h1), run_bind (by rw [gets_eq])]
    refine (run_bind (m := lift (cl1.getNewTargets c.env)) (w := cl1) (by rw [lift_eq, hr])).trans ?_
    simp only [hr0, Bool.false_eq_true, if_false]
    have hc : checkImageMetaOffline c cl1 = (.ok (), cl2) := by
      unfold checkImageMetaOffline catchStd
      rw [inWorld_run h2]
    rw [run_bind hc]
    rfl
  obtain ⟨n3, hloop⟩ := offlineLoop_run (c := c) (rawS := rawS) (its := its) (news := r.1) us cl2 hi.readsS rfl (fun u hu => by
    obtain ⟨t, m, st, h3, h4, h5, h6⟩ := hus u hu
    exact ⟨t, m, st, (hnew t).2 ⟨h3, h4⟩, h5, h6, hone t h3⟩)
  let cl3 : Client := { cl2 with w := { cl2.w with tick := n3 } }
  have hcheck : checkUpdatesOffline c us d.cl = (.ok .available, cl3) := by
    unfold checkUpdatesOffline
    rw [run_bind (by rw [gets_eq])]
    have he : us.isEmpty = false := by cases us with
      | nil => exact absurd rfl hne
      | cons a l => rfl
    simp only [hpend, he, Bool.false_eq_true, if_false, id]
    rw [run_bind hit]
    simp only [hr0, Bool.false_eq_true, if_false]
    rw [run_bind hloop]
    rfl
  refine ⟨cl3.w, ?_, rfl, rfl, rfl⟩
  have hc : catchStd (checkUpdatesOffline c us) (fun _ => pure .error) d.cl = (.ok .available, cl3) := by
    unfold catchStd
    rw [hcheck]
  unfold recheck
  exact inClient_ok.2 ⟨cl3, hc, rfl⟩

/-! ### Progress of an installation -/

/-- How far an installation has come. `K` is the client when it began, `L` the log; `wait` are the
ECUs that wait for a reboot and `done` those that are finished, with their targets; `acts` has been
done so far; `P` holds of every recorded version. -/
structure Progress (P : VersionRow → Prop) (K : Client) (L : List Action) (ts : Targets) (wait done : List (String × Target)) (acts : List Action) (d : Dev) :
    Prop where
  primary : d.cl.primary = K.primary
  hw : d.cl.primaryHw = K.primaryHw
  secs : d.cl.secondaries = K.secondaries
  counters : d.cl.counters = K.counters
  db : d.cl.w.db = K.w.db
  dir : d.cl.w.dir.targets = ts
  ecus : d.cl.v.ecus = K.v.ecus
  ordered : VersionDb.Ordered d.cl.v.rows
  idle : ∀ r ∈ d.cl.v.rows, r.isPending = true → r.ecu ∈ wait.map Prod.fst
  current : ∀ x ∈ done, RecordedCurrent d.cl.v x.1 x.2
  reported : ∀ x ∈ wait ++ done, ∃ row, (x.1, row) ∈ d.cl.ecuResults
  good : ∀ y ∈ d.cl.ecuResults, (y.1 ∈ done.map Prod.fst ∧ ∃ desc, (⟨true, .ok, desc⟩ : InstResult).toRow = .ok y.2) ∨
    (y.1 ∈ wait.map Prod.fst ∧ ∃ desc, (⟨false, .needCompletion, desc⟩ : InstResult).toRow = .ok y.2)
  log : ∃ l, d.log = L ++ l ∧ ∀ a ∈ acts, a ∈ l
  waiting : ∀ x ∈ wait, RecordedPending d.cl.v x.1 x.2
  legible : ∀ r ∈ d.cl.v.rows, P r

namespace Progress

variable {P : VersionRow → Prop} {K : Client} {L : List Action} {ts : Targets} {wait done : List (String × Target)} {acts : List Action} {d : Dev}

theorem asked (h : Progress P K L ts wait done acts d) {n : Nat} : Progress P K L ts wait done acts { d with n := n } :=
  ⟨h.1, h.2, h.3, h.4, h.5, h.6, h.7, h.8, h.9, h.10, h.11, h.12, h.13, h.14, h.15⟩

theorem world (h : Progress P K L ts wait done acts d) {w : World} (h1 : w.db = d.cl.w.db) (h2 : w.dir.targets = d.cl.w.dir.targets) :
    Progress P K L ts wait done acts { d with cl := { d.cl with w := w } } :=
  ⟨h.1, h.2, h.3, h.4, h1.trans h.5, h2.trans h.6, h.7, h.8, h.9, h.10, h.11, h.12, h.13, h.14, h.15⟩

theorem logged (h : Progress P K L ts wait done acts d) (a : Action) : Progress P K L ts wait done (a :: acts) { d with log := d.log ++ [a] } :=
  ⟨h.1, h.2, h.3, h.4, h.5, h.6, h.7, h.8, h.9, h.10, h.11, h.12, (by
    obtain ⟨l, hl, ha⟩ := h.log
    refine ⟨l ++ [a], by show d.log ++ [a] = _; rw [hl, List.append_assoc], ?_⟩
    intro b hb
    rcases List.mem_cons.1 hb with rfl | hb
    · simp
    · exact List.mem_append.2 (.inl (ha b hb))), h.14, h.15⟩

theorem forget (h : Progress P K L ts wait done acts d) {acts' : List Action} (hs : ∀ a ∈ acts', a ∈ acts) : Progress P K L ts wait done acts' d :=
  ⟨h.1, h.2, h.3, h.4, h.5, h.6, h.7, h.8, h.9, h.10, h.11, h.12, (by
    obtain ⟨l, hl, ha⟩ := h.log
    exact ⟨l, hl, fun a h => ha a (hs a h)⟩), h.14, h.15⟩

theorem act (h : Progress P K L ts wait done acts d) (a : Action) : WillAt 1 d (Aktualizr.act a) (fun _ d' => Progress P K L ts wait done (a :: acts) d') :=
  WillAt.act (fun _ => (h.logged a).world (d := { d with log := d.log ++ [a] }) rfl rfl)

end Progress

/-! ### Answers that help -/

namespace Spec

/-- The Secondaries' Root of `repo` can be brought up to version `last`: they have none, are at most
one behind, or the server still serves what is in between. -/
def RootsWithinReach (c : Ctx) (p : Peers) (repo : Repo) (last : Int) : Prop :=
  ∀ n s, ∃ v, p.rootVersion n s (repo == .director) = .ok v ∧
    (v ≤ 0 ∨ last - v ≤ 1 ∨ ∀ v', v < v' → v' ≤ last → ∃ raw, Served c repo Role.root v' (64 * 1024) raw)

/-- Success. -/
def Succeeds (x : Except Err InstResult) : Prop := ∃ r, x = .ok r ∧ r.success = true

/-- Success, with the code for success. -/
def Installed (x : Except Err InstResult) : Prop := ∃ desc, x = .ok ⟨true, .ok, desc⟩

/-- An answer, or an exception derived from `std::exception`. -/
def Answers {α : Type} (x : Except Err α) : Prop := ∀ e, x = .error e → e.isStd = true

/-- Secondaries answer requests for manifests somehow, and the Director takes manifests. -/
structure Hears (p : Peers) : Prop where
  secManifest : ∀ n s, Answers (p.secManifest n s)
  secKey : ∀ n s, Answers (p.secKey n s)
  putManifest : ∀ n m, p.putManifest n m = true

/-- Images are good, and the Secondaries take metadata and images. -/
structure Obliges (c : Ctx) (p : Peers) (dLast iLast : Root) : Prop extends Hears p where
  verify : ∀ n t, p.verify n t = .ok .good
  reachable : ∀ n, p.reachable n = true
  dRoots : RootsWithinReach c p .director dLast.base.version
  iRoots : RootsWithinReach c p .image iLast.base.version
  putRoot : ∀ n s b raw, Succeeds (p.putRoot n s b raw)
  putMetadata : ∀ n s t, Succeeds (p.putMetadata n s t)
  sendFirmware : ∀ n s t, Succeeds (p.sendFirmware n s t)

/-- Images are good, and the Secondaries do what they are asked. -/
structure Supports (c : Ctx) (p : Peers) (dLast iLast : Root) : Prop extends Obliges c p dLast iLast where
  secInstall : ∀ n s t, Installed (p.secInstall n s t)

/-- Nothing stands in the way: the package manager and the Secondaries do what they are asked, and the
Director takes manifests. -/
structure Helpful (c : Ctx) (p : Peers) (dLast iLast : Root) : Prop extends Supports c p dLast iLast where
  install : ∀ n t, Installed (p.install n t)

end Spec

section Installing

variable {c : Ctx} {p : Peers} {P : VersionRow → Prop} {K : Client} {L : List Action} {ts : Targets} {wait done : List (String × Target)} {acts : List Action} {d : Dev}
variable {dLast iLast : Root}

theorem rootForSecondary_will {repo : Repo} {v : Int} (hs : ∃ raw, Served c repo Role.root v (64 * 1024) raw) (h : Progress P K L ts wait done acts d) :
    WillAt 0 d (rootForSecondary c repo v) (fun r d' => r.isSome = true ∧ Progress P K L ts wait done acts d') := by
  intro _
  obtain ⟨raw, hs⟩ := hs
  unfold rootForSecondary
  rw [run_bind (by rw [gets_eq])]
  simp only [id]
  cases hr : d.cl.w.db.loadRootVersion repo v with
  | some root => exact ⟨_, d, rfl, ⟨rfl, h⟩, by omega⟩
  | none =>
    refine ⟨some raw, _, inClient_ok.2 ⟨_, inWorld_run (tryFetchRoot_run hs _), rfl⟩, ⟨rfl, h.world rfl rfl⟩, ?_⟩
    show _ ≤ d.cl.w.fuel + 0
    omega

theorem rotateSecLoop_will {repo : Repo} {serial : String} (hp : Obliges c p dLast iLast) :
    ∀ (k : Nat) (v : Int) (r : InstResult) {d : Dev} {acts : List Action}, (∀ v', v ≤ v' → v' < v + k → ∃ raw, Served c repo Role.root v' (64 * 1024) raw) →
      r.success = true → Progress P K L ts wait done acts d →
      WillAt k d (rotateSecLoop c p repo serial k v r) (fun r d' => r.success = true ∧ Progress P K L ts wait done acts d')
  | 0, v, r, d, acts, _, hr, h => WillAt.pure ⟨hr, h⟩
  | k + 1, v, r, d, acts, hs, _, h => by
    unfold rotateSecLoop
    have := WillAt.bind (n := 0) (k := k + 1) (rootForSecondary_will (c := c) (repo := repo) (hs v (by omega) (by omega)) h)
      (f := fun x => match x with
        | none => pure (.ofCode .internalError "Root metadata could not be fetched, skipping to the next Secondary")
        | some root => do
          Aktualizr.act (.putRoot serial (repo == .director) root)
          let a ← ask (fun n => p.putRoot n serial (repo == .director) root)
          let r ← lift (orFailure .internalError a)
          if r.success then rotateSecLoop c p repo serial k (v + 1) r else pure r)
      (R := fun r d' => r.success = true ∧ Progress P K L ts wait done acts d') (by
        rintro (_ | root) d1 ⟨h1, h2⟩
        · cases h1
        · refine (WillAt.bind (n := 1) (k := k) (h2.act _) (fun _ d2 h3 => ?_)).more (by omega)
          refine WillAt.askBind ?_
          obtain ⟨r, hr, hr'⟩ := hp.putRoot d2.n serial (repo == .director) root
          refine WillAt.liftBind (a := r) (by rw [hr]; rfl) ?_
          simp only [hr', if_true]
          exact (rotateSecLoop_will hp k (v + 1) r (fun v' h1 h2 => hs v' (by omega) (by omega)) hr' (h3.asked.forget (by intro a ha; simp [ha]))))
    exact this.more (by omega)

theorem extractVersion_root {env : Env} {raw : String} {r : Root} (h : ReadsAsRoot env raw r) :
    extractVersionUntrusted env raw = .ok r.base.version ∨ extractVersionUntrusted env raw = .ok (-1) := by
  unfold ReadsAsRoot Root.ofJson baseInit at h
  simp only [exc_bind_ok, throwIf_ok] at h
  obtain ⟨⟨v, e⟩, ⟨_, _, _, _, _, _, s, hs, vj, hvj, v', hv', _, _, _, _, hm⟩, s', hs', _, _, _, _, _, _, _, _, k, hk, m1, hm1, ro, hro, m2, hm2, h⟩ := h
  rw [exc_pure_ok] at h
  have hver : m2.version = v := by
    have h1 := (parseKeysLoop_spec _ _ _ _ hm1).2.2.1
    have h2 := (rootRolesLoop_spec _ _ _ hm2).2.1
    rw [h2, h1]
  have hv : v' = v := by
    split at hm
    · cases hm
    · cases hm; rfl
  subst h
  subst hv
  have hx : extractVersionUntrusted env raw = if !vj.isIntegral then .ok (-1) else vj.asInt := by
    unfold extractVersionUntrusted
    rw [hs]
    show (s.get "version" >>= fun v => if !v.isIntegral then pure (-1) else v.asInt) = _
    rw [hvj]
    rfl
  rw [hx]
  cases vj.isIntegral
  · exact .inr rfl
  · left
    show vj.asInt = .ok m2.version
    rw [hver, hv']

theorem rotateSecondaryRoot_will {repo : Repo} {serial : String} {raw : String} {last : Root} (hp : Obliges c p dLast iLast)
    (hs : Stored K.w.db repo .root raw) (hg : GenuineRoot c.env raw last) (hreach : RootsWithinReach c p repo last.base.version)
    (h : Progress P K L ts wait done acts d) :
    WillAt last.base.version.toNat d (rotateSecondaryRoot c p repo serial) (fun r d' => r.success = true ∧ Progress P K L ts wait done acts d') := by
  unfold rotateSecondaryRoot
  have hl : WillAt 0 d (inClient (inWorld (loadLatestRoot repo))) (fun x d' => x = some raw ∧ Progress P K L ts wait done acts d') := fun _ =>
    ⟨some raw, d, inClient_ok.2 ⟨d.cl, inWorld_run (loadRoot_run (by rw [h.db]; exact hs) hg.genuine.nonempty), rfl⟩, ⟨rfl, h⟩, by omega⟩
  refine (WillAt.bind (k := last.base.version.toNat) hl (fun x d1 hx => ?_)).more (by omega)
  obtain ⟨rfl, h1⟩ := hx
  simp only
  obtain ⟨v, hv, hreach⟩ := hreach d1.n serial
  have key : ∀ x : Int, (x = last.base.version ∨ x = -1) → WillAt last.base.version.toNat d1
      (do let a ← ask (fun n => p.rootVersion n serial (repo == .director))
          let sec ← lift a
          if sec > 0 ∧ x - sec > 1 then rotateSecLoop c p repo serial (x - sec).toNat (sec + 1) (.ofCode .ok "")
          else pure (.ofCode .ok "")) (fun r d' => r.success = true ∧ Progress P K L ts wait done acts d') := by
    intro x hx
    refine WillAt.askBind (WillAt.liftBind hv ?_)
    by_cases hc : v > 0 ∧ x - v > 1
    · rw [if_pos hc]
      have hx' : x = last.base.version := by
        rcases hx with h | h
        · exact h
        · omega
      subst hx'
      refine (rotateSecLoop_will hp _ _ _ (fun v' h2 h3 => ?_) rfl h1.asked).more (by omega)
      rcases hreach with hr | hr | hr
      · omega
      · omega
      · exact hr v' (by omega) (by omega)
    · rw [if_neg hc]
      exact (WillAt.pure ⟨rfl, h1.asked⟩).more (by omega)
  rcases extractVersion_root hg.reads with he | he
  · exact WillAt.liftBind he (key _ (.inl rfl))
  · exact WillAt.liftBind he (key _ (.inr rfl))

theorem sendMetadataTo_will {serial : String} {t : Target} {dRoot iRoot : String} (hp : Obliges c p dLast iLast)
    (hd : Stored K.w.db .director .root dRoot) (hdg : GenuineRoot c.env dRoot dLast) (hi : Stored K.w.db .image .root iRoot)
    (hig : GenuineRoot c.env iRoot iLast) (h : Progress P K L ts wait done acts d) :
    WillAt (dLast.base.version.toNat + iLast.base.version.toNat + 1) d (sendMetadataTo c p serial t)
      (fun r d' => r.success = true ∧ Progress P K L ts wait done (.putMetadata serial t :: acts) d') := by
  unfold sendMetadataTo
  refine (WillAt.bind (n := dLast.base.version.toNat) (k := iLast.base.version.toNat + 1) (rotateSecondaryRoot_will hp hd hdg hp.dRoots h) ?_).more (by omega)
  rintro r d1 ⟨hr, h1⟩
  simp only [hr, Bool.not_true, Bool.false_eq_true, if_false]
  refine WillAt.bind (n := iLast.base.version.toNat) (k := 1) (rotateSecondaryRoot_will hp hi hig hp.iRoots h1) ?_
  rintro r d2 ⟨hr, h2⟩
  simp only [hr, Bool.not_true, Bool.false_eq_true, if_false]
  refine WillAt.bind (n := 1) (k := 0) (h2.act _) (fun _ d3 h3 => WillAt.askBind ?_)
  obtain ⟨r, hr, hr'⟩ := hp.putMetadata d3.n serial t
  exact WillAt.lift (a := r) (by rw [hr]; rfl) ⟨hr', h3.asked⟩

theorem sendMetadataLoop_will {dRoot iRoot : String} (hp : Obliges c p dLast iLast)
    (hd : Stored K.w.db .director .root dRoot) (hdg : GenuineRoot c.env dRoot dLast) (hi : Stored K.w.db .image .root iRoot)
    (hig : GenuineRoot c.env iRoot iLast) : ∀ (l : List (Target × String × String)) {d : Dev} {acts : List Action}, Progress P K L ts wait done acts d →
    WillAt (l.length * (dLast.base.version.toNat + iLast.base.version.toNat + 1)) d (sendMetadataLoop c p l "")
      (fun r d' => r = "" ∧ Progress P K L ts wait done acts d')
  | [], d, acts, h => (WillAt.pure ⟨rfl, h⟩).more (by omega)
  | (t, serial, hw) :: l, d, acts, h => by
    have e : (((t, serial, hw) :: l).length * (dLast.base.version.toNat + iLast.base.version.toNat + 1)) =
      (dLast.base.version.toNat + iLast.base.version.toNat + 1) + (l.length * (dLast.base.version.toNat + iLast.base.version.toNat + 1)) := by
      simp only [List.length_cons, Nat.succ_mul]; omega
    rw [e]
    unfold sendMetadataLoop
    refine WillAt.gets ?_
    by_cases hc : d.cl.secondaries.any (fun s => s.1 == serial) = true
    · simp only [id, hc, if_true]
      refine WillAt.bind (sendMetadataTo_will hp hd hdg hi hig h) ?_
      rintro r d1 ⟨hr, h1⟩
      simp only [hr, if_true]
      exact sendMetadataLoop_will hp hd hdg hi hig l (h1.forget (by intro a ha; simp [ha]))
    · simp only [id, hc]
      exact (sendMetadataLoop_will hp hd hdg hi hig l h).more (by omega)

/-! ### Recording -/

/-- `P` survives recording `t`. -/
def RowSafe (env : Env) (P : VersionRow → Prop) (t : Target) : Prop :=
  ∀ (db : VersionDb) (e : String) (mode : UpdateMode), (∀ r ∈ db.rows, P r) → ∀ r ∈ (db.saveInstalledVersion env e t mode).rows, P r

theorem Progress.recorded (h : Progress P K L ts wait done acts d) {env : Env} {e : String} {t : Target} (he : e ≠ "") (hnew : e ∉ (wait ++ done).map Prod.fst)
    {mode : UpdateMode} (hm : mode ≠ .pending) (hk : RowSafe env P t) :
    Progress P K L ts wait done acts { d with cl := { d.cl with v := d.cl.v.saveInstalledVersion env e t mode } } := by
  have hother : ∀ x ∈ wait ++ done, e ≠ x.1 := by
    rintro x hx rfl
    exact hnew (List.mem_map_of_mem hx)
  refine ⟨h.1, h.2, h.3, h.4, h.5, h.6, ?_, ?_, ?_, ?_, h.11, h.12, h.13, ?_, ?_⟩
  · exact (VersionDb.save_ecus ..).trans h.ecus
  · exact VersionDb.save_ordered _ _ _ h.ordered
  · exact save_idle (S := fun e => e ∈ wait.map Prod.fst) t hm h.ordered h.idle
  · intro x hx
    exact recordedCurrent_congr (save_versionsOf t mode h.ordered he (hother x (List.mem_append.2 (.inr hx)))) (h.current x hx)
  · intro x hx
    exact recordedPending_congr (save_versionsOf t mode h.ordered he (hother x (List.mem_append.2 (.inl hx)))) (h.waiting x hx)
  · exact hk _ _ _ h.legible

theorem Progress.saved (h : Progress P K L ts wait done acts d) (env : Env) {e : String} {t : Target} (he : e ≠ "") (hnew : e ∉ (wait ++ done).map Prod.fst)
    {mode : UpdateMode} (hm : mode ≠ .pending) (hk : RowSafe env P t) :
    WillAt 1 d (saveVersion env e t mode) (fun _ d' => Progress P K L ts wait done acts d' ∧ (mode = .current → RecordedCurrent d'.cl.v e t)) := by
  unfold saveVersion
  refine WillAt.cwrite (fun k => ⟨(h.recorded he hnew hm hk).world (d := { d with cl := { d.cl with v := d.cl.v.saveInstalledVersion env e t mode } }) rfl rfl, ?_⟩)
  rintro rfl
  exact save_recorded he t h.ordered

theorem mem_upsert_iff {α : Type} {k : String} {a : α} {l : List (String × α)} {y : String × α} :
    y ∈ upsert k a l ↔ (y ∈ l ∧ y.1 ≠ k) ∨ y = (k, a) := by
  unfold upsert
  simp [List.mem_append, List.mem_filter]

theorem Progress.finished (h : Progress P K L ts wait done acts d) {e : String} {t : Target} (hc : RecordedCurrent d.cl.v e t) (desc : String) :
    WillAt 1 d (inClient (saveEcuResult e ⟨true, .ok, desc⟩)) (fun _ d' => Progress P K L ts wait ((e, t) :: done) acts d') := by
  have hrow : ∃ row, (⟨true, .ok, desc⟩ : InstResult).toRow = .ok row := ⟨_, rfl⟩
  obtain ⟨row, hrow⟩ := hrow
  intro hn
  have hw : inClient (saveEcuResult e ⟨true, .ok, desc⟩) d = inClient (cwrite (fun cl => { cl with ecuResults := upsert e row cl.ecuResults })) d := by
    rw [inClient_eq, inClient_eq]
    unfold saveEcuResult
    rw [run_bind (m := lift (InstResult.toRow ⟨true, .ok, desc⟩)) (w := d.cl) (by rw [lift_eq, hrow])]
  rw [hw]
  refine WillAt.cwrite (Q := fun _ d' => Progress P K L ts wait ((e, t) :: done) acts d') (fun k => ?_) hn
  refine ⟨h.1, h.2, h.3, h.4, h.5, h.6, h.7, h.8, h.9, ?_, ?_, ?_, h.13, h.14, h.15⟩
  · intro x hx
    rcases List.mem_cons.1 hx with rfl | hx
    · exact hc
    · exact h.current x hx
  · intro x hx
    by_cases hxe : x.1 = e
    · exact ⟨row, by show (x.1, row) ∈ upsert _ _ _; rw [mem_upsert_iff, hxe]; exact .inr rfl⟩
    · have hx' : x ∈ wait ++ done := by
        rcases List.mem_append.1 hx with hx | hx
        · exact List.mem_append.2 (.inl hx)
        · rcases List.mem_cons.1 hx with rfl | hx
          · exact absurd rfl hxe
          · exact List.mem_append.2 (.inr hx)
      obtain ⟨row', h1⟩ := h.reported x hx'
      exact ⟨row', mem_upsert_iff.2 (.inl ⟨h1, hxe⟩)⟩
  · intro y hy
    rcases mem_upsert_iff.1 hy with ⟨h1, h2⟩ | rfl
    · rcases h.good y h1 with ⟨h3, h4⟩ | h3
      · exact .inl ⟨by simp [h3], h4⟩
      · exact .inr h3
    · exact .inl ⟨by simp, desc, hrow⟩

theorem Progress.same (h : Progress P K L ts wait done acts d) {done' : List (String × Target)} (hs : ∀ x, x ∈ done' ↔ x ∈ done) :
    Progress P K L ts wait done' acts d :=
  ⟨h.1, h.2, h.3, h.4, h.5, h.6, h.7, h.8, h.9, fun x hx => h.current x ((hs x).1 hx), fun x hx => h.reported x (by
      rcases List.mem_append.1 hx with hx | hx
      · exact List.mem_append.2 (.inl hx)
      · exact List.mem_append.2 (.inr ((hs x).1 hx))), fun y hy => by
    rcases h.good y hy with ⟨h1, h2⟩ | h1
    · obtain ⟨x, hx, he⟩ := List.mem_map.1 h1
      exact .inl ⟨List.mem_map.2 ⟨x, (hs x).2 hx, he⟩, h2⟩
    · exact .inr h1, h.13, h.14, h.15⟩

/-! ### The Primary -/

theorem packageInstall_will {env : Env} {t : Target} (hi : ∀ n t, Installed (p.install n t)) (h : Progress P K L ts wait done acts d) (he : K.primary ≠ "")
    (hnew : K.primary ∉ (wait ++ done).map Prod.fst) (hk : RowSafe env P t) :
    WillAt 4 d (packageInstallSetResult env p t) (fun r d' => (∃ desc, r = ⟨true, .ok, desc⟩) ∧
      Progress P K L ts wait ((K.primary, t) :: done) (.install t :: acts) d') := by
  unfold packageInstallSetResult
  refine WillAt.gets ?_
  simp only [id, h.primary]
  refine (WillAt.bind (n := 1) (k := 3) (h.saved env he hnew (by decide) hk) ?_)
  rintro _ d1 ⟨h1, -⟩
  refine (WillAt.bind (n := 1) (k := 2) (h1.act _) (fun _ d2 h2 => WillAt.askBind ?_))
  obtain ⟨desc, hr⟩ := hi d2.n t
  refine WillAt.liftBind (a := ⟨true, .ok, desc⟩) (by rw [hr]; rfl) ?_
  have h0 : (ResultCode.ok).num = 0 := rfl
  simp only [h0, if_true]
  refine (WillAt.bind (n := 1) (k := 1) (h2.asked.saved env he hnew (by decide) hk) ?_)
  rintro _ d3 ⟨h3, hc⟩
  refine (WillAt.bind (n := 1) (k := 0) (h3.finished (hc rfl) desc) (fun _ d4 h4 => WillAt.pure ⟨⟨_, rfl⟩, h4⟩))

theorem installPrimary_will {env : Env} {us : List Target} (hi : ∀ n t, Installed (p.install n t)) (h : Progress P K L ts [] [] acts d)
    (he : ∀ t ∈ us, t.isForEcu K.primary = true → K.primary ≠ "")
    (hk : ∀ t ∈ us, ∀ cid, RowSafe env P { t with correlationId := cid }) :
    WillAt 6 d (installPrimary env p us) (fun _ d' =>
      (us.find? (fun t => t.isForEcu K.primary) = none ∧ Progress P K L ts [] [] acts d') ∨
      ∃ t, us.find? (fun t => t.isForEcu K.primary) = some t ∧
        Progress P K L ts [] [(K.primary, t)] (.install { t with correlationId := ts.correlationId } :: acts) d') := by
  unfold installPrimary
  refine WillAt.gets ?_
  simp only [id, h.primary, h.dir]
  cases hf : us.find? (fun t => t.isForEcu K.primary) with
  | none => exact (WillAt.pure (.inl ⟨rfl, h⟩)).more (by omega)
  | some t =>
    simp only
    refine (WillAt.bind (n := 1) (k := 5) (h.act _) (fun _ d1 h1 => ?_))
    refine (WillAt.bind (n := 4) (k := 1) (packageInstall_will hi h1 (he t (List.mem_of_find?_eq_some hf) (by simpa using List.find?_some hf)) (by simp)
      (hk t (List.mem_of_find?_eq_some hf) _)) ?_)
    rintro _ d2 ⟨⟨desc, rfl⟩, h2⟩
    have h0 : ¬ (ResultCode.ok).num = 21 := by decide
    simp only [h0, if_false]
    refine (WillAt.bind (n := 1) (k := 0) (h2.finished (h2.current (K.primary, { t with correlationId := ts.correlationId }) (by simp)) desc) (fun _ d4 h4 => ?_))
    refine WillAt.pure (.inr ⟨t, rfl, ?_⟩)
    have h5 := (h4.same (done' := [(K.primary, { t with correlationId := ts.correlationId })]) (by intro x; simp)).forget
      (acts' := .install { t with correlationId := ts.correlationId } :: acts) (by
        intro a ha
        rcases List.mem_cons.1 ha with rfl | ha
        · simp
        · simp [ha])
    exact ⟨h5.1, h5.2, h5.3, h5.4, h5.5, h5.6, h5.7, h5.8, h5.9, fun x hx => by
        rw [List.mem_singleton.1 hx]
        exact h5.current (K.primary, { t with correlationId := ts.correlationId }) (by simp), fun x hx => by
        rw [List.mem_singleton.1 hx]
        exact h5.reported (K.primary, { t with correlationId := ts.correlationId }) (by simp), h5.12, h5.13, h5.14, h5.15⟩

/-! ### The Primary, when it needs a reboot -/

namespace Spec

/-- The answer that a reboot is needed. -/
def AsksReboot (x : Except Err InstResult) : Prop := ∃ desc, x = .ok ⟨false, .needCompletion, desc⟩

end Spec

theorem save_pending_recorded {env : Env} {db : VersionDb} {e : String} (he : e ≠ "") (t : Target) (ho : VersionDb.Ordered db.rows) :
    RecordedPending (db.saveInstalledVersion env e t .pending) e t := by
  have hreal : db.realSerial e = e := by simp [VersionDb.realSerial, he]
  refine ⟨?_, ?_, ?_⟩
  · rw [VersionDb.save_rows, hreal]
    cases ho' : VersionDb.oldRow db.rows e t with
    | none => exact ⟨VersionDb.freshRow env (VersionDb.nextId db.rows) e t .pending, by simp, rfl, rfl⟩
    | some o =>
      obtain ⟨h1, h2, h3, h4⟩ := VersionDb.oldRow_some ho'
      refine ⟨VersionDb.save1 e t .pending (some o) o, by simp only [List.mem_append, List.mem_map]; exact .inl ⟨o, h1, rfl⟩, ?_, ?_⟩
      all_goals simp [VersionDb.save1, VersionDb.reflag, VersionDb.clear1, h2]
  · intro row hrow hecu hpend
    rw [VersionDb.save_rows, hreal] at hrow
    rcases List.mem_append.1 hrow with h | h
    · obtain ⟨r0, h0, rfl⟩ := List.mem_map.1 h
      rw [VersionDb.save1_ecu] at hecu
      rcases VersionDb.save1_isPending hecu hpend with ⟨-, o, h1, h2⟩ | ⟨h1, -⟩
      · obtain ⟨q1, q2, q3, q4⟩ := VersionDb.oldRow_some h1
        obtain rfl := ho.inj h0 q1 h2
        rw [h1]
        simp [VersionDb.save1, VersionDb.reflag, VersionDb.clear1, q2, q3, q4]
      · cases h1
    · split at h
      · cases h
      · simp only [List.mem_singleton] at h
        subst h
        exact ⟨rfl, rfl, rfl⟩
  · have hid : ∀ row ∈ (db.saveInstalledVersion env e t .pending).rows, row.ecu = e → row.isPending = true →
        (∃ o, VersionDb.oldRow db.rows e t = some o ∧ row = VersionDb.save1 e t .pending (some o) o) ∨
        (VersionDb.oldRow db.rows e t = none ∧ row = VersionDb.freshRow env (VersionDb.nextId db.rows) e t .pending) := by
      intro row hrow hecu hpend
      rw [VersionDb.save_rows, hreal] at hrow
      rcases List.mem_append.1 hrow with h | h
      · obtain ⟨r0, h0, rfl⟩ := List.mem_map.1 h
        rw [VersionDb.save1_ecu] at hecu
        rcases VersionDb.save1_isPending hecu hpend with ⟨-, o, h1, h2⟩ | ⟨h1, -⟩
        · obtain ⟨q1, -⟩ := VersionDb.oldRow_some h1
          obtain rfl := ho.inj h0 q1 h2
          exact .inl ⟨_, h1, by rw [h1]⟩
        · cases h1
      · cases ho' : VersionDb.oldRow db.rows e t with
        | some o => rw [ho'] at h; cases h
        | none =>
          rw [ho'] at h
          exact .inr ⟨rfl, by simpa using h⟩
    intro row hrow row' hrow' he1 hp1 he2 hp2
    rcases hid row hrow he1 hp1 with ⟨o, h1, h2⟩ | ⟨h1, h2⟩ <;> rcases hid row' hrow' he2 hp2 with ⟨o', h3, h4⟩ | ⟨h3, h4⟩
    · rw [h1] at h3
      cases h3
      rw [h2, h4]
    · rw [h1] at h3
      cases h3
    · rw [h1] at h3
      cases h3
    · rw [h2, h4]

/-- Recording that `e` waits for a reboot. -/
theorem Progress.pended (h : Progress P K L ts wait done acts d) (env : Env) {e : String} {t : Target} (he : e ≠ "") (hnew : e ∉ (wait ++ done).map Prod.fst)
    (hk : RowSafe env P t) (desc : String) :
    WillAt 2 d (do
      saveVersion env e t .pending
      inClient (saveEcuResult e ⟨false, .needCompletion, desc⟩)) (fun _ d' => Progress P K L ts ((e, t) :: wait) done acts d') := by
  have hrow : ∃ row, (⟨false, .needCompletion, desc⟩ : InstResult).toRow = .ok row := ⟨_, rfl⟩
  obtain ⟨row, hrow⟩ := hrow
  have hother : ∀ x ∈ wait ++ done, e ≠ x.1 := by
    rintro x hx rfl
    exact hnew (List.mem_map_of_mem hx)
  refine WillAt.bind (n := 1) (k := 1) (Q := fun _ d1 => ∃ k, d1 = { d with cl := { d.cl with
    v := d.cl.v.saveInstalledVersion env e t .pending, w := { d.cl.w with fuel := k } } }) ?_ ?_
  · unfold saveVersion
    exact WillAt.cwrite (fun k => ⟨k, rfl⟩)
  rintro _ _ ⟨k, rfl⟩
  intro hn
  have hw : ∀ d : Dev, inClient (saveEcuResult e ⟨false, .needCompletion, desc⟩) d =
      inClient (cwrite (fun cl => { cl with ecuResults := upsert e row cl.ecuResults })) d := by
    intro d
    rw [inClient_eq, inClient_eq]
    unfold saveEcuResult
    rw [run_bind (m := lift (InstResult.toRow ⟨false, .needCompletion, desc⟩)) (w := d.cl) (by rw [lift_eq, hrow])]
  rw [hw]
  refine WillAt.cwrite (Q := fun _ d' => Progress P K L ts ((e, t) :: wait) done acts d') (fun k => ?_) hn
  refine ⟨h.1, h.2, h.3, h.4, h.5, h.6, ?_, ?_, ?_, ?_, ?_, ?_, h.13, ?_, ?_⟩
  · exact (VersionDb.save_ecus ..).trans h.ecus
  · exact VersionDb.save_ordered _ _ _ h.ordered
  · intro r hr hpend
    change r ∈ (d.cl.v.saveInstalledVersion env e t .pending).rows at hr
    by_cases hre : r.ecu = e
    · simp [hre]
    · have : r ∈ d.cl.v.rows := by
        have hf := save_versionsOf (env := env) (s := r.ecu) t .pending h.ordered he (fun h => hre h.symm)
        have hm : r ∈ (d.cl.v.saveInstalledVersion env e t .pending).rows.filter (fun x => decide (x.ecu = r.ecu)) :=
          List.mem_filter.2 ⟨hr, by simp⟩
        rw [hf] at hm
        exact (List.mem_filter.1 hm).1
      exact List.mem_cons_of_mem _ (h.idle r this hpend)
  · intro x hx
    exact recordedCurrent_congr (save_versionsOf t .pending h.ordered he (hother x (List.mem_append.2 (.inr hx)))) (h.current x hx)
  · intro x hx
    by_cases hxe : x.1 = e
    · exact ⟨row, by show (x.1, row) ∈ upsert _ _ _; rw [mem_upsert_iff, hxe]; exact .inr rfl⟩
    · have hx' : x ∈ wait ++ done := by
        rcases List.mem_cons.1 hx with rfl | hx
        · exact absurd rfl hxe
        · exact hx
      obtain ⟨row', h1⟩ := h.reported x hx'
      exact ⟨row', mem_upsert_iff.2 (.inl ⟨h1, hxe⟩)⟩
  · intro y hy
    rcases mem_upsert_iff.1 hy with ⟨h1, h2⟩ | rfl
    · rcases h.good y h1 with h3 | ⟨h3, h4⟩
      · exact .inl h3
      · exact .inr ⟨by simp [h3], h4⟩
    · exact .inr ⟨by simp, desc, hrow⟩
  · intro x hx
    rcases List.mem_cons.1 hx with rfl | hx
    · exact save_pending_recorded he t h.ordered
    · exact recordedPending_congr (save_versionsOf t .pending h.ordered he (hother x (List.mem_append.2 (.inl hx)))) (h.waiting x hx)
  · exact hk _ _ _ h.legible

theorem packageInstall_waits {env : Env} {t : Target} (hi : ∀ n t, AsksReboot (p.install n t)) (h : Progress P K L ts wait done acts d) (he : K.primary ≠ "")
    (hnew : K.primary ∉ (wait ++ done).map Prod.fst) (hk : RowSafe env P t) :
    WillAt 4 d (packageInstallSetResult env p t) (fun r d' => (∃ desc, r = ⟨false, .needCompletion, desc⟩) ∧
      Progress P K L ts ((K.primary, t) :: wait) done (.install t :: acts) d') := by
  unfold packageInstallSetResult
  refine WillAt.gets ?_
  simp only [id, h.primary]
  refine (WillAt.bind (n := 1) (k := 3) (h.saved env he hnew (by decide) hk) ?_)
  rintro _ d1 ⟨h1, -⟩
  refine (WillAt.bind (n := 1) (k := 2) (h1.act _) (fun _ d2 h2 => WillAt.askBind ?_))
  obtain ⟨desc, hr⟩ := hi d2.n t
  refine WillAt.liftBind (a := ⟨false, .needCompletion, desc⟩) (by rw [hr]; rfl) ?_
  have h21 : (ResultCode.needCompletion).num = 21 := rfl
  simp only [h21, if_true]
  rw [if_neg (by decide)]
  intro hn
  obtain ⟨a, d3, h3, h4, h5⟩ := h2.asked.pended env he hnew hk desc hn
  rw [bind_ok] at h3
  obtain ⟨_, d4, h6, h7⟩ := h3
  refine ⟨⟨false, .needCompletion, desc⟩, d3, ?_, ⟨⟨_, rfl⟩, h4⟩, h5⟩
  rw [run_bind h6]
  rw [run_bind h7]
  rfl

theorem installPrimary_waits {env : Env} {us : List Target} {t : Target} (hi : ∀ n t, AsksReboot (p.install n t)) (h : Progress P K L ts [] [] acts d)
    (hf : us.find? (fun t => t.isForEcu K.primary) = some t) (he : K.primary ≠ "") (hk : ∀ t ∈ us, ∀ cid, RowSafe env P { t with correlationId := cid }) :
    WillAt 5 d (installPrimary env p us) (fun _ d' => Progress P K L ts [(K.primary, { t with correlationId := ts.correlationId })] []
      (.install { t with correlationId := ts.correlationId } :: acts) d') := by
  unfold installPrimary
  refine WillAt.gets ?_
  simp only [id, h.primary, h.dir, hf]
  refine (WillAt.bind (n := 1) (k := 4) (h.act _) (fun _ d1 h1 => ?_))
  refine (WillAt.bind (n := 4) (k := 0) (packageInstall_waits hi h1 he (by simp) (hk t (List.mem_of_find?_eq_some hf) _)) ?_)
  rintro _ d2 ⟨⟨desc, rfl⟩, h2⟩
  have h0 : (ResultCode.needCompletion).num = 21 := by decide
  simp only [h0, if_true]
  refine WillAt.pure (h2.forget ?_)
  intro a ha
  rcases List.mem_cons.1 ha with rfl | ha
  · simp
  · simp [ha]

/-! ### The Secondaries -/

theorem sendFirmware_will {serial : String} {t : Target} (hp : Supports c p dLast iLast) (h : Progress P K L ts wait done acts d) :
    WillAt 2 d (sendFirmware p serial t) (fun r d' => (∃ desc, r = ⟨true, .ok, desc⟩) ∧ Progress P K L ts wait done (.secInstall serial t :: acts) d') := by
  unfold sendFirmware
  refine (WillAt.bind (n := 1) (k := 1) (h.act _) (fun _ d1 h1 => WillAt.askBind ?_))
  obtain ⟨r, hr, hr'⟩ := hp.sendFirmware d1.n serial t
  refine WillAt.liftBind (a := r) (by rw [hr]; rfl) ?_
  simp only [hr, hr', Except.toOption, Option.isSome_some, and_self, if_true]
  refine (WillAt.bind (n := 1) (k := 0) (h1.asked.act _) (fun _ d2 h2 => WillAt.askBind ?_))
  obtain ⟨desc, hr⟩ := hp.secInstall d2.n serial t
  refine WillAt.lift (a := ⟨true, .ok, desc⟩) (by rw [hr]; rfl) ⟨⟨_, rfl⟩, h2.asked.forget ?_⟩
  intro a ha
  rcases List.mem_cons.1 ha with rfl | ha
  · simp
  · simp [ha]

/-- The entries of a list of assignments that are for Secondaries. -/
def forSecondaries (primary : String) (l : List (Target × String × String)) : List (Target × String) :=
  (l.filter (fun x => decide (x.2.1 ≠ primary))).map (fun x => (x.1, x.2.1))

theorem sendAll_will (hp : Supports c p dLast iLast) : ∀ (l : List (Target × String × String)) {d : Dev} {acts : List Action},
    (∀ x ∈ l, x.2.1 = K.primary ∨ ∃ s ∈ K.secondaries, s.1 = x.2.1) → Progress P K L ts wait done acts d →
    WillAt (2 * l.length) d (sendAll p l) (fun r d' => r.map (fun y => (y.1, y.2.1)) = forSecondaries K.primary l ∧
      (∀ y ∈ r, ∃ desc, y.2.2 = ⟨true, .ok, desc⟩) ∧
      Progress P K L ts wait done ((forSecondaries K.primary l).map (fun y => .secInstall y.2 y.1) ++ acts) d')
  | [], d, acts, _, h => WillAt.pure ⟨rfl, by simp, h⟩
  | (t, serial, hw) :: l, d, acts, hk, h => by
    have e : 2 * ((t, serial, hw) :: l).length = 2 + 2 * l.length := by simp; omega
    rw [e]
    have hk' := fun x hx => hk x (List.mem_cons_of_mem _ hx)
    unfold sendAll
    refine WillAt.gets ?_
    simp only [id, h.primary, h.secs]
    by_cases hpr : serial = K.primary
    · have hl : forSecondaries K.primary ((t, serial, hw) :: l) = forSecondaries K.primary l := by
        simp [forSecondaries, hpr]
      rw [if_pos hpr, hl]
      exact (sendAll_will hp l hk' h).more (by omega)
    · have hl : forSecondaries K.primary ((t, serial, hw) :: l) = (t, serial) :: forSecondaries K.primary l := by
        simp [forSecondaries, hpr]
      have ha : K.secondaries.any (fun s => s.1 == serial) = true := by
        rcases hk (t, serial, hw) (by simp) with h1 | ⟨s, h1, h2⟩
        · exact absurd h1 hpr
        · exact List.any_eq_true.2 ⟨s, h1, by simp [h2]⟩
      rw [if_neg hpr, hl]
      simp only [ha, if_true]
      refine WillAt.bind (sendFirmware_will hp h) ?_
      rintro r d1 ⟨hr, h1⟩
      refine WillAt.bind (n := 2 * l.length) (k := 0) (sendAll_will hp l hk' h1) ?_
      rintro l' d2 ⟨h2, h3, h4⟩
      refine WillAt.pure ⟨by simp [h2], ?_, h4.forget ?_⟩
      · intro y hy
        rcases List.mem_cons.1 hy with rfl | hy
        · exact hr
        · exact h3 y hy
      · intro a ha
        simp only [List.map_cons, List.cons_append, List.mem_cons, List.mem_append] at ha ⊢
        rcases ha with ha | ha | ha
        · exact .inr (.inl ha)
        · exact .inl ha
        · exact .inr (.inr ha)

theorem recordAll_will {env : Env} : ∀ (l : List (Target × String × InstResult)) {d : Dev} {done : List (String × Target)},
    (∀ y ∈ l, ∃ desc, y.2.2 = ⟨true, .ok, desc⟩) → (∀ y ∈ l, y.2.1 ≠ "" ∧ y.2.1 ∉ (wait ++ done).map Prod.fst) → (∀ y ∈ l, ∀ cid, RowSafe env P { y.1 with correlationId := cid }) → (l.map (fun y => y.2.1)).Nodup →
    Progress P K L ts wait done acts d →
    WillAt (2 * l.length) d (recordAllResults env l) (fun _ d' => Progress P K L ts wait ((l.map (fun y => (y.2.1, y.1))).reverse ++ done) acts d')
  | [], d, done, _, _, _, _, h => WillAt.pure h
  | (t, serial, r) :: l, d, done, hr, hd, hk, hn, h => by
    have e : 2 * ((t, serial, r) :: l).length = 2 + 2 * l.length := by simp; omega
    rw [e]
    obtain ⟨desc, rfl⟩ := hr (t, serial, r) (by simp)
    obtain ⟨hne, hnew⟩ := hd (t, serial, _) (List.mem_cons_self ..)
    rw [List.map_cons, List.nodup_cons] at hn
    unfold recordAllResults
    refine WillAt.liftBind (a := false) rfl (WillAt.gets ?_)
    simp only [id, h.dir, true_or, if_true]
    refine (WillAt.bind (n := 1) (k := 1 + 2 * l.length) (h.saved env hne hnew (by decide) (hk (t, serial, _) (List.mem_cons_self ..) _)) ?_).more (by omega)
    rintro _ d1 ⟨h1, hc⟩
    refine (WillAt.bind (n := 1) (k := 2 * l.length) (h1.finished (e := serial) (t := t) (hc rfl) desc) (fun _ d2 h2 => ?_))
    refine (WillAt.bind (n := 2 * l.length) (k := 0) (recordAll_will l (fun y hy => hr y (by simp [hy])) ?_ (fun y hy => hk y (by simp [hy])) hn.2 h2) ?_)
    · intro y hy
      obtain ⟨a, b⟩ := hd y (by simp [hy])
      refine ⟨a, ?_⟩
      simp only [List.map_append, List.map_cons, List.mem_append, List.mem_cons, not_or] at b ⊢
      refine ⟨b.1, ?_, b.2⟩
      intro he
      exact hn.1 (List.mem_map.2 ⟨y, hy, he⟩)
    · intro _ d3 h3
      exact WillAt.pure (by simpa using h3)

/-! ### The device's result -/

/-- A result that was stored as a success, read back. -/
def Read (r : InstResult) : Prop := r.success = true ∧ r.code = ⟨0, "OK"⟩

theorem read_row {desc : String} {row : ResultRow} (h : (⟨true, .ok, desc⟩ : InstResult).toRow = .ok row) :
    row.read = .ok ⟨true, ⟨0, "OK"⟩, desc⟩ := by
  have : (⟨true, .ok, desc⟩ : InstResult).toRow = .ok ⟨true, ['"', 'O', 'K', '"', ':', '0'], desc⟩ := by
    have h3 : ResultCode.toRepr .ok = .ok ['"', 'O', 'K', '"', ':', '0'] := by decide +kernel
    unfold InstResult.toRow
    simp only
    rw [h3]
    rfl
  rw [this] at h
  cases h
  have h2 : ResultCode.fromRepr ['"', 'O', 'K', '"', ':', '0'] = .ok ⟨0, "OK"⟩ := by decide +kernel
  unfold ResultRow.read
  simp only
  rw [h2]
  rfl

/-- A result that was stored as one that needs a reboot, read back. -/
def ReadWaits (r : InstResult) : Prop := r.success = false ∧ r.code = ⟨21, "NEED_COMPLETION"⟩

theorem readWaits_row {desc : String} {row : ResultRow} (h : (⟨false, .needCompletion, desc⟩ : InstResult).toRow = .ok row) :
    row.read = .ok ⟨false, ⟨21, "NEED_COMPLETION"⟩, desc⟩ := by
  have h3 : ResultCode.toRepr .needCompletion = .ok ("\"NEED_COMPLETION\":21".toList) := by decide +kernel
  have : (⟨false, .needCompletion, desc⟩ : InstResult).toRow = .ok ⟨false, "\"NEED_COMPLETION\":21".toList, desc⟩ := by
    unfold InstResult.toRow
    simp only
    rw [h3]
    rfl
  rw [this] at h
  cases h
  have h2 : ResultCode.fromRepr "\"NEED_COMPLETION\":21".toList = .ok ⟨21, "NEED_COMPLETION"⟩ := by decide +kernel
  unfold ResultRow.read
  simp only
  rw [h2]
  rfl

theorem readResults_will {A B : String → Prop} : ∀ (l : List (String × ResultRow)),
    (∀ y ∈ l, mkEcuSerial y.1 = .ok y.1 ∧ ((A y.1 ∧ ∃ desc, (⟨true, .ok, desc⟩ : InstResult).toRow = .ok y.2) ∨
      (B y.1 ∧ ∃ desc, (⟨false, .needCompletion, desc⟩ : InstResult).toRow = .ok y.2))) →
    ∃ out, readResults l = .ok out ∧ out.map Prod.fst = l.map Prod.fst ∧ ∀ y ∈ out, (A y.1 ∧ Read y.2) ∨ (B y.1 ∧ ReadWaits y.2)
  | [], _ => ⟨[], rfl, rfl, by simp⟩
  | (s, row) :: l, h => by
    obtain ⟨h1, h2⟩ := h (s, row) (by simp)
    obtain ⟨out, h3, h4, h5⟩ := readResults_will l (fun y hy => h y (by simp [hy]))
    have hr : ∃ r, row.read = .ok r ∧ ((A s ∧ Read r) ∨ (B s ∧ ReadWaits r)) := by
      rcases h2 with ⟨ha, desc, h2⟩ | ⟨hb, desc, h2⟩
      · exact ⟨_, read_row h2, .inl ⟨ha, rfl, rfl⟩⟩
      · exact ⟨_, readWaits_row h2, .inr ⟨hb, rfl, rfl⟩⟩
    obtain ⟨r, hr, hr'⟩ := hr
    refine ⟨(s, r) :: out, ?_, by simp [h4], ?_⟩
    · unfold readResults
      rw [hr]
      show (mkEcuSerial s >>= _) = _
      rw [h1]
      show (readResults l >>= _) = _
      rw [h3]
      rfl
    · intro y hy
      rcases List.mem_cons.1 hy with rfl | hy
      · exact hr'
      · exact h5 y hy

theorem mem_joinEcus {α : Type} {ecus : List EcuRow} {l : List (String × α)} {y : String × α} (h : y ∈ joinEcus ecus l) :
    (∃ e ∈ ecus, e.serial = y.1) ∧ y ∈ l := by
  unfold joinEcus at h
  obtain ⟨e, he, h1⟩ := List.mem_filterMap.1 h
  cases hl : l.lookup e.serial with
  | none => rw [hl] at h1; cases h1
  | some a =>
    rw [hl] at h1
    cases h1
    refine ⟨⟨e, he, rfl⟩, ?_⟩
    clear h he
    induction l with
    | nil => cases hl
    | cons x l ih =>
      obtain ⟨k, b⟩ := x
      rcases lookup_cons_some hl with ⟨h1, h2⟩ | h1
      · subst h2; rw [h1]; simp
      · exact List.mem_cons_of_mem _ (ih h1)

theorem joinEcus_some {α : Type} {ecus : List EcuRow} {l : List (String × α)} {e : EcuRow} (he : e ∈ ecus) {a : α} (h : (e.serial, a) ∈ l) :
    e.serial ∈ (joinEcus ecus l).map Prod.fst := by
  have : ∃ b, l.lookup e.serial = some b := by
    clear he
    induction l with
    | nil => cases h
    | cons x l ih =>
      obtain ⟨k, b⟩ := x
      by_cases hk : e.serial = k
      · exact ⟨b, by simp [List.lookup, hk]⟩
      · rcases List.mem_cons.1 h with h | h
        · cases h; exact absurd rfl hk
        · obtain ⟨b', hb'⟩ := ih h
          exact ⟨b', by simp [List.lookup, beq_eq_false_iff_ne.2 hk, hb']⟩
  obtain ⟨b, hb⟩ := this
  refine List.mem_map.2 ⟨(e.serial, b), ?_, rfl⟩
  unfold joinEcus
  exact List.mem_filterMap.2 ⟨e, he, by rw [hb]; rfl⟩

/-- What is known about the results. -/
theorem Progress.resultsOf (h : Progress P K L ts wait done acts d) (hser : ∀ e ∈ K.v.ecus, mkEcuSerial e.serial = .ok e.serial)
    (hreg : ∀ x ∈ wait ++ done, ∃ e ∈ K.v.ecus, e.serial = x.1) (hne : wait ++ done ≠ []) :
    ∃ items, d.cl.loadEcuResults = .ok (some items) ∧
      (∀ y ∈ items, (y.1 ∈ done.map Prod.fst ∧ Read y.2) ∨ (y.1 ∈ wait.map Prod.fst ∧ ReadWaits y.2)) ∧
      ∀ x ∈ wait ++ done, x.1 ∈ items.map Prod.fst := by
  obtain ⟨out, h1, h2, h3⟩ := readResults_will (A := fun e => e ∈ done.map Prod.fst) (B := fun e => e ∈ wait.map Prod.fst)
    (joinEcus d.cl.v.ecus d.cl.ecuResults) (fun y hy => by
    obtain ⟨⟨e, he, hs⟩, hm⟩ := mem_joinEcus hy
    rw [h.ecus] at he
    exact ⟨by rw [← hs]; exact hser e he, h.good y hm⟩)
  have hall : ∀ x ∈ wait ++ done, x.1 ∈ out.map Prod.fst := by
    intro x hx
    obtain ⟨e, he, hs⟩ := hreg x hx
    obtain ⟨row, hr⟩ := h.reported x hx
    rw [h2, ← hs]
    exact joinEcus_some (by rw [h.ecus]; exact he) (by rw [hs]; exact hr)
  refine ⟨out, ?_, h3, hall⟩
  unfold Client.loadEcuResults
  rw [h1]
  cases hd : wait ++ done with
  | nil => exact absurd hd hne
  | cons x l =>
    have := hall x (by rw [hd]; simp)
    cases ho : out with
    | nil => rw [ho] at this; cases this
    | cons a b => rfl

/-- What is known about the results when all of `done` is finished and nothing waits. -/
theorem Progress.results (h : Progress P K L ts [] done acts d) (hser : ∀ e ∈ K.v.ecus, mkEcuSerial e.serial = .ok e.serial)
    (hreg : ∀ x ∈ done, ∃ e ∈ K.v.ecus, e.serial = x.1) (hne : done ≠ []) :
    ∃ items, d.cl.loadEcuResults = .ok (some items) ∧ (∀ y ∈ items, Read y.2 ∧ y.1 ∈ done.map Prod.fst) ∧
      ∀ x ∈ done, x.1 ∈ items.map Prod.fst := by
  obtain ⟨items, h1, h2, h3⟩ := h.resultsOf hser hreg hne
  refine ⟨items, h1, fun y hy => ?_, h3⟩
  rcases h2 y hy with ⟨a, b⟩ | ⟨a, -⟩
  · exact ⟨b, a⟩
  · cases a

theorem aggregate_will {cl : Client} {a : Aggregate} : ∀ (l : List (String × InstResult)), (∀ y ∈ l, Read y.2 ∧ ∃ hw, cl.getEcuHwId y.1 = some hw) →
    aggregateLoop cl l a = .ok a
  | [], _ => rfl
  | (s, r) :: l, h => by
    obtain ⟨⟨h1, h2⟩, hw, h3⟩ := h (s, r) (by simp)
    unfold aggregateLoop
    rw [h3]
    simp only
    have hn : r.needCompletion = .ok false := by
      unfold InstResult.needCompletion ResultCode.same
      rw [h2]
      rfl
    rw [hn]
    have h1' : r.success = true := h1
    simp only [bind, Except.bind, h1', Bool.false_eq_true, if_false, if_true]
    exact aggregate_will l (fun y hy => h y (by simp [hy]))

/-- The device's result for a complete success. -/
def installedResult : InstResult := .ofCode .ok "Device has been successfully installed"

theorem Progress.device (h : Progress P K L ts [] done acts d) (hser : ∀ e ∈ K.v.ecus, mkEcuSerial e.serial = .ok e.serial)
    (hreg : ∀ x ∈ done, (∃ e ∈ K.v.ecus, e.serial = x.1) ∧ ∃ hw, HasEcu K x.1 hw) (hne : done ≠ []) :
    d.cl.computeDeviceResult = .ok (installedResult, "Installation succesful") := by
  obtain ⟨items, h1, h2, -⟩ := h.results hser (fun x hx => (hreg x hx).1) hne
  unfold Client.computeDeviceResult
  rw [h1]
  show (aggregateLoop d.cl items ⟨installedResult, "Installation succesful", ""⟩ >>= _) = _
  rw [aggregate_will items (fun y hy => by
    obtain ⟨h3, h4⟩ := h2 y hy
    refine ⟨h3, ?_⟩
    obtain ⟨x, hx, he⟩ := List.mem_map.1 h4
    obtain ⟨hw, hh⟩ := (hreg x hx).2
    have := hh.run
    rw [← he]
    refine ⟨hw, ?_⟩
    unfold Client.getEcuHwId at this ⊢
    rw [h.primary, h.hw, h.secs]
    exact this)]
  rfl

theorem aggregate_waits {cl : Client} : ∀ (l : List (String × InstResult)) (a : Aggregate),
    (∀ y ∈ l, (Read y.2 ∨ ReadWaits y.2) ∧ ∃ hw, cl.getEcuHwId y.1 = some hw) → (∃ y ∈ l, ReadWaits y.2) →
    ∃ s raw, aggregateLoop cl l a = .ok { a with result := .ofCode .needCompletion s, raw := raw }
  | [], _, _, ⟨_, h, _⟩ => by cases h
  | (s, r) :: l, a, h, he => by
    obtain ⟨h1, hw, h3⟩ := h (s, r) (by simp)
    unfold aggregateLoop
    rw [h3]
    simp only
    rcases h1 with ⟨h1, h2⟩ | ⟨h1, h2⟩
    · have hn : r.needCompletion = .ok false := by
        unfold InstResult.needCompletion ResultCode.same
        rw [h2]
        rfl
      rw [hn]
      have h1' : r.success = true := h1
      simp only [bind, Except.bind, h1', Bool.false_eq_true, if_false, if_true]
      refine aggregate_waits l a (fun y hy => h y (by simp [hy])) ?_
      obtain ⟨y, hy, hw⟩ := he
      rcases List.mem_cons.1 hy with rfl | hy
      · have := hw.1
        change r.success = false at this
        rw [h1'] at this
        cases this
      · exact ⟨y, hy, hw⟩
    · have hn : r.needCompletion = .ok true := by
        unfold InstResult.needCompletion
        have h2' : r.code = ⟨21, "NEED_COMPLETION"⟩ := h2
        rw [h2']
        decide +kernel
      rw [hn]
      simp only [bind, Except.bind, if_true]
      exact ⟨_, _, rfl⟩

theorem Progress.deviceWaits (h : Progress P K L ts wait done acts d) (hser : ∀ e ∈ K.v.ecus, mkEcuSerial e.serial = .ok e.serial)
    (hreg : ∀ x ∈ wait ++ done, (∃ e ∈ K.v.ecus, e.serial = x.1) ∧ ∃ hw, HasEcu K x.1 hw) (hne : wait ≠ [])
    (hdis : ∀ x ∈ wait, x.1 ∉ done.map Prod.fst) :
    ∃ s raw, d.cl.computeDeviceResult = .ok (.ofCode .needCompletion s, raw) := by
  obtain ⟨items, h1, h2, h3⟩ := h.resultsOf hser (fun x hx => (hreg x hx).1) (by
    intro h
    exact hne (List.append_eq_nil_iff.1 h).1)
  unfold Client.computeDeviceResult
  rw [h1]
  show ∃ s raw, (aggregateLoop d.cl items ⟨installedResult, "Installation succesful", ""⟩ >>= _) = _
  obtain ⟨s, raw, ha⟩ := aggregate_waits items ⟨installedResult, "Installation succesful", ""⟩ (fun y hy => by
    have hm : y.1 ∈ (wait ++ done).map Prod.fst := by
      rw [List.map_append]
      rcases h2 y hy with ⟨a, -⟩ | ⟨a, -⟩
      · exact List.mem_append.2 (.inr a)
      · exact List.mem_append.2 (.inl a)
    refine ⟨(h2 y hy).imp (·.2) (·.2), ?_⟩
    obtain ⟨x, hx, he⟩ := List.mem_map.1 hm
    obtain ⟨hw, hh⟩ := (hreg x hx).2
    have := hh.run
    rw [← he]
    refine ⟨hw, ?_⟩
    unfold Client.getEcuHwId at this ⊢
    rw [h.primary, h.hw, h.secs]
    exact this) (by
    cases hw : wait with
    | nil => exact absurd hw hne
    | cons x l =>
      obtain ⟨y, hy, he⟩ := List.mem_map.1 (h3 x (by rw [hw]; simp))
      refine ⟨y, hy, ?_⟩
      rcases h2 y hy with ⟨a, -⟩ | ⟨-, b⟩
      · rw [he] at a
        exact absurd a (hdis x (by rw [hw]; simp))
      · exact b)
  rw [ha]
  exact ⟨s, raw, rfl⟩

/-! ### Manifests -/

/-- Only interactions, cache and fuel differ. -/
structure Unmoved (d d' : Dev) : Prop where
  log : d'.log = d.log
  cl : d'.cl = { d.cl with w := { d.cl.w with fuel := d'.cl.w.fuel } }

theorem Unmoved.refl (d : Dev) : Unmoved d d := ⟨rfl, rfl⟩

theorem Unmoved.trans {a b e : Dev} (h1 : Unmoved a b) (h2 : Unmoved b e) : Unmoved a e :=
  ⟨h2.log.trans h1.log, by rw [h2.cl, h1.cl]⟩

theorem answers_default {α : Type} {x : Except Err α} (h : Answers x) (a : α) : ∃ b, orDefault a x = .ok b := by
  unfold orDefault
  cases x with
  | ok b => exact ⟨b, rfl⟩
  | error e => exact ⟨a, by simp [h e rfl]⟩

theorem isMember_answers (j : Json) (k : String) : Answers (j.isMember k) := by
  intro e h
  unfold Json.isMember at h
  split at h <;> cases h
  rfl

theorem verifies_answers {env : Env} {j : Json} {k : Except Err PublicKey} (hk : Answers k) : Answers (do manifestVerifies env j (← k)) := by
  cases k with
  | error e' => intro e h; cases h; exact hk _ rfl
  | ok k =>
    show Answers (manifestVerifies env j k)
    intro e h
    unfold manifestVerifies at h
    cases h1 : j.isMember "signatures" with
    | error e1 => rw [h1] at h; cases h; exact isMember_answers _ _ _ h1
    | ok a =>
      cases h2 : j.isMember "signed" with
      | error e1 => rw [h1, h2] at h; cases h; exact isMember_answers _ _ _ h2
      | ok b =>
        rw [h1, h2] at h
        change (if (!(a && b)) = true then .ok false else .ok (k.verifySignature env (manifestSignature j) (manifestBody env j)) : Except Err Bool) = .error e at h
        split at h <;> cases h

theorem obtainManifest_will {env : Env} {serial : String} (hp : Hears p) :
    WillAt 0 d (obtainManifest env p serial) (fun _ d' => Unmoved d d') := by
  unfold obtainManifest
  refine WillAt.askBind ?_
  obtain ⟨j, hj⟩ := answers_default (hp.secManifest d.n serial) Json.null
  refine WillAt.liftBind hj ?_
  split
  · refine WillAt.gets ?_
    simp only [id]
    split
    · split
      · exact WillAt.pure ⟨rfl, rfl⟩
      · exact WillAt.pure ⟨rfl, rfl⟩
    · exact WillAt.pure ⟨rfl, rfl⟩
  · exact WillAt.pure ⟨rfl, rfl⟩

theorem storeCached_will {serial text : String} : WillAt 1 d (storeCached serial text) (fun _ d' => Unmoved d d') := by
  unfold storeCached
  refine WillAt.bind (n := 1) (k := 0) (WillAt.cwrite (Q := fun _ d' => Unmoved d d') (fun k => ⟨rfl, rfl⟩)) (fun _ d1 h1 => ?_)
  exact fun _ => ⟨(), _, modify_eq, ⟨h1.log, h1.cl⟩, Nat.le_refl _⟩

theorem secondaryManifests_will {env : Env} (hp : Hears p) : ∀ (l : List (String × String)) {d : Dev},
    WillAt l.length d (secondaryManifests env p l) (fun _ d' => Unmoved d d')
  | [], d => WillAt.pure (.refl d)
  | (serial, hw) :: l, d => by
    unfold secondaryManifests
    refine (WillAt.bind (n := 0) (k := l.length + 1) (obtainManifest_will hp) ?_).more (by simp)
    rintro (_ | ⟨j, cached⟩) d1 h1
    · exact (secondaryManifests_will hp l).weaken (by omega) (fun _ _ h => h1.trans h)
    · simp only
      refine WillAt.askBind ?_
      obtain ⟨good, hg⟩ := answers_default (verifies_answers (env := env) (j := j) (hp.secKey d1.n serial)) false
      refine WillAt.liftBind hg ?_
      have h2 : Unmoved d { d1 with n := d1.n + 1 } := ⟨h1.log, h1.cl⟩
      cases good with
      | false => exact (secondaryManifests_will hp l).weaken (by omega) (fun _ _ h => h2.trans h)
      | true =>
        simp only [if_true]
        have tail : ∀ d3, Unmoved d d3 → WillAt l.length d3 (do
            let l ← secondaryManifests env p l
            pure ((serial, j) :: l)) (fun _ d' => Unmoved d d') := fun d3 h3 =>
          WillAt.bind (n := l.length) (k := 0) (secondaryManifests_will hp l) (fun _ d4 h4 => WillAt.pure (h3.trans h4))
        cases cached
        · exact (WillAt.bind (n := 1) (k := l.length) storeCached_will (fun _ d3 h3 => tail d3 (h2.trans h3))).more (by omega)
        · exact (tail _ h2).more (by omega)

theorem dropTargets_run {w : World} {k : Nat} (hf : w.fuel = k + 1) : ∃ dir, Director.dropTargets w =
    (.ok (), { w with db := w.db.clearNonRoot .director, dir := dir, fuel := k }) := by
  let w1 : World := { w with db := w.db.clearNonRoot .director, fuel := k }
  have hw : write (fun db => db.clearNonRoot .director) w = (.ok (), w1) := by
    unfold write
    simp only [hf]
    rfl
  refine ⟨{ root := { policy := .acceptAll }, targets := {}, latest := {} }, ?_⟩
  unfold Director.dropTargets catchUpt
  rw [run_bind hw]
  unfold Director.resetMeta
  rw [modify_eq]

/-- What assembling a report may do: drop the Director's Targets. -/
structure Reporting (d d' : Dev) : Prop where
  log : d'.log = d.log
  cl : d'.cl = { d.cl with w := d'.cl.w }
  db : d'.cl.w.db = d.cl.w.db ∨ d'.cl.w.db = d.cl.w.db.clearNonRoot .director

theorem needCompletion_total (r : InstResult) : ∃ b, r.needCompletion = .ok b := by
  unfold InstResult.needCompletion ResultCode.same
  by_cases h : r.code.num = ResultCode.needCompletion.num
  · rw [if_neg (by simpa using h)]
    have h1 : ∃ s, r.code.toText = .ok s := by
      unfold ResultCode.toText
      split
      · exact ⟨_, rfl⟩
      · rw [h]; exact ⟨_, rfl⟩
    have h2 : ResultCode.needCompletion.toText = .ok "NEED_COMPLETION" := by decide +kernel
    obtain ⟨s, hs⟩ := h1
    rw [hs, h2]
    exact ⟨_, rfl⟩
  · rw [if_pos h]; exact ⟨_, rfl⟩

theorem assembleReport_will {dev : Option (InstResult × String × String)} {items : Option (List (String × InstResult))}
    (hdev : d.cl.loadDeviceResult = .ok dev) (hitems : d.cl.loadEcuResults = .ok items) :
    WillAt 1 d assembleReport (fun r d' => Reporting d d' ∧ r = dev.map (fun x => (x.1, x.2.1, x.2.2, items.getD []))) := by
  unfold assembleReport
  refine WillAt.gets ?_
  simp only [id]
  refine WillAt.liftBind hdev ?_
  cases dev with
  | none => exact (WillAt.pure ⟨⟨rfl, rfl, .inl rfl⟩, rfl⟩).more (by omega)
  | some x =>
    obtain ⟨r, raw, cid⟩ := x
    simp only
    have hnc : ∃ b, (if r.success = true then .ok true else r.needCompletion : Except Err Bool) = .ok b := by
      split
      · exact ⟨_, rfl⟩
      · exact needCompletion_total r
    obtain ⟨b, hb⟩ := hnc
    refine WillAt.liftBind hb ?_
    have tail : ∀ d1, Reporting d d1 → WillAt 0 d1 (do
        let d ← gets id
        let items ← lift d.cl.loadEcuResults
        pure (some (r, raw, cid, items.getD []))) (fun x d' => Reporting d d' ∧ x = some (r, raw, cid, items.getD [])) := by
      intro d1 h2
      refine WillAt.gets (WillAt.liftBind (a := items) ?_ (WillAt.pure ⟨h2, rfl⟩))
      have : d1.cl.loadEcuResults = d.cl.loadEcuResults := by
        rw [h2.cl]; rfl
      rw [id, this, hitems]
    cases b
    · have h1 : WillAt 1 d (inClient (inWorld Director.dropTargets)) (fun _ d' => Reporting d d') := by
        intro hn
        obtain ⟨k, hk⟩ : ∃ k, d.cl.w.fuel = k + 1 := ⟨d.cl.w.fuel - 1, by omega⟩
        obtain ⟨dir, hd⟩ := dropTargets_run hk
        exact ⟨(), _, inClient_ok.2 ⟨_, inWorld_run hd, rfl⟩, ⟨rfl, rfl, .inr rfl⟩, by show _ ≤ k + 1; omega⟩
      exact WillAt.bind (n := 1) (k := 0) h1 (fun _ d1 h2 => tail d1 h2)
    · exact (tail d ⟨rfl, rfl, .inl rfl⟩).more (by omega)

theorem nextCounter_will (hc : ∀ x ∈ d.cl.counters, x.2 < int64Max) :
    WillAt 1 d nextCounter (fun _ d' => d'.log = d.log ∧ d'.cl = { d.cl with w := { d.cl.w with fuel := d'.cl.w.fuel }, counters := d'.cl.counters } ∧
      ∀ x ∈ d'.cl.counters, ∃ y ∈ d.cl.counters, x.2 ≤ y.2 + 1) := by
  unfold nextCounter
  refine WillAt.gets ?_
  simp only [id]
  cases hl : d.cl.loadCounters with
  | nil => exact (WillAt.pure ⟨rfl, rfl, fun x hx => ⟨x, hx, by omega⟩⟩).more (by omega)
  | cons a l =>
    obtain ⟨serial, k⟩ := a
    simp only
    have hm : (serial, k) ∈ d.cl.counters := (mem_joinEcus (by show _ ∈ d.cl.loadCounters; rw [hl]; simp)).2
    have hk : k < int64Max := hc _ hm
    have ht : WillAt 0 d (throwWhen (k == int64Max) (.ub "signed overflow")) (fun _ d' => d' = d) := fun _ =>
      ⟨(), d, throwWhen_run (by simp; omega), rfl, by omega⟩
    refine (WillAt.bind (n := 0) (k := 1) ht (fun _ d1 h1 => ?_)).more (by omega)
    subst h1
    refine WillAt.bind (n := 1) (k := 0) (WillAt.cwrite (Q := fun _ d' => d'.log = d1.log ∧
      d'.cl = { d1.cl with w := { d1.cl.w with fuel := d'.cl.w.fuel }, counters := d'.cl.counters } ∧
      ∀ x ∈ d'.cl.counters, ∃ y ∈ d1.cl.counters, x.2 ≤ y.2 + 1) (fun k' => ⟨rfl, rfl, fun x hx => ?_⟩)) (fun _ d2 h2 => WillAt.pure h2)
    rcases mem_upsert_iff.1 hx with ⟨h1, -⟩ | rfl
    · exact ⟨x, h1, by omega⟩
    · exact ⟨_, hm, by simp⟩

/-- After a manifest has been sent. -/
structure Sent (d d' : Dev) (rep : Option (InstResult × String × String × List (String × InstResult))) : Prop where
  cl : d'.cl = { d.cl with w := d'.cl.w, counters := d'.cl.counters, devResult := none, ecuResults := [] }
  db : d'.cl.w.db = d.cl.w.db ∨ d'.cl.w.db = d.cl.w.db.clearNonRoot .director
  counters : ∀ x ∈ d'.cl.counters, ∃ y ∈ d.cl.counters, x.2 ≤ y.2 + 1
  log : ∃ m k, d'.log = d.log ++ [.signed d.cl.primary k] ++ [.sent m true] ∧ m.report = rep

theorem putManifest_will {env : Env} (hp : Hears p) {dev : Option (InstResult × String × String)}
    {items : Option (List (String × InstResult))} (hpend : d.cl.hasPendingUpdates = false) (hc : ∀ x ∈ d.cl.counters, x.2 < int64Max)
    (hdev : d.cl.loadDeviceResult = .ok dev) (hitems : d.cl.loadEcuResults = .ok items) :
    WillAt (d.cl.secondaries.length + 5) d (putManifestSimple env p) (fun _ d' =>
      Sent d d' (dev.map (fun x => (x.1, x.2.1, x.2.2, items.getD [])))) := by
  unfold putManifestSimple
  refine WillAt.gets ?_
  simp only [id, hpend, Bool.false_eq_true, if_false]
  have hm : WillAt (d.cl.secondaries.length + 3) d (assembleManifest env p) (fun m d' =>
      d'.cl = { d.cl with w := d'.cl.w, counters := d'.cl.counters } ∧
      (d'.cl.w.db = d.cl.w.db ∨ d'.cl.w.db = d.cl.w.db.clearNonRoot .director) ∧ (∀ x ∈ d'.cl.counters, ∃ y ∈ d.cl.counters, x.2 ≤ y.2 + 1) ∧
      (∃ k, d'.log = d.log ++ [.signed d.cl.primary k]) ∧ m.report = dev.map (fun x => (x.1, x.2.1, x.2.2, items.getD []))) := by
    unfold assembleManifest
    refine WillAt.gets ?_
    simp only [id]
    refine (WillAt.bind (n := 1) (k := d.cl.secondaries.length + 2) (nextCounter_will hc) ?_).more (by omega)
    rintro k d1 ⟨h1, h2, h3⟩
    refine (WillAt.bind (n := 1) (k := d.cl.secondaries.length + 1) (WillAt.act (Q := fun _ d' => d'.log = d.log ++ [.signed d.cl.primary k] ∧
      d'.cl = { d.cl with w := { d.cl.w with fuel := d'.cl.w.fuel }, counters := d1.cl.counters }) (fun k' => ⟨by rw [← h1], ?_⟩)) ?_).more (by omega)
    · show ({ d1.cl with w := { d1.cl.w with fuel := k' } } : Client) = _
      rw [h2]
    · rintro _ d2 ⟨h4, h5⟩
      refine WillAt.bind (n := d.cl.secondaries.length) (k := 1) (secondaryManifests_will hp _) (fun _ d3 h6 => ?_)
      have h7 : d3.cl = { d.cl with w := { d.cl.w with fuel := d3.cl.w.fuel }, counters := d1.cl.counters } := by rw [h6.cl, h5]
      refine WillAt.bind (n := 1) (k := 0) (assembleReport_will (dev := dev) (items := items) ?_ ?_) ?_
      · rw [← hdev, h7]; rfl
      · rw [← hitems, h7]; rfl
      · rintro r d4 ⟨h8, rfl⟩
        refine WillAt.pure ⟨?_, ?_, ?_, ⟨k, ?_⟩, rfl⟩
        · rw [h8.cl, h7]
        · have := h8.db
          rw [h7] at this
          exact this
        · have : d4.cl.counters = d1.cl.counters := by rw [h8.cl, h7]
          rw [this]
          exact h3
        · rw [h8.log, h6.log, h4]
  refine (WillAt.bind (n := d.cl.secondaries.length + 3) (k := 2) hm ?_).more (by omega)
  rintro m d1 ⟨h1, h2, h3, ⟨k, h4⟩, h5⟩
  refine WillAt.askBind ?_
  simp only [hp.putManifest]
  refine WillAt.bind (n := 1) (k := 1) (WillAt.act (Q := fun _ d' => d'.log = d.log ++ [.signed d.cl.primary k] ++ [.sent m true] ∧
    d'.cl = { d1.cl with w := { d1.cl.w with fuel := d'.cl.w.fuel } }) (fun k' => ⟨by rw [← h4], rfl⟩)) ?_
  rintro _ d2 ⟨h6, h7⟩
  simp only [if_true]
  refine WillAt.bind (n := 1) (k := 0) (WillAt.cwrite (f := fun cl => { cl with devResult := none, ecuResults := [] })
    (Q := fun _ d' => Sent d d' (dev.map (fun x => (x.1, x.2.1, x.2.2, items.getD [])))) (fun k' => ?_)) (fun _ d3 h8 => WillAt.pure h8)
  refine ⟨?_, ?_, ?_, ⟨m, k, h6, h5⟩⟩
  · show ({ d2.cl with devResult := none, ecuResults := [], w := { d2.cl.w with fuel := k' } } : Client) = _
    rw [h7, h1]
  · show d2.cl.w.db = _ ∨ d2.cl.w.db = _
    rw [h7]
    exact h2
  · show ∀ x ∈ d2.cl.counters, _
    rw [h7]
    exact h3

end Installing

end Aktualizr
