import Verif.Props.C59

/-!
# C60 An update of the Primary that waits for a reboot
-/

namespace Aktualizr

open M Spec

namespace Spec

/-- An update of ECU `s` is recorded as pending. -/
def RebootPending (s : String) (d : Dev) : Prop := ∃ row ∈ d.cl.v.rows, row.ecu = s ∧ row.isPending = true

/-- What is recorded about the versions of ECU `s`. -/
def versionsOf (s : String) (d : Dev) : List VersionRow := d.cl.v.rows.filter (fun r => r.ecu = s)

end Spec

/-! ### Rows are ordered by id -/

/-- Row ids stay ordered. -/
def KeepsOrder (a b : Client) : Prop := VersionDb.Ordered a.v.rows → VersionDb.Ordered b.v.rows

theorem keepsOrder_cl : ClPre KeepsOrder := ⟨⟨fun _ h => h, fun _ _ _ h1 h2 h => h2 (h1 h)⟩, fun _ _ h => h⟩

def KeepsOrderD (a b : Dev) : Prop := KeepsOrder a.cl b.cl

theorem keepsOrder_frame : DevFrame KeepsOrder (fun _ => True) KeepsOrderD where
  cl := keepsOrder_cl
  versions := fun _ _ _ _ _ h => VersionDb.save_ordered _ _ _ h
  ecuResult := fun _ _ _ h => h
  devResult := fun _ _ h => h
  pre := ⟨fun _ h => h, fun _ _ _ h1 h2 h => h2 (h1 h)⟩
  client := fun _ _ h => h
  log := fun _ _ _ h => h
  asked := fun _ _ h => h
  cache := fun _ _ h => h

namespace KeepsOrder

theorem putManifestSimple (env : Env) (p : Peers) : Preserves KeepsOrderD (putManifestSimple env p) := by
  have h := keepsOrder_frame
  unfold Aktualizr.putManifestSimple assembleManifest nextCounter clearInstallationResults
  wpres h.pre
  all_goals first
    | exact h.ask _
    | exact h.act trivial
    | exact h.secondaryManifests _ _ _
    | exact h.assembleReport
    | exact h.inClient (h.cl.cwrite (fun _ h => h))
    | exact h.inWorld _

theorem finalizeAfterReboot (env : Env) (p : Peers) : Preserves KeepsOrderD (finalizeAfterReboot env p) := by
  have h := keepsOrder_frame
  unfold Aktualizr.finalizeAfterReboot
  wpres h.pre
  all_goals first
    | exact h.act trivial
    | exact h.ask _
    | exact h.saveEcuResult _ _
    | exact h.saveVersion _ _ _ _
    | exact h.storeDeviceResult _ _ _
    | exact h.inWorld _
    | exact putManifestSimple _ _

theorem fetchMeta (c : Ctx) (p : Peers) : Preserves KeepsOrderD (fetchMeta c p) := by
  have h := keepsOrder_frame
  unfold Aktualizr.fetchMeta
  wpres h.pre
  · exact h.checkPending _ _
  · exact putManifestSimple _ _
  · exact h.inClient (h.cl.checkUpdates h.devResult _)
  · exact putManifestSimple _ _
  · exact h.inClient (h.cl.checkUpdates h.devResult _)

theorem startUp (env : Env) (p : Peers) (cfg : EcuConfig) (ok : Bool) : Preserves KeepsOrderD (startUp env p cfg ok) := by
  have h := keepsOrder_frame
  have hs : ∀ (cl : Client) l, KeepsOrder cl { cl with v := cl.v.storeEcuSerials l } := by
    intro cl l ho
    show VersionDb.Ordered (cl.v.storeEcuSerials l).rows
    unfold VersionDb.storeEcuSerials
    split
    · exact ho
    · split
      · exact ho.map (fun r => by split <;> rfl)
      · exact ho
  have hi : Preserves KeepsOrder (initEcus cfg ok) := by
    unfold initEcus initReportCounter
    wpres h.cl.pre
    all_goals first
      | exact h.cl.cwrite (fun cl => hs cl _)
      | exact h.cl.cwrite (fun _ h => h)
  unfold Aktualizr.startUp
  wpres h.pre
  all_goals first
    | exact h.inClient (.modify (fun _ h => h))
    | exact h.inClient hi
    | exact fun h => h
    | exact finalizeAfterReboot _ _

theorem devCall (c : Ctx) (p : Peers) (call : DevCall) : Preserves KeepsOrderD (call.run c p) := by
  have h := keepsOrder_frame
  cases call with
  | init cfg ok => exact startUp _ _ _ _
  | install ts => exact .bind h.pre (h.uptaneInstall (fun _ _ _ => trivial) _ _ _) (fun _ => .pure h.pre)
  | putManifest => exact .bind h.pre (putManifestSimple _ _) (fun _ => .pure h.pre)
  | fetchMeta => exact .bind h.pre (fetchMeta _ _) (fun _ => .pure h.pre)
  | checkUpdates => exact .bind h.pre (h.inClient (h.cl.checkUpdates h.devResult _)) (fun _ => .pure h.pre)
  | checkPending => exact h.checkPending _ _
  | storeFailure r => exact h.inClient (h.storeInstallationFailure _)
  | setRaw raw => exact h.inClient (h.cl.cwrite (fun _ h => h))

theorem uptaneCycle (c : Ctx) (p : Peers) (f : Fetched) (force : Bool) : Preserves KeepsOrderD (uptaneCycle c p f force) := by
  have h := keepsOrder_frame
  have hd : ∀ ts, Preserves KeepsOrderD (downloadImages c f ts) := by
    intro ts d
    have := downloadImages_v c f ts d
    intro ho
    show VersionDb.Ordered (downloadImages c f ts d).2.cl.v.rows
    rw [this]; exact ho
  unfold Aktualizr.uptaneCycle cycleDownload cycleInstall cycleEnd completionRequired
  wpres h.pre
  all_goals first
    | exact fetchMeta _ _
    | exact hd _
    | exact h.uptaneInstall (fun _ _ _ => trivial) _ _ _
    | exact putManifestSimple _ _

end KeepsOrder

/-- Row ids are ordered throughout a life. -/
theorem live_ordered (env : Env) : ∀ (es : List LifeEvent) (d : Dev), VersionDb.Ordered d.cl.v.rows → VersionDb.Ordered (live env d es).cl.v.rows
  | [], _, h => h
  | e :: es, d, h => by
    refine live_ordered env es (e.step env d) ?_
    cases e with
    | call e =>
      simp only [LifeEvent.step]
      unfold DevEvent.step
      split
      swap_goal
      · exact h
      have run := KeepsOrder.devCall { env := env, net := e.net, clock := e.clock } e.peers e.call (e.start d)
      have start : (e.start d).cl.v = d.cl.v := by
        unfold DevEvent.start Dev.off
        split <;> rfl
      have run := run (by rw [start]; exact h)
      split <;> (next hx => rw [hx] at run; exact run)
    | turn t force =>
      simp only [LifeEvent.step]
      split
      swap_goal
      · exact h
      have run : ∀ {o d'}, t.run env force d = (o, d') → VersionDb.Ordered d'.cl.v.rows := fun hx =>
        (KeepsOrder.uptaneCycle { env := env, net := t.net, clock := t.clock } t.peers t.fetched force).of_eq hx h
      split <;> (next hx => have := run hx; exact this)

/-! ### Waiting -/

/-- As long as `s` is the Primary, its versions and the log stay. -/
def Waits (s : String) (a b : Dev) : Prop :=
  a.cl.primary = s → VersionDb.Ordered a.cl.v.rows →
    b.cl.primary = s ∧ VersionDb.Ordered b.cl.v.rows ∧ versionsOf s b = versionsOf s a ∧ b.log = a.log

theorem waits_pre (s : String) : IsPre (Waits s) := by
  refine ⟨fun _ h1 h2 => ⟨h1, h2, rfl, rfl⟩, fun a b c h1 h2 h3 h4 => ?_⟩
  obtain ⟨a1, a2, a3, a4⟩ := h1 h3 h4
  obtain ⟨b1, b2, b3, b4⟩ := h2 a1 a2
  exact ⟨b1, b2, b3.trans a3, b4.trans a4⟩

theorem save_versionsOf {env : Env} {db : VersionDb} {s serial : String} (t : Target) (mode : UpdateMode) (ho : VersionDb.Ordered db.rows)
    (h1 : serial ≠ "") (h2 : serial ≠ s) :
    (db.saveInstalledVersion env serial t mode).rows.filter (fun r => r.ecu = s) = db.rows.filter (fun r => r.ecu = s) := by
  have hreal : db.realSerial serial = serial := by simp [VersionDb.realSerial, h1]
  rw [VersionDb.save_rows, hreal, List.filter_append]
  have hnew : ∀ l : List VersionRow, (∀ r ∈ l, r.ecu = serial) → l.filter (fun r => decide (r.ecu = s)) = [] := by
    intro l hl
    exact List.filter_eq_nil_iff.2 (fun r hr => by rw [hl r hr]; simpa using h2)
  rw [hnew (if (VersionDb.oldRow db.rows serial t).isSome then [] else [VersionDb.freshRow env (VersionDb.nextId db.rows) serial t mode])
    (by split <;> simp [VersionDb.freshRow]), List.append_nil]
  have : ∀ l : List VersionRow, (∀ r ∈ l, r ∈ db.rows) →
      (l.map (VersionDb.save1 serial t mode (VersionDb.oldRow db.rows serial t))).filter (fun r => decide (r.ecu = s)) =
        l.filter (fun r => decide (r.ecu = s)) := by
    intro l hl
    induction l with
    | nil => rfl
    | cons r l ih =>
      rw [List.map_cons, List.filter_cons, List.filter_cons, VersionDb.save1_ecu, ih (fun x hx => hl x (.tail _ hx))]
      by_cases hr : r.ecu = s
      · rw [VersionDb.save1_other ho mode (hl r (.head _)) (by rw [hr]; exact fun h => h2 h.symm)]
      · rw [if_neg (by simpa using hr), if_neg (by simpa using hr)]
  exact this db.rows (fun _ h => h)

theorem waits_cl {s : String} {α : Type} {m : C α} (h : Preserves (fun a b : Client => b.v = a.v ∧ b.primary = a.primary) m) :
    Preserves (Waits s) (inClient m) := by
  intro d h1 h2
  obtain ⟨k1, k2⟩ := h d.cl
  show (m d.cl).2.primary = s ∧ VersionDb.Ordered (m d.cl).2.v.rows ∧ (m d.cl).2.v.rows.filter _ = _ ∧ _
  rw [k1, k2]
  exact ⟨h1, h2, rfl, rfl⟩

theorem sameVP_cl : ClPre (fun a b : Client => b.v = a.v ∧ b.primary = a.primary) :=
  ⟨⟨fun _ => ⟨rfl, rfl⟩, fun _ _ _ h1 h2 => ⟨h2.1.trans h1.1, h2.2.trans h1.2⟩⟩, fun _ _ => ⟨rfl, rfl⟩⟩

theorem waits_ask {s : String} {α : Type} (f : Nat → α) : Preserves (Waits s) (ask f) := fun _ h1 h2 => ⟨h1, h2, rfl, rfl⟩

/-- The part of `Waits` that concerns the client. -/
def WaitsCl (s : String) (a b : Client) : Prop :=
  a.primary = s → VersionDb.Ordered a.v.rows →
    b.primary = s ∧ VersionDb.Ordered b.v.rows ∧ b.v.rows.filter (fun r => r.ecu = s) = a.v.rows.filter (fun r => r.ecu = s)

theorem waitsCl_cl (s : String) : ClPre (WaitsCl s) := by
  refine ⟨⟨fun _ h1 h2 => ⟨h1, h2, rfl⟩, fun a b c h1 h2 h3 h4 => ?_⟩, fun _ _ h1 h2 => ⟨h1, h2, rfl⟩⟩
  obtain ⟨a1, a2, a3⟩ := h1 h3 h4
  obtain ⟨b1, b2, b3⟩ := h2 a1 a2
  exact ⟨b1, b2, b3.trans a3⟩

theorem waits_saveVersion {s serial : String} (env : Env) (t : Target) (mode : UpdateMode) (h1 : serial ≠ "") (h2 : serial ≠ s) :
    Preserves (Waits s) (saveVersion env serial t mode) := by
  intro d hp ho
  obtain ⟨a, b, c⟩ := (waitsCl_cl s).cwrite (f := fun cl => { cl with v := cl.v.saveInstalledVersion env serial t mode })
    (fun cl hp ho => ⟨hp, VersionDb.save_ordered _ _ _ ho, save_versionsOf _ _ ho h1 h2⟩) d.cl hp ho
  exact ⟨a, b, c, rfl⟩

theorem waits_confirm {s serial : String} (env : Env) (h1 : serial ≠ "") (h2 : serial ≠ s) : Preserves (Waits s) (confirmSecondary env serial) := by
  unfold confirmSecondary
  wpres (waits_pre s)
  all_goals first
    | exact waits_saveVersion env _ _ h1 h2
    | exact waits_cl (sameVP_cl.saveEcuResult (fun _ _ _ => ⟨rfl, rfl⟩) _ _)
    | exact waits_cl (sameVP_cl.storeDeviceResult (fun _ _ => ⟨rfl, rfl⟩) _ _ _)

theorem waits_pendingLoop {s : String} (env : Env) (p : Peers) : ∀ l : List (String × Hash), (∀ e ∈ l, e.1 ≠ "") →
    Preserves (Waits s) (pendingSecondaryLoop env p l)
  | [], _ => .pure (waits_pre s)
  | (serial, hash) :: l, hl => by
    have ih := waits_pendingLoop (s := s) env p l (fun e he => hl e (.tail _ he))
    have hne : serial ≠ "" := hl _ (.head _)
    intro d
    show Runs (Waits s) _ d
    unfold pendingSecondaryLoop
    refine Runs.gets ?_
    show Runs (Waits s) (if d.cl.primary = serial then _ else _) d
    by_cases h : d.cl.primary = serial
    · rw [if_pos h]; exact ih.runs
    rw [if_neg h]
    by_cases hs : serial = s
    · exact fun h1 => absurd (h1.trans hs.symm) h
    · refine Preserves.runs ?_
      wpres (waits_pre s)
      all_goals first
        | exact waits_ask _
        | exact waits_confirm env hne hs

theorem mkEcuSerial_some {s r : String} (h : mkEcuSerial s = .ok r) : r = s ∧ s ≠ "" := by
  unfold mkEcuSerial at h
  split at h
  · cases h
  next h1 =>
  split at h
  · cases h
  · cases h
    exact ⟨rfl, fun h => h1 (by rw [h]; decide)⟩

theorem pendingLoop_ok : ∀ {rows : List VersionRow} {l : List (String × Hash)}, VersionDb.pendingLoop rows = .ok l →
    (∀ e ∈ l, e.1 ≠ "") ∧ l.map (·.1) = rows.map (·.ecu)
  | [], l, h => by cases h; simp
  | r :: rows, l, h => by
    unfold VersionDb.pendingLoop at h
    obtain ⟨s, h1, h⟩ := exc_bind_ok.1 h
    obtain ⟨l', h2, h⟩ := exc_bind_ok.1 h
    cases h
    obtain ⟨rfl, h3⟩ := mkEcuSerial_some h1
    obtain ⟨h4, h5⟩ := pendingLoop_ok h2
    refine ⟨?_, by simp [h5]⟩
    rintro e (_ | ⟨_, he⟩)
    · exact h3
    · exact h4 e he

theorem waits_checkPending {s : String} (env : Env) (p : Peers) : Preserves (Waits s) (checkAndUpdatePendingSecondaries env p) := by
  intro d
  show Runs (Waits s) _ d
  unfold checkAndUpdatePendingSecondaries
  refine Runs.gets ?_
  show Runs (Waits s) (do let l ← lift d.cl.v.getPendingEcus; pendingSecondaryLoop env p l) d
  cases h : d.cl.v.getPendingEcus with
  | error e => exact (waits_pre s).refl d
  | ok l => exact (waits_pendingLoop env p l (pendingLoop_ok h).1).runs

theorem Spec.RebootPending.has {s : String} {d : Dev} (h : RebootPending s d) : d.cl.hasPendingUpdates = true := by
  obtain ⟨row, h1, _, h2⟩ := h
  exact List.any_eq_true.2 ⟨row, h1, h2⟩

theorem pendingFor_congr {s : String} {a b : Dev} (h : versionsOf s b = versionsOf s a) (hp : RebootPending s a) : RebootPending s b := by
  obtain ⟨row, h1, h2, h3⟩ := hp
  have : row ∈ versionsOf s a := List.mem_filter.2 ⟨h1, by simpa using h2⟩
  rw [← h] at this
  exact ⟨row, (List.mem_filter.1 this).1, h2, h3⟩

/-- A cycle while the Primary waits for a reboot. -/
theorem cycle_waits {c : Ctx} {p : Peers} {f : Fetched} {force : Bool} {d d' : Dev} {o : Except Err Bool} {s : String}
    (h : uptaneCycle c p f force d = (o, d')) (hs : d.cl.primary = s) (ho : VersionDb.Ordered d.cl.v.rows) (hp : RebootPending s d) :
    (d'.cl.primary = s ∧ VersionDb.Ordered d'.cl.v.rows ∧ versionsOf s d' = versionsOf s d ∧ d'.log = d.log) ∧ o ≠ .ok false := by
  have key : ∀ {o : Except Err UpdateCheck} {d1 : Dev}, fetchMeta c p d = (o, d1) →
      (d1.cl.primary = s ∧ VersionDb.Ordered d1.cl.v.rows ∧ versionsOf s d1 = versionsOf s d ∧ d1.log = d.log) ∧
        ∀ r, o = .ok r → r.updates = [] ∧ r.status = .error := by
    intro o d1 h
    unfold fetchMeta at h
    rcases bind_cases h with ⟨x, d0, g, h⟩ | ⟨e, g, _⟩
    swap_goal
    · simp at g
    simp only [gets_eq, Prod.mk.injEq, Except.ok.injEq, id] at g
    obtain ⟨rfl, rfl⟩ := g
    rw [if_pos hp.has] at h
    rcases bind_cases h with ⟨_, d2, g, h⟩ | ⟨e, g, rfl⟩
    swap_goal
    · exact ⟨(waits_checkPending c.env p).of_eq g hs ho, by simp⟩
    have w := (waits_checkPending (s := s) c.env p).of_eq g hs ho
    rcases bind_cases h with ⟨x, d0, g, h⟩ | ⟨e, g, _⟩
    swap_goal
    · simp at g
    simp only [gets_eq, Prod.mk.injEq, Except.ok.injEq, id] at g
    obtain ⟨rfl, rfl⟩ := g
    rw [if_pos (pendingFor_congr w.2.2.1 hp).has] at h
    simp only [pure_eq, Prod.mk.injEq] at h
    obtain ⟨rfl, rfl⟩ := h
    exact ⟨w, by rintro r ⟨⟩; exact ⟨rfl, rfl⟩⟩
  unfold uptaneCycle at h
  rcases bind_cases h with ⟨r, d1, g, h⟩ | ⟨e, g, rfl⟩
  swap_goal
  · exact ⟨(key g).1, by simp⟩
  obtain ⟨w, hr⟩ := key g
  obtain ⟨r1, r2⟩ := hr r rfl
  unfold cycleDownload at h
  rw [if_pos (by simp [r1]), if_pos r2] at h
  unfold putManifestSimple at h
  rw [run_bind (show (do let d ← gets id; if d.cl.hasPendingUpdates then pure false else _ : D Bool) d1 = (.ok false, d1) from by
    show (if d1.cl.hasPendingUpdates then pure false else _ : D Bool) d1 = _
    rw [if_pos (pendingFor_congr w.2.2.1 hp).has]; rfl)] at h
  simp only [pure_eq, Prod.mk.injEq] at h
  obtain ⟨rfl, rfl⟩ := h
  exact ⟨w, by simp⟩

/-! ### C60 -/

/-- C60, waiting. Take a running device, after any life, whose Primary waits for a reboot. However many cycles
follow, with whatever servers and Secondaries: nothing is verified, installed, sent to a Secondary or to
the server, and what is recorded about the Primary's versions stays as it is. -/
theorem C60_waits (env : Env) (past : List LifeEvent) (ts : List (Turn × Bool)) (d : Dev) (hd : d = live env Dev.fresh past)
    (hp : RebootPending d.cl.primary d) :
    (live env d (ts.map (fun x => .turn x.1 x.2))).log = d.log ∧
    versionsOf d.cl.primary (live env d (ts.map (fun x => .turn x.1 x.2))) = versionsOf d.cl.primary d := by
  have ho : VersionDb.Ordered d.cl.v.rows := by rw [hd]; exact live_ordered env past _ List.Pairwise.nil
  generalize hs : d.cl.primary = s at hp
  clear hd
  induction ts generalizing d with
  | nil => exact ⟨rfl, rfl⟩
  | cons x ts ih =>
    obtain ⟨t, force⟩ := x
    have off : ∀ (ts : List (Turn × Bool)) (d : Dev), d.up = false → live env d (ts.map (fun x => .turn x.1 x.2)) = d := by
      intro ts
      induction ts with
      | nil => intro d _; rfl
      | cons x ts ih =>
        intro d hu
        show live env (LifeEvent.step env d (.turn x.1 x.2)) _ = d
        have : LifeEvent.step env d (.turn x.1 x.2) = d := by simp only [LifeEvent.step]; rw [if_neg (by simp [hu])]
        rw [this]; exact ih d hu
    show (live env (LifeEvent.step env d (.turn t force)) _).log = _ ∧ versionsOf s (live env (LifeEvent.step env d (.turn t force)) _) = _
    simp only [LifeEvent.step]
    by_cases hu : d.up = true
    swap_goal
    · rw [if_neg hu]; exact ih d ho hs hp
    rw [if_pos hu]
    cases hx : t.run env force d with
    | mk o d' =>
      obtain ⟨⟨w1, w2, w3, w4⟩, _⟩ := cycle_waits (d := { d with cl := { d.cl with w := { d.cl.w with fuel := t.fuel, tick := 0 } } }) hx hs ho hp
      have go : (live env d' (ts.map (fun x => .turn x.1 x.2))).log = d.log ∧ versionsOf s (live env d' (ts.map (fun x => .turn x.1 x.2))) = versionsOf s d := by
        obtain ⟨a, b⟩ := ih d' w2 w1 (pendingFor_congr w3 hp)
        exact ⟨a.trans w4, b.trans w3⟩
      have stop : (live env d'.off (ts.map (fun x => .turn x.1 x.2))).log = d.log ∧ versionsOf s (live env d'.off (ts.map (fun x => .turn x.1 x.2))) = versionsOf s d := by
        rw [off ts d'.off rfl]; exact ⟨w4, w3⟩
      cases o with
      | ok b => exact go
      | error e => cases e <;> first | exact stop | exact go

theorem completionRequired_ok {force b : Bool} {d d' : Dev} (h : completionRequired force d = (.ok b, d')) :
    d' = d ∧ (b = true ↔ force = true ∧ RebootPending d.cl.primary d) := by
  unfold completionRequired at h
  obtain ⟨_, _, g, h⟩ := M.bind_ok.1 h
  simp only [gets_eq, Prod.mk.injEq, Except.ok.injEq, id] at g
  obtain ⟨rfl, rfl⟩ := g
  obtain ⟨l, _, g, h⟩ := M.bind_ok.1 h
  simp only [lift_eq, Prod.mk.injEq] at g
  obtain ⟨g, rfl⟩ := g
  simp only [pure_eq, Prod.mk.injEq, Except.ok.injEq] at h
  obtain ⟨rfl, rfl⟩ := h
  refine ⟨rfl, ?_⟩
  have hm := (pendingLoop_ok g).2
  have : (l.any (fun e => e.1 == d.cl.primary) = true) ↔ RebootPending d.cl.primary d := by
    constructor
    · intro h
      obtain ⟨e, he, h⟩ := List.any_eq_true.1 h
      have : e.1 ∈ (d.cl.v.rows.filter (·.isPending)).map (·.ecu) := by rw [← hm]; exact List.mem_map_of_mem he
      obtain ⟨row, h1, h2⟩ := List.mem_map.1 this
      obtain ⟨h1, h3⟩ := List.mem_filter.1 h1
      exact ⟨row, h1, by rw [h2]; simpa using h, h3⟩
    · rintro ⟨row, h1, h2, h3⟩
      have : row.ecu ∈ l.map (·.1) := by rw [hm]; exact List.mem_map_of_mem (List.mem_filter.2 ⟨h1, h3⟩)
      obtain ⟨e, he, h4⟩ := List.mem_map.1 this
      exact List.any_eq_true.2 ⟨e, he, by simp [h4, h2]⟩
  rw [Bool.and_eq_true, this]
  exact and_comm

/-- C60, completion. The daemon's loop is ended by a cycle exactly when completion is forced and the
installation of this cycle left the Primary waiting for a reboot; then the package manager is told to
complete the installation. (`hl`: the stored serials of ECUs with pending updates can be read.) -/
theorem C60_completes (env : Env) (force : Bool) (t : Turn) (ts : List Turn) (d : Dev) :
    (∀ d', t.run env force d = (.ok false, d') →
      runLoop env force (t :: ts) d = (.done true, d') ∧ force = true ∧ RebootPending d'.cl.primary d' ∧
      ∃ us d2 rep, uptaneInstall { env := env, net := t.net, clock := t.clock } t.peers us d2 = (.ok rep, d')) ∧
    (∀ d1 d2 d3 r got rep,
      fetchMeta { env := env, net := t.net, clock := t.clock } t.peers
        { d with cl := { d.cl with w := { d.cl.w with fuel := t.fuel, tick := 0 } } } = (.ok r, d1) → r.updates ≠ [] →
      downloadImages { env := env, net := t.net, clock := t.clock } t.fetched r.updates d1 = (.ok got, d2) → got.status = .success →
      uptaneInstall { env := env, net := t.net, clock := t.clock } t.peers r.updates d2 = (.ok rep, d3) →
      force = true → RebootPending d3.cl.primary d3 → (∀ row ∈ d3.cl.v.rows, row.isPending = true → 1 ≤ row.ecu.utf8ByteSize ∧ row.ecu.utf8ByteSize ≤ 64) →
      runLoop env force (t :: ts) d = (.done true, d3)) := by
  have done : ∀ d', t.run env force d = (.ok false, d') → force = true → RebootPending d'.cl.primary d' → (∃ b, completionRequired force d' = (.ok b, d')) →
      runLoop env force (t :: ts) d = (.done true, d') := by
    intro d' h hf hp ⟨b, hb⟩
    have := (completionRequired_ok hb).2.2 ⟨hf, hp⟩
    subst this
    unfold runLoop
    rw [h]
    show completeInstall force d' = _
    unfold completeInstall
    rw [hb]
  constructor
  · intro d' h
    have h0 := h
    unfold Turn.run uptaneCycle at h
    obtain ⟨r, d1, h1, h⟩ := M.bind_ok.1 h
    unfold cycleDownload at h
    split at h
    · split at h
      · obtain ⟨_, _, _, h⟩ := M.bind_ok.1 h
        simp at h
      · simp at h
    obtain ⟨got, d2, h2, h⟩ := M.bind_ok.1 h
    unfold cycleInstall at h
    split at h
    · split at h
      · obtain ⟨_, _, _, h⟩ := M.bind_ok.1 h
        simp at h
      · simp at h
    obtain ⟨rep, d3, h3, h⟩ := M.bind_ok.1 h
    unfold cycleEnd at h
    obtain ⟨need, d4, h4, h5⟩ := M.bind_ok.1 h
    obtain ⟨e4, hneed⟩ := completionRequired_ok h4
    cases need with
    | true =>
      rw [if_pos rfl] at h5
      simp only [pure_eq, Prod.mk.injEq, Except.ok.injEq, true_and] at h5
      rw [h5] at e4 h4
      rw [← e4] at h3 h4 hneed
      obtain ⟨k1, k2⟩ := hneed.1 rfl
      exact ⟨done _ h0 k1 k2 ⟨_, h4⟩, k1, k2, _, _, rep, h3⟩
    | false =>
      rw [if_neg (by simp)] at h5
      obtain ⟨_, _, _, h6⟩ := M.bind_ok.1 h5
      split at h6
      · simp at h6
      · obtain ⟨_, _, _, h7⟩ := M.bind_ok.1 h6
        simp at h7
  · intro d1 d2 d3 r got rep h1 hne h2 hs h3 hf hp hl
    have hread : ∀ rows : List VersionRow, (∀ row ∈ rows, 1 ≤ row.ecu.utf8ByteSize ∧ row.ecu.utf8ByteSize ≤ 64) →
        ∃ l, VersionDb.pendingLoop rows = .ok l := by
      intro rows hr
      induction rows with
      | nil => exact ⟨[], rfl⟩
      | cons x xs ih =>
        obtain ⟨l, hl⟩ := ih (fun row h => hr row (.tail _ h))
        have := hr x (.head _)
        refine ⟨_, exc_bind_ok.2 ⟨x.ecu, ?_, exc_bind_ok.2 ⟨l, hl, rfl⟩⟩⟩
        unfold mkEcuSerial
        rw [if_neg (by omega), if_neg (by omega)]
    obtain ⟨l, hl⟩ := hread (d3.cl.v.rows.filter (·.isPending)) (fun row h => hl row (List.mem_filter.1 h).1 (List.mem_filter.1 h).2)
    have hc : ∃ b, completionRequired force d3 = (.ok b, d3) := by
      refine ⟨l.any (fun e => e.1 == d3.cl.primary) && force, ?_⟩
      unfold completionRequired
      exact M.bind_ok.2 ⟨_, _, rfl, M.bind_ok.2 ⟨l, d3, by rw [lift_eq]; exact Prod.ext hl rfl, rfl⟩⟩
    refine done d3 ?_ hf hp hc
    unfold Turn.run uptaneCycle
    rw [run_bind h1]
    unfold cycleDownload
    rw [if_neg (by simpa using hne), run_bind h2]
    obtain ⟨hall, _⟩ := downloadImages_success h2 hs
    unfold cycleInstall
    rw [if_neg (by simp [hs, hall, hne]), hall, run_bind h3]
    unfold cycleEnd
    obtain ⟨b, hb⟩ := hc
    have := (completionRequired_ok hb).2.2 ⟨hf, hp⟩
    subst this
    rw [run_bind hb]
    rfl

/-- Finding. A Primary that already waits for a reboot when `RunForever` starts (because the process was
killed or stopped after the installation, without a reboot) is never completed by the daemon: its loop
only ends when the API user shuts it down, or with an exception. `isInstallCompletionRequired` is asked
only by a cycle that installed something (aktualizr.cc:57-67), which no cycle does (`C60_waits`). -/
theorem C60_left_waiting (env : Env) (force : Bool) (past : List LifeEvent) (ts : List Turn) (d : Dev) (hd : d = live env Dev.fresh past)
    (hp : RebootPending d.cl.primary d) (hx : ∀ t ∈ ts, t.exit = false) (b : Bool) :
    (runLoop env force ts d).1 ≠ .done b := by
  have ho : VersionDb.Ordered d.cl.v.rows := by rw [hd]; exact live_ordered env past _ List.Pairwise.nil
  generalize hs : d.cl.primary = s at hp
  clear hd
  induction ts generalizing d with
  | nil => simp [runLoop]
  | cons t ts ih =>
    unfold runLoop
    cases hr : t.run env force d with
    | mk o d' =>
      obtain ⟨⟨w1, w2, w3, w4⟩, h1⟩ := cycle_waits (d := { d with cl := { d.cl with w := { d.cl.w with fuel := t.fuel, tick := 0 } } }) hr hs ho hp
      cases o with
      | error e => simp
      | ok r =>
        cases r with
        | false => exact absurd rfl h1
        | true =>
          show (if t.exit = true then completeInstall force d' else runLoop env force ts d').1 ≠ _
          rw [if_neg (by simp [hx t (.head _)])]
          exact ih d' (fun t h => hx t (.tail _ h)) w2 w1 (pendingFor_congr w3 hp)

namespace Toy

/-- A package manager whose installations need a reboot, which does not come. -/
def rebooting : Peers :=
  { peers .good with
    install := fun _ _ => .ok (.ofCode .needCompletion "reboot")
    finalize := fun _ _ => .ok (.ofCode .needCompletion "no reboot yet") }

/-- A cycle that installs such an update. -/
def reboots : Turn := cycleWith (directing "dt3") rebooting

/-- The device after that cycle and a start without a reboot. -/
def waiting : Dev := live E started [.turn reboots true, .call { event (.init (cfg "e1" ["e2"]) true) with peers := rebooting }]

/-- How the daemon's loop ends. -/
def ends (ts : List Turn) (d : Dev) : Option Bool := match (runLoop E true ts d).1 with
  | .done b => some b
  | _ => none

end Toy

/-- The cases of the theorems exist. The cycle that installs an update ends the daemon, which completes
it. -/
example : Toy.ends [Toy.reboots, Toy.reboots] Toy.started = some true ∧
    (live Toy.E Toy.started [.turn Toy.reboots true]).log.map Toy.tag =
      [("signed", "e1"), ("sent", "ok"), ("verified good", "fw"), ("notify", ""), ("install", "fw")] := by
  decide +kernel

theorem waiting_pending : RebootPending Toy.waiting.cl.primary Toy.waiting := by
  have : Toy.waiting.cl.v.rows.any (fun r => r.ecu == Toy.waiting.cl.primary && r.isPending) = true := by decide +kernel
  obtain ⟨row, h1, h2⟩ := List.any_eq_true.1 this
  rw [Bool.and_eq_true, beq_iff_eq] at h2
  exact ⟨row, h1, h2.1, h2.2⟩

/-- If the process is killed and started again without a reboot, the update is still pending and the daemon
goes on, for (here) two more cycles; when it is shut down, the update is completed. -/
example : RebootPending Toy.waiting.cl.primary Toy.waiting ∧ Toy.waiting.up = true ∧ Toy.ends [Toy.reboots, Toy.reboots] Toy.waiting = none ∧
    Toy.ends [Toy.reboots, { Toy.reboots with exit := true }] Toy.waiting = some true :=
  ⟨waiting_pending, by decide +kernel⟩

end Aktualizr
