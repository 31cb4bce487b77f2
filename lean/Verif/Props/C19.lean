import Verif.Props.C18
import Verif.Props.C30

/-!
# C19 Installation results are reported until acknowledged
-/

namespace Aktualizr

open M

/-! ### Specification -/

namespace Spec

/-- The results agree in everything that is reported. -/
def SameResult (a b : InstResult) : Prop := a.success = b.success ∧ a.desc = b.desc ∧ a.code.num = b.code.num ∧ a.code.toText = b.code.toText

/-- Row `row` is what storing result `r` leaves in the database. -/
def StoredAs (row : ResultRow) (r : InstResult) : Prop :=
  r.toRow = .ok row ∧ -2147483648 ≤ r.code.num ∧ r.code.num ≤ 2147483647

/-- No acknowledged manifest in this part of the log. -/
def NoAck (log : List Action) : Prop := ∀ m, Action.sent m true ∉ log

/-- Every manifest sent, up to and including the first that is acknowledged, satisfies `P`. -/
def UntilAck (P : Manifest → Prop) (log : List Action) : Prop :=
  ∀ pre m ok post, log = pre ++ .sent m ok :: post → NoAck pre → P m

/-- The manifest has a report listing a result of ECU `s`. -/
def ReportsEcu (s : String) (m : Manifest) : Prop := ∃ r raw cid items r', m.report = some (r, raw, cid, items) ∧ (s, r') ∈ items

/-- A result of the whole device is stored. -/
def HasDeviceResult (d : Dev) : Prop := d.cl.devResult.isSome = true

/-- A result of ECU `s` is stored. -/
def HasEcuResult (s : String) (d : Dev) : Prop := (d.cl.ecuResults.lookup s).isSome = true

/-- ECU `s` is registered. -/
def IsRegistered (s : String) (d : Dev) : Prop := s ∈ d.cl.v.ecus.map (·.serial)

/-- Every start in the history is with a configuration that has ECU `s`. -/
def StaysConfigured (s : String) (es : List DevEvent) : Prop :=
  ∀ e ∈ es, ∀ cfg ok, e.call = .init cfg ok → s ∈ cfg.serials.map (·.1)

/-- The manifest reports what is stored: the result of the device and those of all registered
ECUs. -/
def ReportsAll (cl : Client) (m : Manifest) : Prop :=
  ∀ row r, cl.devResult = some row → StoredAs row.result r →
    ∃ r' items, m.report = some (r', row.raw, row.correlationId, items) ∧ SameResult r r' ∧
      ∀ e ∈ cl.v.ecus, ∀ rowE rE, cl.ecuResults.lookup e.serial = some rowE → StoredAs rowE rE →
        ∃ rE', (e.serial, rE') ∈ items ∧ SameResult rE rE'

end Spec

open Spec

/-! ### What is assembled -/

theorem read_stored {row : ResultRow} {r r' : InstResult} (h : StoredAs row r) (hr : row.read = .ok r') : SameResult r r' := by
  obtain ⟨h1, h2, h3⟩ := h
  unfold InstResult.toRow at h1
  obtain ⟨repr, h4, h1⟩ := exc_bind_ok.1 h1
  rw [exc_pure_ok] at h1
  subst h1
  unfold ResultRow.read at hr
  obtain ⟨c, h5, hr⟩ := exc_bind_ok.1 hr
  rw [exc_pure_ok] at hr
  subst hr
  obtain ⟨c', h6, h7, h8, _⟩ := C31_round_trip r.code repr h2 h3 h4
  rw [h6] at h5
  cases h5
  exact ⟨rfl, rfl, h7.symm, h8.symm⟩

theorem readResults_mem {l : List (String × ResultRow)} : ∀ {items : List (String × InstResult)}, readResults l = .ok items →
    ∀ q ∈ l, ∃ r, q.2.read = .ok r ∧ (q.1, r) ∈ items := by
  induction l with
  | nil => intro _ _ q hq; cases hq
  | cons x l ih =>
    intro items h q hq
    obtain ⟨s, row⟩ := x
    simp only [readResults] at h
    obtain ⟨r, h1, h⟩ := exc_bind_ok.1 h
    obtain ⟨s', h2, h⟩ := exc_bind_ok.1 h
    obtain ⟨t, h3, h⟩ := exc_bind_ok.1 h
    rw [exc_pure_ok] at h
    subst h
    have hs : s' = s := by
      unfold mkEcuSerial at h2
      split at h2
      · cases h2
      · split at h2 <;> cases h2
        rfl
    subst hs
    rcases List.mem_cons.1 hq with rfl | hq
    · exact ⟨r, h1, .head _⟩
    · obtain ⟨r', g1, g2⟩ := ih h3 q hq
      exact ⟨r', g1, .tail _ g2⟩

theorem joinEcus_intro {α : Type} {ecus : List EcuRow} {l : List (String × α)} {e : EcuRow} {a : α} (he : e ∈ ecus)
    (h : l.lookup e.serial = some a) : (e.serial, a) ∈ joinEcus ecus l :=
  List.mem_filterMap.2 ⟨e, he, by rw [h]; rfl⟩

/-- The results and versions are untouched and nothing is sent. -/
def Still (d d' : Dev) : Prop :=
  d'.cl.devResult = d.cl.devResult ∧ d'.cl.ecuResults = d.cl.ecuResults ∧ d'.cl.v = d.cl.v ∧
    ∃ new, d'.log = d.log ++ new ∧ ∀ m ok, Action.sent m ok ∉ new

theorem still_pre : IsPre Still := by
  refine ⟨fun _ => ⟨rfl, rfl, rfl, [], (List.append_nil _).symm, by simp⟩, ?_⟩
  rintro a b c ⟨h1, h2, h3, n1, h4, h5⟩ ⟨g1, g2, g3, n2, g4, g5⟩
  refine ⟨g1.trans h1, g2.trans h2, g3.trans h3, n1 ++ n2, by rw [g4, h4, List.append_assoc], fun m ok hm => ?_⟩
  rcases List.mem_append.1 hm with hm | hm
  · exact h5 _ _ hm
  · exact g5 _ _ hm

theorem Still.of_cl {d : Dev} {cl' : Client} (h1 : cl'.devResult = d.cl.devResult) (h2 : cl'.ecuResults = d.cl.ecuResults) (h3 : cl'.v = d.cl.v) :
    Still d { d with cl := cl' } := ⟨h1, h2, h3, [], (List.append_nil _).symm, by simp⟩

/-- The part of `Still` on clients. -/
def StillCl (a b : Client) : Prop := b.devResult = a.devResult ∧ b.ecuResults = a.ecuResults ∧ b.v = a.v

theorem stillCl_pre : ClPre StillCl :=
  ⟨⟨fun _ => ⟨rfl, rfl, rfl⟩, fun _ _ _ h1 h2 => ⟨h2.1.trans h1.1, h2.2.1.trans h1.2.1, h2.2.2.trans h1.2.2⟩⟩, fun _ _ => ⟨rfl, rfl, rfl⟩⟩

theorem still_client {α : Type} {m : C α} (h : Preserves StillCl m) : Preserves Still (inClient m) := by
  intro d
  obtain ⟨h1, h2, h3⟩ := h d.cl
  exact .of_cl h1 h2 h3

theorem still_act {a : Action} (ha : ∀ m ok, a ≠ .sent m ok) : Preserves Still (act a) := by
  intro d
  unfold act
  split
  · exact still_pre.refl _
  · exact ⟨rfl, rfl, rfl, [a], rfl, fun m ok hm => ha m ok (by simpa using (List.mem_singleton.1 hm).symm)⟩

theorem still_ask {α : Type} (f : Nat → α) : Preserves Still (ask f) := fun _ => ⟨rfl, rfl, rfl, [], (List.append_nil _).symm, by simp⟩

theorem secondaryManifests_still (env : Env) (p : Peers) : ∀ l, Preserves Still (secondaryManifests env p l)
  | [] => .pure still_pre
  | (s, _) :: l => by
    have ih := secondaryManifests_still env p l
    unfold Aktualizr.secondaryManifests obtainManifest storeCached
    wpres still_pre
    all_goals first
      | exact still_ask _
      | exact still_client (stillCl_pre.cwrite (fun _ => stillCl_pre.pre.refl _))
      | exact ⟨rfl, rfl, rfl, [], (List.append_nil _).symm, by simp⟩

theorem assembleReport_still : Preserves Still assembleReport := by
  unfold assembleReport
  wpres still_pre
  exact still_client (stillCl_pre.inWorld _)

theorem assembleManifest_still (env : Env) (p : Peers) : Preserves Still (assembleManifest env p) := by
  unfold assembleManifest nextCounter
  wpres still_pre
  all_goals first
    | exact still_client (stillCl_pre.cwrite (fun _ => ⟨rfl, rfl, rfl⟩))
    | exact still_act (by intros; simp)
    | exact secondaryManifests_still _ _ _
    | exact assembleReport_still

theorem assembleReport_ok {d d' : Dev} {x : Option (InstResult × String × String × List (String × InstResult))}
    (h : assembleReport d = (.ok x, d')) {row : DeviceRow} (hrow : d.cl.devResult = some row) :
    ∃ r items, row.result.read = .ok r ∧ x = some (r, row.raw, row.correlationId, items) ∧
      ∀ e ∈ d.cl.v.ecus, ∀ rowE, d.cl.ecuResults.lookup e.serial = some rowE → ∃ rE, rowE.read = .ok rE ∧ (e.serial, rE) ∈ items := by
  unfold assembleReport at h
  replace h := M.bind_ok.1 h
  obtain ⟨_, _, g1, h⟩ := h
  simp only [gets_eq, Prod.mk.injEq, Except.ok.injEq, id] at g1
  obtain ⟨rfl, rfl⟩ := g1
  replace h := M.bind_ok.1 h
  obtain ⟨y, _, g2, h⟩ := h
  simp only [lift_eq, Prod.mk.injEq] at g2
  obtain ⟨g2, rfl⟩ := g2
  unfold Client.loadDeviceResult at g2
  rw [hrow] at g2
  simp only at g2
  obtain ⟨r, hr, g2⟩ := exc_bind_ok.1 g2
  rw [exc_pure_ok] at g2
  subst g2
  simp only at h
  replace h := M.bind_ok.1 h
  obtain ⟨nc, _, g3, h⟩ := h
  simp only [lift_eq, Prod.mk.injEq] at g3
  obtain ⟨_, rfl⟩ := g3
  have h : ∃ d1, Still d d1 ∧ (do
      let d ← gets id
      let items ← lift d.cl.loadEcuResults
      pure (some (r, row.raw, row.correlationId, items.getD [])) : D _) d1 = (.ok x, d') := by
    split at h
    · exact ⟨d, still_pre.refl _, h⟩
    · obtain ⟨_, d1, g4, h⟩ := M.bind_ok.1 h
      exact ⟨d1, (still_client (stillCl_pre.inWorld _)).of_eq g4, h⟩
  obtain ⟨d1, s1, h⟩ := h
  replace h := M.bind_ok.1 h
  obtain ⟨_, _, g5, h⟩ := h
  simp only [gets_eq, Prod.mk.injEq, Except.ok.injEq, id] at g5
  obtain ⟨rfl, rfl⟩ := g5
  replace h := M.bind_ok.1 h
  obtain ⟨l, _, g6, h⟩ := h
  simp only [lift_eq, Prod.mk.injEq] at g6
  obtain ⟨g6, rfl⟩ := g6
  simp only [pure_eq, Prod.mk.injEq, Except.ok.injEq] at h
  obtain ⟨rfl, rfl⟩ := h
  refine ⟨r, _, hr, rfl, ?_⟩
  intro e he rowE hE
  unfold Client.loadEcuResults at g6
  obtain ⟨items, g7, g6⟩ := exc_bind_ok.1 g6
  rw [exc_pure_ok] at g6
  have hm : (e.serial, rowE) ∈ joinEcus d1.cl.v.ecus d1.cl.ecuResults := by
    rw [s1.2.1, s1.2.2.1]; exact joinEcus_intro he hE
  obtain ⟨rE, k1, k2⟩ := readResults_mem g7 _ hm
  refine ⟨rE, k1, ?_⟩
  cases items with
  | nil => cases k2
  | cons q t =>
    rw [if_neg (by simp)] at g6
    subst g6
    exact k2

theorem assembleManifest_reports {env : Env} {p : Peers} {d d' : Dev} {m : Manifest} (h : assembleManifest env p d = (.ok m, d'))
    {row : DeviceRow} (hrow : d.cl.devResult = some row) :
    ∃ r items, row.result.read = .ok r ∧ m.report = some (r, row.raw, row.correlationId, items) ∧
      ∀ e ∈ d.cl.v.ecus, ∀ rowE, d.cl.ecuResults.lookup e.serial = some rowE → ∃ rE, rowE.read = .ok rE ∧ (e.serial, rE) ∈ items := by
  unfold assembleManifest at h
  replace h := M.bind_ok.1 h
  obtain ⟨_, _, g1, h⟩ := h
  simp only [gets_eq, Prod.mk.injEq, Except.ok.injEq, id] at g1
  obtain ⟨rfl, rfl⟩ := g1
  replace h := M.bind_ok.1 h
  obtain ⟨k, d1, g2, h⟩ := h
  replace h := M.bind_ok.1 h
  obtain ⟨_, d2, g3, h⟩ := h
  replace h := M.bind_ok.1 h
  obtain ⟨secs, d3, g4, h⟩ := h
  have s1 : Still d d1 := by
    have : Preserves Still nextCounter := by
      unfold nextCounter
      wpres still_pre
      exact still_client (stillCl_pre.cwrite (fun _ => ⟨rfl, rfl, rfl⟩))
    exact this.of_eq g2
  have s2 := (still_act (by intros; simp)).of_eq g3
  have s3 := (secondaryManifests_still _ _ _).of_eq g4
  obtain ⟨e1, e2, e3, _⟩ := still_pre.trans _ _ _ s1 (still_pre.trans _ _ _ s2 s3)
  replace h := M.bind_ok.1 h
  obtain ⟨rep, d4, g5, h⟩ := h
  simp only [pure_eq, Prod.mk.injEq, Except.ok.injEq] at h
  obtain ⟨rfl, rfl⟩ := h
  obtain ⟨r, items, k1, k2, k3⟩ := assembleReport_ok g5 (e1.trans hrow)
  refine ⟨r, items, k1, k2, ?_⟩
  rw [e2, e3] at k3
  exact k3

/-- What `putManifestSimple` does: nothing is sent and nothing is erased, or one manifest is sent
at the end, which reports everything, and results are erased only if it was acknowledged. -/
theorem putManifestSimple_cases {env : Env} {p : Peers} {d d' : Dev} {o : Except Err Bool} (h : putManifestSimple env p d = (o, d')) :
    Still d d' ∨ (d.cl.hasPendingUpdates = false ∧ ∃ m ok d1, assembleManifest env p d = (.ok m, d1) ∧ d'.log = d1.log ++ [.sent m ok] ∧
      d'.cl.v = d1.cl.v ∧
      ((d'.cl.devResult = d1.cl.devResult ∧ d'.cl.ecuResults = d1.cl.ecuResults) ∨ ok = true)) := by
  unfold putManifestSimple at h
  rcases bind_cases h with ⟨_, _, g1, h⟩ | ⟨_, g1, rfl⟩
  swap_goal
  · simp at g1
  simp only [gets_eq, Prod.mk.injEq, Except.ok.injEq, id] at g1
  obtain ⟨rfl, rfl⟩ := g1
  split at h
  · simp only [pure_eq, Prod.mk.injEq] at h
    obtain ⟨_, rfl⟩ := h
    exact .inl (still_pre.refl _)
  next hp =>
  rcases bind_cases h with ⟨m, d1, g1, h⟩ | ⟨e, g1, rfl⟩
  swap_goal
  · exact .inl ((assembleManifest_still env p).of_eq g1)
  have s1 := (assembleManifest_still env p).of_eq g1
  rcases bind_cases h with ⟨ok, d2, g2, h⟩ | ⟨e, g2, rfl⟩
  swap_goal
  · simp at g2
  simp only [ask_eq, Prod.mk.injEq, Except.ok.injEq] at g2
  obtain ⟨_, rfl⟩ := g2
  rcases bind_cases h with ⟨_, d3, g3, h⟩ | ⟨e, g3, rfl⟩
  swap_goal
  · rcases act_cases g3 with ⟨_, _, ho, _⟩ | ⟨_, rfl⟩
    · simp at ho
    · exact .inl (still_pre.trans _ _ _ s1 ⟨rfl, rfl, rfl, [], (List.append_nil _).symm, by simp⟩)
  obtain ⟨k, _, rfl⟩ := act_ok.1 g3
  refine .inr ⟨by simpa using hp, m, ok, d1, g1, ?_⟩
  split at h
  · next hok =>
    have hc : ∀ {o' : Except Err Unit} {d4 : Dev},
        inClient clearInstallationResults { d1 with n := d1.n + 1, cl := { d1.cl with w := { d1.cl.w with fuel := k } }, log := d1.log ++ [Action.sent m ok] } = (o', d4) →
        d4.log = d1.log ++ [.sent m ok] ∧ d4.cl.v = d1.cl.v := by
      intro o' d4 h4
      obtain ⟨cl', h5, rfl⟩ := inClient_run h4
      rcases cwrite_cases h5 with ⟨n, _, _, rfl⟩ | ⟨_, rfl⟩ <;> exact ⟨rfl, rfl⟩
    rcases bind_cases h with ⟨_, d4, g4, h⟩ | ⟨e, g4, rfl⟩
    swap_goal
    · obtain ⟨k1, k2⟩ := hc g4
      exact ⟨k1, k2, .inr hok⟩
    obtain ⟨k1, k2⟩ := hc g4
    simp only [pure_eq, Prod.mk.injEq] at h
    obtain ⟨_, rfl⟩ := h
    exact ⟨k1, k2, .inr hok⟩
  · simp only [pure_eq, Prod.mk.injEq] at h
    obtain ⟨_, rfl⟩ := h
    exact ⟨rfl, rfl, .inl ⟨rfl, rfl⟩⟩

/-- C19 (content). Whatever manifest an attempt to send one puts on the wire, it reports all
results stored at that time, there is no pending installation, and results are gone afterwards
only if the server acknowledged this manifest. -/
theorem C19_manifest_content {env : Env} {p : Peers} {d d' : Dev} {o : Except Err Bool} (h : putManifestSimple env p d = (o, d'))
    {new : List Action} (hn : d'.log = d.log ++ new) :
    (∀ m ok, .sent m ok ∈ new → d.cl.hasPendingUpdates = false ∧ ReportsAll d.cl m) ∧
    (d'.cl.devResult ≠ d.cl.devResult ∨ d'.cl.ecuResults ≠ d.cl.ecuResults → ∃ m, .sent m true ∈ new) := by
  rcases putManifestSimple_cases h with ⟨h1, h2, _, new', h4, h5⟩ | ⟨hp, m, ok, d1, h1, h2, h3, h4⟩
  · have : new = new' := List.append_cancel_left (hn.symm.trans h4)
    subst this
    refine ⟨fun m ok hm => absurd hm (h5 m ok), ?_⟩
    rintro (hc | hc)
    · exact absurd h1 hc
    · exact absurd h2 hc
  · obtain ⟨s1, s2, s3, n1, s4, s5⟩ := (assembleManifest_still env p).of_eq h1
    have : new = n1 ++ [.sent m ok] := List.append_cancel_left (hn.symm.trans (by rw [h2, s4, List.append_assoc]))
    subst this
    constructor
    · intro m' ok' hm
      refine ⟨hp, ?_⟩
      rcases List.mem_append.1 hm with hm | hm
      · exact absurd hm (s5 _ _)
      simp only [List.mem_singleton, Action.sent.injEq] at hm
      obtain ⟨rfl, rfl⟩ := hm
      intro row r hrow hst
      obtain ⟨r', items, k1, k2, k3⟩ := assembleManifest_reports h1 hrow
      refine ⟨r', items, k2, read_stored hst k1, fun e he rowE rE hE hsE => ?_⟩
      obtain ⟨rE', k4, k5⟩ := k3 e he rowE hE
      exact ⟨rE', k5, read_stored hsE k4⟩
    · intro hc
      rcases h4 with ⟨g1, g2⟩ | rfl
      · rw [g1, g2, s1, s2] at hc
        simp at hc
      · exact ⟨m, by simp⟩

/-! ### Histories -/

theorem Spec.UntilAck.nil {P : Manifest → Prop} : UntilAck P [] := by
  intro pre m ok post h
  exact absurd h (by simp)

theorem Spec.NoAck.append {l l' : List Action} (h : NoAck l) (h' : NoAck l') : NoAck (l ++ l') := fun m hm =>
  (List.mem_append.1 hm).elim (h m) (h' m)

theorem Spec.NoAck.left {l l' : List Action} (h : NoAck (l ++ l')) : NoAck l := fun m hm => h m (List.mem_append.2 (.inl hm))

theorem Spec.NoAck.right {l l' : List Action} (h : NoAck (l ++ l')) : NoAck l' := fun m hm => h m (List.mem_append.2 (.inr hm))

theorem Spec.UntilAck.append {P : Manifest → Prop} {l l' : List Action} (h : UntilAck P l) (h' : NoAck l → UntilAck P l') : UntilAck P (l ++ l') := by
  intro pre m ok post heq hn
  rw [List.append_eq_append_iff] at heq
  rcases heq with ⟨a, ha, hb⟩ | ⟨b, ha, hb⟩
  · -- the manifest lies in `l'`
    subst ha
    exact h' hn.left a m ok post hb hn.right
  · cases b with
    | nil =>
      simp only [List.nil_append, List.append_nil] at ha hb
      subst ha
      exact h' hn [] m ok post hb.symm (by intro _ hm; cases hm)
    | cons x b =>
      simp only [List.cons_append, List.cons.injEq] at hb
      obtain ⟨rfl, rfl⟩ := hb
      exact h pre m ok b ha hn

theorem Spec.UntilAck.plain {P : Manifest → Prop} {l : List Action} (h : ∀ m ok, Action.sent m ok ∉ l) : UntilAck P l := by
  intro pre m ok post heq _
  exact absurd (by rw [heq]; simp) (h m ok)

/-- What holds between two states of a history; `q` says that ECU `s` stays configured. -/
def Carries (q : Prop) (s : String) (d d' : Dev) : Prop :=
  ∃ new, d'.log = d.log ++ new ∧
    (HasDeviceResult d → UntilAck (fun m => m.report.isSome = true) new ∧ (NoAck new → HasDeviceResult d')) ∧
    (q → IsRegistered s d → IsRegistered s d') ∧
    (HasEcuResult s d → NoAck new → HasEcuResult s d') ∧
    (q → HasDeviceResult d → IsRegistered s d → HasEcuResult s d → UntilAck (ReportsEcu s) new)

/-- The part on clients. -/
def CarriesCl (q : Prop) (s : String) (a b : Client) : Prop :=
  (a.devResult.isSome = true → b.devResult.isSome = true) ∧ (q → s ∈ a.v.ecus.map (·.serial) → s ∈ b.v.ecus.map (·.serial)) ∧
    ((a.ecuResults.lookup s).isSome = true → (b.ecuResults.lookup s).isSome = true)

variable {q : Prop} {s : String}

theorem carries_pre : IsPre (Carries q s) := by
  refine ⟨fun d => ⟨[], (List.append_nil _).symm, fun h => ⟨.nil, fun _ => h⟩, fun _ h => h, fun h _ => h, fun _ _ _ _ => .nil⟩, ?_⟩
  rintro a b c ⟨n1, h1, h2, h3, h4, h5⟩ ⟨n2, g1, g2, g3, g4, g5⟩
  refine ⟨n1 ++ n2, by rw [g1, h1, List.append_assoc], fun hd => ?_, fun c h => g3 c (h3 c h), fun he hn => g4 (h4 he hn.left) hn.right, fun c hd hr he => ?_⟩
  · exact ⟨(h2 hd).1.append (fun hn => (g2 ((h2 hd).2 hn)).1), fun hn => (g2 ((h2 hd).2 hn.left)).2 hn.right⟩
  · exact (h5 c hd hr he).append (fun hn => g5 c ((h2 hd).2 hn) (h3 c hr) (h4 he hn))

theorem carriesCl_pre : ClPre (CarriesCl q s) :=
  ⟨⟨fun _ => ⟨id, fun _ h => h, id⟩, fun _ _ _ h1 h2 => ⟨h2.1 ∘ h1.1, fun c h => h2.2.1 c (h1.2.1 c h), h2.2.2 ∘ h1.2.2⟩⟩, fun _ _ => ⟨id, fun _ h => h, id⟩⟩

theorem carries_of_cl {d : Dev} {d' : Dev} (h : CarriesCl q s d.cl d'.cl) {new : List Action} (hl : d'.log = d.log ++ new)
    (hn : ∀ m ok, Action.sent m ok ∉ new) : Carries q s d d' :=
  ⟨new, hl, fun hd => ⟨.plain hn, fun _ => h.1 hd⟩, h.2.1, fun he _ => h.2.2 he, fun _ _ _ _ => .plain hn⟩

theorem carries_frame : DevFrame (CarriesCl q s) (fun a => ∀ m ok, a ≠ .sent m ok) (Carries q s) where
  cl := carriesCl_pre
  versions := fun cl env s t m => ⟨id, fun _ => by show _ → _ ∈ (cl.v.saveInstalledVersion env s t m).ecus.map _; rw [VersionDb.save_ecus]; exact id, id⟩
  ecuResult := fun cl k row => ⟨id, fun _ h => h, by
    show _ → ((upsert k row cl.ecuResults).lookup s).isSome = true
    rw [lookup_upsert]
    split
    · intro _; rfl
    · exact id⟩
  devResult := fun _ _ => ⟨fun _ => rfl, fun _ h => h, id⟩
  pre := carries_pre
  client := fun _ _ h => carries_of_cl h (List.append_nil _).symm (by simp)
  log := fun _ a ha => carries_of_cl (carriesCl_pre.pre.refl _) rfl (fun m ok hm => ha m ok (by simpa using (List.mem_singleton.1 hm).symm))
  asked := fun _ _ => carries_of_cl (carriesCl_pre.pre.refl _) (List.append_nil _).symm (by simp)
  cache := fun _ _ => carries_of_cl (carriesCl_pre.pre.refl _) (List.append_nil _).symm (by simp)

theorem Still.carries {d d' : Dev} (h : Still d d') : Carries q s d d' := by
  obtain ⟨h1, h2, h3, new, h4, h5⟩ := h
  exact carries_of_cl ⟨by rw [h1]; exact id, fun _ => by rw [h3]; exact id, by rw [h2]; exact id⟩ h4 h5

theorem putManifestSimple_carries (env : Env) (p : Peers) : Preserves (Carries q s) (putManifestSimple env p) := by
  intro d
  cases hx : putManifestSimple env p d with
  | mk o d' =>
  show Carries q s d d'
  rcases putManifestSimple_cases hx with h | ⟨_, m, ok, d1, h1, h2, h3, h4⟩
  · exact h.carries
  obtain ⟨s1, s2, s3, n1, s4, s5⟩ := (assembleManifest_still env p).of_eq h1
  have sole : ∀ pre m' ok' post, n1 ++ [Action.sent m ok] = pre ++ .sent m' ok' :: post → m' = m := by
    intro pre m' ok' post heq
    have : Action.sent m' ok' ∈ n1 ++ [Action.sent m ok] := by rw [heq]; simp
    rcases List.mem_append.1 this with hm | hm
    · exact absurd hm (s5 _ _)
    · simp only [List.mem_singleton, Action.sent.injEq] at hm
      exact hm.1
  refine ⟨n1 ++ [.sent m ok], by rw [h2, s4, List.append_assoc], fun hd => ⟨?_, ?_⟩, ?_, ?_, ?_⟩
  · intro pre m' ok' post heq _
    obtain ⟨row, hrow⟩ := Option.isSome_iff_exists.1 hd
    obtain ⟨r, items, _, hr, _⟩ := assembleManifest_reports h1 hrow
    rw [sole _ _ _ _ heq]
    show m.report.isSome = true
    rw [hr]; rfl
  · intro hn
    rcases h4 with ⟨g1, g2⟩ | rfl
    · show d'.cl.devResult.isSome = true
      rw [g1, s1]; exact hd
    · exact absurd (by simp) (hn m)
  · intro _
    show _ → s ∈ d'.cl.v.ecus.map _
    rw [h3, s3]; exact id
  · intro he hn
    rcases h4 with ⟨g1, g2⟩ | rfl
    · show (d'.cl.ecuResults.lookup s).isSome = true
      rw [g2, s2]; exact he
    · exact absurd (by simp) (hn m)
  · intro _ hd hr he pre m' ok' post heq _
    obtain ⟨row, hrow⟩ := Option.isSome_iff_exists.1 hd
    obtain ⟨rowE, hE⟩ := Option.isSome_iff_exists.1 he
    obtain ⟨e, hm, rfl⟩ := List.mem_map.1 hr
    obtain ⟨r, items, _, hrep, hall⟩ := assembleManifest_reports h1 hrow
    obtain ⟨rE, _, hin⟩ := hall e hm rowE hE
    rw [sole _ _ _ _ heq]
    exact ⟨r, _, _, items, rE, hrep, hin⟩

theorem finalizeAfterReboot_carries (env : Env) (p : Peers) : Preserves (Carries q s) (finalizeAfterReboot env p) := by
  have hf := carries_frame (q := q) (s := s)
  unfold finalizeAfterReboot
  wpres (carries_pre (q := q) (s := s))
  all_goals first
    | exact putManifestSimple_carries env p
    | exact hf.ask _
    | exact hf.saveVersion _ _ _ _
    | exact hf.saveEcuResult _ _
    | exact hf.storeDeviceResult _ _ _
    | exact hf.inWorld _
    | exact hf.act (by intros; simp)

theorem initEcus_carries (cfg : EcuConfig) (ok : Bool) (hs : q → s ∈ cfg.serials.map (·.1)) : Preserves (CarriesCl q s) (initEcus cfg ok) := by
  have hp := carriesCl_pre (q := q) (s := s)
  unfold initEcus initReportCounter
  wpres hp.pre
  all_goals first
    | exact hp.cwrite (fun _ => ⟨id, fun _ h => h, id⟩)
    | skip
  refine hp.cwrite (fun cl => ⟨id, fun hq => ?_, id⟩)
  replace hs := hs hq
  show _ → s ∈ (cl.v.storeEcuSerials (cfg.primary :: cfg.secondaries)).ecus.map _
  intro hold
  simp only [VersionDb.storeEcuSerials]
  split
  · simp only [EcuConfig.serials, List.map_cons, List.mem_cons] at hs ⊢
    rcases hs with rfl | hs
    · exact .inl rfl
    · right
      unfold VersionDb.secondaryRows
      simpa [List.map_map, Function.comp_def] using hs
  · exact hold

theorem startUp_carries (env : Env) (p : Peers) (cfg : EcuConfig) (ok : Bool) (hs : q → s ∈ cfg.serials.map (·.1)) :
    Preserves (Carries q s) (startUp env p cfg ok) := by
  have hf := carries_frame (q := q) (s := s)
  unfold startUp
  wpres (carries_pre (q := q) (s := s))
  all_goals first
    | exact finalizeAfterReboot_carries env p
    | exact hf.inClient (initEcus_carries cfg ok hs)
    | exact hf.inClient (.modify (fun _ => ⟨id, fun _ h => h, id⟩))
    | exact hf.cache _ _

theorem fetchMeta_carries (c : Ctx) (p : Peers) : Preserves (Carries q s) (fetchMeta c p) := by
  have hf := carries_frame (q := q) (s := s)
  unfold fetchMeta
  wpres (carries_pre (q := q) (s := s))
  all_goals first
    | exact putManifestSimple_carries _ p
    | exact hf.checkPending _ _
    | exact hf.inClient (hf.cl.checkUpdates hf.devResult _)

theorem run_carries (c : Ctx) (p : Peers) (call : DevCall) (hs : ∀ cfg ok, call = .init cfg ok → q → s ∈ cfg.serials.map (·.1)) :
    Preserves (Carries q s) (call.run c p) := by
  have hf := carries_frame (q := q) (s := s)
  have hk := carries_pre (q := q) (s := s)
  cases call with
  | init cfg ok => exact startUp_carries _ _ _ _ (hs _ _ rfl)
  | install ts => exact .bind hk (hf.uptaneInstall (fun _ _ h => h) _ _ _) (fun _ => .pure hk)
  | putManifest => exact .bind hk (putManifestSimple_carries _ _) (fun _ => .pure hk)
  | fetchMeta => exact .bind hk (fetchMeta_carries _ _) (fun _ => .pure hk)
  | checkUpdates => exact .bind hk (hf.inClient (hf.cl.checkUpdates hf.devResult _)) (fun _ => .pure hk)
  | checkPending => exact hf.checkPending _ _
  | storeFailure r => exact hf.inClient (hf.storeInstallationFailure r)
  | setRaw raw =>
    refine hf.inClient ?_
    unfold setRawReport
    exact hf.cl.cwrite (fun cl => ⟨by simp, fun _ h => h, id⟩)

theorem step_carries (env : Env) (d : Dev) (e : DevEvent) (hs : ∀ cfg ok, e.call = .init cfg ok → q → s ∈ cfg.serials.map (·.1)) :
    Carries q s d (e.step env d) := by
  have off : ∀ d : Dev, Carries q s d d.off := fun d => carries_of_cl ⟨id, fun _ h => h, id⟩ (List.append_nil _).symm (by simp)
  have start : Carries q s d (e.start d) := by
    unfold DevEvent.start
    split
    · exact carries_of_cl ⟨id, fun _ h => h, id⟩ (List.append_nil _).symm (by simp)
    · exact carries_of_cl ⟨id, fun _ h => h, id⟩ (List.append_nil _).symm (by simp)
  unfold DevEvent.step
  have run := run_carries { env := env, net := e.net, clock := e.clock } e.peers e.call hs
  split
  · split
    · next hx => exact carries_pre.trans _ _ _ (carries_pre.trans _ _ _ start (run.of_eq hx)) (off _)
    · next hx => exact carries_pre.trans _ _ _ (carries_pre.trans _ _ _ start (run.of_eq hx)) (off _)
    · next hx => exact carries_pre.trans _ _ _ start (run.of_eq hx)
  · exact carries_pre.refl _

theorem runDevice_carries (env : Env) : ∀ (es : List DevEvent) (d : Dev), (q → StaysConfigured s es) → Carries q s d (runDevice env d es)
  | [], d, _ => carries_pre.refl d
  | e :: es, d, h => carries_pre.trans _ _ _ (step_carries env d e (fun cfg ok hc hq => h hq e (.head _) cfg ok hc))
      (runDevice_carries env es _ (fun hq e' h' => h hq e' (.tail _ h')))

/-- C19 (device). In every history from any state in which a result of the device is stored: each
manifest sent up to the first acknowledged one carries a report, and the result is still stored
as long as no manifest was acknowledged. -/
theorem C19_device_result_reported (env : Env) (d : Dev) (es : List DevEvent) (h : HasDeviceResult d) :
    ∃ new, (runDevice env d es).log = d.log ++ new ∧ UntilAck (fun m => m.report.isSome = true) new ∧
      (NoAck new → HasDeviceResult (runDevice env d es)) := by
  obtain ⟨new, h1, h2, _⟩ := runDevice_carries (q := False) (s := "") env es d False.elim
  exact ⟨new, h1, h2 h⟩

/-- C19 (ECUs). In every history from any state in which results of the device and of the
registered ECU `s` are stored, and which does not remove `s` from the configuration: each manifest
sent up to the first acknowledged one lists a result of `s`, and the result is still stored as long
as no manifest was acknowledged.

Missing: results of ECUs stored while there is no result of the device, see
`C19_ecu_result_lost`. -/
theorem C19_ecu_results_reported_partial (env : Env) (d : Dev) (es : List DevEvent) (s : String) (hd : HasDeviceResult d)
    (hr : IsRegistered s d) (he : HasEcuResult s d) (hs : StaysConfigured s es) :
    ∃ new, (runDevice env d es).log = d.log ++ new ∧ UntilAck (ReportsEcu s) new ∧
      (NoAck new → HasEcuResult s (runDevice env d es)) := by
  obtain ⟨new, h1, _, _, h4, h5⟩ := runDevice_carries env es d (fun _ : True => hs)
  exact ⟨new, h1, h5 trivial hd hr he, h4 he⟩

/-! ### Pending installations -/

/-- Nothing is sent. -/
def NoSend (d d' : Dev) : Prop := ∃ new, d'.log = d.log ++ new ∧ ∀ m ok, Action.sent m ok ∉ new

theorem noSend_pre : IsPre NoSend := by
  refine ⟨fun _ => ⟨[], (List.append_nil _).symm, by simp⟩, ?_⟩
  rintro a b c ⟨n1, h4, h5⟩ ⟨n2, g4, g5⟩
  refine ⟨n1 ++ n2, by rw [g4, h4, List.append_assoc], fun m ok hm => ?_⟩
  rcases List.mem_append.1 hm with hm | hm
  · exact h5 _ _ hm
  · exact g5 _ _ hm

theorem noSend_frame : DevFrame (fun _ _ => True) (fun a => ∀ m ok, a ≠ .sent m ok) NoSend where
  cl := ⟨⟨fun _ => trivial, fun _ _ _ _ _ => trivial⟩, fun _ _ => trivial⟩
  versions := fun _ _ _ _ _ => trivial
  ecuResult := fun _ _ _ => trivial
  devResult := fun _ _ => trivial
  pre := noSend_pre
  client := fun _ _ _ => ⟨[], (List.append_nil _).symm, by simp⟩
  log := fun _ a ha => ⟨[a], rfl, fun m ok hm => ha m ok (by simpa using (List.mem_singleton.1 hm).symm)⟩
  asked := fun _ _ => ⟨[], (List.append_nil _).symm, by simp⟩
  cache := fun _ _ => ⟨[], (List.append_nil _).symm, by simp⟩

/-- If something was sent, nothing is pending at the end. -/
def SendsIdle (d d' : Dev) : Prop :=
  ∃ new, d'.log = d.log ++ new ∧ ((∃ m ok, Action.sent m ok ∈ new) → d'.cl.hasPendingUpdates = false)

theorem NoSend.idle {d d' : Dev} (h : NoSend d d') : SendsIdle d d' := by
  obtain ⟨n, h1, h2⟩ := h
  exact ⟨n, h1, fun ⟨m, ok, hm⟩ => absurd hm (h2 m ok)⟩

theorem NoSend.then {a b c : Dev} (h : NoSend a b) (h' : SendsIdle b c) : SendsIdle a c := by
  obtain ⟨n1, h1, h2⟩ := h
  obtain ⟨n2, g1, g2⟩ := h'
  refine ⟨n1 ++ n2, by rw [g1, h1, List.append_assoc], fun ⟨m, ok, hm⟩ => g2 ⟨m, ok, ?_⟩⟩
  exact (List.mem_append.1 hm).resolve_left (h2 m ok)

theorem SendsIdle.still {a b c : Dev} (h : SendsIdle a b) (h' : NoSend b c) (hv : c.cl.v = b.cl.v) : SendsIdle a c := by
  obtain ⟨n1, h1, h2⟩ := h
  obtain ⟨n2, g1, g2⟩ := h'
  refine ⟨n1 ++ n2, by rw [g1, h1, List.append_assoc], fun ⟨m, ok, hm⟩ => ?_⟩
  have := h2 ⟨m, ok, (List.mem_append.1 hm).resolve_right (g2 m ok)⟩
  unfold Client.hasPendingUpdates at *
  rw [hv]; exact this

theorem idle_of {α : Type} {m : D α} (h : Preserves NoSend m) : Preserves SendsIdle m := fun d => (h d).idle

theorem idle_bind {α β : Type} {m : D α} {f : α → D β} (h : Preserves NoSend m) (hf : ∀ a, Preserves SendsIdle (f a)) :
    Preserves SendsIdle (m >>= f) := by
  intro d
  cases hx : (m >>= f) d with
  | mk o d' =>
  show SendsIdle d d'
  rcases bind_cases hx with ⟨a, d1, h1, h2⟩ | ⟨e, h1, rfl⟩
  · exact (h.of_eq h1).then ((hf a).of_eq h2)
  · exact (h.of_eq h1).idle

theorem idle_still {α β : Type} {m : D α} {f : α → D β} (h : Preserves SendsIdle m) (hf : ∀ a, Preserves NoSend (f a))
    (hv : ∀ a, Preserves (fun d d' : Dev => d'.cl.v = d.cl.v) (f a)) : Preserves SendsIdle (m >>= f) := by
  intro d
  cases hx : (m >>= f) d with
  | mk o d' =>
  show SendsIdle d d'
  rcases bind_cases hx with ⟨a, d1, h1, h2⟩ | ⟨e, h1, rfl⟩
  · exact (h.of_eq h1).still ((hf a).of_eq h2) ((hv a).of_eq h2)
  · exact h.of_eq h1

theorem sameVersions_pre : IsPre (fun d d' : Dev => d'.cl.v = d.cl.v) := ⟨fun _ => rfl, fun _ _ _ h1 h2 => h2.trans h1⟩

theorem idle_pure {α : Type} (a : α) : Preserves SendsIdle (pure a : D α) := idle_of (.pure noSend_pre)

theorem putManifestSimple_idle (env : Env) (p : Peers) : Preserves SendsIdle (putManifestSimple env p) := by
  intro d
  cases hx : putManifestSimple env p d with
  | mk o d' =>
  show SendsIdle d d'
  rcases putManifestSimple_cases hx with ⟨_, _, _, h⟩ | ⟨hp, m, ok, d1, h1, h2, h3, _⟩
  · exact NoSend.idle h
  obtain ⟨_, _, s3, n1, s4, _⟩ := (assembleManifest_still env p).of_eq h1
  refine ⟨n1 ++ [.sent m ok], by rw [h2, s4, List.append_assoc], fun _ => ?_⟩
  unfold Client.hasPendingUpdates at *
  rw [h3, s3]; exact hp

theorem finalizeAfterReboot_idle (env : Env) (p : Peers) : Preserves SendsIdle (finalizeAfterReboot env p) := by
  have hf := noSend_frame
  have hp := noSend_pre
  unfold finalizeAfterReboot
  refine idle_bind (.gets hp) (fun d => ?_)
  split
  · exact idle_pure _
  refine idle_bind (.lift hp) (fun x => ?_)
  split
  · exact idle_pure _
  refine idle_bind (hf.act (by intros; simp)) (fun _ => ?_)
  refine idle_bind (hf.ask _) (fun _ => ?_)
  refine idle_bind (.lift hp) (fun _ => ?_)
  refine idle_bind (.lift hp) (fun _ => ?_)
  split
  · exact idle_pure _
  refine idle_bind (hf.saveEcuResult _ _) (fun _ => ?_)
  refine idle_bind (hf.saveVersion _ _ _ _) (fun _ => ?_)
  refine idle_bind (hf.inWorld _) (fun _ => ?_)
  refine idle_bind (.gets hp) (fun _ => ?_)
  refine idle_bind (.lift hp) (fun _ => ?_)
  refine idle_bind (hf.storeDeviceResult _ _ _) (fun _ => ?_)
  exact idle_still (putManifestSimple_idle env p) (fun _ => .pure hp) (fun _ => .pure sameVersions_pre)

theorem run_idle (c : Ctx) (p : Peers) (call : DevCall) : Preserves SendsIdle (call.run c p) := by
  have hf := noSend_frame
  have hk := noSend_pre
  have hv : IsPre (fun d d' : Dev => d'.cl.v = d.cl.v) := ⟨fun _ => rfl, fun _ _ _ h1 h2 => h2.trans h1⟩
  cases call with
  | init cfg ok =>
    show Preserves SendsIdle (startUp c.env p cfg ok)
    unfold startUp
    refine idle_bind (hf.inClient (.modify (fun _ => trivial))) (fun _ => ?_)
    refine idle_bind (hf.inClient (fun _ => trivial)) (fun _ => ?_)
    refine idle_bind (.modify (fun d => hf.cache d _)) (fun _ => ?_)
    refine idle_bind (.gets hk) (fun _ => ?_)
    refine idle_bind (.lift hk) (fun _ => ?_)
    split
    · exact idle_bind (hf.inClient (.modify (fun _ => trivial))) (fun _ => finalizeAfterReboot_idle _ _)
    · exact idle_of (.throw hk)
  | install ts => exact idle_of (.bind hk (hf.uptaneInstall (fun _ _ h => h) _ _ _) (fun _ => .pure hk))
  | putManifest => exact idle_still (putManifestSimple_idle _ _) (fun _ => .pure hk) (fun _ => .pure hv)
  | fetchMeta =>
    refine idle_still ?_ (fun _ => .pure hk) (fun _ => .pure hv)
    unfold Aktualizr.fetchMeta
    refine idle_bind (.gets hk) (fun _ => ?_)
    have rest : Preserves SendsIdle (do
        let d ← gets id
        if d.cl.hasPendingUpdates then
          pure ⟨[], 0, .error, .null, "There are pending updates, no new updates are checked"⟩
        else do
          let _ ← putManifestSimple c.env p
          inClient (checkUpdates c) : D UpdateCheck) := by
      refine idle_bind (.gets hk) (fun _ => ?_)
      split
      · exact idle_pure _
      · refine idle_still (putManifestSimple_idle _ _) (fun _ => hf.inClient (fun _ => trivial)) (fun _ => ?_)
        have hcl : ClPre (fun a b : Client => b.v = a.v) := ⟨⟨fun _ => rfl, fun _ _ _ h1 h2 => h2.trans h1⟩, fun _ _ => rfl⟩
        exact inClient_pres (R := fun a b => b.v = a.v) (fun _ _ h => h) (hcl.checkUpdates (fun _ _ => rfl) c)
    split
    · exact idle_bind (hf.checkPending _ _) (fun _ => rest)
    · exact rest
  | checkUpdates => exact idle_of (.bind hk (hf.inClient (fun _ => trivial)) (fun _ => .pure hk))
  | checkPending => exact idle_of (hf.checkPending _ _)
  | storeFailure r => exact idle_of (hf.inClient (fun _ => trivial))
  | setRaw raw => exact idle_of (hf.inClient (fun _ => trivial))

/-- C19 (pending). If an event sends a manifest, or a result stored before it is gone after it,
then no installation is pending after the event; and a result gone means an acknowledged
manifest. -/
theorem C19_never_while_pending (env : Env) (d : Dev) (e : DevEvent) :
    ∃ new, (e.step env d).log = d.log ++ new ∧
      ((∃ m ok, .sent m ok ∈ new) → (e.step env d).cl.hasPendingUpdates = false) ∧
      ((HasDeviceResult d ∧ ¬ HasDeviceResult (e.step env d)) ∨ (∃ s, HasEcuResult s d ∧ ¬ HasEcuResult s (e.step env d)) →
        (∃ m, .sent m true ∈ new) ∧ (e.step env d).cl.hasPendingUpdates = false) := by
  have idle : SendsIdle d (e.step env d) := by
    have start : ∀ d : Dev, (e.start d).log = d.log := by
      intro d
      unfold DevEvent.start
      split <;> rfl
    unfold DevEvent.step
    have run := run_idle { env := env, net := e.net, clock := e.clock } e.peers e.call (e.start d)
    split
    · split
      · next hx => rw [hx] at run; obtain ⟨n, h1, h2⟩ := run; exact ⟨n, by rw [start] at h1; exact h1, h2⟩
      · next hx => rw [hx] at run; obtain ⟨n, h1, h2⟩ := run; exact ⟨n, by rw [start] at h1; exact h1, h2⟩
      · next hx => rw [hx] at run; obtain ⟨n, h1, h2⟩ := run; exact ⟨n, by rw [start] at h1; exact h1, h2⟩
    · exact (noSend_pre.refl _).idle
  obtain ⟨new, h1, h2⟩ := idle
  refine ⟨new, h1, h2, ?_⟩
  have key : (∃ m, Action.sent m true ∈ new) → (∃ m, Action.sent m true ∈ new) ∧ (e.step env d).cl.hasPendingUpdates = false :=
    fun ⟨m, hm⟩ => ⟨⟨m, hm⟩, h2 ⟨m, true, hm⟩⟩
  rintro (⟨hd, hn⟩ | ⟨s, he, hn⟩)
  · apply key
    obtain ⟨n', g1, _, g3⟩ := C19_device_result_reported env d [e] hd
    have : new = n' := List.append_cancel_left (h1.symm.trans g1)
    subst this
    refine Classical.byContradiction (fun hc => hn (g3 (fun m hm => hc ⟨m, hm⟩)))
  · apply key
    obtain ⟨n', g1, _, _, g2, _⟩ := step_carries (q := False) (s := s) env d e (fun _ _ _ => False.elim)
    have : new = n' := List.append_cancel_left (h1.symm.trans g1)
    subst this
    refine Classical.byContradiction (fun hc => hn (g2 he (fun m hm => hc ⟨m, hm⟩)))

/-! ### Cases -/

namespace Toy

/-- The manifests sent: acknowledged or not, and the reported result numbers. -/
def sends (log : List Action) : List (Bool × Option (Int × List (String × Int))) :=
  log.filterMap (fun a => match a with
    | .sent m ok => some (ok, m.report.map (fun r => (r.1.code.num, r.2.2.2.map (fun q => (q.1, q.2.code.num)))))
    | _ => none)

/-- An event with the servers of `Toy.both`. -/
def online (call : DevCall) : DevEvent := { event call with net := net both }

/-- An update of both ECUs. -/
def fw : List Target := [targetFor "fw" "abc" [("e1", "h1"), ("e2", "h1")]]

/-- Registration, a check for updates, and an installation with the given number of effects
before the process dies. -/
def life (fuel : Nat) : List DevEvent := [event (.init (cfg "e1" ["e2"]) true), online .checkUpdates, event (.install fw) (fuel := fuel)]

end Toy

/-- Not vacuous: after an installation there are results of the device and both ECUs; a refused
manifest reports them, a later start and an accepted manifest report them again; the next one
does not. -/
example :
    let d := runDevice Toy.E Dev.fresh (Toy.life 1000)
    let es := [Toy.event .putManifest (ack := false), Toy.event (.init (Toy.cfg "e1" ["e2"]) true), Toy.event .putManifest, Toy.event .putManifest]
    HasDeviceResult d ∧ IsRegistered "e2" d ∧ HasEcuResult "e2" d ∧
    Toy.sends (runDevice Toy.E d es).log = [(false, some (0, [("e1", 0), ("e2", 0)])), (true, some (0, [("e1", 0), ("e2", 0)])), (true, none)] := by
  unfold HasDeviceResult IsRegistered HasEcuResult
  decide +kernel

/-- Why the claim on ECUs is partial: the process dies in `uptaneInstall` after the results of both
ECUs were stored but before that of the device. The manifest sent after the restart reports
nothing, and when it is acknowledged the results are erased. -/
theorem C19_ecu_result_lost :
    ∃ (d : Dev) (es : List DevEvent), HasEcuResult "e1" d ∧ HasEcuResult "e2" d ∧ IsRegistered "e1" d ∧ IsRegistered "e2" d ∧
      StaysConfigured "e1" es ∧ StaysConfigured "e2" es ∧ d.log.all (fun a => (Toy.tag a).1 != "sent") ∧
      Toy.sends (runDevice Toy.E d es).log = [(true, none)] ∧
      ¬ HasEcuResult "e1" (runDevice Toy.E d es) ∧ ¬ HasEcuResult "e2" (runDevice Toy.E d es) := by
  refine ⟨runDevice Toy.E Dev.fresh (Toy.life 11), [Toy.event (.init (Toy.cfg "e1" ["e2"]) true), Toy.event .putManifest], ?_⟩
  have conf : ∀ s, s ∈ (Toy.cfg "e1" ["e2"]).serials.map (·.1) →
      StaysConfigured s [Toy.event (.init (Toy.cfg "e1" ["e2"]) true), Toy.event .putManifest] := by
    intro s hs e he c ok hc
    simp only [List.mem_cons, List.not_mem_nil, or_false] at he
    rcases he with rfl | rfl
    · simp only [Toy.event, DevCall.init.injEq] at hc
      rw [← hc.1]; exact hs
    · simp [Toy.event] at hc
  refine ⟨?_, ?_, ?_, ?_, conf _ (by decide), conf _ (by decide), ?_, ?_, ?_, ?_⟩
  · show (_ : Bool) = true; decide +kernel
  · show (_ : Bool) = true; decide +kernel
  · unfold IsRegistered; decide +kernel
  · unfold IsRegistered; decide +kernel
  · decide +kernel
  · decide +kernel
  · unfold HasEcuResult; decide +kernel
  · unfold HasEcuResult; decide +kernel

end Aktualizr
