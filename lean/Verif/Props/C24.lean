import Verif.Lemmas.Install
import Verif.Props.C25

/-!
# C24 Nothing is installed without passing verification
-/

namespace Aktualizr

open M Spec

namespace Spec

/-- ECU `serial` is among the ECUs the target is for. -/
def AssignedTo (t : Target) (serial : String) : Prop := ∃ hw, (serial, hw) ∈ t.ecus

/-- The Primary has a copy of the image: it is for the Primary itself or it is not an OSTree
commit. -/
def HasImage (primary : String) (t : Target) : Prop :=
  AssignedTo t primary ∨ ¬ (t.type = "OSTREE" ∨ t.type = "" ∧ t.length = 0)

/-- The action changes something on an ECU. -/
def Touches : Action → Prop
  | .verified _ _ => False
  | .signed _ _ => False
  | .sent _ _ => False
  | _ => True

/-- The action is part of installing `ts` on the Primary and the registered Secondaries: only
requested targets, each only on ECUs it is assigned to. -/
def Asked (ts : List Target) (primary : String) (secondaries : List (String × String)) : Action → Prop
  | .notify => ∃ t ∈ ts, AssignedTo t primary
  | .install t => ∃ t0 ∈ ts, AssignedTo t0 primary ∧ t = { t0 with correlationId := t.correlationId }
  | .putRoot s _ _ => s ∈ secondaries.map Prod.fst ∧ ∃ t ∈ ts, AssignedTo t s
  | .putMetadata s t => s ∈ secondaries.map Prod.fst ∧ t ∈ ts ∧ AssignedTo t s
  | .sendFirmware s t => s ∈ secondaries.map Prod.fst ∧ t ∈ ts ∧ AssignedTo t s
  | .secInstall s t => s ∈ secondaries.map Prod.fst ∧ t ∈ ts ∧ AssignedTo t s
  | _ => False

end Spec

/-! ### The log of the installation code -/

/-- The log has grown by actions satisfying `P`; the ECUs are the same. -/
def Logs (P : String → List (String × String) → Action → Prop) (d d' : Dev) : Prop :=
  d'.cl.primary = d.cl.primary ∧ d'.cl.secondaries = d.cl.secondaries ∧
  ∃ new, d'.log = d.log ++ new ∧ ∀ a ∈ new, P d.cl.primary d.cl.secondaries a

theorem logs_pre (P) : IsPre (Logs P) := by
  constructor
  · exact fun d => ⟨rfl, rfl, [], by simp, by simp⟩
  · rintro a b c ⟨h1, h2, new, h3, h4⟩ ⟨g1, g2, new', g3, g4⟩
    refine ⟨g1.trans h1, g2.trans h2, new ++ new', by rw [g3, h3, List.append_assoc], ?_⟩
    intro x hx
    rcases List.mem_append.1 hx with hx | hx
    · exact h4 x hx
    · have := g4 x hx; rwa [h1, h2] at this

/-- The client's ECUs are the same. -/
def SameEcus (a b : Client) : Prop := b.primary = a.primary ∧ b.secondaries = a.secondaries

theorem sameEcus_cl : ClPre SameEcus :=
  ⟨⟨fun _ => ⟨rfl, rfl⟩, fun _ _ _ h1 h2 => ⟨h2.1.trans h1.1, h2.2.trans h1.2⟩⟩, fun _ _ => ⟨rfl, rfl⟩⟩

variable {P : String → List (String × String) → Action → Prop} {α : Type}

theorem logs_client {m : C α} (hm : Preserves SameEcus m) : Preserves (Logs P) (inClient m) :=
  inClient_pres (R := SameEcus) (fun _ _ h => ⟨h.1, h.2, [], by simp, by simp⟩) hm

theorem logs_ask (f : Nat → α) : Preserves (Logs P) (ask f) := fun _ => ⟨rfl, rfl, [], by simp, by simp⟩

theorem logs_act {a : Action} {d : Dev} (h : P d.cl.primary d.cl.secondaries a) : Runs (Logs P) (act a) d := by
  cases hx : act a d with
  | mk o d' =>
    rcases act_cases hx with ⟨k, hk, rfl, rfl⟩ | ⟨rfl, rfl⟩
    · exact runs_of_eq hx ⟨rfl, rfl, [a], rfl, by simpa using h⟩
    · exact runs_of_eq hx ((logs_pre P).refl _)

theorem logs_saveVersion (env : Env) (s : String) (t : Target) (mode : UpdateMode) : Preserves (Logs P) (saveVersion env s t mode) :=
  logs_client (sameEcus_cl.cwrite (fun _ => ⟨rfl, rfl⟩))

theorem logs_saveEcuResult (s : String) (r : InstResult) : Preserves (Logs P) (inClient (saveEcuResult s r)) :=
  logs_client (sameEcus_cl.saveEcuResult (fun _ _ _ => ⟨rfl, rfl⟩) _ _)

theorem logs_storeDeviceResult (r : InstResult) (raw cid : String) : Preserves (Logs P) (inClient (storeDeviceResult r raw cid)) :=
  logs_client (sameEcus_cl.storeDeviceResult (fun _ _ => ⟨rfl, rfl⟩) _ _ _)

theorem assignments_mem {ts : List Target} {t : Target} {s hw : String} :
    (t, s, hw) ∈ assignments ts ↔ t ∈ ts ∧ (s, hw) ∈ t.ecus := by
  unfold assignments
  simp only [List.mem_flatMap, List.mem_map, Prod.mk.injEq, Prod.exists]
  constructor
  · rintro ⟨t', ht, a, b, hab, rfl, rfl, rfl⟩; exact ⟨ht, hab⟩
  · rintro ⟨ht, hab⟩; exact ⟨t, ht, s, hw, hab, rfl, rfl, rfl⟩

theorem any_serial {l : List (String × String)} {s : String} (h : l.any (fun x => x.1 == s) = true) : s ∈ l.map Prod.fst := by
  obtain ⟨x, hx, he⟩ := List.any_eq_true.1 h
  exact List.mem_map.2 ⟨x, hx, by simpa using he⟩

theorem rotateSecLoop_logs (c : Ctx) (p : Peers) (repo : Repo) (serial : String) (k : Nat) :
    ∀ v r (d : Dev), (∀ b root, P d.cl.primary d.cl.secondaries (.putRoot serial b root)) → Runs (Logs P) (rotateSecLoop c p repo serial k v r) d := by
  induction k with
  | zero => intro v r d _; exact (Preserves.pure (logs_pre P)).runs
  | succ k ih =>
    intro v r d hp
    have hr := logs_pre P
    unfold rotateSecLoop
    have h1 : Preserves (Logs P) (rootForSecondary c repo v) := by
      unfold rootForSecondary
      wpres hr
      exact logs_client (sameEcus_cl.inWorld _)
    refine Runs.bind hr h1.runs (fun a d1 e1 => ?_)
    have k1 := h1.of_eq e1
    split
    · exact (Preserves.pure hr).runs
    · have hp1 : ∀ b root, P d1.cl.primary d1.cl.secondaries (.putRoot serial b root) := by
        rw [k1.1, k1.2.1]; exact hp
      refine Runs.bind hr (logs_act (hp1 _ _)) (fun _ d2 e2 => ?_)
      have k2 := Runs.of_eq (logs_act (P := P) (hp1 _ _)) e2
      have hp2 : ∀ b root, P d2.cl.primary d2.cl.secondaries (.putRoot serial b root) := by
        rw [k2.1, k2.2.1]; exact hp1
      refine Runs.bind hr (logs_ask _).runs (fun _ d3 e3 => ?_)
      have k3 := (logs_ask (P := P) _).of_eq e3
      have hp3 : ∀ b root, P d3.cl.primary d3.cl.secondaries (.putRoot serial b root) := by
        rw [k3.1, k3.2.1]; exact hp2
      refine Runs.bind hr (Preserves.lift hr).runs (fun _ d4 e4 => ?_)
      simp only [lift_eq, Prod.mk.injEq] at e4
      obtain ⟨_, rfl⟩ := e4
      split
      · exact ih _ _ _ hp3
      · exact (Preserves.pure hr).runs

theorem rotateSecondaryRoot_logs (c : Ctx) (p : Peers) (repo : Repo) (serial : String) (d : Dev)
    (hp : ∀ b root, P d.cl.primary d.cl.secondaries (.putRoot serial b root)) : Runs (Logs P) (rotateSecondaryRoot c p repo serial) d := by
  have hr := logs_pre P
  unfold rotateSecondaryRoot
  have h1 : Preserves (Logs P) (inClient (inWorld (loadLatestRoot repo))) := logs_client (sameEcus_cl.inWorld _)
  refine Runs.bind hr h1.runs (fun _ d1 e1 => ?_)
  have k1 := h1.of_eq e1
  split
  · exact (Preserves.pure hr).runs
  refine Runs.bind hr (Preserves.lift hr).runs (fun _ d2 e2 => ?_)
  simp only [lift_eq, Prod.mk.injEq] at e2
  obtain ⟨_, rfl⟩ := e2
  refine Runs.bind hr (logs_ask _).runs (fun _ d3 e3 => ?_)
  have k3 := (logs_ask (P := P) _).of_eq e3
  refine Runs.bind hr (Preserves.lift hr).runs (fun _ d4 e4 => ?_)
  simp only [lift_eq, Prod.mk.injEq] at e4
  obtain ⟨_, rfl⟩ := e4
  split
  · refine rotateSecLoop_logs c p repo serial _ _ _ _ ?_
    rw [k3.1, k3.2.1, k1.1, k1.2.1]; exact hp
  · exact (Preserves.pure hr).runs

theorem sendMetadataTo_logs (c : Ctx) (p : Peers) (serial : String) (t : Target) (d : Dev)
    (hp : ∀ b root, P d.cl.primary d.cl.secondaries (.putRoot serial b root))
    (hm : P d.cl.primary d.cl.secondaries (.putMetadata serial t)) : Runs (Logs P) (sendMetadataTo c p serial t) d := by
  have hr := logs_pre P
  unfold sendMetadataTo
  have h1 := rotateSecondaryRoot_logs (P := P) c p .director serial d hp
  refine Runs.bind hr h1 (fun _ d1 e1 => ?_)
  have k1 := h1.of_eq e1
  split
  · exact (Preserves.pure hr).runs
  have h2 := rotateSecondaryRoot_logs (P := P) c p .image serial d1 (by rw [k1.1, k1.2.1]; exact hp)
  refine Runs.bind hr h2 (fun _ d2 e2 => ?_)
  have k2 := h2.of_eq e2
  split
  · exact (Preserves.pure hr).runs
  refine Runs.bind hr (logs_act (by rw [k2.1, k2.2.1, k1.1, k1.2.1]; exact hm)) (fun _ d3 e3 => ?_)
  exact (Preserves.bind hr (logs_ask _) (fun _ => Preserves.lift hr)).runs

theorem sendMetadataLoop_logs (c : Ctx) (p : Peers) (ts : List Target) :
    ∀ l failed (d : Dev), (∀ x ∈ l, x ∈ assignments ts) → Runs (Logs (Asked ts)) (sendMetadataLoop c p l failed) d := by
  intro l
  induction l with
  | nil => intro failed d _; exact (Preserves.pure (logs_pre _)).runs
  | cons x l ih =>
    intro failed d hl
    obtain ⟨t, serial, hw⟩ := x
    have hr := logs_pre (Asked ts)
    have hl' := fun y hy => hl y (List.mem_cons_of_mem _ hy)
    obtain ⟨ht, he⟩ := assignments_mem.1 (hl _ (List.mem_cons_self))
    unfold sendMetadataLoop
    refine Runs.gets ?_
    show Runs _ (if d.cl.secondaries.any (fun s => s.1 == serial) = true then _ else _) d
    split
    · next hs =>
      have h1 := sendMetadataTo_logs (P := Asked ts) c p serial t d (fun _ _ => ⟨any_serial hs, t, ht, hw, he⟩) ⟨any_serial hs, ht, hw, he⟩
      refine Runs.bind hr h1 (fun _ d1 e1 => ?_)
      split
      · exact ih _ _ hl'
      · refine Runs.bind hr (Preserves.lift hr).runs (fun _ d2 e2 => ?_)
        exact ih _ _ hl'
    · exact ih _ _ hl'

theorem sendFirmware_logs (p : Peers) (serial : String) (t : Target) (d : Dev)
    (hf : P d.cl.primary d.cl.secondaries (.sendFirmware serial t)) (hi : P d.cl.primary d.cl.secondaries (.secInstall serial t)) :
    Runs (Logs P) (sendFirmware p serial t) d := by
  have hr := logs_pre P
  unfold sendFirmware
  refine Runs.bind hr (logs_act hf) (fun _ d1 e1 => ?_)
  have k1 := (logs_act hf).of_eq e1
  refine Runs.bind hr (logs_ask _).runs (fun _ d2 e2 => ?_)
  have k2 := (logs_ask (P := P) _).of_eq e2
  refine Runs.bind hr (Preserves.lift hr).runs (fun _ d3 e3 => ?_)
  simp only [lift_eq, Prod.mk.injEq] at e3
  obtain ⟨_, rfl⟩ := e3
  split
  · refine Runs.bind hr (logs_act (by rw [k2.1, k2.2.1, k1.1, k1.2.1]; exact hi)) (fun _ d4 e4 => ?_)
    exact (Preserves.bind hr (logs_ask _) (fun _ => Preserves.lift hr)).runs
  · exact (Preserves.pure hr).runs

theorem sendAll_logs (p : Peers) (ts : List Target) :
    ∀ l (d : Dev), (∀ x ∈ l, x ∈ assignments ts) → Runs (Logs (Asked ts)) (sendAll p l) d := by
  intro l
  induction l with
  | nil => intro d _; exact (Preserves.pure (logs_pre _)).runs
  | cons x l ih =>
    intro d hl
    obtain ⟨t, serial, hw⟩ := x
    have hr := logs_pre (Asked ts)
    have hl' := fun y hy => hl y (List.mem_cons_of_mem _ hy)
    obtain ⟨ht, he⟩ := assignments_mem.1 (hl _ (List.mem_cons_self))
    unfold sendAll
    refine Runs.gets ?_
    show Runs _ (if serial = d.cl.primary then _ else if d.cl.secondaries.any (fun s => s.1 == serial) = true then _ else _) d
    split
    · exact ih _ hl'
    split
    · next hs =>
      have h1 := sendFirmware_logs (P := Asked ts) p serial t d ⟨any_serial hs, ht, hw, he⟩ ⟨any_serial hs, ht, hw, he⟩
      refine Runs.bind hr h1 (fun _ d1 e1 => ?_)
      refine Runs.bind hr (ih _ hl') (fun _ d2 e2 => ?_)
      exact (Preserves.pure hr).runs
    · exact ih _ hl'

theorem recordAllResults_logs (env : Env) : ∀ l, Preserves (Logs P) (recordAllResults env l)
  | [] => .pure (logs_pre P)
  | (t, serial, r) :: l => by
    have ih := recordAllResults_logs env l
    have hr := logs_pre P
    unfold recordAllResults
    wpres hr
    all_goals first | exact logs_saveVersion _ _ _ _ | exact logs_saveEcuResult _ _

theorem packageInstallSetResult_logs (env : Env) (p : Peers) (t : Target) (d : Dev)
    (hi : P d.cl.primary d.cl.secondaries (.install t)) : Runs (Logs P) (packageInstallSetResult env p t) d := by
  have hr := logs_pre P
  unfold packageInstallSetResult
  refine Runs.gets ?_
  refine Runs.bind hr (logs_saveVersion _ _ _ _).runs (fun _ d1 e1 => ?_)
  have k1 := (logs_saveVersion (P := P) _ _ _ _).of_eq e1
  refine Runs.bind hr (logs_act (by rw [k1.1, k1.2.1]; exact hi)) (fun _ d2 e2 => ?_)
  refine Preserves.runs ?_
  wpres hr
  all_goals first | exact logs_saveVersion _ _ _ _ | exact logs_saveEcuResult _ _ | exact logs_ask _

theorem installPrimary_logs (env : Env) (p : Peers) (ts : List Target) (d : Dev) :
    Runs (Logs (Asked ts)) (installPrimary env p ts) d := by
  have hr := logs_pre (Asked ts)
  unfold installPrimary
  refine Runs.gets ?_
  show Runs _ (match ts.find? (fun t => t.isForEcu d.cl.primary) with | none => _ | some t => _) d
  split
  · exact (Preserves.pure hr).runs
  next t hf =>
  have hm := List.mem_of_find?_eq_some hf
  have ha : AssignedTo t d.cl.primary := by
    have := List.find?_some hf
    simp only [Target.isForEcu, List.any_eq_true, beq_iff_eq] at this
    obtain ⟨⟨s, hw⟩, h1, h2⟩ := this
    exact ⟨hw, by rw [← show s = d.cl.primary from h2]; exact h1⟩
  have hn : Asked ts d.cl.primary d.cl.secondaries .notify := ⟨t, hm, ha⟩
  refine Runs.bind hr (logs_act hn) (fun _ d1 e1 => ?_)
  have k1 := (logs_act hn).of_eq e1
  refine Runs.bind hr (packageInstallSetResult_logs _ _ _ _ ?_) (fun _ d2 e2 => ?_)
  · rw [k1.1, k1.2.1]; exact ⟨t, hm, ha, rfl⟩
  · refine Preserves.runs ?_
    wpres hr
    exact logs_saveEcuResult _ _

theorem installVerified_logs (c : Ctx) (p : Peers) (ts : List Target) (d : Dev) :
    Runs (Logs (Asked ts)) (installVerified c p ts) d := by
  have hr := logs_pre (Asked ts)
  unfold installVerified
  refine Runs.bind hr ?_ (fun _ d1 e1 => ?_)
  · refine Preserves.runs ?_
    unfold waitSecondariesReachable
    wpres hr
    exact logs_ask _
  split
  · exact (Preserves.pure hr).runs
  refine Runs.bind hr ?_ (fun _ d2 e2 => ?_)
  · unfold sendMetadataToEcus
    refine Runs.bind hr (sendMetadataLoop_logs c p ts _ _ _ (fun _ h => h)) (fun _ d3 e3 => ?_)
    refine Preserves.runs ?_
    wpres hr
  split
  · exact (Preserves.pure hr).runs
  refine Runs.bind hr (installPrimary_logs _ _ _ _) (fun _ d3 e3 => ?_)
  refine Runs.bind hr ?_ (fun _ d4 e4 => ?_)
  · unfold sendImagesToEcus
    refine Runs.bind hr (sendAll_logs p ts _ _ (fun _ h => h)) (fun _ d5 e5 => ?_)
    exact (recordAllResults_logs _ _).runs
  · refine Preserves.runs ?_
    wpres hr

theorem verifyAll_cases (p : Peers) : ∀ (ts : List Target) (d d' : Dev) (o : Except Err Bool), verifyAll p ts d = (o, d') →
    d'.cl = d.cl ∧ ∃ vs, d'.log = d.log ++ vs ∧ (∀ a ∈ vs, ¬ Touches a) ∧
      (o = .ok true → vs = (ts.filter (fun t => t.isForEcu d.cl.primary || !t.isOstree)).map (.verified · .good)) := by
  intro ts
  induction ts with
  | nil =>
    intro d d' o h
    simp only [verifyAll, pure_eq, Prod.mk.injEq] at h
    obtain ⟨rfl, rfl⟩ := h
    exact ⟨rfl, [], by simp, by simp, by simp⟩
  | cons t ts ih =>
    intro d d' o h
    unfold verifyAll at h
    rcases bind_cases h with ⟨_, _, h1, h⟩ | ⟨e, h1, rfl⟩
    swap_goal
    · simp at h1
    simp only [gets_eq, Prod.mk.injEq, Except.ok.injEq, id] at h1
    obtain ⟨rfl, rfl⟩ := h1
    split at h
    · next hn =>
      rcases bind_cases h with ⟨a, d1, h1, h⟩ | ⟨e, h1, rfl⟩
      swap_goal
      · simp at h1
      simp only [ask_eq, Prod.mk.injEq, Except.ok.injEq] at h1
      obtain ⟨_, rfl⟩ := h1
      rcases bind_cases h with ⟨s, d2, h2, h⟩ | ⟨e, h2, rfl⟩
      swap_goal
      · simp only [lift_eq, Prod.mk.injEq] at h2
        obtain ⟨_, rfl⟩ := h2
        exact ⟨rfl, [], by simp, by simp, by simp⟩
      simp only [lift_eq, Prod.mk.injEq] at h2
      obtain ⟨_, rfl⟩ := h2
      rcases bind_cases h with ⟨_, d3, h3, h⟩ | ⟨e, h3, rfl⟩
      swap_goal
      · simp at h3
      simp only [modify_eq, Prod.mk.injEq] at h3
      obtain ⟨_, rfl⟩ := h3
      split at h
      · next hs =>
        have hs : s = .good := by simpa using hs
        subst hs
        obtain ⟨k1, vs, k2, k3, k4⟩ := ih _ _ _ h
        refine ⟨k1, .verified t .good :: vs, by rw [k2]; simp, ?_, ?_⟩
        · intro a ha
          rcases List.mem_cons.1 ha with rfl | ha
          · exact id
          · exact k3 a ha
        · intro ho
          rw [List.filter_cons, if_pos hn, List.map_cons, k4 ho]
      · simp only [pure_eq, Prod.mk.injEq] at h
        obtain ⟨rfl, rfl⟩ := h
        exact ⟨rfl, [.verified t s], rfl, by simp [Touches], by simp⟩
    · next hn =>
      obtain ⟨k1, vs, k2, k3, k4⟩ := ih _ _ _ h
      refine ⟨k1, vs, k2, k3, ?_⟩
      intro ho
      rw [List.filter_cons, if_neg hn, k4 ho]

theorem hasImage_iff {t : Target} {prm : String} : HasImage prm t ↔ (t.isForEcu prm || !t.isOstree) = true := by
  unfold HasImage AssignedTo Target.isForEcu Target.isOstree
  rw [Bool.or_eq_true]
  refine or_congr ?_ ?_
  · simp only [List.any_eq_true, beq_iff_eq, Prod.exists]
    constructor
    · rintro ⟨hw, h⟩; exact ⟨prm, hw, h, rfl⟩
    · rintro ⟨_, hw, h, rfl⟩; exact ⟨hw, h⟩
  · by_cases h1 : t.type = "OSTREE"
    · simp [h1]
    · by_cases h2 : t.type = ""
      · by_cases h3 : t.length = 0 <;> simp [h2, h3]
      · simp [h1, h2]

/-- C24. Whatever is stored on the device, whatever the package manager and the Secondaries
answer, and wherever the process dies: either an install call touches no ECU, or the stored
metadata has been verified again (`Reverified`, see C25), every requested target is approved by
both repositories, and before the first ECU is touched the package manager has just answered
`Good` for every requested image the Primary has; after that, only requested targets are sent,
each only to ECUs it is assigned to.

Missing: verification of OSTree targets for Secondaries, which the Primary does not have
(`C24_ostree_secondary_unverified`), and the gap of C25. -/
theorem C24_nothing_unverified_partial (c : Ctx) (p : Peers) (ts : List Target) (d d' : Dev) (o : Except Err InstallReport)
    (h : uptaneInstall c p ts d = (o, d')) :
    ∃ vs rest, d'.log = d.log ++ vs ++ rest ∧ (∀ a ∈ vs, ¬ Touches a) ∧
      (rest = [] ∨
        (∃ cl', Reverified c ts d.cl cl') ∧ (∀ t ∈ ts, HasImage d.cl.primary t → .verified t .good ∈ vs) ∧
        (∀ a ∈ vs, ∃ t ∈ ts, a = .verified t .good) ∧
        ∀ a ∈ rest, Asked ts d.cl.primary d.cl.secondaries a) := by
  have nothing : ∀ {d' : Dev}, d'.log = d.log → ∃ vs rest, d'.log = d.log ++ vs ++ rest ∧ (∀ a ∈ vs, ¬ Touches a) ∧
      (rest = [] ∨
        (∃ cl', Reverified c ts d.cl cl') ∧ (∀ t ∈ ts, HasImage d.cl.primary t → .verified t .good ∈ vs) ∧
        (∀ a ∈ vs, ∃ t ∈ ts, a = .verified t .good) ∧
        ∀ a ∈ rest, Asked ts d.cl.primary d.cl.secondaries a) :=
    fun h => ⟨[], [], by simpa using h, by simp, .inl rfl⟩
  have key : ∃ x : Except Err (InstallReport × String), ∃ d1, installBody c p ts d = (x, d1) ∧ d1.log = d'.log := by
    unfold uptaneInstall at h
    rcases bind_cases h with ⟨r, d1, h1, h⟩ | ⟨e, h1, rfl⟩
    · refine ⟨_, d1, h1, ?_⟩
      have hq : Preserves (fun a b : Dev => b.log = a.log) (do
          let d ← gets id
          inClient (storeDeviceResult r.1.device r.2 d.cl.w.dir.targets.correlationId)
          pure r.1 : D InstallReport) := by
        have hpre : IsPre (fun a b : Dev => b.log = a.log) := ⟨fun _ => rfl, fun _ _ _ h1 h2 => h2.trans h1⟩
        wpres hpre
        exact fun d => rfl
      exact (hq.of_eq h).symm
    · exact ⟨_, d', h1, rfl⟩
  obtain ⟨x, d1, hb, hlog⟩ := key
  rw [← hlog]
  unfold installBody at hb
  rcases bind_cases hb with ⟨s, d2, h2, hb⟩ | ⟨e, h2, rfl⟩
  swap_goal
  · obtain ⟨_, _, rfl⟩ := inClient_run h2
    exact nothing rfl
  obtain ⟨cl2, g2, rfl⟩ := inClient_ok.1 h2
  have same : cl2.primary = d.cl.primary ∧ cl2.secondaries = d.cl.secondaries := by
    have hs : Preserves SameEcus (catchStd (checkUpdatesOffline c ts) (fun _ => pure .error)) :=
      .catchStd sameEcus_cl.pre (sameEcus_cl.checkUpdatesOffline c ts) (fun _ => .pure sameEcus_cl.pre)
    exact hs.of_eq g2
  cases s with
  | noUpdates =>
    simp only [pure_eq, Prod.mk.injEq] at hb
    obtain ⟨_, rfl⟩ := hb
    exact nothing rfl
  | error =>
    simp only [pure_eq, Prod.mk.injEq] at hb
    obtain ⟨_, rfl⟩ := hb
    exact nothing rfl
  | available =>
    have hrev : Reverified c ts d.cl cl2 := by
      rcases catchStd_ok.1 g2 with g | ⟨_, _, _, _, g⟩
      · exact C25_offline_partial c ts _ _ g
      · simp at g
    rcases bind_cases hb with ⟨good, d3, h3, hb⟩ | ⟨e, h3, rfl⟩
    swap_goal
    · obtain ⟨_, vs, k2, k3, _⟩ := verifyAll_cases p ts _ _ _ h3
      exact ⟨vs, [], by simpa using k2, k3, .inl rfl⟩
    obtain ⟨k1, vs, k2, k3, k4⟩ := verifyAll_cases p ts _ _ _ h3
    cases good with
    | false =>
      simp only [Bool.not_false, if_true, pure_eq, Prod.mk.injEq] at hb
      obtain ⟨_, rfl⟩ := hb
      exact ⟨vs, [], by simpa using k2, k3, .inl rfl⟩
    | true =>
      replace hb : installVerified c p ts d3 = (x, d1) := hb
      obtain ⟨_, _, rest, g1, g3⟩ := (installVerified_logs c p ts d3).of_eq hb
      refine ⟨vs, rest, by rw [g1, k2], k3, .inr ⟨⟨_, hrev⟩, ?_, ?_, ?_⟩⟩
      · intro t ht hi
        rw [k4 rfl, List.mem_map]
        exact ⟨t, List.mem_filter.2 ⟨ht, by
          show (t.isForEcu cl2.primary || !t.isOstree) = true
          rw [same.1]; exact hasImage_iff.1 hi⟩, rfl⟩
      · intro a ha
        rw [k4 rfl, List.mem_map] at ha
        obtain ⟨t, ht, rfl⟩ := ha
        exact ⟨t, (List.mem_filter.1 ht).1, rfl⟩
      · intro a ha
        have := g3 a ha
        rw [k1] at this
        change Asked ts cl2.primary cl2.secondaries a at this
        rwa [same.1, same.2] at this

/-! ### Witnesses -/

namespace Toy

/-- An outside that answers `Good` as given, and does everything it is told. -/
def peers (status : TargetStatus) : Peers where
  verify := fun _ _ => .ok status
  install := fun _ _ => .ok (.ofCode .ok "installed")
  finalize := fun _ _ => .ok (.ofCode .ok "")
  reachable := fun _ => true
  rootVersion := fun _ _ _ => .ok 1
  putRoot := fun _ _ _ _ => .ok (.ofCode .ok "")
  putMetadata := fun _ _ _ => .ok (.ofCode .ok "")
  sendFirmware := fun _ _ _ => .ok (.ofCode .ok "")
  secInstall := fun _ _ _ => .ok (.ofCode .ok "")
  secManifest := fun _ _ => .ok .null
  secKey := fun _ _ => .ok ⟨"", .unknown⟩
  putManifest := fun _ _ => true

/-- Name and ECU of an action, for comparing logs. -/
def tag : Action → String × String
  | .verified t s => ("verified " ++ (if s = .good then "good" else "bad"), t.filename)
  | .notify => ("notify", "")
  | .install t => ("install", t.filename)
  | .finalize t => ("finalize", t.filename)
  | .putRoot s _ _ => ("root", s)
  | .putMetadata s _ => ("metadata", s)
  | .sendFirmware s _ => ("firmware", s)
  | .secInstall s _ => ("secondary install", s)
  | .signed s _ => ("signed", s)
  | .sent _ ok => ("sent", if ok then "ok" else "failed")

theorem touches_of_tag {a : Action} {s : String} (h : tag a = ("secondary install", s)) : Touches a := by
  cases a <;> first | trivial | (simp [tag] at h)
  next t s' => exact absurd h.1 (by split <;> decide)

def installLog (p : Peers) (ts : List Target) (cl : Client) : List (String × String) :=
  (uptaneInstall july p ts { cl := cl }).2.log.map tag

end Toy

/-- Not vacuous: a full installation on Primary and Secondary, a bad image, a target nobody
approved. -/
example :
    Toy.installLog (Toy.peers .good) [Toy.targetFor "fw" "abc" [("e1", "h1"), ("e2", "h1")]] (Toy.afterChecks [Toy.both]) =
      [("verified good", "fw"), ("metadata", "e2"), ("notify", ""), ("install", "fw"), ("firmware", "e2"), ("secondary install", "e2")] ∧
    Toy.installLog (Toy.peers .hashMismatch) [Toy.targetFor "fw" "abc" [("e1", "h1"), ("e2", "h1")]] (Toy.afterChecks [Toy.both]) =
      [("verified bad", "fw")] ∧
    Toy.installLog (Toy.peers .good) [Toy.targetFor "fw" "abd" [("e1", "h1"), ("e2", "h1")]] (Toy.afterChecks [Toy.both]) = [] := by
  decide +kernel

/-- Why C24 is partial: an OSTree target for a Secondary is passed on although the package
manager would answer that the image does not match. -/
theorem C24_ostree_secondary_unverified :
    ∃ (p : Peers) (t : Target) (d : Dev), (∀ n, p.verify n t = .ok .hashMismatch) ∧
      ∃ a ∈ (uptaneInstall Toy.july p [t] d).2.log, Touches a ∧ Toy.tag a = ("secondary install", "e2") := by
  refine ⟨Toy.peers .hashMismatch, { Toy.targetFor "os" "abf" [("e2", "h1")] with length := 0 }, { cl := Toy.afterChecks [Toy.commit] },
    fun _ => rfl, ?_⟩
  have h : ("secondary install", "e2") ∈ Toy.installLog (Toy.peers .hashMismatch) [{ Toy.targetFor "os" "abf" [("e2", "h1")] with length := 0 }]
      (Toy.afterChecks [Toy.commit]) := by decide +kernel
  obtain ⟨a, ha, ht⟩ := List.mem_map.1 h
  exact ⟨a, ha, Toy.touches_of_tag ht, ht⟩

end Aktualizr
