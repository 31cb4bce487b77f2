import Verif.Model.DeviceData
import Verif.Lemmas.Monad
import Verif.Props.C30
import Verif.Spec.Toy

/-!
# C49: device data is sent when it changed, and only then

The specification keeps, per kind of data, the last acknowledged value itself.

* `C49_partial`: after any history of calls that were not interrupted, the requests of the next
  call are exactly those specified; default hardware information is the exception.
* `C49_suppressed_was_acked`: with processes dying anywhere, data is left out only if that very
  value was acknowledged at some time.
* `C49_default_hwinfo_once`: changed default hardware information is not sent.
* `C49_crash_lost`, `C49_crash_resent`: what goes wrong when a process dies between the
  acknowledgement and storing the hash.
-/

namespace Aktualizr.Spec

open Aktualizr.DeviceData

/-- The last value of this kind that the server acknowledged. -/
def lastAck (log : List Note) (k : Kind) : Option Body :=
  ((log.filter (fun n => n.kind == k && n.ok)).getLast?).map (·.body)

/-- Does the value differ from the last acknowledged one? -/
def changed (env : Env) (log : List Note) (k : Kind) (b : Body) : Bool :=
  match lastAck log k with
  | none => true
  | some b' => b'.key env != b.key env

/-- The request due for a value. -/
def due (env : Env) (log : List Note) (k : Kind) (b : Body) (ok : Bool) : List Note :=
  if changed env log k b then [⟨k, b, ok⟩] else []

/-- The requests due for hardware information: the caller's when it changed; otherwise that of
the system, unless some hardware information was acknowledged before. -/
def dueHardware (env : Env) (log : List Note) (i : Input) : List Note :=
  if empty i.custom then
    if (lastAck log .hardware).isNone && !empty i.lshw then [⟨.hardware, .json i.lshw, i.ok .hardware⟩] else []
  else due env log .hardware (.json i.custom) (i.ok .hardware)

def dueNetwork (env : Env) (log : List Note) (i : Input) : List Note :=
  match i.reportNetwork, i.network with
  | true, some n => due env log .network (.json n) (i.ok .network)
  | _, _ => []

def dueConfig (env : Env) (log : List Note) (i : Input) : List Note :=
  if i.reportConfig then due env log .config (.text i.config) (i.ok .config) else []

/-- The requests due in a call of `sendDeviceData`. If the packages cannot be read, the call ends
there. -/
def dueAll (env : Env) (log : List Note) (i : Input) : List Note :=
  dueHardware env log i ++ match i.packages with
    | none => []
    | some p => due env log .packages (.json p) (i.ok .packages) ++ dueNetwork env log i ++ dueConfig env log i

/-- SHA-256 tells the texts in `P` apart. -/
structure Collisionless (env : Env) (P : String → Prop) : Prop where
  inj : ∀ a b, P a → P b → upper (env.sha256 a) = upper (env.sha256 b) → a = b
  nonempty : ∀ a, P a → upper (env.sha256 a) ≠ ""

/-- All texts a call may hash are in `P`. -/
structure Input.In (env : Env) (P : String → Prop) (i : Input) : Prop where
  custom : P (env.canon i.custom)
  lshw : P (env.canon i.lshw)
  packages : ∀ p, i.packages = some p → P (env.canon p)
  network : ∀ p, i.network = some p → P (env.canon p)
  config : P i.config

/-- The data a call finds. -/
def input : Event → Input
  | .sendDeviceData i _ => i
  | .fetchMeta i _ => i

/-- The process lives long enough (a call has at most eight effects). -/
def uninterrupted : Event → Prop
  | .sendDeviceData _ fuel => 8 ≤ fuel
  | .fetchMeta _ fuel => 8 ≤ fuel

/-- The requests due in an event. -/
def dueIn (env : Env) (log : List Note) : Event → List Note
  | .sendDeviceData i _ => dueAll env log i
  | .fetchMeta i _ => dueNetwork env log i

end Aktualizr.Spec

namespace Aktualizr.DeviceData

open Aktualizr.Spec

/-- The stored hashes are those of the last acknowledged values. -/
structure Inv (env : Env) (P : String → Prop) (s : St) : Prop where
  hash : ∀ k, s.hash k = (lastAck s.log k).map (fun b => (digest env b).hash)
  mem : ∀ n ∈ s.log, P (n.body.key env)

theorem lastAck_mem {log : List Note} {k : Kind} {b : Body} (h : lastAck log k = some b) :
    ∃ n ∈ log, n.kind = k ∧ n.ok = true ∧ n.body = b := by
  unfold lastAck at h
  cases hg : (log.filter (fun n => n.kind == k && n.ok)).getLast? with
  | none => rw [hg] at h; cases h
  | some n =>
    rw [hg] at h
    have hm := List.mem_of_getLast? hg
    simp only [List.mem_filter, Bool.and_eq_true, beq_iff_eq] at hm
    simp only [Option.map_some, Option.some.injEq] at h
    exact ⟨n, hm.1, hm.2.1, hm.2.2, h⟩

theorem lastAck_append {log l : List Note} {k : Kind} (h : ∀ n ∈ l, n.kind ≠ k) : lastAck (log ++ l) k = lastAck log k := by
  unfold lastAck
  rw [List.filter_append]
  have : l.filter (fun n => n.kind == k && n.ok) = [] := by
    rw [List.filter_eq_nil_iff]
    intro n hn
    simp [h n hn]
  rw [this, List.append_nil]

theorem lastAck_snoc {log : List Note} {k k' : Kind} {b : Body} {ok : Bool} :
    lastAck (log ++ [⟨k, b, ok⟩]) k' = if k' = k ∧ ok = true then some b else lastAck log k' := by
  unfold lastAck
  rw [List.filter_append]
  by_cases h : k' = k ∧ ok = true
  · obtain ⟨rfl, rfl⟩ := h
    simp
  · have : [(⟨k, b, ok⟩ : Note)].filter (fun n => n.kind == k' && n.ok) = [] := by
      rw [List.filter_eq_nil_iff]
      intro n hn
      simp only [List.mem_singleton] at hn
      subst hn
      simp only [Bool.and_eq_true, beq_iff_eq]
      intro hc
      exact h ⟨hc.1.symm, hc.2⟩
    rw [this, List.append_nil, if_neg h]

theorem digest_upper (env : Env) (b : Body) : upper (digest env b).hash = (digest env b).hash := upper_idem _

theorem digest_eq {env : Env} {P : String → Prop} (hP : Collisionless env P) {a b : Body} (ha : P (a.key env)) (hb : P (b.key env)) :
    digest env b = Hash.mk' .sha256 (digest env a).hash ↔ a.key env = b.key env := by
  constructor
  · intro h
    refine hP.inj _ _ ha hb ?_
    have h' : (digest env b).hash = upper (digest env a).hash := congrArg Hash.hash h
    rw [digest_upper] at h'
    exact h'.symm
  · intro h
    unfold digest
    rw [h]
    simp [Hash.mk', upper_idem]

/-- Sending and storing, with enough fuel. -/
theorem sendAndStore_ok {env : Env} {P : String → Prop} {s : St} (hi : Inv env P s) {k : Kind} {b : Body} {ok : Bool} {m : Nat}
    (hb : P (b.key env)) (hf : m + 2 ≤ s.fuel) :
    ∃ s', sendAndStore k b (digest env b) ok s = (.ok (), s') ∧ s'.log = s.log ++ [⟨k, b, ok⟩] ∧ Inv env P s' ∧ m ≤ s'.fuel := by
  obtain ⟨hash, fuel, log⟩ := s
  obtain ⟨h1, h2⟩ := hi
  simp only at h1 h2 hf
  obtain ⟨f, rfl⟩ : ∃ f, fuel = f + 2 := ⟨fuel - 2, by omega⟩
  have hmem : ∀ n ∈ log ++ [⟨k, b, ok⟩], P (n.body.key env) := by
    intro n hn
    rcases List.mem_append.1 hn with hn | hn
    · exact h2 n hn
    · simp only [List.mem_singleton] at hn; subst hn; exact hb
  cases ok with
  | false =>
    refine ⟨⟨hash, f + 1, log ++ [⟨k, b, false⟩]⟩, rfl, rfl, ⟨fun k' => ?_, hmem⟩, by simp only; omega⟩
    simp only [lastAck_snoc, Bool.false_eq_true, and_false, if_false]
    exact h1 k'
  | true =>
    refine ⟨⟨fun k' => if k' = k then some (digest env b).hash else hash k', f, log ++ [⟨k, b, true⟩]⟩, rfl, rfl,
      ⟨fun k' => ?_, hmem⟩, by simp only; omega⟩
    simp only [lastAck_snoc, and_true]
    by_cases hk : k' = k
    · rw [if_pos hk, if_pos hk]; rfl
    · rw [if_neg hk, if_neg hk]; exact h1 k'

theorem due_cases {env : Env} {log : List Note} {k : Kind} {b : Body} {ok : Bool} :
    (changed env log k b = true ∧ due env log k b ok = [⟨k, b, ok⟩]) ∨ (changed env log k b = false ∧ due env log k b ok = []) := by
  unfold due
  cases changed env log k b <;> simp

theorem report_ok {env : Env} {P : String → Prop} (hP : Collisionless env P) {s : St} (hi : Inv env P s) {k : Kind} {b : Body}
    {ok : Bool} {m : Nat} (hb : P (b.key env)) (hf : m + 2 ≤ s.fuel) :
    ∃ s', report env k b ok s = (.ok (), s') ∧ s'.log = s.log ++ due env s.log k b ok ∧ Inv env P s' ∧ m ≤ s'.fuel := by
  have hrun : report env k b ok s = (if (s.hash k).any (fun stored => decide (digest env b = Hash.mk' .sha256 stored)) = true then (pure () : D Unit) else sendAndStore k b (digest env b) ok) s := by
    unfold report
    rw [M.run_bind (M.gets_eq)]
    rfl
  have hun : (s.hash k).any (fun stored => decide (digest env b = Hash.mk' .sha256 stored)) = !changed env s.log k b := by
    rw [hi.hash k]
    unfold changed
    cases hl : lastAck s.log k with
    | none => rfl
    | some b' =>
      obtain ⟨n, hn, -, -, rfl⟩ := lastAck_mem hl
      simp only [Option.map_some, Option.any_some]
      by_cases he : n.body.key env = b.key env
      · rw [decide_eq_true ((digest_eq hP (hi.mem n hn) hb).2 he)]; simp [he]
      · rw [decide_eq_false (fun h => he ((digest_eq hP (hi.mem n hn) hb).1 h))]; simp [he]
  rw [hun] at hrun
  rcases due_cases (env := env) (log := s.log) (k := k) (b := b) (ok := ok) with ⟨hc, hd⟩ | ⟨hc, hd⟩
  · rw [hc] at hrun
    rw [hrun, hd]
    exact sendAndStore_ok hi hb hf
  · rw [hc] at hrun
    rw [hrun, hd]
    exact ⟨s, rfl, by simp, hi, by omega⟩

theorem reportHwInfo_ok {env : Env} {P : String → Prop} (hP : Collisionless env P) {s : St} (hi : Inv env P s) {i : Input}
    {m : Nat} (hin : Input.In env P i) (hf : m + 2 ≤ s.fuel) :
    ∃ s', reportHwInfo env i.custom i.lshw (i.ok .hardware) s = (.ok (), s') ∧ s'.log = s.log ++ dueHardware env s.log i ∧
      Inv env P s' ∧ m ≤ s'.fuel := by
  have hst : s.hash .hardware = (lastAck s.log .hardware).map (fun b => (digest env b).hash) := hi.hash _
  unfold reportHwInfo
  rw [M.run_bind (M.gets_eq)]
  simp only [id, hst]
  unfold dueHardware
  cases hl : lastAck s.log .hardware with
  | none =>
    simp only [Option.map_none, Option.getD_none, bne_self_eq_false, Bool.and_false, Bool.false_eq_true, if_false]
    have hne : ∀ b : Body, P (b.key env) → digest env b ≠ Hash.mk' .sha256 "" := by
      intro b hb he
      have : (digest env b).hash = upper "" := congrArg Hash.hash he
      exact hP.nonempty _ hb (this.trans (by decide))
    by_cases hc : empty i.custom = true
    · by_cases hw : empty i.lshw = true
      · simp only [hc, hw, Bool.and_self, if_true]
        exact ⟨s, rfl, by simp, hi, by omega⟩
      · simp only [Bool.not_eq_true] at hw
        simp only [hc, hw, Bool.and_false, Bool.false_eq_true, if_false, if_true]
        rw [if_pos (hne (.json i.lshw) hin.lshw)]
        simpa using sendAndStore_ok hi (k := .hardware) (b := .json i.lshw) hin.lshw hf
    · simp only [Bool.not_eq_true] at hc
      simp only [hc, Bool.false_and, Bool.false_eq_true, if_false]
      rw [if_pos (hne (.json i.custom) hin.custom)]
      have : due env s.log .hardware (.json i.custom) (i.ok .hardware) = [⟨.hardware, .json i.custom, i.ok .hardware⟩] := by
        simp [due, changed, hl]
      rw [this]
      exact sendAndStore_ok hi hin.custom hf
  | some b' =>
    obtain ⟨n, hn, -, -, rfl⟩ := lastAck_mem hl
    have hs : ((digest env n.body).hash != "") = true := bne_iff_ne.2 (hP.nonempty _ (hi.mem n hn))
    simp only [Option.map_some, Option.getD_some, hs, Bool.and_true]
    by_cases hc : empty i.custom = true
    · simp only [hc, if_true, Option.isNone_some, Bool.false_and, Bool.false_eq_true, if_false]
      exact ⟨s, rfl, by simp, hi, by omega⟩
    · simp only [Bool.not_eq_true] at hc
      simp only [hc, Bool.false_and, Bool.false_eq_true, if_false]
      by_cases he : n.body.key env = Body.key env (.json i.custom)
      · rw [if_neg (fun h => h ((digest_eq hP (hi.mem n hn) (b := .json i.custom) hin.custom).2 he))]
        have : due env s.log .hardware (.json i.custom) (i.ok .hardware) = [] := by simp [due, changed, hl, he]
        rw [this]
        exact ⟨s, rfl, by simp, hi, by omega⟩
      · rw [if_pos (fun h => he ((digest_eq hP (hi.mem n hn) (b := .json i.custom) hin.custom).1 h))]
        have : due env s.log .hardware (.json i.custom) (i.ok .hardware) = [⟨.hardware, .json i.custom, i.ok .hardware⟩] := by
          simp [due, changed, hl, he]
        rw [this]
        exact sendAndStore_ok hi hin.custom hf

theorem due_append {env : Env} {log l : List Note} {k : Kind} {b : Body} {ok : Bool} (h : ∀ n ∈ l, n.kind ≠ k) :
    due env (log ++ l) k b ok = due env log k b ok := by
  unfold due changed
  rw [lastAck_append h]

theorem due_kind {env : Env} {log : List Note} {k : Kind} {b : Body} {ok : Bool} : ∀ n ∈ due env log k b ok, n.kind = k := by
  intro n hn
  unfold due at hn
  split at hn
  · simp only [List.mem_singleton] at hn; subst hn; rfl
  · simp at hn

theorem dueHardware_kind {env : Env} {log : List Note} {i : Input} : ∀ n ∈ dueHardware env log i, n.kind = .hardware := by
  intro n hn
  unfold dueHardware at hn
  split at hn
  · split at hn
    · simp only [List.mem_singleton] at hn; subst hn; rfl
    · simp at hn
  · exact due_kind n hn

theorem dueNetwork_kind {env : Env} {log : List Note} {i : Input} : ∀ n ∈ dueNetwork env log i, n.kind = .network := by
  intro n hn
  unfold dueNetwork at hn
  split at hn
  · exact due_kind n hn
  · simp at hn

theorem dueNetwork_append {env : Env} {log l : List Note} {i : Input} (h : ∀ n ∈ l, n.kind ≠ .network) :
    dueNetwork env (log ++ l) i = dueNetwork env log i := by
  unfold dueNetwork
  split
  · exact due_append h
  · rfl

theorem dueConfig_append {env : Env} {log l : List Note} {i : Input} (h : ∀ n ∈ l, n.kind ≠ .config) :
    dueConfig env (log ++ l) i = dueConfig env log i := by
  unfold dueConfig
  rw [due_append h]

theorem network_ok {env : Env} {P : String → Prop} (hP : Collisionless env P) {s : St} (hi : Inv env P s) {i : Input}
    {m : Nat} (hin : Input.In env P i) (hf : m + 2 ≤ s.fuel) :
    ∃ s', reportNetworkInfo env i.reportNetwork i.network (i.ok .network) s = (.ok (), s') ∧
      s'.log = s.log ++ dueNetwork env s.log i ∧ Inv env P s' ∧ m ≤ s'.fuel := by
  unfold reportNetworkInfo dueNetwork
  cases i.reportNetwork with
  | false => exact ⟨s, rfl, by simp, hi, by omega⟩
  | true =>
    cases hn : i.network with
    | none => exact ⟨s, rfl, by simp, hi, by omega⟩
    | some n => exact report_ok hP hi (hin.network n hn) hf

theorem config_ok {env : Env} {P : String → Prop} (hP : Collisionless env P) {s : St} (hi : Inv env P s) {i : Input}
    {m : Nat} (hin : Input.In env P i) (hf : m + 2 ≤ s.fuel) :
    ∃ s', reportConfiguration env i.reportConfig i.config (i.ok .config) s = (.ok (), s') ∧
      s'.log = s.log ++ dueConfig env s.log i ∧ Inv env P s' ∧ m ≤ s'.fuel := by
  unfold reportConfiguration dueConfig
  cases i.reportConfig with
  | false => exact ⟨s, rfl, by simp, hi, by omega⟩
  | true => exact report_ok hP hi hin.config hf

theorem send_ok {env : Env} {P : String → Prop} (hP : Collisionless env P) {s : St} (hi : Inv env P s) {i : Input}
    (hin : Input.In env P i) (hf : 8 ≤ s.fuel) :
    (sendDeviceData env i s).2.log = s.log ++ dueAll env s.log i ∧ Inv env P (sendDeviceData env i s).2 := by
  obtain ⟨s1, e1, l1, i1, f1⟩ := reportHwInfo_ok hP hi (i := i) (m := 6) hin (by omega)
  unfold sendDeviceData dueAll
  rw [M.run_bind e1]
  cases hp : i.packages with
  | none =>
    have : reportInstalledPackages env none (i.ok .packages) s1 = (.error (.std "Wrong packages file format"), s1) := rfl
    rw [M.run_bind_err this]
    exact ⟨by simp [l1], i1⟩
  | some p =>
    obtain ⟨s2, e2, l2, i2, f2⟩ := report_ok hP i1 (k := .packages) (b := .json p) (ok := i.ok .packages) (m := 4)
      (hin.packages p hp) (by omega)
    have e2' : reportInstalledPackages env (some p) (i.ok .packages) s1 = (.ok (), s2) := e2
    rw [M.run_bind e2']
    obtain ⟨s3, e3, l3, i3, f3⟩ := network_ok hP i2 (i := i) (m := 2) hin (by omega)
    rw [M.run_bind e3]
    obtain ⟨s4, e4, l4, i4, f4⟩ := config_ok hP i3 (i := i) (m := 0) hin (by omega)
    rw [e4]
    refine ⟨?_, i4⟩
    have hw := dueHardware_kind (env := env) (log := s.log) (i := i)
    have hpk := due_kind (env := env) (log := s.log) (k := .packages) (b := .json p) (ok := i.ok .packages)
    have hnk := dueNetwork_kind (env := env) (log := s.log) (i := i)
    have q2 : due env s1.log .packages (.json p) (i.ok .packages) = due env s.log .packages (.json p) (i.ok .packages) := by
      rw [l1]; exact due_append fun n hn => by rw [hw n hn]; decide
    have l2' : s2.log = s.log ++ (dueHardware env s.log i ++ due env s.log .packages (.json p) (i.ok .packages)) := by
      rw [l2, q2, l1, List.append_assoc]
    have q3 : dueNetwork env s2.log i = dueNetwork env s.log i := by
      rw [l2']
      refine dueNetwork_append fun n hn => ?_
      rcases List.mem_append.1 hn with hn | hn
      · rw [hw n hn]; decide
      · rw [hpk n hn]; decide
    have l3' : s3.log = s.log ++ (dueHardware env s.log i ++ due env s.log .packages (.json p) (i.ok .packages) ++
        dueNetwork env s.log i) := by
      rw [l3, q3, l2', List.append_assoc]
    have q4 : dueConfig env s3.log i = dueConfig env s.log i := by
      rw [l3']
      refine dueConfig_append fun n hn => ?_
      rcases List.mem_append.1 hn with hn | hn
      · rcases List.mem_append.1 hn with hn | hn
        · rw [hw n hn]; decide
        · rw [hpk n hn]; decide
      · rw [hnk n hn]; decide
    rw [l4, q4, l3']
    simp [List.append_assoc]

theorem step_ok {env : Env} {P : String → Prop} (hP : Collisionless env P) {s : St} (hi : Inv env P s) {e : Event}
    (hin : Input.In env P (input e)) (hu : uninterrupted e) :
    (e.step env s).log = s.log ++ dueIn env s.log e ∧ Inv env P (e.step env s) := by
  cases e with
  | sendDeviceData i fuel => exact send_ok hP (s := { s with fuel := fuel }) ⟨hi.hash, hi.mem⟩ hin hu
  | fetchMeta i fuel =>
    obtain ⟨s', e1, l1, i1, -⟩ := network_ok hP (s := { s with fuel := fuel }) ⟨hi.hash, hi.mem⟩ (i := i) (m := 0) hin
      (by simp only [uninterrupted] at hu; simp only; omega)
    simp only [Event.step, e1]
    exact ⟨l1, i1⟩

theorem run_ok {env : Env} {P : String → Prop} (hP : Collisionless env P) : ∀ (es : List Event) {s : St}, Inv env P s →
    (∀ e ∈ es, Input.In env P (input e) ∧ uninterrupted e) → Inv env P (run env s es)
  | [], _, h, _ => h
  | e :: es, s, h, he => by
    obtain ⟨h1, h2⟩ := he e (by simp)
    exact run_ok hP es (step_ok hP h h1 h2).2 (fun e' h => he e' (by simp [h]))

/-- After any history of uninterrupted calls on a device that starts with an empty table, with
requests acknowledged or not: the requests of the next call are exactly those for the data that
differs from the last acknowledged value (hardware information as in `dueHardware`). -/
theorem C49_partial {env : Env} {P : String → Prop} (hP : Collisionless env P) (es : List Event) (e : Event)
    (he : ∀ x ∈ es ++ [e], Input.In env P (input x) ∧ uninterrupted x) :
    (run env {} (es ++ [e])).log = (run env {} es).log ++ dueIn env (run env {} es).log e := by
  have hi : Inv env P {} := ⟨fun k => by cases k <;> rfl, by simp⟩
  have h := run_ok hP es hi (fun x hx => he x (by simp [hx]))
  obtain ⟨h1, h2⟩ := he e (by simp)
  have hr : run env {} (es ++ [e]) = e.step env (run env {} es) := by simp [run]
  rw [hr]
  exact (step_ok hP h h1 h2).1

/-! ### Processes that die -/

/-- The stored hashes are those of values acknowledged at some time. -/
def Weak (env : Env) (s : St) : Prop :=
  ∀ k h, s.hash k = some h → ∃ n ∈ s.log, n.kind = k ∧ n.ok = true ∧ h = (digest env n.body).hash

theorem Weak.sendAndStore {env : Env} {s : St} (hs : Weak env s) {k : Kind} {b : Body} {ok : Bool} :
    Weak env (sendAndStore k b (digest env b) ok s).2 := by
  have grow : ∀ l : List Note, ∀ k h, s.hash k = some h → ∃ n ∈ s.log ++ l, n.kind = k ∧ n.ok = true ∧ h = (digest env n.body).hash := by
    intro l k h hk
    obtain ⟨n, h1, h2⟩ := hs k h hk
    exact ⟨n, by simp [h1], h2⟩
  obtain ⟨hash, fuel, log⟩ := s
  match fuel with
  | 0 => exact hs
  | 1 => cases ok <;> exact grow _
  | f + 2 =>
    cases ok with
    | false => exact grow _
    | true =>
      intro k' h hk
      have hk' : (if k' = k then some (digest env b).hash else hash k') = some h := hk
      by_cases he : k' = k
      · rw [if_pos he] at hk'
        simp only [Option.some.injEq] at hk'
        exact ⟨⟨k, b, true⟩, List.mem_append_right _ (List.mem_singleton.2 rfl), he.symm, rfl, hk'.symm⟩
      · rw [if_neg he] at hk'
        exact grow _ k' h hk'

theorem Weak.bind {env : Env} {m : D Unit} {f : Unit → D Unit} (h1 : ∀ s, Weak env s → Weak env (m s).2)
    (h2 : ∀ s, Weak env s → Weak env (f () s).2) : ∀ s, Weak env s → Weak env ((m >>= f) s).2 := by
  intro s hs
  have hm := h1 s hs
  cases hr : m s with
  | mk o s' =>
    rw [hr] at hm
    cases o with
    | ok u => rw [M.run_bind hr]; exact h2 s' hm
    | error e => rw [M.run_bind_err hr]; exact hm

theorem weak_report {env : Env} {k : Kind} {b : Body} {ok : Bool} (s : St) (hs : Weak env s) : Weak env (report env k b ok s).2 := by
  unfold report
  rw [M.run_bind (M.gets_eq), M.ite_app]
  simp only [id]
  split
  · exact hs
  · exact hs.sendAndStore

theorem weak_hw {env : Env} {c l : Json} {ok : Bool} (s : St) (hs : Weak env s) : Weak env (reportHwInfo env c l ok s).2 := by
  unfold reportHwInfo
  rw [M.run_bind (M.gets_eq)]
  simp only [id]
  by_cases h1 : (empty c && (s.hash .hardware).getD "" != "") = true
  · rw [if_pos h1]; exact hs
  · rw [if_neg h1]
    by_cases h2 : (empty c && empty l) = true
    · rw [if_pos h2]; exact hs
    · rw [if_neg h2]
      by_cases h3 : digest env (.json (if empty c then l else c)) ≠ Hash.mk' .sha256 ((s.hash .hardware).getD "")
      · rw [if_pos h3]; exact hs.sendAndStore
      · rw [if_neg h3]; exact hs

theorem weak_network {env : Env} {e : Bool} {n : Option Json} {ok : Bool} (s : St) (hs : Weak env s) :
    Weak env (reportNetworkInfo env e n ok s).2 := by
  unfold reportNetworkInfo
  cases e with
  | false => exact hs
  | true =>
    cases n with
    | none => exact hs
    | some n => exact weak_report s hs

theorem weak_packages {env : Env} {p : Option Json} {ok : Bool} (s : St) (hs : Weak env s) :
    Weak env (reportInstalledPackages env p ok s).2 := by
  cases p with
  | none => exact hs
  | some p => exact weak_report s hs

theorem weak_config {env : Env} {e : Bool} {c : String} {ok : Bool} (s : St) (hs : Weak env s) :
    Weak env (reportConfiguration env e c ok s).2 := by
  unfold reportConfiguration
  cases e with
  | false => exact hs
  | true => exact weak_report s hs

theorem run_weak {env : Env} : ∀ (es : List Event) {s : St}, Weak env s → Weak env (run env s es)
  | [], _, h => h
  | e :: es, s, h => by
    refine run_weak es (s := e.step env s) ?_
    cases e with
    | sendDeviceData i fuel =>
      exact Weak.bind (fun s hs => weak_hw s hs) (Weak.bind (fun s hs => weak_packages s hs)
        (Weak.bind (fun s hs => weak_network s hs) (fun s hs => weak_config s hs))) { s with fuel := fuel } h
    | fetchMeta i fuel => exact weak_network { s with fuel := fuel } h

/-- Whatever happened before, processes dying anywhere included: if a report of packages, network
information or the configuration (by a process that lives long enough for one effect) sends
nothing, then that value was acknowledged at some time. -/
theorem C49_suppressed_was_acked {env : Env} {P : String → Prop} (hP : Collisionless env P) (es : List Event)
    {k : Kind} {b : Body} {ok : Bool} {fuel : Nat} (hb : P (b.key env)) (hf : 0 < fuel)
    (hlog : ∀ n ∈ (run env {} es).log, P (n.body.key env))
    (hsup : (report env k b ok { run env {} es with fuel := fuel }).2.log = (run env {} es).log) :
    ∃ n ∈ (run env {} es).log, n.kind = k ∧ n.ok = true ∧ n.body.key env = b.key env := by
  have hw : Weak env (run env {} es) := run_weak es (fun k h hk => by cases hk)
  generalize run env {} es = s at *
  unfold report at hsup
  rw [M.run_bind (M.gets_eq), M.ite_app] at hsup
  simp only [id] at hsup
  by_cases hu : (s.hash k).any (fun stored => decide (digest env b = Hash.mk' .sha256 stored)) = true
  · cases hs : s.hash k with
    | none => rw [hs] at hu; simp at hu
    | some h =>
      rw [hs, Option.any_some, decide_eq_true_eq] at hu
      obtain ⟨n, h1, h2, h3, rfl⟩ := hw k h hs
      exact ⟨n, h1, h2, h3, (digest_eq hP (hlog n h1) hb).1 hu⟩
  · exfalso
    obtain ⟨f, rfl⟩ : ∃ f, fuel = f + 1 := ⟨fuel - 1, by omega⟩
    have : ∀ (ok : Bool), (sendAndStore k b (digest env b) ok { s with fuel := f + 1 }).2.log = s.log ++ [⟨k, b, ok⟩] := by
      intro ok
      cases ok with
      | false => rfl
      | true => cases f <;> rfl
    rw [if_neg hu, this] at hsup
    simpa using congrArg List.length hsup

/-! ### Cases -/

/-- What the examples look at. -/
def seen (env : Env) (s : St) : List (Kind × String × Bool) := s.log.map (fun n => (n.kind, n.body.key env, n.ok))

/-- Changed default hardware information is not sent again (as documented in the code). -/
theorem C49_default_hwinfo_once :
    let env := Toy.env []
    let a : Input := { lshw := .obj [("id", .str "a")] }
    let b : Input := { lshw := .obj [("id", .str "b")] }
    seen env (run env {} [.sendDeviceData a 9, .sendDeviceData b 9]) = [(.hardware, env.canon (.obj [("id", .str "a")]), true)] ∧
    (lastAck (run env {} [.sendDeviceData a 9]).log .hardware).map (Body.key env) ≠ some (env.canon (.obj [("id", .str "b")])) := by
  decide +kernel

/-- A process dies between the acknowledgement of a new value and storing its hash; then the old
value comes back: it is not sent, and the server keeps the other one. -/
theorem C49_crash_lost :
    let env := Toy.env []
    let a : Input := { network := some (.obj [("id", .str "a")]) }
    let b : Input := { network := some (.obj [("id", .str "b")]) }
    seen env (run env {} [.fetchMeta a 9, .fetchMeta b 1, .fetchMeta a 9, .fetchMeta a 9]) =
      [(.network, env.canon (.obj [("id", .str "a")]), true), (.network, env.canon (.obj [("id", .str "b")]), true)] := by
  decide +kernel

/-- A process dies at the same place: the value is sent twice. -/
theorem C49_crash_resent :
    let env := Toy.env []
    let a : Input := { network := some (.obj [("id", .str "a")]) }
    seen env (run env {} [.fetchMeta a 1, .fetchMeta a 9]) =
      [(.network, env.canon (.obj [("id", .str "a")]), true), (.network, env.canon (.obj [("id", .str "a")]), true)] := by
  decide +kernel

/-- Not vacuous: all kinds of data; a refused request is repeated, unchanged data is not, a change
is; unreadable packages end the call. -/
example :
    let env := Toy.env []
    let a : Input := { custom := .arr [.int 1], packages := some (.str "p"), network := some (.str "n"), config := "c" }
    let b : Input := { a with ok := fun k => k == .config, custom := .null, lshw := .str "l" }
    let c : Input := { a with packages := none, config := "d" }
    let d : Input := { a with config := "d", reportNetwork := false, network := some (.str "m") }
    seen env (run env {} [.sendDeviceData b 9, .sendDeviceData a 9, .sendDeviceData b 9, .sendDeviceData c 9, .sendDeviceData d 9]) =
      [(.hardware, env.canon (.str "l"), false), (.packages, env.canon (.str "p"), false), (.network, env.canon (.str "n"), false),
       (.config, "c", true),
       (.hardware, env.canon (.arr [.int 1]), true), (.packages, env.canon (.str "p"), true), (.network, env.canon (.str "n"), true),
       (.config, "d", true)] := by
  decide +kernel

/-- Not vacuous: the toy digest tells texts apart. -/
example : ∃ P : String → Prop, P "a" ∧ P "b" ∧ Collisionless (Toy.env []) P :=
  ⟨fun s => s = "a" ∨ s = "b", .inl rfl, .inr rfl, ⟨by
    rintro a b (rfl | rfl) (rfl | rfl) <;> first | (intro; rfl) | (intro h; exact absurd h (by decide +kernel)), by
    rintro a (rfl | rfl) <;> decide +kernel⟩⟩

end Aktualizr.DeviceData
