import Verif.Model.Secondary
import Verif.Props.C10
import Verif.Props.C25

/-! # Lemmas about the Secondary -/

namespace Aktualizr.Spec

/-- `t` names the ECU `serial` with hardware id `hwid`. -/
def Assigned (serial hwid : String) (t : Target) : Prop := (serial, hwid) ∈ t.ecus

/-- `t` is the one target in the list assigned to the ECU. -/
def TheTarget (serial hwid : String) (ts : List Target) (t : Target) : Prop :=
  ∃ before after, ts = before ++ t :: after ∧ Assigned serial hwid t ∧
    (∀ x ∈ before, ¬ Assigned serial hwid x) ∧ ∀ x ∈ after, ¬ Assigned serial hwid x

/-- The Director's verified Targets assign exactly `t` to the ECU. -/
def DirectorAssigns (env : Env) (serial hwid : String) (w : World) (t : Target) : Prop :=
  DirectorTrusted env w.dir ∧ TheTarget serial hwid w.dir.targets.targets t

/-- The Image repository's verified top-level Targets list an image like `t`. -/
def ImageApproves (env : Env) (w : World) (t : Target) : Prop :=
  ∃ rawTop top rawS m, ImageTrusted env w.img rawTop top rawS ∧ m ∈ top.targets ∧ SameContent t m ∧ SameAssignment t m

end Aktualizr.Spec

namespace Aktualizr.Sec

open M Spec

theorem inMeta_eq {α : Type} (m : U α) (s : State) : inMeta m s = ((m s.w).1, { s with w := (m s.w).2 }) := rfl

/-- `try { m } catch (std::exception)`. -/
theorem try_cases {m : U Unit} {s s' : State} {o : Except Err Bool}
    (h : catchStd (do inMeta m; pure true) (fun _ => pure false) s = (o, s')) :
    ∃ w', s' = { s with w := w' } ∧
      ((o = .ok true ∧ m s.w = (.ok (), w')) ∨ (o = .ok false ∧ (∃ e, m s.w = (.error e, w'))) ∨
       (∃ e, o = .error e ∧ m s.w = (.error e, w'))) := by
  unfold catchStd at h
  obtain ⟨r, w', hm⟩ : ∃ r w', m s.w = (r, w') := ⟨_, _, rfl⟩
  have hi : inMeta m s = (r, { s with w := w' }) := by rw [inMeta_eq, hm]
  cases r with
  | ok u =>
    rw [run_bind hi] at h
    simp only [pure_eq, Prod.mk.injEq] at h
    obtain ⟨rfl, rfl⟩ := h
    exact ⟨w', rfl, .inl ⟨rfl, hm⟩⟩
  | error e =>
    rw [run_bind_err hi] at h
    simp only at h
    split at h
    · simp only [pure_eq, Prod.mk.injEq] at h
      obtain ⟨rfl, rfl⟩ := h
      exact ⟨w', rfl, .inr (.inl ⟨rfl, e, hm⟩)⟩
    · simp only [Prod.mk.injEq] at h
      obtain ⟨rfl, rfl⟩ := h
      exact ⟨w', rfl, .inr (.inr ⟨e, rfl, hm⟩)⟩

theorem filter_singleton {α : Type} {p : α → Bool} {l : List α} {t : α} (h : l.filter p = [t]) :
    ∃ before after, l = before ++ t :: after ∧ p t = true ∧ (∀ x ∈ before, p x = false) ∧ ∀ x ∈ after, p x = false := by
  induction l with
  | nil => simp at h
  | cons a l ih =>
    rw [List.filter_cons] at h
    by_cases ha : p a = true
    · rw [if_pos ha] at h
      injection h with h1 h2
      subst h1
      exact ⟨[], l, rfl, ha, by simp, fun x hx => by simpa using List.filter_eq_nil_iff.1 h2 x hx⟩
    · rw [if_neg ha] at h
      obtain ⟨b, c, rfl, h1, h2, h3⟩ := ih h
      refine ⟨a :: b, c, rfl, h1, fun x hx => ?_, h3⟩
      rcases List.mem_cons.1 hx with rfl | hx
      · simpa using ha
      · exact h2 x hx

theorem targetsFor_one {ts : Targets} {serial hwid : String} {t : Target} (h : targetsFor ts serial hwid = [t]) :
    TheTarget serial hwid ts.targets t := by
  obtain ⟨b, a, h1, h2, h3, h4⟩ := filter_singleton h
  have key : ∀ x : Target, x.ecus.any (fun e => serial == e.1 && hwid == e.2) = true ↔ Assigned serial hwid x := by
    intro x
    simp only [List.any_eq_true, Bool.and_eq_true, beq_iff_eq, Assigned]
    constructor
    · rintro ⟨⟨e1, e2⟩, he, rfl, rfl⟩; exact he
    · intro he; exact ⟨_, he, rfl, rfl⟩
  refine ⟨b, a, h1, (key t).1 h2, fun x hx hn => ?_, fun x hx hn => ?_⟩
  · rw [← key, h3 x hx] at hn; cases hn
  · rw [← key, h4 x hx] at hn; cases hn

theorem choosePending_cases {sup : Target → Bool} {s s' : State} {o : Except Err Answer} (h : choosePending sup s = (o, s')) :
    (o = .ok .verificationFailed ∧ s' = s) ∨
    (∃ t, o = .ok .ok ∧ s' = { s with pending := some t } ∧ TheTarget s.serial s.hwid s.w.dir.targets.targets t ∧ sup t = true) := by
  unfold choosePending at h
  obtain ⟨_, _, g, h⟩ | ⟨_, g, _⟩ := bind_cases h
  · simp only [gets_eq, id, Prod.mk.injEq, Except.ok.injEq] at g
    obtain ⟨rfl, rfl⟩ := g
    cases hl : targetsFor s.w.dir.targets s.serial s.hwid with
    | nil =>
      rw [hl] at h
      simp only [pure_eq, Prod.mk.injEq] at h
      exact .inl ⟨h.1.symm, h.2.symm⟩
    | cons t l =>
      cases l with
      | cons _ _ =>
        rw [hl] at h
        simp only [pure_eq, Prod.mk.injEq] at h
        exact .inl ⟨h.1.symm, h.2.symm⟩
      | nil =>
        rw [hl] at h
        simp only at h
        by_cases ht : sup t = true
        · rw [if_neg (by simp [ht])] at h
          obtain ⟨_, _, g, h⟩ | ⟨_, g, _⟩ := bind_cases h
          · simp only [modify_eq, Prod.mk.injEq, Except.ok.injEq] at g
            obtain ⟨_, rfl⟩ := g
            simp only [pure_eq, Prod.mk.injEq] at h
            refine .inr ⟨t, h.1.symm, h.2.symm, targetsFor_one hl, ht⟩
          · simp at g
        · rw [if_pos (by simp [ht])] at h
          simp only [pure_eq, Prod.mk.injEq] at h
          exact .inl ⟨h.1.symm, h.2.symm⟩
  · simp at g

theorem matches_all {d : DirectorRepo} {top : Targets} (h : Director.matchTargetsWithImageTargets d top = true) :
    ∀ t ∈ d.targets.targets, ∃ m ∈ top.targets, SameContent t m ∧ SameAssignment t m := by
  intro t ht
  unfold Director.matchTargetsWithImageTargets at h
  rw [List.all_eq_true] at h
  obtain ⟨m, hm, hmm⟩ := List.any_eq_true.1 (h t ht)
  exact ⟨m, hm, (C11_match_iff t m).1 hmm⟩

/-- What verification does: it changes the metadata, and the pending target only if all checks succeed. -/
theorem doFullVerification_cases {sup : Target → Bool} {c : Ctx} {s s' : State} {o : Except Err Answer} (h : doFullVerification sup c s = (o, s')) :
    ∃ w', (o ≠ .ok .ok ∧ s' = { s with w := w' }) ∨
      (∃ t, o = .ok .ok ∧ s' = { s with w := w', pending := some t } ∧
        DirectorAssigns c.env s.serial s.hwid w' t ∧ ImageApproves c.env w' t ∧ sup t = true) := by
  unfold doFullVerification at h
  obtain ⟨d, s1, h1, h⟩ | ⟨e, h1, rfl⟩ := bind_cases h
  swap_goal
  · obtain ⟨w1, rfl, _⟩ := try_cases h1
    exact ⟨w1, .inl ⟨by simp, rfl⟩⟩
  obtain ⟨w1, rfl, k1⟩ := try_cases h1
  cases d with
  | false =>
    simp only [Bool.not_false, if_true, pure_eq, Prod.mk.injEq] at h
    exact ⟨w1, .inl ⟨by rw [← h.1]; simp, h.2.symm⟩⟩
  | true =>
    rw [if_neg (by simp)] at h
    replace h1 : Director.updateMeta c s.w = (.ok (), w1) := by simpa using k1
    obtain ⟨i, s2, h2, h⟩ | ⟨e, h2, rfl⟩ := bind_cases h
    swap_goal
    · obtain ⟨w2, rfl, _⟩ := try_cases h2
      exact ⟨w2, .inl ⟨by simp, rfl⟩⟩
    obtain ⟨w2, rfl, k2⟩ := try_cases h2
    cases i with
    | false =>
      simp only [Bool.not_false, if_true, pure_eq, Prod.mk.injEq] at h
      exact ⟨w2, .inl ⟨by rw [← h.1]; simp, h.2.symm⟩⟩
    | true =>
      rw [if_neg (by simp)] at h
      replace h2 : Image.updateMeta c w1 = (.ok (), w2) := by simpa using k2
      obtain ⟨hd, rawTop, top, rawS, hi⟩ := check_trusted h1 h2 (steady_pre.refl w2)
      rw [run_bind (gets_eq (f := id))] at h
      simp only [id] at h
      rw [hi.2.1] at h
      simp only at h
      by_cases hm : Director.matchTargetsWithImageTargets w2.dir top = true
      swap_goal
      · rw [if_pos (by simp [hm])] at h
        simp only [pure_eq, Prod.mk.injEq] at h
        exact ⟨w2, .inl ⟨by rw [← h.1]; simp, h.2.symm⟩⟩
      · rw [if_neg (by simp [hm])] at h
        rcases choosePending_cases h with ⟨rfl, rfl⟩ | ⟨t, rfl, rfl, ht, hty⟩
        · exact ⟨w2, .inl ⟨by simp, rfl⟩⟩
        · refine ⟨w2, .inr ⟨t, rfl, rfl, ⟨hd, ht⟩, ?_, hty⟩⟩
          obtain ⟨b, a, hl, _⟩ := ht
          simp only at hl
          obtain ⟨m, hm1, hm2, hm3⟩ := matches_all hm t (by rw [hl]; simp)
          exact ⟨rawTop, top, rawS, m, hi, hm1, hm2, hm3⟩

theorem putMeta_cases {sup : Target → Bool} {env : Env} {clock : Nat → TimeStamp} {m : PutMeta} {s s' : State} {o : Except Err Answer}
    (h : putMeta sup env clock m s = (o, s')) :
    ∃ w', (o ≠ .ok .ok ∧ s' = { s with w := w' }) ∨
      (∃ t, o = .ok .ok ∧ s' = { s with w := w', pending := some t } ∧
        DirectorAssigns env s.serial s.hwid w' t ∧ ImageApproves env w' t ∧ sup t = true) := by
  unfold putMeta at h
  obtain ⟨md, s1, h1, h⟩ | ⟨e, h1, rfl⟩ := bind_cases h
  · simp only [lift_eq, Prod.mk.injEq] at h1
    obtain ⟨h1, rfl⟩ := h1
    exact doFullVerification_cases h
  · simp only [lift_eq, Prod.mk.injEq] at h1
    exact ⟨s.w, .inl ⟨by simp, h1.2.symm⟩⟩

/-- After a restart the Director's stored metadata alone decides. -/
theorem initPending_cases {sup : Target → Bool} {c : Ctx} {s s' : State} {o : Except Err Unit} (h : initPending sup c s = (o, s')) :
    ∃ w', s' = { s with w := w' } ∨
      (∃ t, o = .ok () ∧ s' = { s with w := w', pending := some t } ∧ (∃ raw, DirectorVerified c w' raw) ∧
        TheTarget s.serial s.hwid w'.dir.targets.targets t ∧ sup t = true) := by
  unfold initPending at h
  obtain ⟨d, s1, h1, h⟩ | ⟨e, h1, rfl⟩ := bind_cases h
  swap_goal
  · obtain ⟨w1, rfl, _⟩ := try_cases h1
    exact ⟨w1, .inl rfl⟩
  obtain ⟨w1, rfl, k1⟩ := try_cases h1
  cases d with
  | false =>
    simp only [Bool.false_eq_true, if_false, pure_eq, Prod.mk.injEq] at h
    exact ⟨w1, .inl h.2.symm⟩
  | true =>
    rw [if_pos rfl] at h
    replace h1 : Director.checkMetaOffline c s.w = (.ok (), w1) := by simpa using k1
    obtain ⟨raw, hv⟩ := C25_director c s.w w1 h1
    obtain ⟨a, s2, h2, h⟩ | ⟨e, h2, rfl⟩ := bind_cases h
    · simp only [pure_eq, Prod.mk.injEq] at h
      obtain ⟨rfl, rfl⟩ := h
      rcases choosePending_cases h2 with ⟨_, rfl⟩ | ⟨t, _, rfl, ht, hty⟩
      · exact ⟨w1, .inl rfl⟩
      · exact ⟨w1, .inr ⟨t, rfl, rfl, ⟨raw, hv⟩, ht, hty⟩⟩
    · rcases choosePending_cases h2 with ⟨h, _⟩ | ⟨t, h, _⟩ <;> cases h

/-! ### The update agent -/

theorem bind_apply {σ α β : Type} (m : M σ α) (f : α → M σ β) (w : σ) :
    (m >>= f) w = match m w with | (.ok a, w') => f a w' | (.error e, w') => (.error e, w') := rfl

theorem appendChunk_cases {io : Io} {old data : Bytes} {s s' : State} {o : Except Err Answer}
    (h : appendChunk io old data s = (o, s')) :
    (∃ hh, s' = { s with newtarget := some (old ++ data.take io.kept), hasher := hh }) ∧
    ((io.fate = .dies ∧ o = .error .crash ∧ s'.hasher = s.hasher) ∨
      (io.fate = .noticed ∧ o = .ok .downloadFailed ∧ s'.hasher = s.hasher) ∨
      (∃ w, o = .error (.ub w)) ∨
      (io.fate = .unnoticed ∧ o = .ok .ok ∧
        ∃ h0, s.hasher = some h0 ∧ s'.hasher = some { h0 with past := h0.past ++ [some data] })) := by
  unfold appendChunk at h
  rw [run_bind modify_eq] at h
  cases hf : io.fate with
  | dies =>
    rw [hf] at h
    simp only [throw_eq, Prod.mk.injEq] at h
    obtain ⟨rfl, rfl⟩ := h
    exact ⟨⟨_, rfl⟩, .inl ⟨rfl, rfl, rfl⟩⟩
  | noticed =>
    rw [hf] at h
    simp only [pure_eq, Prod.mk.injEq] at h
    obtain ⟨rfl, rfl⟩ := h
    exact ⟨⟨_, rfl⟩, .inr (.inl ⟨rfl, rfl, rfl⟩)⟩
  | unnoticed =>
    rw [hf] at h
    simp only at h
    unfold hasherUpdate at h
    cases hh : s.hasher with
    | none =>
      simp only [bind_apply, gets_eq, id, hh, throw_eq, Prod.mk.injEq] at h
      obtain ⟨rfl, rfl⟩ := h
      exact ⟨⟨none, rfl⟩, .inr (.inr (.inl ⟨_, rfl⟩))⟩
    | some h0 =>
      simp only [bind_apply, gets_eq, id, hh, modify_eq, pure_eq, Prod.mk.injEq] at h
      obtain ⟨rfl, rfl⟩ := h
      exact ⟨⟨_, rfl⟩, .inr (.inr (.inr ⟨rfl, rfl, h0, rfl, rfl⟩))⟩

/-- What receiving a chunk does. -/
theorem receiveData_cases {io : Io} {t : Target} {data : Bytes} {s s' : State} {o : Except Err Answer}
    (h : receiveData io t data s = (o, s')) :
    (∃ nt hh, s' = { s with newtarget := nt, hasher := hh }) ∧
      ((s' = s ∧ o = .ok .downloadFailed) ∨
       (s'.newtarget = some (s.newtarget.getD []) ∧ s'.hasher = s.hasher ∧ o = .ok .downloadFailed) ∨
       (∃ w, o = .error (.ub w)) ∨
       (∃ h1, (s.newtarget.getD []).length < t.length ∧
         ((s.newtarget.getD [] = [] ∧ ∃ x l, t.hashes = x :: l ∧ h1 = Hasher.create x.type) ∨
          (s.newtarget.getD [] ≠ [] ∧ h1 = s.hasher)) ∧
         s'.newtarget = some (s.newtarget.getD [] ++ data.take io.kept) ∧
         ((io.fate = .dies ∧ o = .error .crash ∧ s'.hasher = h1) ∨
          (io.fate = .noticed ∧ o = .ok .downloadFailed ∧ s'.hasher = h1) ∨
          (io.fate = .unnoticed ∧ o = .ok .ok ∧
            ∃ h0, h1 = some h0 ∧ s'.hasher = some { h0 with past := h0.past ++ [some data] })))) := by
  unfold receiveData at h
  by_cases ho : io.opens = true
  swap_goal
  · rw [if_pos (by simp [ho])] at h
    simp only [pure_eq, Prod.mk.injEq] at h
    obtain ⟨rfl, rfl⟩ := h
    exact ⟨⟨_, _, rfl⟩, .inl ⟨rfl, rfl⟩⟩
  rw [if_neg (by simp [ho]), run_bind modify_eq] at h
  by_cases hl : io.tells = true
  swap_goal
  · rw [if_pos (by simp [hl])] at h
    simp only [pure_eq, Prod.mk.injEq] at h
    obtain ⟨rfl, rfl⟩ := h
    exact ⟨⟨_, _, rfl⟩, .inr (.inl ⟨rfl, rfl, rfl⟩)⟩
  rw [if_neg (by simp [hl]), run_bind (gets_eq (f := id))] at h
  simp only [id, Option.getD_some] at h
  by_cases hlen : (s.newtarget.getD []).length ≥ t.length
  · rw [if_pos hlen] at h
    simp only [pure_eq, Prod.mk.injEq] at h
    obtain ⟨rfl, rfl⟩ := h
    exact ⟨⟨_, _, rfl⟩, .inr (.inl ⟨rfl, rfl, rfl⟩)⟩
  rw [if_neg hlen] at h
  by_cases h0 : (s.newtarget.getD []).length = 0
  · rw [if_pos h0] at h
    cases hx : t.hashes with
    | nil =>
      have hf : firstHash t = .error (.ub "hashes()[0]") := by unfold firstHash; rw [hx]
      rw [run_bind_err (by rw [lift_eq, hf])] at h
      simp only [Prod.mk.injEq] at h
      obtain ⟨rfl, rfl⟩ := h
      exact ⟨⟨_, _, rfl⟩, .inr (.inr (.inl ⟨_, rfl⟩))⟩
    | cons x l =>
      have hf : firstHash t = .ok x := by unfold firstHash; rw [hx]
      rw [run_bind (by rw [lift_eq, hf]), run_bind modify_eq] at h
      obtain ⟨⟨hh, rfl⟩, h⟩ := appendChunk_cases h
      refine ⟨⟨_, _, rfl⟩, .inr (.inr ?_)⟩
      rcases h with h | h | h | ⟨e1, e2, e3⟩
      · exact .inr ⟨_, by omega, .inl ⟨List.eq_nil_of_length_eq_zero h0, x, l, rfl, rfl⟩, rfl, .inl h⟩
      · exact .inr ⟨_, by omega, .inl ⟨List.eq_nil_of_length_eq_zero h0, x, l, rfl, rfl⟩, rfl, .inr (.inl h)⟩
      · exact .inl h
      · exact .inr ⟨_, by omega, .inl ⟨List.eq_nil_of_length_eq_zero h0, x, l, rfl, rfl⟩, rfl, .inr (.inr ⟨e1, e2, e3⟩)⟩
  · rw [if_neg h0] at h
    obtain ⟨⟨hh, rfl⟩, h⟩ := appendChunk_cases h
    have hne : s.newtarget.getD [] ≠ [] := fun hn => h0 (by rw [hn]; rfl)
    refine ⟨⟨_, _, rfl⟩, .inr (.inr ?_)⟩
    rcases h with h | h | h | ⟨e1, e2, e3⟩
    · exact .inr ⟨_, by omega, .inr ⟨hne, rfl⟩, rfl, .inl h⟩
    · exact .inr ⟨_, by omega, .inr ⟨hne, rfl⟩, rfl, .inr (.inl h)⟩
    · exact .inl h
    · exact .inr ⟨_, by omega, .inr ⟨hne, rfl⟩, rfl, .inr (.inr ⟨e1, e2, e3⟩)⟩

theorem upload_cases {io : Io} {data : Bytes} {s s' : State} {o : Except Err Answer} (h : upload io data s = (o, s')) :
    (s.pending = none ∧ s' = s ∧ o = .ok .generalError) ∨ ∃ t, s.pending = some t ∧ receiveData io t data s = (o, s') := by
  unfold upload at h
  rw [run_bind (gets_eq (f := id))] at h
  simp only [id] at h
  cases hp : s.pending with
  | none =>
    rw [hp] at h
    simp only [pure_eq, Prod.mk.injEq] at h
    exact .inl ⟨rfl, h.2.symm, h.1.symm⟩
  | some t =>
    rw [hp] at h
    exact .inr ⟨t, rfl, h⟩

theorem effect_zero {f : State → State} {s : State} (h : s.w.fuel = 0) : effect f s = (.error .crash, s) := by
  unfold effect; rw [h]

theorem effect_succ {f : State → State} {s : State} {n : Nat} (h : s.w.fuel = n + 1) :
    effect f s = (.ok (), f { s with w := { s.w with fuel := n } }) := by
  unfold effect; rw [h]

/-- What the agent's installation does. -/
theorem agentInstall_cases {hs : Hashing} {renames : Bool} {t : Target} {s s' : State} {o : Except Err Answer}
    (h : agentInstall hs renames t s = (o, s')) :
    (∃ fw nt nm hh n, s' = { s with firmware := fw, newtarget := nt, name := nm, hasher := hh, w := { s.w with fuel := n } }) ∧
    ((o ≠ .ok .ok ∧ s'.firmware = s.firmware ∧ (s'.newtarget = s.newtarget ∨ s'.newtarget = none) ∧
       ((s'.hasher = s.hasher) ∨ ∃ h0, s.hasher = some h0 ∧ s'.hasher = some { h0 with past := h0.past ++ [none, none, none] }) ∧ s'.name = s.name) ∨
     (∃ b h0, o = .ok .ok ∧ s.newtarget = some b ∧ b.length = t.length ∧ s.hasher = some h0 ∧
       t.matchHash (h0.getHash hs) = true ∧ s'.firmware = some b ∧ s'.newtarget = none ∧ s'.name = t.filename ∧ s'.hasher = none)) := by
  unfold agentInstall at h
  rw [run_bind (gets_eq (f := id))] at h
  simp only [id] at h
  cases hn : s.newtarget with
  | none =>
    rw [hn] at h
    simp only [pure_eq, Prod.mk.injEq] at h
    obtain ⟨rfl, rfl⟩ := h
    exact ⟨⟨_, _, _, _, _, rfl⟩, .inl ⟨by simp, rfl, .inr hn, .inl rfl, rfl⟩⟩
  | some b =>
    rw [hn] at h
    simp only at h
    by_cases hl : b.length = t.length
    swap_goal
    · rw [if_pos hl] at h
      cases hf : s.w.fuel with
      | zero =>
        rw [run_bind_err (effect_zero hf)] at h
        simp only [Prod.mk.injEq] at h
        obtain ⟨rfl, rfl⟩ := h
        exact ⟨⟨_, _, _, _, _, rfl⟩, .inl ⟨by simp, rfl, .inl hn, .inl rfl, rfl⟩⟩
      | succ n =>
        rw [run_bind (effect_succ hf)] at h
        simp only [pure_eq, Prod.mk.injEq] at h
        obtain ⟨rfl, rfl⟩ := h
        exact ⟨⟨_, _, _, _, _, rfl⟩, .inl ⟨by simp, rfl, .inr rfl, .inl rfl, rfl⟩⟩
    rw [if_neg (by simp [hl])] at h
    cases hh : s.hasher with
    | none =>
      rw [hh] at h
      simp only [throw_eq, Prod.mk.injEq] at h
      obtain ⟨rfl, rfl⟩ := h
      exact ⟨⟨_, _, _, _, _, rfl⟩, .inl ⟨by simp, rfl, .inl hn, .inl hh, rfl⟩⟩
    | some h0 =>
      rw [hh] at h
      simp only at h
      by_cases hm : t.matchHash (h0.getHash hs) = true
      · rw [if_pos hm] at h
        cases renames with
        | false =>
          simp only [Bool.not_false, if_true, throw_eq, Prod.mk.injEq] at h
          obtain ⟨rfl, rfl⟩ := h
          exact ⟨⟨_, _, _, _, _, rfl⟩, .inl ⟨by simp, rfl, .inl hn, .inl hh, rfl⟩⟩
        | true =>
          cases hf : s.w.fuel with
          | zero =>
            rw [if_neg (by simp), run_bind_err (effect_zero hf)] at h
            simp only [Prod.mk.injEq] at h
            obtain ⟨rfl, rfl⟩ := h
            exact ⟨⟨_, _, _, _, _, rfl⟩, .inl ⟨by simp, rfl, .inl hn, .inl hh, rfl⟩⟩
          | succ n =>
            rw [if_neg (by simp), run_bind (effect_succ hf), run_bind modify_eq] at h
            simp only [pure_eq, Prod.mk.injEq] at h
            obtain ⟨rfl, rfl⟩ := h
            exact ⟨⟨_, _, _, _, _, rfl⟩, .inr ⟨b, h0, rfl, rfl, hl, rfl, hm, rfl, rfl, rfl, rfl⟩⟩
      · rw [if_neg hm, run_bind modify_eq] at h
        simp only [bind_apply, lift_eq] at h
        cases hx : firstHash t with
        | error e =>
          rw [hx] at h
          simp only [Prod.mk.injEq] at h
          obtain ⟨rfl, rfl⟩ := h
          exact ⟨⟨_, _, _, _, _, rfl⟩, .inl ⟨by simp, rfl, .inl hn, .inr ⟨h0, rfl, rfl⟩, rfl⟩⟩
        | ok x =>
          rw [hx] at h
          simp only [pure_eq, Prod.mk.injEq] at h
          obtain ⟨rfl, rfl⟩ := h
          exact ⟨⟨_, _, _, _, _, rfl⟩, .inl ⟨by simp, rfl, .inl hn, .inr ⟨h0, rfl, rfl⟩, rfl⟩⟩

/-- What an install request does. -/
theorem install_cases {env : Env} {hs : Hashing} {renames : Bool} {s s' : State} {o : Except Err Answer}
    (h : install env hs renames s = (o, s')) :
    (s.pending = none ∧ s' = s ∧ o = .ok .internalError) ∨
    (∃ t, s.pending = some t ∧
      (∃ fw nt nm hh n vs pd, s' = { s with firmware := fw, newtarget := nt, name := nm, hasher := hh, versions := vs, pending := pd, w := { s.w with fuel := n } }) ∧
      ((o ≠ .ok .ok ∧ s'.firmware = s.firmware ∧ s'.versions = s.versions ∧ s'.pending = s.pending ∧
         (s'.newtarget = s.newtarget ∨ s'.newtarget = none) ∧
         ((s'.hasher = s.hasher) ∨ ∃ h0, s.hasher = some h0 ∧ s'.hasher = some { h0 with past := h0.past ++ [none, none, none] }) ∧ s'.name = s.name) ∨
       (∃ b h0, s.newtarget = some b ∧ b.length = t.length ∧ s.hasher = some h0 ∧
         t.matchHash (h0.getHash hs) = true ∧ s'.firmware = some b ∧ s'.newtarget = none ∧ s'.name = t.filename ∧ s'.hasher = none ∧
         ((o = .ok .ok ∧ s'.pending = none ∧ s'.versions = s.versions.saveInstalledVersion env s.serial t .current) ∨
          (o = .error .crash ∧ s'.pending = s.pending ∧ s'.versions = s.versions))))) := by
  unfold install at h
  rw [run_bind (gets_eq (f := id))] at h
  simp only [id] at h
  cases hp : s.pending with
  | none =>
    rw [hp] at h
    simp only [pure_eq, Prod.mk.injEq] at h
    exact .inl ⟨rfl, h.2.symm, h.1.symm⟩
  | some t =>
    rw [hp] at h
    refine .inr ⟨t, rfl, ?_⟩
    simp only at h
    obtain ⟨r, s1, h1, h⟩ | ⟨e, h1, rfl⟩ := bind_cases h
    swap_goal
    · obtain ⟨⟨fw, nt, nm, hh, n, rfl⟩, h1⟩ := agentInstall_cases h1
      rcases h1 with ⟨_, h2, h3, h4⟩ | ⟨_, _, h, _⟩
      · exact ⟨⟨fw, nt, nm, hh, n, s.versions, s.pending, rfl⟩, .inl ⟨by simp, h2, rfl, hp, h3, h4⟩⟩
      · cases h
    obtain ⟨⟨fw, nt, nm, hh, n, rfl⟩, h1⟩ := agentInstall_cases h1
    rcases h1 with ⟨h1, h2, h3, h4⟩ | ⟨b, h0, h1, h2, h3, h4, h5, h6, h7, h8, h9⟩
    · have hr : r ≠ .ok := fun hr => h1 (by rw [hr])
      rw [if_neg hr] at h
      simp only [pure_eq, Prod.mk.injEq] at h
      obtain ⟨rfl, rfl⟩ := h
      exact ⟨⟨fw, nt, nm, hh, n, s.versions, s.pending, rfl⟩, .inl ⟨h1, h2, rfl, hp, h3, h4⟩⟩
    · injection h1 with h1
      subst h1
      rw [if_pos rfl] at h
      cases hf : n with
      | zero =>
        subst hf
        rw [run_bind_err (effect_zero rfl)] at h
        simp only [Prod.mk.injEq] at h
        obtain ⟨rfl, rfl⟩ := h
        exact ⟨⟨fw, nt, nm, hh, 0, s.versions, s.pending, rfl⟩, .inr ⟨b, h0, h2, h3, h4, h5, h6, h7, h8, h9, .inr ⟨rfl, hp, rfl⟩⟩⟩
      | succ k =>
        subst hf
        rw [run_bind (effect_succ rfl), run_bind modify_eq] at h
        simp only [pure_eq, Prod.mk.injEq] at h
        obtain ⟨rfl, rfl⟩ := h
        exact ⟨⟨fw, nt, nm, hh, k, _, none, rfl⟩, .inr ⟨b, h0, h2, h3, h4, h5, h6, h7, h8, h9, .inl ⟨rfl, rfl, rfl⟩⟩⟩

/-- What a restart does. -/
theorem start_cases {env : Env} {clock : Nat → TimeStamp} {fuel : Nat} {s s' : State} {o : Except Err Unit}
    (h : start env clock fuel s = (o, s')) :
    (∃ w' pd nm u, s' = { s with w := w', pending := pd, hasher := none, name := nm, up := u }) ∧
    (s'.pending = none ∨ ∃ t, s'.pending = some t ∧ o = .ok () ∧ TheTarget s.serial s.hwid s'.w.dir.targets.targets t ∧
      ∃ raw, DirectorVerified { env, clock, net := fun _ _ _ _ => none } s'.w raw) := by
  unfold start at h
  rw [run_bind modify_eq, run_bind (gets_eq (f := id))] at h
  simp only [id] at h
  obtain ⟨cur, s1, h1, h⟩ | ⟨e, h1, rfl⟩ := bind_cases h
  swap_goal
  · simp only [lift_eq, Prod.mk.injEq] at h1
    obtain ⟨_, rfl⟩ := h1
    exact ⟨⟨_, _, _, _, rfl⟩, .inl rfl⟩
  simp only [lift_eq, Prod.mk.injEq] at h1
  obtain ⟨_, rfl⟩ := h1
  rw [run_bind modify_eq] at h
  obtain ⟨u, s2, h2, h⟩ | ⟨e, h2, rfl⟩ := bind_cases h
  · simp only [modify_eq, Prod.mk.injEq] at h
    obtain ⟨rfl, rfl⟩ := h
    obtain ⟨w', rfl | ⟨t, _, rfl, hd, ht, _⟩⟩ := initPending_cases h2
    · exact ⟨⟨_, _, _, _, rfl⟩, .inl rfl⟩
    · exact ⟨⟨_, _, _, _, rfl⟩, .inr ⟨t, rfl, rfl, ht, hd⟩⟩
  · obtain ⟨w', rfl | ⟨t, h, _⟩⟩ := initPending_cases h2
    · exact ⟨⟨_, _, _, _, rfl⟩, .inl rfl⟩
    · cases h

/-- The name after a restart is that of the current version. -/
theorem start_name {env : Env} {clock : Nat → TimeStamp} {fuel : Nat} {s s' : State}
    (h : start env clock fuel s = (.ok (), s')) :
    ∃ cur, s.versions.loadCurrent env "" = .ok cur ∧
      s'.name = (match cur with | some t => t.filename | none => "unknown") := by
  unfold start at h
  rw [run_bind modify_eq, run_bind (gets_eq (f := id))] at h
  simp only [id] at h
  obtain ⟨cur, s1, h1, h⟩ | ⟨e, h1, he⟩ := bind_cases h
  swap_goal
  · cases he
  simp only [lift_eq, Prod.mk.injEq] at h1
  obtain ⟨hc, rfl⟩ := h1
  refine ⟨cur, hc, ?_⟩
  rw [run_bind modify_eq] at h
  obtain ⟨u, s2, h2, h⟩ | ⟨e, h2, he⟩ := bind_cases h
  · simp only [modify_eq, Prod.mk.injEq] at h
    obtain ⟨_, rfl⟩ := h
    obtain ⟨w', rfl | ⟨t, _, rfl, hd, ht, _⟩⟩ := initPending_cases h2 <;> rfl
  · cases he

end Aktualizr.Sec
