import Verif.Lemmas.Secondary
import Verif.Spec.ToyRepo

/-!
# C26, C27: what a file Secondary installs

Histories are arbitrary sequences of requests from the Primary and restarts, with arbitrary contents and faults.
-/

namespace Aktualizr.Spec

open Sec

/-- `o` gave the Secondary the target `t`; `s` is the state after it. -/
def Sec.Established (env : Env) (s : Sec.State) (t : Target) : Op → Prop
  | .putMeta _ _ _ => DirectorAssigns env s.serial s.hwid s.w t ∧ ImageApproves env s.w t
  | .restart clock _ => TheTarget s.serial s.hwid s.w.dir.targets.targets t ∧
      ∃ raw, DirectorVerified { env, clock, net := fun _ _ _ _ => none } s.w raw
  | _ => False

/-- In the history `ops` from `s0` the target `t` was established, and since then there was no restart, no other
metadata accepted, and no installation completed. -/
def Sec.Authorised (env : Env) (hs : Hashing) (s0 : Sec.State) (ops : List Op) (t : Target) : Prop :=
  ∃ before o after s1 s2, ops = before ++ o :: after ∧ run env hs s0 before = .ok s1 ∧
    step env hs s1 o = .ok (some .ok, s2) ∧ s2.serial = s0.serial ∧ s2.hwid = s0.hwid ∧ Sec.Established env s2 t o ∧
    ∀ p o' q s3 a s4, after = p ++ o' :: q → run env hs s2 p = .ok s3 → step env hs s3 o' = .ok (a, s4) →
      (∀ c f, o' ≠ .restart c f) ∧ (a = some .ok → ∃ io d, o' = .upload io d)

/-- The content is the target's: length and a listed hash. -/
def Sec.Correct (hs : Hashing) (t : Target) (b : Bytes) : Prop :=
  b.length = t.length ∧ ∃ h ∈ t.hashes, h.hash = upper (hs.digest h.type b)

/-- What is assumed of hash functions and of the target: contents with a listed digest have the listed length, and
no listed hash is a value that an exhausted hasher returns. -/
structure Sec.Binding (hs : Hashing) (t : Target) : Prop where
  sized : ∀ x h, h ∈ t.hashes → h.hash = upper (hs.digest h.type x) → x.length = t.length
  fresh : ∀ p h, h ∈ t.hashes → h.hash ≠ upper (hs.spent h.type p)

/-- The upload loses data without noticing. -/
def Sec.Lossy : Op → Prop
  | .upload io d => io.fate = .unnoticed ∧ io.kept < d.length
  | _ => False

end Aktualizr.Spec

namespace Aktualizr.Sec

open M Spec

/-! ## Steps -/

theorem observe_ok {α : Type} {m : S α} {s s' : State} {a : Option α} (h : observe m s = .ok (a, s')) :
    ∃ o s1, m s = (o, s1) ∧ (∀ w, o ≠ .error (.ub w)) ∧
      ((∃ x, o = .ok x ∧ a = some x ∧ s' = s1) ∨ (∃ e, o = .error e ∧ a = none ∧ s' = { s1 with up := false })) := by
  unfold observe at h
  obtain ⟨o, s1, hm⟩ : ∃ o s1, m s = (o, s1) := ⟨_, _, rfl⟩
  rw [hm] at h
  refine ⟨o, s1, hm, ?_, ?_⟩
  · rintro w rfl
    cases h
  · cases o with
    | ok x =>
      simp only [Except.ok.injEq, Prod.mk.injEq] at h
      exact .inl ⟨x, rfl, h.1.symm, h.2.symm⟩
    | error e =>
      cases e <;> first
        | (simp only [Except.ok.injEq, Prod.mk.injEq] at h; exact .inr ⟨_, rfl, h.1.symm, h.2.symm⟩)
        | cases h

theorem request_ok {m : S Answer} {fuel : Nat} {s s' : State} {a : Option Answer} (h : request m fuel s = .ok (a, s')) :
    (s.up = false ∧ a = none ∧ s' = s) ∨
    (s.up = true ∧ ∃ o s1, m { s with w := { s.w with fuel := fuel } } = (o, s1) ∧ (∀ w, o ≠ .error (.ub w)) ∧
      ((∃ x, o = .ok x ∧ a = some x ∧ s' = s1) ∨ (∃ e, o = .error e ∧ a = none ∧ s' = { s1 with up := false }))) := by
  unfold request at h
  by_cases hu : s.up = true
  · rw [if_pos hu] at h
    exact .inr ⟨hu, observe_ok h⟩
  · rw [if_neg hu] at h
    simp only [Except.ok.injEq, Prod.mk.injEq] at h
    exact .inl ⟨by simpa using hu, h.1.symm, h.2.symm⟩

theorem restart_ok {env : Env} {hs : Hashing} {s s' : State} {a : Option Answer} {clock : Nat → TimeStamp} {fuel : Nat}
    (h : step env hs s (.restart clock fuel) = .ok (a, s')) :
    ∃ o s1, start env clock fuel s = (o, s1) ∧
      ((o = .ok () ∧ a = some .ok ∧ s' = s1) ∨ (∃ e, o = .error e ∧ a = none ∧ s' = { s1 with up := false })) := by
  unfold step at h
  obtain ⟨o, s1, hm, _, h⟩ := observe_ok h
  obtain ⟨u, s2, h1, h2⟩ | ⟨e, h1, rfl⟩ := bind_cases hm
  · simp only [pure_eq, Prod.mk.injEq] at h2
    obtain ⟨rfl, rfl⟩ := h2
    rcases h with ⟨x, hx, ha, hs⟩ | ⟨e, he, _⟩
    · injection hx with hx
      exact ⟨_, _, h1, .inl ⟨rfl, by rw [ha, ← hx], hs⟩⟩
    · cases he
  · rcases h with ⟨x, hx, _⟩ | ⟨e', he, ha, hs⟩
    · cases hx
    · exact ⟨_, _, h1, .inr ⟨e, rfl, ha, hs⟩⟩

/-- How the pending target can change. -/
theorem step_pending {env : Env} {hs : Hashing} {s s' : State} {o : Op} {a : Option Answer}
    (h : step env hs s o = .ok (a, s')) :
    s'.serial = s.serial ∧ s'.hwid = s.hwid ∧
    (s'.pending = none ∨
     (s'.pending = s.pending ∧ (∀ c f, o ≠ .restart c f) ∧ (a = some .ok → ∃ io d, o = .upload io d)) ∨
     (a = some .ok ∧ ∃ t, s'.pending = some t ∧ Sec.Established env s' t o)) := by
  cases o with
  | putMeta m clock fuel =>
    rcases request_ok h with ⟨_, rfl, rfl⟩ | ⟨_, o, s1, hm, _, h⟩
    · exact ⟨rfl, rfl, .inr (.inl ⟨rfl, by simp, by simp⟩)⟩
    · obtain ⟨w', ⟨ho, rfl⟩ | ⟨t, rfl, rfl, hd, hi, _⟩⟩ := putMeta_cases hm
      · rcases h with ⟨x, rfl, rfl, rfl⟩ | ⟨e, rfl, rfl, rfl⟩
        · refine ⟨rfl, rfl, .inr (.inl ⟨rfl, by simp, fun hx => absurd ?_ ho⟩)⟩
          rw [Option.some.inj hx]
        · exact ⟨rfl, rfl, .inr (.inl ⟨rfl, by simp, by simp⟩)⟩
      · rcases h with ⟨x, hx, rfl, rfl⟩ | ⟨e, he, _⟩
        · injection hx with hx
          subst hx
          exact ⟨rfl, rfl, .inr (.inr ⟨rfl, t, rfl, hd, hi⟩)⟩
        · cases he
  | upload io data =>
    rcases request_ok h with ⟨_, rfl, rfl⟩ | ⟨_, o, s1, hm, _, h⟩
    · exact ⟨rfl, rfl, .inr (.inl ⟨rfl, by simp, by simp⟩)⟩
    · have hfr : ∃ nt hh, s1 = { s with w := { s.w with fuel := 0 }, newtarget := nt, hasher := hh } := by
        rcases upload_cases hm with ⟨_, rfl, _⟩ | ⟨t, _, hr⟩
        · exact ⟨_, _, rfl⟩
        · obtain ⟨⟨nt, hh, rfl⟩, _⟩ := receiveData_cases hr
          exact ⟨_, _, rfl⟩
      obtain ⟨nt, hh, rfl⟩ := hfr
      rcases h with ⟨x, rfl, rfl, rfl⟩ | ⟨e, rfl, rfl, rfl⟩
      · exact ⟨rfl, rfl, .inr (.inl ⟨rfl, by simp, fun _ => ⟨io, data, rfl⟩⟩)⟩
      · exact ⟨rfl, rfl, .inr (.inl ⟨rfl, by simp, by simp⟩)⟩
  | install renames fuel =>
    rcases request_ok h with ⟨_, rfl, rfl⟩ | ⟨_, o, s1, hm, _, h⟩
    · exact ⟨rfl, rfl, .inr (.inl ⟨rfl, by simp, by simp⟩)⟩
    · rcases install_cases hm with ⟨hp, rfl, rfl⟩ | ⟨t, hp, ⟨fw, nt, nm, hh, n, vs, pd, rfl⟩, hc⟩
      · rcases h with ⟨x, _, rfl, rfl⟩ | ⟨e, _, rfl, rfl⟩ <;> exact ⟨rfl, rfl, .inl hp⟩
      · rcases hc with ⟨ho, _, _, hpd, _⟩ | ⟨_, _, _, _, _, _, _, _, _, _, ⟨rfl, hpd, _⟩ | ⟨rfl, hpd, _⟩⟩
        · rcases h with ⟨x, rfl, rfl, rfl⟩ | ⟨e, rfl, rfl, rfl⟩
          · refine ⟨rfl, rfl, .inr (.inl ⟨hpd, by simp, fun hx => absurd ?_ ho⟩)⟩
            rw [Option.some.inj hx]
          · exact ⟨rfl, rfl, .inr (.inl ⟨hpd, by simp, by simp⟩)⟩
        · rcases h with ⟨x, _, rfl, rfl⟩ | ⟨e, he, _⟩
          · exact ⟨rfl, rfl, .inl hpd⟩
          · cases he
        · rcases h with ⟨x, hx, _⟩ | ⟨e, he, rfl, rfl⟩
          · cases hx
          · exact ⟨rfl, rfl, .inr (.inl ⟨hpd, by simp, by simp⟩)⟩
  | restart clock fuel =>
    obtain ⟨o, s1, hm, h⟩ := restart_ok h
    obtain ⟨⟨w', pd, nm, u, rfl⟩, hp⟩ := start_cases hm
    rcases h with ⟨rfl, rfl, rfl⟩ | ⟨e, rfl, rfl, rfl⟩
    · rcases hp with hp | ⟨t, hp, _, ht⟩
      · exact ⟨rfl, rfl, .inl hp⟩
      · exact ⟨rfl, rfl, .inr (.inr ⟨rfl, t, hp, ht⟩)⟩
    · rcases hp with hp | ⟨t, hp, he, _⟩
      · exact ⟨rfl, rfl, .inl hp⟩
      · cases he

theorem run_snoc {env : Env} {hs : Hashing} {s s' : State} {ops : List Op} {o : Op}
    (h : run env hs s (ops ++ [o]) = .ok s') :
    ∃ s1 a, run env hs s ops = .ok s1 ∧ step env hs s1 o = .ok (a, s') := by
  induction ops generalizing s with
  | nil =>
    simp only [List.nil_append, run, bind, Except.bind] at h
    cases hs : step env hs s o with
    | error e => rw [hs] at h; cases h
    | ok r =>
      rw [hs] at h
      injection h with h
      exact ⟨s, r.1, rfl, by rw [← h, hs]⟩
  | cons o1 ops ih =>
    simp only [List.cons_append, run, bind, Except.bind] at h ⊢
    cases hs : step env hs s o1 with
    | error e => rw [hs] at h; cases h
    | ok r =>
      rw [hs] at h
      exact ih h

theorem run_append {env : Env} {hs : Hashing} {s s1 : State} {ops ops' : List Op} (h : run env hs s ops = .ok s1) :
    run env hs s (ops ++ ops') = run env hs s1 ops' := by
  induction ops generalizing s with
  | nil => simp only [run, Except.ok.injEq] at h; rw [h]; rfl
  | cons o ops ih =>
    simp only [List.cons_append, run, bind, Except.bind] at h ⊢
    cases hs : step env hs s o with
    | error e => rw [hs] at h; cases h
    | ok r => rw [hs] at h; exact ih h

theorem snoc_ind {α : Type} {P : List α → Prop} (h0 : P []) (h1 : ∀ l a, P l → P (l ++ [a])) (l : List α) : P l := by
  have : ∀ n (l : List α), l.length = n → P l := by
    intro n
    induction n with
    | zero => intro l hl; rw [List.eq_nil_of_length_eq_zero hl]; exact h0
    | succ n ih =>
      intro l hl
      have hne : l ≠ [] := by intro h; rw [h] at hl; cases hl
      rw [← List.dropLast_concat_getLast hne]
      exact h1 _ _ (ih _ (by rw [List.length_dropLast, hl]; rfl))
  exact this _ l rfl

theorem run_names {env : Env} {hs : Hashing} {s0 s : State} (ops : List Op) (h : run env hs s0 ops = .ok s) :
    s.serial = s0.serial ∧ s.hwid = s0.hwid := by
  induction ops using snoc_ind generalizing s with
  | h0 => simp only [run, Except.ok.injEq] at h; rw [h]; exact ⟨rfl, rfl⟩
  | h1 l o ih =>
    obtain ⟨s1, a, h1, h2⟩ := run_snoc h
    have := ih h1
    have h3 := step_pending h2
    exact ⟨h3.1.trans this.1, h3.2.1.trans this.2⟩

/-- A pending target was established in the history. -/
theorem pending_authorised {env : Env} {hs : Hashing} {s0 s : State} (h0 : s0.pending = none) {t : Target} (ops : List Op)
    (h : run env hs s0 ops = .ok s) (hp : s.pending = some t) : Sec.Authorised env hs s0 ops t := by
  induction ops using snoc_ind generalizing s with
  | h0 =>
    simp only [run, Except.ok.injEq] at h
    rw [← h, h0] at hp
    cases hp
  | h1 l o ih =>
    obtain ⟨s1, a, h1, h2⟩ := run_snoc h
    obtain ⟨e1, e2, h3⟩ := step_pending h2
    obtain ⟨n1, n2⟩ := run_names l h1
    rcases h3 with h3 | ⟨h3, h4, h5⟩ | ⟨rfl, t', h3, h4⟩
    · rw [h3] at hp; cases hp
    · rw [hp] at h3
      obtain ⟨before, o1, after, s2, s3, rfl, g1, g2, g3, g4, g5, g6⟩ := ih h1 h3.symm
      refine ⟨before, o1, after ++ [o], s2, s3, by simp, g1, g2, g3, g4, g5, ?_⟩
      intro p o' q s4 a' s5 hsplit hr hst
      rcases List.eq_nil_or_concat q with rfl | ⟨q', x, rfl⟩
      · have := List.append_inj' (s₁ := after) (t₁ := [o]) (s₂ := p) (t₂ := [o']) hsplit rfl
        obtain ⟨rfl, ho⟩ := this
        injection ho with ho
        subst ho
        have : run env hs s0 (before ++ o1 :: after) = .ok s4 := by
          rw [run_append g1]
          simp only [run, bind, Except.bind, g2]
          exact hr
        rw [this] at h1
        injection h1 with h1
        subst h1
        rw [hst] at h2
        simp only [Except.ok.injEq, Prod.mk.injEq] at h2
        obtain ⟨rfl, rfl⟩ := h2
        exact ⟨h4, h5⟩
      · rw [List.concat_eq_append] at hsplit
        have hsplit' : after ++ [o] = (p ++ o' :: q') ++ [x] := by rw [hsplit]; simp
        obtain ⟨rfl, _⟩ := List.append_inj' hsplit' rfl
        exact g6 p o' q' s4 a' s5 rfl hr hst
    · rw [h3] at hp
      injection hp with hp
      subst hp
      refine ⟨l, o, [], s1, s, rfl, h1, h2, e1.trans n1, e2.trans n2, h4, ?_⟩
      intro p o' q s4 a' s5 hsplit
      simp at hsplit

/-- How the current image can change. -/
theorem step_firmware {env : Env} {hs : Hashing} {s s' : State} {o : Op} {a : Option Answer}
    (h : step env hs s o = .ok (a, s')) (hc : s'.firmware ≠ s.firmware ∨ ∃ r f, o = .install r f ∧ a = some .ok) :
    ∃ r f t b h0, o = .install r f ∧ s.up = true ∧ s.pending = some t ∧ s.newtarget = some b ∧ b.length = t.length ∧
      s.hasher = some h0 ∧ t.matchHash (h0.getHash hs) = true ∧ s'.firmware = some b ∧ s'.newtarget = none ∧
      ((a = some .ok ∧ s'.pending = none ∧ s'.name = t.filename ∧
          s'.versions = s.versions.saveInstalledVersion env s.serial t .current) ∨
       (a = none ∧ s'.up = false ∧ s'.versions = s.versions)) := by
  cases o with
  | putMeta m clock fuel =>
    exfalso
    rcases hc with hc | ⟨r, f, h1, _⟩
    · rcases request_ok h with ⟨_, rfl, rfl⟩ | ⟨_, o, s1, hm, _, h⟩
      · exact hc rfl
      · obtain ⟨w', ⟨ho, rfl⟩ | ⟨t, rfl, rfl, hd, hi, _⟩⟩ := putMeta_cases hm <;>
          rcases h with ⟨x, _, rfl, rfl⟩ | ⟨e, _, rfl, rfl⟩ <;> exact hc rfl
    · cases h1
  | upload io data =>
    exfalso
    rcases hc with hc | ⟨r, f, h1, _⟩
    · rcases request_ok h with ⟨_, rfl, rfl⟩ | ⟨_, o, s1, hm, _, h⟩
      · exact hc rfl
      · rcases upload_cases hm with ⟨_, rfl, _⟩ | ⟨t, _, hr⟩
        · rcases h with ⟨x, _, rfl, rfl⟩ | ⟨e, _, rfl, rfl⟩ <;> exact hc rfl
        · obtain ⟨⟨nt, hh, rfl⟩, _⟩ := receiveData_cases hr
          rcases h with ⟨x, _, rfl, rfl⟩ | ⟨e, _, rfl, rfl⟩ <;> exact hc rfl
    · cases h1
  | restart clock fuel =>
    exfalso
    rcases hc with hc | ⟨r, f, h1, _⟩
    · obtain ⟨o, s1, hm, h⟩ := restart_ok h
      obtain ⟨⟨w', pd, nm, u, rfl⟩, hp⟩ := start_cases hm
      rcases h with ⟨rfl, rfl, rfl⟩ | ⟨e, rfl, rfl, rfl⟩ <;> exact hc rfl
    · cases h1
  | install renames fuel =>
    rcases request_ok h with ⟨_, rfl, rfl⟩ | ⟨hu, o, s1, hm, _, h⟩
    · exfalso
      rcases hc with hc | ⟨_, _, _, hc⟩
      · exact hc rfl
      · cases hc
    · rcases install_cases hm with ⟨hp, rfl, rfl⟩ | ⟨t, hp, ⟨fw, nt, nm, hh, n, vs, pd, rfl⟩, hx⟩
      · exfalso
        rcases h with ⟨x, hx, rfl, rfl⟩ | ⟨e, he, _⟩
        · injection hx with hx
          subst hx
          rcases hc with hc | ⟨_, _, _, hc⟩
          · exact hc rfl
          · cases hc
        · cases he
      · rcases hx with ⟨ho, hf, _⟩ | ⟨b, h0, k1, k2, k3, k4, k5, k6, k7, _, hx⟩
        · exfalso
          rcases h with ⟨x, rfl, rfl, rfl⟩ | ⟨e, rfl, rfl, rfl⟩
          · rcases hc with hc | ⟨_, _, _, hc⟩
            · exact hc hf
            · rw [Option.some.inj hc] at ho; exact ho rfl
          · rcases hc with hc | ⟨_, _, _, hc⟩
            · exact hc hf
            · cases hc
        · refine ⟨renames, fuel, t, b, h0, rfl, hu, hp, k1, k2, k3, k4, ?_⟩
          rcases hx with ⟨rfl, hpd, hv⟩ | ⟨rfl, hpd, hv⟩
          · rcases h with ⟨x, hx, rfl, rfl⟩ | ⟨e, he, _⟩
            · injection hx with hx
              subst hx
              exact ⟨k5, k6, .inl ⟨rfl, hpd, k7, hv⟩⟩
            · cases he
          · rcases h with ⟨x, hx, _⟩ | ⟨e, _, rfl, rfl⟩
            · cases hx
            · exact ⟨k5, k6, .inr ⟨rfl, rfl, hv⟩⟩

/-! ## C26 -/

/-- C26, with restarts: whatever requests were sent, in any order, with faults and crashes anywhere: when the
current image is replaced or an install request is answered with success, the pending target was established before,
by metadata that passed all checks or by a restart that verified the stored Director metadata; since then nothing
else was accepted. Partial: the statement also wants the Image repository's approval after a restart, which is false:
`C26_restart_skips_image_repository`. -/
theorem C26_partial (env : Env) (hs : Hashing) (s0 s s' : State) (ops : List Op) (o : Op) (a : Option Answer)
    (h0 : s0.pending = none) (h : run env hs s0 ops = .ok s) (hstep : step env hs s o = .ok (a, s'))
    (hc : s'.firmware ≠ s.firmware ∨ ∃ r f, o = .install r f ∧ a = some .ok) :
    ∃ t b, s.pending = some t ∧ s'.firmware = some b ∧ b.length = t.length ∧ Sec.Authorised env hs s0 ops t := by
  obtain ⟨r, f, t, b, _, _, _, hp, _, hl, _, _, hf, _⟩ := step_firmware hstep hc
  exact ⟨t, b, hp, hf, hl, pending_authorised h0 ops h hp⟩

/-- C26, as long as the process runs: the target was established by metadata in which the Director assigns exactly
this target to the ECU and the Image repository lists it. -/
theorem C26_running (env : Env) (hs : Hashing) (s0 s s' : State) (ops : List Op) (o : Op) (a : Option Answer)
    (h0 : s0.pending = none) (h : run env hs s0 ops = .ok s) (hnr : ∀ c f, .restart c f ∉ ops)
    (hstep : step env hs s o = .ok (a, s')) (hc : s'.firmware ≠ s.firmware ∨ ∃ r f, o = .install r f ∧ a = some .ok) :
    ∃ t before m clock fuel after s1 s2, s.pending = some t ∧ ops = before ++ .putMeta m clock fuel :: after ∧
      run env hs s0 before = .ok s1 ∧ step env hs s1 (.putMeta m clock fuel) = .ok (some .ok, s2) ∧
      DirectorAssigns env s0.serial s0.hwid s2.w t ∧ ImageApproves env s2.w t := by
  obtain ⟨t, b, hp, _, _, before, o1, after, s1, s2, rfl, g1, g2, g3, g4, g5, _⟩ := C26_partial env hs s0 s s' ops o a h0 h hstep hc
  cases o1 with
  | putMeta m clock fuel =>
    rw [← g3, ← g4]
    exact ⟨t, before, m, clock, fuel, after, s1, s2, hp, rfl, g1, g2, g5.1, g5.2⟩
  | restart c f => exact absurd (by simp) (hnr c f)
  | upload _ _ => exact absurd g5 (by simp [Sec.Established])
  | install _ _ => exact absurd g5 (by simp [Sec.Established])

/-! ## C27 -/

/-- What is hashed is part of what is in the file. -/
def Tracks (s : State) : Prop :=
  ∀ h b, s.hasher = some h → s.newtarget = some b → b ≠ [] → List.Sublist h.data b

theorem data_append (h : Hasher) (x : Option Bytes) : Hasher.data { h with past := h.past ++ [x] } = h.data ++ x.getD [] := by
  unfold Hasher.data
  simp

theorem data_spent (h : Hasher) : Hasher.data { h with past := h.past ++ [none, none, none] } = h.data := by
  unfold Hasher.data
  simp

theorem create_data {ty : HashType} {h : Hasher} (hc : Hasher.create ty = some h) : h.data = [] := by
  unfold Hasher.create at hc
  split at hc
  · cases hc
  · injection hc with hc
    subst hc
    rfl

theorem receive_tracks {io : Io} {t : Target} {data : Bytes} {s s' : State} {o : Except Err Answer}
    (hl : ¬ Sec.Lossy (.upload io data)) (hi : Tracks s) (h : receiveData io t data s = (o, s'))
    (hub : ∀ w, o ≠ .error (.ub w)) : Tracks s' := by
  obtain ⟨_, h⟩ := receiveData_cases h
  rcases h with ⟨rfl, _⟩ | ⟨h1, h2, _⟩ | ⟨w, h⟩ | ⟨h1, hlen, hh, hn, hf⟩
  · exact hi
  · intro h b e1 e2 e3
    rw [h1] at e2
    rw [h2] at e1
    injection e2 with e2
    cases hn : s.newtarget with
    | none => rw [hn] at e2; exact absurd e2.symm e3
    | some b' =>
      rw [hn] at e2
      simp only [Option.getD_some] at e2
      subst e2
      exact hi h b' e1 hn e3
  · exact absurd h (hub w)
  · -- the hasher before this chunk
    have base : ∀ h, h1 = some h → List.Sublist h.data (s.newtarget.getD []) := by
      intro h e
      rcases hh with ⟨e1, x, l, _, e2⟩ | ⟨e1, e2⟩
      · rw [e2] at e
        rw [create_data e]
        exact List.nil_sublist _
      · cases hn : s.newtarget with
        | none => rw [hn] at e1; exact absurd rfl e1
        | some b' =>
          rw [hn] at e1
          exact hi h b' (e2 ▸ e) hn e1
    intro h b e1 e2 e3
    rw [hn] at e2
    injection e2 with e2
    subst e2
    rcases hf with ⟨_, _, hf⟩ | ⟨_, _, hf⟩ | ⟨hfate, _, h0, e4, hf⟩
    · exact (base h (hf ▸ e1)).trans (List.sublist_append_left _ _)
    · exact (base h (hf ▸ e1)).trans (List.sublist_append_left _ _)
    · rw [hf] at e1
      injection e1 with e1
      subst e1
      rw [data_append]
      have hk : ¬ io.kept < data.length := fun hk => hl ⟨hfate, hk⟩
      rw [Option.getD_some, List.take_of_length_le (by omega)]
      exact (base h0 e4).append_right _

theorem step_tracks {env : Env} {hs : Hashing} {s s' : State} {o : Op} {a : Option Answer} (hl : ¬ Sec.Lossy o)
    (hi : Tracks s) (h : step env hs s o = .ok (a, s')) : Tracks s' := by
  cases o with
  | putMeta m clock fuel =>
    rcases request_ok h with ⟨_, rfl, rfl⟩ | ⟨_, o, s1, hm, _, h⟩
    · exact hi
    · obtain ⟨w', ⟨ho, rfl⟩ | ⟨t, rfl, rfl, hd, hi', _⟩⟩ := putMeta_cases hm <;>
        rcases h with ⟨x, _, rfl, rfl⟩ | ⟨e, _, rfl, rfl⟩ <;> exact hi
  | upload io data =>
    rcases request_ok h with ⟨_, rfl, rfl⟩ | ⟨_, o, s1, hm, hub, h⟩
    · exact hi
    · have : Tracks s1 := by
        rcases upload_cases hm with ⟨_, rfl, _⟩ | ⟨t, _, hr⟩
        · exact hi
        · exact receive_tracks hl (s := { s with w := { s.w with fuel := 0 } }) hi hr hub
      rcases h with ⟨x, _, rfl, rfl⟩ | ⟨e, _, rfl, rfl⟩ <;> exact this
  | restart clock fuel =>
    obtain ⟨o, s1, hm, h⟩ := restart_ok h
    obtain ⟨⟨w', pd, nm, u, rfl⟩, hp⟩ := start_cases hm
    rcases h with ⟨rfl, rfl, rfl⟩ | ⟨e, rfl, rfl, rfl⟩ <;> (intro h b e1; cases e1)
  | install renames fuel =>
    rcases request_ok h with ⟨_, rfl, rfl⟩ | ⟨hu, o, s1, hm, _, h⟩
    · exact hi
    · have : Tracks s1 := by
        rcases install_cases hm with ⟨hp, rfl, rfl⟩ | ⟨t, hp, ⟨fw, nt, nm, hh, n, vs, pd, rfl⟩, hx⟩
        · exact hi
        · rcases hx with ⟨_, _, _, _, hn, hhs⟩ | ⟨_, _, _, _, _, _, _, hn, _, _, _⟩
          · intro h b e1 e2 e3
            rcases hn with hn | hn
            · rw [hn] at e2
              rcases hhs with hhs | ⟨h0, g1, g2⟩
              · rw [hhs] at e1
                exact hi h b e1 e2 e3
              · rw [g2] at e1
                injection e1 with e1
                subst e1
                rw [data_spent]
                exact hi h0 b g1 e2 e3
            · rw [hn] at e2; cases e2
          · intro h b e1 e2
            rw [hn] at e2
            cases e2
      rcases h with ⟨x, _, rfl, rfl⟩ | ⟨e, _, rfl, rfl⟩ <;> exact this

theorem run_tracks {env : Env} {hs : Hashing} {s0 s : State} (ops : List Op) (h0 : s0.hasher = none)
    (hl : ∀ o ∈ ops, ¬ Sec.Lossy o) (h : run env hs s0 ops = .ok s) : Tracks s := by
  induction ops using snoc_ind generalizing s with
  | h0 =>
    simp only [run, Except.ok.injEq] at h
    subst h
    intro h b e1
    rw [h0] at e1
    cases e1
  | h1 l o ih =>
    obtain ⟨s1, a, h1, h2⟩ := run_snoc h
    exact step_tracks (hl o (by simp)) (ih (fun o ho => hl o (by simp [ho])) h1) h2

/-- C27: however an image was uploaded, interrupted and restarted, with writes failing or the process dying at any
point: a step that changes the current image replaces it as a whole by content with the length and a hash of the
pending target; so does every install request answered with success. Partial: writes that fail without the program
noticing are excluded, see `C27_unnoticed_loss`. -/
theorem C27_partial (env : Env) (hs : Hashing) (s0 s s' : State) (ops : List Op) (o : Op) (a : Option Answer)
    (h0 : s0.hasher = none) (hl : ∀ o ∈ ops, ¬ Sec.Lossy o) (h : run env hs s0 ops = .ok s)
    (hb : ∀ t, s.pending = some t → Sec.Binding hs t) (hstep : step env hs s o = .ok (a, s'))
    (hc : s'.firmware ≠ s.firmware ∨ ∃ r f, o = .install r f ∧ a = some .ok) :
    ∃ t b, s.pending = some t ∧ s.newtarget = some b ∧ s'.firmware = some b ∧ Sec.Correct hs t b := by
  obtain ⟨r, f, t, b, hh, _, _, hp, hn, hlen, hhash, hm, hf, _⟩ := step_firmware hstep hc
  have ht := run_tracks ops h0 hl h
  refine ⟨t, b, hp, hn, hf, hlen, ?_⟩
  have hbt := hb t hp
  unfold Target.matchHash at hm
  rw [List.contains_iff_mem] at hm
  unfold Hasher.getHash Hash.mk' at hm
  by_cases hall : hh.past.all (·.isSome) = true
  · rw [if_pos hall] at hm
    have hsz := hbt.sized hh.data _ hm rfl
    have : hh.data = b := by
      by_cases hb0 : b = []
      · subst hb0
        simp only [List.length_nil] at hlen
        rw [← hlen] at hsz
        exact List.eq_nil_of_length_eq_zero hsz
      · exact (ht hh b hhash hn hb0).eq_of_length (by omega)
    rw [this] at hm
    exact ⟨_, hm, rfl⟩
  · rw [if_neg hall] at hm
    exact absurd rfl (hbt.fresh _ _ hm)

/-- C27: no other request and no restart touches the current image. -/
theorem C27_only_install (env : Env) (hs : Hashing) (s s' : State) (o : Op) (a : Option Answer)
    (hstep : step env hs s o = .ok (a, s')) (ho : ∀ r f, o ≠ .install r f) : s'.firmware = s.firmware := by
  refine Decidable.byContradiction fun hne => ?_
  obtain ⟨r, f, _, _, _, rfl, _⟩ := step_firmware hstep (.inl hne)
  exact ho r f rfl

/-- C27: an install request that is answered with an error leaves the current image alone. -/
theorem C27_failure_keeps (env : Env) (hs : Hashing) (s s' : State) (o : Op) (x : Answer)
    (hstep : step env hs s o = .ok (some x, s')) (hx : x ≠ .ok) : s'.firmware = s.firmware := by
  refine Decidable.byContradiction fun hne => ?_
  obtain ⟨_, _, _, _, _, _, _, _, _, _, _, _, _, _, h | h⟩ := step_firmware hstep (.inl hne)
  · exact hx (Option.some.inj h.1)
  · cases h.1

/-- A chunk written as a whole. -/
def whole (c : Bytes) : Op := .upload { kept := c.length } c

/-- A chunk that is not the first one. -/
theorem step_whole {env : Env} {hs : Hashing} {s : State} {t : Target} {b c : Bytes} {h : Hasher} (hu : s.up = true)
    (hp : s.pending = some t) (hn : s.newtarget = some b) (hb : b ≠ []) (hh : s.hasher = some h) (hl : b.length < t.length) :
    step env hs s (whole c) =
      .ok (some .ok, { s with w := { s.w with fuel := 0 }, newtarget := some (b ++ c), hasher := some { h with past := h.past ++ [some c] } }) := by
  have h1 : ¬ b.length ≥ t.length := by omega
  have h2 : ¬ b.length = 0 := fun e => hb (List.eq_nil_of_length_eq_zero e)
  simp only [step, whole, request, hu, if_true, observe, upload, bind_apply, gets_eq, id, hp, receiveData, Bool.not_true,
    Bool.false_eq_true, if_false, modify_eq, hn, Option.getD_some, h1, h2, appendChunk, hasherUpdate, hh, pure_eq,
    List.take_length]

/-- The first chunk. -/
theorem step_first {env : Env} {hs : Hashing} {s : State} {t : Target} {c : Bytes} {x : Hash} {l : List Hash} (hu : s.up = true)
    (hp : s.pending = some t) (hn : s.newtarget.getD [] = []) (hx : t.hashes = x :: l) (hk : x.type ≠ .unknown) (hl : 0 < t.length) :
    step env hs s (whole c) =
      .ok (some .ok, { s with w := { s.w with fuel := 0 }, newtarget := some c, hasher := some { type := x.type, past := [some c] } }) := by
  have h1 : ¬ 0 ≥ t.length := by omega
  have h3 : firstHash t = .ok x := by unfold firstHash; rw [hx]
  have h4 : Hasher.create x.type = some { type := x.type } := by unfold Hasher.create; rw [if_neg hk]
  simp only [step, whole, request, hu, if_true, observe, upload, bind_apply, gets_eq, id, hp, receiveData, Bool.not_true,
    Bool.false_eq_true, if_false, modify_eq, hn, Option.getD_some, List.length_nil, h1, h3, h4, lift_eq, appendChunk, hasherUpdate, pure_eq,
    List.take_length, List.nil_append]

theorem run_chunks {env : Env} {hs : Hashing} {t : Target} (cs : List Bytes) (hne : ∀ c ∈ cs, c ≠ []) (s : State) (b : Bytes)
    (h : Hasher) (hu : s.up = true) (hp : s.pending = some t) (hn : s.newtarget = some b) (hb : b ≠ []) (hh : s.hasher = some h)
    (hl : b.length + cs.flatten.length ≤ t.length) :
    ∃ n, run env hs s (cs.map whole) = .ok { s with w := { s.w with fuel := n }, newtarget := some (b ++ cs.flatten), hasher := some { h with past := h.past ++ cs.map some } } := by
  induction cs generalizing s b h with
  | nil =>
    refine ⟨s.w.fuel, ?_⟩
    simp only [List.map_nil, run, List.flatten_nil, List.append_nil]
    rw [← hn, ← hh]
  | cons c cs ih =>
    have hc : c ≠ [] := hne c (by simp)
    have hc' : 0 < c.length := List.length_pos_iff.2 hc
    simp only [List.flatten_cons, List.length_append] at hl
    simp only [List.map_cons, run, bind, Except.bind]
    rw [step_whole hu hp hn hb hh (by omega)]
    simp only
    obtain ⟨n, ih⟩ := ih (fun c' h' => hne c' (by simp [h'])) { s with w := { s.w with fuel := 0 }, newtarget := some (b ++ c), hasher := some { h with past := h.past ++ [some c] } }
      (b ++ c) { h with past := h.past ++ [some c] } hu hp rfl (by simp [hb]) rfl (by simp only [List.length_append]; omega)
    refine ⟨n, ih.trans ?_⟩
    simp only [List.flatten_cons, List.append_assoc, List.singleton_append]

/-- C27: an image is installed however it was split: after its non-empty chunks were sent one after the other, the
install request succeeds and the current image is the target's. -/
theorem C27_any_split (env : Env) (hs : Hashing) (s : State) (t : Target) (x : Hash) (l : List Hash) (c : Bytes) (cs : List Bytes)
    (fuel : Nat) (hu : s.up = true) (hp : s.pending = some t) (hn : s.newtarget.getD [] = []) (hx : t.hashes = x :: l)
    (hk : x.type ≠ .unknown) (hne : ∀ d ∈ c :: cs, d ≠ []) (hlen : (c :: cs).flatten.length = t.length)
    (hd : x.hash = upper (hs.digest x.type (c :: cs).flatten)) :
    ∃ s1 s2, run env hs s ((c :: cs).map whole) = .ok s1 ∧ step env hs s1 (.install true (fuel + 2)) = .ok (some .ok, s2) ∧
      s2.firmware = some (c :: cs).flatten ∧ s2.newtarget = none ∧ s2.pending = none ∧ s2.name = t.filename ∧
      s2.versions = s.versions.saveInstalledVersion env s.serial t .current := by
  have hc : c ≠ [] := hne c (by simp)
  have hc' : 0 < c.length := List.length_pos_iff.2 hc
  simp only [List.flatten_cons, List.length_append] at hlen
  obtain ⟨n, hr⟩ := run_chunks (env := env) (hs := hs) cs (fun c' h' => hne c' (by simp [h']))
    { s with w := { s.w with fuel := 0 }, newtarget := some c, hasher := some { type := x.type, past := [some c] } }
    c { type := x.type, past := [some c] } hu hp rfl hc rfl (by omega)
  have hd' : t.matchHash (Hasher.getHash { type := x.type, past := [some c] ++ cs.map some } hs) = true := by
    unfold Target.matchHash Hasher.getHash Hash.mk'
    have h1 : ([some c] ++ cs.map some).all (·.isSome) = true := by simp
    have h2 : Hasher.data { type := x.type, past := [some c] ++ cs.map some } = (c :: cs).flatten := by
      unfold Hasher.data
      simp [List.flatMap_map, List.flatMap_id']
    rw [if_pos h1, h2, ← hd, List.contains_iff_mem, hx]
    simp
  have hl : ¬ (c ++ cs.flatten).length ≠ t.length := by rw [List.length_append]; omega
  have hrun : run env hs s ((c :: cs).map whole) = run env hs { s with w := { s.w with fuel := 0 }, newtarget := some c, hasher := some { type := x.type, past := [some c] } } (cs.map whole) := by
    simp only [List.map_cons, run, bind, Except.bind]
    rw [step_first hu hp hn hx hk (by omega)]
  refine ⟨_, { s with w := { s.w with fuel := fuel }, newtarget := none, hasher := none, firmware := some (c :: cs).flatten, name := t.filename, pending := none, versions := s.versions.saveInstalledVersion env s.serial t .current },
    hrun.trans hr, ?_, rfl, rfl, rfl, rfl, rfl⟩
  simp only [step, request, hu, if_true, observe, install, bind_apply, gets_eq, id, hp, agentInstall, hl, if_false, hd',
    Bool.not_true, Bool.false_eq_true, effect, modify_eq, pure_eq, List.flatten_cons]

/-! ## Findings -/

/-- A Primary that sends uploads and install requests only. -/
def Op.isRetry : Op → Prop
  | .upload _ _ => True
  | .install _ _ => True
  | _ => False

/-- A complete file that does not have a listed hash is never removed: nothing the Primary uploads changes it and no
install request succeeds, until new metadata is accepted or the Secondary is restarted. -/
theorem C27_stuck_after_mismatch (env : Env) (hs : Hashing) (t : Target) (b : Bytes) (hb : b.length = t.length)
    (hsp : ∀ p h, h ∈ t.hashes → h.hash ≠ upper (hs.spent h.type p)) (ops : List Op) (ho : ∀ o ∈ ops, o.isRetry) (s s' : State)
    (h : Hasher) (hp : s.pending = some t) (hn : s.newtarget = some b) (hh : s.hasher = some h)
    (hm : ∀ x ∈ t.hashes, x ≠ h.getHash hs) (hr : run env hs s ops = .ok s') :
    s'.firmware = s.firmware ∧ s'.newtarget = some b ∧ s'.pending = some t := by
  induction ops generalizing s h with
  | nil =>
    simp only [run, Except.ok.injEq] at hr
    subst hr
    exact ⟨rfl, hn, hp⟩
  | cons o ops ih =>
    simp only [run, bind, Except.bind] at hr
    cases hst : step env hs s o with
    | error e => rw [hst] at hr; cases hr
    | ok r =>
      obtain ⟨a, s1⟩ := r
      rw [hst] at hr
      simp only at hr
      have key : s1.pending = some t ∧ s1.newtarget = some b ∧ s1.firmware = s.firmware ∧
          ∃ h', s1.hasher = some h' ∧ ∀ x ∈ t.hashes, x ≠ h'.getHash hs := by
        cases o with
        | putMeta m c f => exact (ho (.putMeta m c f) (by simp)).elim
        | restart c f => exact (ho (.restart c f) (by simp)).elim
        | upload io data =>
          rcases request_ok hst with ⟨_, _, rfl⟩ | ⟨_, o, s2, hm', hub, hst⟩
          · exact ⟨hp, hn, rfl, h, hh, hm⟩
          · have : s2.pending = some t ∧ s2.newtarget = some b ∧ s2.firmware = s.firmware ∧ s2.hasher = some h := by
              rcases upload_cases hm' with ⟨hp', _⟩ | ⟨t', hp', hrd⟩
              · rw [show s.pending = none from hp'] at hp; cases hp
              · obtain ⟨⟨nt, hh', rfl⟩, hc⟩ := receiveData_cases hrd
                rw [show s.pending = some t' from hp'] at hp
                injection hp with hp
                subst hp
                rcases hc with ⟨hc, _⟩ | ⟨h1, h2, _⟩ | ⟨w, hc⟩ | ⟨_, hlt, _⟩
                · rw [hc]; exact ⟨hp', hn, rfl, hh⟩
                · simp only [hn, hh, Option.getD_some] at h1 h2
                  exact ⟨hp', h1, rfl, h2⟩
                · exact absurd hc (hub w)
                · simp only [hn, Option.getD_some] at hlt
                  omega
            rcases hst with ⟨_, _, _, rfl⟩ | ⟨_, _, _, rfl⟩ <;> exact ⟨this.1, this.2.1, this.2.2.1, h, this.2.2.2, hm⟩
        | install renames fuel =>
          rcases request_ok hst with ⟨_, _, rfl⟩ | ⟨_, o, s2, hm', hub, hst⟩
          · exact ⟨hp, hn, rfl, h, hh, hm⟩
          · have : s2.pending = some t ∧ s2.newtarget = some b ∧ s2.firmware = s.firmware ∧
                ∃ h', s2.hasher = some h' ∧ ∀ x ∈ t.hashes, x ≠ h'.getHash hs := by
              have hlen : ¬ b.length ≠ t.length := by omega
              have hmatch : t.matchHash (h.getHash hs) = false := by
                unfold Target.matchHash
                rw [← Bool.not_eq_true, List.contains_iff_mem]
                exact fun hmem => hm _ hmem rfl
              simp only [install, bind_apply, gets_eq, id, hp, agentInstall, hn, hlen, if_false, hh, hmatch,
                Bool.false_eq_true, modify_eq, lift_eq] at hm'
              have hgood : ∀ x ∈ t.hashes, x ≠ Hasher.getHash { h with past := h.past ++ [none, none, none] } hs := by
                intro x hx hxe
                refine hsp (h.past ++ [none, none, none]) x hx ?_
                unfold Hasher.getHash Hash.mk' at hxe
                rw [if_neg (by simp)] at hxe
                rw [hxe]
              cases hf : firstHash t with
              | error e =>
                rw [hf] at hm'
                simp only [Prod.mk.injEq] at hm'
                obtain ⟨_, rfl⟩ := hm'
                exact ⟨rfl, rfl, rfl, _, rfl, hgood⟩
              | ok x =>
                rw [hf] at hm'
                simp only [pure_eq, reduceCtorEq, if_false, Prod.mk.injEq] at hm'
                obtain ⟨_, rfl⟩ := hm'
                exact ⟨rfl, rfl, rfl, _, rfl, hgood⟩
            rcases hst with ⟨_, _, _, rfl⟩ | ⟨_, _, _, rfl⟩ <;> exact this
      obtain ⟨k1, k2, k3, h', k4, k5⟩ := key
      obtain ⟨r1, r2, r3⟩ := ih (fun o ho' => ho o (by simp [ho'])) s1 h' k1 k2 k4 k5 hr
      exact ⟨r1.trans k3, r2, r3⟩

/-! ## Concrete Secondaries -/

/-- A toy hash: the text itself. -/
def toyHashing : Hashing where
  digest _ b := String.ofList (b.map (fun x => Char.ofNat x.toNat))
  spent _ _ := "?"

/-- A Secondary just out of the factory. -/
def fresh : State := { serial := "e1", hwid := "h1" }

/-- Requests in the year 2026. -/
def boot : Op := .restart (Toy.clock "2026-01-01T00:00:00Z") 100
def send (m : PutMeta) : Op := .putMeta m (Toy.clock "2026-01-01T00:00:00Z") 100

/-- Metadata in which both repositories agree on `fw` with content "abc". -/
def agreed : PutMeta where
  director := [("root", "dr1"), ("targets", "dt1")]
  image := [("root", "ir1"), ("timestamp", "its1"), ("snapshot", "isn1"), ("targets", "it1")]

/-- Metadata in which the Director assigns `fw2` with content "abd", which the Image repository does not know. -/
def onlyDirector : PutMeta where
  director := [("root", "dr1"), ("targets", "dt2")]
  image := [("root", "ir1"), ("timestamp", "its1"), ("snapshot", "isn1"), ("targets", "it1")]

/-- Answers and the final image. -/
def history (s : State) : List Op → Except String (List (Option Answer) × State)
  | [] => .ok ([], s)
  | o :: os => do
    let r ← step Toy.E toyHashing s o
    let q ← history r.2 os
    pure (r.1 :: q.1, q.2)

/-- What an observer sees of a history. -/
structure Seen where
  answers : List (Option Answer)
  firmware : Option Bytes
  pending : Option String
  newtarget : Option Bytes
  up : Bool
  deriving DecidableEq

def seen (ops : List Op) : Option Seen :=
  match history fresh ops with
  | .ok (as, s) => some ⟨as, s.firmware, s.pending.map (·.filename), s.newtarget, s.up⟩
  | .error _ => none

/-- The undefined behaviour a history ends in. -/
def fault (ops : List Op) : Option String :=
  match history fresh ops with
  | .ok _ => none
  | .error w => some w

/-- Not vacuous: `C26_running`, `C27_partial`, `C27_any_split`: metadata, two chunks, installation. -/
example : seen [boot, send agreed, whole [97], whole [98, 99], .install true 10] =
    some ⟨[some .ok, some .ok, some .ok, some .ok, some .ok], some [97, 98, 99], none, none, true⟩ := by decide +kernel

/-- Not vacuous: a wrong content is not activated, a short one neither. -/
example : seen [boot, send agreed, whole [97], whole [98, 98], .install true 10] =
    some ⟨[some .ok, some .ok, some .ok, some .ok, some .downloadFailed], none, some "fw", some [97, 98, 98], true⟩ ∧
    seen [boot, send agreed, whole [97], .install true 10] =
    some ⟨[some .ok, some .ok, some .ok, some .downloadFailed], none, some "fw", none, true⟩ := by decide +kernel

/-- Not vacuous: `Binding` holds for a target with the toy hash. -/
example : Sec.Binding toyHashing { filename := "fw", length := 3, hashes := [⟨.sha256, "ABC"⟩] } := by
  constructor
  · intro x h hm he
    simp only [List.mem_singleton] at hm
    subst hm
    have := congrArg (fun s => s.toList.length) he
    simp only [upper, toyHashing, String.toList_ofList, List.length_map] at this
    exact this.symm
  · intro p h hm he
    simp only [List.mem_singleton] at hm
    subst hm
    simp only [toyHashing] at he
    exact absurd he (by decide +kernel)

/-- C26 fails after a restart: the Secondary refuses metadata because the Image repository does not know the target,
but keeps the Director's part; after a restart it takes the target from there and installs it. No metadata was ever
accepted. -/
theorem C26_restart_skips_image_repository :
    seen [boot, send onlyDirector, boot, whole [97, 98, 100], .install true 10] =
      some ⟨[some .ok, some .verificationFailed, some .ok, some .ok, some .ok], some [97, 98, 100], none, none, true⟩ := by
  decide +kernel

/-- … and the Primary can bring about the restart: metadata without a Root ends the process. -/
theorem C26_incomplete_metadata_ends_process :
    seen [boot, send { director := [], image := [] }] = some ⟨[some .ok, none], none, none, none, false⟩ := by decide +kernel

/-- C27 fails when data is lost without notice: a byte is lost when the file is closed, a later write fails after
one byte and is repeated. The image activated is not the one hashed. -/
theorem C27_unnoticed_loss :
    seen [boot, send agreed, .upload { kept := 1 } [97, 98], .upload { kept := 1, fate := .noticed } [99, 99], whole [99], .install true 10] =
      some ⟨[some .ok, some .ok, some .ok, some .downloadFailed, some .ok, some .ok], some [97, 99, 99], none, none, true⟩ := by
  decide +kernel

/-- A Secondary restarted during an upload dereferences a null pointer at the next chunk: the file is there, the hasher
is not. -/
theorem C27_resume_undefined :
    fault [boot, send agreed, whole [97], boot, whole [98, 99]] = some "null hasher" := by decide +kernel

/-- The same happens at the install request when the whole file had been received before the restart. -/
theorem C27_install_after_restart_undefined :
    fault [boot, send agreed, whole [97, 98, 99], boot, .install true 10] = some "null hasher" := by decide +kernel

/-- After a wrong content has been received, the right one cannot be uploaded any more. -/
theorem C27_stuck_witness :
    seen [boot, send agreed, whole [97, 98, 98], .install true 10, whole [97, 98, 99], .install true 10] =
      some ⟨[some .ok, some .ok, some .ok, some .downloadFailed, some .downloadFailed, some .downloadFailed],
        none, some "fw", some [97, 98, 98], true⟩ := by decide +kernel

/-- A crash between the replacement of the image and the record of the version: the new image is reported under the
name known before. -/
theorem C27_crash_leaves_old_name :
    (match history fresh [boot, send agreed, whole [97, 98, 99], .install true 1, boot] with
     | .ok (_, s) => some (installedImage s toyHashing, s.pending.map (·.filename))
     | .error _ => none) = some (("unknown", 3, "abc"), some "fw") := by decide +kernel

end Aktualizr.Sec
