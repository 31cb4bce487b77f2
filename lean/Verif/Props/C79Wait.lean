import Verif.Props.C79Report

/-! # C79: waiting for the provisioning -/

namespace Aktualizr.Info

open M

section Waiting

variable {a : Around} {o : Options}

theorem wait_out : ∀ (n : Nat) (r m : Bool) (root : String) (s : St), (wait a n r m root s).2.out = s.out
  | 0, _, _, _, _ => rfl
  | n + 1, r, m, root, s => by
    unfold wait
    split
    · rfl
    · show ((if a.opens s.tick = true then _ else _ : P (Bool × Bool × String)) { s with tick := s.tick + 1 }).2.out = s.out
      split
      · show (((readE a (fun d => d.doc .director .root)) >>= _ : P (Bool × Bool × String)) { s with tick := s.tick + 1 + 1 }).2.out = s.out
        cases hd : (a.db (s.tick + 1 + 1)).doc .director .root with
        | error e =>
          have : readE a (fun d => d.doc .director .root) { s with tick := s.tick + 1 + 1 } = (.error e, { s with tick := s.tick + 1 + 1 + 1 }) := by
            unfold readE
            rw [← hd]
          rw [run_bind_err this]
        | ok x =>
          have : readE a (fun d => d.doc .director .root) { s with tick := s.tick + 1 + 1 } = (.ok x, { s with tick := s.tick + 1 + 1 + 1 }) := by
            unfold readE
            rw [← hd]
          rw [run_bind this]
          exact wait_out n _ _ _ _
      · exact wait_out n _ _ _ _

/-- One attempt. -/
theorem wait_step {n : Nat} {r m : Bool} {root : String} {s : St} (hf : (r && m) = false) (hd : ∀ t, ∃ x, (a.db t).doc .director .root = .ok x) :
    ∃ r' m' root' k, 1 ≤ k ∧ wait a (n + 1) r m root s = wait a n r' m' root' ⟨s.out, s.tick + k⟩ ∧
      (a.opens s.tick = true → r' = (a.db (s.tick + 1)).registered ∧ ∃ x, (a.db (s.tick + 2)).doc .director .root = .ok x ∧ m' = x.isSome) := by
  obtain ⟨x, hx⟩ := hd (s.tick + 2)
  conv => enter [1, r', 1, m', 1, root', 1, k, 2, 1, 1]; unfold wait
  rw [hf]
  cases hop : a.opens s.tick with
  | true =>
    refine ⟨_, x.isSome, x.getD root, 3, by omega, ?_, fun _ => ⟨rfl, x, hx, rfl⟩⟩
    show ((if a.opens s.tick = true then _ else _ : P (Bool × Bool × String)) { s with tick := s.tick + 1 }) = _
    rw [if_pos hop]
    show (((readE a (fun d => d.doc .director .root)) >>= _ : P (Bool × Bool × String)) { s with tick := s.tick + 1 + 1 }) = _
    have : readE a (fun d => d.doc .director .root) { s with tick := s.tick + 1 + 1 } = (.ok x, { s with tick := s.tick + 1 + 1 + 1 }) := by
      unfold readE
      rw [← hx]
    rw [run_bind this]
  | false =>
    refine ⟨r, m, root, 1, by omega, ?_, fun h => by cases h⟩
    show ((if a.opens s.tick = true then _ else _ : P (Bool × Bool × String)) { s with tick := s.tick + 1 }) = _
    rw [if_neg (by rw [hop]; simp)]

theorem wait_ends {t0 : Nat} (hd : ∀ t, ∃ x, (a.db t).doc .director .root = .ok x)
    (hp : ∀ t, t0 ≤ t → a.opens t = true ∧ (a.db t).registered = true ∧ ∃ x, (a.db t).doc .director .root = .ok (some x)) :
    ∀ (n : Nat) (r m : Bool) (root : String) (s : St), 2 ≤ n → t0 + 2 ≤ s.tick + n →
      ∃ v s', wait a n r m root s = (.ok v, s') ∧ s'.out = s.out
  | 0, _, _, _, _, h, _ => by omega
  | n + 1, r, m, root, s, h1, h2 => by
    cases hf : (r && m) with
    | true =>
      refine ⟨(r, m, root), s, ?_, rfl⟩
      unfold wait
      rw [hf]
      rfl
    | false =>
      obtain ⟨r', m', root', k, hk, he, ho⟩ := wait_step (n := n) (root := root) (s := s) hf hd
      rw [he]
      by_cases ht : t0 ≤ s.tick
      · obtain ⟨g1, -, -⟩ := hp s.tick ht
        obtain ⟨-, g2, -⟩ := hp (s.tick + 1) (by omega)
        obtain ⟨-, -, y, g3⟩ := hp (s.tick + 2) (by omega)
        obtain ⟨e1, x, e2, e3⟩ := ho g1
        rw [g2] at e1
        rw [g3] at e2
        have e2 := Except.ok.inj e2
        subst e2 e1 e3
        obtain ⟨n, rfl⟩ : ∃ j, n = j + 1 := ⟨n - 1, by omega⟩
        exact ⟨(true, true, root'), ⟨s.out, s.tick + k⟩, by unfold wait; rfl, rfl⟩
      · exact wait_ends hd hp n r' m' root' ⟨s.out, s.tick + k⟩ (by omega) (by show t0 + 2 ≤ s.tick + k + n; omega)

end Waiting

/-- C79. With `--wait-until-provisioned` nothing is printed, and no success reported, before the registration of the ECUs and a Root
of the Director have been seen in the database. -/
theorem C79_wait (a : Around) (o : Options) (attempts : Nat) (hw : o.has "wait-until-provisioned" = true)
    (h : (main a o attempts {}).2.out ≠ [] ∨ (main a o attempts {}).1 = .ok ()) :
    Spec.At a (main a o attempts {}).2.tick (fun d => ∃ i, d.device = some (i, true)) ∧
      ∃ x, Spec.At a (main a o attempts {}).2.tick (fun d => Spec.Newest d .director .root x) := by
  have hm : main a o attempts = (wait a attempts false false "" >>= fun w => inform a o w.1 w.2.1 w.2.2) := by
    unfold main
    rw [hw]
    rfl
  have hout := wait_out (a := a) attempts false false "" {}
  cases hwr : wait a attempts false false "" {} with
  | mk q s1 =>
    rw [hwr] at hout
    cases q with
    | error e =>
      exfalso
      rw [hm, run_bind_err hwr] at h
      rcases h with h | h
      · exact h hout
      · cases h
    | ok w =>
      have hlater : s1.tick ≤ (main a o attempts {}).2.tick := by
        rw [hm, run_bind hwr]
        exact later_inform a o _ _ _ s1
      generalize (main a o attempts {}).2.tick = N at hlater
      have ht := tells_wait (a := a) (o := o) (N := N) attempts false false "" ⟨by simp, by simp⟩ {}
        (by rw [hwr]; exact hlater) (by intro p hp; cases hp)
      obtain ⟨⟨g1, g2⟩, g3, g4⟩ := ht.2 w (by rw [hwr])
      exact ⟨g1 g3, w.2.2, g2 g4⟩

/-- C79. If the storage can be opened and holds the registration and a Root of the Director from some moment on, the wait ends, and
`--name-only` then prints the identity the device is registered with. -/
theorem C79_wait_ends (a : Around) (o : Options) (t0 attempts : Nat) (hw : o.has "wait-until-provisioned" = true) (hn : o.has "name-only" = true)
    (hd : ∀ t, ∀ r ∈ (a.db t).metadata.rows, r.data ≠ "")
    (hp : ∀ t, t0 ≤ t → a.opens t = true ∧ (∃ i, (a.db t).device = some (i, true)) ∧ ∃ x, Spec.Newest (a.db t) .director .root x)
    (hk : ∀ t i, (a.db t).device = some (i, true) → ∀ t', t ≤ t' → (a.db t').device = some (i, true)) (hlong : t0 + 2 ≤ attempts) :
    ∃ i t, (a.db t).device = some (i, true) ∧ main a o attempts {} = (.ok (), ⟨[i], t + 1⟩) := by
  have hm : main a o attempts = (wait a attempts false false "" >>= fun w => inform a o w.1 w.2.1 w.2.2) := by
    unfold main
    rw [hw]
    rfl
  have hok : ∀ t, ∃ x, (a.db t).doc .director .root = .ok x := by
    intro t
    exact doc_filled (hd t) _ _
  have hp' : ∀ t, t0 ≤ t → a.opens t = true ∧ (a.db t).registered = true ∧ ∃ x, (a.db t).doc .director .root = .ok (some x) := by
    intro t ht
    obtain ⟨g1, ⟨i, g2⟩, x, g3⟩ := hp t ht
    refine ⟨g1, ?_, ?_⟩
    · unfold Db.registered
      rw [g2]
      rfl
    · obtain ⟨y, hy⟩ := hok t
      cases y with
      | some y => exact ⟨y, hy⟩
      | none =>
        obtain ⟨r, hr, h1, h2, -⟩ := g3
        exact absurd ⟨h1, h2⟩ (doc_none hy r hr)
  obtain ⟨w, s1, e1, e2⟩ := wait_ends hok hp' attempts false false "" {} (by omega) (by show t0 + 2 ≤ 0 + attempts; omega)
  have ht := (tells_wait (a := a) (o := o) (N := s1.tick) attempts false false "" ⟨by simp, by simp⟩ {}
        (by rw [e1]; exact Nat.le_refl _) (by intro p hp; cases hp)).2 w (by rw [e1])
  obtain ⟨t, htt, i, hi⟩ := ht.1.1 ht.2.1
  have hi' := hk t i hi s1.tick (Nat.le_of_lt htt)
  refine ⟨i, s1.tick, hi', ?_⟩
  rw [hm, run_bind e1]
  unfold inform
  obtain ⟨out, tick⟩ := s1
  have e2 : out = [] := e2
  subst e2
  have h2 : read a (fun d => d.device.map (·.1)) ⟨[], tick⟩ = (.ok (some i), ⟨[], tick + 1⟩) := by
    show ((Except.ok ((a.db tick).device.map (·.1)) : Except Err (Option String)), (⟨[], tick + 1⟩ : St)) = _
    rw [show (a.db tick).device = some (i, true) from hi']
    rfl
  rw [run_bind h2, hn]
  rfl

end Aktualizr.Info
