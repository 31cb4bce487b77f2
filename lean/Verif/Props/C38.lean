import Verif.Model.Rate

/-!
# C38: concurrency control of uploads
-/

namespace Aktualizr.Spec

open Aktualizr.Rate

/-- What a controller must satisfy. -/
structure Controlled (cap : Int) (c : Controller) : Prop where
  fixed : c.cap = cap
  low : 1 ≤ c.maxConcurrency
  high : c.maxConcurrency ≤ cap
  sleep : 0 ≤ c.sleep
  alone : c.sleep ≠ 0 → c.maxConcurrency = 1

/-- Requests that all fail, each begun after the end of the one before it. -/
def AllFail (last : Int) : List Completion → Prop
  | [] => True
  | r :: rs => last < r.start ∧ r.ok = false ∧ AllFail r.finish rs

end Aktualizr.Spec

namespace Aktualizr

open Aktualizr.Rate Aktualizr.Spec

theorem pow_mono {m n : Nat} (h : m ≤ n) : (2 : Int) ^ m ≤ 2 ^ n := by
  have h' := Nat.pow_le_pow_right (n := 2) (by decide) h
  have hm := Int.natCast_pow 2 m
  have hn := Int.natCast_pow 2 n
  simp only [Int.cast_ofNat_Int] at hm hn
  rw [← hm, ← hn]
  exact Int.ofNat_le.2 h'

theorem tdiv_two {n : Int} (h : 2 ≤ n) : 1 ≤ Int.tdiv n 2 ∧ Int.tdiv n 2 * 2 ≤ n ∧ Int.tdiv n 2 < n := by
  rw [Int.tdiv_eq_ediv_of_nonneg (by omega)]; omega

theorem controlled_step {cap : Int} {c : Controller} (h : Controlled cap c) (r : Completion) :
    Controlled cap (requestCompleted c r) := by
  obtain ⟨h1, h2, h3, h4, h5⟩ := h
  unfold requestCompleted
  split
  · simp only
    split
    · exact ⟨h1, by simp only; omega, by simp only; omega, by simp, by simp⟩
    · split
      · rename_i hm
        have ht := tdiv_two hm
        refine ⟨h1, by simp only; omega, by simp only; omega, h4, ?_⟩
        intro hs
        have := h5 hs
        omega
      · rename_i hm
        refine ⟨h1, h2, h3, ?_, ?_⟩
        · simp only [kInitialSleepTime]; omega
        · intro _; simp only; omega
  · exact ⟨h1, h2, h3, h4, h5⟩

/-- Whatever requests are completed in whatever order, the allowed concurrency is between 1 and
the maximum, and waiting happens only at concurrency 1. -/
theorem C38_within_limits (cap : Int) (hc : 1 ≤ cap) (rs : List Completion) : Controlled cap (run { cap } rs) := by
  have : ∀ rs c, Controlled cap c → Controlled cap (run c rs) := by
    intro rs
    induction rs with
    | nil => intro c h; exact h
    | cons r rs ih => intro c h; exact ih _ (controlled_step h r)
  exact this rs _ ⟨rfl, by simp, by simpa using hc, by simp, by simp⟩

/-- A success ends waiting. -/
theorem C38_success_recovers (c : Controller) (r : Completion) (h1 : c.last < r.start) (h2 : r.ok = true) :
    (requestCompleted c r).sleep = 0 ∧ serverHasFailed (requestCompleted c r) = false := by
  simp [requestCompleted, h1, h2, serverHasFailed, kMaxSleepTime]

theorem fail_alone (c : Controller) (r : Completion) (h1 : c.last < r.start) (h2 : r.ok = false) (hm : c.maxConcurrency = 1) :
    requestCompleted c r = { c with last := r.finish, sleep := max (c.sleep * 2) kInitialSleepTime } := by
  simp [requestCompleted, h1, h2, hm]

theorem fails_alone (rs : List Completion) : ∀ (c : Controller) (k : Nat), AllFail c.last rs → c.maxConcurrency = 1 →
    2 ^ k * kInitialSleepTime ≤ 2 * c.sleep → 2 ^ (k + rs.length) * kInitialSleepTime ≤ 2 * (run c rs).sleep := by
  induction rs with
  | nil => intro c k _ _ h; exact h
  | cons r rs ih =>
    intro c k ⟨h1, h2, h3⟩ hm h
    have hs := fail_alone c r h1 h2 hm
    have hk : 2 ^ (k + 1) * kInitialSleepTime ≤ 2 * (requestCompleted c r).sleep := by
      rw [hs, Int.pow_succ, Int.mul_right_comm]
      generalize (2 : Int) ^ k * kInitialSleepTime = q at h ⊢
      generalize kInitialSleepTime = s
      simp only
      omega
    have := ih (requestCompleted c r) (k + 1) (by rw [hs]; exact h3) (by rw [hs]; exact hm) hk
    rw [show k + (r :: rs).length = k + 1 + rs.length by simp; omega]
    exact this

theorem failed_iff (c : Controller) : serverHasFailed c = true ↔ kMaxSleepTime < c.sleep := by
  unfold serverHasFailed; exact decide_eq_true_iff

/-- A server for which all requests fail is reported as failed after at most `log2 max + 6` of
them, from whatever state. -/
theorem C38_failure_detected (cap : Int) (j : Nat) : ∀ (c : Controller) (rs : List Completion), Controlled cap c →
    c.maxConcurrency < 2 ^ (j + 1) → AllFail c.last rs → j + 6 ≤ rs.length → serverHasFailed (run c rs) = true := by
  induction j with
  | zero =>
    intro c rs hc hm hf hl
    have h1 : c.maxConcurrency = 1 := by have := hc.low; simp only [Int.pow_succ, Int.pow_zero] at hm; omega
    match rs, hf, hl with
    | r :: rs, ⟨f1, f2, f3⟩, hl =>
      have hs := fail_alone c r f1 f2 h1
      have h := fails_alone rs (requestCompleted c r) 1 (by rw [hs]; exact f3) (by rw [hs]; exact h1)
        (by rw [hs]; simp only [kInitialSleepTime]; omega)
      have hp : (2 : Int) ^ 6 ≤ 2 ^ (1 + rs.length) := by
        simp only [List.length_cons] at hl
        exact pow_mono (by omega)
      have hp' : (64 : Int) ≤ 2 ^ (1 + rs.length) := by simpa using hp
      have : run c (r :: rs) = run (requestCompleted c r) rs := rfl
      rw [this]
      generalize (2 : Int) ^ (1 + rs.length) = p at *
      simp only [kInitialSleepTime] at h
      rw [failed_iff]
      simp only [kMaxSleepTime]
      omega
  | succ j ih =>
    intro c rs hc hm hf hl
    match rs, hf, hl with
    | r :: rs, ⟨f1, f2, f3⟩, hl =>
      have hrun : run c (r :: rs) = run (requestCompleted c r) rs := rfl
      have hc' := controlled_step hc r
      rw [hrun]
      simp only [List.length_cons] at hl
      apply ih _ rs hc' ?_ ?_ (by omega)
      · by_cases h2 : c.maxConcurrency ≥ 2
        · have : (requestCompleted c r).maxConcurrency = Int.tdiv c.maxConcurrency 2 := by
            simp [requestCompleted, f1, f2, h2]
          have ht := tdiv_two h2
          rw [this]
          rw [Int.pow_succ] at hm
          omega
        · have h1 : c.maxConcurrency = 1 := by have := hc.low; omega
          rw [fail_alone c r f1 f2 h1]
          simp only [h1]
          have : (2 : Int) ^ 1 ≤ 2 ^ (j + 1) := pow_mono (by omega)
          omega
      · have : (requestCompleted c r).last = r.finish := by
          simp only [requestCompleted, f1, if_true, f2, Bool.false_eq_true, if_false]
          split <;> rfl
        rw [this]; exact f3

/-- A server is not reported as failed before six requests have failed. -/
theorem C38_not_failed_early (cap : Int) (rs : List Completion) (h : serverHasFailed (run { cap } rs) = true) :
    6 ≤ (rs.filter (fun r => !r.ok)).length := by
  have key : ∀ (rs : List Completion) (c : Controller) (k : Nat), 2 * c.sleep ≤ 2 ^ k * kInitialSleepTime →
      2 * (run c rs).sleep ≤ 2 ^ (k + (rs.filter (fun r => !r.ok)).length) * kInitialSleepTime := by
    intro rs
    induction rs with
    | nil => intro c k hk; simpa [run] using hk
    | cons r rs ih =>
      intro c k hk
      have hrun : run c (r :: rs) = run (requestCompleted c r) rs := rfl
      rw [hrun]
      have hpos : (1 : Int) ≤ 2 ^ k := by
        have : (2 : Int) ^ 0 ≤ 2 ^ k := pow_mono (Nat.zero_le _)
        simpa using this
      cases hr : r.ok with
      | true =>
        have := ih (requestCompleted c r) k (by
          unfold requestCompleted
          split
          · simp only [hr, if_true]
            generalize (2 : Int) ^ k = p at *
            simp only [kInitialSleepTime] at *
            omega
          · exact hk)
        simpa [hr] using this
      | false =>
        have := ih (requestCompleted c r) (k + 1) (by
          have hk' : 2 * c.sleep ≤ 2 ^ (k + 1) * kInitialSleepTime := by
            rw [Int.pow_succ]
            generalize (2 : Int) ^ k = p at *
            simp only [kInitialSleepTime] at *
            omega
          unfold requestCompleted
          split
          · simp only [hr, Bool.false_eq_true, if_false]
            split
            · exact hk'
            · simp only
              rw [Int.pow_succ] at hk' ⊢
              generalize (2 : Int) ^ k = p at *
              simp only [kInitialSleepTime] at *
              omega
          · exact hk')
        simp only [List.filter_cons, hr, Bool.not_false, if_true, List.length_cons]
        rw [show k + ((rs.filter (fun r => !r.ok)).length + 1) = k + 1 + (rs.filter (fun r => !r.ok)).length by omega]
        exact this
  have hk := key rs { cap } 0 (by simp [kInitialSleepTime])
  rw [failed_iff] at h
  simp only [kMaxSleepTime] at h
  rw [Nat.zero_add] at hk
  have h60 : (60 : Int) < 2 ^ (rs.filter (fun r => !r.ok)).length := by
    generalize (2 : Int) ^ (rs.filter (fun r => !r.ok)).length = p at *
    simp only [kInitialSleepTime] at hk
    omega
  by_cases hn : 6 ≤ (rs.filter (fun r => !r.ok)).length
  · exact hn
  · have : (2 : Int) ^ (rs.filter (fun r => !r.ok)).length ≤ 2 ^ 5 := pow_mono (by omega)
    have h32 : (2 : Int) ^ 5 = 32 := by decide
    omega

/-- Not vacuous: ten failures in a row at concurrency 30 and how the controller gets there. -/
example :
    let up := (List.range 40).map (fun i : Nat => Completion.mk (2 * i + 1) (2 * i + 2) true)
    let down := (List.range 10).map (fun i : Nat => Completion.mk (2 * i + 101) (2 * i + 102) false)
    (run { cap := 30 } up).maxConcurrency = 30 ∧ AllFail (run { cap := 30 } up).last down ∧
    serverHasFailed (run { cap := 30 } (up ++ down)) = true ∧
    serverHasFailed (run { cap := 30 } (up ++ down.take 9)) = false := by
  refine ⟨by decide +kernel, ?_, by decide +kernel, by decide +kernel⟩
  have : (run { cap := 30 } ((List.range 40).map (fun i : Nat => Completion.mk (2 * i + 1) (2 * i + 2) true))).last = 80 := by
    decide +kernel
  rw [this]
  simp [List.range, List.range.loop, AllFail]

end Aktualizr
