import Verif.Model.Http

/-!
# C44: responses are limited and complete

For every limit, server and splitting into chunks.
-/

namespace Aktualizr.Http

theorem writeString_spec {limit : Int} : ∀ (cs : List (List UInt8)) (out : List UInt8),
    ((writeString limit cs out).1 <+: out ++ cs.flatten) ∧
    ((writeString limit cs out).2 = true → (writeString limit cs out).1 = out ++ cs.flatten) ∧
    (0 < limit → (out.length : Int) ≤ limit → ((writeString limit cs out).1.length : Int) ≤ limit) ∧
    (limit ≤ 0 ∨ ((out ++ cs.flatten).length : Int) ≤ limit → (writeString limit cs out).2 = true)
  | [], out => by simp [writeString]
  | c :: cs, out => by
    unfold writeString
    split
    · rename_i hc
      split
      · rename_i h0
        have : c = [] := List.length_eq_zero_iff.1 h0
        subst this
        simpa using writeString_spec cs out
      · refine ⟨List.prefix_append _ _, by simp, fun _ h => h, ?_⟩
        intro h
        simp only [List.flatten_cons, List.length_append] at h
        omega
    · rename_i hc
      obtain ⟨h1, h2, h3, h4⟩ := writeString_spec cs (out ++ c)
      rw [List.append_assoc] at h1 h2 h4
      refine ⟨by simpa using h1, by simpa using h2, ?_, by simpa using h4⟩
      intro hl _
      apply h3 hl
      simp only [List.length_append]
      omega

/-- The response is that of one of the attempts. -/
theorem perform_mem {limit : Int} : ∀ (retry : Nat) (ts : List Transfer) (r : Response),
    perform limit retry ts = some r → ∃ t ∈ ts, r = attempt limit t
  | _, [], r, h => by simp [perform] at h
  | retry, t :: ts, r, h => by
    unfold perform at h
    simp only at h
    split at h
    · cases retry with
      | zero => simp only [Option.some.injEq] at h; exact ⟨t, by simp, h.symm⟩
      | succ k =>
        obtain ⟨t', ht, hr⟩ := perform_mem k ts r h
        exact ⟨t', by simp [ht], hr⟩
    · simp only [Option.some.injEq] at h; exact ⟨t, by simp, h.symm⟩

end Aktualizr.Http

namespace Aktualizr

open Aktualizr.Http

/-- The body is never longer than a positive limit. -/
theorem C44_limited {limit : Int} {ts : List Transfer} {r : Response} (h : Http.get limit ts = some r)
    (hl : 0 < limit) : (r.body.length : Int) ≤ limit := by
  obtain ⟨t, -, rfl⟩ := perform_mem _ _ _ h
  exact (writeString_spec t.chunks []).2.2.1 hl (by simp; omega)

/-- The response comes from one of the attempts: its body is a beginning of what the server sent,
all of it if the transfer is reported successful. -/
theorem C44_complete {limit : Int} {ts : List Transfer} {r : Response} (h : Http.get limit ts = some r) :
    ∃ t ∈ ts, r.status = t.status ∧ r.body <+: t.chunks.flatten ∧
      (r.isOk = true → r.body = t.chunks.flatten) := by
  obtain ⟨t, ht, rfl⟩ := perform_mem _ _ _ h
  obtain ⟨h1, h2, -, -⟩ := writeString_spec (limit := limit) t.chunks []
  refine ⟨t, ht, rfl, h1, fun ho => h2 ?_⟩
  simp only [Response.isOk, attempt, Bool.and_eq_true] at ho
  exact ho.1.1.1

/-- A first response that fits, from a transfer without errors, is returned as sent. -/
theorem C44_fitting_returned {limit : Int} {t : Transfer} {ts : List Transfer}
    (hfit : limit ≤ 0 ∨ (t.chunks.flatten.length : Int) ≤ limit) (hok : t.curlOk = true) (hs : t.status < 500) :
    Http.get limit (t :: ts) = some { body := t.chunks.flatten, curlOk := true, status := t.status } := by
  obtain ⟨-, h2, -, h4⟩ := writeString_spec (limit := limit) t.chunks []
  have ht := h4 (by simpa using hfit)
  have hb := h2 ht
  have ha : attempt limit t = { body := t.chunks.flatten, curlOk := true, status := t.status } := by
    simp only [attempt, ht, hok, hb, List.nil_append, Bool.and_self]
  have hlt : ¬ t.status ≥ 500 := by omega
  unfold Http.get perform
  simp [ha, hlt]

/-- A response that does not fit is never reported as successful. -/
theorem C44_oversized_refused {limit : Int} {ts : List Transfer} {r : Response} (h : Http.get limit ts = some r)
    (hl : 0 < limit) (hbig : ∀ t ∈ ts, limit < (t.chunks.flatten.length : Int)) : r.isOk = false := by
  cases ho : r.isOk with
  | false => rfl
  | true =>
    obtain ⟨t, ht, -, -, hc⟩ := C44_complete h
    have h1 := C44_limited h hl
    rw [hc ho] at h1
    have := hbig t ht
    omega

/-- Not vacuous: a response in chunks, one too long, one after errors. -/
example : Http.get 4 [{ chunks := [[1], [], [2, 3], [4]], curlOk := true, status := 200 }] =
      some { body := [1, 2, 3, 4], curlOk := true, status := 200 } ∧
    Http.get 3 (List.replicate 3 { chunks := [[1], [], [2, 3], [4]], curlOk := true, status := 200 }) =
      some { body := [1, 2, 3], curlOk := false, status := 200 } ∧
    Http.get 3 [{ chunks := [[1]], curlOk := true, status := 503 }, { chunks := [[1], [2]], curlOk := true, status := 200 }] =
      some { body := [1, 2], curlOk := true, status := 200 } := by
  decide +kernel

end Aktualizr
