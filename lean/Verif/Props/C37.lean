import Verif.Model.Buffer

/-!
# C37, C51: the message buffer, and the server that uses it
-/

namespace Aktualizr.Spec

open Aktualizr.Buffer

/-- Uses of the buffer: some bytes arrive; some are taken. -/
inductive Use where
  | arrive (bytes : Bytes)
  | take (n : Nat)

/-- What has happened: bytes stored, bytes taken, requests to take refused. -/
structure History where
  stored : Bytes := []
  taken : Bytes := []
  refused : Nat := 0

/-- Each use of the buffer: `recv` stores as much as there is space for. -/
def use (d : Dequeue) (h : History) : List Use → Except Err (Dequeue × History)
  | [] => .ok (d, h)
  | .arrive bytes :: us =>
    let bytes := bytes.take d.tailSpace
    match d.receive (.data bytes) with
    | .ok d' => use d' { h with stored := h.stored ++ bytes } us
    | .error e => .error e
  | .take n :: us =>
    match d.consume n with
    | .ok d' => use d' { h with taken := h.taken ++ d.contents.take n } us
    | .error (.std _) => use d { h with refused := h.refused + 1 } us
    | .error e => .error e

end Aktualizr.Spec

namespace Aktualizr

open Aktualizr.Buffer Aktualizr.Spec

structure DequeueOk (d : Dequeue) : Prop where
  size : d.buffer.length = 4096
  written : d.written ≤ 4096

theorem capacity_eq : capacity = 4096 := rfl

theorem sizeT_eq : sizeT = 18446744073709551616 := rfl

theorem dequeueOk_init : DequeueOk {} := ⟨List.length_replicate, Nat.zero_le _⟩

theorem contents_length {d : Dequeue} (h : DequeueOk d) : d.contents.length = d.written := by
  have := h.size; have := h.written
  simp only [Dequeue.contents, List.length_take]; omega

theorem tailSpace_eq {d : Dequeue} (h : DequeueOk d) : d.tailSpace = 4096 - d.written := by
  have := h.written
  rw [Dequeue.tailSpace, sizeT_eq, capacity_eq]; omega

theorem receive_data {d : Dequeue} (h : DequeueOk d) {bytes : Bytes} (hb : bytes.length ≤ 4096 - d.written) :
    ∃ d', d.receive (.data bytes) = .ok d' ∧ DequeueOk d' ∧ d'.contents = d.contents ++ bytes := by
  have h1 := h.size; have h2 := h.written
  refine ⟨⟨d.written + bytes.length, d.buffer.take d.written ++ bytes ++ d.buffer.drop (d.written + bytes.length)⟩,
    ?_, ⟨?_, ?_⟩, ?_⟩
  · have := capacity_eq; have := sizeT_eq
    simp only [Dequeue.receive, Dequeue.write]
    rw [if_neg (by omega)]
    simp only [bind, Except.bind, Dequeue.haveEnqueued]
    rw [Nat.mod_eq_of_lt (by omega), if_neg (by omega)]
  · simp only [List.length_append, List.length_take, List.length_drop]; omega
  · simp only; omega
  · simp only [Dequeue.contents]
    have : (d.buffer.take d.written ++ bytes).length = d.written + bytes.length := by
      simp only [List.length_append, List.length_take]; omega
    rw [← this, List.take_left]

theorem consume_ok {d : Dequeue} (h : DequeueOk d) {n : Nat} (hn : n ≤ d.written) :
    ∃ d', d.consume n = .ok d' ∧ DequeueOk d' ∧ d'.contents = d.contents.drop n := by
  have h1 := h.size; have h2 := h.written
  have hm : ((d.buffer.take d.written).drop n).length = d.written - n := by
    simp only [List.length_drop, List.length_take]; omega
  refine ⟨⟨d.written - n, (d.buffer.take d.written).drop n ++ d.buffer.drop ((d.buffer.take d.written).drop n).length⟩,
    ?_, ⟨?_, ?_⟩, ?_⟩
  · simp only [Dequeue.consume]
    rw [if_neg (by omega)]
  · simp only [List.length_append, hm, List.length_drop]; omega
  · simp only; omega
  · simp only [Dequeue.contents]
    rw [← hm, List.take_left]

/-- However the buffer is used, nothing undefined happens, bytes come out in the order they came
in, none lost and none twice, and there are never more than 4096 in it. -/
theorem C37_in_order (us : List Use) : ∃ d h, use {} {} us = .ok (d, h) ∧ h.stored = h.taken ++ d.contents ∧
    d.contents.length ≤ 4096 := by
  have key : ∀ (us : List Use) (d : Dequeue) (h : History), DequeueOk d → h.stored = h.taken ++ d.contents →
      ∃ d' h', use d h us = .ok (d', h') ∧ h'.stored = h'.taken ++ d'.contents ∧ d'.contents.length ≤ 4096 := by
    intro us
    induction us with
    | nil =>
      intro d h hd hh
      exact ⟨d, h, rfl, hh, by rw [contents_length hd]; exact hd.written⟩
    | cons u us ih =>
      intro d h hd hh
      cases u with
      | arrive bytes =>
        obtain ⟨d', h1, h2, h3⟩ := receive_data hd (bytes := bytes.take d.tailSpace)
          (by rw [List.length_take, tailSpace_eq hd]; omega)
        simp only [use, h1]
        exact ih d' _ h2 (by simp only [hh, h3, List.append_assoc])
      | take n =>
        by_cases hn : n ≤ d.written
        · obtain ⟨d', h1, h2, h3⟩ := consume_ok hd hn
          simp only [use, h1]
          exact ih d' _ h2 (by simp only [hh, h3, List.append_assoc, List.take_append_drop])
        · have h1 : ∃ s, d.consume n = .error (.std s) := by
            refine ⟨"logic_error: Attempt to DequeueBuffer::Consume() more bytes than are valid", ?_⟩
            simp only [Dequeue.consume]
            rw [if_pos (by omega)]
          obtain ⟨s, h1⟩ := h1
          simp only [use, h1]
          exact ih d _ hd hh
  exact key us {} {} dequeueOk_init (by simp [Dequeue.contents])

/-- More than there is cannot be taken, and more than there is space for cannot be declared
stored, unless the sum exceeds the range of its type. Missing for the full claim: that case, see
`C37_error_as_size`. -/
theorem C37_refused_partial (d : Dequeue) (hd : DequeueOk d) (n : Nat) :
    (d.contents.length < n → ∃ s, d.consume n = .error (.std s)) ∧
    (d.tailSpace < n → d.written + n < sizeT → ∃ s, d.haveEnqueued n = .error (.std s)) := by
  constructor
  · intro h
    rw [contents_length hd] at h
    refine ⟨"logic_error: Attempt to DequeueBuffer::Consume() more bytes than are valid", ?_⟩
    simp only [Dequeue.consume]
    rw [if_pos h]
  · intro h hs
    rw [tailSpace_eq hd] at h
    have := hd.written
    have := capacity_eq
    refine ⟨"logic_error: Wrote bytes beyond the end of the buffer", ?_⟩
    simp only [Dequeue.haveEnqueued]
    rw [if_pos (by rw [Nat.mod_eq_of_lt hs]; omega)]

/-- The result of a failing `recv` taken as a size removes the last byte of the buffer. -/
theorem C37_error_as_size (d : Dequeue) (hd : DequeueOk d) (h0 : 0 < d.written) :
    ∃ d', d.receive .error = .ok d' ∧ d'.contents = d.contents.dropLast := by
  have h2 := hd.written
  have h1 := hd.size
  have hsum : (d.written + (sizeT - 1)) % sizeT = d.written - 1 := by
    rw [sizeT_eq]; omega
  have := capacity_eq
  refine ⟨{ d with written := d.written - 1 }, ?_, ?_⟩
  · simp only [Dequeue.receive, Dequeue.haveEnqueued, hsum]
    rw [if_neg (by omega)]
  · have hmin : min (min d.written d.buffer.length - 1) d.written = d.written - 1 := by omega
    simp only [Dequeue.contents]
    rw [List.dropLast_eq_take, List.take_take, List.length_take, hmin]

/-! ### The server -/

theorem receive_ok {d : Dequeue} (hd : DequeueOk d) {r : Recv} (he : r ≠ .error) :
    ∃ d', d.receive (d.limit r) = .ok d' ∧ DequeueOk d' ∧ d.limit r ≠ .error := by
  have hclosed : ∃ d', d.receive .closed = .ok d' ∧ DequeueOk d' := by
    refine ⟨d, ?_, hd⟩
    have := hd.written; have := capacity_eq; have := sizeT_eq
    simp only [Dequeue.receive, Dequeue.haveEnqueued, Nat.add_zero]
    rw [Nat.mod_eq_of_lt (by omega), if_neg (by omega)]
  cases r with
  | data bytes =>
    simp only [Dequeue.limit]
    split
    · obtain ⟨d', h1, h2⟩ := hclosed; exact ⟨d', h1, h2, by simp⟩
    · obtain ⟨d', h1, h2, -⟩ := receive_data hd (bytes := bytes.take d.tailSpace)
        (by rw [List.length_take, tailSpace_eq hd]; omega)
      exact ⟨d', h1, h2, by simp⟩
  | closed => obtain ⟨d', h1, h2⟩ := hclosed; exact ⟨d', h1, h2, by simp [Dequeue.limit]⟩
  | error => exact absurd rfl he

theorem readMessage_ok {σ ρ : Type} (dec : Decoder σ ρ) (hdec : ∀ s b, (dec.step s b).2.1 ≤ b.length)
    (rs : List Recv) : ∀ (d : Dequeue) (s : σ), DequeueOk d → .error ∉ rs →
    (∃ d', readMessage dec rs d s = .ok (.waiting d')) ∨
    (∃ last code s' d' rest, readMessage dec rs d s = .ok (.done last code s' d' rest) ∧ DequeueOk d' ∧ .error ∉ rest ∧
      rest.length < rs.length) := by
  induction rs with
  | nil => intro d s _ _; exact .inl ⟨_, rfl⟩
  | cons r rs ih =>
    intro d s hd he
    simp only [List.mem_cons, not_or] at he
    obtain ⟨d1, h1, h2, h3⟩ := receive_ok hd (fun h => he.1 h.symm)
    obtain ⟨d2, h4, h5, -⟩ := consume_ok h2 (n := (dec.step s d1.contents).2.1)
      (by have := hdec s d1.contents; rw [contents_length h2] at this; exact this)
    have hr : readMessage dec (r :: rs) d s = (match d.limit r with
        | .data _ => if (dec.step s d1.contents).1 = .more then readMessage dec rs d2 (dec.step s d1.contents).2.2
            else .ok (.done (d.limit r) (dec.step s d1.contents).1 (dec.step s d1.contents).2.2 d2 rs)
        | _ => .ok (.done (d.limit r) (dec.step s d1.contents).1 (dec.step s d1.contents).2.2 d2 rs)) := by
      simp only [readMessage, h1, h4, bind, Except.bind]
      rfl
    rw [hr]
    cases hl : d.limit r with
    | data bytes =>
      simp only
      split
      · rcases ih d2 (dec.step s d1.contents).2.2 h5 he.2 with h | ⟨a, b, c, e, f, g1, g2, g3, g4⟩
        · exact .inl h
        · exact .inr ⟨a, b, c, e, f, g1, g2, g3, by simp only [List.length_cons]; omega⟩
      · exact .inr ⟨_, _, _, _, _, rfl, h5, he.2, by simp⟩
    | closed => exact .inr ⟨_, _, _, _, _, rfl, h5, he.2, by simp⟩
    | error => exact absurd hl h3

theorem handleConnection_ok {σ ρ : Type} (dec : Decoder σ ρ) (hdec : ∀ s b, (dec.step s b).2.1 ≤ b.length)
    (handle : ρ → Handled) (reboot : Bool) (fuel : Nat) : ∀ (rs : List Recv) (d : Dequeue) (log : List ρ),
    DequeueOk d → .error ∉ rs → ∃ r, handleConnection dec handle reboot fuel rs d log = .ok r := by
  induction fuel with
  | zero => intro rs d log _ _; exact ⟨_, rfl⟩
  | succ fuel ih =>
    intro rs d log hd he
    rcases readMessage_ok dec hdec rs d dec.init hd he with ⟨d', h⟩ | ⟨last, code, s', d', rest, h, h2, h3, -⟩
    · exact ⟨(.waiting, log), by simp only [handleConnection, h, bind, Except.bind]; rfl⟩
    · simp only [handleConnection, h, bind, Except.bind]
      cases last with
      | closed => exact ⟨_, rfl⟩
      | error => exact ⟨_, rfl⟩
      | data bytes =>
        simp only
        split
        · exact ⟨_, rfl⟩
        · cases handle (dec.request s') with
          | ok => exact ih rest d' _ h2 h3
          | reboot =>
            simp only
            split
            · exact ⟨_, rfl⟩
            · exact ih rest d' _ h2 h3
          | unknown => exact ⟨_, rfl⟩
          | sendFailed => exact ⟨_, rfl⟩
          | rebootSendFailed => exact ⟨_, rfl⟩

/-- Whatever a peer sends, in however many connections, the server of a Secondary goes on or
stops as it was told to. Missing for the full claim: reading from a connection may fail, see
`C51_reset_kills_server`. -/
theorem C51_server_survives_partial {σ ρ : Type} (dec : Decoder σ ρ) (hdec : ∀ s b, (dec.step s b).2.1 ≤ b.length)
    (handle : ρ → Handled) (reboot : Bool) (fuel : Nat) (conns : List (List Recv)) (he : ∀ rs ∈ conns, .error ∉ rs) :
    ∀ e, runServer dec handle reboot fuel conns ≠ .died e := by
  induction conns with
  | nil => intro e; simp [runServer]
  | cons rs conns ih =>
    intro e
    obtain ⟨⟨s, log⟩, h⟩ := handleConnection_ok dec hdec handle reboot fuel rs {} [] dequeueOk_init (he rs (by simp))
    have ih' := ih (fun r hr => he r (by simp [hr])) e
    simp only [runServer, h]
    cases s with
    | waiting => simp
    | closed k => cases k <;> simp [ih']

/-- The server of a Secondary stops only when a handled request asked for a reboot and it is to
reboot: neither an unknown request nor a response that cannot be sent stops it. -/
theorem C51_stops_only_to_reboot {σ ρ : Type} (dec : Decoder σ ρ) (handle : ρ → Handled) (reboot : Bool) (fuel : Nat)
    (conns : List (List Recv)) (h : runServer dec handle reboot fuel conns = .stopped) :
    reboot = true ∧ ∃ q, handle q = .reboot ∨ handle q = .rebootSendFailed := by
  induction conns with
  | nil => simp [runServer] at h
  | cons rs conns ih =>
    have key : ∀ (fuel : Nat) (rs : List Recv) (d : Dequeue) (log log' : List ρ),
        handleConnection dec handle reboot fuel rs d log = .ok (.closed false, log') →
        reboot = true ∧ ∃ q, handle q = .reboot ∨ handle q = .rebootSendFailed := by
      intro fuel
      induction fuel with
      | zero => intro rs d log log' h; simp [handleConnection] at h
      | succ fuel ih =>
        intro rs d log log' h
        simp only [handleConnection, bind, Except.bind] at h
        cases hr : readMessage dec rs d dec.init with
        | error e => simp [hr] at h
        | ok r =>
          simp only [hr] at h
          cases r with
          | waiting d' => simp [pure, Except.pure] at h
          | done last code s d' rest =>
            cases last with
            | closed => simp [pure, Except.pure] at h
            | error => simp [pure, Except.pure] at h
            | data bytes =>
              simp only at h
              by_cases hc : code = .ok
              · simp only [hc, ne_eq, not_true_eq_false, if_false] at h
                cases hh : handle (dec.request s) with
                | ok => simp only [hh] at h; exact ih _ _ _ _ h
                | unknown => simp [hh, pure, Except.pure] at h
                | sendFailed => simp [hh, pure, Except.pure] at h
                | reboot =>
                  simp only [hh] at h
                  cases reboot with
                  | true => exact ⟨rfl, _, .inl hh⟩
                  | false => exact ih _ _ _ _ h
                | rebootSendFailed =>
                  cases reboot with
                  | true => exact ⟨rfl, _, .inr hh⟩
                  | false => simp [hh, pure, Except.pure] at h
              · simp [hc, pure, Except.pure] at h
    simp only [runServer] at h
    cases hc : handleConnection dec handle reboot fuel rs {} [] with
    | error e => simp [hc] at h
    | ok r =>
      obtain ⟨s, log⟩ := r
      cases s with
      | waiting => simp [hc] at h
      | closed k =>
        cases k with
        | true => simp only [hc] at h; exact ih h
        | false => exact key _ _ _ _ _ hc

/-- What was decoded when a message was read is what the decoder said last. -/
theorem readMessage_code {σ ρ : Type} (dec : Decoder σ ρ) (rs : List Recv) : ∀ (d : Dequeue) (s : σ) {last : Recv} {code : Code}
    {s' : σ} {d' : Dequeue} {rest : List Recv}, readMessage dec rs d s = .ok (.done last code s' d' rest) →
    ∃ s0 b n, dec.step s0 b = (code, n, s') := by
  induction rs with
  | nil => intro d s last code s' d' rest h; simp [readMessage] at h
  | cons r rs ih =>
    intro d s last code s' d' rest h
    simp only [readMessage, bind, Except.bind] at h
    cases h1 : d.receive (d.limit r) with
    | error e => simp [h1] at h
    | ok d1 =>
      simp only [h1] at h
      cases h2 : d1.consume (dec.step s d1.contents).2.1 with
      | error e => simp [h2] at h
      | ok d2 =>
        simp only [h2] at h
        have fin : ∀ {l : Recv}, Except.ok (ε := Err) (Read.done l (dec.step s d1.contents).1 (dec.step s d1.contents).2.2 d2 rs) =
            .ok (.done last code s' d' rest) → ∃ s0 b n, dec.step s0 b = (code, n, s') := by
          intro l h
          simp only [Except.ok.injEq, Read.done.injEq] at h
          exact ⟨s, d1.contents, _, by rw [← h.2.1, ← h.2.2.1]⟩
        cases hl : d.limit r with
        | data bytes =>
          simp only [hl] at h
          split at h
          · exact ih _ _ h
          · exact fin h
        | closed => simp only [hl] at h; exact fin h
        | error => simp only [hl] at h; exact fin h

/-- Only what was decoded is handled: each request that is handled is one at which the decoder
said that it is complete and correct. -/
theorem C51_only_decoded_is_handled {σ ρ : Type} (dec : Decoder σ ρ) (handle : ρ → Handled) (reboot : Bool) (fuel : Nat) :
    ∀ (rs : List Recv) (d : Dequeue) (log log' : List ρ) (s : Session),
    handleConnection dec handle reboot fuel rs d log = .ok (s, log') →
    ∀ q ∈ log', q ∈ log ∨ ∃ s0 b n s', dec.step s0 b = (.ok, n, s') ∧ q = dec.request s' := by
  induction fuel with
  | zero =>
    intro rs d log log' s h q hq
    simp only [handleConnection, Except.ok.injEq, Prod.mk.injEq] at h
    exact .inl (h.2 ▸ hq)
  | succ fuel ih =>
    intro rs d log log' s h q hq
    simp only [handleConnection, bind, Except.bind] at h
    cases hr : readMessage dec rs d dec.init with
    | error e => simp [hr] at h
    | ok r =>
      have stop : ∀ {x : Session}, Except.ok (ε := Err) (x, log) = .ok (s, log') → q ∈ log := by
        intro x h
        simp only [Except.ok.injEq, Prod.mk.injEq] at h
        exact h.2 ▸ hq
      simp only [hr] at h
      cases r with
      | waiting d' => exact .inl (stop h)
      | done last code s1 d' rest =>
        cases last with
        | closed => exact .inl (stop h)
        | error => exact .inl (stop h)
        | data bytes =>
          simp only at h
          by_cases hc : code = .ok
          · subst hc
            obtain ⟨s0, b, n, hs⟩ := readMessage_code dec _ _ _ hr
            have new : ∀ {l : List ρ}, l = log ++ [dec.request s1] → q ∈ l →
                q ∈ log ∨ ∃ s0 b n s', dec.step s0 b = (.ok, n, s') ∧ q = dec.request s' := by
              intro l hl hq
              rw [hl, List.mem_append, List.mem_singleton] at hq
              rcases hq with hq | hq
              · exact .inl hq
              · exact .inr ⟨s0, b, n, s1, hs, hq⟩
            have go : ∀ {x : Session}, Except.ok (ε := Err) (x, log ++ [dec.request s1]) = .ok (s, log') →
                q ∈ log ∨ ∃ s0 b n s', dec.step s0 b = (.ok, n, s') ∧ q = dec.request s' := by
              intro x h
              simp only [Except.ok.injEq, Prod.mk.injEq] at h
              exact new h.2.symm hq
            have again : handleConnection dec handle reboot fuel rest d' (log ++ [dec.request s1]) = .ok (s, log') →
                q ∈ log ∨ ∃ s0 b n s', dec.step s0 b = (.ok, n, s') ∧ q = dec.request s' := by
              intro h
              rcases ih _ _ _ _ _ h q hq with hq | hq
              · exact new rfl hq
              · exact .inr hq
            simp only [ne_eq, not_true_eq_false, if_false] at h
            cases hh : handle (dec.request s1) with
            | ok => simp only [hh] at h; exact again h
            | unknown => simp only [hh] at h; exact go h
            | sendFailed => simp only [hh] at h; exact go h
            | reboot =>
              simp only [hh] at h
              cases reboot with
              | true => exact go h
              | false => exact again h
            | rebootSendFailed => simp only [hh] at h; exact go h
          · simp only [ne_eq, hc, not_false_eq_true, if_true] at h
            exact .inl (stop h)

/-- When a peer resets a connection before a message, the server ends with an exception, whatever
the decoder and handler are. -/
theorem C51_reset_kills_server {σ ρ : Type} (dec : Decoder σ ρ) (handle : ρ → Handled) (reboot : Bool) (fuel : Nat)
    (rest : List Recv) (conns : List (List Recv)) :
    runServer dec handle reboot (fuel + 1) ((.error :: rest) :: conns) =
      .died (.std "logic_error: Wrote bytes beyond the end of the buffer") := by
  have hr : Dequeue.receive {} .error = .error (.std "logic_error: Wrote bytes beyond the end of the buffer") := by
    decide +kernel
  simp only [runServer, handleConnection, readMessage, Dequeue.limit, hr, bind, Except.bind]

/-- Not vacuous: two messages that arrive in three parts, of which the second contains the end of
the first, are handled; the decoder takes messages of three bytes. -/
example :
    let dec : Decoder Bytes Bytes := {
      init := []
      step := fun s b =>
        let n := min (3 - s.length) b.length
        (if s.length + n = 3 then .ok else .more, n, s ++ b.take n)
      request := id }
    (∀ s b, (dec.step s b).2.1 ≤ b.length) ∧
    handleConnection dec (fun _ => .ok) true 5 [.data [1, 2], .data [3, 4], .data [5, 6], .closed] {} [] =
      .ok (.closed true, [[1, 2, 3], [4, 5, 6]]) := by
  refine ⟨fun s b => Nat.min_le_right _ _, by decide +kernel⟩

/-- Not vacuous: bytes arrive and are taken in portions. -/
example : (use {} {} [.arrive [1, 2, 3], .take 2, .take 5, .arrive [4], .take 2]).map
    (fun p => (p.2.stored, p.2.taken, p.2.refused, p.1.contents)) = .ok ([1, 2, 3, 4], [1, 2, 3, 4], 1, []) := by
  decide +kernel

end Aktualizr
