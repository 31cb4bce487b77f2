import Verif.Model.Util

/-!
# C33, C34, C46: Base64, URL encoding, replacement of files
-/

namespace Aktualizr.Spec

open Aktualizr.Util (Bytes)

/-- Value of an upper case hexadecimal digit. -/
def hexValue (c : UInt8) : Option Nat :=
  if 48 ≤ c ∧ c ≤ 57 then some (c.toNat - 48) else if 65 ≤ c ∧ c ≤ 70 then some (c.toNat - 55) else none

/-- What a server makes of a URL path (RFC 3986, 2.1): each triple of '%' and two digits stands
for one byte. -/
def percentDecode : Bytes → Option Bytes
  | [] => some []
  | c :: cs =>
    if c = 37 then
      match cs with
      | a :: b :: rest => do
        let x ← hexValue a
        let y ← hexValue b
        return UInt8.ofNat (16 * x + y) :: (← percentDecode rest)
      | _ => none
    else do return c :: (← percentDecode cs)

/-- Letters, digits and `-._~` (RFC 3986, 2.3). -/
def Unreserved (c : UInt8) : Prop :=
  c.toNat ∈ "ABCDEFGHIJKLMNOPQRSTUVWXYZabcdefghijklmnopqrstuvwxyz0123456789-._~".toList.map Char.toNat

instance (c : UInt8) : Decidable (Unreserved c) := by unfold Unreserved; infer_instance

end Aktualizr.Spec

namespace Aktualizr.Util

open Aktualizr.Spec

theorem forall_u8 {p : UInt8 → Prop} (h : ∀ n < 256, p (UInt8.ofNat n)) (c : UInt8) : p c := by
  have := h c.toNat (UInt8.toNat_lt c)
  simpa using this

theorem bits8 : ∀ v < 256, ofBits (toBits 8 v) = v := by decide +kernel

theorem bits6 : ∀ a b c d e f : Bool, toBits 6 (ofBits [a, b, c, d, e, f]) = [a, b, c, d, e, f] ∧
    ofBits [a, b, c, d, e, f] < 64 := by decide +kernel

theorem groups8_cons {v : Nat} (hv : v < 256) (rest : List Bool) :
    groups8 (toBits 8 v ++ rest) = v :: groups8 rest := by
  have h := bits8 v hv
  simp only [toBits] at h ⊢
  simp only [List.cons_append, List.nil_append, groups8, h]

theorem groups8_bytes (s : Bytes) (rest : List Bool) :
    groups8 (s.flatMap (fun b => toBits 8 b.toNat) ++ rest) = s.map UInt8.toNat ++ groups8 rest := by
  induction s with
  | nil => simp
  | cons b s ih =>
    simp only [List.flatMap_cons, List.append_assoc, List.map_cons, List.cons_append]
    rw [groups8_cons (UInt8.toNat_lt b), ih]

theorem groups6_bits : ∀ l : List Bool, (groups6 l).flatMap (toBits 6) =
    l ++ List.replicate ((6 - l.length % 6) % 6) false ∧ (∀ v ∈ groups6 l, v < 64) ∧
    (groups6 l).length = (l.length + 5) / 6
  | [] => by simp [groups6]
  | [a] => by
    obtain ⟨h1, h2⟩ := bits6 a false false false false false
    simp [groups6, h1, h2]
  | [a, b] => by
    obtain ⟨h1, h2⟩ := bits6 a b false false false false
    simp [groups6, h1, h2]
  | [a, b, c] => by
    obtain ⟨h1, h2⟩ := bits6 a b c false false false
    simp [groups6, h1, h2]
  | [a, b, c, d] => by
    obtain ⟨h1, h2⟩ := bits6 a b c d false false
    simp [groups6, h1, h2]
  | [a, b, c, d, e] => by
    obtain ⟨h1, h2⟩ := bits6 a b c d e false
    simp [groups6, h1, h2]
  | a :: b :: c :: d :: e :: f :: rest => by
    obtain ⟨i1, i2, i3⟩ := groups6_bits rest
    obtain ⟨h1, h2⟩ := bits6 a b c d e f
    have hl : (a :: b :: c :: d :: e :: f :: rest).length % 6 = rest.length % 6 := by
      simp only [List.length_cons]; omega
    refine ⟨?_, ?_, ?_⟩
    · rw [hl]
      simp only [groups6, List.flatMap_cons, h1, i1, List.cons_append, List.nil_append]
    · simp only [groups6, List.mem_cons]
      rintro v (rfl | hv)
      · exact h2
      · exact i2 v hv
    · simp only [groups6, List.length_cons, i3]; omega

theorem b64_char : ∀ v < 64, b64Value (b64Char v) = some v ∧ isSpace (b64Char v) = false ∧ b64Char v ≠ 61 := by
  decide +kernel

theorem b64Values_chars : ∀ (l : List Nat), (∀ v ∈ l, v < 64) → b64Values (l.map b64Char) = .ok l
  | [], _ => rfl
  | v :: l, h => by
    have hv := (b64_char v (h v (by simp))).1
    have hl := b64Values_chars l (fun x hx => h x (by simp [hx]))
    simp only [List.map_cons, b64Values, hv, hl]
    rfl

theorem b64Values_length : ∀ (t : Bytes) (l : List Nat), b64Values t = .ok l → l.length = t.length
  | [], l, h => by simp only [b64Values, Except.ok.injEq] at h; simp [← h]
  | c :: t, l, h => by
    unfold b64Values at h
    split at h
    · simp at h
    · cases hr : b64Values t with
      | error e => rw [hr] at h; simp [bind, Except.bind] at h
      | ok l' =>
        rw [hr] at h
        simp only [bind, Except.bind, pure, Except.pure, Except.ok.injEq] at h
        subst h
        simp [b64Values_length t l' hr]

theorem groups8_length : ∀ l : List Bool, (groups8 l).length = l.length / 8
  | [] => rfl
  | [_] => by simp [groups8]
  | [_, _] => by simp [groups8]
  | [_, _, _] => by simp [groups8]
  | [_, _, _, _] => by simp [groups8]
  | [_, _, _, _, _] => by simp [groups8]
  | [_, _, _, _, _, _] => by simp [groups8]
  | [_, _, _, _, _, _, _] => by simp [groups8]
  | a :: b :: c :: d :: e :: f :: g :: h :: rest => by
    simp only [groups8, List.length_cons, groups8_length rest]; omega

theorem toBits_length : ∀ (k v : Nat), (toBits k v).length = k
  | 0, _ => rfl
  | k + 1, v => by simp [toBits, toBits_length k v]

theorem flatMap_bits_length (k : Nat) {α : Type} (f : α → Nat) (l : List α) :
    (l.flatMap (fun x => toBits k (f x))).length = k * l.length := by
  induction l with
  | nil => simp
  | cons x l ih =>
    simp only [List.flatMap_cons, List.length_append, toBits_length, List.length_cons, ih, Nat.mul_add]; omega

/-- Zeros decode to zeros; only the number matters. -/
theorem map_ofNat_toNat (s : Bytes) : (s.map UInt8.toNat).map UInt8.ofNat = s := by
  induction s with
  | nil => rfl
  | cons b s ih => simp only [List.map_cons, ih, UInt8.ofNat_toNat]

/-- No undefined behaviour. -/
def _root_.Aktualizr.Spec.NotUndefined {α : Type} (r : Except Err α) : Prop := ∀ s, r ≠ .error (.ub s)

theorem b64Values_err : ∀ (t : Bytes) (e : Err), b64Values t = .error e → e = .std "dataflow_exception"
  | [], e, h => by simp [b64Values] at h
  | c :: t, e, h => by
    unfold b64Values at h
    split at h
    · simp only [Except.error.injEq] at h; exact h.symm
    · cases hr : b64Values t with
      | error e' =>
        rw [hr] at h
        simp only [bind, Except.bind, Except.error.injEq] at h
        subst h
        exact b64Values_err t e' hr
      | ok l' => rw [hr] at h; simp [bind, Except.bind, pure, Except.pure] at h

end Aktualizr.Util

namespace Aktualizr

open Aktualizr.Util Aktualizr.Spec

/-- Decoding inverts encoding. -/
theorem C33_round_trip (s : Bytes) : fromBase64 (toBase64 s) = .ok s := by
  obtain ⟨g1, g2, g3⟩ := groups6_bits (s.flatMap (fun b => toBits 8 b.toNat))
  have hlen := flatMap_bits_length 8 UInt8.toNat s
  generalize hg : groups6 (s.flatMap (fun b => toBits 8 b.toNat)) = g at *
  generalize hp : (3 - s.length % 3) % 3 = p at *
  have htext : toBase64 s = g.map b64Char ++ List.replicate p 61 := by
    simp only [toBase64, hg, hp]
  have hcount : (toBase64 s).count 61 = p := by
    rw [htext, List.count_append, List.count_replicate_self]
    have : (g.map b64Char).count 61 = 0 := by
      apply List.count_eq_zero.2
      simp only [List.mem_map, not_exists, not_and]
      exact fun v hv => (b64_char v (g2 v hv)).2.2
    omega
  have hrepl : (toBase64 s).map (fun c => if c = 61 then 65 else c) = (g ++ List.replicate p 0).map b64Char := by
    rw [htext, List.map_append, List.map_append, List.map_replicate, List.map_replicate]
    congr 1
    rw [List.map_map]
    apply List.map_congr_left
    intro v hv
    simp [(b64_char v (g2 v hv)).2.2]
  have hall : ∀ v ∈ g ++ List.replicate p 0, v < 64 := by
    intro v hv
    rcases List.mem_append.1 hv with hv | hv
    · exact g2 v hv
    · have := (List.mem_replicate.1 hv).2; omega
  have hfilter : ((g ++ List.replicate p 0).map b64Char).filter (fun c => !isSpace c) =
      (g ++ List.replicate p 0).map b64Char := by
    apply List.filter_eq_self.2
    intro c hc
    obtain ⟨v, hv, rfl⟩ := List.mem_map.1 hc
    simp [(b64_char v (hall v hv)).2.1]
  have hlast : ((g ++ List.replicate p 0).map b64Char).getLast?.any isSpace = false := by
    cases hl : ((g ++ List.replicate p 0).map b64Char).getLast? with
    | none => rfl
    | some c =>
      obtain ⟨v, hv, rfl⟩ := List.mem_map.1 (List.mem_of_getLast? hl)
      simp [(b64_char v (hall v hv)).2.1]
  have hmod : ((g ++ List.replicate p 0).length % 4 == 1) = false := by
    simp only [List.length_append, List.length_replicate, g3, hlen, beq_eq_false_iff_ne]
    omega
  have hzero : (List.replicate p 0).flatMap (toBits 6) = List.replicate (6 * p) false := by
    have : p < 3 := by omega
    have hc : p = 0 ∨ p = 1 ∨ p = 2 := by omega
    rcases hc with rfl | rfl | rfl <;> decide +kernel
  have hbits : (g ++ List.replicate p 0).flatMap (toBits 6) =
      s.flatMap (fun b => toBits 8 b.toNat) ++ List.replicate (8 * p) false := by
    rw [List.flatMap_append, g1, hzero, List.append_assoc, List.replicate_append_replicate, hlen]
    congr 2
    omega
  have hresult : (groups8 ((g ++ List.replicate p 0).flatMap (toBits 6))).map UInt8.ofNat =
      s ++ (groups8 (List.replicate (8 * p) false)).map UInt8.ofNat := by
    rw [hbits, groups8_bytes, List.map_append, map_ofNat_toNat]
  have hextra : ((groups8 (List.replicate (8 * p) false)).map UInt8.ofNat).length = p := by
    rw [List.length_map, groups8_length, List.length_replicate]; omega
  unfold fromBase64
  simp only [hcount, hrepl, hfilter, b64Values_chars _ hall, bind, Except.bind, hlast, hmod, Bool.or_self,
    Bool.false_eq_true, if_false]
  rw [hresult]
  have hnot : ¬ p > (s ++ (groups8 (List.replicate (8 * p) false)).map UInt8.ofNat).length := by
    rw [List.length_append, hextra]; omega
  rw [if_neg hnot]
  congr 1
  rw [List.length_append, hextra, Nat.add_sub_cancel, List.take_left']
  rfl

/-- The encoding has four characters for each three bytes begun, from the alphabet, and at most
two '=' at its end. -/
theorem C33_encoding_form (s : Bytes) : ∃ body pad, toBase64 s = body ++ List.replicate pad 61 ∧ pad ≤ 2 ∧
    body.length + pad = 4 * ((s.length + 2) / 3) ∧ ∀ c ∈ body, c ≠ 61 ∧ (b64Value c).isSome := by
  obtain ⟨-, g2, g3⟩ := groups6_bits (s.flatMap (fun b => toBits 8 b.toNat))
  have hlen := flatMap_bits_length 8 UInt8.toNat s
  refine ⟨_, _, rfl, by omega, ?_, ?_⟩
  · rw [List.length_map, g3, hlen]; omega
  · intro c hc
    obtain ⟨v, hv, rfl⟩ := List.mem_map.1 hc
    obtain ⟨h1, -, h3⟩ := b64_char v (g2 v hv)
    exact ⟨h3, by simp [h1]⟩

/-- White space: tabulators, line breaks, form feed, space. -/
def _root_.Aktualizr.Spec.space (c : UInt8) : Bool := [9, 10, 11, 12, 13, 32].contains c

theorem space_eq : Spec.space = isSpace := by
  have : ∀ n : Nat, n < 256 → Spec.space (UInt8.ofNat n) = isSpace (UInt8.ofNat n) := by decide +kernel
  funext c
  have h := this c.toNat c.toNat_lt
  rwa [UInt8.ofNat_toNat] at h

/-- Text is decoded without undefined behaviour if it does not end in white space, the number of
other characters is not one more than a multiple of four, and there is not more padding than
output. Missing for the full claim: other texts, see `C33_decode_undefined`. -/
theorem C33_decode_safe_partial (text : Bytes) (h1 : ∀ c ∈ text.getLast?, Spec.space c = false)
    (h2 : (text.filter (fun c => !Spec.space c)).length % 4 ≠ 1)
    (h3 : text.count 61 ≤ (text.filter (fun c => !Spec.space c)).length * 6 / 8) : NotUndefined (fromBase64 text) := by
  rw [space_eq] at h1 h2 h3
  have hsp : ∀ c : UInt8, isSpace (if c = 61 then 65 else c) = isSpace c := by
    intro c
    split
    · rename_i h; subst h; decide
    · rfl
  have hf : ((text.map (fun c => if c = 61 then 65 else c)).filter (fun c => !isSpace c)).length =
      (text.filter (fun c => !isSpace c)).length := by
    rw [List.filter_map, List.length_map]
    congr 2
    funext c
    simp [hsp]
  have hl : (text.map (fun c => if c = 61 then 65 else c)).getLast?.any isSpace = false := by
    rw [List.getLast?_map]
    cases ht : text.getLast? with
    | none => rfl
    | some c => simp [hsp, h1 c (by simp [ht])]
  intro e
  unfold fromBase64
  cases hv : b64Values ((text.map (fun c => if c = 61 then 65 else c)).filter (fun c => !isSpace c)) with
  | error e' =>
    have := b64Values_err _ _ hv
    subst this
    simp only [hv, bind, Except.bind]
    simp
  | ok values =>
    have hlen := b64Values_length _ _ hv
    rw [hf] at hlen
    have hmod : (values.length % 4 == 1) = false := by simp [hlen, h2]
    simp only [hv, bind, Except.bind, hl, hmod, Bool.or_self, Bool.false_eq_true, if_false]
    have hout : ((groups8 (values.flatMap (toBits 6))).map UInt8.ofNat).length = 6 * values.length / 8 := by
      rw [List.length_map, groups8_length]
      have := flatMap_bits_length 6 id values
      simp only [id] at this
      rw [this]
    rw [if_neg (by rw [hout, hlen]; omega)]
    simp

/-- The alphabet of RFC 4648, and the sign of padding. -/
def _root_.Aktualizr.Spec.Base64Sign (c : UInt8) : Prop :=
  (65 ≤ c ∧ c ≤ 90) ∨ (97 ≤ c ∧ c ≤ 122) ∨ (48 ≤ c ∧ c ≤ 57) ∨ c = 43 ∨ c = 47 ∨ c = 61

instance (c : UInt8) : Decidable (Spec.Base64Sign c) := by unfold Spec.Base64Sign; infer_instance

theorem sign_value (c : UInt8) : (b64Value (if c = 61 then 65 else c)).isSome = true ↔ Spec.Base64Sign c := by
  have : ∀ n : Nat, n < 256 → ((b64Value (if UInt8.ofNat n = 61 then 65 else UInt8.ofNat n)).isSome = true ↔
      Spec.Base64Sign (UInt8.ofNat n)) := by decide +kernel
  have h := this c.toNat c.toNat_lt
  rwa [UInt8.ofNat_toNat] at h

theorem b64Values_ok : ∀ t : Bytes, (∃ l, b64Values t = .ok l) ↔ ∀ c ∈ t, (b64Value c).isSome = true
  | [] => by simp [b64Values]
  | c :: t => by
    have ih := b64Values_ok t
    unfold b64Values
    cases hc : b64Value c with
    | none => simp [hc]
    | some v =>
      cases hr : b64Values t with
      | error e =>
        rw [hr] at ih
        simp only [reduceCtorEq, exists_false, false_iff, bind, Except.bind] at ih ⊢
        intro h
        exact ih (fun d hd => h d (by simp [hd]))
      | ok l =>
        rw [hr] at ih
        have := ih.1 ⟨l, rfl⟩
        simp only [bind, Except.bind, pure, Except.pure, Except.ok.injEq, exists_eq', true_iff, List.mem_cons, forall_eq_or_imp,
          hc, Option.isSome_some, true_and]
        exact this

/-- Exactly these texts make the decoder leave its buffers: nothing in them but white space, padding and characters
of the alphabet, and white space at the end, a single character left over, or more padding than output. -/
theorem C33_decode_exact (text : Bytes) : NotUndefined (fromBase64 text) ↔
    (∃ c ∈ text, Spec.space c = false ∧ ¬ Spec.Base64Sign c) ∨
    ((∀ c ∈ text.getLast?, Spec.space c = false) ∧ (text.filter (fun c => !Spec.space c)).length % 4 ≠ 1 ∧
      text.count 61 ≤ (text.filter (fun c => !Spec.space c)).length * 6 / 8) := by
  rw [space_eq]
  have hsp : ∀ c : UInt8, isSpace (if c = 61 then 65 else c) = isSpace c := by
    intro c
    split
    · rename_i h; subst h; decide
    · rfl
  have hmem : (∀ c ∈ (text.map (fun c => if c = 61 then 65 else c)).filter (fun c => !isSpace c),
      (b64Value c).isSome = true) ↔ ∀ c ∈ text, isSpace c = false → Spec.Base64Sign c := by
    constructor
    · intro h c hc hs
      exact (sign_value c).1 (h _ (List.mem_filter.2 ⟨List.mem_map.2 ⟨c, hc, rfl⟩, by simp [hsp, hs]⟩))
    · intro h c hc
      obtain ⟨hc, hs⟩ := List.mem_filter.1 hc
      obtain ⟨d, hd, rfl⟩ := List.mem_map.1 hc
      exact (sign_value d).2 (h d hd (by simpa [hsp] using hs))
  constructor
  · intro h
    by_cases hbad : ∃ c ∈ text, isSpace c = false ∧ ¬ Spec.Base64Sign c
    · exact .inl hbad
    refine .inr ?_
    obtain ⟨values, hv⟩ := (b64Values_ok _).2 (hmem.2 (fun c hc hs => Classical.not_not.1 (fun hn => hbad ⟨c, hc, hs, hn⟩)))
    have hf : ((text.map (fun c => if c = 61 then 65 else c)).filter (fun c => !isSpace c)).length =
        (text.filter (fun c => !isSpace c)).length := by
      rw [List.filter_map, List.length_map]
      congr 2
      funext c
      simp [hsp]
    have hlen := b64Values_length _ _ hv
    rw [hf] at hlen
    have hout : ((groups8 (values.flatMap (toBits 6))).map UInt8.ofNat).length = 6 * values.length / 8 := by
      rw [List.length_map, groups8_length]
      have := flatMap_bits_length 6 id values
      simp only [id] at this
      rw [this]
    have h1 : (text.map (fun c => if c = 61 then 65 else c)).getLast?.any isSpace = false := by
      refine Bool.eq_false_iff.2 (fun ht => h "read past the end" ?_)
      unfold fromBase64
      simp only [hv, bind, Except.bind, ht, Bool.true_or, if_true]
    have h2 : (values.length % 4 == 1) = false := by
      refine Bool.eq_false_iff.2 (fun ht => h "read past the end" ?_)
      unfold fromBase64
      simp only [hv, bind, Except.bind, ht, Bool.or_true, if_true]
    refine ⟨?_, by rw [← hlen]; simpa using h2, ?_⟩
    · intro c hc
      rw [List.getLast?_map] at h1
      have hc' : text.getLast? = some c := hc
      simpa [hc', hsp] using h1
    · refine Nat.le_of_not_lt (fun hlt => h "erase before the beginning" ?_)
      unfold fromBase64
      simp only [hv, bind, Except.bind, h1, h2, Bool.or_self, Bool.false_eq_true, if_false]
      rw [if_pos (by rw [hout, hlen]; omega)]
  · rintro (⟨c, hc, hs, hn⟩ | ⟨h1, h2, h3⟩)
    · intro e
      unfold fromBase64
      cases hv : b64Values ((text.map (fun c => if c = 61 then 65 else c)).filter (fun c => !isSpace c)) with
      | error e' =>
        have := b64Values_err _ _ hv
        subst this
        simp only [hv, bind, Except.bind]
        simp
      | ok values => exact absurd (hmem.1 ((b64Values_ok _).1 ⟨_, hv⟩) c hc hs) hn
    · exact C33_decode_safe_partial text (by rw [space_eq]; exact h1) (by rw [space_eq]; exact h2) (by rw [space_eq]; exact h3)

/-- Text that makes the decoder leave its buffers: only padding, a single character, a line
break at the end. -/
theorem C33_decode_undefined :
    fromBase64 [61, 61, 61, 61] = .error (.ub "erase before the beginning") ∧
    fromBase64 [65] = .error (.ub "read past the end") ∧
    fromBase64 [81, 85, 74, 68, 10] = .error (.ub "read past the end") := by
  decide +kernel

/-- Not vacuous: one, two and three bytes, white space inside, a character that is not in the
alphabet. -/
example : toBase64 [77] = [84, 81, 61, 61] ∧ toBase64 [77, 97] = [84, 87, 69, 61] ∧
    toBase64 [77, 97, 110] = [84, 87, 70, 117] ∧ fromBase64 [84, 87, 32, 10, 70, 117] = .ok [77, 97, 110] ∧
    fromBase64 [42, 65, 65, 65] = .error (.std "dataflow_exception") := by
  decide +kernel

/-! ### URL encoding -/

theorem urlPlain_spec : ∀ c : UInt8, urlPlain c = true → Unreserved c ∨ c = 47 :=
  forall_u8 (by decide +kernel)

theorem urlNibble_spec : ∀ n < 16, Unreserved (urlNibble n) ∧ hexValue (urlNibble n) = some n := by
  decide +kernel

/-- Only unreserved characters, '/' and '%' occur. -/
theorem C34_safe (s : Bytes) : ∀ c ∈ urlEncode s, Unreserved c ∨ c = 47 ∨ c = 37 := by
  induction s with
  | nil => simp [urlEncode]
  | cons x s ih =>
    intro c hc
    have hx := UInt8.toNat_lt x
    unfold urlEncode at hc
    split at hc
    · rename_i hp
      rcases List.mem_cons.1 hc with rfl | hc
      · rcases urlPlain_spec c hp with h | h
        · exact .inl h
        · exact .inr (.inl h)
      · exact ih c hc
    · simp only [List.mem_cons] at hc
      rcases hc with rfl | rfl | rfl | hc
      · exact .inr (.inr rfl)
      · exact .inl (urlNibble_spec _ (by omega)).1
      · exact .inl (urlNibble_spec _ (by omega)).1
      · exact ih c hc

theorem urlPlain_not_percent : ∀ c : UInt8, urlPlain c = true → c ≠ 37 :=
  forall_u8 (by decide +kernel)

/-- A server that decodes the URL gets the name back. -/
theorem C34_decodes (s : Bytes) : percentDecode (urlEncode s) = some s := by
  induction s with
  | nil => rfl
  | cons x s ih =>
    have hx := UInt8.toNat_lt x
    unfold urlEncode
    split
    · rename_i hp
      unfold percentDecode
      rw [if_neg (urlPlain_not_percent x hp), ih]
      rfl
    · unfold percentDecode
      simp only [if_true, (urlNibble_spec (x.toNat / 16) (by omega)).2, (urlNibble_spec (x.toNat % 16) (by omega)).2, ih]
      have : 16 * (x.toNat / 16) + x.toNat % 16 = x.toNat := by omega
      simp only [bind, Option.bind, pure, this, UInt8.ofNat_toNat]

/-- Different names have different encodings. -/
theorem C34_injective (s t : Bytes) (h : urlEncode s = urlEncode t) : s = t := by
  have hs := C34_decodes s
  rw [h, C34_decodes t] at hs
  simpa using hs.symm

/-- So have the URLs of images on the same server. -/
theorem C34_urls_differ (server s t : Bytes) (h : s ≠ t) :
    server ++ "/targets/".toUTF8.toList ++ urlEncode s ≠ server ++ "/targets/".toUTF8.toList ++ urlEncode t :=
  fun he => h (C34_injective s t (List.append_cancel_left he))

/-- Not vacuous: "a b/%" is encoded as "a%20b/%25". -/
example : urlEncode [97, 32, 98, 47, 37, 200] = [97, 37, 50, 48, 98, 47, 37, 50, 53, 37, 67, 56] := by
  decide +kernel

/-! ### Replacement of files -/

theorem name_ne_tmp (name : String) : name ≠ name ++ ".new" := by
  intro h
  have := congrArg (fun s : String => s.toList.length) h
  simp at this

/-- If the file system takes the whole content, a reader sees the complete old or the complete new
content, wherever the writer dies, and the new one when it is done. Missing for the full claim: a
full disk, see `C46_full_disk_truncates`. -/
theorem C46_old_or_new_partial (fs : Files) (name : String) (content : Bytes) (kept : Nat)
    (hk : content.length ≤ kept) :
    (∀ st ∈ writeFileStates fs name content kept,
      (readFile st name).1 = (fs name).getD [] ∨ (readFile st name).1 = content) ∧
    (∀ st, (writeFileStates fs name content kept).getLast? = some st → (readFile st name).1 = content) := by
  have hne := name_ne_tmp name
  have ht : content.take kept = content := List.take_of_length_le hk
  unfold writeFileStates
  rw [ht]
  constructor
  · intro st hst
    simp only [List.cons_append, List.mem_cons, List.mem_append, List.mem_map, List.not_mem_nil, or_false] at hst
    rcases hst with rfl | ⟨k, -, rfl⟩ | rfl
    · exact .inl rfl
    · left; simp [readFile, Files.set, hne]
    · right; simp [readFile, Files.set]
  · intro st hst
    simp only [List.cons_append, List.getLast?_cons, List.getLast?_append,
      Option.some_or, Option.getD_some, Option.some.injEq] at hst
    subst hst
    simp [readFile, Files.set]

/-- Other files, apart from the temporary one, are not touched. -/
theorem C46_others_untouched (fs : Files) (name : String) (content : Bytes) (kept : Nat) :
    ∀ st ∈ writeFileStates fs name content kept, ∀ n, n ≠ name → n ≠ name ++ ".new" → st n = fs n := by
  intro st hst n h1 h2
  unfold writeFileStates at hst
  simp only [List.cons_append, List.mem_cons, List.mem_append, List.mem_map, List.not_mem_nil, or_false] at hst
  rcases hst with rfl | ⟨k, -, rfl⟩ | rfl
  · rfl
  · simp [Files.set, h2]
  · simp [Files.set, h1, h2]

/-- After a read nothing is left of an interrupted replacement. -/
theorem C46_reader_cleans_up (fs : Files) (name : String) : (readFile fs name).2 (name ++ ".new") = none ∧
    (readFile (readFile fs name).2 name).1 = (readFile fs name).1 := by
  have hne := name_ne_tmp name
  simp [readFile, Files.set, hne]

/-- On a full disk the old content is replaced by a part of the new. -/
theorem C46_full_disk_truncates :
    let fs : Files := fun n => if n = "conf" then some [1, 2, 3] else none
    ∃ st ∈ writeFileStates fs "conf" [4, 5, 6] 1, (readFile st "conf").1 = [4] := by
  refine ⟨_, List.getLast_mem (by simp [writeFileStates]), by decide +kernel⟩

end Aktualizr
