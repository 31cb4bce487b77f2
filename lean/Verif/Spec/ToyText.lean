import Verif.Lemmas.GenDir

/-! # A text form of JSON values that can be computed with: for the concrete cases of the generator

Every value becomes a list of numbers below 128; the text has these as its bytes. -/

namespace Aktualizr.ToyText

/-! ### Texts given by their bytes -/

theorem valid_ascii {l : List Nat} (h : l.all (· < 128) = true) : ByteArray.IsValidUTF8 ⟨⟨l.map UInt8.ofNat⟩⟩ := by
  refine ⟨l.map Char.ofNat, ?_⟩
  have key : (l.map Char.ofNat).flatMap String.utf8EncodeChar = l.map UInt8.ofNat := by
    induction l with
    | nil => rfl
    | cons a l ih =>
      rw [List.all_cons, Bool.and_eq_true] at h
      have ha : a < 128 := by simpa using h.1
      rw [List.map_cons, List.flatMap_cons, ih h.2, List.map_cons]
      have hv : (Char.ofNat a).val.toNat = a := by
        have : a.isValidChar := .inl (by omega)
        rw [Char.ofNat, dif_pos this]
        show (UInt32.ofNatLT a _).toNat = a
        simp
      have : String.utf8EncodeChar (Char.ofNat a) = [UInt8.ofNat a] := by
        unfold String.utf8EncodeChar
        simp only [hv]
        rw [if_pos (by omega)]
      rw [this]
      rfl
  show _ = List.toByteArray _
  apply ByteArray.ext
  rw [List.data_toByteArray, key]

/-- The text with these bytes. -/
def text (l : List Nat) : String := if h : l.all (· < 128) = true then ⟨⟨⟨l.map UInt8.ofNat⟩⟩, valid_ascii h⟩ else ""

/-- The bytes of a text. -/
def bytes (s : String) : List Nat := s.toByteArray.data.toList.map UInt8.toNat

theorem toNat_ofNat_list : ∀ {l : List Nat}, l.all (· < 128) = true → (l.map UInt8.ofNat).map UInt8.toNat = l
  | [], _ => rfl
  | a :: l, h => by
    rw [List.all_cons, Bool.and_eq_true] at h
    have ha : a < 128 := by simpa using h.1
    rw [List.map_cons, List.map_cons, toNat_ofNat_list h.2]
    congr 1
    rw [UInt8.toNat_ofNat']
    omega

theorem bytes_text {l : List Nat} (h : l.all (· < 128) = true) : bytes (text l) = l := by
  unfold text
  rw [dif_pos h]
  exact toNat_ofNat_list h

theorem text_bytes {s : String} (h : (bytes s).all (· < 128) = true) : text (bytes s) = s := by
  unfold text
  rw [dif_pos h]
  have : (bytes s).map UInt8.ofNat = s.toByteArray.data.toList := by
    unfold bytes
    rw [List.map_map]
    conv => rhs; rw [← List.map_id s.toByteArray.data.toList]
    refine List.map_congr_left (fun a _ => ?_)
    simp
  obtain ⟨⟨⟨b⟩⟩, hb⟩ := s
  congr 1
  congr 1
  congr 1

/-! ### Numbers and texts -/

/-- Digits to the base of 64, the lowest first. -/
def encNat : Nat → Nat → List Nat
  | 0, _ => [0]
  | k + 1, n => if n = 0 then [0] else 1 :: (n % 64) :: encNat k (n / 64)

def decNat : List Nat → Option (Nat × List Nat)
  | 0 :: r => some (0, r)
  | 1 :: d :: r => (decNat r).map (fun p => (d + 64 * p.1, p.2))
  | _ => none

theorem decNat_enc : ∀ (k n : Nat) (r : List Nat), n < 64 ^ k → decNat (encNat k n ++ r) = some (n, r)
  | 0, n, r, h => by
    have : n = 0 := by simpa using h
    subst this
    rfl
  | k + 1, n, r, h => by
    unfold encNat
    by_cases hn : n = 0
    · rw [if_pos hn, hn]; rfl
    · rw [if_neg hn]
      have h' : n / 64 < 64 ^ k := by
        rw [Nat.div_lt_iff_lt_mul (by decide)]
        rw [Nat.pow_succ] at h
        exact h
      show Option.map _ (decNat (encNat k (n / 64) ++ r)) = _
      rw [decNat_enc k (n / 64) r h']
      simp only [Option.map_some, Option.some.injEq, Prod.mk.injEq, and_true]
      omega

theorem encNat_small : ∀ (k n : Nat), (encNat k n).all (· < 128) = true
  | 0, _ => rfl
  | k + 1, n => by
    unfold encNat
    split
    · rfl
    · rw [List.all_cons, List.all_cons, encNat_small k]
      simp
      omega

def encInt (i : Int) : List Nat := if 0 ≤ i then 0 :: encNat 11 i.toNat else 1 :: encNat 11 (-i).toNat

def decInt : List Nat → Option (Int × List Nat)
  | 0 :: r => (decNat r).map (fun p => ((p.1 : Int), p.2))
  | 1 :: r => (decNat r).map (fun p => (-(p.1 : Int), p.2))
  | _ => none

theorem decInt_enc {i : Int} (h1 : -9223372036854775808 ≤ i) (h2 : i ≤ 18446744073709551615) (r : List Nat) : decInt (encInt i ++ r) = some (i, r) := by
  unfold encInt
  split
  · show Option.map _ (decNat (encNat 11 i.toNat ++ r)) = _
    rw [decNat_enc 11 _ r (by omega)]
    simp only [Option.map_some, Option.some.injEq, Prod.mk.injEq, and_true]
    omega
  · show Option.map _ (decNat (encNat 11 (-i).toNat ++ r)) = _
    rw [decNat_enc 11 _ r (by omega)]
    simp only [Option.map_some, Option.some.injEq, Prod.mk.injEq, and_true]
    omega

theorem encInt_small (i : Int) : (encInt i).all (· < 128) = true := by
  unfold encInt
  split <;> rw [List.all_cons, encNat_small] <;> rfl

/-- A list of bytes, closed by 0. -/
def encBytes : List Nat → List Nat
  | [] => [0]
  | b :: l => 1 :: b :: encBytes l

def decBytes : List Nat → Option (List Nat × List Nat)
  | 0 :: r => some ([], r)
  | 1 :: b :: r => (decBytes r).map (fun p => (b :: p.1, p.2))
  | _ => none

theorem decBytes_enc : ∀ (l r : List Nat), decBytes (encBytes l ++ r) = some (l, r)
  | [], _ => rfl
  | b :: l, r => by
    show Option.map _ (decBytes (encBytes l ++ r)) = _
    rw [decBytes_enc l r]
    rfl

theorem encBytes_small : ∀ (l : List Nat), l.all (· < 128) = true → (encBytes l).all (· < 128) = true
  | [], _ => rfl
  | b :: l, h => by
    rw [List.all_cons, Bool.and_eq_true] at h
    unfold encBytes
    rw [List.all_cons, List.all_cons, encBytes_small l h.2, h.1]
    rfl

/-- A list of characters, each in four digits. -/
def encChars : List Char → List Nat
  | [] => [0]
  | c :: l => 1 :: (c.toNat % 64) :: (c.toNat / 64 % 64) :: (c.toNat / 4096 % 64) :: (c.toNat / 262144 % 64) :: encChars l

def decChars : List Nat → Option (List Char × List Nat)
  | 0 :: r => some ([], r)
  | 1 :: a :: b :: c :: d :: r => (decChars r).map (fun p => (Char.ofNat (a + 64 * b + 4096 * c + 262144 * d) :: p.1, p.2))
  | _ => none

theorem decChars_enc : ∀ (l : List Char) (r : List Nat), decChars (encChars l ++ r) = some (l, r)
  | [], _ => rfl
  | c :: l, r => by
    show Option.map _ (decChars (encChars l ++ r)) = _
    rw [decChars_enc l r]
    have hc : c.toNat < 64 * 64 * 64 * 64 := by
      have := c.valid
      rcases this with h | h
      · have h : c.toNat < 55296 := h
        omega
      · have h : c.toNat < 1114112 := h.2
        omega
    have : c.toNat % 64 + 64 * (c.toNat / 64 % 64) + 4096 * (c.toNat / 4096 % 64) + 262144 * (c.toNat / 262144 % 64) = c.toNat := by omega
    simp only [Option.map_some, this, Char.ofNat_toNat]

theorem encChars_small : ∀ (l : List Char), (encChars l).all (· < 128) = true
  | [] => rfl
  | c :: l => by
    unfold encChars
    simp only [List.all_cons, encChars_small l, Bool.and_true, Bool.and_eq_true, decide_eq_true_eq]
    omega

def encStr (s : String) : List Nat := if (bytes s).all (· < 128) = true then 0 :: encBytes (bytes s) else 1 :: encChars s.toList

def decStr : List Nat → Option (String × List Nat)
  | 0 :: r => (decBytes r).map (fun p => (text p.1, p.2))
  | 1 :: r => (decChars r).map (fun p => (String.ofList p.1, p.2))
  | _ => none

theorem decStr_enc (s : String) (r : List Nat) : decStr (encStr s ++ r) = some (s, r) := by
  unfold encStr
  split
  · rename_i h
    show Option.map _ (decBytes (encBytes (bytes s) ++ r)) = _
    rw [decBytes_enc]
    simp [text_bytes h]
  · show Option.map _ (decChars (encChars s.toList ++ r)) = _
    rw [decChars_enc]
    simp

theorem encStr_small (s : String) : (encStr s).all (· < 128) = true := by
  unfold encStr
  split
  · rename_i h
    rw [List.all_cons, encBytes_small _ h]
    rfl
  · rw [List.all_cons, encChars_small]
    rfl

/-! ### Values -/

mutual
def enc : Json → List Nat
  | .null => [0]
  | .bool false => [1]
  | .bool true => [2]
  | .int i => 3 :: encInt i
  | .real _ _ _ _ => [0]
  | .str s => 4 :: encStr s
  | .arr xs => 5 :: encArr xs
  | .obj kvs => 6 :: encObj kvs
def encArr : List Json → List Nat
  | [] => [0]
  | x :: xs => 1 :: (enc x ++ encArr xs)
def encObj : List (String × Json) → List Nat
  | [] => [0]
  | (k, x) :: xs => 1 :: (encStr k ++ (enc x ++ encObj xs))
end

mutual
def dec : Nat → List Nat → Option (Json × List Nat)
  | 0, _ => none
  | _ + 1, 0 :: r => some (.null, r)
  | _ + 1, 1 :: r => some (.bool false, r)
  | _ + 1, 2 :: r => some (.bool true, r)
  | _ + 1, 3 :: r => (decInt r).map (fun p => (.int p.1, p.2))
  | _ + 1, 4 :: r => (decStr r).map (fun p => (.str p.1, p.2))
  | n + 1, 5 :: r => (decArr n r).map (fun p => (.arr p.1, p.2))
  | n + 1, 6 :: r => (decObj n r).map (fun p => (.obj p.1, p.2))
  | _ + 1, _ => none
def decArr : Nat → List Nat → Option (List Json × List Nat)
  | 0, _ => none
  | _ + 1, 0 :: r => some ([], r)
  | n + 1, 1 :: r =>
    match dec n r with
    | none => none
    | some p => (decArr n p.2).map (fun q => (p.1 :: q.1, q.2))
  | _ + 1, _ => none
def decObj : Nat → List Nat → Option (List (String × Json) × List Nat)
  | 0, _ => none
  | _ + 1, 0 :: r => some ([], r)
  | n + 1, 1 :: r =>
    match decStr r with
    | none => none
    | some k =>
      match dec n k.2 with
      | none => none
      | some p => (decObj n p.2).map (fun q => ((k.1, p.1) :: q.1, q.2))
  | _ + 1, _ => none
end

mutual
theorem dec_enc : ∀ (j : Json), Gen.Canonical j → ∀ (n : Nat) (r : List Nat), (enc j).length ≤ n → dec n (enc j ++ r) = some (j, r)
  | .null, _, n + 1, r, _ => by simp [enc, dec]
  | .bool false, _, n + 1, r, _ => by simp [enc, dec]
  | .bool true, _, n + 1, r, _ => by simp [enc, dec]
  | .int i, h, n + 1, r, _ => by
    cases h with
    | int h1 h2 => simp [enc, dec, decInt_enc h1 h2]
  | .real a b c d, h, n, r, _ => by cases h
  | .str s, _, n + 1, r, _ => by simp [enc, dec, decStr_enc]
  | .arr xs, h, n + 1, r, hn => by
    have := decArr_enc xs h.elements n r (by simp [enc] at hn; omega)
    simp [enc, dec, this]
  | .obj kvs, h, n + 1, r, hn => by
    have := decObj_enc kvs h.members n r (by simp [enc] at hn; omega)
    simp [enc, dec, this]
  | .null, _, 0, _, hn => by simp [enc] at hn
  | .bool false, _, 0, _, hn => by simp [enc] at hn
  | .bool true, _, 0, _, hn => by simp [enc] at hn
  | .int _, _, 0, _, hn => by simp [enc] at hn
  | .str _, _, 0, _, hn => by simp [enc] at hn
  | .arr _, _, 0, _, hn => by simp [enc] at hn
  | .obj _, _, 0, _, hn => by simp [enc] at hn
theorem decArr_enc : ∀ (xs : List Json), (∀ x ∈ xs, Gen.Canonical x) → ∀ (n : Nat) (r : List Nat), (encArr xs).length ≤ n → decArr n (encArr xs ++ r) = some (xs, r)
  | [], _, n + 1, r, _ => by simp [encArr, decArr]
  | x :: xs, h, n + 1, r, hn => by
    simp only [encArr, List.length_cons, List.length_append] at hn
    have h1 := dec_enc x (h x (by simp)) n (encArr xs ++ r) (by omega)
    have h2 := decArr_enc xs (fun y hy => h y (by simp [hy])) n r (by omega)
    simp [encArr, decArr, h1, h2]
  | [], _, 0, _, hn => by simp [encArr] at hn
  | _ :: _, _, 0, _, hn => by simp [encArr] at hn
theorem decObj_enc : ∀ (kvs : List (String × Json)), (∀ kv ∈ kvs, Gen.Canonical kv.2) → ∀ (n : Nat) (r : List Nat), (encObj kvs).length ≤ n →
    decObj n (encObj kvs ++ r) = some (kvs, r)
  | [], _, n + 1, r, _ => by simp [encObj, decObj]
  | (k, x) :: xs, h, n + 1, r, hn => by
    simp only [encObj, List.length_cons, List.length_append] at hn
    have h1 := dec_enc x (h (k, x) (by simp)) n (encObj xs ++ r) (by omega)
    have h2 := decObj_enc xs (fun y hy => h y (by simp [hy])) n r (by omega)
    simp [encObj, decObj, decStr_enc, h1, h2]
  | [], _, 0, _, hn => by simp [encObj] at hn
  | _ :: _, _, 0, _, hn => by simp [encObj] at hn
end

mutual
theorem enc_small : ∀ (j : Json), (enc j).all (· < 128) = true
  | .null => rfl
  | .bool false => rfl
  | .bool true => rfl
  | .int i => by simp only [enc, List.all_cons, encInt_small]; rfl
  | .real _ _ _ _ => rfl
  | .str s => by simp only [enc, List.all_cons, encStr_small]; rfl
  | .arr xs => by simp only [enc, List.all_cons, encArr_small xs]; rfl
  | .obj kvs => by simp only [enc, List.all_cons, encObj_small kvs]; rfl
theorem encArr_small : ∀ (xs : List Json), (encArr xs).all (· < 128) = true
  | [] => rfl
  | x :: xs => by simp only [encArr, List.all_cons, List.all_append, enc_small x, encArr_small xs]; rfl
theorem encObj_small : ∀ (kvs : List (String × Json)), (encObj kvs).all (· < 128) = true
  | [] => rfl
  | (k, x) :: xs => by simp only [encObj, List.all_cons, List.all_append, encStr_small, enc_small x, encObj_small xs]; rfl
end

/-- The text of a value. -/
def canon (j : Json) : String := text (enc j)

/-- The value of a text, null if there is none. -/
def parse (s : String) : Json :=
  match dec (bytes s).length (bytes s) with
  | some (j, []) => j
  | _ => .null

theorem parse_canon {j : Json} (h : Gen.Canonical j) : parse (canon j) = j := by
  unfold parse canon
  rw [bytes_text (enc_small j)]
  have := dec_enc j h (enc j).length [] (Nat.le_refl _)
  rw [List.append_nil] at this
  rw [this]

theorem canon_ne (j : Json) : canon j ≠ "" := by
  intro h
  have h1 : bytes (canon j) = [] := by rw [h]; rfl
  unfold canon at h1
  rw [bytes_text (enc_small j)] at h1
  cases j <;> first | (simp [enc] at h1; done) | (rename_i b; cases b <;> simp [enc] at h1)

end Aktualizr.ToyText
