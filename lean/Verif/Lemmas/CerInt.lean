import Verif.Model.Cer
import Verif.Spec.Cer

/-!
# Integers of CER, exactly
-/

namespace Aktualizr.Cer

/-- One byte more, on natural numbers. -/
def stepNat (cs : Bool) (r : Nat) (c : UInt8) : Nat :=
  if cs = true ∧ 128 ≤ c.toNat then 4294967296 - 256 + c.toNat else (r * 256 + c.toNat) % 4294967296

theorem ones_bit (k i : Nat) (hi : i < 32) : (BitVec.allOnes 32 <<< k).getLsbD i = decide (k ≤ i) := by
  rw [BitVec.getLsbD_shiftLeft, BitVec.getLsbD_allOnes]
  by_cases h : k ≤ i
  · simp [hi, h, show i - k < 32 by omega, show ¬ i < k by omega]
  · simp [hi, h, show i < k by omega]

theorem or_ones (x : BitVec 32) (k : Nat) (hk : k ≤ 32) :
    (x ||| (BitVec.allOnes 32 <<< k)).toNat = 4294967296 - 2 ^ k + x.toNat % 2 ^ k := by
  have hpow : (2 : Nat) ^ k * 2 ^ (32 - k) = 4294967296 := by
    rw [← Nat.pow_add, show k + (32 - k) = 32 by omega]
  have hle : (2 : Nat) ^ k ≤ 4294967296 := by
    rw [← hpow]; exact Nat.le_mul_of_pos_right _ (Nat.two_pow_pos _)
  have h : x ||| (BitVec.allOnes 32 <<< k) = BitVec.ofNat 32 (2 ^ k * (2 ^ (32 - k) - 1) + x.toNat % 2 ^ k) := by
    apply BitVec.eq_of_getLsbD_eq
    intro i hi
    rw [BitVec.getLsbD_or, ones_bit k i hi, BitVec.getLsbD_ofNat,
      Nat.testBit_two_pow_mul_add _ (Nat.mod_lt _ (Nat.two_pow_pos k))]
    by_cases hik : i < k
    · simp [hik, hi, Nat.testBit_mod_two_pow, show ¬ k ≤ i by omega, BitVec.testBit_toNat]
    · simp [hik, hi, Nat.testBit_two_pow_sub_one, show k ≤ i by omega]
      omega
  rw [h, BitVec.toNat_ofNat]
  have := Nat.mod_lt x.toNat (Nat.two_pow_pos k)
  rw [Nat.mul_sub, hpow, Nat.mul_one, Nat.mod_eq_of_lt (by omega)]

theorem step_toNat (cs : Bool) (r : BitVec 32) (c : UInt8) :
    ((r <<< 8) ||| charInt cs c).toNat = stepNat cs r.toNat c := by
  have hc : c.toNat < 256 := c.toNat_lt
  have hz : ((r <<< 8) ||| c.toBitVec.zeroExtend 32).toNat = (r.toNat * 256 + c.toNat) % 4294967296 := by
    rw [BitVec.toNat_or, BitVec.toNat_shiftLeft, BitVec.toNat_setWidth, Nat.shiftLeft_eq]
    have : (r.toNat * 2 ^ 8) % 2 ^ 32 = 2 ^ 8 * (r.toNat % 2 ^ 24) := by omega
    rw [this, show c.toBitVec.toNat = c.toNat from rfl, Nat.mod_eq_of_lt (a := c.toNat) (by omega),
      ← Nat.two_pow_add_eq_or_of_lt (by omega)]
    omega
  unfold charInt stepNat
  cases cs with
  | false => simpa using hz
  | true =>
    simp only [if_true, true_and]
    split
    · rename_i h
      have hm : c.toBitVec.msb = true := by
        rw [BitVec.msb_eq_decide]; simp; exact h
      have hs : c.toBitVec.signExtend 32 = c.toBitVec.zeroExtend 32 ||| (BitVec.allOnes 32 <<< 8) := by
        rw [BitVec.signExtend_eq_not_setWidth_not_of_msb_true hm]
        apply BitVec.eq_of_getLsbD_eq
        intro i hi
        rw [BitVec.getLsbD_or, ones_bit 8 i hi]
        by_cases h8 : i < 8
        · simp [h8, hi, show ¬ 8 ≤ i by omega]
        · simp [hi, show 8 ≤ i by omega]
      rw [hs, ← BitVec.or_assoc, or_ones _ 8 (by omega), hz]
      omega
    · rename_i h
      have hm : c.toBitVec.msb = false := by
        rw [BitVec.msb_eq_decide]; simp; exact Nat.lt_of_not_le h
      rw [BitVec.signExtend_eq_setWidth_of_msb_false hm]
      exact hz

/-- All bytes. -/
def foldNat (cs : Bool) (content : Bytes) : Nat := content.foldl (stepNat cs) 0

theorem fold_toNat (cs : Bool) : ∀ (content : Bytes) (r : BitVec 32),
    (content.foldl (fun (r : BitVec 32) c => (r <<< 8) ||| charInt cs c) r).toNat = content.foldl (stepNat cs) r.toNat
  | [], _ => rfl
  | c :: l, r => by
    rw [List.foldl_cons, List.foldl_cons, fold_toNat cs l, step_toNat]

theorem top_bit : ∀ c : UInt8, c &&& 0x80 ≠ 0 ↔ 128 ≤ c.toNat := by
  intro c
  have : ∀ n : Nat, n < 256 → (UInt8.ofNat n &&& 0x80 ≠ 0 ↔ 128 ≤ n) := by decide +kernel
  have h := this c.toNat c.toNat_lt
  rwa [UInt8.ofNat_toNat] at h

/-- The value, with the bytes the sign stands for. -/
def valueNat (cs : Bool) (content : Bytes) : Nat :=
  let r := foldNat cs content
  if 128 ≤ (content.headD 0).toNat then 4294967296 - 2 ^ (8 * content.length) + r % 2 ^ (8 * content.length) else r

theorem fills : ∀ L : Nat, 1 ≤ L → L ≤ 4 → ∀ r : BitVec 32,
    (List.range 4).foldl (fun (r : BitVec 32) i => if L ≤ i then r ||| (0xff#32 <<< (8 * i)) else r) r =
      r ||| (BitVec.allOnes 32 <<< (8 * L)) := by
  intro L h1 h4 r
  have hr : List.range 4 = [0, 1, 2, 3] := rfl
  rw [hr]
  obtain rfl | rfl | rfl | rfl : L = 1 ∨ L = 2 ∨ L = 3 ∨ L = 4 := by omega
  all_goals simp [BitVec.or_assoc]

theorem integerValue_eq (cs : Bool) (content : Bytes) (h1 : 1 ≤ content.length) (h4 : content.length ≤ 4) :
    integerValue cs content content.length = (BitVec.ofNat 32 (valueNat cs content)).toInt := by
  have hf : (content.foldl (fun (r : BitVec 32) c => (r <<< 8) ||| charInt cs c) 0).toNat = foldNat cs content :=
    fold_toNat cs content 0
  unfold integerValue valueNat
  simp only [top_bit]
  generalize content.foldl (fun (r : BitVec 32) c => (r <<< 8) ||| charInt cs c) 0 = x at hf
  have hx := x.isLt
  rw [← hf]
  split
  · rw [fills _ h1 h4]
    congr 1
    apply BitVec.eq_of_toNat_eq
    rw [or_ones _ _ (by omega), BitVec.toNat_ofNat]
    have hp : 2 ^ (8 * content.length) ≤ 2 ^ 32 := Nat.pow_le_pow_right (by omega) (by omega)
    have := Nat.mod_lt x.toNat (Nat.two_pow_pos (8 * content.length))
    exact (Nat.mod_eq_of_lt (by omega)).symm
  · rw [BitVec.ofNat_toNat, BitVec.setWidth_eq]

/-! ### Encoding, by the number of bytes -/

theorem bytes_one {n : Int} (k : Nat) (h : n / 256 = 0 ∨ n / 256 = -1) :
    integerBytes (k + 1) n = ([UInt8.ofNat (n % 256).toNat], n / 256) := by
  unfold integerBytes
  rw [if_neg (by omega)]

theorem bytes_more {n : Int} (k : Nat) (h : n / 256 ≠ 0 ∧ n / 256 ≠ -1) :
    integerBytes (k + 1) n =
      (UInt8.ofNat (n % 256).toNat :: (integerBytes k (n / 256)).1, (integerBytes k (n / 256)).2) := by
  rw [integerBytes]
  rw [if_pos h]

theorem byte_toNat (n : Int) : ((UInt8.ofNat (n % 256).toNat).toNat : Int) = n % 256 := by
  rw [UInt8.toNat_ofNat']
  omega

/-- The bytes without the length, most significant first. -/
def contentOf (n : Int) : Bytes :=
  let (res, s) := integerBytes 4 n
  (if 128 ≤ (res.headD 0).toNat ∧ s = 0 then res ++ [0x00]
    else if (res.headD 0).toNat < 128 ∧ s = -1 then res ++ [0xFF] else res).reverse

theorem encode_content (n : Int) : encodeInteger n = UInt8.ofNat (contentOf n).length :: contentOf n := by
  unfold encodeInteger contentOf
  have h2 (c : UInt8) : c &&& 0x80 = 0 ↔ c.toNat < 128 := by
    have := top_bit c
    constructor
    · intro h; exact Nat.lt_of_not_le (fun h' => this.2 h' h)
    · intro h; exact Classical.not_not.1 (fun h' => absurd (this.1 h') (by omega))
  simp only [top_bit, h2, List.reverse_append, List.reverse_cons, List.reverse_nil, List.nil_append, List.length_reverse,
    List.singleton_append]

theorem int32 {v : Nat} (h : v < 4294967296) :
    (BitVec.ofNat 32 v).toInt = if v < 2147483648 then (v : Int) else (v : Int) - 4294967296 := by
  rw [BitVec.toInt_eq_toNat_cond, BitVec.toNat_ofNat, Nat.mod_eq_of_lt (by omega)]
  split <;> split <;> omega

theorem valueNat_lt (cs : Bool) (content : Bytes) (h1 : 1 ≤ content.length) (h4 : content.length ≤ 4) :
    valueNat cs content < 4294967296 := by
  have hstep : ∀ r c, stepNat cs r c < 4294967296 := by
    intro r c
    have := c.toNat_lt
    unfold stepNat
    split <;> omega
  have hfold : ∀ (l : Bytes) (r : Nat), r < 4294967296 → l.foldl (stepNat cs) r < 4294967296 := by
    intro l
    induction l with
    | nil => intro r h; exact h
    | cons c l ih => intro r _; exact ih _ (hstep r c)
  unfold valueNat foldNat
  split
  · have hp : 2 ^ (8 * content.length) ≤ 2 ^ 32 := Nat.pow_le_pow_right (by omega) (by omega)
    have := Nat.mod_lt (content.foldl (stepNat cs) 0) (Nat.two_pow_pos (8 * content.length))
    simp only
    omega
  · exact hfold _ _ (by omega)

theorem pad_reverse (p q : Prop) [Decidable p] [Decidable q] (res : Bytes) :
    (if p then res ++ [0x00] else if q then res ++ [0xFF] else res).reverse =
      (if p then [0x00] else if q then [0xFF] else []) ++ res.reverse := by
  by_cases hp : p <;> by_cases hq : q <;> simp [hp, hq]

/-- The four ways an encoding can look like. -/
theorem content_shape (n : Int) (h1 : -2147483648 ≤ n) (h2 : n < 2147483648) :
    ∃ (x0 x1 x2 x3 : UInt8), (x0.toNat : Int) = n % 256 ∧ (x1.toNat : Int) = n / 256 % 256 ∧
      (x2.toNat : Int) = n / 256 / 256 % 256 ∧ (x3.toNat : Int) = n / 256 / 256 / 256 % 256 ∧
      ∃ (res : Bytes) (s : Int), (s = 0 ∨ s = -1) ∧ (s = 0 ↔ 0 ≤ n) ∧
        ((n / 256 = s ∧ res = [x0]) ∨ (n / 256 ≠ s ∧ n / 256 / 256 = s ∧ res = [x1, x0]) ∨
          (n / 256 / 256 ≠ s ∧ n / 256 / 256 / 256 = s ∧ res = [x2, x1, x0]) ∨
          (n / 256 / 256 / 256 ≠ s ∧ res = [x3, x2, x1, x0])) ∧
        contentOf n = (if 128 ≤ x0.toNat ∧ s = 0 then [0x00]
          else if x0.toNat < 128 ∧ s = -1 then [0xFF] else []) ++ res := by
  refine ⟨_, _, _, _, byte_toNat n, byte_toNat (n / 256), byte_toNat (n / 256 / 256),
    byte_toNat (n / 256 / 256 / 256), ?_⟩
  unfold contentOf
  by_cases c1 : n / 256 = 0 ∨ n / 256 = -1
  · rw [bytes_one 3 c1]
    refine ⟨_, n / 256, c1, by omega, .inl ⟨rfl, rfl⟩, ?_⟩
    exact pad_reverse _ _ _
  rw [bytes_more 3 (by omega)]
  by_cases c2 : n / 256 / 256 = 0 ∨ n / 256 / 256 = -1
  · rw [bytes_one 2 c2]
    refine ⟨_, n / 256 / 256, c2, by omega, .inr (.inl ⟨by omega, rfl, rfl⟩), ?_⟩
    exact pad_reverse _ _ _
  rw [bytes_more 2 (by omega)]
  by_cases c3 : n / 256 / 256 / 256 = 0 ∨ n / 256 / 256 / 256 = -1
  · rw [bytes_one 1 c3]
    refine ⟨_, n / 256 / 256 / 256, c3, by omega, .inr (.inr (.inl ⟨by omega, rfl, rfl⟩)), ?_⟩
    exact pad_reverse _ _ _
  rw [bytes_more 1 (by omega), bytes_one 0 (by omega)]
  refine ⟨_, n / 256 / 256 / 256 / 256, by omega, by omega, .inr (.inr (.inr ⟨by omega, rfl⟩)), ?_⟩
  exact pad_reverse _ _ _

set_option maxHeartbeats 2000000 in
open Aktualizr.Spec in
/-- Exactly these numbers are got back from their bytes. -/
theorem back_iff (cs : Bool) (n : Int) (h1 : -2147483648 ≤ n) (h2 : n < 2147483648) :
    (1 ≤ (contentOf n).length ∧ (contentOf n).length ≤ 4 ∧
      (BitVec.ofNat 32 (valueNat cs (contentOf n))).toInt = n) ↔ ComesBack cs n := by
  obtain ⟨x0, x1, x2, x3, b0, b1, b2, b3, res, s, hs, hs0, hres, hc⟩ := content_shape n h1 h2
  have hm : (reach n : Int) = if 0 ≤ n then n else -1 - n := by
    unfold reach; split <;> omega
  have l0 := x0.toNat_lt
  have l1 := x1.toNat_lt
  have l2 := x2.toNat_lt
  have l3 := x3.toNat_lt
  have z0 : (0 : UInt8).toNat = 0 := rfl
  have zf : (0xFF : UInt8).toNat = 255 := rfl
  have key : (1 ≤ (contentOf n).length ∧ (contentOf n).length ≤ 4 ∧
      (BitVec.ofNat 32 (valueNat cs (contentOf n))).toInt = n) ↔ 
      (1 ≤ (contentOf n).length ∧ (contentOf n).length ≤ 4 ∧ (if valueNat cs (contentOf n) < 2147483648 then
        (valueNat cs (contentOf n) : Int) else (valueNat cs (contentOf n) : Int) - 4294967296) = n) := by
    constructor
    · rintro ⟨a, b, c⟩; refine ⟨a, b, ?_⟩; rwa [int32 (valueNat_lt cs _ a b)] at c
    · rintro ⟨a, b, c⟩; refine ⟨a, b, ?_⟩; rwa [int32 (valueNat_lt cs _ a b)]
  rw [key, hc]
  clear key hc
  unfold ComesBack
  generalize reach n = m at hm ⊢
  have hpad : (if 128 ≤ x0.toNat ∧ s = 0 then [0x00] else if x0.toNat < 128 ∧ s = -1 then [0xFF] else ([] : Bytes)) =
      if 128 ≤ x0.toNat then (if 0 ≤ n then [0x00] else []) else if 0 ≤ n then [] else [0xFF] := by
    by_cases hx : 128 ≤ x0.toNat <;> by_cases hn : 0 ≤ n <;> simp [hx, hn, hs0] <;> omega
  rw [hpad]
  clear hpad
  have hs' : s = if 0 ≤ n then 0 else -1 := by split <;> omega
  clear hs hs0
  by_cases hn : 0 ≤ n
  all_goals
    simp only [hn, if_true, if_false] at hm hs' ⊢
    subst hs'
    by_cases hx : 128 ≤ x0.toNat
  all_goals
    rcases hres with ⟨g1, rfl⟩ | ⟨g0, g1, rfl⟩ | ⟨g0, g1, rfl⟩ | ⟨g0, rfl⟩
  all_goals cases cs
  all_goals
    simp only [valueNat, foldNat, stepNat, List.cons_append, List.nil_append, List.foldl_cons, List.foldl_nil,
      List.headD_cons, List.length_cons, List.length_nil, z0, zf, Nat.reduceAdd, Nat.reduceMul, Nat.reducePow,
      Nat.reduceLeDiff, Nat.reduceSub, if_false, if_true, Bool.false_eq_true, true_and, false_and,
      and_false, and_true, false_or, false_iff, hx, Nat.zero_mul, Nat.zero_add, Nat.reduceMod]
  all_goals try (repeat' split)
  all_goals omega

end Aktualizr.Cer
