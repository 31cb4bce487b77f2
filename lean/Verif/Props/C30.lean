import Verif.Lemmas.Text
import Verif.Lemmas.Except

/-!
# C30 Hash list storage round-trips, C31 Result codes survive persistence
-/

namespace Aktualizr

namespace Spec

/-- A hash as read from metadata by a supported algorithm, with a non-empty text free of the
list separator (hexadecimal digits are). -/
def Storable (h : Hash) : Prop :=
  (h.type = .sha256 ∨ h.type = .sha512) ∧ h.hash ≠ "" ∧ upper h.hash = h.hash ∧ ';' ∉ h.hash.toList

end Spec

open Spec

/-! ### C30 -/

theorem toUpper_eq_semi {c : Char} (h : c.toUpper = ';') : c = ';' := by
  unfold Char.toUpper at h
  split at h
  · rename_i hc
    exfalso
    have := congrArg Char.toNat h
    have hv : 97 ≤ c.val.toNat ∧ c.val.toNat ≤ 122 := ⟨UInt32.le_iff_toNat_le.1 hc.1, UInt32.le_iff_toNat_le.1 hc.2⟩
    simp only [Char.toNat] at this
    revert this
    show (c.val + ('A'.val - 'a'.val)).toNat = 59 → False
    rw [UInt32.toNat_add]
    have e : ('A'.val - 'a'.val).toNat = 4294967264 := by decide
    rw [e]
    omega
  · exact h

theorem toUpper_idem (c : Char) : c.toUpper.toUpper = c.toUpper := by
  unfold Char.toUpper
  split
  · rename_i hc
    split
    · rename_i hd
      exfalso
      have hv : 97 ≤ c.val.toNat ∧ c.val.toNat ≤ 122 := ⟨UInt32.le_iff_toNat_le.1 hc.1, UInt32.le_iff_toNat_le.1 hc.2⟩
      have h1 : 97 ≤ (c.val + ('A'.val - 'a'.val)).toNat := UInt32.le_iff_toNat_le.1 hd.1
      rw [UInt32.toNat_add] at h1
      have e : ('A'.val - 'a'.val).toNat = 4294967264 := by decide
      rw [e] at h1
      omega
    · rfl
  · rfl

theorem upper_idem (s : String) : upper (upper s) = upper s := by
  have : Char.toUpper ∘ Char.toUpper = Char.toUpper := funext toUpper_idem
  simp [upper, this]

theorem item_no_semi {h : Hash} (hs : Storable h) : ';' ∉ h.item := by
  unfold Hash.item
  have : ';' ∉ h.type.text.toList := by
    rcases hs.1 with e | e <;> rw [e] <;> decide
  simp [this, hs.2.2.2]

theorem decodeTokens_item {h : Hash} (hs : Storable h) (ts : List (List Char)) :
    decodeTokens (h.item :: ts) = h :: decodeTokens ts := by
  have hne : h.item ≠ [] := by simp [Hash.item]
  have hcol : ':' ∉ h.type.text.toList := by
    rcases hs.1 with e | e <;> rw [e] <;> decide
  have hval : h.hash.toList ≠ [] := by
    intro e; exact hs.2.1 (String.toList_eq_nil_iff.1 e)
  have hof : Hash.ofStrings (String.ofList h.type.text.toList) (String.ofList h.hash.toList) = h := by
    rw [String.ofList_toList, String.ofList_toList]
    obtain ⟨ty, t⟩ := h
    have hu : upper t = t := hs.2.2.1
    rcases hs.1 with e | e <;> (simp only at e; subst e; simp [Hash.ofStrings, HashType.text, hu])
  have ht : h.type ≠ .unknown := by rcases hs.1 with e | e <;> rw [e] <;> decide
  rw [decodeTokens]
  rw [if_neg hne]
  unfold Hash.item
  rw [cut_append hcol]
  simp only [hof]
  rw [if_pos ⟨hval, ht⟩]

/-- C30. A list of hashes with supported algorithms and proper texts is read back exactly. -/
theorem C30_round_trip (hs : List Hash) (h : ∀ x ∈ hs, Storable x) : decodeHashes (encodeHashes hs) = hs := by
  unfold decodeHashes
  induction hs with
  | nil => rfl
  | cons a hs ih =>
    have ha := h a List.mem_cons_self
    have ih := ih (fun x hx => h x (List.mem_cons_of_mem _ hx))
    cases hs with
    | nil =>
      simp only [encodeHashes]
      rw [pieces_none (item_no_semi ha), decodeTokens_item ha]
      rfl
    | cons b hs =>
      simp only [encodeHashes]
      rw [pieces_append (item_no_semi ha), decodeTokens_item ha]
      rw [ih]

theorem pieces_no_sep {sep : Char} {l : List Char} : ∀ p ∈ pieces sep l, sep ∉ p := by
  induction l with
  | nil => simp [pieces]
  | cons c l ih =>
    unfold pieces
    split
    · intro p hp
      rcases List.mem_cons.1 hp with rfl | hp
      · simp
      · exact ih p hp
    · rename_i hc
      cases hx : pieces sep l with
      | nil => simp [Ne.symm hc]
      | cons a as =>
        rw [hx] at ih
        intro p hp
        rcases List.mem_cons.1 hp with rfl | hp
        · simp [Ne.symm hc, ih a List.mem_cons_self]
        · exact ih p (List.mem_cons_of_mem _ hp)

theorem cut_mem {sep : Char} {l a b : List Char} (h : cut sep l = some (a, b)) : ∀ c ∈ b, c ∈ l := by
  induction l generalizing a with
  | nil => simp [cut] at h
  | cons x l ih =>
    unfold cut at h
    split at h
    · simp at h; intro c hc; rw [h.2]; exact List.mem_cons_of_mem _ hc
    · cases hx : cut sep l with
      | none => rw [hx] at h; simp at h
      | some p =>
        rw [hx] at h
        simp at h
        intro c hc
        exact List.mem_cons_of_mem _ (ih (a := p.1) (by rw [hx, ← h.2]) c hc)

theorem decodeTokens_storable {ts : List (List Char)} (h : ∀ p ∈ ts, ';' ∉ p) : ∀ x ∈ decodeTokens ts, Storable x := by
  induction ts with
  | nil => simp [decodeTokens]
  | cons t ts ih =>
    have ih := ih (fun p hp => h p (List.mem_cons_of_mem _ hp))
    unfold decodeTokens
    split
    · simp
    · split
      · simp
      · rename_i ty value hcut
        dsimp only
        split
        · rename_i hok
          intro x hx
          rcases List.mem_cons.1 hx with rfl | hx
          · refine ⟨?_, ?_, ?_, ?_⟩
            · cases ht : (Hash.ofStrings (String.ofList ty) (String.ofList value)).type
              · exact .inl rfl
              · exact .inr rfl
              · exact (hok.2 ht).elim
            · simp only [Hash.ofStrings, upper]
              intro e
              have := congrArg String.toList e
              simp at this
              exact hok.1 this
            · simp only [Hash.ofStrings]; exact upper_idem _
            · simp only [Hash.ofStrings, upper, String.toList_ofList, List.mem_map, not_exists, not_and]
              intro c hc hu
              have := toUpper_eq_semi hu
              subst this
              exact h t List.mem_cons_self (cut_mem hcut _ hc)
          · exact ih x hx
        · exact ih

/-- C30, exactly when it holds: a list is read back unchanged if and only if every entry has a
supported algorithm and a non-empty upper-case text without a semicolon. -/
theorem C30_exact (hs : List Hash) : decodeHashes (encodeHashes hs) = hs ↔ ∀ x ∈ hs, Storable x := by
  refine ⟨fun h x hx => ?_, C30_round_trip hs⟩
  rw [← h] at hx
  exact decodeTokens_storable pieces_no_sep x hx

/-- Not vacuous: a SHA-256 and a SHA-512 hash. -/
example : ∀ x ∈ [Hash.mk' .sha256 "0a1b", Hash.mk' .sha512 "ff"], Storable x := by
  have h1 : ∀ x ∈ [Hash.mk' .sha256 "0a1b", Hash.mk' .sha512 "ff"],
      (x.type = .sha256 ∨ x.type = .sha512) ∧ x.hash ≠ "" ∧ upper x.hash = x.hash ∧ ';' ∉ x.hash.toList := by decide +kernel
  exact h1

/-- The limit: the hash text of a target is taken from the metadata as it is; one with a
semicolon in it (not a hexadecimal text) comes back truncated. -/
theorem C30_non_hex_text_changes :
    decodeHashes (encodeHashes [Hash.ofStrings "sha256" "aa;sha512:bb"]) = [Hash.ofStrings "sha256" "aa"] ∧
    decodeHashes (encodeHashes [Hash.ofStrings "sha256" "aa;sha256:bb"]) =
      [Hash.ofStrings "sha256" "aa"] := by
  decide +kernel

/-! ### C31 -/

/-- C31. A result code whose text can be written is read back as an equal code (same number,
same text). -/
theorem C31_round_trip (r : ResultCode) (repr : List Char) (h1 : -2147483648 ≤ r.num) (h2 : r.num ≤ 2147483647)
    (h : r.toRepr = .ok repr) :
    ∃ r', ResultCode.fromRepr repr = .ok r' ∧ r'.num = r.num ∧ r'.toText = r.toText ∧ r'.same r = .ok true := by
  unfold ResultCode.toRepr at h
  simp only [exc_bind_ok] at h
  obtain ⟨s, hs, h⟩ := h
  split at h
  · simp at h
  · rename_i hq
    simp only [exc_pure_ok] at h
    subst h
    have hq : '"' ∉ s.toList := by simpa using hq
    have hne : s ≠ "" := by
      unfold ResultCode.toText at hs
      split at hs
      · rename_i ht; simp at hs; rw [← hs]; exact ht
      · split at hs
        · rename_i x hx
          simp at hs; subst hs
          intro e; subst e
          have : ∀ p ∈ ResultCode.table, p.2 ≠ "" := by decide
          have hm : ∀ {l : List (Int × String)} {k : Int} {v : String}, l.lookup k = some v → ∃ k', (k', v) ∈ l := by
            intro l k v
            induction l with
            | nil => simp
            | cons a l ih =>
              obtain ⟨a1, a2⟩ := a
              intro h
              rw [List.lookup_cons] at h
              split at h
              · simp at h; exact ⟨a1, by rw [← h]; exact List.mem_cons_self⟩
              · obtain ⟨k', hk⟩ := ih h; exact ⟨k', List.mem_cons_of_mem _ hk⟩
          obtain ⟨k', hk⟩ := hm hx
          exact this _ hk rfl
        · simp at hs
    refine ⟨⟨r.num, s⟩, ?_, rfl, ?_, ?_⟩
    · unfold ResultCode.fromRepr
      have e : cut '"' (('"' :: s.toList) ++ '"' :: ':' :: decimal r.num) = some ([], s.toList ++ '"' :: ':' :: decimal r.num) := by
        simp [cut]
      rw [e]
      cases hl : s.toList with
      | nil => exact (hne (String.toList_eq_nil_iff.1 hl)).elim
      | cons c cs =>
        rw [hl] at hq
        simp only [List.cons_append]
        have e2 : cut '"' (c :: (cs ++ '"' :: ':' :: decimal r.num)) = some (c :: cs, ':' :: decimal r.num) := by
          have := cut_append (b := ':' :: decimal r.num) hq
          simpa using this
        rw [e2]
        simp only [cut, if_true, Option.map_some, ResultCode.finish]
        have hd : decimal r.num ≠ [] := by
          unfold decimal
          split
          · simp
          · exact Nat.toDigits_ne_nil
        cases hdd : decimal r.num with
        | nil => exact (hd hdd).elim
        | cons a as =>
          simp only
          rw [← hdd, stoi_decimal h1 h2, ← hl]
          simp
    · rw [hs]; simp [ResultCode.toText, hne]
    · have : (⟨r.num, s⟩ : ResultCode).toText = .ok s := by simp [ResultCode.toText, hne]
      simp [ResultCode.same, hs, this]

/-- C31. A text containing a double quote is refused at write time; any other existing text is
accepted. -/
theorem C31_write_refused_iff (r : ResultCode) (s : String) (hs : r.toText = .ok s) :
    (∃ e, r.toRepr = .error e) ↔ '"' ∈ s.toList := by
  unfold ResultCode.toRepr
  rw [hs]
  by_cases hq : '"' ∈ s.toList
  · simp [hq, throw, throwThe, MonadExceptOf.throw, bind, Except.bind]
  · simp [hq, pure, Except.pure, bind, Except.bind]

/-- C31. The legacy form `text:number`, without quotes, is still read. -/
theorem C31_legacy (s : List Char) (n : Int) (h1 : -2147483648 ≤ n) (h2 : n ≤ 2147483647)
    (hq : '"' ∉ s) (hc : ':' ∉ s) :
    ResultCode.fromRepr (s ++ ':' :: decimal n) = .ok ⟨n, String.ofList s⟩ := by
  unfold ResultCode.fromRepr
  have hd : '"' ∉ decimal n := quote_not_decimal (by decide) (by decide)
  have : '"' ∉ s ++ ':' :: decimal n := by simp [hq, hd]
  rw [cut_none this, cut_append hc]
  have hne : decimal n ≠ [] := by
    unfold decimal
    split
    · simp
    · exact Nat.toDigits_ne_nil
  cases hdd : decimal n with
  | nil => exact (hne hdd).elim
  | cons a as =>
    simp only [ResultCode.finish]
    rw [← hdd, stoi_decimal h1 h2]
    simp

/-- Not vacuous: the per-ECU code list of a device result, with colons and the like. -/
example : (⟨4, "ecu1:INSTALL_FAILED|ecu2:OK"⟩ : ResultCode).toRepr =
    .ok "\"ecu1:INSTALL_FAILED|ecu2:OK\":4".toList := by decide +kernel

example : ResultCode.fromRepr "INSTALL_FAILED:4".toList = .ok ⟨4, "INSTALL_FAILED"⟩ := by decide +kernel

end Aktualizr
