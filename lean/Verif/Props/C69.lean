import Verif.Props.C68

/-!
# C69: the configuration written and read back
-/

namespace Aktualizr
namespace Conf

/-! ## Specification -/

namespace Spec

/-- Values that can be written and read: numbers of the type, names of the enumeration, no line breaks, no quotes
except in paths, and no `&` in the paths of the sections `storage` and `import`. -/
def Plain (k : Kind) (v : Val) : Prop :=
  match k, v with
  | .text, .text s => '"' ∉ s ∧ '\n' ∉ s
  | .path, .text s => '\n' ∉ s
  | .based, .text s => '"' ∉ s ∧ '&' ∉ s ∧ '\n' ∉ s
  | .flag, .flag _ => True
  | .int, .num i => -2147483648 ≤ i ∧ i ≤ 2147483647
  | .long, .num i => -9223372036854775808 ≤ i ∧ i ≤ 9223372036854775807
  | .u64, .num i => 0 ≤ i ∧ i ≤ 18446744073709551615
  | .u16, .num i => 0 ≤ i ∧ i ≤ 65535
  | .enum names other, .text s => (∃ n ∈ other :: names, s = n.toList) ∧ '"' ∉ s ∧ '\n' ∉ s
  | _, _ => False

/-- Other keys of the section `pacman`. -/
structure PlainExtra (e : List (Txt × Txt)) : Prop where
  ordered : e.Pairwise (fun a b => a.1 < b.1)
  first : ∀ p ∈ e, ∃ c cs, p.1 = c :: cs ∧ isSpace c = false ∧ c ≠ ';' ∧ c ≠ '#' ∧ c ≠ '['
  last : ∀ p ∈ e, ∃ cs c, p.1 = cs ++ [c] ∧ isSpace c = false
  letters : ∀ p ∈ e, '=' ∉ p.1 ∧ '\n' ∉ p.1
  other : ∀ p ∈ e, ∀ o ∈ documented, o.sect = "pacman" → o.key.toList ≠ p.1
  values : ∀ p ∈ e, '"' ∉ p.2 ∧ '\n' ∉ p.2

/-- A configuration that can be written and read. -/
structure PlainConfig (c : Config) : Prop where
  values : ∀ r ∈ readRows, Plain r.kind (c.val (r.sect, r.member))
  extra : PlainExtra c.extra

end Spec

/-! ## Texts -/

/-- White space neither first nor last. -/
def Solid (l : Txt) : Prop := (∀ c ∈ l.head?, isSpace c = false) ∧ ∀ c ∈ l.getLast?, isSpace c = false

theorem dropWhile_solid {l : Txt} (h : ∀ c ∈ l.head?, isSpace c = false) : l.dropWhile isSpace = l := by
  cases l with
  | nil => rfl
  | cons c cs => rw [List.dropWhile_cons, h c (by simp)]; rfl

theorem trim_solid {l : Txt} (h : Solid l) : trim l = l := by
  unfold trim
  rw [dropWhile_solid h.1, dropWhile_solid (by rw [List.head?_reverse]; exact h.2), List.reverse_reverse]

theorem trim_space_left (l : Txt) : trim (' ' :: l) = trim l := by
  unfold trim
  rw [List.dropWhile_cons, if_pos (by decide)]

theorem dropWhile_append_solid {a b : Txt} (h : ∃ x ∈ a, isSpace x = false) :
    (a ++ b).dropWhile isSpace = a.dropWhile isSpace ++ b := by
  induction a with
  | nil => obtain ⟨x, hx, _⟩ := h; cases hx
  | cons y ys ih =>
    rw [List.cons_append, List.dropWhile_cons, List.dropWhile_cons]
    cases hy : isSpace y with
    | false => rfl
    | true =>
      simp only [if_true]
      apply ih
      obtain ⟨x, hx, hs⟩ := h
      rcases List.mem_cons.1 hx with rfl | hx
      · rw [hy] at hs; cases hs
      · exact ⟨x, hx, hs⟩

theorem trim_space_right {l : Txt} (hs : Solid l) (hne : l ≠ []) : trim (l ++ [' ']) = l := by
  unfold trim
  have h1 : (l ++ [' ']).dropWhile isSpace = l ++ [' '] := by
    apply dropWhile_solid
    cases l with
    | nil => exact absurd rfl hne
    | cons c cs => simpa using hs.1
  rw [h1, List.reverse_append]
  simp only [List.reverse_cons, List.reverse_nil, List.nil_append, List.cons_append]
  rw [List.dropWhile_cons, if_pos (by decide), dropWhile_solid (by rw [List.head?_reverse]; exact hs.2), List.reverse_reverse]

theorem pieces_lines (ls : List Txt) (h : ∀ l ∈ ls, '\n' ∉ l) : pieces '\n' (ls.flatMap (fun l => l ++ ['\n'])) = ls ++ [[]] := by
  induction ls with
  | nil => rfl
  | cons l ls ih =>
    rw [List.flatMap_cons, List.append_assoc]
    show pieces '\n' (l ++ '\n' :: ls.flatMap (fun l => l ++ ['\n'])) = _
    rw [pieces_append (h l (by simp)), ih (fun x hx => h x (by simp [hx]))]; rfl

theorem readNum_decimal (i : Int) : readNum (decimal i) = some i := by
  have hd : ∀ c ∈ Nat.toDigits 10 i.natAbs, c.isDigit = true := fun c hc => Nat.isDigit_of_mem_toDigits (by decide) (by decide) hc
  have hne : Nat.toDigits 10 i.natAbs ≠ [] := Nat.toDigits_ne_nil
  have hv : Nat.ofDigitChars 10 (Nat.toDigits 10 i.natAbs) 0 = i.natAbs := Nat.ofDigitChars_toDigits (by decide) (by decide)
  have ht : leadingDigits (Nat.toDigits 10 i.natAbs) = Nat.toDigits 10 i.natAbs := takeWhile_all hd
  unfold readNum
  have hs : signOf (decimal i) = (decide (i < 0), Nat.toDigits 10 i.natAbs) := by
    unfold decimal
    by_cases h : i < 0
    · rw [if_pos h]; simp [signOf, h]
    · rw [if_neg h]
      cases hl : Nat.toDigits 10 i.natAbs with
      | nil => exact absurd hl hne
      | cons c cs =>
        have hc := hd c (by rw [hl]; simp)
        have hm : c ≠ '-' := by rintro rfl; revert hc; decide
        have hp : c ≠ '+' := by rintro rfl; revert hc; decide
        simp [signOf, hm, hp, h]
  simp only [hs]
  rw [if_pos ⟨hne, ht⟩, hv]
  by_cases h : i < 0
  · simp only [h, decide_true, if_true, Option.some.injEq]; omega
  · simp only [h, decide_false, Bool.false_eq_true, if_false, Option.some.injEq]; omega

theorem decimal_char {i : Int} {c : Char} (h : c ∈ decimal i) : c = '-' ∨ c.isDigit = true := by
  by_cases h1 : c = '-'
  · exact .inl h1
  cases hd : c.isDigit with
  | true => exact .inr rfl
  | false => exact absurd h (quote_not_decimal h1 hd)

theorem decimal_ne (i : Int) : decimal i ≠ [] := by
  unfold decimal
  split
  · simp
  · exact Nat.toDigits_ne_nil

theorem unquote_escape (s rest : Txt) : unquote (escape s ++ '"' :: rest) = some (s, rest) := by
  induction s with
  | nil => simp [escape, unquote]
  | cons c cs ih =>
    unfold escape
    by_cases hc : c = '"' ∨ c = '&'
    · rw [if_pos hc]
      simp only [List.cons_append, unquote, ih, Option.map_some]
    · rw [if_neg hc]
      simp only [not_or] at hc
      rw [List.cons_append]
      have : unquote (c :: (escape cs ++ '"' :: rest)) = (unquote (escape cs ++ '"' :: rest)).map fun r => (c :: r.1, r.2) := by
        rw [unquote.eq_def]
        split
        · simp_all
        · simp_all
        · simp_all
        · simp_all
        · next h => cases h; rfl
      rw [this, ih]; rfl

theorem escape_plain {s : Txt} (h1 : '"' ∉ s) (h2 : '&' ∉ s) : escape s = s := by
  induction s with
  | nil => rfl
  | cons c cs ih =>
    simp only [List.mem_cons, not_or] at h1 h2
    unfold escape
    rw [if_neg (by simp [Ne.symm h1.1, Ne.symm h2.1]), ih h1.2 h2.2]

theorem mem_escape {s : Txt} {c : Char} (h : c ∈ escape s) : c ∈ s ∨ c = '&' := by
  induction s with
  | nil => cases h
  | cons x xs ih =>
    unfold escape at h
    split at h
    · simp only [List.mem_cons] at h ⊢
      rcases h with h | h | h
      · exact .inr h
      · exact .inl (.inl h)
      · rcases ih h with h | h
        · exact .inl (.inr h)
        · exact .inr h
    · simp only [List.mem_cons] at h ⊢
      rcases h with h | h
      · exact .inl (.inl h)
      · rcases ih h with h | h
        · exact .inl (.inr h)
        · exact .inr h

theorem stripQuotes_quoted {s : Txt} (h : '"' ∉ s) : stripQuotes ('"' :: s ++ ['"']) = s := by
  unfold stripQuotes
  rw [List.cons_append, List.filter_cons, if_neg (by decide), List.filter_append]
  simp only [List.filter_cons, List.filter_nil]
  rw [if_neg (by decide), List.append_nil, List.filter_eq_self]
  intro c hc
  simp only [ne_eq, decide_eq_true_eq]
  rintro rfl; exact h hc

/-! ## Values -/

/-- A value of an option is read as it was written. -/
theorem C69_value {k : Kind} {v : Val} (h : Spec.Plain k v) : k.read (k.write v) = some v := by
  cases k with
  | text =>
    cases v with
    | text s => simp only [Kind.read, Kind.write]; rw [stripQuotes_quoted h.1]
    | num i => exact absurd h id
    | flag b => exact absurd h id
  | path =>
    cases v with
    | text s =>
      simp only [Kind.read, Kind.write, readPath, List.cons_append]
      rw [unquote_escape]; rfl
    | num i => exact absurd h id
    | flag b => exact absurd h id
  | based =>
    cases v with
    | text s =>
      simp only [Kind.read, Kind.write]
      rw [escape_plain h.1 h.2.1, stripQuotes_quoted h.1]
    | num i => exact absurd h id
    | flag b => exact absurd h id
  | flag =>
    cases v with
    | text s => exact absurd h id
    | num i => exact absurd h id
    | flag b => cases b <;> rfl
  | int =>
    cases v with
    | text s => exact absurd h id
    | num i =>
      have h' : _ ≤ i ∧ i ≤ _ := h
      simp only [Kind.read, Kind.write, readBounded, readNum_decimal, Option.filter]; rw [if_pos (by simpa using h')]; rfl
    | flag b => exact absurd h id
  | long =>
    cases v with
    | text s => exact absurd h id
    | num i =>
      have h' : _ ≤ i ∧ i ≤ _ := h
      simp only [Kind.read, Kind.write, readBounded, readNum_decimal, Option.filter]; rw [if_pos (by simpa using h')]; rfl
    | flag b => exact absurd h id
  | u64 =>
    cases v with
    | text s => exact absurd h id
    | num i =>
      have h1 : 0 ≤ i := h.1
      have h2 : i ≤ 18446744073709551615 := h.2
      simp only [Kind.read, Kind.write, readU64, readBounded, readNum_decimal, Option.filter]
      rw [if_pos (by simp only [decide_eq_true_eq]; omega)]
      simp only [Option.map_some, Option.some.injEq, Val.num.injEq]
      omega
    | flag b => exact absurd h id
  | u16 =>
    cases v with
    | text s => exact absurd h id
    | num i =>
      have h1 : 0 ≤ i := h.1
      have h2 : i ≤ 65535 := h.2
      simp only [Kind.read, Kind.write, readU16, readBounded, readNum_decimal, Option.filter]
      rw [if_pos (by simp only [decide_eq_true_eq]; omega)]
      simp only [Option.map_some, Option.some.injEq, Val.num.injEq]
      omega
    | flag b => exact absurd h id
  | enum names other =>
    cases v with
    | text s =>
      obtain ⟨⟨n, hn, hs⟩, hq, _⟩ := h
      have hst : stripQuotes ((Kind.enum names other).write (.text s)) = s := stripQuotes_quoted hq
      simp only [Kind.read, hst]
      by_cases ha : names.any (fun n => n.toList == s) = true
      · rw [if_pos ha]
      · rw [if_neg ha]
        rcases List.mem_cons.1 hn with rfl | hn
        · rw [hs]
        · exact absurd (List.any_eq_true.2 ⟨n, hn, by simp [hs]⟩) ha
    | num i => exact absurd h id
    | flag b => exact absurd h id

/-- What is written for a value stays on one line, with white space neither first nor last. -/
theorem write_solid {k : Kind} {v : Val} (h : Spec.Plain k v) : Solid (k.write v) ∧ k.write v ≠ [] ∧ '\n' ∉ k.write v := by
  have quoted : ∀ s : Txt, '\n' ∉ s → Solid ('"' :: s ++ ['"']) ∧ '"' :: s ++ ['"'] ≠ [] ∧ '\n' ∉ '"' :: s ++ ['"'] := by
    intro s hs
    refine ⟨⟨?_, ?_⟩, by simp, by simp [hs]⟩
    · intro c hc; simp at hc; subst hc; decide
    · intro c hc
      have : ('"' :: s ++ ['"']).getLast? = some '"' := by rw [List.getLast?_append]; rfl
      rw [this] at hc
      simp at hc; subst hc; decide
  have numeric : ∀ i : Int, Solid (decimal i) ∧ decimal i ≠ [] ∧ '\n' ∉ decimal i := by
    intro i
    have hsp : ∀ c ∈ decimal i, isSpace c = false := by
      intro c hc
      rcases decimal_char hc with rfl | hd
      · decide
      · exact digit_not_space hd
    refine ⟨⟨fun c hc => hsp c (List.mem_of_head? hc), fun c hc => hsp c (List.mem_of_getLast? hc)⟩, decimal_ne i, ?_⟩
    exact quote_not_decimal (by decide) (by decide)
  have esc : ∀ s : Txt, '\n' ∉ s → '\n' ∉ escape s := by
    intro s hs hm
    rcases mem_escape hm with h | h
    · exact hs h
    · revert h; decide
  cases v with
  | num i =>
    show Solid (decimal i) ∧ decimal i ≠ [] ∧ '\n' ∉ decimal i
    exact numeric i
  | flag b => cases b <;> (refine ⟨⟨?_, ?_⟩, ?_, ?_⟩ <;> simp [Kind.write, isSpace] <;> decide)
  | text s =>
    cases k with
    | text => exact quoted s h.2
    | path => exact quoted _ (esc s h)
    | based => exact quoted _ (esc s h.2.2)
    | flag => exact absurd h id
    | int => exact absurd h id
    | long => exact absurd h id
    | u64 => exact absurd h id
    | u16 => exact absurd h id
    | enum names other => exact quoted s h.2.2

/-! ## Lines -/

/-- A key that can be at the start of a line. -/
structure KeyOk (k : Txt) : Prop where
  first : ∃ c cs, k = c :: cs ∧ isSpace c = false ∧ c ≠ ';' ∧ c ≠ '#' ∧ c ≠ '['
  last : ∃ cs c, k = cs ++ [c] ∧ isSpace c = false
  eq : '=' ∉ k
  nl : '\n' ∉ k

theorem KeyOk.solid {k : Txt} (h : KeyOk k) : Solid k := by
  constructor
  · obtain ⟨c, cs, rfl, hs, _⟩ := h.first
    intro x hx; simp at hx; subst hx; exact hs
  · obtain ⟨cs, c, rfl, hs⟩ := h.last
    intro x hx; rw [List.getLast?_append] at hx; simp at hx; subst hx; exact hs

theorem iniLine_option {s : Ini} {n : Node} (hcur : s.cur = some n) {k v : Txt} (hk : KeyOk k) (hv : Solid v) (hne : v ≠ [])
    (hfresh : k ∉ n.keys.map Prod.fst) :
    iniLine s (k ++ " = ".toList ++ v) = .ok { s with cur := some { n with keys := n.keys ++ [(k, v)] } } := by
  obtain ⟨c, cs, hkc, hcs, h1, h2, h3⟩ := hk.first
  have hline : Solid (k ++ " = ".toList ++ v) := by
    constructor
    · rw [hkc]; intro x hx; simp at hx; subst hx; exact hcs
    · intro x hx
      rw [List.getLast?_append] at hx
      cases hl : v.getLast? with
      | none => rw [List.getLast?_eq_none_iff] at hl; exact absurd hl hne
      | some y => rw [hl] at hx; simp at hx; subst hx; exact hv.2 _ (by rw [hl]; rfl)
  have hcut : cut '=' (k ++ " = ".toList ++ v) = some (k ++ [' '], ' ' :: v) := by
    have : k ++ " = ".toList ++ v = (k ++ [' ']) ++ '=' :: (' ' :: v) := by simp
    rw [this, cut_append (by simp [hk.eq])]
  have htk : trim (k ++ [' ']) = k := trim_space_right hk.solid (by rw [hkc]; simp)
  have htv : trim (' ' :: v) = v := by rw [trim_space_left, trim_solid hv]
  have hlk : ¬ (n.keys.lookup k).isSome = true := by
    intro h
    rw [List.lookup_isSome_iff] at h
    obtain ⟨p, hp, he⟩ := h
    have he : k = p.1 := by simpa using he
    exact hfresh (List.mem_map.2 ⟨p, hp, he.symm⟩)
  unfold iniLine
  rw [trim_solid hline]
  have hform : k ++ " = ".toList ++ v = c :: (cs ++ " = ".toList ++ v) := by rw [hkc]; rfl
  rw [hform]
  split
  · next h => cases h
  · next h => cases h; exact absurd rfl h1
  · next h => cases h; exact absurd rfl h2
  · next h => cases h; exact absurd rfl h3
  · rw [← hform, hcut]
    simp only [hcur, htk, htv]
    rw [if_neg (by simp), if_neg hlk]

theorem iniLine_header (s : Ini) {name : Txt} (hs : Solid name) (hb : ']' ∉ name) (hf : name ∉ s.kept.map (·.name)) :
    iniLine s ('[' :: name ++ [']']) = .ok { past := s.kept, cur := some { name := name } } := by
  have hline : Solid ('[' :: name ++ [']']) := by
    constructor
    · intro x hx; simp at hx; subst hx; decide
    · intro x hx; rw [List.getLast?_append] at hx; simp at hx; subst hx; decide
  unfold iniLine
  rw [trim_solid hline]
  have hfn : ¬ (findNode s.kept name).isSome = true := by
    intro h
    unfold findNode at h
    rw [List.find?_isSome] at h
    obtain ⟨n, hn, he⟩ := h
    exact hf (List.mem_map.2 ⟨n, hn, by simpa using he⟩)
  simp only [List.cons_append]
  rw [cut_append hb]
  simp only [trim_solid hs]
  rw [if_neg hfn]

theorem iniLine_blank (s : Ini) : iniLine s [] = .ok s := rfl

theorem iniLines_options {s : Ini} {n : Node} (hcur : s.cur = some n) (opts : List (Txt × Txt))
    (hk : ∀ o ∈ opts, KeyOk o.1) (hv : ∀ o ∈ opts, Solid o.2 ∧ o.2 ≠ [])
    (hnd : ((n.keys ++ opts).map Prod.fst).Nodup) :
    iniLines (opts.map (fun o => o.1 ++ " = ".toList ++ o.2)) s = .ok { s with cur := some { n with keys := n.keys ++ opts } } := by
  induction opts generalizing s n with
  | nil =>
    simp only [List.map_nil, iniLines, List.append_nil, Except.ok.injEq]
    obtain ⟨p, cu⟩ := s
    simp only at hcur
    rw [hcur]
  | cons o opts ih =>
    rw [List.map_cons, iniLines]
    have hfresh : o.1 ∉ n.keys.map Prod.fst := by
      intro hm
      rw [List.map_append, List.nodup_append] at hnd
      exact hnd.2.2 _ hm o.1 (by simp) rfl
    rw [iniLine_option hcur (hk o (by simp)) (hv o (by simp)).1 (hv o (by simp)).2 hfresh]
    show iniLines _ _ = _
    rw [ih (n := { n with keys := n.keys ++ [(o.1, o.2)] }) rfl (fun x hx => hk x (by simp [hx])) (fun x hx => hv x (by simp [hx]))
      (by simpa using hnd)]
    simp

/-- Lines of a section. -/
def sectionLines (s : Txt) (opts : List (Txt × Txt)) : List Txt :=
  ('[' :: s ++ [']']) :: (opts.map (fun o => o.1 ++ " = ".toList ++ o.2) ++ [[]])

theorem iniLines_section (s : Ini) {name : Txt} (hs : Solid name) (hb : ']' ∉ name) (hf : name ∉ s.kept.map (·.name))
    (opts : List (Txt × Txt)) (hk : ∀ o ∈ opts, KeyOk o.1) (hv : ∀ o ∈ opts, Solid o.2 ∧ o.2 ≠ []) (hnd : (opts.map Prod.fst).Nodup) :
    iniLines (sectionLines name opts) s = .ok { past := s.kept, cur := some { name := name, keys := opts } } := by
  unfold sectionLines
  rw [iniLines, iniLine_header s hs hb hf]
  show iniLines _ _ = _
  rw [iniLines_append, iniLines_options (n := { name := name }) rfl opts hk hv (by simpa using hnd)]
  rfl

theorem iniLines_sections (l : List String) (f : String → List (Txt × Txt)) (hl : (l.map String.toList).Nodup)
    (hs : ∀ s ∈ l, Solid s.toList ∧ ']' ∉ s.toList) (hne : ∀ s ∈ l, f s ≠ [])
    (hk : ∀ s ∈ l, ∀ o ∈ f s, KeyOk o.1) (hv : ∀ s ∈ l, ∀ o ∈ f s, Solid o.2 ∧ o.2 ≠ []) (hnd : ∀ s ∈ l, ((f s).map Prod.fst).Nodup)
    (st : Ini) (hst : ∀ s ∈ l, s.toList ∉ st.kept.map (·.name)) :
    ∃ st', iniLines (l.flatMap (fun s => sectionLines s.toList (f s))) st = .ok st' ∧
      st'.kept = st.kept ++ l.map (fun s => { name := s.toList, keys := f s }) := by
  induction l generalizing st with
  | nil => exact ⟨st, rfl, by simp⟩
  | cons s l ih =>
    simp only [List.map_cons, List.nodup_cons] at hl
    rw [List.flatMap_cons, iniLines_append]
    rw [iniLines_section st (hs s (by simp)).1 (hs s (by simp)).2 (hst s (by simp)) (f s) (hk s (by simp)) (hv s (by simp))
      (hnd s (by simp))]
    have hkept : ({ past := st.kept, cur := some { name := s.toList, keys := f s } } : Ini).kept =
        st.kept ++ [{ name := s.toList, keys := f s }] := by
      simp only [Ini.kept, Option.toList]
      rw [List.filter_cons, if_pos (by simpa using hne s (by simp))]; rfl
    obtain ⟨st', h1, h2⟩ := ih hl.2 (fun x hx => hs x (by simp [hx])) (fun x hx => hne x (by simp [hx])) (fun x hx => hk x (by simp [hx]))
      (fun x hx => hv x (by simp [hx])) (fun x hx => hnd x (by simp [hx]))
      { past := st.kept, cur := some { name := s.toList, keys := f s } } (by
        intro x hx
        rw [hkept]
        simp only [List.map_append, List.map_cons, List.map_nil, List.mem_append, List.mem_singleton, not_or]
        refine ⟨hst x (by simp [hx]), ?_⟩
        intro e
        exact hl.1 (e ▸ List.mem_map_of_mem (f := String.toList) hx))
    refine ⟨st', h1, ?_⟩
    rw [h2, hkept]; simp

theorem writeSection_lines (c : Config) (s : String) :
    writeSection c s = (sectionLines s.toList (sectionOptions c s)).flatMap (fun l => l ++ ['\n']) := by
  unfold writeSection sectionLines
  rw [List.flatMap_cons, List.flatMap_append]
  have : ((sectionOptions c s).map (fun o => o.1 ++ " = ".toList ++ o.2)).flatMap (fun l => l ++ ['\n']) =
      (sectionOptions c s).flatMap (fun o => writeOption o.1 o.2) := by
    rw [List.flatMap_map]
    rfl
  rw [this]
  simp

theorem write_lines (c : Config) : writeToStream c =
    (sections.flatMap (fun s => sectionLines s.toList (sectionOptions c s))).flatMap (fun l => l ++ ['\n']) := by
  unfold writeToStream
  rw [List.flatMap_assoc]
  congr 1
  funext s
  exact writeSection_lines c s

/-! ## The tables -/

/-- Only the key of one option differs between reading and writing. -/
theorem writeRows_readRows : ∀ r ∈ writeRows, r ∈ readRows ∨ r = ⟨"p11", "tls_cacert_id", "tls_ca_id", .text⟩ := by decide +kernel

theorem readRows_writeRows : ∀ r ∈ readRows, r ∈ writeRows ∨ r = ⟨"p11", "tls_cacert_id", "tls_cacert_id", .text⟩ := by decide +kernel

theorem readRows_sections : ∀ r ∈ readRows, r.sect ∈ sections := by decide +kernel

/-- Keys of the tables. -/
def keyOkB (k : Txt) : Bool :=
  (match k with | [] => false | c :: _ => !isSpace c && c != ';' && c != '#' && c != '[') &&
  (match k.reverse with | [] => false | c :: _ => !isSpace c) && !k.contains '=' && !k.contains '\n'

theorem keyOk_of {k : Txt} (h : keyOkB k = true) : KeyOk k := by
  unfold keyOkB at h
  simp only [Bool.and_eq_true] at h
  obtain ⟨⟨⟨h1, h2⟩, h3⟩, h4⟩ := h
  refine ⟨?_, ?_, by simpa using h3, by simpa using h4⟩
  · cases k with
    | nil => cases h1
    | cons c cs => exact ⟨c, cs, rfl, by simp at h1; simp [h1], by simp at h1; simp [h1], by simp at h1; simp [h1], by simp at h1; simp [h1]⟩
  · cases hr : k.reverse with
    | nil => rw [hr] at h2; cases h2
    | cons c cs =>
      rw [hr] at h2
      refine ⟨cs.reverse, c, ?_, by simpa using h2⟩
      rw [← List.reverse_reverse k, hr]; simp

theorem writeRows_keys : ∀ r ∈ writeRows, keyOkB r.key.toList = true := by decide +kernel

theorem writeRows_nodup : ∀ s ∈ sections, ((writeRows.filter (fun r => r.sect = s)).map (fun r => r.key.toList)).Nodup := by decide +kernel

theorem sections_ok : ∀ s ∈ sections, (s.toList.all (fun c => !isSpace c && c != ']' && c != '\n')) = true ∧
    (writeRows.filter (fun r => r.sect = s)) ≠ [] := by decide +kernel

theorem sections_nodup : (sections.map String.toList).Nodup := by decide +kernel

theorem plain_row {c : Config} (h : Spec.PlainConfig c) {r : Row} (hr : r ∈ writeRows) : Spec.Plain r.kind (c.val (r.sect, r.member)) := by
  rcases writeRows_readRows r hr with hr | rfl
  · exact h.values r hr
  · exact h.values ⟨"p11", "tls_cacert_id", "tls_cacert_id", .text⟩ (by decide +kernel)

theorem options_ok {c : Config} (h : Spec.PlainConfig c) (s : String) :
    ∀ o ∈ sectionOptions c s, KeyOk o.1 ∧ Solid o.2 ∧ o.2 ≠ [] ∧ '\n' ∉ o.2 := by
  intro o ho
  unfold sectionOptions at ho
  rcases List.mem_append.1 ho with ho | ho
  · obtain ⟨r, hr, rfl⟩ := List.mem_map.1 ho
    have hr := (List.mem_filter.1 hr).1
    obtain ⟨h1, h2, h3⟩ := write_solid (plain_row h hr)
    exact ⟨keyOk_of (writeRows_keys r hr), h1, h2, h3⟩
  · split at ho
    · obtain ⟨e, he, rfl⟩ := List.mem_map.1 ho
      obtain ⟨h1, h2, h3⟩ := write_solid (k := .text) (v := .text e.2) (h.extra.values e he)
      exact ⟨⟨h.extra.first e he, h.extra.last e he, (h.extra.letters e he).1, (h.extra.letters e he).2⟩, h1, h2, h3⟩
    · cases ho

theorem extra_fresh {c : Config} (h : Spec.PlainConfig c) : ∀ e ∈ c.extra, e.1 ∉ pacmanKeys := by
  intro e he hm
  rw [find_pacmanKeys] at hm
  obtain ⟨s, hs, hse⟩ := List.mem_map.1 hm
  have : ∀ s ∈ ["type", "os", "sysroot", "ostree_server", "images_path", "packages_file", "fake_need_reboot"],
      ∃ o ∈ Spec.documented, o.sect = "pacman" ∧ o.key = s := by decide +kernel
  obtain ⟨o, h1, h2, h3⟩ := this s hs
  exact h.extra.other e he o h1 h2 (by rw [h3]; exact hse)

theorem extra_nodup {c : Config} (h : Spec.PlainConfig c) : (c.extra.map Prod.fst).Nodup := by
  have := h.extra.ordered
  unfold List.Nodup
  rw [List.pairwise_map]
  exact this.imp (fun {a b} (hlt : a.1 < b.1) (he : a.1 = b.1) => List.lt_irrefl b.1 (he ▸ hlt))

theorem pacman_writeKeys : (writeRows.filter (fun r => r.sect = "pacman")).map (fun r => r.key.toList) = pacmanKeys := by decide +kernel

theorem options_nodup {c : Config} (h : Spec.PlainConfig c) {s : String} (hs : s ∈ sections) : ((sectionOptions c s).map Prod.fst).Nodup := by
  unfold sectionOptions
  rw [List.map_append, List.map_map]
  have h1 : (Prod.fst ∘ fun r : Row => (r.key.toList, r.kind.write (c.val (r.sect, r.member)))) = fun r => r.key.toList := rfl
  rw [h1, List.nodup_append]
  refine ⟨writeRows_nodup s hs, ?_, ?_⟩
  · split
    · rw [List.map_map]; exact extra_nodup h
    · simp
  · intro a ha b hb hab
    split at hb
    · next hp =>
      subst hp
      rw [List.map_map] at hb
      obtain ⟨e, he, rfl⟩ := List.mem_map.1 hb
      rw [pacman_writeKeys] at ha
      have hab : a = e.1 := hab
      exact extra_fresh h e he (hab ▸ ha)
    · simp at hb

theorem options_ne (c : Config) {s : String} (hs : s ∈ sections) : sectionOptions c s ≠ [] := by
  unfold sectionOptions
  intro he
  have := (List.append_eq_nil_iff.1 he).1
  exact (sections_ok s hs).2 (List.map_eq_nil_iff.1 this)

theorem section_name {s : String} (hs : s ∈ sections) : Solid s.toList ∧ ']' ∉ s.toList ∧ '\n' ∉ s.toList := by
  have h := List.all_eq_true.1 (sections_ok s hs).1
  refine ⟨⟨fun c hc => ?_, fun c hc => ?_⟩, fun hm => ?_, fun hm => ?_⟩
  · have := h c (List.mem_of_head? hc); simp at this; simp [this]
  · have := h c (List.mem_of_getLast? hc); simp at this; simp [this]
  · have := h _ hm; simp at this
  · have := h _ hm; simp at this

theorem parse_written {c : Config} (h : Spec.PlainConfig c) :
    parseIni (writeToStream c) = .ok (sections.map (fun s => { name := s.toList, keys := sectionOptions c s })) := by
  unfold parseIni
  rw [write_lines, pieces_lines]
  · rw [iniLines_append]
    obtain ⟨st', h1, h2⟩ := iniLines_sections sections (sectionOptions c) sections_nodup
      (fun s hs => ⟨(section_name hs).1, (section_name hs).2.1⟩) (fun s hs => options_ne c hs)
      (fun s _ o ho => (options_ok h s o ho).1) (fun s _ o ho => ⟨(options_ok h s o ho).2.1, (options_ok h s o ho).2.2.1⟩)
      (fun s hs => options_nodup h hs) {} (by intro s _; simp [Ini.kept])
    rw [h1]
    show Except.ok st'.kept = _
    rw [h2]; rfl
  · intro l hl
    obtain ⟨s, hs, hl⟩ := List.mem_flatMap.1 hl
    unfold sectionLines at hl
    rcases List.mem_cons.1 hl with rfl | hl
    · simp [(section_name hs).2.2]
    · rcases List.mem_append.1 hl with hl | hl
      · obtain ⟨o, ho, rfl⟩ := List.mem_map.1 hl
        obtain ⟨h1, _, _, h4⟩ := options_ok h s o ho
        simp [h1.nl, h4]
      · rw [List.mem_singleton.1 hl]; simp

theorem find_section (l : List String) (f : String → List (Txt × Txt)) (s : String) (hs : s ∈ l) :
    sectionKeys (l.map (fun s => { name := s.toList, keys := f s })) s.toList = f s := by
  unfold sectionKeys findNode
  induction l with
  | nil => cases hs
  | cons x l ih =>
    rw [List.map_cons, List.find?_cons]
    by_cases hx : x = s
    · subst hx; simp
    · have : (x.toList == s.toList) = false := by
        simp only [beq_eq_false_iff_ne, ne_eq]
        intro he; exact hx (String.toList_inj.1 he)
      simp only [this]
      rcases List.mem_cons.1 hs with h | h
      · exact absurd h.symm hx
      · exact ih h

theorem insert_greatest {β : Type} {k : Txt} {v : β} {m : List (Txt × β)} (h : ∀ x ∈ m, x.1 < k) : insertMap txtLt k v m = m ++ [(k, v)] := by
  induction m with
  | nil => rfl
  | cons p m ih =>
    obtain ⟨k', v'⟩ := p
    have hlt : k' < k := h (k', v') (by simp)
    unfold insertMap
    rw [if_neg (fun e => List.lt_irrefl _ (e ▸ hlt)), if_neg (fun e => List.lt_asymm hlt (txtLt_iff.1 e)), ih (fun x hx => h x (by simp [hx]))]
    rfl

theorem fold_skip (l : List (Txt × Txt)) (hl : ∀ p ∈ l, p.1 ∈ pacmanKeys) (m : List (Txt × Txt)) :
    l.foldl (fun m p => if pacmanKeys.contains p.1 then m else insertMap txtLt p.1 (stripQuotes p.2) m) m = m := by
  induction l generalizing m with
  | nil => rfl
  | cons p l ih =>
    rw [List.foldl_cons, if_pos (by simpa using hl p (by simp))]
    exact ih (fun x hx => hl x (by simp [hx])) m

theorem fold_extras (e m : List (Txt × Txt)) (ho : Ordered (m ++ e)) (hf : ∀ p ∈ e, p.1 ∉ pacmanKeys) (hq : ∀ p ∈ e, '"' ∉ p.2) :
    (e.map (fun e => (e.1, Kind.text.write (.text e.2)))).foldl
      (fun m p => if pacmanKeys.contains p.1 then m else insertMap txtLt p.1 (stripQuotes p.2) m) m = m ++ e := by
  induction e generalizing m with
  | nil => simp
  | cons p e ih =>
    rw [List.map_cons, List.foldl_cons, if_neg (by simpa using hf p (by simp))]
    have hs : stripQuotes (Kind.text.write (.text p.2)) = p.2 := stripQuotes_quoted (hq p (by simp))
    have hlt : ∀ x ∈ m, x.1 < p.1 := by
      intro x hx
      unfold Ordered at ho
      rw [List.pairwise_append] at ho
      exact ho.2.2 x hx p (by simp)
    rw [hs, insert_greatest hlt, ih _ (by simpa using ho) (fun x hx => hf x (by simp [hx])) (fun x hx => hq x (by simp [hx]))]
    simp

/-! ## C69 -/

/-- A configuration written and read again, over whatever else was set before, is the same, except for one option. -/
theorem C69_roundtrip_partial {c : Config} (h : Spec.PlainConfig c) (d : Config) (hd : d.extra = []) :
    ∃ tree, parseIni (writeToStream c) = .ok tree ∧
      (∀ r ∈ readRows, r.member ≠ "tls_cacert_id" →
        (updateFromPropertyTree false d tree).val (r.sect, r.member) = c.val (r.sect, r.member)) ∧
      (updateFromPropertyTree false d tree).extra = c.extra := by
  refine ⟨_, parse_written h, ?_, ?_⟩
  · intro r hr hm
    unfold updateFromPropertyTree copyExtra
    simp only [Bool.false_eq_true, if_false]
    rw [fold_copy _ _ _ readRows_nodup]
    have hfind : readRows.find? (fun x => decide ((r.sect, r.member) = (x.sect, x.member))) = some r := by
      cases hf : readRows.find? (fun x => decide ((r.sect, r.member) = (x.sect, x.member))) with
      | none =>
        rw [List.find?_eq_none] at hf
        exact absurd (by simp) (hf r hr)
      | some x =>
        have hx := List.mem_of_find?_eq_some hf
        have he := List.find?_some hf
        simp only [decide_eq_true_eq] at he
        rw [named_inj readRows_nodup hx hr he.symm]
    rw [hfind]
    simp only
    have hw : r ∈ writeRows := by
      rcases readRows_writeRows r hr with hw | rfl
      · exact hw
      · exact absurd rfl hm
    have hs := readRows_sections r hr
    have hlook : (sectionKeys (sections.map (fun s => { name := s.toList, keys := sectionOptions c s })) r.sect.toList).lookup r.key.toList =
        some (r.kind.write (c.val (r.sect, r.member))) := by
      rw [find_section _ _ _ hs, lookup_nodup (options_nodup h hs)]
      unfold sectionOptions
      exact List.mem_append_left _ (List.mem_map.2 ⟨r, List.mem_filter.2 ⟨hw, by simp⟩, rfl⟩)
    unfold treeValue
    rw [hlook]
    simp only [Option.bind_some, C69_value (h.values r hr), Option.getD_some]
  · unfold updateFromPropertyTree copyExtra
    simp only [Bool.false_eq_true, if_false, fold_copy_extra, hd]
    rw [find_section _ _ "pacman" (by decide)]
    unfold sectionOptions
    rw [List.foldl_append, fold_skip (List.map _ (List.filter _ writeRows)), if_pos rfl]
    · rw [fold_extras c.extra [] (by exact h.extra.ordered) (extra_fresh h) (fun p hp => (h.extra.values p hp).1)]; rfl
    · intro p hp
      obtain ⟨r, hr, rfl⟩ := List.mem_map.1 hp
      rw [← pacman_writeKeys]
      exact List.mem_map.2 ⟨r, hr, rfl⟩

/-- Two configurations that differ in an option are written differently, so that a change is always reported. -/
theorem C69_distinct {c c' : Config} (h : Spec.PlainConfig c) (h' : Spec.PlainConfig c') (he : writeToStream c = writeToStream c') :
    (∀ r ∈ readRows, c.val (r.sect, r.member) = c'.val (r.sect, r.member)) ∧ c.extra = c'.extra := by
  have hp : Except.ok (ε := Err) (sections.map (fun s => ({ name := s.toList, keys := sectionOptions c s } : Node))) =
      .ok (sections.map (fun s => { name := s.toList, keys := sectionOptions c' s })) := by
    rw [← parse_written h, ← parse_written h', he]
  have hp := Except.ok.inj hp
  have hopt : ∀ s ∈ sections, sectionOptions c s = sectionOptions c' s := by
    intro s hs
    rw [← find_section sections (sectionOptions c) s hs, ← find_section sections (sectionOptions c') s hs, hp]
  have hrow : ∀ r ∈ writeRows, r.sect ∈ sections → c.val (r.sect, r.member) = c'.val (r.sect, r.member) := by
    intro r hr hs
    have key : ∀ (x : Config), Spec.PlainConfig x → (sectionOptions x r.sect).lookup r.key.toList = some (r.kind.write (x.val (r.sect, r.member))) := by
      intro x hx
      rw [lookup_nodup (options_nodup hx hs)]
      unfold sectionOptions
      exact List.mem_append_left _ (List.mem_map.2 ⟨r, List.mem_filter.2 ⟨hr, by simp⟩, rfl⟩)
    have e : r.kind.write (c.val (r.sect, r.member)) = r.kind.write (c'.val (r.sect, r.member)) := by
      have := key c h
      rw [hopt _ hs, key c' h'] at this
      exact (Option.some.inj this).symm
    have := C69_value (plain_row h hr)
    rw [e, C69_value (plain_row h' hr)] at this
    exact (Option.some.inj this).symm
  constructor
  · intro r hr
    rcases readRows_writeRows r hr with hw | rfl
    · exact hrow r hw (readRows_sections r hr)
    · exact hrow ⟨"p11", "tls_cacert_id", "tls_ca_id", .text⟩ (by decide +kernel) (by decide +kernel)
  · obtain ⟨t1, h1, _, h3⟩ := C69_roundtrip_partial h defaults rfl
    obtain ⟨t2, h4, _, h6⟩ := C69_roundtrip_partial h' defaults rfl
    rw [he, h4] at h1
    cases h1
    rw [← h3, h6]

/-! ### What is lost -/

/-- A configuration with one value set. -/
def with1 (m : String × String) (v : Val) : Config := defaults.set m v

/-- The key of the root certificate in the HSM is written under a name that is not read. -/
theorem C69_cacert_lost : ∃ tree, parseIni (writeToStream (with1 ("p11", "tls_cacert_id") (t "03"))) = .ok tree ∧
    (updateFromPropertyTree false defaults tree).val ("p11", "tls_cacert_id") = t "" := by
  refine ⟨_, rfl, ?_⟩
  decide +kernel

/-- An ampersand in a path of the storage is doubled, and doubled again when the result is written and read. -/
theorem C69_ampersand : Kind.based.read (Kind.based.write (t "a&b")) = some (t "a&&b") ∧
    Kind.based.read (Kind.based.write (t "a&&b")) = some (t "a&&&&b") ∧
    Kind.path.read (Kind.path.write (t "a&b")) = some (t "a&b") := by decide +kernel

/-- The defaults can be written, and a configuration with numbers at the ends of their ranges, a path with quotes and other keys. -/
def full : Config :=
  { ((((with1 ("provision", "provision_path") (t "/a \"b\" & c.zip")).set ("uptane", "polling_sec") (.num 18446744073709551615)).set
      ("network", "curl_bandwidth") (.num (-9223372036854775808))).set ("p11", "pass") (t " 12=34 ; # [x] ")) with
    extra := [("a b".toList, "=".toList), ("booted".toList, "1".toList)] }

instance plainDec (k : Kind) (v : Val) : Decidable (Spec.Plain k v) := by
  unfold Spec.Plain
  split <;> infer_instance

theorem defaults_plain : Spec.PlainConfig defaults := by
  refine ⟨by decide +kernel, ?_⟩
  constructor <;> simp [defaults]

theorem full_plain : Spec.PlainConfig full := by
  refine ⟨by decide +kernel, ?_⟩
  have hx : full.extra = [("a b".toList, "=".toList), ("booted".toList, "1".toList)] := rfl
  rw [hx]
  refine ⟨by decide +kernel, ?_, ?_, by decide +kernel, by decide +kernel, by decide +kernel⟩
  · intro p hp
    rcases List.mem_cons.1 hp with rfl | hp
    · exact ⟨'a', " b".toList, by decide, by decide, by decide, by decide, by decide⟩
    · rw [List.mem_singleton.1 hp]; exact ⟨'b', "ooted".toList, by decide, by decide, by decide, by decide, by decide⟩
  · intro p hp
    rcases List.mem_cons.1 hp with rfl | hp
    · exact ⟨"a ".toList, 'b', by decide, by decide⟩
    · rw [List.mem_singleton.1 hp]; exact ⟨"boote".toList, 'd', by decide, by decide⟩

/-- Numbers are flags only if they are 0 or 1. -/
theorem C68_flags (i : Int) : Kind.flag.read (decimal i) = (if i = 0 then some (.flag false) else if i = 1 then some (.flag true) else none) ∧
    Kind.flag.read "true".toList = some (.flag true) ∧ Kind.flag.read "false".toList = some (.flag false) := by
  refine ⟨?_, by decide, by decide⟩
  have h1 : decimal i ≠ "true".toList := fun h => by
    have : 't' ∈ decimal i := by rw [h]; decide
    rcases decimal_char this with h | h <;> exact absurd h (by decide)
  have h2 : decimal i ≠ "false".toList := fun h => by
    have : 'f' ∈ decimal i := by rw [h]; decide
    rcases decimal_char this with h | h <;> exact absurd h (by decide)
  show (readFlag (decimal i)).map _ = _
  unfold readFlag
  rw [if_neg h1, if_neg h2, readNum_decimal]
  by_cases h0 : i = 0
  · subst h0; rfl
  · by_cases h3 : i = 1
    · subst h3; rfl
    · rw [if_neg h0, if_neg h3]
      split
      · rename_i h; exact absurd (Option.some.inj h) h0
      · rename_i h; exact absurd (Option.some.inj h) h3
      · rfl

end Conf
end Aktualizr
