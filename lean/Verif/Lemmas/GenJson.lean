import Verif.Model.Generator
import Verif.Lemmas.Except
import Verif.Lemmas.RootParse

/-! # Lemmas on the generator: JSON values -/

namespace Aktualizr

theorem ltChars_trans : ∀ {a b c : List Char}, ltChars a b = true → ltChars b c = true → ltChars a c = true
  | [], [], _, h, _ => by simp [ltChars] at h
  | [], _ :: _, [], _, h => by simp [ltChars] at h
  | [], _ :: _, _ :: _, _, _ => rfl
  | _ :: _, [], _, h, _ => by simp [ltChars] at h
  | _ :: _, _ :: _, [], _, h => by simp [ltChars] at h
  | a :: as, b :: bs, c :: cs, h1, h2 => by
    have ih := @ltChars_trans as bs cs
    unfold ltChars at h1 h2 ⊢
    grind

theorem ltChars_irrefl : ∀ (a : List Char), ltChars a a = false
  | [] => rfl
  | a :: as => by
    unfold ltChars
    rw [if_neg (Nat.lt_irrefl _), if_neg (Nat.lt_irrefl _)]
    exact ltChars_irrefl as

theorem ltChars_total : ∀ {a b : List Char}, a ≠ b → ltChars a b = false → ltChars b a = true
  | [], [], h, _ => absurd rfl h
  | [], _ :: _, _, h => by simp [ltChars] at h
  | _ :: _, [], _, _ => rfl
  | a :: as, b :: bs, hne, h => by
    unfold ltChars at h ⊢
    by_cases h1 : a.toNat < b.toNat
    · rw [if_pos h1] at h; cases h
    · by_cases h2 : b.toNat < a.toNat
      · rw [if_pos h2]
      · rw [if_neg h1, if_neg h2] at h
        rw [if_neg h2, if_neg h1]
        have hab : a = b := by
          have : a.toNat = b.toNat := by omega
          exact Char.toNat_inj.1 this
        subst hab
        exact ltChars_total (fun hc => hne (by rw [hc])) h

namespace Gen

/-- A value as jsoncpp can hold it and write it so that reading gives it back: the members of objects
in the order of their names, none twice; integers in range; no floating point number. -/
inductive Canonical : Json → Prop
  | null : Canonical .null
  | bool (b : Bool) : Canonical (.bool b)
  | int {i : Int} (lo : -9223372036854775808 ≤ i) (hi : i ≤ 18446744073709551615) : Canonical (.int i)
  | str (s : String) : Canonical (.str s)
  | arr {xs : List Json} (h : ∀ x ∈ xs, Canonical x) : Canonical (.arr xs)
  | obj {kvs : List (String × Json)} (ord : kvs.Pairwise (fun a b => ltChars a.1.toList b.1.toList = true))
      (h : ∀ kv ∈ kvs, Canonical kv.2) : Canonical (.obj kvs)

theorem Canonical.sorted {kvs : List (String × Json)} (h : Canonical (.obj kvs)) :
    kvs.Pairwise (fun a b => ltChars a.1.toList b.1.toList = true) := by cases h; assumption
theorem Canonical.members {kvs : List (String × Json)} (h : Canonical (.obj kvs)) : ∀ kv ∈ kvs, Canonical kv.2 := by cases h; assumption
theorem Canonical.elements {xs : List Json} (h : Canonical (.arr xs)) : ∀ x ∈ xs, Canonical x := by cases h; assumption

theorem insertKey_mem {k : String} {v : Json} : ∀ {l : List (String × Json)} {x : String × Json}, x ∈ insertKey k v l → x = (k, v) ∨ x ∈ l
  | [], x, h => by simpa [insertKey] using h
  | (k', v') :: l, x, h => by
    have ih := @insertKey_mem k v l x
    unfold insertKey at h
    split at h
    · simp only [List.mem_cons] at h ⊢; grind
    · split at h
      · simpa using h
      · simp only [List.mem_cons] at h ⊢; grind

theorem insertKey_sorted {k : String} {v : Json} : ∀ {l : List (String × Json)},
    l.Pairwise (fun a b => ltChars a.1.toList b.1.toList = true) → (insertKey k v l).Pairwise (fun a b => ltChars a.1.toList b.1.toList = true)
  | [], _ => by simp [insertKey]
  | (k', v') :: l, h => by
    have hc := List.pairwise_cons.1 h
    unfold insertKey
    split
    · rename_i hk
      subst hk
      exact List.pairwise_cons.2 ⟨hc.1, hc.2⟩
    · rename_i hk
      split
      · rename_i hlt
        refine List.pairwise_cons.2 ⟨?_, h⟩
        intro x hx
        rcases List.mem_cons.1 hx with rfl | hx
        · exact hlt
        · exact ltChars_trans hlt (hc.1 x hx)
      · rename_i hlt
        refine List.pairwise_cons.2 ⟨?_, insertKey_sorted hc.2⟩
        intro x hx
        rcases insertKey_mem hx with rfl | hx
        · exact ltChars_total (fun hh => hk (String.toList_inj.1 hh)) (by simpa using hlt)
        · exact hc.1 x hx

theorem lookup_insertKey_same {k : String} {v : Json} : ∀ {l : List (String × Json)}, (insertKey k v l).lookup k = some v
  | [] => by simp [insertKey]
  | (k', v') :: l => by
    have ih := @lookup_insertKey_same k v l
    unfold insertKey
    split
    · simp
    · rename_i hk
      split
      · simp
      · rw [List.lookup_cons]
        rw [beq_false_of_ne hk]
        exact ih

theorem lookup_insertKey_other {k k' : String} {v : Json} (hk : k' ≠ k) : ∀ {l : List (String × Json)}, (insertKey k v l).lookup k' = l.lookup k'
  | [] => by
    show List.lookup k' [(k, v)] = none
    rw [List.lookup_cons, beq_false_of_ne hk]; rfl
  | (a, b) :: l => by
    have ih := @lookup_insertKey_other k k' v hk l
    unfold insertKey
    split
    · rename_i h
      subst h
      rw [List.lookup_cons, List.lookup_cons, beq_false_of_ne hk]
    · split
      · rw [List.lookup_cons, beq_false_of_ne hk]
      · rw [List.lookup_cons, List.lookup_cons, ih]

theorem lookup_mem {k : String} {v : Json} : ∀ {l : List (String × Json)}, l.lookup k = some v → (k, v) ∈ l
  | [], h => by cases h
  | (a, b) :: l, h => by
    rcases lookup_cons_some h with ⟨h1, h2⟩ | h
    · subst h1; subst h2; exact List.mem_cons_self
    · exact List.mem_cons_of_mem _ (lookup_mem h)

theorem get_canonical {j c : Json} {k : String} (h : Canonical j) (hg : j.get k = .ok c) : Canonical c := by
  cases j with
  | null => cases hg; exact .null
  | obj kvs =>
    have hc : (kvs.lookup k).getD .null = c := by simpa [Json.get] using hg
    subst hc
    cases hl : kvs.lookup k with
    | none => exact .null
    | some v => exact h.members _ (lookup_mem hl)
  | bool _ => cases hg
  | int _ => cases hg
  | real _ _ _ _ => cases hg
  | str _ => cases hg
  | arr _ => cases hg

/-- What an assignment to a member does. -/
theorem setKey_ok {j v j' : Json} {k : String} (h : setKey j k v = .ok j') :
    j'.get k = .ok v ∧ (∀ k', k' ≠ k → j'.get k' = j.get k') ∧ (∃ kvs, j' = .obj kvs) ∧
    (Canonical j → Canonical v → Canonical j') := by
  cases j with
  | null =>
    cases h
    refine ⟨by simp [Json.get], fun k' hk => by simp [Json.get, List.lookup_cons, beq_false_of_ne hk], ⟨_, rfl⟩, fun _ hv => .obj (by simp) ?_⟩
    intro kv hkv
    rw [List.mem_singleton.1 hkv]
    exact hv
  | obj kvs =>
    cases h
    refine ⟨by simp [Json.get, lookup_insertKey_same], fun k' hk => by simp [Json.get, lookup_insertKey_other hk], ⟨_, rfl⟩,
      fun hj hv => .obj (insertKey_sorted hj.sorted) ?_⟩
    intro kv hkv
    rcases insertKey_mem hkv with rfl | hm
    · exact hv
    · exact hj.members kv hm
  | bool _ => cases h
  | int _ => cases h
  | real _ _ _ _ => cases h
  | str _ => cases h
  | arr _ => cases h

theorem setPath_cons {j v j' : Json} {k : String} {ks : List String} (h : setPath j (k :: ks) v = .ok j') :
    ∃ c c', j.get k = .ok c ∧ setPath c ks v = .ok c' ∧ setKey j k c' = .ok j' := by
  unfold setPath at h
  obtain ⟨c, h1, h⟩ := exc_bind_ok.1 h
  obtain ⟨c', h2, h⟩ := exc_bind_ok.1 h
  exact ⟨c, c', h1, h2, h⟩

theorem setPath_canonical : ∀ {ks : List String} {j v j' : Json}, setPath j ks v = .ok j' → Canonical j → Canonical v → Canonical j'
  | [], _, _, _, h, _, hv => by cases h; exact hv
  | _ :: _, j, v, j', h, hj, hv => by
    obtain ⟨c, c', h1, h2, h3⟩ := setPath_cons h
    exact (setKey_ok h3).2.2.2 hj (setPath_canonical h2 (get_canonical hj h1) hv)

/-- Members not on the path stay. -/
theorem setPath_other {k : String} {ks : List String} {j v j' : Json} (h : setPath j (k :: ks) v = .ok j') {k' : String} (hk : k' ≠ k) :
    j'.get k' = j.get k' := by
  obtain ⟨c, c', h1, h2, h3⟩ := setPath_cons h
  exact (setKey_ok h3).2.1 k' hk

theorem removeMember_ok {j j' : Json} {k : String} (h : removeMember j k = .ok j') :
    (Canonical j → Canonical j') ∧ (∀ k', k' ≠ k → j'.get k' = j.get k') ∧ j'.get k = .ok .null := by
  cases j with
  | null => cases h; exact ⟨id, fun _ _ => rfl, rfl⟩
  | obj kvs =>
    cases h
    refine ⟨fun hj => .obj (hj.sorted.sublist List.filter_sublist) (fun kv hkv => hj.members kv (List.mem_filter.1 hkv).1), ?_, ?_⟩
    · intro k' hk'
      simp only [Json.get]
      congr 2
      induction kvs with
      | nil => rfl
      | cons a l ih =>
        rw [List.filter_cons]
        by_cases ha : a.1 = k
        · rw [if_neg (by simp [ha]), ih, List.lookup_cons]
          have : (k' == a.1) = false := by simp [ha, hk']
          rw [this]
        · rw [if_pos (by simp [ha]), List.lookup_cons, List.lookup_cons, ih]
    · simp only [Json.get]
      have : (kvs.filter (fun kv => decide (kv.1 ≠ k))).lookup k = none := by
        rw [List.lookup_eq_none_iff]
        intro p hp
        have := (List.mem_filter.1 hp).2
        simp only [ne_eq, decide_not, Bool.not_eq_eq_eq_not, Bool.not_true, decide_eq_false_iff_not] at this
        simp
        exact fun hh => this hh.symm
      rw [this]
      rfl
  | bool _ => cases h
  | int _ => cases h
  | real _ _ _ _ => cases h
  | str _ => cases h
  | arr _ => cases h

theorem numbered_values : ∀ (l : List Json) (n : Nat), (Json.numbered n l).map Prod.snd = l
  | [], _ => rfl
  | x :: l, n => by simp [Json.numbered, numbered_values l (n + 1)]

theorem elems_array (l : List Json) : (Json.arr l).elems = l := numbered_values l 0

theorem append_ok {j x j' : Json} (h : append j x = .ok j') : (Canonical j → Canonical x → Canonical j') ∧ j'.elems = j.elems ++ [x] ∧ ∃ l, j' = .arr l := by
  cases j with
  | null => cases h; exact ⟨fun _ hx => .arr (by simpa using hx), by simp [Json.elems, Json.entries, Json.numbered], _, rfl⟩
  | arr xs =>
    cases h
    refine ⟨fun hj hx => .arr ?_, ?_, _, rfl⟩
    · intro y hy
      rcases List.mem_append.1 hy with hy | hy
      · exact hj.elements y hy
      · rw [List.mem_singleton.1 hy]; exact hx
    · rw [elems_array, elems_array]
  | bool _ => cases h
  | int _ => cases h
  | real _ _ _ _ => cases h
  | str _ => cases h
  | obj _ => cases h

end Gen
end Aktualizr
