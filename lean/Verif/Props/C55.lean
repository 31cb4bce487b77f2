import Verif.Model.Clean
import Verif.Lemmas.Monad
import Verif.Props.C15

/-!
# C55 The automatic clean-up of images keeps what the ECUs run
-/

namespace Aktualizr

namespace Spec

/-- The Target is the last of the list or the one before. -/
def AmongLastTwo (t : Target) (l : List Target) : Prop :=
  ∃ pre post, l = pre ++ t :: post ∧ post.length ≤ 1

/-- The name is that of one of the last two Targets installed on some ECU. -/
def Recent (logs : List (List Target)) (name : String) : Prop :=
  ∃ l ∈ logs, ∃ t, AmongLastTwo t l ∧ t.filename = name

/-- No two stored names use the same file. -/
def OwnFiles (names : List (String × String)) : Prop :=
  ∀ p ∈ names, ∀ q ∈ names, p.2 = q.2 → p.1 = q.1

end Spec

open Spec Clean VersionDb

namespace Clean

/-! ### Lists -/

theorem mem_lastTwo {t : Target} {l : List Target} : t ∈ lastTwo l ↔ AmongLastTwo t l := by
  unfold lastTwo AmongLastTwo
  constructor
  · intro h
    split at h
    · rename_i hl
      obtain ⟨pre, post, hpp⟩ := List.append_of_mem h
      refine ⟨l.take (l.length - 2) ++ pre, post, ?_, ?_⟩
      · rw [List.append_assoc, ← hpp, List.take_append_drop]
      · have := congrArg List.length hpp
        simp at this
        omega
    · rename_i hl
      obtain ⟨pre, post, hpp⟩ := List.append_of_mem h
      refine ⟨pre, post, hpp, ?_⟩
      have := congrArg List.length hpp
      simp at this
      omega
  · rintro ⟨pre, post, rfl, hp⟩
    split
    · rename_i hl
      have : (pre ++ t :: post).length - 2 ≤ pre.length := by simp; omega
      rw [List.drop_append_of_le_length this]
      simp
    · simp

theorem foldl_unmark {stored : List String} (ts : List Target) (flags : List Bool) (i : Nat) :
    (ts.foldl (unmark stored) flags)[i]? =
      if (ts.any (fun t => stored.findIdx? (fun n => t.filename == n) == some i)) then flags[i]?.map (fun _ => false)
      else flags[i]? := by
  induction ts generalizing flags with
  | nil => simp
  | cons t ts ih =>
    rw [List.foldl_cons, ih, List.any_cons]
    cases h : stored.findIdx? (fun n => t.filename == n) with
    | none => simp [unmark, h]
    | some j =>
      have hu : unmark stored flags t = flags.set j false := by simp [unmark, h]
      rw [hu]
      by_cases hij : j = i
      · subst hij
        simp only [List.getElem?_set, beq_self_eq_true, Bool.true_or, if_true]
        cases hf : flags[j]? with
        | none =>
          have : ¬ j < flags.length := by simpa using hf
          simp [this]
        | some b =>
          have : j < flags.length := (List.getElem?_eq_some_iff.mp hf).1
          simp [this]
      · simp [hij, List.getElem?_set]

theorem length_foldl_unmark {stored : List String} (ts : List Target) (flags : List Bool) :
    (ts.foldl (unmark stored) flags).length = flags.length := by
  induction ts generalizing flags with
  | nil => rfl
  | cons t ts ih =>
    rw [List.foldl_cons, ih]
    unfold unmark
    split <;> simp

/-- The marks: exactly the names of no Target in the list are marked. -/
theorem mem_marks {stored : List String} (hn : stored.Nodup) (ts : List Target) (n : String) (b : Bool) :
    (n, b) ∈ stored.zip (ts.foldl (unmark stored) (stored.map (fun _ => true))) ↔
      n ∈ stored ∧ (b = true ↔ ∀ t ∈ ts, t.filename ≠ n) := by
  have key : ∀ i : Nat, stored[i]? = some n →
      ((ts.foldl (unmark stored) (stored.map (fun _ => true)))[i]? = some b ↔ (b = true ↔ ∀ t ∈ ts, t.filename ≠ n)) := by
    intro i hi
    obtain ⟨hlt, hi'⟩ := List.getElem?_eq_some_iff.mp hi
    have hidx : ∀ t : Target, stored.findIdx? (fun n => t.filename == n) = some i ↔ t.filename = n := by
      intro t
      rw [List.findIdx?_eq_some_iff_getElem]
      constructor
      · rintro ⟨_, h1, _⟩
        simpa [hi'] using h1
      · intro h
        refine ⟨hlt, by simp [hi', h], ?_⟩
        intro j hj
        have hne : stored[j] ≠ stored[i] := fun he => by
          have := (List.getElem_inj hn).mp he
          omega
        simp only [Bool.not_eq_true, beq_eq_false_iff_ne, ne_eq]
        rw [h]
        intro he
        exact hne (he.symm.trans hi'.symm)
    rw [foldl_unmark]
    have hflag : (stored.map (fun _ => true))[i]? = some true := by simp [hi]
    rw [hflag]
    by_cases hex : ∃ t ∈ ts, t.filename = n
    · have h1 : ts.any (fun t => stored.findIdx? (fun n => t.filename == n) == some i) = true := by
        obtain ⟨t, ht, he⟩ := hex
        exact List.any_eq_true.mpr ⟨t, ht, by simp [(hidx t).mpr he]⟩
      rw [if_pos h1]
      obtain ⟨t, ht, he⟩ := hex
      cases b
      · simp; exact ⟨t, ht, he⟩
      · simp; exact ⟨t, ht, he⟩
    · have h1 : ¬ ts.any (fun t => stored.findIdx? (fun n => t.filename == n) == some i) = true := by
        intro h
        obtain ⟨t, ht, he⟩ := List.any_eq_true.mp h
        exact hex ⟨t, ht, (hidx t).mp (by simpa using he)⟩
      rw [if_neg h1]
      have h2 : ∀ t ∈ ts, t.filename ≠ n := fun t ht he => hex ⟨t, ht, he⟩
      cases b
      · simp only [Option.some.injEq, Bool.true_eq_false, Bool.false_eq_true, false_iff, Classical.not_not]
        exact h2
      · simpa using h2
  constructor
  · intro h
    obtain ⟨i, hi⟩ := List.mem_iff_getElem?.mp h
    rw [List.getElem?_zip_eq_some] at hi
    exact ⟨List.mem_iff_getElem?.mpr ⟨i, hi.1⟩, (key i hi.1).mp hi.2⟩
  · rintro ⟨hm, hb⟩
    obtain ⟨i, hi⟩ := List.mem_iff_getElem?.mp hm
    exact List.mem_iff_getElem?.mpr ⟨i, List.getElem?_zip_eq_some.mpr ⟨hi, (key i hi).mpr hb⟩⟩

/-! ### Removing -/

/-- What one removal does. -/
theorem remove_cases {n : String} {s s' : Shelf} {o : Except Err Unit} (h : removeTargetFile n s = (o, s')) :
    (s.file n = none ∧ o = .error (.std "File doesn't exist for target") ∧ s' = s) ∨
    (∃ f, s.file n = some f ∧ s.fuel = 0 ∧ o = .error .crash ∧ s' = s) ∨
    (∃ f, s.file n = some f ∧ s.fuel = 1 ∧ o = .error .crash ∧
      s' = { s with files := fun g => if g = f then none else s.files g, fuel := 0 }) ∨
    (∃ f k, s.file n = some f ∧ s.fuel = k + 2 ∧ o = .ok () ∧
      s' = { s with files := (fun g => if g = f then none else s.files g),
                    names := s.names.filter (fun p => p.1 != n), fuel := k }) := by
  unfold removeTargetFile at h
  rw [M.run_bind (M.gets_eq)] at h
  cases hf : s.file n with
  | none =>
    left
    have : (M.orThrow (s.file n) (.std "File doesn't exist for target") : C String) s = (.error (.std "File doesn't exist for target"), s) := by
      rw [hf]; rfl
    rw [M.run_bind_err (by exact this)] at h
    simp at h
    exact ⟨rfl, h.1.symm, h.2.symm⟩
  | some f =>
    right
    have : (M.orThrow (s.file n) (.std "File doesn't exist for target") : C String) s = (.ok f, s) := by
      rw [hf]; rfl
    rw [M.run_bind (by exact this)] at h
    cases hk : s.fuel with
    | zero =>
      left
      have he : effect (fun s => { s with files := fun g => if g = f then none else s.files g }) s = (.error .crash, s) := by
        simp [effect, hk]
      rw [M.run_bind_err he] at h
      simp at h
      exact ⟨f, rfl, rfl, h.1.symm, h.2.symm⟩
    | succ k =>
      right
      have he : effect (fun s => { s with files := fun g => if g = f then none else s.files g }) s =
          (.ok (), { s with files := fun g => if g = f then none else s.files g, fuel := k }) := by
        simp [effect, hk]
      rw [M.run_bind he] at h
      cases k with
      | zero =>
        left
        simp [effect] at h
        exact ⟨f, rfl, rfl, h.1.symm, h.2.symm⟩
      | succ k =>
        right
        simp [effect] at h
        exact ⟨f, k, rfl, rfl, h.1.symm, h.2.symm⟩

theorem file_mem {s : Shelf} {n f : String} (h : s.file n = some f) : (n, f) ∈ s.names ∧ f ≠ "" ∧ (s.files f).isSome := by
  unfold Shelf.file at h
  cases hl : s.names.lookup n with
  | none => simp [hl] at h
  | some g =>
    rw [hl] at h
    simp only at h
    split at h
    · cases h
    · split at h
      · rename_i h1 h2
        cases h
        refine ⟨?_, h1, h2⟩
        obtain ⟨l₁, l₂, he, _⟩ := List.lookup_eq_some_iff.mp hl
        rw [he]; simp
      · cases h

/-- What removing a list of names does, step by step. -/
theorem removeAll_cons {n : String} {b : Bool} {r : List (String × Bool)} {s s' : Shelf} {o : Except Err Unit}
    (h : removeAll ((n, b) :: r) s = (o, s')) :
    (b = false ∧ removeAll r s = (o, s')) ∨
    (b = true ∧ ∃ s1, removeTargetFile n s = (.ok (), s1) ∧ removeAll r s1 = (o, s')) ∨
    (b = true ∧ ∃ e, removeTargetFile n s = (.error e, s') ∧ o = .error e) := by
  unfold removeAll at h
  cases b with
  | false =>
    left
    refine ⟨rfl, ?_⟩
    rw [M.run_bind (a := ()) (w1 := s) (by rfl)] at h
    exact h
  | true =>
    right
    rcases M.bind_cases h with ⟨a, w1, h1, h2⟩ | ⟨e, h1, h2⟩
    · exact .inl ⟨rfl, w1, h1, h2⟩
    · exact .inr ⟨rfl, e, h1, h2⟩

/-- Nothing is added by a removal, and the versions stay. -/
theorem remove_shrinks {n : String} {s s' : Shelf} {o : Except Err Unit} (h : removeTargetFile n s = (o, s')) :
    (∀ p ∈ s'.names, p ∈ s.names) ∧ (∀ f, s.files f = none → s'.files f = none) ∧ s'.versions = s.versions := by
  rcases remove_cases h with ⟨_, _, rfl⟩ | ⟨_, _, _, _, rfl⟩ | ⟨f, _, _, _, rfl⟩ | ⟨f, k, _, _, _, rfl⟩
  · simp
  · simp
  · refine ⟨fun _ h => h, ?_, rfl⟩
    intro g hg; simp only; split <;> simp [hg]
  · refine ⟨fun _ h => (List.mem_filter.mp h).1, ?_, rfl⟩
    intro g hg; simp only; split <;> simp [hg]

theorem removeAll_shrinks {ps : List (String × Bool)} {s s' : Shelf} {o : Except Err Unit} (h : removeAll ps s = (o, s')) :
    (∀ p ∈ s'.names, p ∈ s.names) ∧ (∀ f, s.files f = none → s'.files f = none) ∧ s'.versions = s.versions := by
  induction ps generalizing s with
  | nil => simp [removeAll] at h; rw [h.2]; simp
  | cons p r ih =>
    rcases removeAll_cons h with ⟨_, h⟩ | ⟨_, s1, h1, h2⟩ | ⟨_, e, h1, _⟩
    · exact ih h
    · obtain ⟨a1, a2, a3⟩ := remove_shrinks h1
      obtain ⟨b1, b2, b3⟩ := ih h2
      exact ⟨fun p hp => a1 _ (b1 _ hp), fun f hf => b2 _ (a2 _ hf), b3.trans a3⟩
    · exact remove_shrinks h1

theorem remove_keeps {n x f : String} {s s' : Shelf} {o : Except Err Unit} (h : removeTargetFile n s = (o, s'))
    (hx : (x, f) ∈ s.names) (hnx : n ≠ x) (hown : ∀ p ∈ s.names, p.2 = f → p.1 = x) :
    (x, f) ∈ s'.names ∧ s'.files f = s.files f := by
  have hne : ∀ g, s.file n = some g → f ≠ g := by
    intro g hg he
    exact hnx (hown _ (file_mem hg).1 he.symm)
  rcases remove_cases h with ⟨_, _, rfl⟩ | ⟨_, _, _, _, rfl⟩ | ⟨g, hg, _, _, rfl⟩ | ⟨g, k, hg, _, _, rfl⟩
  · exact ⟨hx, rfl⟩
  · exact ⟨hx, rfl⟩
  · exact ⟨hx, by simp [hne g hg]⟩
  · refine ⟨List.mem_filter.mpr ⟨hx, by simpa using fun h => hnx h.symm⟩, by simp [hne g hg]⟩

theorem removeAll_keeps {ps : List (String × Bool)} {x f : String} {s s' : Shelf} {o : Except Err Unit}
    (h : removeAll ps s = (o, s')) (hx : (x, f) ∈ s.names) (hps : (x, true) ∉ ps)
    (hown : ∀ p ∈ s.names, p.2 = f → p.1 = x) : (x, f) ∈ s'.names ∧ s'.files f = s.files f := by
  induction ps generalizing s with
  | nil => simp [removeAll] at h; rw [← h.2]; exact ⟨hx, rfl⟩
  | cons p r ih =>
    obtain ⟨n, b⟩ := p
    rw [List.mem_cons, not_or] at hps
    rcases removeAll_cons h with ⟨_, h⟩ | ⟨rfl, s1, h1, h2⟩ | ⟨rfl, e, h1, _⟩
    · exact ih h hx hps.2 hown
    · have hnx : n ≠ x := fun he => hps.1 (by rw [he])
      obtain ⟨a, b⟩ := remove_keeps h1 hx hnx hown
      obtain ⟨a', b'⟩ := ih h2 a hps.2 (fun p hp => hown p ((remove_shrinks h1).1 p hp))
      exact ⟨a', b'.trans b⟩
    · exact remove_keeps h1 hx (fun he => hps.1 (by rw [he])) hown

theorem lookup_filter_ne {n m : String} (l : List (String × String)) (h : n ≠ m) :
    (l.filter (fun p => p.1 != m)).lookup n = l.lookup n := by
  induction l with
  | nil => rfl
  | cons p l ih =>
    obtain ⟨a, b⟩ := p
    by_cases ha : a = m
    · subst ha
      have : (n == a) = false := by simpa using h
      simp [List.lookup_cons, this, ih]
    · have : (fun p : String × String => p.1 != m) (a, b) = true := by simpa using ha
      rw [List.filter_cons_of_pos (p := fun p : String × String => p.1 != m) this, List.lookup_cons, List.lookup_cons, ih]

theorem lookup_filter_eq {m : String} (l : List (String × String)) :
    (l.filter (fun p => p.1 != m)).lookup m = none := by
  rw [List.lookup_eq_none_iff]
  intro p hp
  have := (List.mem_filter.mp hp).2
  simp only [bne_iff_ne, ne_eq] at this
  simpa using fun h => this h.symm

theorem removeAll_removes {ps : List (String × Bool)} {s s' : Shelf} (h : removeAll ps s = (.ok (), s')) :
    ∀ n, (n, true) ∈ ps → (∀ p ∈ s'.names, p.1 ≠ n) ∧ ∀ f, s.names.lookup n = some f → s'.files f = none := by
  induction ps generalizing s with
  | nil => simp
  | cons p r ih =>
    obtain ⟨m, b⟩ := p
    rcases removeAll_cons h with ⟨rfl, h⟩ | ⟨rfl, s1, h1, h2⟩ | ⟨_, e, _, h2⟩
    · intro n hn
      simp at hn
      exact ih h n hn
    · intro n hn
      rcases remove_cases h1 with ⟨_, h3, _⟩ | ⟨_, _, _, h3, _⟩ | ⟨_, _, _, h3, _⟩ | ⟨f, k, hf, _, _, hs⟩
      · cases h3
      · cases h3
      · cases h3
      · by_cases he : n = m
        · subst he
          obtain ⟨a1, a2, _⟩ := removeAll_shrinks h2
          constructor
          · intro p hp
            have := a1 p hp
            rw [hs] at this
            have := (List.mem_filter.mp this).2
            simpa using this
          · intro g hg
            apply a2
            rw [hs]
            have : f = g := by
              unfold Shelf.file at hf
              rw [hg] at hf
              simp only at hf
              split at hf
              · cases hf
              · split at hf
                · cases hf; rfl
                · cases hf
            simp [this]
        · have hn' : (n, true) ∈ r := by
            rcases List.mem_cons.mp hn with hc | hc
            · exact absurd (congrArg Prod.fst hc) he
            · exact hc
          obtain ⟨a1, a2⟩ := ih h2 n hn'
          refine ⟨a1, fun g hg => a2 g ?_⟩
          rw [hs]
          exact (lookup_filter_ne _ he).trans hg
    · cases h2

theorem file_none_of {n : String} {s s' : Shelf} (hf : s.file n = none)
    (hl : s'.names.lookup n = s.names.lookup n ∨ s'.names.lookup n = none)
    (hg : ∀ f, s.files f = none → s'.files f = none) : s'.file n = none := by
  unfold Shelf.file at hf ⊢
  rcases hl with h | h
  · rw [h]
    cases hc : s.names.lookup n with
    | none => rfl
    | some f =>
      rw [hc] at hf
      simp only at hf ⊢
      by_cases h0 : f = ""
      · simp [h0]
      · simp only [h0, if_false] at hf ⊢
        cases hx : s.files f with
        | none => simp [hg f hx]
        | some _ => simp [hx] at hf
  · rw [h]

theorem remove_file_none {n m : String} {s s' : Shelf} {o : Except Err Unit} (h : removeTargetFile m s = (o, s'))
    (hf : s.file n = none) : s'.file n = none := by
  refine file_none_of hf ?_ (remove_shrinks h).2.1
  rcases remove_cases h with ⟨_, _, rfl⟩ | ⟨_, _, _, _, rfl⟩ | ⟨g, _, _, _, rfl⟩ | ⟨g, k, _, _, _, rfl⟩
  · exact .inl rfl
  · exact .inl rfl
  · exact .inl rfl
  · by_cases he : n = m
    · subst he; exact .inr (lookup_filter_eq _)
    · exact .inl (lookup_filter_ne _ he)

theorem removeAll_blocked {ps : List (String × Bool)} {n : String} {s s' : Shelf} {o : Except Err Unit}
    (h : removeAll ps s = (o, s')) (hn : (n, true) ∈ ps) (hf : s.file n = none) :
    o ≠ .ok () ∧ s'.file n = none ∧ ∀ f, (n, f) ∈ s.names → (n, f) ∈ s'.names := by
  induction ps generalizing s with
  | nil => simp at hn
  | cons p r ih =>
    obtain ⟨m, b⟩ := p
    have names : ∀ {t : Shelf} {o : Except Err Unit}, removeTargetFile m s = (o, t) → ∀ f, (n, f) ∈ s.names → (n, f) ∈ t.names := by
      intro t o ht f hm
      rcases remove_cases ht with ⟨_, _, rfl⟩ | ⟨_, _, _, _, rfl⟩ | ⟨g, _, _, _, rfl⟩ | ⟨g, k, hg, _, _, rfl⟩
      · exact hm
      · exact hm
      · exact hm
      · refine List.mem_filter.mpr ⟨hm, ?_⟩
        have : n ≠ m := fun he => by rw [he, hg] at hf; cases hf
        simpa using this
    rcases removeAll_cons h with ⟨rfl, h⟩ | ⟨rfl, s1, h1, h2⟩ | ⟨_, e, h1, h2⟩
    · exact ih h (by simpa using hn) hf
    · by_cases he : n = m
      · subst he
        rcases remove_cases h1 with ⟨_, h3, _⟩ | ⟨f, h3, _⟩ | ⟨f, h3, _⟩ | ⟨f, k, h3, _⟩
        · cases h3
        · rw [h3] at hf; cases hf
        · rw [h3] at hf; cases hf
        · rw [h3] at hf; cases hf
      · have hn' : (n, true) ∈ r := by
          rcases List.mem_cons.mp hn with hc | hc
          · exact absurd (congrArg Prod.fst hc) he
          · exact hc
        obtain ⟨a, b, c⟩ := ih h2 hn' (remove_file_none h1 hf)
        exact ⟨a, b, fun f hm => c f (names h1 f hm)⟩
    · exact ⟨by rw [h2]; simp, remove_file_none h1 hf, names h1⟩

theorem removeAll_succeeds {ps : List (String × Bool)} {s : Shelf} (hps : (ps.map Prod.fst).Nodup)
    (hfile : ∀ n, (n, true) ∈ ps → (s.file n).isSome) (hkeys : (s.names.map Prod.fst).Nodup) (hown : OwnFiles s.names)
    (hfuel : s.fuel ≥ 2 * ps.length) : ∃ s', removeAll ps s = (.ok (), s') := by
  induction ps generalizing s with
  | nil => exact ⟨s, rfl⟩
  | cons p r ih =>
    obtain ⟨m, b⟩ := p
    simp only [List.map_cons, List.nodup_cons, List.mem_map, Prod.exists] at hps
    simp only [List.length_cons] at hfuel
    cases hb : b with
    | false =>
      obtain ⟨s', hs'⟩ := ih (s := s) hps.2 (fun n hn => hfile n (List.mem_cons_of_mem _ hn)) hkeys hown (by omega)
      refine ⟨s', ?_⟩
      unfold removeAll
      rw [M.run_bind (a := ()) (w1 := s) (by rfl)]
      exact hs'
    | true =>
      subst hb
      obtain ⟨f, hf⟩ := Option.isSome_iff_exists.mp (hfile m (by simp))
      cases h1 : removeTargetFile m s with
      | mk o s1 =>
        rcases remove_cases h1 with ⟨h3, _⟩ | ⟨_, _, h3, _⟩ | ⟨_, _, h3, _⟩ | ⟨g, k, hg, hk, ho, hs⟩
        · rw [h3] at hf; cases hf
        · omega
        · omega
        · subst ho
          have hsub : ∀ p ∈ s1.names, p ∈ s.names := (remove_shrinks h1).1
          obtain ⟨s', hs'⟩ := ih (s := s1) hps.2 (by
              intro n hn
              have hnm : n ≠ m := fun he => hps.1 ⟨n, true, hn, he⟩
              obtain ⟨f', hf'⟩ := Option.isSome_iff_exists.mp (hfile n (List.mem_cons_of_mem _ hn))
              have hne : f' ≠ g := fun he => hnm (hown _ (file_mem hf').1 _ (file_mem hg).1 he)
              have : s1.file n = some f' := by
                unfold Shelf.file at hf' ⊢
                rw [hs]
                simp only [lookup_filter_ne _ hnm]
                cases hl : s.names.lookup n with
                | none => rw [hl] at hf'; cases hf'
                | some f'' =>
                  rw [hl] at hf'
                  simp only at hf' ⊢
                  by_cases h0 : f'' = ""
                  · simp [h0] at hf'
                  · simp only [h0, if_false] at hf' ⊢
                    by_cases h2 : (s.files f'').isSome
                    · rw [if_pos h2] at hf'
                      cases hf'
                      simp [hne, h2]
                    · rw [if_neg h2] at hf'; cases hf'
              simp [this])
            (by rw [hs]; exact (List.filter_sublist.map Prod.fst).nodup hkeys)
            (fun p hp q hq => hown p (hsub p hp) q (hsub q hq))
            (by rw [hs]; simp only; omega)
          refine ⟨s', ?_⟩
          unfold removeAll
          rw [M.run_bind (by exact h1)]
          exact hs'

/-! ### The clean-up -/

theorem autoclean_cases {env : Env} {s s' : Shelf} {o : Except Err Unit} (h : autoclean env s = (o, s')) :
    (∃ logs, installationLog env s.versions = .ok logs ∧
      removeAll ((s.names.map Prod.fst).zip ((logs.flatMap lastTwo).foldl (unmark (s.names.map Prod.fst))
        ((s.names.map Prod.fst).map (fun _ => true)))) s = (o, s')) ∨
    (∃ e, installationLog env s.versions = .error e ∧ o = .error e ∧ s' = s) := by
  unfold autoclean at h
  rw [M.run_bind M.gets_eq] at h
  simp only [id] at h
  cases hl : installationLog env s.versions with
  | ok logs =>
    rw [M.run_bind (by rw [M.lift_eq, hl])] at h
    exact .inl ⟨logs, rfl, h⟩
  | error e =>
    rw [M.run_bind_err (e := e) (w1 := s) (by rw [M.lift_eq, hl])] at h
    simp at h
    exact .inr ⟨e, rfl, h.1.symm, h.2.symm⟩

theorem recent_iff {logs : List (List Target)} {n : String} :
    (∀ t ∈ logs.flatMap lastTwo, t.filename ≠ n) ↔ ¬ Recent logs n := by
  unfold Recent
  constructor
  · rintro h ⟨l, hl, t, ht, he⟩
    exact h t (List.mem_flatMap.mpr ⟨l, hl, mem_lastTwo.mpr ht⟩) he
  · intro h t ht he
    obtain ⟨l, hl, hm⟩ := List.mem_flatMap.mp ht
    exact h ⟨l, hl, t, mem_lastTwo.mp hm, he⟩

end Clean

/-- **C55** (partial). However the clean-up ends (success, an error, the process dying), the image of each
of the last two Targets installed on an ECU stays: its entry and the content of its file. Missing from the
property: the file must not be used by another stored name (`C55_shared_file_lost`). -/
theorem C55_keeps_partial {env : Env} {s s' : Shelf} {o : Except Err Unit} {logs : List (List Target)} {x f : String}
    (hkeys : (s.names.map Prod.fst).Nodup) (hlog : installationLog env s.versions = .ok logs)
    (h : autoclean env s = (o, s')) (hx : (x, f) ∈ s.names) (hrec : Recent logs x)
    (hown : ∀ p ∈ s.names, p.2 = f → p.1 = x) :
    (x, f) ∈ s'.names ∧ s'.files f = s.files f := by
  rcases autoclean_cases h with ⟨logs', h1, h2⟩ | ⟨e, h1, _⟩
  · rw [hlog] at h1; cases h1
    refine removeAll_keeps h2 hx ?_ hown
    intro hm
    have := ((mem_marks hkeys _ _ _).mp hm).2
    simp only [true_iff] at this
    exact recent_iff.mp this hrec
  · rw [hlog] at h1; cases h1

/-- When the installation log cannot be read, nothing is removed. -/
theorem C55_unreadable_log {env : Env} {s : Shelf} {e : Err} (hlog : installationLog env s.versions = .error e) :
    autoclean env s = (.error e, s) := by
  cases h : autoclean env s with
  | mk o s' =>
    rcases autoclean_cases h with ⟨logs, h1, _⟩ | ⟨e', h1, h2, h3⟩
    · rw [hlog] at h1; cases h1
    · rw [hlog] at h1; cases h1; rw [h2, h3]

/-- **C55** A clean-up that succeeds removes every other stored image: its entry and its file. -/
theorem C55_removes {env : Env} {s s' : Shelf} {logs : List (List Target)}
    (hkeys : (s.names.map Prod.fst).Nodup) (hlog : installationLog env s.versions = .ok logs)
    (h : autoclean env s = (.ok (), s')) {x f : String} (hx : (x, f) ∈ s.names) (hrec : ¬ Recent logs x) :
    (∀ p ∈ s'.names, p.1 ≠ x) ∧ s'.files f = none := by
  rcases autoclean_cases h with ⟨logs', h1, h2⟩ | ⟨e, h1, _⟩
  · rw [hlog] at h1; cases h1
    have hm := (mem_marks hkeys (logs.flatMap lastTwo) x true).mpr
      ⟨List.mem_map.mpr ⟨_, hx, rfl⟩, by simpa using recent_iff.mpr hrec⟩
    obtain ⟨a, b⟩ := removeAll_removes h2 x hm
    refine ⟨a, b f ?_⟩
    obtain ⟨l₁, l₂, he⟩ := List.append_of_mem hx
    rw [List.lookup_eq_some_iff]
    refine ⟨l₁, l₂, he, ?_⟩
    intro p hp
    rw [he] at hkeys
    simp only [List.map_append, List.map_cons, List.nodup_append, List.mem_cons, List.mem_map] at hkeys
    have := hkeys.2.2 p.1 ⟨p, hp, rfl⟩ x (.inl rfl)
    simpa using fun h => this h.symm
  · rw [hlog] at h1; cases h1

/-- **C55** (partial). The clean-up succeeds when every stored name has its own file and the process is not
stopped. Missing from the property: states with a missing or shared file (`C55_missing_file_blocks`). -/
theorem C55_succeeds_partial {env : Env} {s : Shelf} {logs : List (List Target)}
    (hkeys : (s.names.map Prod.fst).Nodup) (hlog : installationLog env s.versions = .ok logs) (hown : OwnFiles s.names)
    (hfiles : ∀ p ∈ s.names, p.2 ≠ "" ∧ (s.files p.2).isSome) (hfuel : s.fuel ≥ 2 * s.names.length) :
    ∃ s', autoclean env s = (.ok (), s') := by
  have hlen : ((s.names.map Prod.fst).zip ((logs.flatMap lastTwo).foldl (unmark (s.names.map Prod.fst))
      ((s.names.map Prod.fst).map (fun _ => true)))).map Prod.fst = s.names.map Prod.fst := by
    apply List.map_fst_zip
    rw [length_foldl_unmark]; simp
  obtain ⟨s', hs'⟩ := removeAll_succeeds (ps := (s.names.map Prod.fst).zip ((logs.flatMap lastTwo).foldl
      (unmark (s.names.map Prod.fst)) ((s.names.map Prod.fst).map (fun _ => true)))) (s := s)
    (by rw [hlen]; exact hkeys) (by
      intro n hn
      obtain ⟨hm, _⟩ := (mem_marks hkeys _ _ _).mp hn
      unfold Shelf.file
      cases hl : s.names.lookup n with
      | none =>
        rw [List.lookup_eq_none_iff] at hl
        obtain ⟨p, hp, he⟩ := List.mem_map.mp hm
        exact absurd (hl p hp) (by simp [he])
      | some f =>
        obtain ⟨l₁, l₂, he, _⟩ := List.lookup_eq_some_iff.mp hl
        obtain ⟨h0, h1⟩ := hfiles (n, f) (by rw [he]; simp)
        simp at h0 h1
        simp [h0, h1]) hkeys hown (by
      have : ((s.names.map Prod.fst).zip ((logs.flatMap lastTwo).foldl (unmark (s.names.map Prod.fst))
          ((s.names.map Prod.fst).map (fun _ => true)))).length = s.names.length := by
        simpa using congrArg List.length hlen
      rw [this]; exact hfuel)
  refine ⟨s', ?_⟩
  unfold autoclean
  rw [M.run_bind M.gets_eq]
  simp only [id]
  rw [M.run_bind (by rw [M.lift_eq, hlog])]
  exact hs'

/-- A stored name that is not recent and has no file makes the clean-up fail, and still does afterwards: the
versions are the same and the name stays without a file. -/
theorem C55_missing_file_blocks {env : Env} {s s' : Shelf} {o : Except Err Unit} {logs : List (List Target)} {x f : String}
    (hkeys : (s.names.map Prod.fst).Nodup) (hlog : installationLog env s.versions = .ok logs)
    (h : autoclean env s = (o, s')) (hx : (x, f) ∈ s.names) (hrec : ¬ Recent logs x) (hf : s.file x = none) :
    o ≠ .ok () ∧ (x, f) ∈ s'.names ∧ s'.file x = none ∧ s'.versions = s.versions := by
  rcases autoclean_cases h with ⟨logs', h1, h2⟩ | ⟨e, h1, _⟩
  · rw [hlog] at h1; cases h1
    have hm := (mem_marks hkeys (logs.flatMap lastTwo) x true).mpr
      ⟨List.mem_map.mpr ⟨_, hx, rfl⟩, by simpa using recent_iff.mpr hrec⟩
    obtain ⟨a, b, c⟩ := removeAll_blocked h2 hm hf
    exact ⟨a, c f hx, b, (removeAll_shrinks h2).2.2⟩
  · rw [hlog] at h1; cases h1

/-- The clean-up adds no entry and no file, and leaves the recorded versions alone. -/
theorem C55_only_removes {env : Env} {s s' : Shelf} {o : Except Err Unit} (h : autoclean env s = (o, s')) :
    (∀ p ∈ s'.names, p ∈ s.names) ∧ (∀ f, s.files f = none → s'.files f = none) ∧ s'.versions = s.versions := by
  rcases autoclean_cases h with ⟨_, _, h2⟩ | ⟨_, _, _, rfl⟩
  · exact removeAll_shrinks h2
  · simp

/-! ### The current version is the last of the log -/

/-- A current row was installed, and no later row of its ECU was. -/
def Newest (rows : List VersionRow) : Prop :=
  ∀ r ∈ rows, r.isCurrent = true →
    r.wasInstalled = true ∧ ∀ q ∈ rows, q.ecu = r.ecu → r.id < q.id → q.wasInstalled = false

theorem oldRow_last {rows : List VersionRow} (hord : Ordered rows) {ecu : String} {t : Target} {o : VersionRow}
    (h : oldRow rows ecu t = some o) : ∀ q ∈ rows, q.ecu = ecu → q.id ≤ o.id := by
  unfold oldRow at h
  cases hl : lastRow rows ecu with
  | none => simp [hl] at h
  | some r =>
    simp only [hl] at h
    split at h
    · cases h
      intro q hq he
      unfold lastRow at hl
      obtain ⟨l, hl'⟩ := List.getLast?_eq_some_iff.mp hl
      have hm : q ∈ rows.filter (fun r => r.ecu == ecu) := List.mem_filter.mpr ⟨hq, by simpa using he⟩
      have hp : Ordered (rows.filter (fun r => r.ecu == ecu)) := List.Pairwise.sublist List.filter_sublist hord
      rw [hl'] at hm hp
      rcases List.mem_append.mp hm with hm | hm
      · have := (List.pairwise_append.mp hp).2.2 q hm o (by simp)
        omega
      · simp at hm; rw [hm]; exact Nat.le_refl _
    · cases h

theorem save_newest (env : Env) {db : VersionDb} (serial : String) (t : Target) (mode : UpdateMode) (h : Tidy db.rows)
    (hn : Newest db.rows) : Newest (db.saveInstalledVersion env serial t mode).rows := by
  intro r hr hc
  rw [save_rows] at hr ⊢
  generalize hecu : db.realSerial serial = ecu at hr ⊢
  have hlast := fun o => oldRow_last h.ordered (ecu := ecu) (t := t) (o := o)
  have hsome := fun o => oldRow_some (rows := db.rows) (ecu := ecu) (t := t) (o := o)
  generalize hold : oldRow db.rows ecu t = old at hr hlast hsome ⊢
  have hother : ∀ r ∈ db.rows, r.ecu ≠ ecu → save1 ecu t mode old r = r := fun r hr hne => by
    rw [← hold]; exact save1_other h.ordered mode hr hne
  have hlt : ∀ q ∈ db.rows, q.id < nextId db.rows := fun q hq => h.ordered.lt_nextId hq
  have hinj : ∀ a ∈ db.rows, ∀ b ∈ db.rows, a.id = b.id → a = b := fun a ha b hb => h.ordered.inj ha hb
  have hwas : ∀ q ∈ db.rows, mode ≠ .current → (save1 ecu t mode old q).wasInstalled = q.wasInstalled := by
    intro q hq hm
    unfold save1 reflag clear1
    cases old with
    | none => cases mode <;> grind
    | some o =>
      have ho := hsome o rfl
      have := hinj q hq o ho.1
      cases mode <;> grind
  simp only [List.mem_append, List.mem_map] at hr ⊢
  rcases hr with ⟨r0, hr0, rfl⟩ | hr
  · by_cases he : r0.ecu = ecu
    · rcases save1_isCurrent he hc with ⟨hm, o, ho, hid⟩ | ⟨hm, hcur, hne⟩
      · subst hm; subst ho
        constructor
        · simp [save1, hid, reflag]
        · rintro q (⟨q0, hq0, rfl⟩ | hq) hqe hql
          · simp only [save1_ecu, save1_id] at hqe hql
            have := hlast o rfl q0 hq0 (hqe.trans he)
            omega
          · simp at hq
      · obtain ⟨h1, h2⟩ := hn r0 hr0 hcur
        refine ⟨by rw [hwas r0 hr0 hm]; exact h1, ?_⟩
        rintro q (⟨q0, hq0, rfl⟩ | hq) hqe hql
        · simp only [save1_ecu, save1_id] at hqe hql
          rw [hwas q0 hq0 hm]
          exact h2 q0 hq0 hqe hql
        · split at hq
          · cases hq
          · simp at hq
            rw [hq]
            cases mode
            · rfl
            · exact absurd rfl hm
            · rfl
    · rw [hother r0 hr0 he] at hc ⊢
      obtain ⟨h1, h2⟩ := hn r0 hr0 hc
      refine ⟨h1, ?_⟩
      rintro q (⟨q0, hq0, rfl⟩ | hq) hqe hql
      · simp only [save1_ecu, save1_id] at hqe hql
        rw [hother q0 hq0 (hqe ▸ he)]
        exact h2 q0 hq0 hqe hql
      · split at hq
        · cases hq
        · simp at hq
          rw [hq] at hqe
          exact absurd hqe.symm he
  · split at hr
    · cases hr
    · simp at hr
      subst hr
      have hm : mode = .current := by simpa [freshRow] using hc
      subst hm
      refine ⟨rfl, ?_⟩
      rintro q (⟨q0, hq0, rfl⟩ | hq) hqe hql
      · simp only [save1_id] at hql
        have := hlt q0 hq0
        simp only [freshRow] at hql
        omega
      · rename_i hn'
        rw [if_neg hn'] at hq
        simp at hq
        rw [hq] at hql
        omega

theorem recordAll_newest (env : Env) {db : VersionDb} (l : List Recording) (h : Tidy db.rows) (hn : Newest db.rows) :
    Newest (recordAll env db l).rows := by
  induction l generalizing db with
  | nil => exact hn
  | cons a l ih => exact ih (save_tidy _ _ _ h) (save_newest _ _ _ _ h hn)

theorem readAll_append (env : Env) (ecus : List (String × String)) (r : VersionRow) (rows : List VersionRow) (l : List Target)
    (h : readAll env ecus (rows ++ [r]) = .ok l) : ∃ pre t, readTarget env ecus r = .ok t ∧ l = pre ++ [t] := by
  induction rows generalizing l with
  | nil =>
    simp only [List.nil_append, readAll, exc_bind_ok, exc_pure_ok] at h
    obtain ⟨t, ht, l', hl', rfl⟩ := h
    cases hl'
    exact ⟨[], t, ht, rfl⟩
  | cons q rows ih =>
    simp only [List.cons_append, readAll, exc_bind_ok, exc_pure_ok] at h
    obtain ⟨t, ht, l', hl', rfl⟩ := h
    obtain ⟨pre, t', h1, h2⟩ := ih l' hl'
    exact ⟨t :: pre, t', h1, by rw [h2]; rfl⟩

theorem logs_mem {env : Env} {db : VersionDb} {es : List (String × String)} {ls : List (List Target)}
    (h : logs env db es = .ok ls) {e : String × String} (he : e ∈ es) :
    ∃ l ∈ ls, db.loadInstallationLog env e.1 true = .ok l := by
  induction es generalizing ls with
  | nil => simp at he
  | cons a r ih =>
    simp only [logs, exc_bind_ok, exc_pure_ok] at h
    obtain ⟨l, hl, ls', hls', rfl⟩ := h
    rcases List.mem_cons.mp he with rfl | he
    · exact ⟨l, by simp, hl⟩
    · obtain ⟨l', hm, h'⟩ := ih hls' he
      exact ⟨l', List.mem_cons_of_mem _ hm, h'⟩

/-- **C55** After any sequence of recordings, the current version of an ECU is one of the Targets whose image
the clean-up keeps. -/
theorem C55_current {env : Env} {ecus : List EcuRow} {l : List Recording} {db : VersionDb}
    (hdb : db = recordAll env { ecus := ecus, rows := [] } l) {es : List (String × String)} {e : String × String}
    (hes : db.loadEcuSerials = .ok (some es)) (he : e ∈ es) {t : Target} (ht : db.loadCurrent env e.1 = .ok (some t))
    {ls : List (List Target)} (hls : installationLog env db = .ok ls) : Recent ls t.filename := by
  have hn : Newest db.rows := by rw [hdb]; exact recordAll_newest _ _ tidy_nil (by intro r hr; cases hr)
  have htidy : Tidy db.rows := by rw [hdb]; exact recordAll_tidy _ _ tidy_nil
  unfold installationLog at hls
  rw [hes] at hls
  change logs env db es = .ok ls at hls
  obtain ⟨log, hm, hlog⟩ := logs_mem hls he
  refine ⟨log, hm, t, ?_, rfl⟩
  unfold loadCurrent at ht
  unfold loadInstallationLog at hlog
  simp only [exc_bind_ok] at ht hlog
  obtain ⟨m, hm1, ht⟩ := ht
  obtain ⟨m', hm2, hlog⟩ := hlog
  rw [hm1] at hm2; cases hm2
  cases hr : db.currentRow (db.realSerial e.1) with
  | none => rw [hr] at ht; cases ht
  | some r =>
    rw [hr] at ht
    simp only [readRow, exc_bind_ok, exc_pure_ok] at ht
    obtain ⟨t', ht', hte⟩ := ht
    cases hte
    unfold currentRow at hr
    have hmem := List.mem_of_find?_eq_some hr
    have hprop := List.find?_some hr
    simp only [Bool.and_eq_true, beq_iff_eq] at hprop
    obtain ⟨h1, h2⟩ := hn r hmem hprop.2
    have hin : r ∈ db.rows.filter (fun r => r.ecu == db.realSerial e.1 && (!true || r.wasInstalled)) :=
      List.mem_filter.mpr ⟨hmem, by simp [hprop.1, h1]⟩
    obtain ⟨pre, post, hpp⟩ := List.append_of_mem hin
    have hord : Ordered (db.rows.filter (fun r => r.ecu == db.realSerial e.1 && (!true || r.wasInstalled))) :=
      List.Pairwise.sublist List.filter_sublist htidy.ordered
    have hpost : post = [] := by
      cases post with
      | nil => rfl
      | cons q post =>
        exfalso
        have hq : q ∈ db.rows.filter (fun r => r.ecu == db.realSerial e.1 && (!true || r.wasInstalled)) := by
          rw [hpp]; simp
        rw [hpp] at hord
        have hlt : r.id < q.id := by
          have := (List.pairwise_append.mp hord).2.1
          rw [List.pairwise_cons] at this
          exact this.1 q (by simp)
        obtain ⟨hq1, hq2⟩ := List.mem_filter.mp hq
        simp only [Bool.and_eq_true, beq_iff_eq, Bool.not_true, Bool.false_or] at hq2
        have := h2 q hq1 (hq2.1.trans hprop.1.symm) hlt
        rw [this] at hq2
        simp at hq2
    rw [hpp, hpost] at hlog
    obtain ⟨pre', t'', h3, h4⟩ := readAll_append env m r pre log hlog
    rw [ht'] at h3; cases h3
    exact ⟨pre', [], h4, by simp⟩

/-! ### Concrete cases -/

namespace Clean

/-- Targets `a`, `b` and `c` were installed in this order. -/
def toyDb : VersionDb :=
  recordAll (Toy.env []) { ecus := [⟨"p", "h", true⟩], rows := [] }
    [⟨"p", { filename := "a", hashes := [⟨.sha256, "1"⟩] }, .current⟩,
     ⟨"p", { filename := "b", hashes := [⟨.sha256, "2"⟩] }, .current⟩,
     ⟨"p", { filename := "c", hashes := [⟨.sha256, "3"⟩] }, .current⟩]

/-- A shelf on which each name has a file named like it in `l`. -/
def toyShelf (db : VersionDb) (l : List (String × String)) (fuel : Nat) : Shelf where
  versions := db
  names := l
  files := fun f => if (l.map Prod.snd).contains f then some [1] else none
  fuel := fuel

end Clean

/-- The usual case: the image of the oldest Target goes, the other two stay. The hypotheses of
`C55_keeps_partial`, `C55_removes`, `C55_succeeds_partial` and `C55_current` hold. -/
example :
    let s := toyShelf toyDb [("a", "1"), ("b", "2"), ("c", "3")] 100
    let r := autoclean (Toy.env []) s
    (s.names.map Prod.fst).Nodup ∧
    ((installationLog (Toy.env []) s.versions).map (·.map (·.map Target.filename))) = .ok [["a", "b", "c"]] ∧
    (s.versions.loadCurrent (Toy.env []) "p").map (·.map Target.filename) = .ok (some "c") ∧
    r.1 = .ok () ∧ r.2.names = [("b", "2"), ("c", "3")] ∧
    r.2.files "1" = none ∧ r.2.files "2" = some [1] ∧ r.2.files "3" = some [1] := by
  decide +kernel

/-- Two stored names with the same content share a file. When the older one is cleaned away, the file of the
version the ECU runs now is lost, although it is among the last two. -/
theorem C55_shared_file_lost :
    let s := toyShelf toyDb [("a", "1"), ("b", "2"), ("c", "1")] 100
    let r := autoclean (Toy.env []) s
    (s.versions.loadCurrent (Toy.env []) "p").map (·.map Target.filename) = .ok (some "c") ∧
    s.file "c" = some "1" ∧ r.1 = .ok () ∧ ("c", "1") ∈ r.2.names ∧ r.2.file "c" = none := by
  decide +kernel

/-- The process dies between the removal of the file and of the entry: every later clean-up then fails
(`C55_missing_file_blocks`), however long the process lives. -/
theorem C55_crash_blocks :
    let s := toyShelf toyDb [("a", "1"), ("b", "2"), ("c", "3")] 1
    let r := autoclean (Toy.env []) s
    r.1 = .error .crash ∧ ("a", "1") ∈ r.2.names ∧ r.2.file "a" = none ∧
    ((installationLog (Toy.env []) r.2.versions).map (·.map (·.map Target.filename))) = .ok [["a", "b", "c"]] ∧
    (autoclean (Toy.env []) { r.2 with fuel := 1000 }).1 = .error (.std "File doesn't exist for target") := by
  decide +kernel

/-- The image of an update that waits for a reboot is not protected. -/
theorem C55_pending_removed :
    let db := toyDb.saveInstalledVersion (Toy.env []) "p" { filename := "d", hashes := [⟨.sha256, "4"⟩] } .pending
    let s := toyShelf db [("b", "2"), ("c", "3"), ("d", "4")] 100
    let r := autoclean (Toy.env []) s
    (db.loadPending (Toy.env []) "p").map (·.map Target.filename) = .ok (some "d") ∧
    s.file "d" = some "4" ∧ r.1 = .ok () ∧ r.2.names = [("b", "2"), ("c", "3")] ∧ r.2.files "4" = none := by
  decide +kernel

end Aktualizr
