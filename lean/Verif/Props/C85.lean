import Verif.Model.Iterate

/-!
# C85: going through all targets of the Image repository
-/

namespace Aktualizr.Spec

open Aktualizr.Iterate (Tree Kids)

variable {α : Type}

mutual
/-- All targets of a role and of those it delegates to: its own, then those of the first delegate, and so on. -/
def allOf : Tree α → List α
  | .node ts ks => ts ++ allOfKids ks
def allOfKids : Kids α → List α
  | .nil => []
  | .cons _ t r => allOf t ++ allOfKids r
end

mutual
/-- Every role has targets, no delegation is terminating, and there are at most `n` levels of delegations. -/
def Plain : Nat → Tree α → Prop
  | n, .node ts ks => ts ≠ [] ∧ PlainKids n ks
def PlainKids : Nat → Kids α → Prop
  | _, .nil => True
  | n, .cons b t r => b = false ∧ (∃ m, n = m + 1 ∧ Plain m t) ∧ PlainKids n r
end

/-- How the visit of a role ends: its delegations are through, the whole visit is over, an exception. -/
inductive Ending | through | over | threw
  deriving DecidableEq

mutual
/-- What is visited of a role at a level, reached by a terminating delegation or not: an exception if it has no targets; nothing more, not
even of other roles, if it was reached by a terminating delegation or is at the deepest level. -/
def visit : Nat → Bool → Tree α → List α × Ending
  | level, terminating, .node ts ks =>
    if ts.isEmpty then ([], .threw)
    else if terminating || decide (5 ≤ level) then (ts, .over)
    else (ts ++ (visitKids (level + 1) ks).1, (visitKids (level + 1) ks).2)
def visitKids : Nat → Kids α → List α × Ending
  | _, .nil => ([], .through)
  | level, .cons b t r =>
    if (visit level b t).2 = .through then ((visit level b t).1 ++ (visitKids level r).1, (visitKids level r).2)
    else visit level b t
end

end Aktualizr.Spec

namespace Aktualizr.Iterate

open Spec (allOf allOfKids visit visitKids Plain PlainKids Ending)

variable {α : Type}

/-- A loop has one course. -/
theorem loop_unique {t : Tree α} {o : Option It} {xs ys : List α} {b c : Bool} (h : Loop t o xs b) (h' : Loop t o ys c) :
    xs = ys ∧ b = c := by
  induction h generalizing ys c with
  | done => cases h'; exact ⟨rfl, rfl⟩
  | bad h =>
    cases h' with
    | bad _ => exact ⟨rfl, rfl⟩
    | badNext h2 _ => rw [h] at h2; cases h2
    | step h2 _ _ => rw [h] at h2; cases h2
  | badNext h hn =>
    cases h' with
    | bad h2 => rw [h] at h2; cases h2
    | badNext h2 _ => rw [h] at h2; cases h2; exact ⟨rfl, rfl⟩
    | step _ h3 _ => rw [hn] at h3; cases h3
  | step h hn _ ih =>
    cases h' with
    | bad h2 => rw [h] at h2; cases h2
    | badNext _ h3 => rw [hn] at h3; cases h3
    | step h2 h3 h4 =>
      rw [h] at h2; cases h2
      rw [hn] at h3; cases h3
      obtain ⟨rfl, rfl⟩ := ih h4
      exact ⟨rfl, rfl⟩

/-- The loop goes on with the outcome of `operator++`. -/
def Goes (t : Tree α) (x : Except Err (Option It)) (xs : List α) (b : Bool) : Prop := ∃ o, x = .ok o ∧ Loop t o xs b

/-- Where the iterator goes from a role that is through. -/
def above (t : Tree α) : List Nat → Except Err (Option It)
  | [] => .ok none
  | i :: up => next t up (((t.at up).map (·.targets.length)).getD 0) (i + 1) false up.length

/-- What the loop does from an ending on, given what it does from above. -/
def Ends (t : Tree α) (path : List Nat) (v : List α × Ending) (start : List α → Bool → Prop) : Prop :=
  match v.2 with
  | .through => ∀ xs b, Goes t (above t path) xs b → start (v.1 ++ xs) b
  | .over => start v.1 false
  | .threw => start v.1 true

theorem next_done {t r : Tree α} {path : List Nat} (hr : t.at path = some r) {target child : Nat}
    (ht : ¬ target + 1 < r.targets.length) {terminating : Bool} {level : Nat} (hs : (terminating || decide (level ≥ maxDepth)) = true) :
    next t path target child terminating level = .ok none := by
  cases path with
  | nil =>
    cases hr
    simp only [next, move, if_neg ht, if_pos hs]
  | cons i up => simp only [next, hr, move, if_neg ht, if_pos hs]

theorem next_target {t r : Tree α} {path : List Nat} (hr : t.at path = some r) {target child : Nat}
    (ht : target + 1 < r.targets.length) {terminating : Bool} {level : Nat} :
    next t path target child terminating level = .ok (some ⟨path, target + 1, child, terminating, level⟩) := by
  cases path with
  | nil =>
    cases hr
    simp only [next, move, if_pos ht]
  | cons i up => simp only [next, hr, move, if_pos ht]

theorem next_child {t r : Tree α} {path : List Nat} (hr : t.at path = some r) {target child : Nat}
    (ht : ¬ target + 1 < r.targets.length) {terminating : Bool} {level : Nat}
    (hs : (terminating || decide (level ≥ maxDepth)) = false) {flag : Bool} {k : Tree α} (hk : r.kids.get child = some (flag, k)) :
    next t path target child terminating level = .ok (some ⟨child :: path, 0, 0, flag, level + 1⟩) := by
  have hs' : ¬ (terminating || decide (level ≥ maxDepth)) = true := by rw [hs]; simp
  cases path with
  | nil =>
    cases hr
    simp only [next, move, if_neg ht, if_neg hs', hk]
  | cons i up => simp only [next, hr, move, if_neg ht, if_neg hs', hk]

theorem next_above {t r : Tree α} {path : List Nat} (hr : t.at path = some r) {target child : Nat}
    (ht : ¬ target + 1 < r.targets.length) {terminating : Bool}
    (hs : (terminating || decide (path.length ≥ maxDepth)) = false) (hk : r.kids.get child = none) :
    next t path target child terminating path.length = above t path := by
  have hs' : ¬ (terminating || decide (path.length ≥ maxDepth)) = true := by rw [hs]; simp
  cases path with
  | nil =>
    cases hr
    simp only [next, move, if_neg ht, if_neg hs', hk, above]
  | cons i up =>
    simp only [next, hr, move, if_neg ht, if_neg hs', hk, above]
    simp

/-- The targets of a role, from one of them on. -/
theorem targets_loop {t r : Tree α} {path : List Nat} (hr : t.at path = some r) {term : Bool} {xs : List α} {b : Bool} :
    ∀ (n i : Nat), i + n + 1 = r.targets.length →
      Goes t (next t path (r.targets.length - 1) 0 term path.length) xs b →
      Loop t (some ⟨path, i, 0, term, path.length⟩) (r.targets.drop i ++ xs) b := by
  intro n
  induction n with
  | zero =>
    intro i hi ⟨o, h1, h2⟩
    have hlt : i < r.targets.length := by omega
    have hd : r.targets.drop i = [r.targets[i]] := by
      rw [List.drop_eq_getElem_cons hlt, List.drop_eq_nil_of_le (by omega)]
    rw [hd]
    refine .step ?_ ?_ h2
    · simp only [deref, hr, List.getElem?_eq_getElem hlt]
    · show next t path i 0 term path.length = _
      rw [← h1]
      congr 1
      omega
  | succ n ih =>
    intro i hi h
    have hlt : i < r.targets.length := by omega
    rw [List.drop_eq_getElem_cons hlt]
    refine .step (o := some ⟨path, i + 1, 0, term, path.length⟩) ?_ ?_ (ih (i + 1) (by omega) h)
    · simp only [deref, hr, List.getElem?_eq_getElem hlt]
    · exact next_target hr (show i + 1 < r.targets.length by omega)

theorem Kids.get_length : ∀ (k : Kids α), k.get k.length = none
  | .nil => rfl
  | .cons _ _ r => Kids.get_length r

/-- The delegations from the `j`-th on. -/
def Kids.drop : Nat → Kids α → Kids α
  | 0, k => k
  | _ + 1, .nil => .nil
  | n + 1, .cons _ _ r => r.drop n

theorem Kids.get_drop : ∀ (j : Nat) (k : Kids α), k.get j = (k.drop j).get 0
  | 0, _ => rfl
  | _ + 1, .nil => rfl
  | n + 1, .cons _ _ r => Kids.get_drop n r

theorem Kids.drop_succ : ∀ (j : Nat) (k : Kids α) {b : Bool} {t : Tree α} {r : Kids α}, k.drop j = .cons b t r → k.drop (j + 1) = r
  | 0, .cons _ _ _, _, _, _, h => by cases h; rfl
  | 0, .nil, _, _, _, h => by cases h
  | _ + 1, .nil, _, _, _, h => by cases h
  | n + 1, .cons _ _ r, _, _, _, h => Kids.drop_succ n r h

mutual
theorem visit_loop (t : Tree α) : ∀ (s : Tree α) (path : List Nat) (term : Bool), t.at path = some s →
    Ends t path (visit path.length term s) (fun xs b => Loop t (some ⟨path, 0, 0, term, path.length⟩) xs b)
  | .node ts ks, path, term, hs => by
    unfold visit
    by_cases he : ts = []
    · subst he
      exact Loop.bad (e := .std "Inconsistent delegation iterator") (by simp [deref, hs, Tree.targets])
    · have hlen : 0 < ts.length := List.length_pos_iff.2 he
      have hte : ts.isEmpty = false := by cases ts <;> first | rfl | exact absurd rfl he
      simp only [hte, Bool.false_eq_true, if_false]
      have htl : ∀ xs b, Goes t (next t path (ts.length - 1) 0 term path.length) xs b →
          Loop t (some ⟨path, 0, 0, term, path.length⟩) (ts ++ xs) b := by
        intro xs b hg
        exact targets_loop (r := .node ts ks) hs (ts.length - 1) 0 (by simp only [Tree.targets]; omega) hg
      have hnt : ¬ (ts.length - 1) + 1 < (Tree.node ts ks).targets.length := by simp only [Tree.targets]; omega
      by_cases hstop : (term || decide (5 ≤ path.length)) = true
      · rw [if_pos hstop]
        have := htl [] false ⟨none, next_done hs hnt hstop, .done⟩
        rw [List.append_nil] at this
        exact this
      · rw [if_neg hstop]
        have hstop' : (term || decide (path.length ≥ maxDepth)) = false := by
          cases h : (term || decide (5 ≤ path.length)) with
          | false => exact h
          | true => exact absurd h hstop
        have hterm : term = false := by cases term with | false => rfl | true => simp at hstop'
        subst hterm
        have hk := kids_loop t ks path (.node ts ks) 0 hs (by simpa using hstop') rfl
        unfold Ends
        dsimp only
        cases hv : (visitKids (path.length + 1) ks).2 with
        | through =>
          rw [hv] at hk
          intro xs b hg
          rw [List.append_assoc]
          exact htl _ _ (hk xs b hg (ts.length - 1) hnt)
        | over => rw [hv] at hk; exact htl _ _ (hk (ts.length - 1) hnt)
        | threw => rw [hv] at hk; exact htl _ _ (hk (ts.length - 1) hnt)
theorem kids_loop (t : Tree α) : ∀ (ks : Kids α) (path : List Nat) (r : Tree α) (j : Nat), t.at path = some r →
    path.length < maxDepth → r.kids.drop j = ks →
    match (visitKids (path.length + 1) ks).2 with
    | .through => ∀ xs b, Goes t (above t path) xs b → ∀ n, ¬ n + 1 < r.targets.length →
        Goes t (next t path n j false path.length) ((visitKids (path.length + 1) ks).1 ++ xs) b
    | .over => ∀ n, ¬ n + 1 < r.targets.length → Goes t (next t path n j false path.length) (visitKids (path.length + 1) ks).1 false
    | .threw => ∀ n, ¬ n + 1 < r.targets.length → Goes t (next t path n j false path.length) (visitKids (path.length + 1) ks).1 true
  | .nil, path, r, j, hr, hd, hk => by
    unfold visitKids
    intro xs b hg n hn
    have : r.kids.get j = none := by rw [Kids.get_drop, hk]; rfl
    rw [next_above hr hn (by simpa using hd) this]
    exact hg
  | .cons flag s rest, path, r, j, hr, hd, hk => by
    have hget : r.kids.get j = some (flag, s) := by rw [Kids.get_drop, hk]; rfl
    have hat : t.at (j :: path) = some s := by simp [Tree.at, hr, hget]
    have hv := visit_loop t s (j :: path) flag hat
    have hrest := kids_loop t rest path r (j + 1) hr hd (Kids.drop_succ j _ hk)
    have hnext : ∀ n, ¬ n + 1 < r.targets.length →
        next t path n j false path.length = .ok (some ⟨j :: path, 0, 0, flag, path.length + 1⟩) :=
      fun n hn => next_child hr hn (by simpa using hd) hget
    have habove : above t (j :: path) = next t path r.targets.length (j + 1) false path.length := by
      simp [above, hr]
    unfold Ends at hv
    rw [List.length_cons] at hv
    unfold visitKids
    by_cases h1 : (visit (path.length + 1) flag s).2 = .through
    · rw [if_pos h1]
      rw [h1] at hv
      dsimp only at hv ⊢
      rw [habove] at hv
      cases h2 : (visitKids (path.length + 1) rest).2 with
      | through =>
        rw [h2] at hrest
        intro xs b hg n hn
        rw [List.append_assoc]
        exact ⟨_, hnext n hn, hv _ _ (hrest xs b hg r.targets.length (by omega))⟩
      | over =>
        rw [h2] at hrest
        intro n hn
        exact ⟨_, hnext n hn, hv _ _ (hrest r.targets.length (by omega))⟩
      | threw =>
        rw [h2] at hrest
        intro n hn
        exact ⟨_, hnext n hn, hv _ _ (hrest r.targets.length (by omega))⟩
    · rw [if_neg h1]
      cases h2 : (visit (path.length + 1) flag s).2 with
      | through => exact absurd h2 h1
      | over => rw [h2] at hv; exact fun n hn => ⟨_, hnext n hn, hv⟩
      | threw => rw [h2] at hv; exact fun n hn => ⟨_, hnext n hn, hv⟩
end

end Aktualizr.Iterate

namespace Aktualizr

open Iterate
open Spec (allOf allOfKids visit visitKids Plain PlainKids Ending)

variable {α : Type}

/-- C85. Whatever the roles, going through `allTargets()` comes to an end, and gives exactly the visited targets: role by role, the
delegations of a role right after its own targets, an exception at the first role without targets, and nothing more, not even of other
roles, behind a role that a terminating delegation leads to or that is at the fifth level. -/
theorem C85_exact (t : Tree α) (xs : List α) (b : Bool) :
    Loop t (some begin) xs b ↔ xs = (visit 0 false t).1 ∧ b = decide ((visit 0 false t).2 = .threw) := by
  have h := visit_loop t t [] false rfl
  have hl : Loop t (some begin) (visit 0 false t).1 (decide ((visit 0 false t).2 = .threw)) := by
    unfold Ends at h
    rw [List.length_nil] at h
    cases hv : (visit 0 false t).2 with
    | through =>
      rw [hv] at h
      have := h [] false ⟨none, rfl, .done⟩
      rw [List.append_nil] at this
      exact this
    | over => rw [hv] at h; exact h
    | threw => rw [hv] at h; exact h
  constructor
  · intro h'
    exact loop_unique h' hl
  · rintro ⟨rfl, rfl⟩
    exact hl

mutual
theorem visit_prefix : ∀ (t : Tree α) (level : Nat) (term : Bool),
    (visit level term t).1 <+: allOf t ∧ ((visit level term t).2 = .through → (visit level term t).1 = allOf t)
  | .node ts ks, level, term => by
    unfold visit allOf
    split
    · exact ⟨List.nil_prefix, nofun⟩
    · split
      · exact ⟨List.prefix_append _ _, nofun⟩
      · obtain ⟨h1, h2⟩ := visitKids_prefix ks (level + 1)
        exact ⟨List.prefix_append_right_inj ts |>.2 h1, fun h => by rw [h2 h]⟩
theorem visitKids_prefix : ∀ (ks : Kids α) (level : Nat),
    (visitKids level ks).1 <+: allOfKids ks ∧ ((visitKids level ks).2 = .through → (visitKids level ks).1 = allOfKids ks)
  | .nil, level => by
    unfold visitKids allOfKids
    exact ⟨List.prefix_rfl, fun _ => rfl⟩
  | .cons flag t r, level => by
    obtain ⟨h1, h2⟩ := visit_prefix t level flag
    obtain ⟨h3, h4⟩ := visitKids_prefix r level
    unfold visitKids allOfKids
    split
    · rename_i h
      rw [h2 h]
      exact ⟨List.prefix_append_right_inj _ |>.2 h3, fun h' => by rw [h4 h']⟩
    · rename_i h
      exact ⟨h1.trans (List.prefix_append _ _), fun h' => absurd h' h⟩
end

/-- C85. Whatever the roles, the targets seen are the first ones of the targets of all roles, in order, and none that no role has. -/
theorem C85_in_order {t : Tree α} {xs : List α} {b : Bool} (h : Loop t (some begin) xs b) : xs <+: allOf t := by
  rw [((C85_exact t xs b).1 h).1]
  exact (visit_prefix t 0 false).1

mutual
theorem visit_plain : ∀ (t : Tree α) (level n : Nat), level + n < 5 → Plain n t → (visit level false t).2 = .through
  | .node ts ks, level, n, hl, hp => by
    unfold Plain at hp
    unfold visit
    have hte : ts.isEmpty = false := by cases ts <;> first | rfl | exact absurd rfl hp.1
    simp only [hte, Bool.false_eq_true, if_false, Bool.false_or, decide_eq_true_eq]
    rw [if_neg (by omega)]
    exact visitKids_plain ks level n hl hp.2
theorem visitKids_plain : ∀ (ks : Kids α) (level n : Nat), level + n < 5 → PlainKids n ks → (visitKids (level + 1) ks).2 = .through
  | .nil, level, n, _, _ => by unfold visitKids; rfl
  | .cons flag t r, level, n, hl, hp => by
    unfold PlainKids at hp
    obtain ⟨rfl, ⟨m, rfl, hm⟩, hr⟩ := hp
    unfold visitKids
    rw [if_pos (visit_plain t (level + 1) m (by omega) hm)]
    exact visitKids_plain r level (m + 1) hl hr
end

/-- C85. If every role has targets, no delegation is terminating, and delegations go at most four levels deep, all targets are seen, in
order, without an exception. Missing: the same with a role without targets, a terminating delegation, a fifth level; see `C85_empty_role`,
`C85_terminating`, `C85_fifth_level`. -/
theorem C85_all_partial {t : Tree α} (h : Plain 4 t) : Loop t (some begin) (allOf t) false := by
  have h1 := visit_plain t 0 4 (by omega) h
  have h2 := (visit_prefix t 0 false).2 h1
  rw [C85_exact]
  exact ⟨h2.symm, by rw [h1]; rfl⟩

/-- Roles of the case: the top one delegates to two, the second of which delegates to another. -/
def iterCase (first : List String) (terminating : Bool) : Tree String :=
  .node ["a", "b"] (.cons terminating (.node first .nil) (.cons false (.node ["d"] (.cons false (.node ["e", "f"] .nil) .nil)) .nil))

/-- A role whose only delegation leads to another such role, `n` times, and then to one with the target `y`. -/
def iterChain : Nat → Tree String
  | 0 => .node ["y"] .nil
  | n + 1 => .node ["x"] (.cons false (iterChain n) .nil)

/-- The case meets the conditions of `C85_all_partial`, and gives six targets. -/
example : Plain 4 (iterCase ["c"] false) ∧ Loop (iterCase ["c"] false) (some begin) ["a", "b", "c", "d", "e", "f"] false := by
  have h : Plain 4 (iterCase ["c"] false) := by
    simp [iterCase, Plain, PlainKids]
  exact ⟨h, C85_all_partial h⟩

/-- Code deviation: a terminating delegation ends the whole iteration. By the Uptane standard it only says that roles after it are not
searched for targets it is trusted for; the targets of the other roles are not given. -/
theorem C85_terminating : Loop (iterCase ["c"] true) (some begin) ["a", "b", "c"] false ∧ "d" ∈ allOf (iterCase ["c"] true) := by
  refine ⟨(C85_exact _ _ _).2 ?_, ?_⟩ <;> decide +kernel

/-- Code deviation: a role that has no targets of its own, which the standard allows, ends the iteration with an exception, and the targets
of the roles after it are not given. So does a top role that only delegates. -/
theorem C85_empty_role :
    Loop (iterCase [] false) (some begin) ["a", "b"] true ∧ "d" ∈ allOf (iterCase [] false) ∧
    Loop (.node [] (.cons false (iterCase ["c"] false) .nil)) (some begin) [] true := by
  refine ⟨(C85_exact _ _ _).2 ?_, ?_, (C85_exact _ _ _).2 ?_⟩ <;> decide +kernel

/-- Code deviation: a role at the fifth level ends the whole iteration, also for the roles above it that are still to come. -/
theorem C85_fifth_level :
    Loop (.node ["a"] (.cons false (iterChain 4) (.cons false (.node ["b"] .nil) .nil))) (some begin) ["a", "x", "x", "x", "x", "y"] false ∧
    Loop (.node ["a"] (.cons false (iterChain 3) (.cons false (.node ["b"] .nil) .nil))) (some begin) ["a", "x", "x", "x", "y", "b"] false := by
  refine ⟨(C85_exact _ _ _).2 ?_, (C85_exact _ _ _).2 ?_⟩ <;> decide +kernel

end Aktualizr
