import Verif.Lemmas.Treehub

/-!
# C39, C40, C52: pushing a commit to Treehub
-/

namespace Aktualizr.Treehub

/-- A repository: the commit 0 refers to a tree 1 and to metadata 2, the tree to a file 3 (twice) and to 2. -/
def exRepo : Repo := { refs := fun o => if o = 0 then [1, 2] else if o = 1 then [3, 3, 2] else [], has := fun o => o < 4 }

/-- A complete push, with failures. -/
def exSteps : List Step :=
  [.launch, .done 0 true 404, .launch, .launch, .done 2 true 500, .done 1 true 404, .launch, .launch, .done 2 true 200,
   .done 3 true 404, .launch, .done 3 true 503, .launch, .done 3 true 204, .launch, .done 1 true 204, .launch, .done 0 true 409]

/-- The log of a push that did not go wrong. -/
def logOf (r : Except Err Pool) : Option (List Event) := match r with | .ok p => some p.log | .error _ => none

/-! ## C39 -/

/-- C39: whatever the graph, the responses and their order, an object is sent only after the server has confirmed
all objects it refers to. -/
theorem C39_children_first {repo : Repo} {root : Obj} {steps : List Step} {q : Pool}
    (h : run repo .default (start root) steps = .ok q) : Ordered repo.refs q.log := by
  obtain ⟨r, h1, h2⟩ := good_run steps (good_start (repo := repo) (root := root))
  rw [h] at h1; cases h1
  exact h2.ordered

/-- Nothing but the commit is sent. -/
theorem C39_only_the_commit {repo : Repo} {root : Obj} {steps : List Step} {q : Pool}
    (h : run repo .default (start root) steps = .ok q) {o : Obj} (ho : .put o ∈ q.log) : Reach repo.refs root o := by
  obtain ⟨r, h1, h2⟩ := good_run steps (good_start (repo := repo) (root := root))
  rw [h] at h1; cases h1
  exact h2.sent o ho

/-- No course of events makes `NotifyParents` use a stale iterator or trips an assertion. -/
theorem C39_no_undefined_behaviour (repo : Repo) (root : Obj) (steps : List Step) :
    ∃ q, run repo .default (start root) steps = .ok q := by
  obtain ⟨r, h1, -⟩ := good_run steps (good_start (repo := repo) (root := root))
  exact ⟨r, h1⟩

/-- Success is reported only if the server has confirmed the commit. -/
theorem C39_success {repo : Repo} {root : Obj} {steps : List Step} {q : Pool}
    (h : run repo .default (start root) steps = .ok q) (hs : succeeded root q = true) : .seen root ∈ q.log := by
  obtain ⟨r, h1, h2⟩ := good_run steps (good_start (repo := repo) (root := root))
  rw [h] at h1; cases h1
  exact h2.seen root (by simpa [succeeded] using hs)

/-- The example: everything is sent, in order. -/
example : logOf (run exRepo .default (start 0) exSteps) = some
    [.head 0, .head 1, .head 2, .head 2, .head 3, .seen 2, .put 3, .put 3, .seen 3, .put 1, .seen 1, .put 0, .seen 0] := by
  decide +kernel

/-! A dry run sends nothing. -/

theorem notifyLoop_log : ∀ (rem : List (Obj × Nat)) {p q : Pool}, notifyLoop p rem = .ok q → q.log = p.log
  | [], p, q, h => by simp only [notifyLoop, Except.ok.injEq] at h; rw [h]
  | (o, s) :: rest, p, q, h => by
    simp only [notifyLoop, childNotify] at h
    split at h
    · simp only [bind, Except.bind] at h
      have := notifyLoop_log rest h
      rw [this]
      split
      · simp only [Pool.addUpload]; split <;> rfl
      · rfl
    · cases h

theorem populate_log (repo : Repo) (o : Obj) : ∀ (cs : List Obj) (p : Pool), (populate repo o p cs).1.log = p.log
  | [], _ => rfl
  | c :: cs, p => by
    simp only [populate]; split
    · rw [populate_log repo o cs]; simp only [appendChild]; split <;> rfl
    · rfl

theorem queryChildren_log : ∀ (cs : List (Nat × Obj)) (p : Pool), (queryChildren p cs).log = p.log
  | [], _ => rfl
  | (_, c) :: cs, p => by
    simp only [queryChildren]; rw [queryChildren_log cs]; split
    · simp only [Pool.addQuery]; split <;> rfl
    · rfl

theorem addUpload_log (p : Pool) (o : Obj) : (p.addUpload o).log = p.log := by simp only [Pool.addUpload]; split <;> rfl
theorem addQuery_log (p : Pool) (o : Obj) : (p.addQuery o).log = p.log := by simp only [Pool.addQuery]; split <;> rfl

theorem checkChildren_log (repo : Repo) (p : Pool) (o : Obj) (code : Nat) : (checkChildren repo p o code).log = p.log := by
  have h := populate_log repo o (repo.refs o) p
  simp only [checkChildren]
  split
  · exact h
  · split
    · split
      · rw [addUpload_log]; exact h
      · exact h
    · rw [queryChildren_log]; exact h

theorem curlDone_log {repo : Repo} {mode : Mode} {p q : Pool} {o : Obj} {urlOk : Bool} {code : Nat}
    (h : curlDone repo mode p o urlOk code = .ok q) : q.log = p.log ∨ q.log = p.log ++ [.seen o] := by
  have hn : ∀ x : Pool, x.log = p.log ++ [.seen o] →
      (notifyParents x o >>= fun r => Except.ok (r.set o { r.objs o with busy := false })) = .ok q →
      q.log = p.log ++ [.seen o] := by
    intro x hx hr
    cases hnp : notifyParents x o with
    | error e => rw [hnp] at hr; cases hr
    | ok r =>
      rw [hnp] at hr
      simp only [bind, Except.bind, Except.ok.injEq] at hr
      rw [← hr, set_log, notifyLoop_log _ hnp, hx]
  unfold curlDone at h
  cases hop : (p.objs o).op with
  | presenceCheck =>
    simp only [hop] at h
    cases urlOk with
    | false => cases h; left; simp [presenceError, addQuery_log]
    | true =>
      simp only [Bool.not_true, Bool.false_eq_true, if_false] at h
      by_cases h200 : code = 200
      · rw [if_pos h200] at h
        by_cases hm : mode = .walkTree ∨ mode = .pushTree
        · rw [if_pos hm] at h; cases h; right; simp [checkChildren_log]
        · rw [if_neg hm] at h; exact Or.inr (hn _ rfl h)
      · rw [if_neg h200] at h
        by_cases h404 : code = 404
        · rw [if_pos h404] at h; cases h; left; simp [checkChildren_log]
        · rw [if_neg h404] at h; cases h; left; simp [presenceError, addQuery_log]
  | uploading =>
    simp only [hop] at h
    cases urlOk with
    | false => cases h; left; simp [uploadError, addUpload_log]
    | true =>
      simp only [Bool.not_true, Bool.false_eq_true, if_false] at h
      by_cases hok : code = 204 ∨ code = 409
      · rw [if_pos hok] at h; exact Or.inr (hn _ rfl h)
      · rw [if_neg hok] at h; cases h; left; simp [uploadError, addUpload_log]

theorem dry_step {repo : Repo} {mode : Mode} (hm : mode = .dryRun ∨ mode = .walkTree) {p q : Pool} {s : Step}
    (h : step repo mode p s = .ok q) (hp : ∀ o, .put o ∉ p.log) : ∀ o, .put o ∉ q.log := by
  cases s with
  | serverFailed => simp only [step, Except.ok.injEq] at h; rw [← h]; exact hp
  | done x urlOk code =>
    simp only [step] at h
    split at h
    · rcases curlDone_log h with h1 | h1 <;> rw [h1]
      · exact hp
      · intro o; simp [hp o]
    · simp only [Except.ok.injEq] at h; rw [← h]; exact hp
  | launch =>
    simp only [step, launch] at h
    split at h
    · simp only [makeTestRequest] at h
      split at h
      · cases h
      · simp only [Except.ok.injEq] at h; rw [← h]; intro o; simp [hp o]
    · split at h
      · simp only [Except.ok.injEq] at h; rw [← h]; exact hp
      · have hmode : ¬ (mode = .default ∨ mode = .pushTree) := by rcases hm with rfl | rfl <;> simp
        simp only [upload, if_neg hmode, bind, Except.bind, if_pos hm] at h
        rw [notifyLoop_log _ h]; exact hp

/-- A dry run, or a walk without push, never sends an object. -/
theorem C39_dry_run_sends_nothing {repo : Repo} {mode : Mode} (hm : mode = .dryRun ∨ mode = .walkTree) {root : Obj}
    {steps : List Step} {q : Pool} (h : run repo mode (start root) steps = .ok q) (o : Obj) : .put o ∉ q.log := by
  have key : ∀ (steps : List Step) {p : Pool}, (∀ o, .put o ∉ p.log) → run repo mode p steps = .ok q → ∀ o, .put o ∉ q.log := by
    intro steps
    induction steps with
    | nil => intro p hp h; simp only [run, Except.ok.injEq] at h; rw [← h]; exact hp
    | cons s ss ih =>
      intro p hp h
      simp only [run, bind, Except.bind] at h
      split at h
      · cases h
      · rename_i r hr; exact ih (dry_step hm hr hp) h
  exact key steps (by simp [start, Pool.addQuery]) h o

/-- A dry run that finds objects missing. -/
example : logOf (run exRepo .dryRun (start 0) [.launch, .done 0 true 404, .launch, .launch, .done 2 true 200, .done 1 true 404,
    .launch, .done 3 true 404, .launch, .launch, .launch]) = some [.head 0, .head 1, .head 2, .seen 2, .head 3] := by
  decide +kernel

/-! ## C40 -/

/-- C40: as long as the loop of a default push goes on, a request is queued or under way, if no object refers to
itself, directly or not. -/
theorem C40_never_stuck {repo : Repo} {root : Obj} {steps : List Step} {q : Pool}
    (rank : Obj → Nat) (hrank : ∀ o, ∀ c ∈ repo.refs o, rank c < rank o)
    (h : run repo .default (start root) steps = .ok q) (hg : goesOn .default root q = true) : q.idle = false := by
  obtain ⟨r, h1, h2⟩ := good_run steps (good_start (repo := repo) (root := root))
  rw [h] at h1; cases h1
  simp only [goesOn, Bool.and_eq_true, bne_iff_ne, ne_eq, Bool.not_eq_true'] at hg
  obtain ⟨hg1, hg2⟩ := hg
  -- an object that is missing waits for another one
  have key : ∀ n o, rank o < n → (q.objs o).presence = .missing ∨ (q.objs o).presence = .inProgress →
      ∃ x, x ∈ q.queries ∨ x ∈ q.uploads ∨ x ∈ q.running := by
    intro n
    induction n with
    | zero => intro o ho; omega
    | succ n ih =>
      intro o ho hp
      rcases hp with hp | hp
      · rcases h2.miss hg2 o hp with h3 | h3
        · obtain ⟨⟨s, c⟩, hc⟩ := List.exists_mem_of_ne_nil _ h3
          have h4 := h2.kids hg2 o s c hc
          simp only [false_or] at h4
          have h5 := hrank o c (h2.childRef o s c hc)
          exact ih c (by omega) h4
        · exact h3.elim
      · rcases h2.listed hg2 o hp with h3 | h3 | h3 | h3
        · exact ⟨o, Or.inl h3⟩
        · exact ⟨o, Or.inr (Or.inl h3)⟩
        · exact ⟨o, Or.inr (Or.inr h3)⟩
        · exact h3.elim
  have hroot : (q.objs root).presence = .missing ∨ (q.objs root).presence = .inProgress := by
    have h3 := h2.rootKnown
    revert h3 hg1
    cases (q.objs root).presence <;> simp
  obtain ⟨x, hx⟩ := key _ root (Nat.lt_succ_self _) hroot
  simp only [Pool.idle, Bool.and_eq_false_iff, List.isEmpty_eq_false_iff]
  rcases hx with hx | hx | hx
  · exact Or.inl (Or.inl (List.ne_nil_of_mem hx))
  · exact Or.inl (Or.inr (List.ne_nil_of_mem hx))
  · exact Or.inr (List.ne_nil_of_mem hx)

/-- When the loop ends without abort, the server has confirmed the commit. -/
theorem C40_end {repo : Repo} {root : Obj} {steps : List Step} {q : Pool}
    (h : run repo .default (start root) steps = .ok q) (hg : goesOn .default root q = false) (hs : q.stopped = false) :
    succeeded root q = true ∧ .seen root ∈ q.log := by
  have h1 : succeeded root q = true := by simpa [goesOn, hs, succeeded] using hg
  exact ⟨h1, C39_success h h1⟩

/-- Counts the launches and the responses that settle something, and the responses that do not. -/
def tally (repo : Repo) : Pool → List Step → Nat × Nat
  | _, [] => (0, 0)
  | p, s :: ss =>
    let rest := match step repo .default p s with
      | .ok q => tally repo q ss
      | .error _ => (0, 0)
    match s with
    | .launch => if p.queries ≠ [] ∨ p.uploads ≠ [] then (rest.1 + 1, rest.2) else rest
    | .done o urlOk code =>
      if o ∈ p.running then if Definite (p.objs o).op urlOk code then (rest.1 + 1, rest.2) else (rest.1, rest.2 + 1)
      else rest
    | .serverFailed => rest

/-- The distance of a whole commit from being on the server. -/
def total (p : Pool) (U : List Obj) : Nat := (U.map (mu p)).sum

theorem total_le {p q : Pool} : ∀ {U : List Obj}, (∀ x ∈ U, mu q x ≤ mu p x) → total q U ≤ total p U
  | [], _ => Nat.le_refl _
  | x :: U, h => by
    have h1 := h x (by simp)
    have h2 := total_le (p := p) (q := q) (U := U) (fun y hy => h y (by simp [hy]))
    simp only [total, List.map_cons, List.sum_cons] at h2 ⊢
    omega

theorem total_lt {p q : Pool} {o : Obj} : ∀ {U : List Obj}, o ∈ U → mu q o < mu p o → (∀ x ∈ U, mu q x ≤ mu p x) →
    total q U < total p U
  | x :: U, ho, hlt, h => by
    have h1 := h x (by simp)
    have hU : ∀ y ∈ U, mu q y ≤ mu p y := fun y hy => h y (by simp [hy])
    have h2 := total_le (p := p) (q := q) (U := U) hU
    rcases List.mem_cons.1 ho with rfl | ho
    · simp only [total, List.map_cons, List.sum_cons] at h2 ⊢; omega
    · have h3 := total_lt ho hlt hU
      simp only [total, List.map_cons, List.sum_cons] at h3 ⊢; omega

theorem total_succ {p q : Pool} {o : Obj} : ∀ {U : List Obj}, U.Nodup → mu q o ≤ mu p o + 1 →
    (∀ x ∈ U, x ≠ o → mu q x ≤ mu p x) → total q U ≤ total p U + 1
  | [], _, _, _ => by simp [total]
  | x :: U, hnd, hlt, h => by
    obtain ⟨hx, hnd⟩ := List.nodup_cons.1 hnd
    by_cases hxo : x = o
    · subst hxo
      have h2 := total_le (p := p) (q := q) (U := U) (fun y hy => h y (by simp [hy]) (by rintro rfl; exact hx hy))
      simp only [total, List.map_cons, List.sum_cons] at h2 ⊢; omega
    · have h1 := h x (by simp) hxo
      have h3 := total_succ (p := p) (q := q) hnd hlt (fun y hy => h y (by simp [hy]))
      simp only [total, List.map_cons, List.sum_cons] at h3 ⊢; omega

theorem tally_bound {repo : Repo} {root : Obj} {U : List Obj} (hnd : U.Nodup) (hU : ∀ x, Reach repo.refs root x → x ∈ U) :
    ∀ (steps : List Step) {p : Pool}, Good repo root p →
      (tally repo p steps).1 ≤ total p U + (tally repo p steps).2
  | [], p, h => by simp [tally]
  | s :: ss, p, h => by
    cases s with
    | serverFailed =>
      obtain ⟨q, h1, h2⟩ := good_step h .serverFailed
      have ih := tally_bound hnd hU ss h2
      have h3 : q = p.abort := by simp only [step, Except.ok.injEq] at h1; exact h1.symm
      have h4 : total q U ≤ total p U := total_le (fun x _ => by rw [h3]; exact mu_abort x)
      simp only [tally, h1]
      omega
    | launch =>
      obtain ⟨q, h1, h2, h3, h4⟩ := good_launch h
      have h1' : step repo .default p .launch = .ok q := h1
      have ih := tally_bound hnd hU ss h2
      have h5 : total q U ≤ total p U := total_le (fun x _ => h4 x)
      simp only [tally, h1']
      split
      · rename_i hne
        obtain ⟨o, ho, hlt⟩ := h3 hne
        have h6 : total q U < total p U := total_lt (hU o ho) hlt (fun x _ => h4 x)
        simp only; omega
      · omega
    | done o urlOk code =>
      by_cases ho : o ∈ p.running
      · obtain ⟨q, h1, h2, h3, h4, h5⟩ := good_done h ho urlOk code
        have h1' : step repo .default p (.done o urlOk code) = .ok q := by simp only [step, if_pos ho]; exact h1
        have ih := tally_bound hnd hU ss h2
        simp only [tally, h1', if_pos ho]
        split
        · rename_i hd
          have hoU := hU o (h.reach o (by rw [h.inProg o (Or.inr (Or.inr ho))]; decide))
          have h6 : total q U < total p U := total_lt hoU (h5 hd) (fun x _ => by
            by_cases hx : x = o
            · subst hx; exact Nat.le_of_lt (h5 hd)
            · exact h3 x hx)
          simp only; omega
        · have h6 : total q U ≤ total p U + 1 := total_succ hnd h4 (fun x _ hx => h3 x hx)
          simp only; omega
      · have h1' : step repo .default p (.done o urlOk code) = .ok p := by simp only [step, if_neg ho]
        have ih := tally_bound hnd hU ss h
        simp only [tally, h1', if_neg ho]
        exact ih

/-- A push is bounded: launches and settled requests are at most six for every object of the commit, plus one for
every response that settled nothing. With `C40_never_stuck`, a push to a server that fails finitely often ends. -/
theorem C40_bounded {repo : Repo} {root : Obj} {U : List Obj} (hnd : U.Nodup) (hU : ∀ x, Reach repo.refs root x → x ∈ U)
    (steps : List Step) :
    (tally repo (start root) steps).1 ≤ 6 * U.length + (tally repo (start root) steps).2 := by
  have h1 := tally_bound hnd hU steps (good_start (repo := repo) (root := root))
  have h2 : ∀ (V : List Obj), total (start root) V ≤ 6 * V.length := by
    intro V
    induction V with
    | nil => simp [total]
    | cons x V ih =>
      have h3 : mu (start root) x ≤ 6 := by
        simp only [mu]; split <;> (try omega)
        repeat' split
        all_goals omega
      simp only [total, List.map_cons, List.sum_cons, List.length_cons] at ih ⊢
      omega
  have := h2 U
  omega

/-- The example has a rank and a finite list of objects, and its counts. -/
example : (∀ o, ∀ c ∈ exRepo.refs o, (if c = 0 then 2 else if c = 1 then 1 else 0) < (if o = 0 then 2 else if o = 1 then 1 else 0)) ∧
    (∀ x, Reach exRepo.refs 0 x → x ∈ [0, 1, 2, 3]) ∧ tally exRepo (start 0) exSteps = (16, 2) := by
  refine ⟨?_, ?_, by decide +kernel⟩
  · intro o c hc
    simp only [exRepo] at hc
    split at hc
    · rename_i h; subst h; simp at hc; rcases hc with rfl | rfl <;> decide
    · split at hc
      · rename_i h; subst h; simp at hc; rcases hc with rfl | rfl <;> decide
      · simp at hc
  · intro x hx
    induction hx with
    | root => simp
    | step _ hc _ =>
      simp only [exRepo] at hc
      split at hc
      · simp at hc ⊢; grind
      · split at hc
        · simp at hc ⊢; grind
        · simp at hc

/-! ## C52 -/

/-- How a push ended: whether the loop would go on, whether it succeeded, whether it was aborted, and what was sent. -/
def ending (mode : Mode) (root : Obj) (r : Except Err Pool) : Option (Bool × Bool × Bool × List Event) :=
  match r with
  | .ok p => some (goesOn mode root p, succeeded root p, p.stopped, p.log)
  | .error _ => none

/-- C52 does not hold: the server has the file but not the commit that refers to it. A full-tree push finds that out
and ends, not aborted, without sending the commit; the same responses let the default push go on and send it. -/
theorem C52_missing_commit_not_sent :
    ending .pushTree 0 (run { refs := fun o => if o = 0 then [1] else [], has := fun _ => true } .pushTree (start 0)
      [.launch, .done 0 true 404, .launch, .done 1 true 200]) =
      some (false, false, false, [.head 0, .head 1, .seen 1]) ∧
    ending .default 0 (run { refs := fun o => if o = 0 then [1] else [], has := fun _ => true } .default (start 0)
      [.launch, .done 0 true 404, .launch, .done 1 true 200, .launch, .done 0 true 204]) =
      some (false, true, false, [.head 0, .head 1, .seen 1, .put 0, .seen 0]) := by
  decide +kernel

theorem step_pushTree {repo : Repo} {p : Pool} {s : Step}
    (hs : ∀ o u, s ≠ .done o u 200) : step repo .pushTree p s = step repo .default p s := by
  cases s with
  | launch => simp [step, launch, upload]
  | serverFailed => rfl
  | done o u code =>
    have : code ≠ 200 := by rintro rfl; exact hs o u rfl
    simp [step, curlDone, this]

theorem run_pushTree {repo : Repo} : ∀ {steps : List Step} {p : Pool}, (∀ o u, .done o u 200 ∉ steps) →
    run repo .pushTree p steps = run repo .default p steps
  | [], _, _ => rfl
  | s :: ss, p, hs => by
    simp only [run]
    rw [step_pushTree (fun o u h => hs o u (by simp [h]))]
    cases step repo .default p s with
    | error e => rfl
    | ok q => exact run_pushTree (fun o u h => hs o u (by simp [h]))

/-- C52, in part: if the server has none of the objects yet (no HEAD request is answered with 200), a full-tree push sends
children first, only objects of the commit, and when its loop ends without abort the commit is on the server. Missing: any
object that is already there, see `C52_missing_commit_not_sent`. -/
theorem C52_empty_server_partial {repo : Repo} {root : Obj} {steps : List Step} {q : Pool}
    (rank : Obj → Nat) (hrank : ∀ o, ∀ c ∈ repo.refs o, rank c < rank o)
    (h : run repo .pushTree (start root) steps = .ok q) (hs : ∀ o u, .done o u 200 ∉ steps) :
    Ordered repo.refs q.log ∧ (∀ o, .put o ∈ q.log → Reach repo.refs root o) ∧
      (goesOn .pushTree root q = false → q.stopped = false → succeeded root q = true ∧ .seen root ∈ q.log) := by
  rw [run_pushTree hs] at h
  refine ⟨C39_children_first h, fun o ho => C39_only_the_commit h ho, fun hg hst => ?_⟩
  have hidle : q.idle = true := by simpa [goesOn, hst] using hg
  apply C40_end h _ hst
  cases hd : goesOn .default root q with
  | false => rfl
  | true => rw [C40_never_stuck rank hrank h hd] at hidle; cases hidle

/-- A full-tree push to an empty server. -/
example : ending .pushTree 0 (run exRepo .pushTree (start 0) [.launch, .done 0 true 404, .launch, .launch, .done 2 true 404,
    .done 1 true 404, .launch, .done 3 true 404, .launch, .launch, .done 2 true 204, .done 3 true 204, .launch,
    .done 1 true 204, .launch, .done 0 true 204]) = some (false, true, false,
      [.head 0, .head 1, .head 2, .head 3, .put 2, .put 3, .seen 2, .seen 3, .put 1, .seen 1, .put 0, .seen 0]) := by
  decide +kernel

end Aktualizr.Treehub
