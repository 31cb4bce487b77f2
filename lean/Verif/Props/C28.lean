import Verif.Model.Queue

/-!
# C28, C29: the command queue and the flow-control token
-/

namespace Aktualizr.Queue

/-! ## What can be read off a log -/

/-- The tasks started, in order. -/
def starts (log : List Event) : List Nat := log.filterMap fun e => match e with | .started t => some t | _ => none
/-- The tasks dropped, in order. -/
def drops (log : List Event) : List Nat := log.filterMap fun e => match e with | .dropped t => some t | _ => none
/-- The tasks submitted, in order. -/
def submissions (log : List Event) : List Nat := log.filterMap fun e => match e with | .submitted t => some t | _ => none
/-- The task being executed. -/
def executing (log : List Event) : Option Nat :=
  log.foldl (fun r e => match e with | .started t => some t | .finished _ => none | _ => r) none
/-- Whether the queue has been paused and not resumed. -/
def isPaused (log : List Event) : Bool :=
  log.foldl (fun r e => match e with | .paused => true | .resumed => false | _ => r) false
/-- Whether an abort is under way. -/
def isAborting (log : List Event) : Bool :=
  log.foldl (fun r e => match e with | .abortBegins => true | .abortEnds => false | _ => r) false

/-- The tasks submitted that no abort has dropped since, nor been started: a second account of the queue. -/
def waitingTasks (log : List Event) : List Nat :=
  log.foldl (fun r e => match e with
    | .submitted t => r ++ [t]
    | .started t => r.filter (· != t)
    | .dropped t => r.filter (· != t)
    | _ => r) []

theorem foldl_snoc {α β : Type} (f : β → α → β) (b : β) (l : List α) (x : α) : (l ++ [x]).foldl f b = f (l.foldl f b) x := by
  simp

/-- A task may be started. -/
def MayStart (before : List Event) (t : Nat) : Prop :=
  executing before = none ∧ isPaused before = false ∧ isAborting before = false ∧ (waitingTasks before).head? = some t

/-- Every start happened when it was allowed. -/
def Disciplined (log : List Event) : Prop := ∀ pre t post, log = pre ++ .started t :: post → MayStart pre t

/-- Tasks are dropped only by an abort. -/
def DroppedByAbort (log : List Event) : Prop := ∀ pre t post, log = pre ++ .dropped t :: post → isAborting pre = true

structure Inv (s : State) : Prop where
  queue : s.queue = waitingTasks s.log
  fresh : ∀ t ∈ s.queue, t < s.next
  sorted : s.queue.Pairwise (· < ·)
  startsBelow : ∀ t ∈ starts s.log, ∀ u ∈ s.queue, t < u
  startsNext : ∀ t ∈ starts s.log, t < s.next
  startsSorted : (starts s.log).Pairwise (· < ·)
  exec : executing s.log = match s.worker with | .running t => some t | _ => none
  paused : isPaused s.log = s.paused
  abort1 : isAborting s.log = s.aborting.isSome
  abort2 : s.shutdown = s.aborting.isSome
  exited : s.worker = .exited → s.aborting = some .joining
  flushing : s.aborting = some .flushing → s.worker = .none
  token : s.aborting.isSome = true → s.token = .aborted
  token2 : s.aborting = none → s.token ≠ .aborted
  token3 : ∀ t, s.worker = .running t → s.aborting = none → (s.token = .paused ↔ s.paused = true)
  token4 : s.aborting = none → s.token = .paused → s.paused = true
  disciplined : Disciplined s.log
  dropped : DroppedByAbort s.log
  submitted : submissions s.log = List.range s.next
  account : ∀ t, t ∈ submissions s.log ↔ t ∈ starts s.log ∨ t ∈ drops s.log ∨ t ∈ s.queue
  dropsOnce : ∀ t ∈ drops s.log, t ∉ starts s.log ∧ t ∉ s.queue
  begun : s.begun = true → s.aborting.isSome = true ∨ 0 < s.owed ∨ s.worker = .waiting ∨ ∃ t, s.worker = .running t

theorem disciplined_snoc {log : List Event} {e : Event} (h : Disciplined log) (he : ∀ t, e = .started t → MayStart log t) :
    Disciplined (log ++ [e]) := by
  intro pre t post heq
  rcases List.eq_nil_or_concat post with rfl | ⟨post', z, rfl⟩
  · obtain ⟨h1, h2⟩ := List.append_inj' heq rfl
    simp only [List.cons.injEq, and_true] at h2
    subst h1
    exact he t h2
  · have : log ++ [e] = (pre ++ Event.started t :: post') ++ [z] := by simpa using heq
    obtain ⟨h1, -⟩ := List.append_inj' this rfl
    exact h pre t post' h1

theorem dropped_snoc {log : List Event} {e : Event} (h : DroppedByAbort log) (he : ∀ t, e = .dropped t → isAborting log = true) :
    DroppedByAbort (log ++ [e]) := by
  intro pre t post heq
  rcases List.eq_nil_or_concat post with rfl | ⟨post', z, rfl⟩
  · obtain ⟨h1, h2⟩ := List.append_inj' heq rfl
    simp only [List.cons.injEq, and_true] at h2
    subst h1
    exact he t h2
  · have : log ++ [e] = (pre ++ Event.dropped t :: post') ++ [z] := by simpa using heq
    obtain ⟨h1, -⟩ := List.append_inj' this rfl
    exact h pre t post' h1

theorem inv_init : Inv {} where
  queue := rfl
  fresh := by simp
  sorted := by simp
  startsBelow := by simp
  startsNext := by simp [starts]
  startsSorted := by simp [starts]
  exec := rfl
  paused := rfl
  abort1 := rfl
  abort2 := rfl
  exited := by simp
  flushing := by simp
  token := by simp
  token2 := by simp
  token3 := by simp
  token4 := by simp
  disciplined := by intro pre t post h; simp at h
  dropped := by intro pre t post h; simp at h
  submitted := rfl
  account := by simp [submissions, starts, drops]
  dropsOnce := by simp [drops]
  begun := by simp

theorem starts_snoc (log : List Event) (e : Event) : starts (log ++ [e]) = starts log ++ starts [e] := by simp [starts]
theorem drops_snoc (log : List Event) (e : Event) : drops (log ++ [e]) = drops log ++ drops [e] := by simp [drops]
theorem submissions_snoc (log : List Event) (e : Event) : submissions (log ++ [e]) = submissions log ++ submissions [e] := by
  simp [submissions]

theorem inv_enqueue {s : State} (h : Inv s) : Inv (step s .enqueue) where
  queue := by simp [step, waitingTasks, h.queue]
  fresh := by have := h.fresh; simp [step]; grind
  sorted := by
    have := h.fresh; simp only [step]; rw [List.pairwise_append]; exact ⟨h.sorted, by simp, by simpa using this⟩
  startsBelow := by have h1 := h.startsBelow; have h2 := h.startsNext; simp [step, starts]; simp [starts] at h1 h2; grind
  startsNext := by have h2 := h.startsNext; simp [step, starts]; simp [starts] at h2; grind
  startsSorted := by have h2 := h.startsSorted; simpa [step, starts_snoc, starts] using h2
  exec := by have := h.exec; simpa [step, executing] using this
  paused := by have := h.paused; simpa [step, isPaused] using this
  abort1 := by have := h.abort1; simpa [step, isAborting] using this
  abort2 := h.abort2
  exited := h.exited
  flushing := h.flushing
  token := h.token
  token2 := h.token2
  token3 := h.token3
  token4 := h.token4
  disciplined := disciplined_snoc h.disciplined (by simp)
  dropped := dropped_snoc h.dropped (by simp)
  submitted := by simp [step, submissions_snoc, h.submitted, List.range_succ]; simp [submissions]
  account := by
    intro t; have h1 := h.account t
    simp only [step, submissions_snoc, starts_snoc, drops_snoc]
    simp [submissions, starts, drops] at h1 ⊢; grind
  dropsOnce := by
    intro t ht
    have h3 := h.submitted
    have h1 := h.dropsOnce t (by simpa [step, drops_snoc, drops] using ht)
    have h2 : t ∈ submissions s.log := (h.account t).2 (Or.inr (Or.inl (by simpa [step, drops_snoc, drops] using ht)))
    rw [h3, List.mem_range] at h2
    simp [step, starts] at h1 ⊢
    grind
  begun := h.begun

theorem inv_log {s : State} (h : Inv s) (e : Event) (hs : starts [e] = []) (hd : drops [e] = []) (hsub : submissions [e] = [])
    (hw : ∀ l, waitingTasks (l ++ [e]) = waitingTasks l) (he : ∀ l, executing (l ++ [e]) = executing l)
    {s' : State} (hq : s'.queue = s.queue) (hn : s'.next = s.next) (hl : s'.log = s.log ++ [e]) (hwk : s'.worker = s.worker)
    (hp : isPaused (s.log ++ [e]) = s'.paused) (ha : isAborting (s.log ++ [e]) = s'.aborting.isSome)
    (h2 : s'.shutdown = s'.aborting.isSome) (hex : s'.worker = .exited → s'.aborting = some .joining)
    (hfl : s'.aborting = some .flushing → s'.worker = .none)
    (t1 : s'.aborting.isSome = true → s'.token = .aborted) (t2 : s'.aborting = none → s'.token ≠ .aborted)
    (t3 : ∀ t, s'.worker = .running t → s'.aborting = none → (s'.token = .paused ↔ s'.paused = true))
    (t4 : s'.aborting = none → s'.token = .paused → s'.paused = true)
    (hb : s'.begun = true → s'.aborting.isSome = true ∨ 0 < s'.owed ∨ s'.worker = .waiting ∨ ∃ t, s'.worker = .running t) :
    Inv s' where
  queue := by rw [hl, hw, hq]; exact h.queue
  fresh := by rw [hq, hn]; exact h.fresh
  sorted := by rw [hq]; exact h.sorted
  startsBelow := by rw [hl, hq, starts_snoc, hs, List.append_nil]; exact h.startsBelow
  startsNext := by rw [hl, hn, starts_snoc, hs, List.append_nil]; exact h.startsNext
  startsSorted := by rw [hl, starts_snoc, hs, List.append_nil]; exact h.startsSorted
  exec := by rw [hl, he, hwk]; exact h.exec
  paused := by rw [hl]; exact hp
  abort1 := by rw [hl]; exact ha
  abort2 := h2
  exited := hex
  flushing := hfl
  token := t1
  token2 := t2
  token3 := t3
  token4 := t4
  disciplined := by
    rw [hl]; refine disciplined_snoc h.disciplined ?_
    intro t ht; subst ht; simp [starts] at hs
  dropped := by
    rw [hl]; refine dropped_snoc h.dropped ?_
    intro t ht; subst ht; simp [drops] at hd
  submitted := by rw [hl, submissions_snoc, hsub, List.append_nil, hn]; exact h.submitted
  account := by rw [hl, submissions_snoc, starts_snoc, drops_snoc, hs, hd, hsub, hq]; simpa using h.account
  dropsOnce := by rw [hl, starts_snoc, drops_snoc, hs, hd, hq]; simpa using h.dropsOnce
  begun := hb

theorem inv_same {s s' : State} (h : Inv s) (hq : s'.queue = s.queue) (hn : s'.next = s.next) (hl : s'.log = s.log)
    (he : executing s.log = match s'.worker with | .running t => some t | _ => none)
    (hp : s'.paused = s.paused) (ha : s'.aborting.isSome = s.aborting.isSome)
    (h2 : s'.shutdown = s.shutdown) (hex : s'.worker = .exited → s'.aborting = some .joining)
    (hfl : s'.aborting = some .flushing → s'.worker = .none) (ht : s'.token = s.token)
    (t3 : ∀ t, s'.worker = .running t → s'.aborting = none → (s'.token = .paused ↔ s'.paused = true))
    (hb : s'.begun = true → s'.aborting.isSome = true ∨ 0 < s'.owed ∨ s'.worker = .waiting ∨ ∃ t, s'.worker = .running t) :
    Inv s' where
  queue := by rw [hl, hq]; exact h.queue
  fresh := by rw [hq, hn]; exact h.fresh
  sorted := by rw [hq]; exact h.sorted
  startsBelow := by rw [hl, hq]; exact h.startsBelow
  startsNext := by rw [hl, hn]; exact h.startsNext
  startsSorted := by rw [hl]; exact h.startsSorted
  exec := by rw [hl]; exact he
  paused := by rw [hl, hp]; exact h.paused
  abort1 := by rw [hl, ha]; exact h.abort1
  abort2 := by rw [h2, ha]; exact h.abort2
  exited := hex
  flushing := hfl
  token := by rw [ha, ht]; exact h.token
  token2 := by
    have := h.token2
    intro h6; rw [ht]; apply this
    rw [h6] at ha; cases hs : s.aborting with
    | none => rfl
    | some p => rw [hs] at ha; simp at ha
  token3 := t3
  token4 := by
    have := h.token4
    intro h6; rw [ht, hp]; apply this
    rw [h6] at ha; cases hs : s.aborting with
    | none => rfl
    | some p => rw [hs] at ha; simp at ha
  disciplined := by rw [hl]; exact h.disciplined
  dropped := by rw [hl]; exact h.dropped
  submitted := by rw [hl, hn]; exact h.submitted
  account := by rw [hl, hq]; exact h.account
  dropsOnce := by rw [hl, hq]; exact h.dropsOnce
  begun := hb


theorem none_of_not {o : Option Phase} (h : o.isSome = false) : o = none := by cases o <;> simp_all

theorem inv_pause {s : State} (h : Inv s) (b : Bool) : Inv (step s (.pause b)) := by
  have ht := h.token
  have ht2 := h.token2
  have htok : ∀ t : Token, (t.setPause b).1 = .paused → b = true ∨ t = .paused := by intro t; cases t <;> cases b <;> decide
  refine inv_log h (if b then .paused else .resumed) ?_ ?_ ?_ ?_ ?_ rfl rfl rfl rfl ?_ ?_ h.abort2 h.exited h.flushing ?_ ?_ ?_ ?_ h.begun
  · cases b <;> rfl
  · cases b <;> rfl
  · cases b <;> rfl
  · intro l; cases b <;> simp [waitingTasks]
  · intro l; cases b <;> simp [executing]
  · cases b <;> simp [isPaused, step]
  · have := h.abort1; cases b <;> simpa [isAborting, step] using this
  · intro h1
    have := ht h1
    simp only [step, this]; cases b <;> decide
  · intro h1
    have := ht2 h1
    simp only [step]
    revert this
    cases s.token <;> cases b <;> decide
  · intro t h1 h2
    have h3 := h.token3 t h1 h2
    have h4 := ht2 h2
    simp only [step]
    revert h4
    cases s.token <;> cases b <;> decide
  · intro h2 h3
    simp only [step] at h3 ⊢
    have h4 := ht2 h2
    revert h3 h4
    cases s.token <;> cases b <;> decide

theorem inv_abort {s : State} (h : Inv s) : Inv (step s .abort) := by
  simp only [step]
  split
  · rename_i ha
    refine inv_log h .abortBegins rfl rfl rfl ?_ ?_ rfl rfl rfl rfl ?_ ?_ rfl ?_ ?_ ?_ ?_ ?_ ?_ ?_
    · intro l; simp [waitingTasks]
    · intro l; simp [executing]
    · have := h.paused; simpa [isPaused] using this
    · simp [isAborting]
    · intro _; rfl
    · simp
    · intro _; simp only [Token.setAbort]; split
      · assumption
      · rfl
    · simp
    · simp
    · simp
    · intro _; simp
  · exact h

theorem inv_join {s : State} (h : Inv s) : Inv (step s .join) := by
  simp only [step]
  split
  · rename_i ha
    have hex : executing s.log = none := by
      rw [h.exec]; rcases ha.2 with h1 | h1 <;> rw [h1]
    refine inv_same h rfl rfl rfl hex rfl ?_ rfl ?_ ?_ rfl ?_ ?_
    · simp [ha.1]
    · simp
    · simp
    · simp
    · intro _; simp
  · exact h

theorem waiting_drops (l : List Event) : ∀ (q : List Nat), waitingTasks (l ++ q.map .dropped) = (waitingTasks l).filter (fun t => decide (t ∉ q))
  | [] => by simp only [List.map_nil, List.append_nil]; symm; rw [List.filter_eq_self]; simp
  | t :: q => by
    have h1 := waiting_drops (l ++ [.dropped t]) q
    simp only [List.append_assoc, List.singleton_append] at h1
    rw [List.map_cons, h1]
    have h2 : waitingTasks (l ++ [.dropped t]) = (waitingTasks l).filter (· != t) := by simp [waitingTasks]
    rw [h2, List.filter_filter]
    apply List.filter_congr
    intro x _
    by_cases hx : x = t <;> simp [hx]

theorem foldl_drops {β : Type} (f : β → Event → β) (hf : ∀ r t, f r (.dropped t) = r) (b : β) : ∀ (q : List Nat),
    (q.map Event.dropped).foldl f b = b
  | [] => rfl
  | t :: q => by rw [List.map_cons, List.foldl_cons, hf]; exact foldl_drops f hf b q

theorem disciplined_drops {l : List Event} (h : Disciplined l) : ∀ (q : List Nat), Disciplined (l ++ q.map .dropped)
  | [] => by simpa using h
  | t :: q => by
    have h1 := disciplined_drops (disciplined_snoc (e := .dropped t) h (by simp)) q
    simpa using h1

theorem dropped_drops {l : List Event} (h : DroppedByAbort l) (ha : isAborting l = true) : ∀ (q : List Nat), DroppedByAbort (l ++ q.map .dropped)
  | [] => by simpa using h
  | t :: q => by
    have h1 := dropped_drops (dropped_snoc (e := .dropped t) h (fun _ _ => ha)) (by simpa [isAborting] using ha) q
    simpa using h1

theorem starts_drops (q : List Nat) : starts (q.map .dropped) = [] := by
  simp [starts]
theorem submissions_drops (q : List Nat) : submissions (q.map .dropped) = [] := by
  simp [submissions]
theorem drops_drops : ∀ q : List Nat, drops (q.map .dropped) = q
  | [] => rfl
  | t :: q => by have := drops_drops q; simp [drops] at this ⊢; exact this

theorem inv_flush {s : State} (h : Inv s) : Inv (step s .flush) := by
  simp only [step]
  split
  · rename_i ha
    have hst : starts (s.log ++ s.queue.map .dropped ++ [.abortEnds]) = starts s.log := by
      rw [starts_snoc]; simp [starts]
    have hdr : drops (s.log ++ s.queue.map .dropped ++ [.abortEnds]) = drops s.log ++ s.queue := by
      rw [drops_snoc]
      have := drops_drops s.queue
      simp only [drops] at this ⊢
      simp only [List.filterMap_append, this]; simp
    have hsu : submissions (s.log ++ s.queue.map .dropped ++ [.abortEnds]) = submissions s.log := by
      rw [submissions_snoc]; simp [submissions]
    constructor
    case queue =>
      simp only
      have h1 : waitingTasks (s.log ++ s.queue.map .dropped ++ [.abortEnds]) = waitingTasks (s.log ++ s.queue.map .dropped) := by
        simp [waitingTasks]
      rw [h1, waiting_drops, ← h.queue]
      symm; rw [List.filter_eq_nil_iff]; simp
    case fresh => simp
    case sorted => simp
    case startsBelow => simp
    case startsNext => simp only [hst]; exact h.startsNext
    case startsSorted => simp only [hst]; exact h.startsSorted
    case exec =>
      have h1 := h.exec
      simp only [executing] at h1 ⊢
      rw [foldl_snoc, List.foldl_append, foldl_drops _ (by simp)]
      exact h1
    case paused =>
      have h1 := h.paused
      simp only [isPaused] at h1 ⊢
      rw [foldl_snoc, List.foldl_append, foldl_drops _ (by simp)]
      exact h1
    case abort1 => simp [isAborting]
    case abort2 => rfl
    case exited => have := h.flushing ha; simp [this]
    case flushing => simp
    case token => simp
    case token2 => simp [Token.reset]
    case token3 => have := h.flushing ha; simp [this]
    case token4 => simp [Token.reset]
    case disciplined => exact disciplined_snoc (disciplined_drops h.disciplined _) (by simp)
    case dropped => exact dropped_snoc (dropped_drops h.dropped (by rw [h.abort1, ha]; rfl) _) (by simp)
    case submitted => simp only [hsu]; exact h.submitted
    case account =>
      intro t; simp only [hsu, hst, hdr]; rw [h.account t]; simp
    case dropsOnce =>
      intro t ht
      simp only [hdr, hst] at ht ⊢
      refine ⟨?_, by simp⟩
      rcases List.mem_append.1 ht with h1 | h1
      · exact (h.dropsOnce t h1).1
      · intro h2; exact absurd (h.startsBelow t h2 t h1) (Nat.lt_irrefl _)
    case begun => intro _; right; left; simp
  · exact h

theorem inv_startThread {s : State} (h : Inv s) (ha : s.aborting = none) (owed : Nat) :
    Inv { startThread s with owed := owed, begun := true } := by
  have hex : s.worker ≠ .exited := by intro h1; have := h.exited h1; rw [ha] at this; cases this
  unfold startThread
  split
  · rename_i hw
    refine inv_same h rfl rfl rfl ?_ rfl rfl rfl ?_ ?_ rfl ?_ ?_
    · rw [h.exec, hw]
    · simp
    · simp [ha]
    · simp
    · simp
  · rename_i hw
    refine inv_same h rfl rfl rfl h.exec rfl rfl rfl h.exited h.flushing rfl h.token3 ?_
    intro _
    right; right
    revert hex hw
    cases s.worker <;> simp

theorem inv_run' {s : State} (h : Inv s) : Inv (step s .run) := by
  simp only [step]
  split
  · rename_i ha; exact inv_startThread h ha _
  · exact h

theorem inv_restart {s : State} (h : Inv s) : Inv (step s .restart) := by
  simp only [step]
  split
  · rename_i ha; exact inv_startThread h ha.1 _
  · exact h

theorem inv_exit {s : State} (h : Inv s) : Inv (step s .exit) := by
  simp only [step]
  split
  · rename_i ha
    have h2 : s.aborting.isSome = true := by rw [← h.abort2]; exact ha.2.2
    refine inv_same h rfl rfl rfl ?_ rfl rfl rfl ?_ ?_ rfl ?_ ?_
    · rw [h.exec, ha.1]
    · intro _
      cases hs : s.aborting with
      | none => rw [hs] at h2; cases h2
      | some ph =>
        cases ph with
        | joining => rfl
        | flushing => have := h.flushing hs; rw [ha.1] at this; cases this
    · intro h3; have := h.flushing h3; rw [ha.1] at this; cases this
    · simp
    · intro _; left; exact h2
  · exact h

theorem inv_finish {s : State} (h : Inv s) : Inv (step s .finish) := by
  simp only [step]
  split
  · rename_i t hw
    constructor
    case queue => have := h.queue; simpa [waitingTasks] using this
    case fresh => exact h.fresh
    case sorted => exact h.sorted
    case startsBelow => simpa [starts_snoc, starts] using h.startsBelow
    case startsNext => simpa [starts_snoc, starts] using h.startsNext
    case startsSorted => simpa [starts_snoc, starts] using h.startsSorted
    case exec => simp [executing]
    case paused => have := h.paused; simpa [isPaused] using this
    case abort1 => have := h.abort1; simpa [isAborting] using this
    case abort2 => exact h.abort2
    case exited => simp
    case flushing => intro h3; have := h.flushing h3; rw [hw] at this; cases this
    case token => exact h.token
    case token2 => exact h.token2
    case token3 => simp
    case token4 => exact h.token4
    case disciplined => exact disciplined_snoc h.disciplined (by simp)
    case dropped => exact dropped_snoc h.dropped (by simp)
    case submitted => simpa [submissions_snoc, submissions] using h.submitted
    case account =>
      intro t
      have := h.account t
      simpa [submissions_snoc, submissions, starts_snoc, starts, drops_snoc, drops] using this
    case dropsOnce =>
      intro t ht
      have := h.dropsOnce t (by simpa [drops_snoc, drops] using ht)
      simpa [starts_snoc, starts] using this
    case begun => intro _; simp
  · exact h

theorem inv_take {s : State} (h : Inv s) : Inv (step s .take) := by
  simp only [step]
  split
  · rename_i ha
    obtain ⟨hw, hr, hsd⟩ := ha
    have habn : s.aborting = none := none_of_not (by rw [← h.abort2]; exact hsd)
    split
    · rename_i t ts hq
      have hpa : s.paused = false := by
        simp only [State.ready, hsd, Bool.or_false, Bool.and_eq_true, Bool.not_eq_true'] at hr
        exact hr.2
      have hsorted := h.sorted
      have hbelow := h.startsBelow
      have hqe := h.queue
      rw [hq] at hsorted hbelow hqe
      have hlt := (List.pairwise_cons.1 hsorted).1
      constructor
      case queue =>
        simp only [waitingTasks, foldl_snoc]
        rw [show s.log.foldl _ [] = waitingTasks s.log from rfl, ← hqe]
        rw [List.filter_cons]
        simp only [bne_self_eq_false, Bool.false_eq_true, if_false]
        symm; rw [List.filter_eq_self]
        intro a ha; have := hlt a ha; simp; omega
      case fresh => intro u hu; exact h.fresh u (by rw [hq]; simp [hu])
      case sorted => exact (List.pairwise_cons.1 hsorted).2
      case startsBelow =>
        intro u hu v hv
        rw [starts_snoc] at hu
        rcases List.mem_append.1 hu with h1 | h1
        · exact hbelow u h1 v (by simp [hv])
        · simp [starts] at h1; subst h1; exact hlt v hv
      case startsNext =>
        intro u hu
        rw [starts_snoc] at hu
        rcases List.mem_append.1 hu with h1 | h1
        · exact h.startsNext u h1
        · simp [starts] at h1; subst h1; exact h.fresh u (by rw [hq]; simp)
      case startsSorted =>
        simp only [starts_snoc]
        rw [List.pairwise_append]
        refine ⟨h.startsSorted, by simp [starts], ?_⟩
        intro a ha b hb
        simp [starts] at hb; subst hb
        exact hbelow a ha b (by simp)
      case exec => simp [executing]
      case paused => have := h.paused; simpa [isPaused] using this
      case abort1 => have := h.abort1; simpa [isAborting] using this
      case abort2 => exact h.abort2
      case exited => simp
      case flushing => intro h3; rw [habn] at h3; cases h3
      case token => exact h.token
      case token2 => exact h.token2
      case token3 =>
        intro u _ h2
        constructor
        · intro h3; exact h.token4 h2 h3
        · intro h3; rw [hpa] at h3; cases h3
      case token4 => exact h.token4
      case disciplined =>
        refine disciplined_snoc h.disciplined ?_
        intro u hu
        simp only [Event.started.injEq] at hu
        subst hu
        refine ⟨by rw [h.exec, hw], by rw [h.paused]; exact hpa, by rw [h.abort1, habn]; rfl, by rw [← hqe]; rfl⟩
      case dropped => exact dropped_snoc h.dropped (by simp)
      case submitted => simpa [submissions_snoc, submissions] using h.submitted
      case account =>
        intro u
        have := h.account u
        rw [hq] at this
        simp only [submissions_snoc, starts_snoc, drops_snoc]
        simp [submissions, starts, drops] at this ⊢
        rw [this]; grind
      case dropsOnce =>
        intro u hu
        have := h.dropsOnce u (by simpa [drops_snoc, drops] using hu)
        rw [hq] at this
        simp only [starts_snoc]
        simp [starts] at this ⊢
        grind
      case begun => intro _; right; right; right; exact ⟨t, rfl⟩
    · exact h
  · exact h

theorem inv_step {s : State} (h : Inv s) (x : Step) : Inv (step s x) := by
  cases x with
  | enqueue => exact inv_enqueue h
  | pause b => exact inv_pause h b
  | abort => exact inv_abort h
  | join => exact inv_join h
  | flush => exact inv_flush h
  | run => exact inv_run' h
  | restart => exact inv_restart h
  | take => exact inv_take h
  | finish => exact inv_finish h
  | exit => exact inv_exit h

theorem inv_run : ∀ (xs : List Step) {s : State}, Inv s → Inv (run s xs)
  | [], _, h => h
  | x :: xs, _, h => inv_run xs (inv_step h x)

theorem reachable (xs : List Step) : Inv (run {} xs) := inv_run xs inv_init

/-! ## C28 -/

/-- An execution with a pause and an abort. -/
def exRun : List Step :=
  [.run, .enqueue, .enqueue, .take, .pause true, .finish, .take, .enqueue, .pause false, .take, .abort, .enqueue, .take, .finish,
   .exit, .join, .enqueue, .flush, .enqueue, .restart, .take, .finish]

example : (run {} exRun).log = [.submitted 0, .submitted 1, .started 0, .paused, .finished 0, .submitted 2, .resumed, .started 1,
    .abortBegins, .submitted 3, .finished 1, .submitted 4, .dropped 2, .dropped 3, .dropped 4, .abortEnds, .submitted 5,
    .started 5, .finished 5] := by decide +kernel

/-- C28: over all interleavings, a command is started only when no other one is being executed, the queue is not paused,
no abort is under way, and it is the one that has been waiting longest. -/
theorem C28_disciplined (xs : List Step) : Disciplined (run {} xs).log := (reachable xs).disciplined

/-- Commands are started in the order in which they were submitted, and none twice. -/
theorem C28_in_order (xs : List Step) :
    (starts (run {} xs).log).Pairwise (· < ·) ∧ submissions (run {} xs).log = List.range (submissions (run {} xs).log).length := by
  have h := (reachable xs).submitted
  exact ⟨(reachable xs).startsSorted, by rw [h]; simp⟩

/-- Every command submitted has been started, or dropped, or is waiting, and only one of these. -/
theorem C28_accounted (xs : List Step) {t : Nat} (ht : t ∈ submissions (run {} xs).log) :
    (t ∈ starts (run {} xs).log ∧ t ∉ drops (run {} xs).log ∧ t ∉ waitingTasks (run {} xs).log) ∨
    (t ∉ starts (run {} xs).log ∧ t ∈ drops (run {} xs).log ∧ t ∉ waitingTasks (run {} xs).log) ∨
    (t ∉ starts (run {} xs).log ∧ t ∉ drops (run {} xs).log ∧ t ∈ waitingTasks (run {} xs).log) := by
  have h := reachable xs
  rw [← h.queue]
  have h1 := (h.account t).1 ht
  have h2 := h.dropsOnce t
  have h3 : t ∈ starts (run {} xs).log → t ∉ (run {} xs).queue := fun hs hq => Nat.lt_irrefl _ (h.startsBelow t hs t hq)
  grind

/-- Commands are dropped only by an abort. -/
theorem C28_dropped_by_abort (xs : List Step) : DroppedByAbort (run {} xs).log := (reachable xs).dropped

/-- When an abort is over, nothing that was submitted before is waiting any more. -/
theorem C28_abort_flushes (xs : List Step) {pre post : List Event} (h : (run {} xs).log = pre ++ .abortEnds :: post) :
    ∀ t ∈ waitingTasks (run {} xs).log, t ∉ submissions pre := by
  have key : ∀ (xs : List Step) {s : State}, Inv s → (∀ pre post, s.log = pre ++ .abortEnds :: post → ∀ t ∈ s.queue, t ∉ submissions pre) →
      ∀ pre post, (run s xs).log = pre ++ .abortEnds :: post → ∀ t ∈ (run s xs).queue, t ∉ submissions pre := by
    intro xs
    induction xs with
    | nil => intro s _ h; exact h
    | cons x xs ih =>
      intro s hi h
      apply ih (inv_step hi x)
      -- one step
      have snoc : ∀ (l : List Event) (e : Event), e ≠ .abortEnds → ∀ pre post, l ++ [e] = pre ++ .abortEnds :: post →
          ∃ post', l = pre ++ .abortEnds :: post' := by
        intro l e he pre post heq
        rcases List.eq_nil_or_concat post with rfl | ⟨post', z, rfl⟩
        · obtain ⟨-, h2⟩ := List.append_inj' heq rfl
          simp only [List.cons.injEq, and_true] at h2; exact absurd h2 he
        · have : l ++ [e] = (pre ++ Event.abortEnds :: post') ++ [z] := by simpa using heq
          exact ⟨post', (List.append_inj' this rfl).1⟩
      have quiet : ∀ (e : Event), e ≠ .abortEnds → ∀ q : List Nat, (∀ t ∈ q, t ∈ s.queue) →
          ∀ pre post, s.log ++ [e] = pre ++ .abortEnds :: post → ∀ t ∈ q, t ∉ submissions pre := by
        intro e he q hq pre post heq t ht
        obtain ⟨post', h1⟩ := snoc _ _ he _ _ heq
        exact h pre post' h1 t (hq t ht)
      cases x with
      | enqueue =>
        intro pre post heq t ht
        obtain ⟨post', h1⟩ := snoc _ _ (by simp) _ _ heq
        rcases List.mem_append.1 ht with h2 | h2
        · exact h pre post' h1 t h2
        · have h3 : t = s.next := by simpa using h2
          intro h4
          have h5 : t ∈ submissions s.log := by rw [h1]; simp [submissions] at h4 ⊢; exact Or.inl h4
          rw [hi.submitted, List.mem_range] at h5
          omega
      | pause b => exact quiet _ (by cases b <;> simp) _ (fun _ h => h)
      | abort =>
        simp only [step]; split
        · exact quiet _ (by simp) _ (fun _ h => h)
        · exact h
      | join =>
        simp only [step]; split
        · exact h
        · exact h
      | flush =>
        simp only [step]; split
        · intro pre post _ t ht; simp at ht
        · exact h
      | run =>
        simp only [step, startThread]; split
        · split <;> exact h
        · exact h
      | restart =>
        simp only [step, startThread]; split
        · split <;> exact h
        · exact h
      | take =>
        simp only [step]; split
        · split
          · rename_i t ts hq
            exact quiet _ (by simp) _ (fun u hu => by rw [hq]; simp [hu])
          · exact h
        · exact h
      | finish =>
        simp only [step]; split
        · exact quiet _ (by simp) _ (fun _ h => h)
        · exact h
      | exit =>
        simp only [step]; split
        · exact h
        · exact h
  rw [← (reachable xs).queue]
  exact key xs inv_init (by intro pre post h; simp at h) pre post h

/-- Once the thread has been started, a command that waits at the head of the queue is the next to run, as soon as nothing
runs, nothing is aborted and the queue is not paused. -/
theorem C28_next_runs (xs : List Step) {t : Nat} {ts : List Nat} (hb : (run {} xs).begun = true)
    (hw : waitingTasks (run {} xs).log = t :: ts) (he : executing (run {} xs).log = none)
    (hp : isPaused (run {} xs).log = false) (ha : isAborting (run {} xs).log = false) :
    ∃ ys, (∀ y ∈ ys, y = .restart ∨ y = .take) ∧ (run (run {} xs) ys).log = (run {} xs).log ++ [.started t] := by
  have h := reachable xs
  generalize run {} xs = s at *
  have hq : s.queue = t :: ts := by rw [h.queue]; exact hw
  have habn : s.aborting = none := none_of_not (by rw [← h.abort1]; exact ha)
  have hsd : s.shutdown = false := by rw [h.abort2, habn]; rfl
  have hpa : s.paused = false := by rw [← h.paused]; exact hp
  have hrun : ∀ u, s.worker ≠ .running u := by
    intro u hu; have := h.exec; rw [hu, he] at this; cases this
  have take : ∀ s' : State, s'.worker = .waiting → s'.queue = s.queue → s'.paused = s.paused → s'.shutdown = s.shutdown →
      s'.log = s.log → (step s' .take).log = s.log ++ [.started t] := by
    intro s' h1 h2 h3 h4 h5
    have hr : s'.ready = true := by simp [State.ready, h2, hq, h3, hpa]
    simp only [step]
    rw [if_pos ⟨h1, hr, by rw [h4]; exact hsd⟩]
    rw [h2, hq]
    simp only [h5]
  rcases h.begun hb with h1 | h1 | h1 | ⟨u, h1⟩
  · rw [habn] at h1; cases h1
  · refine ⟨[.restart, .take], by simp, ?_⟩
    simp only [run]
    have hst : step s .restart = { startThread s with owed := s.owed - 1, begun := true } := by
      simp only [step]; rw [if_pos ⟨habn, h1⟩]
    rw [hst]
    apply take
    · simp only [startThread]
      split
      · rfl
      · rename_i h2
        have hex : s.worker ≠ .exited := by intro h1; have := h.exited h1; rw [habn] at this; cases this
        revert hex h2 hrun
        cases s.worker <;> simp
    all_goals (simp only [startThread]; split <;> rfl)
  · refine ⟨[.take], by simp, ?_⟩
    simp only [run]
    exact take s h1 rfl rfl rfl rfl
  · exact absurd h1 (hrun u)

/-- An abort comes to its end as soon as the command being executed has ended, also when the queue is paused. -/
theorem C28_abort_ends (xs : List Step) (ha : isAborting (run {} xs).log = true) :
    ∃ ys, (∀ y ∈ ys, y = .finish ∨ y = .exit ∨ y = .join ∨ y = .flush) ∧
      isAborting (run (run {} xs) ys).log = false ∧ waitingTasks (run (run {} xs) ys).log = [] := by
  have h := reachable xs
  generalize run {} xs = s at *
  have hsome : s.aborting.isSome = true := by rw [← h.abort1]; exact ha
  have hsd : s.shutdown = true := by rw [h.abort2]; exact hsome
  have flush : ∀ s' : State, Inv s' → s'.aborting = some .flushing → isAborting (step s' .flush).log = false ∧
      waitingTasks (step s' .flush).log = [] := by
    intro s' hi h1
    have hi' := inv_flush hi
    have h2 : (step s' .flush).aborting = none := by simp only [step]; rw [if_pos h1]
    have h3 : (step s' .flush).queue = [] := by simp only [step]; rw [if_pos h1]
    exact ⟨by rw [hi'.abort1, h2]; rfl, by rw [← hi'.queue]; exact h3⟩
  have join : ∀ s' : State, Inv s' → s'.aborting = some .joining → s'.worker = .none ∨ s'.worker = .exited →
      isAborting (run s' [.join, .flush]).log = false ∧ waitingTasks (run s' [.join, .flush]).log = [] := by
    intro s' hi h1 h2
    refine flush _ (inv_join hi) ?_
    simp only [step]; rw [if_pos ⟨h1, h2⟩]
  have exit : ∀ s' : State, Inv s' → s'.aborting = some .joining → s'.worker = .waiting → s'.shutdown = true →
      isAborting (run s' [.exit, .join, .flush]).log = false ∧ waitingTasks (run s' [.exit, .join, .flush]).log = [] := by
    intro s' hi h1 h2 h3
    have h4 : step s' .exit = { s' with worker := .exited } := by
      simp only [step]; rw [if_pos ⟨h2, by simp [State.ready, h3], h3⟩]
    refine join (step s' .exit) (inv_exit hi) (by rw [h4]; exact h1) (by rw [h4]; exact Or.inr rfl)
  cases hab : s.aborting with
  | none => rw [hab] at hsome; cases hsome
  | some ph =>
    cases ph with
    | flushing => exact ⟨[.flush], by simp, flush s h hab⟩
    | joining =>
      cases hw : s.worker with
      | none => exact ⟨[.join, .flush], by simp, join s h hab (Or.inl hw)⟩
      | exited => exact ⟨[.join, .flush], by simp, join s h hab (Or.inr hw)⟩
      | waiting => exact ⟨[.exit, .join, .flush], by simp, exit s h hab hw hsd⟩
      | running t =>
        refine ⟨[.finish, .exit, .join, .flush], by simp, ?_⟩
        have h4 : step s .finish = { s with worker := .waiting, log := s.log ++ [.finished t] } := by
          simp only [step, hw]
        exact exit (step s .finish) (inv_finish h) (by rw [h4]; exact hab) (by rw [h4]) (by rw [h4]; exact hsd)

/-- States that meet the hypotheses of the last two theorems. -/
example : (run {} [.run, .enqueue, .enqueue, .pause true, .pause false]).begun = true ∧
    waitingTasks (run {} [.run, .enqueue, .enqueue, .pause true, .pause false]).log = [0, 1] ∧
    executing (run {} [.run, .enqueue, .enqueue, .pause true, .pause false]).log = none ∧
    isPaused (run {} [.run, .enqueue, .enqueue, .pause true, .pause false]).log = false ∧
    isAborting (run {} [.run, .enqueue, .enqueue, .pause true, .pause false]).log = false ∧
    isAborting (run {} [.run, .enqueue, .take, .pause true, .abort, .enqueue]).log = true := by decide +kernel

/-- An abort does not undo a pause: although the token is running again, commands submitted afterwards are not started
until the queue is resumed. -/
theorem C28_abort_stays_paused :
    (run {} [.run, .pause true, .abort, .exit, .join, .flush, .restart, .enqueue, .take]).log =
      [.paused, .abortBegins, .abortEnds, .submitted 0] ∧
    (run {} [.run, .pause true, .abort, .exit, .join, .flush, .restart, .enqueue, .take]).token = .running := by
  decide +kernel

/-! ## C29 -/

/-- The calls that change a token. -/
inductive Call where
  | setPause (b : Bool) | setAbort | reset
  deriving DecidableEq, Repr

def Token.call (t : Token) : Call → Token
  | .setPause b => (t.setPause b).1
  | .setAbort => t.setAbort.1
  | .reset => t.reset

/-- The calls since the last reset. -/
def sinceReset : List Call → List Call
  | [] => []
  | c :: cs => if Call.reset ∈ cs then sinceReset cs else if c = .reset then cs else c :: cs

/-- What a token should be after a history: aborted if aborted since the last reset; otherwise what was last asked for. -/
def expected (calls : List Call) : Token :=
  if Call.setAbort ∈ sinceReset calls then .aborted
  else if (sinceReset calls).getLast? = some (.setPause true) then .paused
  else .running

theorem sinceReset_snoc (cs : List Call) (c : Call) :
    sinceReset (cs ++ [c]) = if c = .reset then [] else sinceReset cs ++ [c] := by
  induction cs with
  | nil => simp only [List.nil_append, sinceReset]; split <;> simp_all
  | cons d cs ih =>
    simp only [List.cons_append, sinceReset, List.mem_append, List.mem_singleton]
    by_cases hc : c = .reset
    · subst hc; simp [ih]
    · simp only [Ne.symm hc, or_false, ih, if_neg hc]
      split
      · rfl
      · split <;> simp

theorem rev_ind {α : Type} {P : List α → Prop} (h0 : P []) (h1 : ∀ l x, P l → P (l ++ [x])) (l : List α) : P l := by
  rw [← List.reverse_reverse l]
  induction l.reverse with
  | nil => exact h0
  | cons x r ih => rw [List.reverse_cons]; exact h1 _ x ih

/-- C29: after every sequence of calls a token is aborted, paused or running as expected: an abort lasts until the next
reset, whatever calls of pause and resume follow. -/
theorem C29_state (calls : List Call) : calls.foldl Token.call .running = expected calls := by
  induction calls using rev_ind with
  | h0 => rfl
  | h1 cs c ih =>
    rw [foldl_snoc, ih]
    unfold expected
    rw [sinceReset_snoc]
    cases c with
    | reset => simp [Token.call, Token.reset]
    | setAbort =>
      simp only [reduceCtorEq, if_false, List.mem_append, List.mem_singleton, or_true, if_true, Token.call]
      have h1 : ∀ t : Token, t.setAbort.1 = .aborted := by intro t; cases t <;> rfl
      exact h1 _
    | setPause b =>
      simp only [reduceCtorEq, if_false, List.mem_append, List.mem_singleton, or_false, Token.call, List.getLast?_concat,
        Option.some.injEq, Call.setPause.injEq]
      by_cases h1 : Call.setAbort ∈ sinceReset cs
      · simp only [h1, if_true]; cases b <;> rfl
      · simp only [h1, if_false]
        by_cases h2 : (sinceReset cs).getLast? = some (.setPause true)
        · simp only [h2, if_true]; cases b <;> simp [Token.setPause]
        · simp only [h2, if_false]; cases b <;> simp [Token.setPause]

/-- An aborted token lets nobody continue and keeps nobody waiting, until it is reset. -/
theorem C29_abort_sticky (before after : List Call) (h : Call.reset ∉ after) (blocking : Bool) :
    ((before ++ .setAbort :: after).foldl Token.call .running).canContinue blocking = some false := by
  have key : ∀ (after : List Call), Call.reset ∉ after → after.foldl Token.call .aborted = .aborted := by
    intro l
    induction l with
    | nil => intro _; rfl
    | cons c l ih =>
      intro hl
      simp only [List.mem_cons, not_or] at hl
      rw [List.foldl_cons]
      cases c with
      | reset => exact absurd rfl hl.1
      | setAbort => exact ih hl.2
      | setPause b => cases b <;> exact ih hl.2
  rw [List.foldl_append, List.foldl_cons]
  have h1 : ∀ t : Token, t.call .setAbort = .aborted := by intro t; cases t <;> rfl
  rw [h1, key after h]
  cases blocking <;> rfl

/-- `setPause` and `setAbort` report whether they changed anything; continuing is allowed exactly when running, and a caller
sleeps exactly when it asked to and the token is paused. -/
theorem C29_reports (t : Token) (b : Bool) :
    ((t.setPause b).2 = true ↔ (t.setPause b).1 ≠ t) ∧ (t.setAbort.2 = true ↔ t.setAbort.1 ≠ t) ∧
    (t.canContinue b = some true ↔ t = .running) ∧ (t.canContinue b = none ↔ b = true ∧ t = .paused) := by
  cases t <;> cases b <;> decide

/-- `pause` reports whether the queue was in the other state. -/
theorem C29_pause_reports (xs : List Step) (b : Bool) :
    pauseResult (run {} xs) b = true ↔ isPaused (run (run {} xs) [.pause b]).log ≠ isPaused (run {} xs).log := by
  have h := reachable xs
  have h2 : isPaused (run (run {} xs) [.pause b]).log = b := by cases b <;> simp [run, step, isPaused]
  rw [h2, h.paused]
  simp only [pauseResult, bne_iff_ne, ne_eq]
  exact ⟨fun h1 h3 => h1 h3.symm, fun h1 h3 => h1 h3.symm⟩

/-- The command being executed sees what was asked for: its token is aborted while an abort is under way, and otherwise
paused exactly when the queue is. -/
theorem C29_command_sees (xs : List Step) {t : Nat} (h : executing (run {} xs).log = some t) :
    (isAborting (run {} xs).log = true → (run {} xs).token = .aborted) ∧
    (isAborting (run {} xs).log = false → ((run {} xs).token = .paused ↔ isPaused (run {} xs).log = true) ∧
      (run {} xs).token ≠ .aborted) := by
  have hi := reachable xs
  generalize run {} xs = s at *
  have hw : ∃ u, s.worker = .running u := by
    have := hi.exec
    rw [h] at this
    cases hw : s.worker <;> rw [hw] at this <;> simp_all
  obtain ⟨u, hw⟩ := hw
  rw [hi.abort1, hi.paused]
  refine ⟨fun h1 => hi.token h1, fun h1 => ?_⟩
  have h2 := none_of_not h1
  exact ⟨hi.token3 u hw h2, hi.token2 h2⟩

example : executing (run {} [.run, .pause true, .abort, .exit, .join, .flush, .restart, .enqueue, .pause false, .take, .pause true]).log = some 0 ∧
    (run {} [.run, .pause true, .abort, .exit, .join, .flush, .restart, .enqueue, .pause false, .take, .pause true]).token = .paused := by
  decide +kernel

end Aktualizr.Queue
