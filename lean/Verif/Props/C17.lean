import Verif.Model.Reports
import Verif.Lemmas.Monad

/-!
# C17: report events stay stored until acknowledged

A history is any list of enqueues and flushes, each flush with any answer of the server and any
point at which the process dies. `enqueued ops` are the events in the order they were handed to
the queue. An answer acknowledges a batch when it is OK or 404.

* `C17_nothing_lost`: what has left the table is exactly a sequence of acknowledged batches, in
  order, each event once; the rest of what was enqueued is in the table.
* `C17_sent_in_order`: every batch posted is a run of consecutive events starting right after
  acknowledged ones.
* `C17_once_acknowledged_partial`: without a crash between answer and deletion, the acknowledged
  batches and the table together are exactly the enqueued events: nothing acknowledged is sent
  again.
* `C17_crash_resends`: with such a crash the acknowledged batch is sent again.

The texts must parse (they are written by the JSON writer), and fewer than 2^63 - 1 events be
enqueued in all.
-/

namespace Aktualizr.Spec

open Aktualizr.Reports (Answer Op World)

/-- The events handed to the queue. -/
def enqueued : List Op → List String
  | [] => []
  | .enqueue e :: r => e :: enqueued r
  | .flush .. :: r => enqueued r

/-- The server took the batch, or does not want any. -/
def Acks (a : Answer) : Prop := (a.curlOk = true ∧ 200 ≤ a.status ∧ a.status < 400) ∨ a.status = 404

instance (a : Answer) : Decidable (Acks a) := by unfold Acks; infer_instance

/-- The batches which were acknowledged, in order. -/
def ackedBatches (posts : List (List String × Answer)) : List (List String) :=
  (posts.filter (fun p => decide (Acks p.2))).map Prod.fst

/-- The texts stored. -/
def storedTexts (w : World) : List String := w.store.rows.map Prod.snd

/-- No flush dies. -/
def NoCrash (ops : List Op) : Prop := ∀ server a fuel, Op.flush server a fuel ∈ ops → 2 ≤ fuel

/-- The queue does not run out of keys. -/
def KeysSuffice (ops : List Op) : Prop := (enqueued ops).length < 9223372036854775807

end Aktualizr.Spec

namespace Aktualizr.Reports

open Aktualizr.Spec

theorem loadLoop_all {parses : String → Bool} : ∀ (rows : List (Int × String)) (m : Int),
    (∀ r ∈ rows, parses r.2 = true) →
    (loadLoop parses rows m).1 = rows.map Prod.snd ∧ m ≤ (loadLoop parses rows m).2 ∧
    ∀ r ∈ rows, r.1 ≤ (loadLoop parses rows m).2
  | [], m, _ => by simp [loadLoop]
  | (id, t) :: rest, m, h => by
    have ht : parses t = true := h (id, t) (by simp)
    obtain ⟨h1, h2, h3⟩ := loadLoop_all (parses := parses) rest (if m > id then m else id)
      (fun r hr => h r (by simp [hr]))
    simp only [loadLoop, ht, if_true, List.map_cons, h1, true_and]
    refine ⟨?_, ?_⟩
    · split at h2 <;> rename_i hc <;> simp only [hc, if_true, if_false] at h2 ⊢ <;> omega
    · intro r hr
      rcases List.mem_cons.1 hr with rfl | hr
      · split at h2 <;> rename_i hc <;> simp only [hc, if_true, if_false] at h2 ⊢ <;> omega
      · exact h3 r hr

/-- The largest id seen is that of a row that parses, or the one given. -/
theorem loadLoop_max {parses : String → Bool} : ∀ (rows : List (Int × String)) (m : Int),
    (loadLoop parses rows m).1 = (rows.filter (fun r => parses r.2)).map Prod.snd ∧
    m ≤ (loadLoop parses rows m).2 ∧
    (∀ r ∈ rows, parses r.2 = true → r.1 ≤ (loadLoop parses rows m).2) ∧
    ((loadLoop parses rows m).2 = m ∨ ∃ r ∈ rows, parses r.2 = true ∧ r.1 = (loadLoop parses rows m).2)
  | [], m => by simp [loadLoop]
  | (id, t) :: rest, m => by
    by_cases ht : parses t = true
    · obtain ⟨h1, h2, h3, h4⟩ := loadLoop_max (parses := parses) rest (if m > id then m else id)
      simp only [loadLoop, ht, if_true, List.filter_cons, List.map_cons, h1, true_and]
      generalize (loadLoop parses rest (if m > id then m else id)).2 = k at *
      refine ⟨?_, ?_, ?_⟩
      · split at h2 <;> omega
      · intro r hr hp
        rcases List.mem_cons.1 hr with rfl | hr
        · simp only; split at h2 <;> omega
        · exact h3 r hr hp
      · rcases h4 with h4 | ⟨r, hr, hp, he⟩
        · split at h4
          · exact .inl h4
          · exact .inr ⟨(id, t), by simp, ht, h4.symm⟩
        · exact .inr ⟨r, by simp [hr], hp, he⟩
    · obtain ⟨h1, h2, h3, h4⟩ := loadLoop_max (parses := parses) rest m
      simp only [loadLoop, ht, List.filter_cons, if_false, h1, Bool.false_eq_true, true_and]
      refine ⟨h2, ?_, ?_⟩
      · intro r hr hp
        rcases List.mem_cons.1 hr with rfl | hr
        · exact absurd hp ht
        · exact h3 r hr hp
      · rcases h4 with h4 | ⟨r, hr, hp, he⟩
        · exact .inl h4
        · exact .inr ⟨r, by simp [hr], hp, he⟩

theorem acks_iff (a : Answer) : (a.isOk || a.status == 404) = decide (Acks a) := by
  apply Bool.eq_iff_iff.2
  simp only [Answer.isOk, Acks, Bool.or_eq_true, Bool.and_eq_true, decide_eq_true_eq,
    beq_iff_eq, and_assoc]
  exact decide_eq_true_iff.symm

/-- What a flush does. -/
theorem flush_cases {parses : String → Bool} {server : Bool} {a : Answer} {w : World}
    (hp : ∀ r ∈ w.store.rows, parses r.2 = true) :
    ((flushQueue parses server a w).2.store = w.store ∧
        (flushQueue parses server a w).2.posts = w.posts ∧
        (2 ≤ w.fuel → storedTexts w = [] ∨ server = false)) ∨
    ((flushQueue parses server a w).2.store = w.store ∧
        (flushQueue parses server a w).2.posts = w.posts ++ [(storedTexts w, a)] ∧
        (2 ≤ w.fuel → ¬ Acks a)) ∨
    (storedTexts (flushQueue parses server a w).2 = [] ∧ Acks a ∧
        (flushQueue parses server a w).2.posts = w.posts ++ [(storedTexts w, a)]) := by
  obtain ⟨h1, -, h3⟩ := loadLoop_all (parses := parses) w.store.rows 0 hp
  have hdel : (w.store.delete (w.store.load parses).2).rows = [] := by
    simp only [Store.delete, Store.load, List.filter_eq_nil_iff, Bool.not_eq_true']
    exact fun r hr hf => absurd (h3 r hr) (of_decide_eq_false hf)
  have hb : (w.store.load parses).1 = storedTexts w := h1
  cases hs : server with
  | false =>
    left
    simp [flushQueue, M.gets, bind, pure]
  | true =>
    by_cases he : storedTexts w = []
    · left
      simp [flushQueue, M.gets, bind, pure, hb, he]
    · have he' : (storedTexts w).isEmpty = false := by simp [he]
      cases hf : w.fuel with
      | zero =>
        left
        simp [flushQueue, M.gets, bind, pure, hb, he', effect, hf]
      | succ k =>
        by_cases hk : Acks a
        · have hok : (a.isOk || a.status == 404) = true := by rw [acks_iff]; simp [hk]
          cases k with
          | zero =>
            right; left
            simp [flushQueue, M.gets, bind, hb, he', effect, hf, hok]
          | succ j =>
            right; right
            refine ⟨?_, hk, ?_⟩
            · have : (flushQueue parses true a w).2.store = w.store.delete (w.store.load parses).2 := by
                simp [flushQueue, M.gets, bind, hb, he', effect, hf, hok]
              simp [storedTexts, this, hdel]
            · simp [flushQueue, M.gets, bind, hb, he', effect, hf, hok]
        · right; left
          have hok : (a.isOk || a.status == 404) = false := by rw [acks_iff]; simp [hk]
          refine ⟨?_, ?_, fun _ => hk⟩ <;>
            simp [flushQueue, M.gets, bind, hb, he', effect, hf, hok]

theorem max?_le {l : List Int} {n : Int} (h : ∀ x ∈ l, x ≤ n) {m : Int} (hm : l.max? = some m) : m ≤ n :=
  h m (List.max?_mem hm)

/-- Saving keeps everything and adds the event at the end, if there are keys left. -/
theorem save_rows {s : Store} {e : String} {n : Int} (h : ∀ r ∈ s.rows, r.1 ≤ n) (h0 : 0 ≤ n)
    (hn : n < idLimit) : ∃ k, (s.save e).rows = s.rows ++ [(k, e)] ∧ k ≤ n + 1 := by
  unfold Store.save
  cases hm : s.maxId with
  | none => exact ⟨1, rfl, by omega⟩
  | some m =>
    have hle : m ≤ n := max?_le (l := s.rows.map Prod.fst)
      (by simp only [List.mem_map]; rintro x ⟨r, hr, rfl⟩; exact h r hr) hm
    have hne : m ≠ idLimit := by omega
    exact ⟨m + 1, by simp [hne], by omega⟩

theorem enqueued_append (l₁ l₂ : List Op) : enqueued (l₁ ++ l₂) = enqueued l₁ ++ enqueued l₂ := by
  induction l₁ with
  | nil => rfl
  | cons o r ih => cases o <;> simp [enqueued, ih]

theorem ackedBatches_append (l₁ l₂ : List (List String × Answer)) :
    ackedBatches (l₁ ++ l₂) = ackedBatches l₁ ++ ackedBatches l₂ := by
  simp [ackedBatches]

theorem mem_enqueued {ops : List Op} {e : String} (h : e ∈ enqueued ops) : Op.enqueue e ∈ ops := by
  induction ops with
  | nil => simp [enqueued] at h
  | cons o r ih =>
    cases o with
    | enqueue e' =>
      simp only [enqueued, List.mem_cons] at h ⊢
      rcases h with rfl | h
      · exact .inl rfl
      · exact .inr (ih h)
    | flush => simp only [enqueued] at h; exact List.mem_cons_of_mem _ (ih h)

/-- Invariant of a history. -/
structure Inv (ops : List Op) (w : World) : Prop where
  keys : ∀ r ∈ w.store.rows, r.1 ≤ ((enqueued ops).length : Int)
  gone : ∃ bs : List (List String), bs.Sublist (ackedBatches w.posts) ∧
    bs.flatten ++ storedTexts w = enqueued ops
  sent : ∀ pre b a post, w.posts = pre ++ (b, a) :: post →
    ∃ bs : List (List String), bs.Sublist (ackedBatches pre) ∧ bs.flatten ++ b <+: enqueued ops
  exact_ : NoCrash ops → (ackedBatches w.posts).flatten ++ storedTexts w = enqueued ops
  sentExact : NoCrash ops → ∀ pre b a post, w.posts = pre ++ (b, a) :: post →
    (ackedBatches pre).flatten ++ b <+: enqueued ops

theorem snoc_split {α : Type} {l : List α} {x y : α} {pre post : List α}
    (h : l ++ [x] = pre ++ y :: post) : (post = [] ∧ pre = l ∧ y = x) ∨ ∃ p, l = pre ++ y :: p := by
  rcases List.eq_nil_or_concat post with rfl | ⟨q, z, rfl⟩
  · left
    have := List.append_inj' h rfl
    simp only [List.cons.injEq, and_true] at this
    exact ⟨rfl, this.1.symm, this.2.symm⟩
  · right
    have h' : l ++ [x] = (pre ++ y :: q) ++ [z] := by simpa using h
    exact ⟨q, (List.append_inj' h' rfl).1⟩

theorem Inv.run {parses : String → Bool} (ops : List Op) (hk : KeysSuffice ops)
    (hp : ∀ e ∈ enqueued ops, parses e = true) : Inv ops (run parses {} ops) := by
  rw [← List.reverse_reverse ops] at hk hp ⊢
  generalize ops.reverse = l at *
  induction l with
  | nil =>
    refine ⟨by simp [Reports.run], ⟨[], by simp, by simp [Reports.run, storedTexts, enqueued]⟩, ?_, ?_, ?_⟩ <;>
      simp [Reports.run, storedTexts, enqueued, ackedBatches]
  | cons o r ih =>
    simp only [List.reverse_cons] at hk hp ⊢
    have hen := enqueued_append r.reverse [o]
    have hk' : KeysSuffice r.reverse := by
      simp only [KeysSuffice, hen, List.length_append] at hk ⊢; omega
    have hI := ih hk' (fun e he => hp e (by rw [hen]; simp [he]))
    have hrun : Reports.run parses {} (r.reverse ++ [o]) =
        Op.step parses (Reports.run parses {} r.reverse) o := by simp [Reports.run]
    rw [hrun]
    generalize Reports.run parses {} r.reverse = w at *
    have hpre : enqueued r.reverse <+: enqueued (r.reverse ++ [o]) := by rw [hen]; exact List.prefix_append _ _
    have hnc : NoCrash (r.reverse ++ [o]) → NoCrash r.reverse :=
      fun h s a f hm => h s a f (by simp only [List.mem_append]; exact .inl hm)
    have hparse : ∀ r ∈ w.store.rows, parses r.2 = true := by
      intro x hx
      obtain ⟨bs, -, hbs⟩ := hI.gone
      apply hp
      rw [hen, ← hbs]
      simp only [List.mem_append]
      exact .inl (.inr (List.mem_map.2 ⟨x, hx, rfl⟩))
    cases o with
    | enqueue e =>
      simp only [enqueued] at hen
      have hlen : ((enqueued r.reverse).length : Int) < idLimit := by
        simp only [KeysSuffice] at hk'; simp only [idLimit]; omega
      obtain ⟨k, hrows, hkn⟩ := save_rows (e := e) hI.keys (by omega) hlen
      have hst : storedTexts (Op.step parses w (.enqueue e)) = storedTexts w ++ [e] := by
        simp [storedTexts, Op.step, hrows]
      have hposts : (Op.step parses w (.enqueue e)).posts = w.posts := rfl
      refine ⟨?_, ?_, ?_, ?_, ?_⟩
      · intro x hx
        simp only [Op.step, hrows, List.mem_append, List.mem_singleton] at hx
        rw [hen]
        simp only [List.length_append, List.length_singleton]
        rcases hx with hx | rfl
        · have := hI.keys x hx; omega
        · simp only; omega
      · obtain ⟨bs, h1, h2⟩ := hI.gone
        exact ⟨bs, h1, by rw [hst, hen, ← h2]; simp⟩
      · intro pre b a post h
        obtain ⟨bs, h1, h2⟩ := hI.sent pre b a post (hposts ▸ h)
        exact ⟨bs, h1, h2.trans hpre⟩
      · intro h
        rw [hst, hposts, hen, ← hI.exact_ (hnc h)]; simp
      · intro h pre b a post hs
        exact (hI.sentExact (hnc h) pre b a post (hposts ▸ hs)).trans hpre
    | flush server a fuel =>
      simp only [enqueued, List.append_nil] at hen
      rw [hen] at hpre
      simp only [Op.step]
      have hc := flush_cases (server := server) (a := a) (w := { w with fuel := fuel }) hparse
      generalize (flushQueue parses server a { w with fuel := fuel }).2 = w' at *
      have hw : storedTexts { w with fuel := fuel } = storedTexts w := rfl
      rw [hw] at hc
      have hfuel : NoCrash (r.reverse ++ [Op.flush server a fuel]) → 2 ≤ fuel :=
        fun h => h server a fuel (by simp)
      obtain ⟨bs, hb1, hb2⟩ := hI.gone
      rcases hc with ⟨h1, h2, -⟩ | ⟨h1, h2, h3⟩ | ⟨h1, h2, h3⟩
      · simp only at h1 h2
        have hst : storedTexts w' = storedTexts w := by simp [storedTexts, h1]
        refine ⟨by rw [hen, h1]; exact hI.keys, ⟨bs, by rw [h2]; exact hb1, by rw [hst, hen]; exact hb2⟩, ?_, ?_, ?_⟩
        · rw [h2, hen]; exact hI.sent
        · rw [h2, hst, hen]; exact fun h => hI.exact_ (hnc h)
        · rw [h2, hen]; exact fun h => hI.sentExact (hnc h)
      · simp only at h1 h2 h3
        have hst : storedTexts w' = storedTexts w := by simp [storedTexts, h1]
        refine ⟨by rw [hen, h1]; exact hI.keys, ⟨bs, ?_, by rw [hst, hen]; exact hb2⟩, ?_, ?_, ?_⟩
        · rw [h2, ackedBatches_append]; exact hb1.trans (List.sublist_append_left _ _)
        · rw [h2, hen]
          intro pre b a' post hs
          rcases snoc_split hs with ⟨-, rfl, he⟩ | ⟨p, he⟩
          · cases he
            exact ⟨bs, hb1, by rw [hb2]; exact List.prefix_rfl⟩
          · exact hI.sent pre b a' p he
        · intro h
          have hna : ackedBatches [(storedTexts w, a)] = [] := by simp [ackedBatches, h3 (hfuel h)]
          rw [h2, ackedBatches_append, hna, hst, hen, List.append_nil]
          exact hI.exact_ (hnc h)
        · rw [h2, hen]
          intro h pre b a' post hs
          rcases snoc_split hs with ⟨-, rfl, he⟩ | ⟨p, he⟩
          · cases he
            rw [hI.exact_ (hnc h)]
            exact List.prefix_rfl
          · exact hI.sentExact (hnc h) pre b a' p he
      · simp only at h3
        have hrows : w'.store.rows = [] := by simpa [storedTexts] using h1
        have hya : ackedBatches [(storedTexts w, a)] = [storedTexts w] := by simp [ackedBatches, h2]
        refine ⟨by simp [hrows], ⟨bs ++ [storedTexts w], ?_, by rw [h1, hen]; simpa using hb2⟩, ?_, ?_, ?_⟩
        · rw [h3, ackedBatches_append, hya]; exact hb1.append (List.Sublist.refl _)
        · rw [h3, hen]
          intro pre b a' post hs
          rcases snoc_split hs with ⟨-, rfl, he⟩ | ⟨p, he⟩
          · cases he
            exact ⟨bs, hb1, by rw [hb2]; exact List.prefix_rfl⟩
          · exact hI.sent pre b a' p he
        · intro h
          rw [h3, ackedBatches_append, hya, h1, hen]
          simpa using hI.exact_ (hnc h)
        · rw [h3, hen]
          intro h pre b a' post hs
          rcases snoc_split hs with ⟨-, rfl, he⟩ | ⟨p, he⟩
          · cases he
            rw [hI.exact_ (hnc h)]
            exact List.prefix_rfl
          · exact hI.sentExact (hnc h) pre b a' p he

end Aktualizr.Reports

namespace Aktualizr

open Aktualizr.Reports Aktualizr.Spec

/-- What was enqueued is, in order: batches acknowledged by the server, then what is still
stored. -/
theorem C17_nothing_lost {parses : String → Bool} (ops : List Op) (hk : KeysSuffice ops)
    (hp : ∀ e ∈ enqueued ops, parses e = true) :
    ∃ bs : List (List String), bs.Sublist (ackedBatches (Reports.run parses {} ops).posts) ∧
      enqueued ops = bs.flatten ++ storedTexts (Reports.run parses {} ops) := by
  obtain ⟨bs, h1, h2⟩ := (Inv.run ops hk hp).gone
  exact ⟨bs, h1, h2.symm⟩

/-- Every batch continues the sequence of enqueued events where earlier acknowledged batches left
off. -/
theorem C17_sent_in_order {parses : String → Bool} (ops : List Op) (hk : KeysSuffice ops)
    (hp : ∀ e ∈ enqueued ops, parses e = true) {pre post : List (List String × Answer)} {b : List String}
    {a : Answer} (h : (Reports.run parses {} ops).posts = pre ++ (b, a) :: post) :
    ∃ bs : List (List String), bs.Sublist (ackedBatches pre) ∧ bs.flatten ++ b <+: enqueued ops :=
  (Inv.run ops hk hp).sent pre b a post h

/-- When no flush dies, the acknowledged batches followed by what is stored are exactly the
enqueued events, and each batch starts after all that was acknowledged before it. What is missing
for the full claim: flushes that die after the answer, see `C17_crash_resends`. -/
theorem C17_once_acknowledged_partial {parses : String → Bool} (ops : List Op) (hk : KeysSuffice ops)
    (hp : ∀ e ∈ enqueued ops, parses e = true) (hc : NoCrash ops) :
    (ackedBatches (Reports.run parses {} ops).posts).flatten ++ storedTexts (Reports.run parses {} ops) =
      enqueued ops ∧
    ∀ pre b a post, (Reports.run parses {} ops).posts = pre ++ (b, a) :: post →
      (ackedBatches pre).flatten ++ b <+: enqueued ops :=
  ⟨(Inv.run ops hk hp).exact_ hc, (Inv.run ops hk hp).sentExact hc⟩

/-- A flush to a configured server that does not die posts everything stored, and empties the
table when the server acknowledges. -/
theorem C17_flush_sends_all {parses : String → Bool} (ops : List Op) (hk : KeysSuffice ops)
    (hp : ∀ e ∈ enqueued ops, parses e = true) (a : Answer) (fuel : Nat) (hf : 2 ≤ fuel)
    (hne : storedTexts (Reports.run parses {} ops) ≠ []) :
    (Reports.run parses {} (ops ++ [.flush true a fuel])).posts =
      (Reports.run parses {} ops).posts ++ [(storedTexts (Reports.run parses {} ops), a)] ∧
    (Acks a → storedTexts (Reports.run parses {} (ops ++ [.flush true a fuel])) = []) := by
  obtain ⟨bs, -, hbs⟩ := (Inv.run ops hk hp).gone
  have hrun : Reports.run parses {} (ops ++ [.flush true a fuel]) =
      Op.step parses (Reports.run parses {} ops) (.flush true a fuel) := by simp [Reports.run]
  rw [hrun]
  generalize Reports.run parses {} ops = w at *
  have hparse : ∀ r ∈ w.store.rows, parses r.2 = true := by
    intro x hx
    apply hp
    rw [← hbs]
    simp only [List.mem_append]
    exact .inr (List.mem_map.2 ⟨x, hx, rfl⟩)
  have hc := flush_cases (server := true) (a := a) (w := { w with fuel := fuel }) hparse
  have hw : storedTexts { w with fuel := fuel } = storedTexts w := rfl
  rw [hw] at hc
  simp only [Op.step]
  rcases hc with ⟨-, -, h3⟩ | ⟨-, h2, h3⟩ | ⟨h1, h2, h3⟩
  · exact absurd (h3 hf) (by simp [hne])
  · exact ⟨h2, fun h => absurd h (h3 hf)⟩
  · exact ⟨h3, fun _ => h1⟩

/-- With any stored texts, also some that do not parse: a flush that does not die posts those that
parse, in order; when the server acknowledges, it deletes them and whatever was stored before the
last of them, and keeps the rows stored later. -/
theorem C17_flush_any {parses : String → Bool} (w : World) (a : Answer) (fuel : Nat) (hf : 2 ≤ fuel)
    (hpos : ∀ r ∈ w.store.rows, 0 < r.1) (hne : ∃ r ∈ w.store.rows, parses r.2 = true) :
    (Op.step parses w (.flush true a fuel)).posts =
      w.posts ++ [((w.store.rows.filter (fun r => parses r.2)).map Prod.snd, a)] ∧
    (¬ Acks a → (Op.step parses w (.flush true a fuel)).store = w.store) ∧
    (Acks a → ∀ r, r ∈ (Op.step parses w (.flush true a fuel)).store.rows ↔
      r ∈ w.store.rows ∧ ∀ p ∈ w.store.rows, parses p.2 = true → p.1 < r.1) := by
  obtain ⟨h1, -, h3, h4⟩ := loadLoop_max (parses := parses) w.store.rows 0
  obtain ⟨r0, hr0, hp0⟩ := hne
  have hb : (({ w with fuel := fuel } : World).store.load parses).1 =
      (w.store.rows.filter (fun r => parses r.2)).map Prod.snd := h1
  have he : ((w.store.rows.filter (fun r => parses r.2)).map Prod.snd).isEmpty = false := by
    cases hl : (w.store.rows.filter (fun r => parses r.2)) with
    | nil =>
      have := List.filter_eq_nil_iff.1 hl r0 hr0
      exact absurd hp0 this
    | cons x xs => simp
  obtain ⟨k, rfl⟩ : ∃ k, fuel = k + 2 := ⟨fuel - 2, by omega⟩
  by_cases hk : Acks a
  · have hok : (a.isOk || a.status == 404) = true := by rw [acks_iff]; simp [hk]
    refine ⟨?_, fun h => absurd hk h, fun _ r => ?_⟩
    · simp only [Op.step]
      simp [flushQueue, M.gets, bind, hb, he, effect, hok]
    · have hst : (Op.step parses w (.flush true a (k + 2))).store = w.store.delete (w.store.load parses).2 := by
        simp only [Op.step]
        simp [flushQueue, M.gets, bind, hb, he, effect, hok]
      rw [hst]
      simp only [Store.delete, List.mem_filter, Bool.not_eq_true', decide_eq_false_iff_not, Int.not_le]
      refine and_congr_right fun hr => ⟨fun h p hp hpp => Int.lt_of_le_of_lt (h3 p hp hpp) h, fun h => ?_⟩
      rcases h4 with h4 | ⟨p, hp, hpp, h4⟩
      · have := h3 r0 hr0 hp0
        have := hpos r0 hr0
        simp only [Store.load]
        omega
      · simp only [Store.load]
        rw [← h4]
        exact h p hp hpp
  · have hok : (a.isOk || a.status == 404) = false := by rw [acks_iff]; simp [hk]
    refine ⟨?_, fun _ => ?_, fun h => absurd h hk⟩ <;>
    · simp only [Op.step]
      simp [flushQueue, M.gets, bind, hb, he, effect, hok]

namespace Toy

/-- The server took the batch. -/
def taken : Answer := { curlOk := true, status := 200 }

/-- The server has trouble. -/
def trouble : Answer := { curlOk := true, status := 503 }

/-- Two events, a failing flush, a third event, a successful flush that dies or not. -/
def eventOps (fuel : Nat) : List Op :=
  [.enqueue "e1", .enqueue "e2", .flush true trouble 9, .enqueue "e3", .flush true taken fuel,
    .enqueue "e4", .flush true taken 9]

end Toy

/-- The hypotheses are met by a history without crashes; all batches are as expected. -/
example : KeysSuffice (Toy.eventOps 9) ∧ (∀ e ∈ enqueued (Toy.eventOps 9), (fun _ => true) e = true) ∧
    NoCrash (Toy.eventOps 9) ∧
    (Reports.run (fun _ => true) {} (Toy.eventOps 9)).posts =
      [(["e1", "e2"], Toy.trouble), (["e1", "e2", "e3"], Toy.taken), (["e4"], Toy.taken)] := by
  refine ⟨by simp [KeysSuffice, Toy.eventOps, enqueued], by simp, ?_, by decide +kernel⟩
  intro s a f h
  simp only [Toy.eventOps, List.mem_cons, List.not_mem_nil, or_false, Op.flush.injEq, reduceCtorEq, false_or] at h
  omega

/-- An event acknowledged by the server is sent again after a crash between the answer and the
deletion. -/
theorem C17_crash_resends : (Reports.run (fun _ => true) {} (Toy.eventOps 1)).posts =
    [(["e1", "e2"], Toy.trouble), (["e1", "e2", "e3"], Toy.taken), (["e1", "e2", "e3", "e4"], Toy.taken)] := by
  decide +kernel

/-- An event that does not parse is dropped, unsent, with the next acknowledged batch: the
hypothesis on the texts cannot be omitted. -/
theorem C17_unparsable_dropped :
    let w := Reports.run (fun t => t != "bad") {}
      [.enqueue "bad", .enqueue "e1", .flush true Toy.taken 9]
    storedTexts w = [] ∧ w.posts = [(["e1"], Toy.taken)] := by
  decide +kernel

/-- `C17_flush_any` is not vacuous: unparsable rows before and after one that parses. -/
example :
    let ops := [.enqueue "bad", .enqueue "e1", .enqueue "bad"]
    let w := Reports.run (fun t => t != "bad") {} ops
    w.store.rows = [(1, "bad"), (2, "e1"), (3, "bad")] ∧
    (Op.step (fun t => t != "bad") w (.flush true Toy.taken 2)).store.rows = [(3, "bad")] := by
  decide +kernel

end Aktualizr
