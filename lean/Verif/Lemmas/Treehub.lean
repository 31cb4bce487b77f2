import Verif.Spec.Treehub

/-!
# The invariant of a push
-/

set_option linter.unusedSimpArgs false
namespace Aktualizr.Treehub

theorem ordered_snoc {refs : Obj → List Obj} {log : List Event} {e : Event} (h : Ordered refs log)
    (he : ∀ o, e = .put o → ∀ c ∈ refs o, .seen c ∈ log) : Ordered refs (log ++ [e]) := by
  intro pre o post heq c hc
  rcases List.eq_nil_or_concat post with rfl | ⟨post', z, rfl⟩
  · obtain ⟨h1, h2⟩ := List.append_inj' heq rfl
    simp only [List.cons.injEq, and_true] at h2
    subst h1
    exact he o h2 c hc
  · have : log ++ [e] = (pre ++ Event.put o :: post') ++ [z] := by simpa using heq
    obtain ⟨h1, -⟩ := List.append_inj' this rfl
    exact h pre o post' h1 c hc

section
variable (p : Pool) (o x : Obj)
@[simp] theorem pres_setPresence (s) : ((p.setPresence o s).objs x).presence = if x = o then s else (p.objs x).presence := by
  simp only [Pool.setPresence, Pool.set]; split <;> rfl
@[simp] theorem ch_setPresence (s) : ((p.setPresence o s).objs x).children = (p.objs x).children := by
  simp only [Pool.setPresence, Pool.set]; split <;> simp_all
@[simp] theorem pa_setPresence (s) : ((p.setPresence o s).objs x).parents = (p.objs x).parents := by
  simp only [Pool.setPresence, Pool.set]; split <;> simp_all
@[simp] theorem ns_setPresence (s) : ((p.setPresence o s).objs x).nextSlot = (p.objs x).nextSlot := by
  simp only [Pool.setPresence, Pool.set]; split <;> simp_all
@[simp] theorem op_setPresence (s) : ((p.setPresence o s).objs x).op = (p.objs x).op := by
  simp only [Pool.setPresence, Pool.set]; split <;> simp_all
@[simp] theorem busy_setPresence (s) : ((p.setPresence o s).objs x).busy = (p.objs x).busy := by
  simp only [Pool.setPresence, Pool.set]; split <;> simp_all
@[simp] theorem set_queries (s) : (p.set o s).queries = p.queries := rfl
@[simp] theorem set_uploads (s) : (p.set o s).uploads = p.uploads := rfl
@[simp] theorem set_running (s) : (p.set o s).running = p.running := rfl
@[simp] theorem set_stopped (s) : (p.set o s).stopped = p.stopped := rfl
@[simp] theorem set_log (s) : (p.set o s).log = p.log := rfl
@[simp] theorem setPresence_queries (s) : (p.setPresence o s).queries = p.queries := rfl
@[simp] theorem setPresence_uploads (s) : (p.setPresence o s).uploads = p.uploads := rfl
@[simp] theorem setPresence_running (s) : (p.setPresence o s).running = p.running := rfl
@[simp] theorem setPresence_stopped (s) : (p.setPresence o s).stopped = p.stopped := rfl
@[simp] theorem setPresence_log (s) : (p.setPresence o s).log = p.log := rfl
theorem set_objs (s) : (p.set o s).objs x = if x = o then s else p.objs x := rfl
end

theorem nodup_upload {o : Obj} {q u r : List Obj} (h : (q ++ u ++ r).Nodup) (ho : o ∉ q ∧ o ∉ u ∧ o ∉ r) :
    (q ++ (u ++ [o]) ++ r).Nodup := by
  have : (q ++ (u ++ [o]) ++ r).Perm (o :: (q ++ u ++ r)) := by
    have := @List.perm_middle _ o (q ++ u) r
    simpa using this
  rw [this.nodup_iff, List.nodup_cons]
  exact ⟨by simp; grind, h⟩

theorem nodup_query {o : Obj} {q u r : List Obj} (h : (q ++ u ++ r).Nodup) (ho : o ∉ q ∧ o ∉ u ∧ o ∉ r) :
    ((q ++ [o]) ++ u ++ r).Nodup := by
  have : ((q ++ [o]) ++ u ++ r).Perm (o :: (q ++ u ++ r)) := by
    simp
  rw [this.nodup_iff, List.nodup_cons]
  exact ⟨by simp; grind, h⟩

/-- How far an object is from being on the server. -/
def mu (p : Pool) (o : Obj) : Nat :=
  match (p.objs o).presence with
  | .unknown => 6
  | .present => 0
  | .missing => 3
  | .inProgress =>
    if o ∈ p.queries then 5
    else if o ∈ p.running ∧ (p.objs o).op = .presenceCheck then 4
    else if o ∈ p.uploads then 2
    else if o ∈ p.running then 1
    else 0

/-- What holds throughout a push. `live` are the references to parents that are still to be used; `hand` the object
whose request is being dealt with. -/
structure Inv (repo : Repo) (root : Obj) (p : Pool) (live : Obj → List (Obj × Nat)) (hand : Obj → Prop) : Prop where
  stop : p.stopped = true → p.queries = [] ∧ p.uploads = []
  nodup : (p.queries ++ p.uploads ++ p.running).Nodup
  busyIn : ∀ o, (p.objs o).busy = true → o ∈ p.running ∨ hand o
  inProg : ∀ o, o ∈ p.queries ∨ o ∈ p.uploads ∨ o ∈ p.running → (p.objs o).presence = .inProgress
  up : ∀ o, o ∈ p.uploads → ∀ c ∈ repo.refs o, (p.objs c).presence = .present
  run : ∀ o, o ∈ p.running → (p.objs o).op = .uploading → ∀ c ∈ repo.refs o, (p.objs c).presence = .present
  link : ∀ o s c, (s, c) ∈ (p.objs o).children ↔ (o, s) ∈ live c
  slots : ∀ o s, s ∈ (p.objs o).children.map (·.1) → s < (p.objs o).nextSlot
  slotsNodup : ∀ o, ((p.objs o).children.map (·.1)).Nodup
  liveNodup : ∀ c, (live c).Nodup
  childRef : ∀ o s c, (s, c) ∈ (p.objs o).children → c ∈ repo.refs o
  wait : ∀ o, (p.objs o).children ≠ [] → (p.objs o).presence = .missing
  seen : ∀ o, (p.objs o).presence = .present → .seen o ∈ p.log
  ordered : Ordered repo.refs p.log
  -- only as long as the push goes on
  cover : p.stopped = false → ∀ o, (p.objs o).children ≠ [] → ¬ hand o →
    ∀ c ∈ repo.refs o, (p.objs c).presence = .present ∨ ∃ s, (s, c) ∈ (p.objs o).children
  miss : p.stopped = false → ∀ o, (p.objs o).presence = .missing → (p.objs o).children ≠ [] ∨ hand o
  kids : p.stopped = false → ∀ o s c, (s, c) ∈ (p.objs o).children →
    hand o ∨ hand c ∨ (p.objs c).presence = .missing ∨ (p.objs c).presence = .inProgress
  listed : p.stopped = false → ∀ o, (p.objs o).presence = .inProgress →
    o ∈ p.queries ∨ o ∈ p.uploads ∨ o ∈ p.running ∨ hand o
  rootKnown : (p.objs root).presence = .unknown → hand root
  reach : ∀ o, (p.objs o).presence ≠ .unknown → Reach repo.refs root o
  sent : ∀ o, .put o ∈ p.log → Reach repo.refs root o

/-- The references to its parents that an object has yet to use. -/
def live (p : Pool) (c : Obj) : List (Obj × Nat) := if (p.objs c).presence = .present then [] else (p.objs c).parents

abbrev Good (repo : Repo) (root : Obj) (p : Pool) : Prop := Inv repo root p (live p) (fun _ => False)


theorem inv_query {repo root p o qs} (h : Good repo root p) (hq : p.queries = o :: qs) {q : Pool}
    (hpr : ∀ x, (q.objs x).presence = (p.objs x).presence) (hch : ∀ x, (q.objs x).children = (p.objs x).children)
    (hpa : ∀ x, (q.objs x).parents = (p.objs x).parents) (hns : ∀ x, (q.objs x).nextSlot = (p.objs x).nextSlot)
    (hop : ∀ x, (q.objs x).op = if x = o then .presenceCheck else (p.objs x).op)
    (hbu : ∀ x, (q.objs x).busy = if x = o then true else (p.objs x).busy)
    (h1 : q.queries = qs) (h2 : q.uploads = p.uploads) (h3 : q.running = p.running ++ [o]) (h4 : q.stopped = p.stopped)
    (h5 : q.log = p.log ++ [.head o]) : Good repo root q := by
  have hl : live q = live p := by funext c; simp only [live, hpr, hpa]
  have hnd := h.nodup
  unfold Good
  rw [hl]
  constructor
  case nodup => rw [h1, h2, h3]; rw [hq] at hnd; grind
  case ordered => rw [h5]; exact ordered_snoc h.ordered (by simp)
  case stop => have := h.stop; grind
  case busyIn => have := h.busyIn; grind
  case inProg => have := h.inProg; grind
  case up => have := h.up; grind
  case run => have := h.run; grind
  case link => have := h.link; grind
  case slots => have := h.slots; grind
  case slotsNodup => have := h.slotsNodup; grind
  case liveNodup => exact h.liveNodup
  case childRef => have := h.childRef; grind
  case wait => have := h.wait; grind
  case seen => have := h.seen; grind
  case cover => have := h.cover; grind
  case miss => have := h.miss; grind
  case kids => have := h.kids; grind
  case listed => have := h.listed; grind
  case rootKnown => have := h.rootKnown; grind
  case reach => have := h.reach; grind
  case sent => have := h.sent; grind

theorem inv_put {repo root p o us} (h : Good repo root p) (hq : p.uploads = o :: us) {q : Pool}
    (hpr : ∀ x, (q.objs x).presence = (p.objs x).presence) (hch : ∀ x, (q.objs x).children = (p.objs x).children)
    (hpa : ∀ x, (q.objs x).parents = (p.objs x).parents) (hns : ∀ x, (q.objs x).nextSlot = (p.objs x).nextSlot)
    (hop : ∀ x, (q.objs x).op = if x = o then .uploading else (p.objs x).op)
    (hbu : ∀ x, (q.objs x).busy = if x = o then true else (p.objs x).busy)
    (h1 : q.queries = p.queries) (h2 : q.uploads = us) (h3 : q.running = p.running ++ [o]) (h4 : q.stopped = p.stopped)
    (h5 : q.log = p.log ++ [.put o]) : Good repo root q := by
  have hl : live q = live p := by funext c; simp only [live, hpr, hpa]
  have hnd := h.nodup
  have hup := h.up o (by rw [hq]; simp)
  unfold Good
  rw [hl]
  constructor
  case nodup => rw [h1, h2, h3]; rw [hq] at hnd; grind
  case ordered => rw [h5]; refine ordered_snoc h.ordered ?_; have := h.seen; grind
  case stop => have := h.stop; grind
  case busyIn => have := h.busyIn; grind
  case inProg => have := h.inProg; grind
  case up => have := h.up; grind
  case run => have := h.run; grind
  case link => have := h.link; grind
  case slots => have := h.slots; grind
  case slotsNodup => have := h.slotsNodup; grind
  case liveNodup => exact h.liveNodup
  case childRef => have := h.childRef; grind
  case wait => have := h.wait; grind
  case seen => have := h.seen; grind
  case cover => have := h.cover; grind
  case miss => have := h.miss; grind
  case kids => have := h.kids; grind
  case listed => have := h.listed; grind
  case rootKnown => have := h.rootKnown; grind
  case reach => have := h.reach; grind
  case sent => have := h.sent; have := h.reach o (by rw [h.inProg o (by rw [hq]; simp)]; decide); grind

theorem mu_query {p q : Pool} {o : Obj} {qs : List Obj} (hq : p.queries = o :: qs) (hno : o ∉ qs)
    (hip : (p.objs o).presence = .inProgress) (hpr : ∀ x, (q.objs x).presence = (p.objs x).presence)
    (hop : ∀ x, (q.objs x).op = if x = o then .presenceCheck else (p.objs x).op)
    (h1 : q.queries = qs) (h2 : q.uploads = p.uploads) (h3 : q.running = p.running ++ [o]) :
    mu q o < mu p o ∧ ∀ x, mu q x ≤ mu p x := by
  have h6 : mu q o = 4 := by simp [mu, hpr, hop, h1, h3, hip, hno]
  have h7 : mu p o = 5 := by simp [mu, hip, hq]
  refine ⟨by omega, fun x => ?_⟩
  by_cases hx : x = o
  · subst hx; omega
  · simp only [mu, hpr, hop, h1, h2, h3, hq, hx, if_false, List.mem_append, List.mem_cons, List.not_mem_nil, or_false, false_or]
    exact Nat.le_refl _

theorem mu_put {p q : Pool} {o : Obj} {us : List Obj} (hq : p.uploads = o :: us) (hno : o ∉ us) (hno2 : o ∉ p.queries)
    (hno3 : o ∉ p.running)
    (hip : (p.objs o).presence = .inProgress) (hpr : ∀ x, (q.objs x).presence = (p.objs x).presence)
    (hop : ∀ x, (q.objs x).op = if x = o then .uploading else (p.objs x).op)
    (h1 : q.queries = p.queries) (h2 : q.uploads = us) (h3 : q.running = p.running ++ [o]) :
    mu q o < mu p o ∧ ∀ x, mu q x ≤ mu p x := by
  have h6 : mu q o = 1 := by simp [mu, hpr, hop, h1, h2, h3, hip, hno, hno2]
  have h7 : mu p o = 2 := by simp [mu, hip, hq, hno2, hno3]
  refine ⟨by omega, fun x => ?_⟩
  by_cases hx : x = o
  · subst hx; omega
  · simp only [mu, hpr, hop, h1, h2, h3, hq, hx, if_false, List.mem_append, List.mem_cons, List.not_mem_nil, or_false, false_or]
    exact Nat.le_refl _

theorem good_launch {repo root p} (h : Good repo root p) : ∃ q, launch .default p = .ok q ∧ Good repo root q ∧
    (p.queries ≠ [] ∨ p.uploads ≠ [] → ∃ o, Reach repo.refs root o ∧ mu q o < mu p o) ∧ ∀ x, mu q x ≤ mu p x := by
  have hnd := h.nodup
  have hbusy := h.busyIn
  unfold launch
  split
  · rename_i o qs hq
    have hb : (p.objs o).busy = false := by rw [hq] at hnd; grind
    have hip := h.inProg o (by rw [hq]; simp)
    have hno : o ∉ qs := by rw [hq] at hnd; grind
    unfold makeTestRequest
    rw [if_neg (by simp [hb])]
    have hmu := mu_query (q := { ({ p with queries := qs } : Pool).set o { p.objs o with busy := true, op := .presenceCheck } with
      running := p.running ++ [o], log := p.log ++ [.head o] }) hq hno hip
      (by intro x; simp only [Pool.set]; split <;> simp_all) (by intro x; simp only [Pool.set]; split <;> simp_all) rfl rfl rfl
    refine ⟨_, rfl, inv_query h hq ?_ ?_ ?_ ?_ ?_ ?_ rfl rfl rfl rfl rfl,
      fun _ => ⟨o, h.reach o (by rw [hip]; decide), hmu.1⟩, hmu.2⟩ <;>
      (intro x; simp only [Pool.set]; split <;> simp_all)
  · rename_i hq
    split
    · rename_i hu; exact ⟨p, rfl, h, fun h6 => by simp [hq, hu] at h6, fun _ => Nat.le_refl _⟩
    · rename_i o us hu
      have hb : (p.objs o).busy = false := by rw [hu] at hnd; grind
      have hip := h.inProg o (by rw [hu]; simp)
      have hno : o ∉ us ∧ o ∉ p.running := by rw [hu] at hnd; grind
      simp only [upload, true_or, if_true]
      rw [if_neg (by simp [hb])]
      have hmu := mu_put (q := { ({ p with uploads := us } : Pool).set o { p.objs o with busy := true, op := .uploading } with
        running := p.running ++ [o], log := p.log ++ [.put o] }) hu hno.1 (by simp [hq]) hno.2 hip
        (by intro x; simp only [Pool.set]; split <;> simp_all) (by intro x; simp only [Pool.set]; split <;> simp_all) rfl rfl rfl
      refine ⟨_, rfl, inv_put h hu ?_ ?_ ?_ ?_ ?_ ?_ rfl rfl rfl rfl rfl,
        fun _ => ⟨o, h.reach o (by rw [hip]; decide), hmu.1⟩, hmu.2⟩ <;>
        (intro x; simp only [Pool.set]; split <;> simp_all)

def upd (L : Obj → List (Obj × Nat)) (c : Obj) (l : List (Obj × Nat)) : Obj → List (Obj × Nat) :=
  fun x => if x = c then l else L x

theorem upd_apply (L c l x) : upd L c l x = if x = c then l else L x := rfl

/-- One turn of the loop of `NotifyParents`, on the fields. -/
theorem inv_notify {repo root p L c o s rest} (h : Inv repo root p L (· = c)) (hc : (p.objs c).presence = .present)
    (hL : L c = (o, s) :: rest) {q : Pool} {empty : Bool}
    (hem : empty = ((p.objs o).children.filter (fun z => z.1 != s)).isEmpty)
    (hpr : ∀ x, (q.objs x).presence = if x = o ∧ empty = true then .inProgress else (p.objs x).presence)
    (hch : ∀ x, (q.objs x).children = if x = o then (p.objs o).children.filter (fun z => z.1 != s) else (p.objs x).children)
    (hns : ∀ x, (q.objs x).nextSlot = (p.objs x).nextSlot)
    (hop : ∀ x, (q.objs x).op = (p.objs x).op) (hbu : ∀ x, (q.objs x).busy = (p.objs x).busy)
    (h1 : q.queries = p.queries) (h2 : q.uploads = if empty = true ∧ p.stopped = false then p.uploads ++ [o] else p.uploads)
    (h3 : q.running = p.running) (h4 : q.stopped = p.stopped) (h5 : q.log = p.log) :
    Inv repo root q (upd L c rest) (· = c) := by
  have hnd := h.nodup
  have hin : (s, c) ∈ (p.objs o).children := (h.link o s c).2 (by rw [hL]; simp)
  have hmiss : (p.objs o).presence = .missing := h.wait o (by intro e; rw [e] at hin; simp at hin)
  have hoc : o ≠ c := by grind
  have huniq : ∀ z ∈ (p.objs o).children, z.1 = s → z = (s, c) := by
    intro z hz hs
    have := h.slotsNodup o
    have hp := List.pairwise_map.1 this
    apply Classical.byContradiction
    intro hne
    rcases List.mem_iff_getElem.1 hz with ⟨i, hi, rfl⟩
    rcases List.mem_iff_getElem.1 hin with ⟨j, hj, hj'⟩
    rw [List.pairwise_iff_getElem] at hp
    rcases Nat.lt_trichotomy i j with hlt | heq | hgt
    · have := hp i j hi hj hlt; rw [hj'] at this; exact this hs
    · subst heq; exact hne hj'
    · have := hp j i hj hi hgt; rw [hj'] at this; exact this hs.symm
  have hnil : empty = true → ∀ z, z ∈ (p.objs o).children → z.1 = s := by
    intro he z hz
    rw [hem, List.isEmpty_iff, List.filter_eq_nil_iff] at he
    simpa using he z hz
  have hflt : empty = true → (p.objs o).children.filter (fun z => z.1 != s) = [] := by
    intro he; rw [hem, List.isEmpty_iff] at he; exact he
  have hflt' : empty = false → (p.objs o).children.filter (fun z => z.1 != s) ≠ [] := by
    intro he e; rw [hem, e] at he; simp at he
  have hmem : ∀ t d, (t, d) ∈ (p.objs o).children.filter (fun z => z.1 != s) ↔ (t, d) ∈ (p.objs o).children ∧ t ≠ s := by
    intro t d; simp [List.mem_filter]
  have hsub : ((p.objs o).children.filter (fun z => z.1 != s)).Sublist (p.objs o).children := List.filter_sublist
  generalize hF : (p.objs o).children.filter (fun z => z.1 != s) = F at *
  have hnotin : o ∉ p.queries ∧ o ∉ p.uploads ∧ o ∉ p.running := by have := h.inProg o; grind
  constructor
  case nodup =>
    rw [h1, h2, h3]; split
    · exact nodup_upload hnd hnotin
    · exact hnd
  case ordered => rw [h5]; exact h.ordered
  case stop => have := h.stop; grind
  case busyIn => have := h.busyIn; grind
  case inProg => have := h.inProg; grind
  case up =>
    have h6 := h.up
    intro x hx d hd
    rw [h2] at hx
    have hdo : (p.objs d).presence = .present → (q.objs d).presence = .present := by
      intro hd'; rw [hpr, if_neg]; exact hd'
      rintro ⟨rfl, -⟩; rw [hmiss] at hd'; cases hd'
    by_cases hx' : x ∈ p.uploads
    · exact hdo (h6 x hx' d hd)
    · have hcond : empty = true ∧ p.stopped = false := by
        apply Classical.byContradiction; intro hn; rw [if_neg hn] at hx; exact hx' hx
      rw [if_pos hcond] at hx
      have hxo : x = o := by simpa [hx'] using hx
      subst hxo
      rcases h.cover hcond.2 x (by intro e; rw [e] at hin; simp at hin) hoc d hd with h7 | ⟨t, h7⟩
      · exact hdo h7
      · have := huniq _ h7 (hnil hcond.1 _ h7)
        simp only [Prod.mk.injEq] at this
        rw [this.2]; rw [this.2] at hdo; exact hdo hc
  case run => have := h.run; grind
  case link =>
    intro x t d
    have h6 := h.link x t d
    rw [hch, upd_apply]
    have h7 := h.liveNodup c
    rw [hL] at h7
    by_cases hx : x = o
    · subst hx
      rw [if_pos rfl, hmem, h6]
      by_cases hd : d = c
      · subst hd; rw [if_pos rfl, hL]
        simp only [List.mem_cons, Prod.mk.injEq, true_and]
        simp only [List.nodup_cons] at h7
        constructor
        · rintro ⟨h8 | h8, h9⟩
          · exact absurd h8 h9
          · exact h8
        · intro h8
          refine ⟨Or.inr h8, ?_⟩
          rintro rfl; exact h7.1 h8
      · rw [if_neg hd]
        refine ⟨fun h8 => h8.1, fun h8 => ⟨h8, ?_⟩⟩
        intro e
        have h9 := huniq _ (h6.2 h8) e
        simp only [Prod.mk.injEq] at h9
        exact hd h9.2
    · rw [if_neg hx, h6]
      by_cases hd : d = c
      · subst hd; rw [if_pos rfl, hL]; simp [hx]
      · rw [if_neg hd]
  case slots =>
    intro x t ht
    have h6 := h.slots x t
    rw [hns]
    apply h6
    rw [hch] at ht
    by_cases hx : x = o
    · subst hx; rw [if_pos rfl] at ht; exact (hsub.map _).subset ht
    · rw [if_neg hx] at ht; exact ht
  case slotsNodup =>
    intro x
    rw [hch]
    by_cases hx : x = o
    · subst hx; rw [if_pos rfl]; exact (hsub.map _).nodup (h.slotsNodup x)
    · rw [if_neg hx]; exact h.slotsNodup x
  case liveNodup =>
    intro x
    rw [upd_apply]; split
    · have := h.liveNodup c; rw [hL] at this; exact (List.nodup_cons.1 this).2
    · exact h.liveNodup x
  case childRef =>
    intro x t d hd
    apply h.childRef x t d
    rw [hch] at hd
    by_cases hx : x = o
    · subst hx; rw [if_pos rfl] at hd; exact hsub.subset hd
    · rw [if_neg hx] at hd; exact hd
  case wait =>
    intro x hx
    have h6 := h.wait x
    rw [hch] at hx
    rw [hpr]
    by_cases hxo : x = o
    · subst hxo
      rw [if_pos rfl] at hx
      rw [if_neg]; exact hmiss
      rintro ⟨-, he⟩; exact hx (hflt he)
    · rw [if_neg hxo] at hx; rw [if_neg (by simp [hxo])]; exact h6 hx
  case seen => have := h.seen; grind
  case cover =>
    intro hs x hx hxc d hd
    rw [h4] at hs
    have h6 := h.cover hs x ?_ hxc d hd
    · rcases h6 with h6 | ⟨t, h6⟩
      · left; grind
      · by_cases hdc : d = c
        · left; grind
        · right; refine ⟨t, ?_⟩
          rw [hch]
          by_cases hxo : x = o
          · subst hxo; rw [if_pos rfl, hmem]; refine ⟨h6, ?_⟩
            intro e; have := huniq _ h6 e; simp only [Prod.mk.injEq] at this; exact hdc this.2
          · rw [if_neg hxo]; exact h6
    · rw [hch] at hx; by_cases hxo : x = o
      · subst hxo; intro e; rw [e] at hin; simp at hin
      · rw [if_neg hxo] at hx; exact hx
  case miss => have := h.miss; grind
  case kids =>
    intro hs x t d hd
    rw [h4] at hs
    have h6 : (t, d) ∈ (p.objs x).children := by
      rw [hch] at hd
      by_cases hx : x = o
      · subst hx; rw [if_pos rfl] at hd; exact hsub.subset hd
      · rw [if_neg hx] at hd; exact hd
    have h7 := h.kids hs x t d h6
    rw [hpr]
    grind
  case listed => have := h.listed; grind
  case rootKnown => have := h.rootKnown; grind
  case reach => have := h.reach; grind
  case sent => have := h.sent; grind

theorem addQuery_objs {p : Pool} {c x : Obj} : (p.addQuery c).objs x = if x = c then { p.objs c with presence := .inProgress } else p.objs x := by
  simp only [Pool.addQuery]; split <;> rfl

theorem addUpload_objs {p : Pool} {c x : Obj} : (p.addUpload c).objs x = if x = c then { p.objs c with presence := .inProgress } else p.objs x := by
  simp only [Pool.addUpload]; split <;> rfl

theorem mu_addQuery {p : Pool} {c : Obj} (hu : (p.objs c).presence = .unknown) (x : Obj) : mu (p.addQuery c) x ≤ mu p x := by
  have hq : x ≠ c → (x ∈ (p.addQuery c).queries ↔ x ∈ p.queries) := by
    intro hx; simp only [Pool.addQuery]; split <;> simp [hx]
  have hup : (p.addQuery c).uploads = p.uploads := by simp only [Pool.addQuery]; split <;> rfl
  have hru : (p.addQuery c).running = p.running := by simp only [Pool.addQuery]; split <;> rfl
  simp only [mu, addQuery_objs, hup, hru]
  by_cases hx : x = c
  · subst hx; simp only [if_true, hu]; grind
  · simp only [hx, if_false, hq hx]; exact Nat.le_refl _

theorem mu_addUpload {p : Pool} {c : Obj} (hu : (p.objs c).presence = .missing)
    (hno : c ∉ p.queries ∧ c ∉ p.uploads ∧ c ∉ p.running) (x : Obj) : mu (p.addUpload c) x ≤ mu p x := by
  have hup : x ≠ c → (x ∈ (p.addUpload c).uploads ↔ x ∈ p.uploads) := by
    intro hx; simp only [Pool.addUpload]; split <;> simp [hx]
  have hq : (p.addUpload c).queries = p.queries := by simp only [Pool.addUpload]; split <;> rfl
  have hru : (p.addUpload c).running = p.running := by simp only [Pool.addUpload]; split <;> rfl
  simp only [mu, addUpload_objs, hq, hru]
  by_cases hx : x = c
  · subst hx; simp only [if_true, hu]; grind
  · simp only [hx, if_false, hup hx]; exact Nat.le_refl _

theorem mu_congr {p q : Pool} (hpr : ∀ x, (q.objs x).presence = (p.objs x).presence) (hop : ∀ x, (q.objs x).op = (p.objs x).op)
    (h1 : q.queries = p.queries) (h2 : q.uploads = p.uploads) (h3 : q.running = p.running) (x : Obj) : mu q x = mu p x := by
  simp only [mu, hpr, hop, h1, h2, h3]

/-- What the loop does not touch. -/
structure Frame (p q : Pool) : Prop where
  present : ∀ x, (q.objs x).presence = .present ↔ (p.objs x).presence = .present
  parents : ∀ x, (q.objs x).parents = (p.objs x).parents
  running : q.running = p.running
  stopped : q.stopped = p.stopped
  mu : ∀ x, mu q x ≤ mu p x

/-- `p` without the child at a slot. -/
def dropSlot (p : Pool) (o : Obj) (s : Nat) : Pool :=
  p.set o { p.objs o with children := (p.objs o).children.filter (fun c => c.1 != s) }

theorem notifyLoop_cons {p : Pool} {o : Obj} {s : Nat} (h : (p.objs o).children.any (fun c => c.1 == s) = true)
    (rest : List (Obj × Nat)) : notifyLoop p ((o, s) :: rest) =
      notifyLoop (if ((p.objs o).children.filter (fun c => c.1 != s)).isEmpty = true then (dropSlot p o s).addUpload o
        else dropSlot p o s) rest := by
  simp only [notifyLoop, childNotify, h, if_true]
  simp only [bind, Except.bind, dropSlot]
  rw [show ((p.set o { p.objs o with children := (p.objs o).children.filter (fun c => c.1 != s) }).objs o).children =
    (p.objs o).children.filter (fun c => c.1 != s) from by simp [Pool.set]]

theorem notifyLoop_inv {repo root c} : ∀ (rem : List (Obj × Nat)) {p : Pool} {L : Obj → List (Obj × Nat)},
    Inv repo root p L (· = c) → (p.objs c).presence = .present → L c = rem →
    ∃ q, notifyLoop p rem = .ok q ∧ Inv repo root q (upd L c []) (· = c) ∧ Frame p q
  | [], p, L, h, hc, hL => by
    refine ⟨p, rfl, ?_, ⟨fun _ => Iff.rfl, fun _ => rfl, rfl, rfl, fun _ => Nat.le_refl _⟩⟩
    have : upd L c [] = L := by funext x; rw [upd_apply]; split <;> simp_all
    rw [this]; exact h
  | (o, s) :: rest, p, L, h, hc, hL => by
    have hin : (s, c) ∈ (p.objs o).children := (h.link o s c).2 (by rw [hL]; simp)
    have hmiss : (p.objs o).presence = .missing := h.wait o (by intro e; rw [e] at hin; simp at hin)
    have hany : (p.objs o).children.any (fun c => c.1 == s) = true :=
      List.any_eq_true.2 ⟨(s, c), hin, by simp⟩
    rw [notifyLoop_cons hany]
    have hoc : o ≠ c := by rintro rfl; rw [hmiss] at hc; cases hc
    by_cases he : ((p.objs o).children.filter (fun c => c.1 != s)).isEmpty = true
    · rw [if_pos he]
      have key := inv_notify h hc hL (q := (dropSlot p o s).addUpload o)
        he.symm
        (by intro x; simp only [Pool.addUpload, dropSlot, setPresence_stopped, set_stopped]
            by_cases hs : p.stopped = true <;> simp [hs, Pool.setPresence, Pool.set] <;> split <;> simp_all)
        (by intro x; simp only [Pool.addUpload, dropSlot, setPresence_stopped, set_stopped]
            by_cases hs : p.stopped = true <;> simp [hs, Pool.setPresence, Pool.set] <;> split <;> simp_all)
        (by intro x; simp only [Pool.addUpload, dropSlot, setPresence_stopped, set_stopped]
            by_cases hs : p.stopped = true <;> simp [hs, Pool.setPresence, Pool.set] <;> split <;> simp_all)
        (by intro x; simp only [Pool.addUpload, dropSlot, setPresence_stopped, set_stopped]
            by_cases hs : p.stopped = true <;> simp [hs, Pool.setPresence, Pool.set] <;> split <;> simp_all)
        (by intro x; simp only [Pool.addUpload, dropSlot, setPresence_stopped, set_stopped]
            by_cases hs : p.stopped = true <;> simp [hs, Pool.setPresence, Pool.set] <;> split <;> simp_all)
        (by simp only [Pool.addUpload]; split <;> rfl)
        (by simp only [Pool.addUpload, dropSlot, setPresence_stopped, set_stopped]; by_cases hs : p.stopped = true <;> simp [hs])
        (by simp only [Pool.addUpload]; split <;> rfl)
        (by simp only [Pool.addUpload]; split <;> rfl)
        (by simp only [Pool.addUpload]; split <;> rfl)
      obtain ⟨q, hq1, hq2, hq3⟩ := notifyLoop_inv rest key
        (by simp only [Pool.addUpload, dropSlot, setPresence_stopped, set_stopped]
            by_cases hs : p.stopped = true <;> simp [hs, Pool.setPresence, Pool.set, Ne.symm hoc, hc])
        (by simp [upd_apply])
      refine ⟨q, hq1, ?_, ?_⟩
      · have : upd (upd L c rest) c [] = upd L c [] := by funext x; simp only [upd_apply]; split <;> rfl
        rwa [this] at hq2
      · refine ⟨fun x => (hq3.present x).trans ?_, fun x => (hq3.parents x).trans ?_, hq3.running.trans ?_, hq3.stopped.trans ?_,
          fun x => Nat.le_trans (hq3.mu x) ?_⟩
        · simp only [Pool.addUpload, dropSlot, setPresence_stopped, set_stopped]
          by_cases hs : p.stopped = true <;> simp [hs, Pool.setPresence, Pool.set] <;> split <;> simp_all
        · simp only [Pool.addUpload, dropSlot, setPresence_stopped, set_stopped]
          by_cases hs : p.stopped = true <;> simp [hs, Pool.setPresence, Pool.set] <;> split <;> simp_all
        · simp only [Pool.addUpload]; split <;> rfl
        · simp only [Pool.addUpload]; split <;> rfl
        · have hno : o ∉ p.queries ∧ o ∉ p.uploads ∧ o ∉ p.running := by have := h.inProg o; grind
          refine Nat.le_trans (mu_addUpload (p := dropSlot p o s) ?_ hno x)
            (Nat.le_of_eq (mu_congr (p := p) (q := dropSlot p o s) ?_ ?_ rfl rfl rfl x))
          · simp [dropSlot, Pool.set, hmiss]
          · intro x; simp [dropSlot, Pool.set]; split <;> simp_all
          · intro x; simp [dropSlot, Pool.set]; split <;> simp_all
    · rw [if_neg he]
      have he' : ((p.objs o).children.filter (fun c => c.1 != s)).isEmpty = false := by simpa using he
      have key := inv_notify h hc hL (q := dropSlot p o s)
        he'.symm
        (by intro x; simp [dropSlot, Pool.set]; split <;> simp_all)
        (by intro x; simp [dropSlot, Pool.set]; split <;> simp_all)
        (by intro x; simp [dropSlot, Pool.set]; split <;> simp_all)
        (by intro x; simp [dropSlot, Pool.set]; split <;> simp_all)
        (by intro x; simp [dropSlot, Pool.set]; split <;> simp_all)
        rfl (by simp [dropSlot]) rfl rfl rfl
      obtain ⟨q, hq1, hq2, hq3⟩ := notifyLoop_inv rest key
        (by simp [dropSlot, Pool.set, Ne.symm hoc, hc])
        (by simp [upd_apply])
      refine ⟨q, hq1, ?_, ?_⟩
      · have : upd (upd L c rest) c [] = upd L c [] := by funext x; simp only [upd_apply]; split <;> rfl
        rwa [this] at hq2
      · refine ⟨fun x => (hq3.present x).trans ?_, fun x => (hq3.parents x).trans ?_, hq3.running.trans rfl, hq3.stopped.trans rfl,
          fun x => Nat.le_trans (hq3.mu x) (Nat.le_of_eq (mu_congr (p := p) (q := dropSlot p o s) ?_ ?_ rfl rfl rfl x))⟩
        · simp [dropSlot, Pool.set]; split <;> simp_all
        · simp [dropSlot, Pool.set]; split <;> simp_all
        · intro x; simp [dropSlot, Pool.set]; split <;> simp_all
        · intro x; simp [dropSlot, Pool.set]; split <;> simp_all

theorem inv_abort {repo root p L hand} (h : Inv repo root p L hand) : Inv repo root p.abort L hand := by
  have hnd := h.nodup
  constructor
  case nodup => simp only [Pool.abort]; simpa using (List.nodup_append.1 hnd).2.1
  case stop => intro _; exact ⟨rfl, rfl⟩
  case busyIn => exact h.busyIn
  case inProg => intro o ho; exact h.inProg o (by simp [Pool.abort] at ho; exact Or.inr (Or.inr ho))
  case up => intro o ho; simp [Pool.abort] at ho
  case run => exact h.run
  case link => exact h.link
  case slots => exact h.slots
  case slotsNodup => exact h.slotsNodup
  case liveNodup => exact h.liveNodup
  case childRef => exact h.childRef
  case wait => exact h.wait
  case seen => exact h.seen
  case ordered => exact h.ordered
  case cover => intro hs; simp [Pool.abort] at hs
  case miss => intro hs; simp [Pool.abort] at hs
  case kids => intro hs; simp [Pool.abort] at hs
  case listed => intro hs; simp [Pool.abort] at hs
  case rootKnown => exact h.rootKnown
  case reach => exact h.reach
  case sent => exact h.sent

/-- The end of `CurlDone`: the object is put down again. -/
theorem inv_release {repo root p L o} (h : Inv repo root p L (· = o)) (hL : ∀ x, L x = live p x)
    (hc : p.stopped = false → (p.objs o).children ≠ [] →
      ∀ c ∈ repo.refs o, (p.objs c).presence = .present ∨ ∃ s, (s, c) ∈ (p.objs o).children)
    (hm : p.stopped = false → (p.objs o).presence = .missing → (p.objs o).children ≠ [])
    (hk : p.stopped = false → ∀ s c, (s, c) ∈ (p.objs o).children →
      (p.objs c).presence = .missing ∨ (p.objs c).presence = .inProgress)
    (hk2 : p.stopped = false → ∀ x s, (s, o) ∈ (p.objs x).children →
      (p.objs o).presence = .missing ∨ (p.objs o).presence = .inProgress)
    (hl : p.stopped = false → (p.objs o).presence = .inProgress → o ∈ p.queries ∨ o ∈ p.uploads ∨ o ∈ p.running)
    (hr : (p.objs o).presence ≠ .unknown) : Good repo root (p.set o { p.objs o with busy := false }) := by
  have hpr : ∀ x, ((p.set o { p.objs o with busy := false }).objs x).presence = (p.objs x).presence := by
    intro x; simp [Pool.set]; split <;> simp_all
  have hch : ∀ x, ((p.set o { p.objs o with busy := false }).objs x).children = (p.objs x).children := by
    intro x; simp [Pool.set]; split <;> simp_all
  have hpa : ∀ x, ((p.set o { p.objs o with busy := false }).objs x).parents = (p.objs x).parents := by
    intro x; simp [Pool.set]; split <;> simp_all
  have hns : ∀ x, ((p.set o { p.objs o with busy := false }).objs x).nextSlot = (p.objs x).nextSlot := by
    intro x; simp [Pool.set]; split <;> simp_all
  have hop : ∀ x, ((p.set o { p.objs o with busy := false }).objs x).op = (p.objs x).op := by
    intro x; simp [Pool.set]; split <;> simp_all
  have hbu : ∀ x, ((p.set o { p.objs o with busy := false }).objs x).busy = if x = o then false else (p.objs x).busy := by
    intro x; simp [Pool.set]; split <;> simp_all
  have h1 : (p.set o { p.objs o with busy := false }).queries = p.queries := rfl
  have h2 : (p.set o { p.objs o with busy := false }).uploads = p.uploads := rfl
  have h3 : (p.set o { p.objs o with busy := false }).running = p.running := rfl
  have h4 : (p.set o { p.objs o with busy := false }).stopped = p.stopped := rfl
  have h5 : (p.set o { p.objs o with busy := false }).log = p.log := rfl
  generalize hq : p.set o { p.objs o with busy := false } = q at *
  have hl' : live q = L := by funext c; rw [hL]; simp only [live, hpr, hpa]
  have hnd := h.nodup
  unfold Good
  rw [hl']
  clear hq
  constructor
  case nodup => rw [h1, h2, h3]; exact hnd
  case ordered => rw [h5]; exact h.ordered
  case stop => have := h.stop; grind
  case busyIn => have := h.busyIn; grind
  case inProg => have := h.inProg; grind
  case up => have := h.up; grind
  case run => have := h.run; grind
  case link => have := h.link; grind
  case slots => have := h.slots; grind
  case slotsNodup => have := h.slotsNodup; grind
  case liveNodup => exact h.liveNodup
  case childRef => have := h.childRef; grind
  case wait => have := h.wait; grind
  case seen => have := h.seen; grind
  case cover => have := h.cover; grind
  case miss => have := h.miss; grind
  case kids => have := h.kids; grind
  case listed => have := h.listed; grind
  case rootKnown => have := h.rootKnown; grind
  case reach => have := h.reach; grind
  case sent => have := h.sent; grind

/-- The request is tried again. -/
theorem inv_again {repo root p o} (h : Good repo root p) (ho : o ∈ p.running) (upl : Bool)
    (hu : upl = true → (p.objs o).op = .uploading) {q : Pool}
    (hpr : ∀ x, (q.objs x).presence = (p.objs x).presence) (hch : ∀ x, (q.objs x).children = (p.objs x).children)
    (hpa : ∀ x, (q.objs x).parents = (p.objs x).parents) (hns : ∀ x, (q.objs x).nextSlot = (p.objs x).nextSlot)
    (hop : ∀ x, (q.objs x).op = (p.objs x).op)
    (hbu : ∀ x, (q.objs x).busy = if x = o then false else (p.objs x).busy)
    (h1 : q.queries = if upl = false ∧ p.stopped = false then p.queries ++ [o] else p.queries)
    (h2 : q.uploads = if upl = true ∧ p.stopped = false then p.uploads ++ [o] else p.uploads)
    (h3 : q.running = p.running.filter (· != o)) (h4 : q.stopped = p.stopped)
    (h5 : q.log = p.log) : Good repo root q := by
  have hl : live q = live p := by funext c; simp only [live, hpr, hpa]
  have hnd := h.nodup
  have hrun := h.run o ho
  have hip := h.inProg o (Or.inr (Or.inr ho))
  have hmem : ∀ x, x ∈ q.running ↔ x ∈ p.running ∧ x ≠ o := by intro x; rw [h3]; simp [List.mem_filter]
  unfold Good
  rw [hl]
  constructor
  case nodup =>
    have hsub : (p.queries ++ p.uploads ++ p.running.filter (· != o)).Nodup :=
      (List.Sublist.append (List.Sublist.refl _) List.filter_sublist).nodup hnd
    have hno : o ∉ p.queries ∧ o ∉ p.uploads ∧ o ∉ p.running.filter (· != o) := by
      refine ⟨?_, ?_, by simp⟩
      · intro h6; exact (List.nodup_append.1 hnd).2.2 o (by simp [h6]) o ho rfl
      · intro h6; exact (List.nodup_append.1 hnd).2.2 o (by simp [h6]) o ho rfl
    rw [h1, h2, h3]
    cases upl <;> cases p.stopped <;> simp only [true_and, false_and, if_true, if_false, Bool.false_eq_true, and_false, reduceCtorEq]
    · exact nodup_query hsub hno
    · exact hsub
    · exact nodup_upload hsub hno
    · exact hsub
  case ordered => rw [h5]; exact h.ordered
  case stop => have := h.stop; grind
  case busyIn => have := h.busyIn; grind
  case inProg => have := h.inProg; grind
  case up => have := h.up; grind
  case run => have := h.run; grind
  case link => have := h.link; grind
  case slots => have := h.slots; grind
  case slotsNodup => have := h.slotsNodup; grind
  case liveNodup => exact h.liveNodup
  case childRef => have := h.childRef; grind
  case wait => have := h.wait; grind
  case seen => have := h.seen; grind
  case cover => have := h.cover; grind
  case miss => have := h.miss; grind
  case kids => have := h.kids; grind
  case listed => have := h.listed; grind
  case rootKnown => have := h.rootKnown; grind
  case reach => have := h.reach; grind
  case sent => have := h.sent; grind

/-- `AppendChild`. -/
theorem inv_append {repo root p o c} (h : Inv repo root p (live p) (· = o)) (hmiss : (p.objs o).presence = .missing)
    (hc : c ∈ repo.refs o) (hnp : (p.objs c).presence ≠ .present) {q : Pool}
    (hpr : ∀ x, (q.objs x).presence = (p.objs x).presence)
    (hch : ∀ x, (q.objs x).children = if x = o then (p.objs o).children ++ [((p.objs o).nextSlot, c)] else (p.objs x).children)
    (hpa : ∀ x, (q.objs x).parents = if x = c then (p.objs c).parents ++ [(o, (p.objs o).nextSlot)] else (p.objs x).parents)
    (hns : ∀ x, (q.objs x).nextSlot = if x = o then (p.objs o).nextSlot + 1 else (p.objs x).nextSlot)
    (hop : ∀ x, (q.objs x).op = (p.objs x).op) (hbu : ∀ x, (q.objs x).busy = (p.objs x).busy)
    (h1 : q.queries = p.queries) (h2 : q.uploads = p.uploads)
    (h3 : q.running = p.running) (h4 : q.stopped = p.stopped) (h5 : q.log = p.log) :
    Inv repo root q (live q) (· = o) := by
  have hl : ∀ x, live q x = if x = c then live p c ++ [(o, (p.objs o).nextSlot)] else live p x := by
    intro x; simp only [live, hpr, hpa]; by_cases hx : x = c
    · subst hx; simp [hnp]
    · simp [hx]
  have hnd := h.nodup
  have hfresh : ∀ d, ((p.objs o).nextSlot, d) ∉ (p.objs o).children := by
    intro d hd
    have := h.slots o (p.objs o).nextSlot (List.mem_map.2 ⟨_, hd, rfl⟩)
    omega
  constructor
  case nodup => rw [h1, h2, h3]; exact hnd
  case ordered => rw [h5]; exact h.ordered
  case link =>
    intro x s d
    have h6 := h.link x s d
    rw [hch, hl]
    by_cases hx : x = o
    · subst hx
      rw [if_pos rfl, List.mem_append, h6]
      by_cases hd : d = c
      · subst hd; simp
      · simp [hd]
    · rw [if_neg hx, h6]
      by_cases hd : d = c
      · subst hd; simp [hx]
      · simp [hd]
  case slots =>
    intro x s hs
    have h6 := h.slots x s
    rw [hch] at hs; rw [hns]
    by_cases hx : x = o
    · subst hx
      simp only [if_true, List.map_append, List.mem_append, List.map_cons, List.map_nil, List.mem_singleton] at hs ⊢
      rcases hs with hs | hs
      · have := h6 hs; omega
      · omega
    · rw [if_neg hx] at hs; rw [if_neg hx]; exact h6 hs
  case slotsNodup =>
    intro x
    rw [hch]
    by_cases hx : x = o
    · subst hx
      rw [if_pos rfl, List.map_append, List.nodup_append]
      refine ⟨h.slotsNodup x, by simp, ?_⟩
      intro a ha b hb
      simp only [List.map_cons, List.map_nil, List.mem_singleton] at hb
      have := h.slots x a ha
      omega
    · rw [if_neg hx]; exact h.slotsNodup x
  case liveNodup =>
    intro x
    rw [hl]
    split
    · rw [List.nodup_append]
      refine ⟨h.liveNodup c, by simp, ?_⟩
      intro a ha b hb
      simp only [List.mem_singleton] at hb
      rintro rfl
      subst hb
      exact hfresh c ((h.link _ _ _).2 ha)
    · exact h.liveNodup x
  case stop => have := h.stop; grind
  case busyIn => have := h.busyIn; grind
  case inProg => have := h.inProg; grind
  case up => have := h.up; grind
  case run => have := h.run; grind
  case childRef => have := h.childRef; grind
  case wait => have := h.wait; grind
  case seen => have := h.seen; grind
  case cover => have := h.cover; grind
  case miss => have := h.miss; grind
  case kids => have := h.kids; grind
  case listed => have := h.listed; grind
  case rootKnown => have := h.rootKnown; grind
  case reach => have := h.reach; grind
  case sent => have := h.sent; grind

/-- What `PopulateChildren` leaves alone. -/
structure Populated (o : Obj) (p q : Pool) : Prop where
  presence : ∀ x, (q.objs x).presence = (p.objs x).presence
  queries : q.queries = p.queries
  uploads : q.uploads = p.uploads
  running : q.running = p.running
  stopped : q.stopped = p.stopped
  log : q.log = p.log
  op : ∀ x, (q.objs x).op = (p.objs x).op
  children : ∀ z, z ∈ (p.objs o).children → z ∈ (q.objs o).children

theorem populate_inv {repo root o} : ∀ (cs : List Obj) {p : Pool}, Inv repo root p (live p) (· = o) →
    (p.objs o).presence = .missing → (∀ c ∈ cs, c ∈ repo.refs o) →
    Inv repo root (populate repo o p cs).1 (live (populate repo o p cs).1) (· = o) ∧ Populated o p (populate repo o p cs).1 ∧
      ((populate repo o p cs).2 = true → ∀ c ∈ cs, (p.objs c).presence = .present ∨
        ∃ s, (s, c) ∈ ((populate repo o p cs).1.objs o).children)
  | [], p, h, hm, hcs => ⟨h, ⟨fun _ => rfl, rfl, rfl, rfl, rfl, rfl, fun _ => rfl, fun _ hz => hz⟩, by simp⟩
  | c :: cs, p, h, hm, hcs => by
    simp only [populate]
    split
    · by_cases hp : (p.objs c).presence = .present
      · have ha : appendChild p o c = p := by simp [appendChild, hp]
        rw [ha]
        obtain ⟨i1, i2, i3⟩ := populate_inv cs h hm (fun d hd => hcs d (by simp [hd]))
        refine ⟨i1, i2, ?_⟩
        intro hok d hd
        rcases List.mem_cons.1 hd with rfl | hd
        · exact Or.inl hp
        · exact i3 hok d hd
      · have hpr : ∀ x, ((appendChild p o c).objs x).presence = (p.objs x).presence := by
          intro x; simp only [appendChild, hp, if_false, Pool.set]; by_cases h1 : x = c <;> by_cases h2 : x = o <;> by_cases h3 : c = o <;> simp_all
        have hch : ∀ x, ((appendChild p o c).objs x).children =
            if x = o then (p.objs o).children ++ [((p.objs o).nextSlot, c)] else (p.objs x).children := by
          intro x; simp only [appendChild, hp, if_false, Pool.set]; by_cases h1 : x = c <;> by_cases h2 : x = o <;> by_cases h3 : c = o <;> simp_all
        have hpa : ∀ x, ((appendChild p o c).objs x).parents =
            if x = c then (p.objs c).parents ++ [(o, (p.objs o).nextSlot)] else (p.objs x).parents := by
          intro x; simp only [appendChild, hp, if_false, Pool.set]; by_cases h1 : x = c <;> by_cases h2 : x = o <;> by_cases h3 : c = o <;> simp_all
        have hns : ∀ x, ((appendChild p o c).objs x).nextSlot =
            if x = o then (p.objs o).nextSlot + 1 else (p.objs x).nextSlot := by
          intro x; simp only [appendChild, hp, if_false, Pool.set]; by_cases h1 : x = c <;> by_cases h2 : x = o <;> by_cases h3 : c = o <;> simp_all
        have hop : ∀ x, ((appendChild p o c).objs x).op = (p.objs x).op := by
          intro x; simp only [appendChild, hp, if_false, Pool.set]; by_cases h1 : x = c <;> by_cases h2 : x = o <;> by_cases h3 : c = o <;> simp_all
        have hbu : ∀ x, ((appendChild p o c).objs x).busy = (p.objs x).busy := by
          intro x; simp only [appendChild, hp, if_false, Pool.set]; by_cases h1 : x = c <;> by_cases h2 : x = o <;> by_cases h3 : c = o <;> simp_all
        have e1 : (appendChild p o c).queries = p.queries := by simp [appendChild, hp]
        have e2 : (appendChild p o c).uploads = p.uploads := by simp [appendChild, hp]
        have e3 : (appendChild p o c).running = p.running := by simp [appendChild, hp]
        have e4 : (appendChild p o c).stopped = p.stopped := by simp [appendChild, hp]
        have e5 : (appendChild p o c).log = p.log := by simp [appendChild, hp]
        have key := inv_append h hm (hcs c (by simp)) hp hpr hch hpa hns hop hbu e1 e2 e3 e4 e5
        obtain ⟨i1, i2, i3⟩ := populate_inv cs key (by rw [hpr]; exact hm) (fun d hd => hcs d (by simp [hd]))
        refine ⟨i1, ⟨fun x => (i2.presence x).trans (hpr x), i2.queries.trans e1, i2.uploads.trans e2, i2.running.trans e3,
          i2.stopped.trans e4, i2.log.trans e5, fun x => (i2.op x).trans (hop x), fun z hz => i2.children z ?_⟩, ?_⟩
        · rw [hch, if_pos rfl]; simp [hz]
        · intro hok d hd
          rcases List.mem_cons.1 hd with rfl | hd
          · right
            exact ⟨(p.objs o).nextSlot, i2.children _ (by rw [hch, if_pos rfl]; simp)⟩
          · rcases i3 hok d hd with h6 | h6
            · left; rwa [hpr] at h6
            · exact Or.inr h6
    · exact ⟨h, ⟨fun _ => rfl, rfl, rfl, rfl, rfl, rfl, fun _ => rfl, fun _ hz => hz⟩, by simp⟩

/-- One query of `QueryChildren`. -/
theorem inv_addQuery {repo root p o c} (h : Inv repo root p (live p) (· = o)) (hm : (p.objs o).presence = .missing)
    (hc : c ∈ repo.refs o) (hu : (p.objs c).presence = .unknown) {q : Pool}
    (hpr : ∀ x, (q.objs x).presence = if x = c then .inProgress else (p.objs x).presence)
    (hch : ∀ x, (q.objs x).children = (p.objs x).children)
    (hpa : ∀ x, (q.objs x).parents = (p.objs x).parents) (hns : ∀ x, (q.objs x).nextSlot = (p.objs x).nextSlot)
    (hop : ∀ x, (q.objs x).op = (p.objs x).op) (hbu : ∀ x, (q.objs x).busy = (p.objs x).busy)
    (h1 : q.queries = if p.stopped = false then p.queries ++ [c] else p.queries) (h2 : q.uploads = p.uploads)
    (h3 : q.running = p.running) (h4 : q.stopped = p.stopped) (h5 : q.log = p.log) :
    Inv repo root q (live q) (· = o) := by
  have hl : live q = live p := by
    funext x; simp only [live, hpr, hpa]
    by_cases hx : x = c
    · subst hx; simp [hu]
    · simp [hx]
  have hnd := h.nodup
  have hno : c ∉ p.queries ∧ c ∉ p.uploads ∧ c ∉ p.running := by have := h.inProg c; grind
  have hcn : (p.objs c).children = [] := by have := h.wait c; grind
  rw [hl]
  constructor
  case nodup =>
    rw [h1, h2, h3]
    split
    · exact nodup_query hnd hno
    · exact hnd
  case ordered => rw [h5]; exact h.ordered
  case stop => have := h.stop; grind
  case busyIn => have := h.busyIn; grind
  case inProg => have := h.inProg; grind
  case up => have := h.up; grind
  case run => have := h.run; grind
  case link => have := h.link; grind
  case slots => have := h.slots; grind
  case slotsNodup => have := h.slotsNodup; grind
  case liveNodup => exact h.liveNodup
  case childRef => have := h.childRef; grind
  case wait => have := h.wait; grind
  case seen => have := h.seen; grind
  case cover => have := h.cover; grind
  case miss => have := h.miss; grind
  case kids => have := h.kids; grind
  case listed => have := h.listed; grind
  case rootKnown => have := h.rootKnown; grind
  case reach => have := h.reach; have := Reach.step (h.reach o (by rw [hm]; decide)) hc; grind
  case sent => have := h.sent; grind

theorem queryChildren_inv {repo root o} : ∀ (cs : List (Nat × Obj)) {p : Pool}, Inv repo root p (live p) (· = o) →
    (p.objs o).presence = .missing → (∀ s c, (s, c) ∈ cs → c ∈ repo.refs o) →
    Inv repo root (queryChildren p cs) (live (queryChildren p cs)) (· = o) ∧
      ((queryChildren p cs).objs o).presence = .missing ∧
      (∀ x, ((queryChildren p cs).objs x).children = (p.objs x).children) ∧
      (queryChildren p cs).stopped = p.stopped ∧
      (∀ x, (p.objs x).presence ≠ .unknown → ((queryChildren p cs).objs x).presence = (p.objs x).presence) ∧
      (∀ s c, (s, c) ∈ cs → ((queryChildren p cs).objs c).presence ≠ .unknown) ∧
      (∀ x, mu (queryChildren p cs) x ≤ mu p x)
  | [], p, h, hm, _ => ⟨h, hm, fun _ => rfl, rfl, fun _ _ => rfl, by simp, fun _ => Nat.le_refl _⟩
  | (s, c) :: cs, p, h, hm, hcs => by
    have hcs' : ∀ t d, (t, d) ∈ cs → d ∈ repo.refs o := fun t d hd => hcs t d (by simp [hd])
    simp only [queryChildren]
    by_cases hu : (p.objs c).presence = .unknown
    · rw [if_pos hu]
      have hoc : o ≠ c := by rintro rfl; rw [hm] at hu; cases hu
      have key := inv_addQuery h hm (hcs s c (by simp)) hu (q := p.addQuery c)
        (by intro x; rw [addQuery_objs]; split <;> simp_all) (by intro x; rw [addQuery_objs]; split <;> simp_all)
        (by intro x; rw [addQuery_objs]; split <;> simp_all) (by intro x; rw [addQuery_objs]; split <;> simp_all)
        (by intro x; rw [addQuery_objs]; split <;> simp_all) (by intro x; rw [addQuery_objs]; split <;> simp_all)
        (by simp only [Pool.addQuery, setPresence_stopped]; by_cases hs : p.stopped = true <;> simp [hs])
        (by simp only [Pool.addQuery]; split <;> rfl) (by simp only [Pool.addQuery]; split <;> rfl)
        (by simp only [Pool.addQuery]; split <;> rfl) (by simp only [Pool.addQuery]; split <;> rfl)
      obtain ⟨i1, i2, i3, i4, i5, i6, i7⟩ := queryChildren_inv cs key (by rw [addQuery_objs, if_neg hoc]; exact hm) hcs'
      refine ⟨i1, i2, fun x => (i3 x).trans ?_, i4.trans ?_, ?_, ?_, fun x => Nat.le_trans (i7 x) ?_⟩
      · rw [addQuery_objs]; split <;> simp_all
      · simp only [Pool.addQuery]; split <;> rfl
      · intro x hx
        have hxc : x ≠ c := by rintro rfl; exact hx hu
        have := i5 x (by rw [addQuery_objs, if_neg hxc]; exact hx)
        rw [this, addQuery_objs, if_neg hxc]
      · intro t d hd
        rcases List.mem_cons.1 hd with hd | hd
        · simp only [Prod.mk.injEq] at hd
          obtain ⟨rfl, rfl⟩ := hd
          have e : ((p.addQuery d).objs d).presence = .inProgress := by rw [addQuery_objs, if_pos rfl]
          rw [i5 d (by rw [e]; decide), e]; decide
        · exact i6 t d hd
      · exact mu_addQuery hu x
    · rw [if_neg hu]
      obtain ⟨i1, i2, i3, i4, i5, i6, i7⟩ := queryChildren_inv cs h hm hcs'
      refine ⟨i1, i2, i3, i4, i5, ?_, i7⟩
      intro t d hd
      rcases List.mem_cons.1 hd with hd | hd
      · simp only [Prod.mk.injEq] at hd
        obtain ⟨rfl, rfl⟩ := hd
        rw [i5 d hu]; exact hu
      · exact i6 t d hd

/-- A finished request is taken in hand. -/
theorem inv_take {repo root p o} (h : Good repo root p) (ho : o ∈ p.running) (pres : Presence)
    (hp : pres = .present ∨ pres = .missing) {q : Pool}
    (hpr : ∀ x, (q.objs x).presence = if x = o then pres else (p.objs x).presence)
    (hch : ∀ x, (q.objs x).children = (p.objs x).children)
    (hns : ∀ x, (q.objs x).nextSlot = (p.objs x).nextSlot)
    (hop : ∀ x, (q.objs x).op = (p.objs x).op) (hbu : ∀ x, (q.objs x).busy = (p.objs x).busy)
    (h1 : q.queries = p.queries) (h2 : q.uploads = p.uploads)
    (h3 : q.running = p.running.filter (· != o)) (h4 : q.stopped = p.stopped)
    (h5 : q.log = if pres = .present then p.log ++ [.seen o] else p.log) : Inv repo root q (live p) (· = o) := by
  have hnd := h.nodup
  have hip := h.inProg o (Or.inr (Or.inr ho))
  have hno : o ∉ p.queries ∧ o ∉ p.uploads := by
    refine ⟨?_, ?_⟩
    · intro h6; exact (List.nodup_append.1 hnd).2.2 o (by simp [h6]) o ho rfl
    · intro h6; exact (List.nodup_append.1 hnd).2.2 o (by simp [h6]) o ho rfl
  have hcn : (p.objs o).children = [] := by have := h.wait o; grind
  have hmem : ∀ x, x ∈ q.running ↔ x ∈ p.running ∧ x ≠ o := by intro x; rw [h3]; simp [List.mem_filter]
  constructor
  case nodup => rw [h1, h2, h3]; exact (List.Sublist.append (List.Sublist.refl _) List.filter_sublist).nodup hnd
  case ordered =>
    rw [h5]; split
    · exact ordered_snoc h.ordered (by simp)
    · exact h.ordered
  case stop => have := h.stop; grind
  case busyIn => have := h.busyIn; grind
  case inProg => have := h.inProg; grind
  case up => have := h.up; grind
  case run => have := h.run; grind
  case link => have := h.link; grind
  case slots => have := h.slots; grind
  case slotsNodup => have := h.slotsNodup; grind
  case liveNodup => exact h.liveNodup
  case childRef => have := h.childRef; grind
  case wait => have := h.wait; grind
  case seen => have := h.seen; grind
  case cover => have := h.cover; grind
  case miss => have := h.miss; grind
  case kids => have := h.kids; grind
  case listed => have := h.listed; grind
  case rootKnown => have := h.rootKnown; grind
  case reach => have := h.reach; grind
  case sent => have := h.sent; grind

theorem running_mu {repo root p o} (h : Good repo root p) (ho : o ∈ p.running) : 0 < mu p o := by
  have hip := h.inProg o (Or.inr (Or.inr ho))
  simp only [mu, hip]; grind

theorem running_check_mu {repo root p o} (h : Good repo root p) (ho : o ∈ p.running) (hop : (p.objs o).op = .presenceCheck) :
    3 < mu p o := by
  have hip := h.inProg o (Or.inr (Or.inr ho))
  simp only [mu, hip]; grind

theorem mu_take {repo root p o} (_h : Good repo root p) (_ho : o ∈ p.running) (pres : Presence) (n : Nat) {q : Pool}
    (hpr : ∀ x, (q.objs x).presence = if x = o then pres else (p.objs x).presence)
    (hop : ∀ x, (q.objs x).op = (p.objs x).op)
    (h1 : q.queries = p.queries) (h2 : q.uploads = p.uploads) (h3 : q.running = p.running.filter (· != o))
    (hn : mu q o ≤ n) (hlt : n < mu p o) : mu q o < mu p o ∧ ∀ x, mu q x ≤ mu p x := by
  refine ⟨by omega, fun x => ?_⟩
  by_cases hx : x = o
  · subst hx; omega
  · have : x ∈ q.running ↔ x ∈ p.running := by rw [h3]; simp [List.mem_filter, hx]
    simp only [mu, hpr, hx, if_false, hop, h1, h2, this]
    exact Nat.le_refl _

theorem mu_abort {p : Pool} (x : Obj) : mu p.abort x ≤ mu p x := by
  simp only [mu, Pool.abort]; grind

theorem curlDone_seen {repo root p o} (h : Good repo root p) (ho : o ∈ p.running) :
    ∃ q, notifyParents { ({ p with running := p.running.filter (· != o) } : Pool).setPresence o .present with
        log := p.log ++ [.seen o] } o = .ok q ∧ Good repo root (q.set o { q.objs o with busy := false }) ∧
      mu q o < mu p o ∧ ∀ x, mu q x ≤ mu p x := by
  have hip := h.inProg o (Or.inr (Or.inr ho))
  generalize hp2 : ({ ({ p with running := p.running.filter (· != o) } : Pool).setPresence o .present with
        log := p.log ++ [.seen o] } : Pool) = p2
  have hpr : ∀ x, (p2.objs x).presence = if x = o then .present else (p.objs x).presence := by
    intro x; rw [← hp2]; exact pres_setPresence ..
  have hpa : ∀ x, (p2.objs x).parents = (p.objs x).parents := by intro x; rw [← hp2]; exact pa_setPresence ..
  have key := inv_take h ho .present (Or.inl rfl) (q := p2) hpr
    (by intro x; rw [← hp2]; exact ch_setPresence ..) (by intro x; rw [← hp2]; exact ns_setPresence ..)
    (by intro x; rw [← hp2]; exact op_setPresence ..) (by intro x; rw [← hp2]; exact busy_setPresence ..)
    (by rw [← hp2]; rfl) (by rw [← hp2]; rfl) (by rw [← hp2]; rfl) (by rw [← hp2]; rfl) (by rw [← hp2]; rfl)
  have hpo : (p2.objs o).presence = .present := by rw [hpr, if_pos rfl]
  obtain ⟨q, hq1, hq2, hq3⟩ := notifyLoop_inv (c := o) (p2.objs o).parents key hpo
    (by rw [live, if_neg (by rw [hip]; decide), hpa])
  have hqo : (q.objs o).presence = .present := (hq3.present o).2 hpo
  have hqc : (q.objs o).children = [] := by
    apply Classical.byContradiction; intro hn; have := hq2.wait o hn; rw [hqo] at this; cases this
  have hrun2 : p2.running = p.running.filter (· != o) := by rw [← hp2]; rfl
  have hmu2 := mu_take h ho .present 0 (q := p2) hpr (by intro x; rw [← hp2]; exact op_setPresence ..) (by rw [← hp2]; rfl)
    (by rw [← hp2]; rfl) hrun2 (by simp only [mu, hpr, if_true]; exact Nat.le_refl _) (running_mu h ho)
  refine ⟨q, hq1, inv_release hq2 ?_ ?_ ?_ ?_ ?_ ?_ ?_, Nat.lt_of_le_of_lt (hq3.mu o) hmu2.1,
    fun x => Nat.le_trans (hq3.mu x) (hmu2.2 x)⟩
  · intro x
    rw [upd_apply, live, live, hq3.parents, hpa]
    by_cases hx : x = o
    · subst hx; rw [if_pos rfl, if_pos hqo]
    · rw [if_neg hx]
      have : (q.objs x).presence = .present ↔ (p.objs x).presence = .present := by rw [hq3.present, hpr, if_neg hx]
      by_cases h6 : (p.objs x).presence = .present
      · rw [if_pos h6, if_pos (this.2 h6)]
      · rw [if_neg h6, if_neg (fun h7 => h6 (this.1 h7))]
  · intro _ hn; exact absurd hqc hn
  · intro _ hn; rw [hqo] at hn; cases hn
  · intro _ s c hn; rw [hqc] at hn; simp at hn
  · intro _ x s hn
    have := (hq2.link x s o).1 hn
    rw [upd_apply, if_pos rfl] at this
    simp at this
  · intro _ hn; rw [hqo] at hn; cases hn
  · rw [hqo]; decide

theorem curlDone_missing {repo root p o} (h : Good repo root p) (ho : o ∈ p.running) (hop : (p.objs o).op = .presenceCheck)
    {code : Nat} (hcode : code ≠ 200) :
    Good repo root ((checkChildren repo (({ p with running := p.running.filter (· != o) } : Pool).setPresence o .missing) o code).set o
      { (checkChildren repo (({ p with running := p.running.filter (· != o) } : Pool).setPresence o .missing) o code).objs o with
        busy := false }) ∧
      mu (checkChildren repo (({ p with running := p.running.filter (· != o) } : Pool).setPresence o .missing) o code) o < mu p o ∧
      ∀ x, mu (checkChildren repo (({ p with running := p.running.filter (· != o) } : Pool).setPresence o .missing) o code) x ≤
        mu p x := by
  have hip := h.inProg o (Or.inr (Or.inr ho))
  generalize hp2 : ({ p with running := p.running.filter (· != o) } : Pool).setPresence o .missing = p2
  have hpr : ∀ x, (p2.objs x).presence = if x = o then .missing else (p.objs x).presence := by
    intro x; rw [← hp2]; exact pres_setPresence ..
  have hpa : ∀ x, (p2.objs x).parents = (p.objs x).parents := by intro x; rw [← hp2]; exact pa_setPresence ..
  have key := inv_take h ho .missing (Or.inr rfl) (q := p2) hpr
    (by intro x; rw [← hp2]; exact ch_setPresence ..) (by intro x; rw [← hp2]; exact ns_setPresence ..)
    (by intro x; rw [← hp2]; exact op_setPresence ..) (by intro x; rw [← hp2]; exact busy_setPresence ..)
    (by rw [← hp2]; rfl) (by rw [← hp2]; rfl) (by rw [← hp2]; rfl) (by rw [← hp2]; rfl) (by rw [← hp2]; rfl)
  have hmu2 := mu_take h ho .missing 3 (q := p2) hpr (by intro x; rw [← hp2]; exact op_setPresence ..) (by rw [← hp2]; rfl)
    (by rw [← hp2]; rfl) (by rw [← hp2]; rfl) (by simp only [mu, hpr, if_true]; exact Nat.le_refl _) (running_check_mu h ho hop)
  have hlive : live p = live p2 := by
    funext x; simp only [live, hpr, hpa]; by_cases hx : x = o
    · subst hx; simp [hip]
    · simp [hx]
  rw [hlive] at key
  have hpo : (p2.objs o).presence = .missing := by rw [hpr, if_pos rfl]
  obtain ⟨i1, i2, i3⟩ := populate_inv (repo.refs o) key hpo (fun _ hc => hc)
  unfold checkChildren
  generalize populate repo o p2 (repo.refs o) = r at *
  obtain ⟨p3, ok⟩ := r
  simp only at i1 i2 i3 ⊢
  have h3o : (p3.objs o).presence = .missing := (i2.presence o).trans hpo
  have hmu3 : ∀ x, mu p3 x = mu p2 x := mu_congr i2.presence i2.op i2.queries i2.uploads i2.running
  have hfin : ∀ r : Pool, (∀ x, mu r x ≤ mu p3 x) → mu r o < mu p o ∧ ∀ x, mu r x ≤ mu p x := by
    intro r hr
    have h1 := hr o
    rw [hmu3] at h1
    exact ⟨Nat.lt_of_le_of_lt h1 hmu2.1, fun x => Nat.le_trans (hr x) (by rw [hmu3]; exact hmu2.2 x)⟩
  cases ok with
  | false =>
    simp only [Bool.not_false, if_true]
    refine ⟨inv_release (inv_abort i1) (fun _ => rfl) ?_ ?_ ?_ ?_ ?_ ?_, hfin _ mu_abort⟩
    · intro hs; simp [Pool.abort] at hs
    · intro hs; simp [Pool.abort] at hs
    · intro hs; simp [Pool.abort] at hs
    · intro hs; simp [Pool.abort] at hs
    · intro hs; simp [Pool.abort] at hs
    · show (p3.objs o).presence ≠ _; rw [h3o]; decide
  | true =>
    simp only [Bool.not_true, Bool.false_eq_true, if_false]
    by_cases he : (p3.objs o).children.isEmpty = true
    · rw [if_pos he, if_pos hcode]
      have hnil : (p3.objs o).children = [] := List.isEmpty_iff.1 he
      have hall : ∀ c ∈ repo.refs o, (p3.objs c).presence = .present := by
        intro c hc
        rcases i3 rfl c hc with h6 | ⟨s, h6⟩
        · rw [i2.presence]; exact h6
        · rw [hnil] at h6; simp at h6
      have hpr' : ∀ x, ((p3.addUpload o).objs x).presence = if x = o then .inProgress else (p3.objs x).presence := by
        intro x; rw [addUpload_objs]; split <;> rfl
      have hch' : ∀ x, ((p3.addUpload o).objs x).children = (p3.objs x).children := by
        intro x; rw [addUpload_objs]; split <;> simp_all
      have hpa' : ∀ x, ((p3.addUpload o).objs x).parents = (p3.objs x).parents := by
        intro x; rw [addUpload_objs]; split <;> simp_all
      have hns' : ∀ x, ((p3.addUpload o).objs x).nextSlot = (p3.objs x).nextSlot := by
        intro x; rw [addUpload_objs]; split <;> simp_all
      have hop' : ∀ x, ((p3.addUpload o).objs x).op = (p3.objs x).op := by
        intro x; rw [addUpload_objs]; split <;> simp_all
      have hbu' : ∀ x, ((p3.addUpload o).objs x).busy = (p3.objs x).busy := by
        intro x; rw [addUpload_objs]; split <;> simp_all
      have h1 : (p3.addUpload o).queries = p3.queries := by simp only [Pool.addUpload]; split <;> rfl
      have h2 : (p3.addUpload o).uploads = if p3.stopped = false then p3.uploads ++ [o] else p3.uploads := by
        simp only [Pool.addUpload, setPresence_stopped]; by_cases hs : p3.stopped = true <;> simp [hs]
      have h3 : (p3.addUpload o).running = p3.running := by simp only [Pool.addUpload]; split <;> rfl
      have h4 : (p3.addUpload o).stopped = p3.stopped := by simp only [Pool.addUpload]; split <;> rfl
      have h5 : (p3.addUpload o).log = p3.log := by simp only [Pool.addUpload]; split <;> rfl
      have hno : o ∉ p3.queries ∧ o ∉ p3.uploads ∧ o ∉ p3.running := by have := i1.inProg o; grind
      have hmu4 : ∀ x, mu (p3.addUpload o) x ≤ mu p3 x := mu_addUpload h3o hno
      generalize p3.addUpload o = p4 at *
      have hl4 : live p4 = live p3 := by
        funext x; simp only [live, hpr', hpa']; by_cases hx : x = o
        · subst hx; simp [h3o]
        · simp [hx]
      have i4 : Inv repo root p4 (live p4) (· = o) := by
        have h := i1
        have hnd := h.nodup
        clear i2 i3 key
        rw [hl4]
        constructor
        case nodup =>
          rw [h1, h2, h3]; split
          · exact nodup_upload hnd hno
          · exact hnd
        case ordered => rw [h5]; exact h.ordered
        case stop => have := h.stop; grind
        case busyIn => have := h.busyIn; grind
        case inProg => have := h.inProg; grind
        case up => have := h.up; grind
        case run => have := h.run; grind
        case link => have := h.link; grind
        case slots => have := h.slots; grind
        case slotsNodup => have := h.slotsNodup; grind
        case liveNodup => exact h.liveNodup
        case childRef => have := h.childRef; grind
        case wait => have := h.wait; grind
        case seen => have := h.seen; grind
        case cover => have := h.cover; grind
        case miss => have := h.miss; grind
        case kids => have := h.kids; grind
        case listed => have := h.listed; grind
        case rootKnown => have := h.rootKnown; grind
        case reach => have := h.reach; grind
        case sent => have := h.sent; grind

      refine ⟨inv_release i4 (fun _ => rfl) ?_ ?_ ?_ ?_ ?_ ?_, hfin _ hmu4⟩
      · intro _ hn; rw [hch', hnil] at hn; exact absurd rfl hn
      · intro _ hn; rw [hpr', if_pos rfl] at hn; cases hn
      · intro _ s c hn; rw [hch', hnil] at hn; simp at hn
      · intro _ x s _; right; rw [hpr', if_pos rfl]
      · intro hs _; right; left; rw [h2, if_pos (by rw [← h4]; exact hs)]; simp
      · rw [hpr', if_pos rfl]; decide
    · rw [if_neg he]
      have hne : (p3.objs o).children ≠ [] := by intro e; rw [e] at he; simp at he
      obtain ⟨j1, j2, j3, j4, j5, j6, j7⟩ := queryChildren_inv (p3.objs o).children i1 h3o (fun s c hc => i1.childRef o s c hc)
      refine ⟨inv_release j1 (fun _ => rfl) ?_ ?_ ?_ ?_ ?_ ?_, hfin _ j7⟩
      · intro _ _ c hc
        rw [j3]
        rcases i3 rfl c hc with h6 | h6
        · left
          have h7 : (p3.objs c).presence = .present := by rw [i2.presence]; exact h6
          rw [j5 c (by rw [h7]; decide), h7]
        · exact Or.inr h6
      · intro _ _; rw [j3]; exact hne
      · intro _ s c hc
        have h6 := (j1.link o s c).1 hc
        rw [j3] at hc
        have h7 := j6 s c hc
        have h8 : ((queryChildren p3 (p3.objs o).children).objs c).presence ≠ .present := by
          intro e; rw [live, if_pos e] at h6; simp at h6
        revert h7 h8
        cases ((queryChildren p3 (p3.objs o).children).objs c).presence <;> simp
      · intro _ _ _ _; exact Or.inl j2
      · intro _ hn; rw [j2] at hn; cases hn
      · rw [j2]; decide

theorem mu_again {p q : Pool} {o : Obj} (hip : (p.objs o).presence = .inProgress) (ho : o ∈ p.running)
    (hno : o ∉ p.queries ∧ o ∉ p.uploads) (upl : Bool)
    (hu : upl = true ↔ (p.objs o).op = .uploading)
    (hpr : ∀ x, (q.objs x).presence = (p.objs x).presence)
    (hop : ∀ x, (q.objs x).op = (p.objs x).op)
    (h1 : q.queries = if upl = false ∧ p.stopped = false then p.queries ++ [o] else p.queries)
    (h2 : q.uploads = if upl = true ∧ p.stopped = false then p.uploads ++ [o] else p.uploads)
    (h3 : q.running = p.running.filter (· != o)) :
    mu q o ≤ mu p o + 1 ∧ ∀ x, x ≠ o → mu q x ≤ mu p x := by
  constructor
  · cases upl
    · have : (p.objs o).op = .presenceCheck := by revert hu; cases (p.objs o).op <;> simp
      simp only [mu, hpr, hop, h1, h2, h3, hip]; grind
    · have : (p.objs o).op = .uploading := hu.1 rfl
      simp only [mu, hpr, hop, h1, h2, h3, hip]; grind
  · intro x hx
    have e1 : x ∈ q.running ↔ x ∈ p.running := by rw [h3]; simp [List.mem_filter, hx]
    have e2 : x ∈ q.queries ↔ x ∈ p.queries := by rw [h1]; split <;> simp [hx]
    have e3 : x ∈ q.uploads ↔ x ∈ p.uploads := by rw [h2]; split <;> simp [hx]
    simp only [mu, hpr, hop, e1, e2, e3]
    exact Nat.le_refl _

/-- What a response does to the distances. -/
def Progress (p q : Pool) (o : Obj) (definite : Prop) : Prop :=
  (∀ x, x ≠ o → mu q x ≤ mu p x) ∧ mu q o ≤ mu p o + 1 ∧ (definite → mu q o < mu p o)

theorem progress_of {p q : Pool} {o : Obj} {d : Prop} (h : mu q o < mu p o ∧ ∀ x, mu q x ≤ mu p x) : Progress p q o d :=
  ⟨fun x _ => h.2 x, by omega, fun _ => h.1⟩

theorem mu_release {p : Pool} {o : Obj} (x : Obj) : mu (p.set o { p.objs o with busy := false }) x = mu p x := by
  refine mu_congr (p := p) (q := p.set o { p.objs o with busy := false }) ?_ ?_ rfl rfl rfl x <;>
    (intro x; simp [Pool.set]; split <;> simp_all)

theorem good_done {repo root p o} (h : Good repo root p) (ho : o ∈ p.running) (urlOk : Bool) (code : Nat) :
    ∃ q, curlDone repo .default p o urlOk code = .ok q ∧ Good repo root q ∧
      Progress p q o (Definite (p.objs o).op urlOk code) := by
  have hip := h.inProg o (Or.inr (Or.inr ho))
  have hno : o ∉ p.queries ∧ o ∉ p.uploads := by
    have hnd := h.nodup
    refine ⟨?_, ?_⟩
    · intro h6; exact (List.nodup_append.1 hnd).2.2 o (by simp [h6]) o ho rfl
    · intro h6; exact (List.nodup_append.1 hnd).2.2 o (by simp [h6]) o ho rfl
  have hpe : (p.objs o).op = .presenceCheck →
      Good repo root ((presenceError { p with running := p.running.filter (· != o) } o).set o
      { (presenceError { p with running := p.running.filter (· != o) } o).objs o with busy := false }) ∧
      (mu ((presenceError { p with running := p.running.filter (· != o) } o).set o
        { (presenceError { p with running := p.running.filter (· != o) } o).objs o with busy := false }) o ≤ mu p o + 1 ∧
       ∀ x, x ≠ o → mu ((presenceError { p with running := p.running.filter (· != o) } o).set o
        { (presenceError { p with running := p.running.filter (· != o) } o).objs o with busy := false }) x ≤ mu p x) := by
    intro hop
    constructor
    refine inv_again h ho false (by simp) ?_ ?_ ?_ ?_ ?_ ?_ ?_ ?_ ?_ ?_ ?_
    rotate_left 11
    refine mu_again hip ho hno false (by simp [hop]) ?_ ?_ ?_ ?_ ?_
    any_goals
      intro x
      simp only [Pool.set, presenceError, addQuery_objs, Pool.setPresence]
      by_cases hx : x = o <;> simp_all
    all_goals
      simp only [Pool.set, presenceError, Pool.addQuery, setPresence_stopped]
      by_cases hs : p.stopped = true <;> simp [hs]
  have hue : (p.objs o).op = .uploading → Good repo root ((uploadError { p with running := p.running.filter (· != o) } o).set o
      { (uploadError { p with running := p.running.filter (· != o) } o).objs o with busy := false }) ∧
      (mu ((uploadError { p with running := p.running.filter (· != o) } o).set o
        { (uploadError { p with running := p.running.filter (· != o) } o).objs o with busy := false }) o ≤ mu p o + 1 ∧
       ∀ x, x ≠ o → mu ((uploadError { p with running := p.running.filter (· != o) } o).set o
        { (uploadError { p with running := p.running.filter (· != o) } o).objs o with busy := false }) x ≤ mu p x) := by
    intro hop
    constructor
    refine inv_again h ho true (fun _ => hop) ?_ ?_ ?_ ?_ ?_ ?_ ?_ ?_ ?_ ?_ ?_
    rotate_left 11
    refine mu_again hip ho hno true (by simp [hop]) ?_ ?_ ?_ ?_ ?_
    any_goals
      intro x
      simp only [Pool.set, uploadError, addUpload_objs, Pool.setPresence]
      by_cases hx : x = o <;> simp_all
    all_goals
      simp only [Pool.set, uploadError, Pool.addUpload, setPresence_stopped]
      by_cases hs : p.stopped = true <;> simp [hs]
  obtain ⟨q, hq1, hq2, hq3⟩ := curlDone_seen h ho
  have hq3' : ∀ d, Progress p (q.set o { q.objs o with busy := false }) o d := by
    intro d; apply progress_of; simp only [mu_release]; exact hq3
  unfold curlDone
  cases hop : (p.objs o).op with
  | presenceCheck =>
    simp only [hop]
    have hpe := hpe hop
    cases urlOk with
    | false => exact ⟨_, rfl, hpe.1, hpe.2.2, hpe.2.1, fun hd => by cases hd.1⟩
    | true =>
      simp only [Bool.not_true, Bool.false_eq_true, if_false, reduceCtorEq, or_self]
      by_cases h200 : code = 200
      · rw [if_pos h200]
        simp only [setPresence_log, hq1]
        exact ⟨_, rfl, hq2, hq3' _⟩
      · rw [if_neg h200]
        by_cases h404 : code = 404
        · rw [if_pos h404]
          have hm := curlDone_missing h ho hop h200
          exact ⟨_, rfl, hm.1, progress_of (by simp only [mu_release]; exact hm.2)⟩
        · rw [if_neg h404]
          refine ⟨_, rfl, hpe.1, hpe.2.2, hpe.2.1, fun hd => ?_⟩
          rcases hd.2 with h6 | h6
          · exact absurd h6 h200
          · exact absurd h6 h404
  | uploading =>
    simp only [hop]
    have hue := hue hop
    cases urlOk with
    | false => exact ⟨_, rfl, hue.1, hue.2.2, hue.2.1, fun hd => by cases hd.1⟩
    | true =>
      simp only [Bool.not_true, Bool.false_eq_true, if_false, reduceCtorEq, or_self]
      by_cases hok : code = 204 ∨ code = 409
      · rw [if_pos hok]
        simp only [setPresence_log, hq1]
        exact ⟨_, rfl, hq2, hq3' _⟩
      · rw [if_neg hok]
        exact ⟨_, rfl, hue.1, hue.2.2, hue.2.1, fun hd => absurd hd.2 hok⟩

theorem good_start {repo : Repo} {root : Obj} : Good repo root (start root) := by
  have ho : ∀ x, (start root).objs x = if x = root then { presence := .inProgress } else {} := by
    intro x; rfl
  have hl : ∀ x, live (start root) x = [] := by
    intro x; simp only [live, ho]; by_cases hx : x = root <;> simp [hx]
  constructor
  case nodup => show ([root] ++ [] ++ []).Nodup; simp
  case ordered => intro pre o post h; simp [start, Pool.addQuery] at h
  case sent => intro o h; simp [start, Pool.addQuery] at h
  case stop => intro h; simp [start, Pool.addQuery] at h
  case inProg => intro o h6; have : o = root := by simpa [start, Pool.addQuery] using h6
                 rw [ho, if_pos this]
  case up => intro o h; simp [start, Pool.addQuery] at h
  case run => intro o h; simp [start, Pool.addQuery] at h
  case reach => intro o h; rw [ho] at h; by_cases hx : o = root
                · subst hx; exact .root
                · rw [if_neg hx] at h; exact absurd rfl h
  case listed => intro _ o h; left; rw [ho] at h; by_cases hx : o = root
                 · subst hx; simp [start, Pool.addQuery]
                 · rw [if_neg hx] at h; cases h
  case busyIn => intro o h; rw [ho] at h; by_cases hx : o = root <;> simp [hx] at h
  case link => intro o s c; rw [hl, ho]; by_cases hx : o = root <;> simp [hx]
  case slots => intro o s h; rw [ho] at h; by_cases hx : o = root <;> simp [hx] at h
  case slotsNodup => intro o; rw [ho]; by_cases hx : o = root <;> simp [hx]
  case liveNodup => intro o; rw [hl]; simp
  case childRef => intro o s c h; rw [ho] at h; by_cases hx : o = root <;> simp [hx] at h
  case wait => intro o h; rw [ho] at h; by_cases hx : o = root <;> simp [hx] at h
  case seen => intro o h; rw [ho] at h; by_cases hx : o = root <;> simp [hx] at h
  case cover => intro _ o h; rw [ho] at h; by_cases hx : o = root <;> simp [hx] at h
  case miss => intro _ o h; rw [ho] at h; by_cases hx : o = root <;> simp [hx] at h
  case kids => intro _ o s c h; rw [ho] at h; by_cases hx : o = root <;> simp [hx] at h
  case rootKnown => intro h; rw [ho, if_pos rfl] at h; cases h

theorem good_step {repo root p} (h : Good repo root p) (s : Step) : ∃ q, step repo .default p s = .ok q ∧ Good repo root q := by
  cases s with
  | launch => obtain ⟨q, h1, h2, -⟩ := good_launch h; exact ⟨q, h1, h2⟩
  | serverFailed =>
    refine ⟨_, rfl, ?_⟩
    have : live p.abort = live p := rfl
    unfold Good; rw [this]; exact inv_abort h
  | done o urlOk code =>
    show ∃ q, (if o ∈ p.running then curlDone repo .default p o urlOk code else .ok p) = .ok q ∧ _
    by_cases ho : o ∈ p.running
    · rw [if_pos ho]; obtain ⟨q, h1, h2, -⟩ := good_done h ho urlOk code; exact ⟨q, h1, h2⟩
    · rw [if_neg ho]; exact ⟨p, rfl, h⟩

theorem good_run {repo root} : ∀ (steps : List Step) {p : Pool}, Good repo root p →
    ∃ q, run repo .default p steps = .ok q ∧ Good repo root q
  | [], p, h => ⟨p, rfl, h⟩
  | s :: ss, p, h => by
    obtain ⟨q, h1, h2⟩ := good_step h s
    obtain ⟨r, h3, h4⟩ := good_run ss h2
    exact ⟨r, by simp only [run, h1, bind, Except.bind]; exact h3, h4⟩

end Aktualizr.Treehub
