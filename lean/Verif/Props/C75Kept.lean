import Verif.Props.C75
import Verif.Props.C24

/-! # C75, continued: which Secondaries are in the manifest -/

namespace Aktualizr

open M Spec

variable {env : Env} {p : Peers}

/-! ### What is kept -/

/-- No Secondary is forgotten, and what a silent one said last is kept. -/
def CacheHolds (p : Peers) (old new : List (String × String)) : Prop :=
  (∀ s, s ∈ old.map Prod.fst → s ∈ new.map Prod.fst) ∧ ∀ s text, Silent p s → old.lookup s = some text → new.lookup s = some text

theorem CacheHolds.refl (l : List (String × String)) : CacheHolds p l l := ⟨fun _ h => h, fun _ _ _ h => h⟩

theorem CacheHolds.trans {a b c : List (String × String)} (h : CacheHolds p a b) (h' : CacheHolds p b c) : CacheHolds p a c :=
  ⟨fun s hs => h'.1 s (h.1 s hs), fun s text hq hl => h'.2 s text hq (h.2 s text hq hl)⟩

/-- The rows after a manifest was stored. -/
def rowStored (s text : String) (l : List (String × String)) : List (String × String) := l.map (fun q => if q.1 = s then (q.1, text) else q)

theorem rowStored_keys (s text : String) (l : List (String × String)) : (rowStored s text l).map Prod.fst = l.map Prod.fst := by
  unfold rowStored
  rw [List.map_map]
  apply List.map_congr_left
  intro q _
  simp only [Function.comp]
  split <;> rfl

theorem rowStored_same (s text : String) : ∀ (l : List (String × String)), s ∈ l.map Prod.fst → (rowStored s text l).lookup s = some text
  | [], h => by cases h
  | (a, b) :: l, h => by
    unfold rowStored
    simp only [List.map_cons]
    by_cases ha : a = s
    · rw [if_pos ha]
      subst ha
      simp [List.lookup]
    · rw [if_neg ha]
      have hb : (s == a) = false := by simpa using fun h => ha h.symm
      simp only [List.lookup, hb]
      refine rowStored_same s text l ?_
      simp only [List.map_cons, List.mem_cons] at h
      exact h.resolve_left (fun h => ha h.symm)

theorem rowStored_other {s s' : String} (text : String) (hs : s' ≠ s) : ∀ (l : List (String × String)), (rowStored s text l).lookup s' = l.lookup s'
  | [] => rfl
  | (a, b) :: l => by
    have ih := rowStored_other text hs l
    unfold rowStored at ih ⊢
    simp only [List.map_cons]
    by_cases ha : a = s
    · rw [if_pos ha]
      have hb : (s' == a) = false := by rw [ha]; simpa using hs
      simp only [List.lookup, hb]
      exact ih
    · rw [if_neg ha]
      simp only [List.lookup]
      rw [ih]

theorem CacheHolds.store {s text : String} (l : List (String × String)) (hs : ¬ Silent p s) : CacheHolds p l (rowStored s text l) := by
  refine ⟨fun s' h => by rw [rowStored_keys]; exact h, fun s' text' hq hl => ?_⟩
  have hn : s' ≠ s := fun h => hs (h ▸ hq)
  rw [rowStored_other _ hn]
  exact hl

theorem not_silent {s : String} {j : Json} {n : Nat} (h : p.secManifest n s = .ok j) (hj : j.isEmpty = false) : ¬ Silent p s := by
  intro hq
  have := hq n
  rw [h] at this
  rcases this with rfl | rfl | rfl <;> simp [Json.isEmpty] at hj

theorem isEmpty_of_signed {j : Json} {k : PublicKey} (h : SignedBy env j k) : j.isEmpty = false := by
  obtain ⟨l, s, rest, x, sig, b, rfl, h1, _⟩ := h
  cases l with
  | nil => cases h1
  | cons _ _ => rfl

theorem obtain_answers {s : String} {j : Json} {k : PublicKey} (ha : AnswersWith p s j k) (hs : SignedBy env j k) (d : Dev) :
    obtainManifest env p s d = (.ok (some (j, false)), { d with n := d.n + 1 }) := by
  rw [obtainManifest_eq, ha.1]
  simp [isEmpty_of_signed hs]

theorem obtain_silent {s : String} (hq : Silent p s) (d : Dev) :
    obtainManifest env p s d = (.ok (kept env d.cache s), { d with n := d.n + 1 }) := by
  rw [obtainManifest_eq]
  have := hq d.n
  cases ha : p.secManifest d.n s with
  | error e =>
    rw [ha] at this
    simp [this]
  | ok j =>
    rw [ha] at this
    rcases this with rfl | rfl | rfl <;> simp [Json.isEmpty]

/-- What `secondaryManifests` lists of a Secondary, and keeps of it. -/
structure Complete (env : Env) (p : Peers) (l : List (String × String)) (d d' : Dev) (out : List (String × Json)) : Prop where
  fresh : ∀ s j k, s ∈ l.map Prod.fst → AnswersWith p s j k → SignedBy env j k → (s, j) ∈ out ∧ (s ∈ d.cache.map Prod.fst → d'.cache.lookup s = some (env.canon j))
  old : ∀ s text k, s ∈ l.map Prod.fst → Silent p s → d.cache.lookup s = some text → text ≠ "" → (∀ n, p.secKey n s = .ok k) →
    SignedBy env (env.parseJson text) k → (s, env.parseJson text) ∈ out
  settled : ∀ s j k, AnswersWith p s j k → SignedBy env j k → d.cache.lookup s = some (env.canon j) → d'.cache.lookup s = some (env.canon j)

theorem secondaryManifests_complete : ∀ (l : List (String × String)) {d d' : Dev} {o : Except Err (List (String × Json))},
    secondaryManifests env p l d = (o, d') →
    CacheHolds p d.cache d'.cache ∧ d'.cl.secondaries = d.cl.secondaries ∧ d'.cl.primary = d.cl.primary ∧ ∀ out, o = .ok out → Complete env p l d d' out
  | [], d, d', o, h => by
    simp only [secondaryManifests, pure_eq, Prod.mk.injEq] at h
    obtain ⟨rfl, rfl⟩ := h
    exact ⟨.refl _, rfl, rfl, fun out ho => ⟨fun _ _ _ hm => (by cases hm), fun _ _ _ hm => (by cases hm), fun _ _ _ _ _ h => h⟩⟩
  | (s, hw) :: rest, d, d', o, h => by
    have ih := @secondaryManifests_complete rest
    -- a Secondary that is passed over
    have skip : ∀ {d1 : Dev}, d1.cache = d.cache → d1.cl = d.cl → secondaryManifests env p rest d1 = (o, d') →
        (∀ j k, AnswersWith p s j k → SignedBy env j k → False) →
        (∀ text k, Silent p s → d.cache.lookup s = some text → text ≠ "" → (∀ n, p.secKey n s = .ok k) → SignedBy env (env.parseJson text) k → False) →
        CacheHolds p d.cache d'.cache ∧ d'.cl.secondaries = d.cl.secondaries ∧ d'.cl.primary = d.cl.primary ∧ ∀ out, o = .ok out → Complete env p ((s, hw) :: rest) d d' out := by
      intro d1 hc hcl h n1 n2
      obtain ⟨k1, k2, k3, k4⟩ := ih h
      rw [hc] at k1
      rw [hcl] at k2 k3
      refine ⟨k1, k2, k3, fun out ho => ⟨fun s' j k hm ha hs => ?_, fun s' text k hm hq hl hn hk hs => ?_, fun s' j k ha hs hl => ?_⟩⟩
      · rcases List.mem_cons.1 hm with hm | hm
        · have hm : s' = s := hm
          subst hm
          exact (n1 j k ha hs).elim
        · have := (k4 out ho).fresh s' j k hm ha hs
          rw [hc] at this
          exact this
      · rcases List.mem_cons.1 hm with hm | hm
        · have hm : s' = s := hm
          subst hm
          exact (n2 text k hq hl hn hk hs).elim
        · exact (k4 out ho).old s' text k hm hq (by rw [hc]; exact hl) hn hk hs
      · exact (k4 out ho).settled s' j k ha hs (by rw [hc]; exact hl)
    unfold secondaryManifests at h
    rcases bind_cases h with ⟨a, d1, g1, h⟩ | ⟨e, g1, rfl⟩
    swap_goal
    · rw [obtainManifest_eq] at g1
      simp only [Prod.mk.injEq] at g1
      obtain ⟨_, rfl⟩ := g1
      exact ⟨.refl _, rfl, rfl, fun out ho => by cases ho⟩
    cases a with
    | none =>
      have hd : d1 = { d with n := d.n + 1 } := by
        rw [obtainManifest_eq] at g1
        simp only [Prod.mk.injEq] at g1
        exact g1.2.symm
      refine skip (d1 := d1) (by rw [hd]) (by rw [hd]) h (fun j k ha hs => ?_) (fun text k hq hl hn hk hs => ?_)
      · rw [obtain_answers ha hs] at g1
        simp at g1
      · rw [obtain_silent hq] at g1
        simp [kept, hl, hn] at g1
    | some jc =>
      obtain ⟨j, c⟩ := jc
      obtain ⟨rfl, hsrc⟩ := obtainManifest_ok g1
      simp only at h
      rcases bind_cases h with ⟨k, d2, g2, h⟩ | ⟨e, g2, rfl⟩
      swap_goal
      · simp at g2
      simp only [ask_eq, Prod.mk.injEq, Except.ok.injEq] at g2
      obtain ⟨hkey, rfl⟩ := g2
      rcases bind_cases h with ⟨good, d3, g3, h⟩ | ⟨e, g3, rfl⟩
      swap_goal
      · simp only [lift_eq, Prod.mk.injEq] at g3
        obtain ⟨_, rfl⟩ := g3
        exact ⟨.refl _, rfl, rfl, fun out ho => by cases ho⟩
      simp only [lift_eq, Prod.mk.injEq] at g3
      obtain ⟨hgood, rfl⟩ := g3
      -- which document it is
      have ans : ∀ j' k', AnswersWith p s j' k' → SignedBy env j' k' → j = j' ∧ c = false ∧ good = true := by
        intro j' k' ha hs
        rw [obtain_answers ha hs] at g1
        simp only [Prod.mk.injEq, Except.ok.injEq, Option.some.injEq] at g1
        obtain ⟨⟨rfl, rfl⟩, _⟩ := g1
        refine ⟨rfl, rfl, ?_⟩
        have : k = .ok k' := by rw [← hkey]; exact ha.2 _
        rw [this] at hgood
        simp only [Bind.bind, Except.bind, manifestVerifies_of hs, orDefault] at hgood
        injection hgood with hgood
        exact hgood.symm
      have sil : ∀ text k', Silent p s → d.cache.lookup s = some text → text ≠ "" → (∀ n, p.secKey n s = .ok k') → SignedBy env (env.parseJson text) k' →
          j = env.parseJson text ∧ good = true := by
        intro text k' hq hl hn hk hs
        rw [obtain_silent hq] at g1
        simp only [kept, hl, hn, if_false, Prod.mk.injEq, Except.ok.injEq, Option.some.injEq] at g1
        obtain ⟨⟨rfl, _⟩, _⟩ := g1
        refine ⟨rfl, ?_⟩
        have : k = .ok k' := by rw [← hkey]; exact hk _
        rw [this] at hgood
        simp only [Bind.bind, Except.bind, manifestVerifies_of hs, orDefault] at hgood
        injection hgood with hgood
        exact hgood.symm
      cases good with
      | false =>
        rw [if_neg (by simp)] at h
        exact skip (d1 := { d with n := d.n + 1 + 1 }) rfl rfl h (fun j k ha hs => by cases (ans j k ha hs).2.2)
          (fun text k hq hl hn hk hs => by cases (sil text k hq hl hn hk hs).2)
      | true =>
        rw [if_pos rfl] at h
        have tail : ∀ {d4 : Dev}, CacheHolds p d.cache d4.cache → d4.cl.secondaries = d.cl.secondaries → d4.cl.primary = d.cl.primary →
            d4.cache = d.cache ∧ c = true ∨ d4.cache = rowStored s (env.canon j) d.cache →
            (do let l ← secondaryManifests env p rest; pure ((s, j) :: l) : D _) d4 = (o, d') →
            CacheHolds p d.cache d'.cache ∧ d'.cl.secondaries = d.cl.secondaries ∧ d'.cl.primary = d.cl.primary ∧ ∀ out, o = .ok out → Complete env p ((s, hw) :: rest) d d' out := by
          intro d4 k0 ks kp kc h
          rcases bind_cases h with ⟨out, d5, g5, h⟩ | ⟨e, g5, rfl⟩
          swap_goal
          · obtain ⟨k1, k2, k3, k4⟩ := ih g5
            exact ⟨k0.trans k1, k2.trans ks, k3.trans kp, fun out ho => by cases ho⟩
          obtain ⟨k1, k2, k3, k4⟩ := ih g5
          simp only [pure_eq, Prod.mk.injEq] at h
          obtain ⟨rfl, rfl⟩ := h
          have k4 := k4 out rfl
          have hset : ∀ s' j' k', AnswersWith p s' j' k' → SignedBy env j' k' → d.cache.lookup s' = some (env.canon j') → d4.cache.lookup s' = some (env.canon j') := by
            intro s' j' k' ha hs hl
            rcases kc with ⟨kc, _⟩ | kc
            · rw [kc]; exact hl
            · rw [kc]
              by_cases he : s' = s
              · subst he
                obtain ⟨rfl, _⟩ := ans j' k' ha hs
                exact rowStored_same _ _ _ (List.mem_map.2 ⟨_, lookup_mem' hl, rfl⟩)
              · rw [rowStored_other _ he]; exact hl
          refine ⟨k0.trans k1, k2.trans ks, k3.trans kp, fun out' ho => ?_⟩
          injection ho with ho
          subst ho
          refine ⟨fun s' j' k' hm ha hs => ?_, fun s' text k' hm hq hl hn hk hs => ?_, fun s' j' k' ha hs hl => k4.settled s' j' k' ha hs (hset s' j' k' ha hs hl)⟩
          · rcases List.mem_cons.1 hm with hm | hm
            · have hm : s' = s := hm
              subst hm
              obtain ⟨rfl, hc, _⟩ := ans j' k' ha hs
              refine ⟨.head _, fun hin => k4.settled _ _ _ ha hs ?_⟩
              rcases kc with ⟨_, kc⟩ | kc
              · rw [hc] at kc; cases kc
              · rw [kc]; exact rowStored_same _ _ _ hin
            · obtain ⟨h1, h2⟩ := k4.fresh s' j' k' hm ha hs
              exact ⟨.tail _ h1, fun hin => h2 (k0.1 _ hin)⟩
          · rcases List.mem_cons.1 hm with hm | hm
            · have hm : s' = s := hm
              subst hm
              obtain ⟨rfl, _⟩ := sil text k' hq hl hn hk hs
              exact .head _
            · exact .tail _ (k4.old s' text k' hm hq (k0.2 _ _ hq hl) hn hk hs)
        cases c with
        | true => exact tail (d4 := { d with n := d.n + 1 + 1 }) (.refl _) rfl rfl (.inl ⟨rfl, rfl⟩) h
        | false =>
          have hns : ¬ Silent p s := by
            intro hq
            rw [obtain_silent hq] at g1
            simp only [Prod.mk.injEq, Except.ok.injEq, kept] at g1
            cases hl : d.cache.lookup s with
            | none => rw [hl] at g1; simp at g1
            | some text =>
              rw [hl] at g1
              by_cases ht : text = "" <;> simp [ht] at g1
          rw [if_neg (by simp)] at h
          have prim : ∀ {d4 : Dev} {o' : Except Err Unit}, storeCached s (env.canon j) { d with n := d.n + 1 + 1 } = (o', d4) → d4.cl.primary = d.cl.primary := by
            intro d4 o' g4
            unfold storeCached at g4
            rcases bind_cases g4 with ⟨a, d1, g1, h⟩ | ⟨e, g1, rfl⟩
            · obtain ⟨cl', h5, rfl⟩ := inClient_run g1
              simp only [modify_eq, Prod.mk.injEq] at h
              obtain ⟨_, rfl⟩ := h
              rcases cwrite_cases h5 with ⟨n, _, _, rfl⟩ | ⟨_, rfl⟩ <;> rfl
            · obtain ⟨cl', h5, rfl⟩ := inClient_run g1
              rcases cwrite_cases h5 with ⟨n, _, _, rfl⟩ | ⟨_, rfl⟩ <;> rfl
          rcases bind_cases h with ⟨_, d4, g4, h⟩ | ⟨e, g4, rfl⟩
          · obtain ⟨r1, r3, _, r2⟩ := storeCached_run g4
            have r2 := r2 rfl
            refine tail ?_ r3 (prim g4) (.inr r2) h
            rw [r2]
            exact .store _ hns
          · obtain ⟨r1, r3, r2, _⟩ := storeCached_run g4
            refine ⟨?_, r3, prim g4, fun out ho => by cases ho⟩
            rcases r2 with r2 | r2
            · rw [r2]; exact .refl _
            · rw [r2]; exact .store _ hns

/-! ### Through the operations -/

/-- The ECUs are the same, and what was kept of silent Secondaries. -/
def EcuHolds (p : Peers) (d d' : Dev) : Prop := SameEcus d.cl d'.cl ∧ CacheHolds p d.cache d'.cache

theorem ecuHolds_pre : IsPre (EcuHolds p) :=
  ⟨fun _ => ⟨⟨rfl, rfl⟩, .refl _⟩, fun _ _ _ h h' => ⟨⟨h'.1.1.trans h.1.1, h'.1.2.trans h.1.2⟩, h.2.trans h'.2⟩⟩

theorem ecuHolds_frame : DevBase SameEcus (fun _ => True) (EcuHolds p) where
  cl := sameEcus_cl
  versions := fun _ _ _ _ _ => ⟨rfl, rfl⟩
  ecuResult := fun _ _ _ => ⟨rfl, rfl⟩
  devResult := fun _ _ => ⟨rfl, rfl⟩
  pre := ecuHolds_pre
  client := fun _ _ h => ⟨h, .refl _⟩
  log := fun _ _ _ => ⟨⟨rfl, rfl⟩, .refl _⟩
  asked := fun _ _ => ⟨⟨rfl, rfl⟩, .refl _⟩

theorem secondaryManifests_holds (l : List (String × String)) : Preserves (EcuHolds p) (secondaryManifests env p l) := by
  intro d
  obtain ⟨h1, h2, h3, _⟩ := secondaryManifests_complete (env := env) (p := p) l (d := d) rfl
  exact ⟨⟨h3, h2⟩, h1⟩

theorem nextCounter_holds : Preserves (EcuHolds p) nextCounter := by
  have hf := ecuHolds_frame (p := p)
  unfold nextCounter
  wpres hf.pre
  exact hf.inClient (hf.cl.cwrite (fun _ => ⟨rfl, rfl⟩))

theorem nextCounter_cache {d d' : Dev} {o : Except Err (Option Int)} (h : nextCounter d = (o, d')) : d'.cache = d.cache := by
  have hq : IsPre (fun a b : Dev => b.cache = a.cache) := ⟨fun _ => rfl, fun _ _ _ h h' => h'.trans h⟩
  have : Preserves (fun a b : Dev => b.cache = a.cache) nextCounter := by
    unfold nextCounter
    wpres hq
    exact fun d => rfl
  exact this.of_eq h

theorem assembleReport_cache {d d' : Dev} {o} (h : assembleReport d = (o, d')) : d'.cache = d.cache := by
  have hq : IsPre (fun a b : Dev => b.cache = a.cache) := ⟨fun _ => rfl, fun _ _ _ h h' => h'.trans h⟩
  have : Preserves (fun a b : Dev => b.cache = a.cache) assembleReport := by
    unfold assembleReport
    wpres hq
    all_goals exact fun d => rfl
  exact this.of_eq h

theorem assembleManifest_complete {d d' : Dev} {o : Except Err Manifest} (h : assembleManifest env p d = (o, d')) :
    EcuHolds p d d' ∧ ∀ m, o = .ok m → Complete env p d.cl.secondaries d d' m.secondaries := by
  have hf := ecuHolds_frame (p := p)
  have hp := ecuHolds_pre (p := p)
  unfold assembleManifest at h
  rcases bind_cases h with ⟨_, _, g1, h⟩ | ⟨_, g1, rfl⟩
  swap_goal
  · simp at g1
  simp only [gets_eq, Prod.mk.injEq, Except.ok.injEq, id] at g1
  obtain ⟨rfl, rfl⟩ := g1
  rcases bind_cases h with ⟨c, d1, g2, h⟩ | ⟨_, g2, rfl⟩
  swap_goal
  · exact ⟨nextCounter_holds.of_eq g2, fun m ho => by cases ho⟩
  have t1 := (nextCounter_holds (p := p)).of_eq g2
  have c1 := nextCounter_cache g2
  have hact : ∀ a, Preserves (EcuHolds p) (act a) := fun a => hf.act trivial
  rcases bind_cases h with ⟨_, d2, g3, h⟩ | ⟨_, g3, rfl⟩
  swap_goal
  · exact ⟨hp.trans _ _ _ t1 ((hact _).of_eq g3), fun m ho => by cases ho⟩
  have t2 := hp.trans _ _ _ t1 ((hact _).of_eq g3)
  have c2 : d2.cache = d.cache := by
    obtain ⟨k, _, rfl⟩ := act_ok.1 g3
    exact c1
  rcases bind_cases h with ⟨secs, d3, g4, h⟩ | ⟨_, g4, rfl⟩
  swap_goal
  · exact ⟨hp.trans _ _ _ t2 ((secondaryManifests_holds _).of_eq g4), fun m ho => by cases ho⟩
  have t3 := hp.trans _ _ _ t2 ((secondaryManifests_holds (env := env) (p := p) _).of_eq g4)
  have k3 := (secondaryManifests_complete _ g4).2.2.2 secs rfl
  rcases bind_cases h with ⟨r, d4, g5, h⟩ | ⟨_, g5, rfl⟩
  swap_goal
  · exact ⟨hp.trans _ _ _ t3 (hf.assembleReport.of_eq g5), fun m ho => by cases ho⟩
  have t4 := hp.trans _ _ _ t3 (hf.assembleReport.of_eq g5)
  have c4 := assembleReport_cache g5
  simp only [pure_eq, Prod.mk.injEq] at h
  obtain ⟨rfl, rfl⟩ := h
  refine ⟨t4, fun m ho => ?_⟩
  injection ho with ho
  subst ho
  refine ⟨fun s j k hm ha hs => ?_, fun s text k hm hq hl hn hk hs => ?_, fun s j k ha hs hl => ?_⟩
  · rw [c4, ← c2]
    exact k3.fresh s j k hm ha hs
  · exact k3.old s text k hm hq (by rw [c2]; exact hl) hn hk hs
  · rw [c4]
    exact k3.settled s j k ha hs (by rw [c2]; exact hl)

/-- Nothing was sent. -/
def Unsent (a b : Dev) : Prop := ∃ new, b.log = a.log ++ new ∧ ∀ m ok, Action.sent m ok ∉ new

theorem unsent_frame : DevFrame (fun _ _ => True) (fun a => ∀ m ok, a ≠ .sent m ok) Unsent where
  cl := ⟨⟨fun _ => trivial, fun _ _ _ _ _ => trivial⟩, fun _ _ => trivial⟩
  versions := fun _ _ _ _ _ => trivial
  ecuResult := fun _ _ _ => trivial
  devResult := fun _ _ => trivial
  pre := by
    refine ⟨fun d => ⟨[], by simp, by simp⟩, ?_⟩
    rintro a b c ⟨n1, h1, h2⟩ ⟨n2, h3, h4⟩
    refine ⟨n1 ++ n2, by rw [h3, h1, List.append_assoc], fun m ok hm => ?_⟩
    rcases List.mem_append.1 hm with hm | hm
    · exact h2 m ok hm
    · exact h4 m ok hm
  client := fun _ _ _ => ⟨[], by simp, by simp⟩
  log := fun _ a ha => ⟨[a], rfl, fun m ok hm => ha m ok (by simpa using (List.mem_singleton.1 hm).symm)⟩
  asked := fun _ _ => ⟨[], by simp, by simp⟩
  cache := fun _ _ => ⟨[], by simp, by simp⟩

/-- The manifests sent during `putManifestSimple`. -/
theorem putManifestSimple_complete {d d' : Dev} {o : Except Err Bool} (h : putManifestSimple env p d = (o, d')) :
    EcuHolds p d d' ∧ ∃ new, d'.log = d.log ++ new ∧ ∀ m ok, Action.sent m ok ∈ new → Complete env p d.cl.secondaries d d' m.secondaries := by
  have hf := ecuHolds_frame (p := p)
  have hp := ecuHolds_pre (p := p)
  have quiet : ∀ {d1 : Dev} {o1}, assembleManifest env p d = (o1, d1) → ∃ new, d1.log = d.log ++ new ∧ ∀ m ok, Action.sent m ok ∉ new := by
    intro d1 o1 g
    have hL := unsent_frame
    have hcount : Preserves Unsent nextCounter := by
      unfold nextCounter
      wpres hL.pre
      exact hL.inClient (fun _ => trivial)
    have : Preserves Unsent (assembleManifest env p) := by
      unfold assembleManifest
      wpres hL.pre
      all_goals first
        | exact hcount
        | exact hL.secondaryManifests _ _ _
        | exact hL.assembleReport
        | exact hL.act (by intro m ok hx; cases hx)
    exact this.of_eq g
  unfold putManifestSimple at h
  rcases bind_cases h with ⟨_, _, g1, h⟩ | ⟨_, g1, rfl⟩
  swap_goal
  · simp at g1
  simp only [gets_eq, Prod.mk.injEq, Except.ok.injEq, id] at g1
  obtain ⟨rfl, rfl⟩ := g1
  split at h
  · simp only [pure_eq, Prod.mk.injEq] at h
    obtain ⟨_, rfl⟩ := h
    exact ⟨hp.refl _, [], by simp, by simp⟩
  rcases bind_cases h with ⟨m, d1, g1, h⟩ | ⟨e, g1, rfl⟩
  swap_goal
  · obtain ⟨new, h1, h2⟩ := quiet g1
    exact ⟨(assembleManifest_complete g1).1, new, h1, fun m ok hm => absurd hm (h2 m ok)⟩
  obtain ⟨t1, q1⟩ := assembleManifest_complete g1
  obtain ⟨new, n1, n2⟩ := quiet g1
  rcases bind_cases h with ⟨ok, d2, g2, h⟩ | ⟨e, g2, rfl⟩
  swap_goal
  · simp at g2
  simp only [ask_eq, Prod.mk.injEq, Except.ok.injEq] at g2
  obtain ⟨_, rfl⟩ := g2
  rcases bind_cases h with ⟨_, d3, g3, h⟩ | ⟨e, g3, rfl⟩
  swap_goal
  · rcases act_cases g3 with ⟨_, _, ho, _⟩ | ⟨_, rfl⟩
    · simp at ho
    · exact ⟨t1, new, n1, fun m ok hm => absurd hm (n2 m ok)⟩
  obtain ⟨k, _, rfl⟩ := act_ok.1 g3
  -- what is left only clears the results
  have hend : ∀ (R : Dev → Dev → Prop), IsPre R → (∀ d : Dev, ∀ cl', SameEcus d.cl cl' → R d { d with cl := cl' }) →
      Preserves R (if ok = true then do inClient clearInstallationResults; pure true else pure false : D Bool) := by
    intro R hR hc
    split
    · refine .bind hR (fun d => hc d _ ?_) (fun _ => .pure hR)
      have : Preserves SameEcus clearInstallationResults := by
        unfold clearInstallationResults
        exact sameEcus_cl.cwrite (fun _ => ⟨rfl, rfl⟩)
      exact this d.cl
    · exact .pure hR
  have e1 := (hend (fun a b => b.cache = a.cache ∧ b.log = a.log ∧ SameEcus a.cl b.cl)
    ⟨fun _ => ⟨rfl, rfl, rfl, rfl⟩, fun _ _ _ h h' => ⟨h'.1.trans h.1, h'.2.1.trans h.2.1, h'.2.2.1.trans h.2.2.1, h'.2.2.2.trans h.2.2.2⟩⟩
    (fun _ _ h => ⟨rfl, rfl, h⟩)).of_eq h
  obtain ⟨e1, e2, e3⟩ := e1
  refine ⟨⟨⟨e3.1.trans t1.1.1, e3.2.trans t1.1.2⟩, by rw [e1]; exact t1.2⟩, new ++ [.sent m ok], by rw [e2]; show d1.log ++ _ = _; rw [n1, List.append_assoc], fun m' ok' hm => ?_⟩
  rcases List.mem_append.1 hm with hm | hm
  · exact absurd hm (n2 m' ok')
  · simp only [List.mem_singleton, Action.sent.injEq] at hm
    obtain ⟨rfl, rfl⟩ := hm
    have q := q1 m' rfl
    exact ⟨fun s j k a b c => by rw [e1]; exact q.fresh s j k a b c, q.old, fun s j k a b c => by rw [e1]; exact q.settled s j k a b c⟩

/-! ### Through histories -/

theorem finalizeAfterReboot_holds : Preserves (EcuHolds p) (finalizeAfterReboot env p) := by
  have hf := ecuHolds_frame (p := p)
  unfold finalizeAfterReboot
  wpres hf.pre
  all_goals first
    | exact fun d => (putManifestSimple_complete (d := d) rfl).1
    | exact hf.ask _
    | exact hf.saveVersion _ _ _ _
    | exact hf.saveEcuResult _ _
    | exact hf.storeDeviceResult _ _ _
    | exact hf.inWorld _
    | exact hf.act trivial

theorem initEcus_same (cfg : EcuConfig) (ok : Bool) : Preserves SameEcus (initEcus cfg ok) := by
  have hc := sameEcus_cl
  have hcount : Preserves SameEcus initReportCounter := by
    unfold initReportCounter
    wpres hc.pre
    all_goals exact hc.cwrite (fun _ => ⟨rfl, rfl⟩)
  unfold initEcus
  wpres hc.pre
  all_goals first
    | exact hcount
    | exact hc.cwrite (fun _ => ⟨rfl, rfl⟩)

theorem addSecondaryRows_keys {secs cache : List (String × String)} {q : String × String} (hq : q ∈ secs) : q.1 ∈ (addSecondaryRows secs cache).map Prod.fst := by
  unfold addSecondaryRows
  rw [List.map_append]
  cases hl : cache.lookup q.1 with
  | some v => exact List.mem_append_left _ (List.mem_map.2 ⟨_, lookup_mem' hl, rfl⟩)
  | none =>
    refine List.mem_append_right _ ?_
    rw [List.map_map]
    exact List.mem_map.2 ⟨q, List.mem_filter.2 ⟨hq, by simp [hl]⟩, rfl⟩

theorem lookup_append_left {α : Type} : ∀ (l l' : List (String × α)) {k : String} {v : α}, l.lookup k = some v → (l ++ l').lookup k = some v
  | (a, b) :: l, l', k, v, h => by
    simp only [List.lookup, List.cons_append] at h ⊢
    split
    · next hk => rw [hk] at h; exact h
    · next hk => rw [hk] at h; exact lookup_append_left l l' h

theorem CacheHolds.rows (secs cache : List (String × String)) : CacheHolds p cache (addSecondaryRows secs cache) := by
  refine ⟨fun s h => ?_, fun s text _ h => lookup_append_left _ _ h⟩
  unfold addSecondaryRows
  rw [List.map_append]
  exact List.mem_append_left _ h

/-- The Secondaries of a running device have a row for their manifest. -/
def RowsOk (d : Dev) : Prop := d.up = true → ∀ s, s ∈ d.cl.secondaries.map Prod.fst → s ∈ d.cache.map Prod.fst

theorem RowsOk.of_holds {d d' : Dev} (h : EcuHolds p d d') (hr : RowsOk d) : RowsOk d' := by
  intro hu s hs
  have : d.up = true := by
    unfold Dev.up at hu ⊢
    rw [← h.1.1]
    exact hu
  rw [h.1.2] at hs
  exact h.2.1 s (hr this s hs)

theorem startUp_rows {cfg : EcuConfig} {ok : Bool} {d d' : Dev} {o : Except Err Unit} (hd : d.cl.primary = "")
    (h : startUp env p cfg ok d = (o, d')) : RowsOk d' ∧ CacheHolds p d.cache d'.cache := by
  have down : ∀ {x : Dev}, x.cl.primary = "" → RowsOk x := by
    intro x hx hu
    simp [Dev.up, hx] at hu
  unfold startUp at h
  rcases bind_cases h with ⟨_, d1, g1, h⟩ | ⟨e, g1, rfl⟩
  swap_goal
  · obtain ⟨cl', h5, rfl⟩ := inClient_run g1
    simp at h5
  obtain ⟨cl', h5, rfl⟩ := inClient_run g1
  simp only [modify_eq, Prod.mk.injEq] at h5
  obtain ⟨_, rfl⟩ := h5
  rcases bind_cases h with ⟨_, d2, g2, h⟩ | ⟨e, g2, rfl⟩
  swap_goal
  · obtain ⟨cl', h5, rfl⟩ := inClient_run g2
    have := (initEcus_same cfg ok).of_eq h5
    exact ⟨down (this.1.trans hd), .refl _⟩
  obtain ⟨cl', h5, rfl⟩ := inClient_run g2
  have same := (initEcus_same cfg ok).of_eq h5
  rcases bind_cases h with ⟨_, d3, g3, h⟩ | ⟨e, g3, rfl⟩
  swap_goal
  · simp at g3
  simp only [modify_eq, Prod.mk.injEq] at g3
  obtain ⟨_, rfl⟩ := g3
  have hrow : CacheHolds p d.cache (addSecondaryRows cfg.secondaries d.cache) := .rows _ _
  rcases bind_cases h with ⟨_, d4, g4, h⟩ | ⟨e, g4, rfl⟩
  swap_goal
  · simp at g4
  simp only [gets_eq, Prod.mk.injEq, Except.ok.injEq, id] at g4
  obtain ⟨rfl, rfl⟩ := g4
  rcases bind_cases h with ⟨ser, d5, g5, h⟩ | ⟨e, g5, rfl⟩
  swap_goal
  · simp only [lift_eq, Prod.mk.injEq] at g5
    obtain ⟨_, rfl⟩ := g5
    exact ⟨down (same.1.trans hd), hrow⟩
  simp only [lift_eq, Prod.mk.injEq] at g5
  obtain ⟨_, rfl⟩ := g5
  have bad : ∀ {x : Dev} {o : Except Err Unit}, (M.throw (.std "Unable to load ECU serials after device registration.") : D Unit) x = (o, d') → d' = x := by
    intro x o hx
    simp only [throw_eq, Prod.mk.injEq] at hx
    exact hx.2.symm
  cases ser with
  | none => rw [bad h]; exact ⟨down (same.1.trans hd), hrow⟩
  | some l =>
    cases l with
    | nil => rw [bad h]; exact ⟨down (same.1.trans hd), hrow⟩
    | cons q l =>
      simp only at h
      rcases bind_cases h with ⟨_, d6, g6, h⟩ | ⟨e, g6, rfl⟩
      swap_goal
      · obtain ⟨cl', h5, rfl⟩ := inClient_run g6
        simp at h5
      obtain ⟨cl6, h6, rfl⟩ := inClient_run g6
      simp only [modify_eq, Prod.mk.injEq] at h6
      obtain ⟨_, rfl⟩ := h6
      have hfin := (finalizeAfterReboot_holds (env := env) (p := p)).of_eq h
      refine ⟨RowsOk.of_holds hfin ?_, hrow.trans hfin.2⟩
      intro _ s hs
      have hs : s ∈ cl'.secondaries.map Prod.fst := hs
      rw [same.2] at hs
      obtain ⟨q', hq', rfl⟩ := List.mem_map.1 hs
      exact addSecondaryRows_keys hq'

theorem run_holds (c : Ctx) (call : DevCall) (hi : call.isInit = false) : Preserves (EcuHolds p) (call.run c p) := by
  have hf := ecuHolds_frame (p := p)
  have hk := hf.pre
  have hput : Preserves (EcuHolds p) (putManifestSimple c.env p) := fun d => (putManifestSimple_complete rfl).1
  have hchk : Preserves SameEcus (Aktualizr.checkUpdates c) := sameEcus_cl.checkUpdates (fun _ _ => ⟨rfl, rfl⟩) c
  cases call with
  | init cfg ok => cases hi
  | install ts => exact .bind hk (hf.uptaneInstall (fun _ _ _ => trivial) _ _ _) (fun _ => .pure hk)
  | putManifest => exact .bind hk hput (fun _ => .pure hk)
  | fetchMeta =>
    refine .bind hk ?_ (fun _ => .pure hk)
    unfold fetchMeta
    wpres hk
    all_goals first
      | exact hput
      | exact hf.checkPending _ _
      | exact hf.inClient hchk
  | checkUpdates => exact .bind hk (hf.inClient hchk) (fun _ => .pure hk)
  | checkPending => exact hf.checkPending _ _
  | storeFailure r => exact hf.inClient (hf.storeInstallationFailure _)
  | setRaw raw => exact hf.inClient (hf.cl.cwrite (fun _ => ⟨rfl, rfl⟩))

theorem step_rows (d : Dev) (e : DevEvent) (hr : RowsOk d) : RowsOk (e.step env d) ∧ CacheHolds e.peers d.cache (e.step env d).cache := by
  have off : ∀ x : Dev, RowsOk x.off := by
    intro x hu
    simp [Dev.up, Dev.off] at hu
  have key : ∀ o d', e.call.run { env := env, net := e.net, clock := e.clock } e.peers (e.start d) = (o, d') → RowsOk d' ∧ CacheHolds e.peers d.cache d'.cache := by
    intro o d' h
    cases hi : e.call.isInit with
    | true =>
      have h1 : (e.start d).cl.primary = "" := by
        unfold DevEvent.start
        rw [hi]
        rfl
      have h2 : (e.start d).cache = d.cache := by
        unfold DevEvent.start
        rw [hi]
        rfl
      cases hc : e.call with
      | init cfg ok =>
        rw [hc] at h
        have := startUp_rows h1 h
        rw [h2] at this
        exact this
      | _ => rw [hc] at hi; cases hi
    | false =>
      have h1 : EcuHolds e.peers d (e.start d) := by
        unfold DevEvent.start
        rw [hi]
        exact ⟨⟨rfl, rfl⟩, .refl _⟩
      have h2 := ecuHolds_pre.trans _ _ _ h1 ((run_holds _ e.call hi).of_eq h)
      exact ⟨hr.of_holds h2, h2.2⟩
  unfold DevEvent.step
  split
  · split
    · next hx => exact ⟨off _, (key _ _ hx).2⟩
    · next hx => exact ⟨off _, (key _ _ hx).2⟩
    · next hx => exact key _ _ hx
  · exact ⟨hr, .refl _⟩

theorem history_rows (es : List DevEvent) : RowsOk (runDevice env Dev.fresh es) := by
  have : ∀ (es : List DevEvent) (d : Dev), RowsOk d → RowsOk (runDevice env d es) := by
    intro es
    induction es with
    | nil => exact fun d h => h
    | cons e es ih => exact fun d h => ih _ (step_rows d e h).1
  refine this es _ ?_
  intro hu
  simp [Dev.up, Dev.fresh] at hu

theorem history_kept {s text : String} (es : List DevEvent) : ∀ (d : Dev), RowsOk d → (∀ e ∈ es, Silent e.peers s) → d.cache.lookup s = some text →
    (runDevice env d es).cache.lookup s = some text := by
  induction es with
  | nil => exact fun d _ _ h => h
  | cons e es ih =>
    intro d hr hq hl
    obtain ⟨h1, h2⟩ := step_rows (env := env) d e hr
    exact ih _ h1 (fun e he => hq e (.tail _ he)) (h2.2 s text (hq e (.head _)) hl)

theorem step_putManifest {d : Dev} {e : DevEvent} (hc : e.call = .putManifest) :
    ∃ new, (e.step env d).log = d.log ++ new ∧
      ∀ m ok, Action.sent m ok ∈ new → d.up = true ∧ Complete env e.peers d.cl.secondaries d (e.step env d) m.secondaries := by
  unfold DevEvent.step
  by_cases hu : (e.call.isInit || d.up) = true
  swap_goal
  · rw [if_neg hu]
    exact ⟨[], by simp, by simp⟩
  rw [if_pos hu]
  have hu : d.up = true := by
    rw [hc] at hu
    simpa [DevCall.isInit] using hu
  have hs : e.start d = { d with cl := { d.cl with w := { d.cl.w with fuel := e.fuel, tick := 0 } } } := by
    unfold DevEvent.start
    rw [hc]
    rfl
  have key : ∀ o d', e.call.run { env := env, net := e.net, clock := e.clock } e.peers (e.start d) = (o, d') →
      ∃ new, d'.log = d.log ++ new ∧ ∀ m ok, Action.sent m ok ∈ new → Complete env e.peers d.cl.secondaries d d' m.secondaries := by
    intro o d' h
    rw [hc, hs] at h
    unfold DevCall.run at h
    have fin : ∀ {o1 d1}, putManifestSimple env e.peers { d with cl := { d.cl with w := { d.cl.w with fuel := e.fuel, tick := 0 } } } = (o1, d1) →
        ∃ new, d1.log = d.log ++ new ∧ ∀ m ok, Action.sent m ok ∈ new → Complete env e.peers d.cl.secondaries d d1 m.secondaries := by
      intro o1 d1 g
      obtain ⟨_, new, h1, h2⟩ := putManifestSimple_complete g
      exact ⟨new, h1, fun m ok hm => ⟨(h2 m ok hm).fresh, (h2 m ok hm).old, (h2 m ok hm).settled⟩⟩
    rcases bind_cases h with ⟨_, d1, g, h⟩ | ⟨_, g, rfl⟩
    · simp only [pure_eq, Prod.mk.injEq] at h
      obtain ⟨_, rfl⟩ := h
      exact fin g
    · exact fin g
  have res : ∀ {d' d'' : Dev} {o : Except Err Unit}, d''.log = d'.log → d''.cache = d'.cache →
      e.call.run { env := env, net := e.net, clock := e.clock } e.peers (e.start d) = (o, d') →
      ∃ new, d''.log = d.log ++ new ∧ ∀ m ok, Action.sent m ok ∈ new → d.up = true ∧ Complete env e.peers d.cl.secondaries d d'' m.secondaries := by
    intro d' d'' o hl hk hx
    obtain ⟨new, h1, h2⟩ := key _ _ hx
    exact ⟨new, hl.trans h1, fun m ok hm => ⟨hu, fun s j k => by rw [hk]; exact (h2 m ok hm).fresh s j k, (h2 m ok hm).old,
      fun s j k => by rw [hk]; exact (h2 m ok hm).settled s j k⟩⟩
  split
  · next hx => refine res ?_ ?_ hx <;> rfl
  · next hx => refine res ?_ ?_ hx <;> rfl
  · next hx => refine res ?_ ?_ hx <;> rfl

theorem runDevice_snoc (d : Dev) (es : List DevEvent) (e : DevEvent) : runDevice env d (es ++ [e]) = e.step env (runDevice env d es) := by
  unfold runDevice
  rw [List.foldl_append]
  rfl

/-- **A Secondary that answers is passed on.** After any history, a manifest sent by `putManifestSimple` has, for every
Secondary of the device that answers with a manifest and a key under which it is signed, exactly that manifest. -/
theorem C75_passed_on (es : List DevEvent) (e : DevEvent) (hc : e.call = .putManifest) :
    ∃ new, (runDevice env Dev.fresh (es ++ [e])).log = (runDevice env Dev.fresh es).log ++ new ∧
      ∀ m ok, Action.sent m ok ∈ new → ∀ s j k, s ∈ (runDevice env Dev.fresh es).cl.secondaries.map Prod.fst →
        AnswersWith e.peers s j k → SignedBy env j k → (s, j) ∈ m.secondaries := by
  obtain ⟨new, h1, h2⟩ := step_putManifest (env := env) (d := runDevice env Dev.fresh es) hc
  rw [runDevice_snoc]
  exact ⟨new, h1, fun m ok hm s j k hs ha hk => ((h2 m ok hm).2.fresh s j k hs ha hk).1⟩

/-- **A Secondary that does not answer is represented by what it said last.** Whatever came before: if a manifest was sent
while the Secondary gave `j`, then for any history in which it is silent, with restarts and crashes, the next manifest that is sent
has its last words, provided they are still signed by the key it gives. -/
theorem C75_last_known (es mid : List DevEvent) (e0 e : DevEvent) (hc0 : e0.call = .putManifest) (hc : e.call = .putManifest)
    {s : String} {j : Json} {k : PublicKey}
    (hs0 : s ∈ (runDevice env Dev.fresh es).cl.secondaries.map Prod.fst) (ha : AnswersWith e0.peers s j k) (hj : SignedBy env j k)
    (hsent : ∃ m ok new, (runDevice env Dev.fresh (es ++ [e0])).log = (runDevice env Dev.fresh es).log ++ new ∧ Action.sent m ok ∈ new)
    (hq : ∀ x ∈ mid ++ [e], Silent x.peers s)
    (hs : s ∈ (runDevice env Dev.fresh (es ++ [e0] ++ mid)).cl.secondaries.map Prod.fst)
    (hne : env.canon j ≠ "") (hk : ∀ n, e.peers.secKey n s = .ok k) (hj' : SignedBy env (env.parseJson (env.canon j)) k) :
    ∃ new, (runDevice env Dev.fresh (es ++ [e0] ++ mid ++ [e])).log = (runDevice env Dev.fresh (es ++ [e0] ++ mid)).log ++ new ∧
      ∀ m ok, Action.sent m ok ∈ new → (s, env.parseJson (env.canon j)) ∈ m.secondaries := by
  obtain ⟨m0, ok0, new0', hl0, hm0⟩ := hsent
  obtain ⟨new0, h1, h2⟩ := step_putManifest (env := env) (d := runDevice env Dev.fresh es) hc0
  rw [runDevice_snoc, h1] at hl0
  have hn : new0 = new0' := List.append_cancel_left hl0
  subst hn
  obtain ⟨hup, hcomp⟩ := h2 m0 ok0 hm0
  have hrow := history_rows (env := env) es hup s hs0
  have hl := (hcomp.fresh s j k hs0 ha hj).2 hrow
  rw [← runDevice_snoc] at hl
  have hmid : (runDevice env Dev.fresh (es ++ [e0] ++ mid)).cache.lookup s = some (env.canon j) := by
    have : runDevice env Dev.fresh (es ++ [e0] ++ mid) = runDevice env (runDevice env Dev.fresh (es ++ [e0])) mid := by
      unfold runDevice
      rw [List.foldl_append]
    rw [this]
    exact history_kept mid _ (history_rows _) (fun x hx => hq x (List.mem_append_left _ hx)) hl
  obtain ⟨new, g1, g2⟩ := step_putManifest (env := env) (d := runDevice env Dev.fresh (es ++ [e0] ++ mid)) hc
  rw [runDevice_snoc]
  exact ⟨new, g1, fun m ok hm => (g2 m ok hm).2.old s _ k hs (hq e (List.mem_append_right _ (.head _))) hmid hne hk hj'⟩

end Aktualizr
