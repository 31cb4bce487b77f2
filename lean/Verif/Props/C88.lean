import Verif.Model.SourceRepo

/-!
# C88: what the publishing tools read is what the repository gives
-/

namespace Aktualizr

open Src

namespace Spec

/-- A complete answer that is no error. -/
def Good (a : Answer) : Prop := a.opens = true ∧ a.ok = true ∧ a.status < 400

/-- The content was a complete answer to a request for the path. -/
def CameWhole (log : List (Path × Answer)) (p : Path) (b : Bytes) : Prop := ∃ a, (p, a) ∈ log ∧ Good a ∧ a.body = b

/-- The types an object can have, if this one is asked for. -/
def Wanted (t : Option Kind) (k : Kind) : Prop := t = none ∨ t = some k

end Spec

instance (a : Answer) : Decidable (Spec.Good a) := by unfold Spec.Good; infer_instance

/-! ## Names -/

theorem suffix_inj {k k' : Kind} (h : k.suffix.toList = k'.suffix.toList) : k = k' := by
  have h := String.toList_injective h
  cases k <;> cases k' <;> first | rfl | exact absurd h (by decide +kernel)

theorem slash_inj {a b x y : List Char} (hl : a.length = b.length)
    (h : (a.take 2 ++ '/' :: a.drop 2) ++ x = (b.take 2 ++ '/' :: b.drop 2) ++ y) : a = b ∧ x = y := by
  have hlen : (a.take 2 ++ '/' :: a.drop 2).length = (b.take 2 ++ '/' :: b.drop 2).length := by
    simp only [List.length_append, List.length_take, List.length_cons, List.length_drop, hl]
  obtain ⟨e1, e2⟩ := List.append_inj h hlen
  have hlen2 : (a.take 2).length = (b.take 2).length := by simp only [List.length_take, hl]
  obtain ⟨e3, e4⟩ := List.append_inj e1 hlen2
  refine ⟨?_, e2⟩
  rw [← List.take_append_drop 2 a, ← List.take_append_drop 2 b, e3, (List.cons.inj e4).2]

theorem object_text (h : String) (k : Kind) : (Path.object h k).text =
    "objects/".toList ++ ((h.toList.take 2 ++ '/' :: h.toList.drop 2) ++ k.suffix.toList) := by
  show "objects/".toList ++ _ ++ _ = _
  rw [List.append_assoc]

/-- C88. Different objects have different names, for hashes of the same length (all have 64 digits). -/
theorem C88_names {h h' : String} {k k' : Kind} (hl : h.toList.length = h'.toList.length)
    (he : (Path.object h k).text = (Path.object h' k').text) : h = h' ∧ k = k' := by
  rw [object_text, object_text] at he
  obtain ⟨e1, e2⟩ := slash_inj hl (List.append_cancel_left he)
  exact ⟨String.toList_injective e1, suffix_inj e2⟩

/-! ## Fetching -/

theorem httpFetch_log {w : World} {p : Path} {s : St} : (httpFetch w p s).2.log = s.log ++ [(p, w p s.log.length)] := by
  unfold httpFetch
  dsimp only
  split
  · rfl
  split <;> rfl

theorem httpFetch_table {w : World} {p : Path} {s : St} : (httpFetch w p s).2.table = s.table := by
  unfold httpFetch
  dsimp only
  split
  · rfl
  split <;> rfl

theorem httpFetch_true {w : World} {p : Path} {s : St} : (httpFetch w p s).1 = true ↔ Spec.Good (w p s.log.length) := by
  unfold httpFetch Spec.Good
  dsimp only
  generalize w p s.log.length = a
  cases a.opens <;> cases a.ok <;> by_cases h : 400 ≤ a.status <;> simp [h] <;> omega

theorem httpFetch_other {w : World} {p q : Path} {s : St} (h : q ≠ p) : (httpFetch w p s).2.files q = s.files q := by
  unfold httpFetch
  dsimp only
  split
  · rfl
  split <;> simp [h]

theorem httpFetch_good {w : World} {p : Path} {s : St} (hn : s.files p = none) (h : Spec.Good (w p s.log.length)) :
    (httpFetch w p s).2.files p = some (w p s.log.length).body := by
  obtain ⟨h1, h2, h3⟩ := h
  unfold httpFetch
  simp [h1, h2, hn, overwrite, Nat.not_le.2 h3]

theorem httpFetch_bad {w : World} {p : Path} {s : St} (hn : s.files p = none) (h : ¬Spec.Good (w p s.log.length)) :
    (httpFetch w p s).2.files p = none := by
  have hf : (httpFetch w p s).1 = false := by
    rw [← Bool.not_eq_true, httpFetch_true]; exact h
  revert hf
  unfold httpFetch
  dsimp only
  split
  · intro _; exact hn
  split
  · intro _; simp
  · intro h; cases h

/-- What holds of a repository that began in an empty directory. -/
structure RepoInv (s : St) : Prop where
  served : ∀ p b, s.files p = some b → Spec.CameWhole s.log p b
  named : ∀ h p, s.table.lookup h = some p → (∃ k, p = .object h k) ∧ s.files p ≠ none
  tabled : ∀ h k, s.files (.object h k) ≠ none → s.table.lookup h ≠ none
  config : s.files .config = none

theorem served_more {log log' : List (Path × Answer)} {p : Path} {b : Bytes} (h : Spec.CameWhole log p b) : Spec.CameWhole (log ++ log') p b := by
  obtain ⟨a, h1, h2⟩ := h
  exact ⟨a, by simp [h1], h2⟩

/-- What an attempt that fails leaves. -/
theorem fetch_fail {w : World} {h : String} {k : Kind} {s : St} (hi : RepoInv s) (hl : s.table.lookup h = none)
    (hb : ¬Spec.Good (w (.object h k) s.log.length)) :
    RepoInv (httpFetch w (.object h k) s).2 ∧ (httpFetch w (.object h k) s).2.files = s.files := by
  have hn : s.files (.object h k) = none := by
    cases hf : s.files (.object h k) with
    | none => rfl
    | some b => exact absurd hl (hi.tabled h k (by simp [hf]))
  have he : (httpFetch w (.object h k) s).2.files = s.files := by
    funext q
    by_cases hq : q = .object h k
    · subst hq; rw [httpFetch_bad hn hb, hn]
    · exact httpFetch_other hq
  refine ⟨⟨?_, ?_, ?_, ?_⟩, he⟩
  · intro p b; rw [he, httpFetch_log]; intro hp; exact served_more (hi.served p b hp)
  · rw [he, httpFetch_table]; exact hi.named
  · rw [he, httpFetch_table]; exact hi.tabled
  · rw [he]; exact hi.config

/-- What an attempt that succeeds leaves. -/
theorem fetch_succeed {w : World} {h : String} {k : Kind} {s : St} (hi : RepoInv s) (hl : s.table.lookup h = none)
    (hg : Spec.Good (w (.object h k) s.log.length)) :
    RepoInv { (httpFetch w (.object h k) s).2 with table := (h, .object h k) :: (httpFetch w (.object h k) s).2.table } := by
  have hn : s.files (.object h k) = none := by
    cases hf : s.files (.object h k) with
    | none => rfl
    | some b => exact absurd hl (hi.tabled h k (by simp [hf]))
  refine ⟨?_, ?_, ?_, ?_⟩
  · intro p b
    dsimp only
    rw [httpFetch_log]
    by_cases hp : p = .object h k
    · subst hp
      rw [httpFetch_good hn hg]
      intro hb
      cases hb
      exact ⟨_, by simp, hg, rfl⟩
    · rw [httpFetch_other hp]
      intro hb
      exact served_more (hi.served p b hb)
  · intro h' p
    dsimp only
    rw [httpFetch_table, List.lookup_cons]
    by_cases hh : h' = h
    · subst hh
      simp only [beq_self_eq_true]
      intro hp
      cases hp
      exact ⟨⟨k, rfl⟩, by rw [httpFetch_good hn hg]; simp⟩
    · rw [beq_eq_false_iff_ne.2 hh]
      intro hp
      obtain ⟨⟨k', rfl⟩, hf⟩ := hi.named h' p hp
      refine ⟨⟨k', rfl⟩, ?_⟩
      rw [httpFetch_other (by simp [hh])]
      exact hf
  · intro h' k'
    dsimp only
    rw [httpFetch_table, List.lookup_cons]
    by_cases hh : h' = h
    · subst hh; simp
    · rw [beq_eq_false_iff_ne.2 hh, httpFetch_other (by simp [hh])]
      exact hi.tabled h' k'
  · dsimp only
    rw [httpFetch_other (by simp)]
    exact hi.config

theorem tryKinds_inv {w : World} {h : String} {ks : List Kind} : ∀ {s : St}, RepoInv s → s.table.lookup h = none →
    ∃ o s', tryKinds (httpFetch w) h ks s = (o, s') ∧ RepoInv s' ∧
      match o with
      | some p => (∃ k ∈ ks, p = .object h k) ∧ s'.table = (h, p) :: s.table
      | none => s'.table.lookup h = none ∧ s'.files = s.files ∧ s'.table = s.table ∧ ∃ new, s'.log = s.log ++ new ∧
          new.map Prod.fst = ks.map (Path.object h) ∧ ∀ x ∈ new, ¬Spec.Good x.2 := by
  induction ks with
  | nil => intro s hi hl; exact ⟨_, _, rfl, hi, hl, rfl, rfl, [], by simp⟩
  | cons k ks ih =>
    intro s hi hl
    unfold tryKinds
    by_cases hg : Spec.Good (w (.object h k) s.log.length)
    · have h1 : (httpFetch w (.object h k) s).1 = true := httpFetch_true.2 hg
      have h2 := fetch_succeed hi hl hg
      have h4 : (httpFetch w (.object h k) s).2.table = s.table := httpFetch_table
      revert h1 h2 h4
      cases httpFetch w (.object h k) s with
      | mk b s1 =>
        intro h1 h2 h4
        cases h1
        exact ⟨_, _, rfl, h2, ⟨k, by simp, rfl⟩, by rw [← h4]⟩
    · have h1 : (httpFetch w (.object h k) s).1 = false := by rw [← Bool.not_eq_true, httpFetch_true]; exact hg
      obtain ⟨h2, h3⟩ := fetch_fail hi hl hg
      have h4 : (httpFetch w (.object h k) s).2.table = s.table := httpFetch_table
      have h5 : (httpFetch w (.object h k) s).2.log = _ := httpFetch_log
      revert h1 h2 h3 h4 h5
      cases httpFetch w (.object h k) s with
      | mk b s1 =>
        intro h1 h2 h3 h4 h5
        cases h1
        dsimp only at h2 h3 h4 h5 ⊢
        obtain ⟨o, s', e1, e2, e3⟩ := ih h2 (by rw [h4]; exact hl)
        refine ⟨o, s', e1, e2, ?_⟩
        cases o with
        | some p =>
          obtain ⟨⟨k', hk, hp⟩, ht⟩ := e3
          exact ⟨⟨k', by simp [hk], hp⟩, by rw [ht, h4]⟩
        | none =>
          obtain ⟨f1, f2, f3, new, f4, f5, f6⟩ := e3
          refine ⟨f1, f2.trans h3, f3.trans h4, (Path.object h k, w (.object h k) s.log.length) :: new, by rw [f4, h5]; simp, by simp [f5], ?_⟩
          intro x hx
          rcases List.mem_cons.1 hx with rfl | hx
          · exact hg
          · exact f6 x hx

theorem attempts_inv {w : World} {h : String} {ks : List Kind} : ∀ {n : Nat} {s : St}, RepoInv s → s.table.lookup h = none →
    ∃ o s', attempts (httpFetch w) h ks n s = (o, s') ∧ RepoInv s' ∧
      match o with
      | some p => (∃ k ∈ ks, p = .object h k) ∧ s'.table = (h, p) :: s.table
      | none => s'.table = s.table ∧ s'.files = s.files ∧ ∃ new, s'.log = s.log ++ new ∧
          new.map Prod.fst = (List.replicate n (ks.map (Path.object h))).flatten ∧ ∀ x ∈ new, ¬Spec.Good x.2 := by
  intro n
  induction n with
  | zero => intro s hi hl; exact ⟨_, _, rfl, hi, rfl, rfl, [], by simp⟩
  | succ n ih =>
    intro s hi hl
    unfold attempts
    obtain ⟨o, s1, e1, e2, e3⟩ := tryKinds_inv (w := w) (ks := ks) hi hl
    rw [e1]
    cases o with
    | some p => exact ⟨_, _, rfl, e2, e3⟩
    | none =>
      obtain ⟨f1, f2, f3, new, f4, f5, f6⟩ := e3
      obtain ⟨o, s2, g1, g2, g3⟩ := ih e2 f1
      refine ⟨o, s2, g1, g2, ?_⟩
      cases o with
      | some p => exact ⟨g3.1, by rw [g3.2, f3]⟩
      | none =>
        obtain ⟨a1, a2, new2, a3, a4, a5⟩ := g3
        refine ⟨a1.trans f3, a2.trans f2, new ++ new2, by rw [a3, f4, List.append_assoc], ?_, ?_⟩
        · rw [List.map_append, f5, a4, List.replicate_succ, List.flatten_cons]
        · intro x hx
          rcases List.mem_append.1 hx with hx | hx
          · exact f6 x hx
          · exact a5 x hx

theorem getObject_inv {w : World} {h : String} {t : Option Kind} {s : St} (hi : RepoInv s) :
    ∃ o s', getObject (httpFetch w) h t s = (o, s') ∧ RepoInv s' ∧
      match o with
      | .ok p => (s.table.lookup h = some p ∧ s' = s) ∨
          (s.table.lookup h = none ∧ (∃ k ∈ kinds t, p = .object h k) ∧ s'.table = (h, p) :: s.table)
      | .error _ => s'.table = s.table ∧ s.table.lookup h = none ∧ s'.files = s.files ∧ ∃ new, s'.log = s.log ++ new ∧
          new.map Prod.fst = (List.replicate 3 ((kinds t).map (Path.object h))).flatten ∧ ∀ x ∈ new, ¬Spec.Good x.2 := by
  unfold getObject
  cases hl : s.table.lookup h with
  | some p => exact ⟨_, _, rfl, hi, .inl ⟨rfl, rfl⟩⟩
  | none =>
    obtain ⟨o, s', e1, e2, e3⟩ := attempts_inv (w := w) (ks := kinds t) (n := 3) hi hl
    rw [e1]
    cases o with
    | some p => exact ⟨_, _, rfl, e2, .inr ⟨rfl, e3⟩⟩
    | none => exact ⟨_, _, rfl, e2, e3.1, rfl, e3.2.1, e3.2.2⟩

theorem src_run_inv {w : World} : ∀ {ops : List (String × Option Kind)} {s : St}, RepoInv s → RepoInv (run (httpFetch w) ops s) := by
  intro ops
  induction ops with
  | nil => intro s h; exact h
  | cons x ops ih =>
    intro s h
    obtain ⟨ht, t⟩ := x
    obtain ⟨o, s', e1, e2, -⟩ := getObject_inv (w := w) (h := ht) (t := t) h
    show RepoInv (run _ ops (getObject (httpFetch w) ht t s).2)
    rw [e1]
    exact ih e2

theorem fresh_inv : RepoInv fresh := ⟨nofun, nofun, fun _ _ h => absurd rfl h, rfl⟩

/-! ## Statements -/

/-- C88. Whatever was asked for before, and whatever the server did: an object that is given has the hash asked for, and the local file of it
is exactly a complete answer of the server to a request for it. Missing: the same with a directory that is not empty, answers that are
redirects, and the type asked for; see `C88_old_tail`, `C88_redirect`, `C88_other_type`. -/
theorem C88_content_partial {w : World} {ops : List (String × Option Kind)} {h : String} {t : Option Kind} {p : Path} {s' : St}
    (hr : getObject (httpFetch w) h t (run (httpFetch w) ops fresh) = (.ok p, s')) :
    (∃ k, p = .object h k) ∧ ∃ b, s'.files p = some b ∧ Spec.CameWhole s'.log p b := by
  obtain ⟨o, s1, e1, e2, e3⟩ := getObject_inv (w := w) (h := h) (t := t) (src_run_inv (w := w) (ops := ops) fresh_inv)
  rw [hr] at e1
  cases e1
  have ht : s'.table.lookup h = some p := by
    rcases e3 with ⟨h1, rfl⟩ | ⟨_, _, h1⟩
    · exact h1
    · rw [h1]; simp
  obtain ⟨hk, hf⟩ := e2.named h p ht
  refine ⟨hk, ?_⟩
  cases hb : s'.files p with
  | none => exact absurd hb hf
  | some b => exact ⟨b, rfl, e2.served p b hb⟩

theorem src_run_kind {w : World} {h : String} {k : Kind} : ∀ {ops : List (String × Option Kind)} {s : St}, RepoInv s →
    (∀ x ∈ ops, x.1 = h → x.2 = some k) → (∀ p, s.table.lookup h = some p → p = .object h k) →
    ∀ p, (run (httpFetch w) ops s).table.lookup h = some p → p = .object h k := by
  intro ops
  induction ops with
  | nil => intro s _ _ h; exact h
  | cons x ops ih =>
    intro s hi hx hs
    obtain ⟨h', t⟩ := x
    show ∀ p, (run _ ops (getObject (httpFetch w) h' t s).2).table.lookup h = some p → _
    obtain ⟨o, s', e1, e2, e3⟩ := getObject_inv (w := w) (h := h') (t := t) hi
    rw [e1]
    refine ih e2 (fun y hy => hx y (by simp [hy])) ?_
    cases o with
    | error e => rw [e3.1]; exact hs
    | ok q =>
      rcases e3 with ⟨-, rfl⟩ | ⟨-, ⟨k', hk', rfl⟩, ht⟩
      · exact hs
      · rw [ht, List.lookup_cons]
        by_cases hh : h = h'
        · subst hh
          have : t = some k := hx (h, t) (by simp) rfl
          subst this
          simp [kinds] at hk'
          simp [hk']
        · rw [beq_eq_false_iff_ne.2 hh]
          exact hs

/-- C88. If an object is always asked for with the same type, it is of that type. -/
theorem C88_type_partial {w : World} {ops : List (String × Option Kind)} {h : String} {k : Kind} {p : Path} {s' : St}
    (ho : ∀ x ∈ ops, x.1 = h → x.2 = some k)
    (hr : getObject (httpFetch w) h (some k) (run (httpFetch w) ops fresh) = (.ok p, s')) : p = .object h k := by
  have hi := src_run_inv (w := w) (ops := ops) fresh_inv
  obtain ⟨o, s1, e1, e2, e3⟩ := getObject_inv (w := w) (h := h) (t := some k) hi
  have hk := src_run_kind (w := w) (h := h) (k := k) (ops := ops) fresh_inv ho nofun
  rw [hr] at e1
  cases e1
  cases hl : (run (httpFetch w) ops fresh).table.lookup h with
  | some q =>
    rw [getObject, hl] at hr
    cases hr
    exact hk p hl
  | none =>
    rcases e3 with ⟨h1, -⟩ | ⟨-, ⟨k', hk', rfl⟩, -⟩
    · rw [hl] at h1; cases h1
    simp [kinds] at hk'
    rw [hk']

/-- C88. An object is given up only after three attempts for each type, none of which got a complete answer that is no error, and nothing of
them is left in the directory. -/
theorem C88_missing {w : World} {ops : List (String × Option Kind)} {h : String} {t : Option Kind} {e : Err} {s s' : St}
    (hs : s = run (httpFetch w) ops fresh) (hr : getObject (httpFetch w) h t s = (.error e, s')) :
    s'.files = s.files ∧ (∀ k, s'.files (.object h k) = none) ∧ ∃ new, s'.log = s.log ++ new ∧
      (∀ k, Spec.Wanted t k → (new.map Prod.fst).count (.object h k) = 3) ∧
      ∀ x ∈ new, ¬Spec.Good x.2 ∧ ∃ k, Spec.Wanted t k ∧ x.1 = .object h k := by
  have hi : RepoInv s := hs ▸ src_run_inv fresh_inv
  obtain ⟨o, s1, e1, e2, e3⟩ := getObject_inv (w := w) (h := h) (t := t) hi
  rw [hr] at e1
  cases e1
  obtain ⟨f1, f2, f3, new, f4, f5, f6⟩ := e3
  refine ⟨f3, ?_, new, f4, ?_, ?_⟩
  rotate_left
  · intro k hk
    rw [f5]
    rcases hk with rfl | rfl
    · cases k <;> simp [kinds, Kind.all, List.replicate]
    · simp [kinds, List.replicate]
  · intro x hx
    refine ⟨f6 x hx, ?_⟩
    have hm : x.1 ∈ new.map Prod.fst := List.mem_map.2 ⟨x, hx, rfl⟩
    rw [f5] at hm
    obtain ⟨l, hl, hm⟩ := List.mem_flatten.1 hm
    rw [(List.mem_replicate.1 hl).2] at hm
    obtain ⟨k, hk, he⟩ := List.mem_map.1 hm
    refine ⟨k, ?_, he.symm⟩
    cases t with
    | none => exact .inl rfl
    | some k' =>
      simp [kinds] at hk
      exact .inr (by rw [hk])
  intro k
  cases hf : s'.files (.object h k) with
  | none => rfl
  | some b => exact absurd (by rw [f1]; exact f2) (e2.tabled h k (by simp [hf]))

theorem attempts_one {w : World} {h : String} {k : Kind} : ∀ {n : Nat} {s : St},
    (attempts (httpFetch w) h [k] n s).1.isSome = true ↔ ∃ i < n, Spec.Good (w (.object h k) (s.log.length + i)) := by
  intro n
  induction n with
  | zero => intro s; simp [attempts]
  | succ n ih =>
    intro s
    unfold attempts tryKinds
    have h0 : (httpFetch w (.object h k) s).1 = true ↔ _ := httpFetch_true
    have h5 : (httpFetch w (.object h k) s).2.log = _ := httpFetch_log
    revert h0 h5
    cases httpFetch w (.object h k) s with
    | mk b s1 =>
      intro h0 h5
      cases b with
      | true => exact ⟨fun _ => ⟨0, by omega, h0.1 rfl⟩, fun _ => rfl⟩
      | false =>
        have hb : ¬Spec.Good (w (.object h k) s.log.length) := fun h => by simpa using h0.2 h
        dsimp only [tryKinds] at h5 ⊢
        rw [ih, h5]
        constructor
        · rintro ⟨i, hi, hg⟩
          exact ⟨i + 1, by omega, by simpa [Nat.add_assoc, Nat.add_comm 1] using hg⟩
        · rintro ⟨i, hi, hg⟩
          cases i with
          | zero => exact absurd hg hb
          | succ i => exact ⟨i, by omega, by simpa [Nat.add_assoc, Nat.add_comm 1] using hg⟩

/-- C88. An object that was not fetched before is found exactly if one of the next three attempts gets a complete answer that is no error. -/
theorem C88_found {w : World} {h : String} {k : Kind} {s : St} (hl : s.table.lookup h = none) :
    (∃ p, (getObject (httpFetch w) h (some k) s).1 = .ok p) ↔ ∃ i < 3, Spec.Good (w (.object h k) (s.log.length + i)) := by
  rw [← attempts_one]
  unfold getObject
  rw [hl]
  dsimp only [kinds]
  cases attempts (httpFetch w) h [k] 3 s with
  | mk o s1 => cases o <;> simp

/-- C88. In a directory an object of a type is found exactly if there is such a file, and nothing is changed. -/
theorem C88_directory {h : String} {k : Kind} {s : St} (hl : s.table.lookup h = none) :
    ((getObject dirFetch h (some k) s).1 = .ok (.object h k) ↔ s.files (.object h k) ≠ none) ∧
    ((∃ p, (getObject dirFetch h (some k) s).1 = .ok p) ↔ s.files (.object h k) ≠ none) ∧
    (getObject dirFetch h (some k) s).2.files = s.files := by
  unfold getObject
  rw [hl]
  cases hf : s.files (.object h k) with
  | none => simp [kinds, attempts, tryKinds, dirFetch, hf]
  | some b => simp [kinds, attempts, tryKinds, dirFetch, hf]

/-- C88. With an empty directory, a repository on a server looks valid exactly if its configuration could be fetched and has the right
mode. -/
theorem C88_valid_partial {w : World} {mode : Bytes → Option String} {s : St} (hn : s.files .config = none) :
    (looksValid w mode s).1 = true ↔
      Spec.Good (w .config s.log.length) ∧ mode (w .config s.log.length).body = some "archive-z2" := by
  unfold looksValid
  have h0 : (httpFetch w .config s).1 = true ↔ _ := httpFetch_true
  have h1 := fun h => httpFetch_good (w := w) hn h
  revert h0 h1
  cases httpFetch w .config s with
  | mk b s1 =>
    intro h0 h1
    cases b with
    | false =>
      have hb : ¬Spec.Good (w .config s.log.length) := fun h => by simpa using h0.2 h
      simp [hb]
    | true =>
      have hg := h0.1 rfl
      dsimp only at h1 ⊢
      rw [h1 hg]
      simp [hg]

/-! ## What goes wrong -/

/-- The hashes of the cases. -/
def srcA : String := "aa11"
def srcB : String := "bb22"

/-- A server that redirects once, with a page, and then has the objects. -/
def srcMoved : World := fun p n =>
  if n = 0 then { status := 302, body := [60, 104, 116, 109, 108, 62] }
  else match p with
    | .object _ .commit => { body := [1, 2] }
    | .object _ .dirMeta => { body := [3] }
    | .object _ _ => { status := 404 }
    | .config => { body := [7] }

/-- C88, violated. The page of a redirect is taken for the object. -/
theorem C88_redirect : ∃ s', getObject (httpFetch srcMoved) srcA (some .commit) fresh = (.ok (.object srcA .commit), s') ∧
    s'.files (.object srcA .commit) = some [60, 104, 116, 109, 108, 62] ∧
    ∀ n, 0 < n → (srcMoved (.object srcA .commit) n).body = [1, 2] := by
  refine ⟨_, rfl, rfl, ?_⟩
  intro n hn
  simp [srcMoved, Nat.pos_iff_ne_zero.1 hn]

/-- C88, violated. With a directory that has the file already (`--tree-dir`), its end stays behind the new content; here the directory is that
of the case above, used again. -/
theorem C88_old_tail : ∃ s1 s2 w, getObject (httpFetch srcMoved) srcA (some .commit) fresh = (.ok (.object srcA .commit), s1) ∧
    w (.object srcA .commit) 0 = { body := [1, 2] } ∧
    getObject (httpFetch w) srcA (some .commit) { files := s1.files } = (.ok (.object srcA .commit), s2) ∧
    s2.files (.object srcA .commit) = some [1, 2, 116, 109, 108, 62] :=
  ⟨_, _, fun p n => srcMoved p (n + 1), rfl, rfl, rfl, rfl⟩

/-- C88, violated. An object that was fetched with one type is given when it is asked for with another. -/
theorem C88_other_type : ∃ s', getObject (httpFetch srcMoved) srcA (some .dirMeta)
      (run (httpFetch srcMoved) [(srcB, some .commit), (srcA, some .commit)] fresh) = (.ok (.object srcA .commit), s') ∧
    Spec.Good (srcMoved (.object srcA .dirMeta) 2) :=
  ⟨_, rfl, by decide⟩

/-! ## Cases -/

/-- A server that loses the first two answers. -/
def srcLossy : World := fun p n =>
  if n = 0 then { body := [9], ok := false } else if n = 1 then { status := 503 } else srcMoved p n

example : ∃ s', getObject (httpFetch srcLossy) srcA (some .commit) (run (httpFetch srcLossy) [] fresh) = (.ok (.object srcA .commit), s') ∧
    s'.files (.object srcA .commit) = some [1, 2] ∧ s'.log.length = 3 := ⟨_, rfl, rfl, rfl⟩

/-- Without a type the suffixes are tried in turn. -/
example : ∃ s', getObject (httpFetch srcLossy) srcB none (run (httpFetch srcLossy) [(srcA, some .commit)] fresh) =
      (.ok (.object srcB .dirMeta), s') ∧ s'.log.length = 6 ∧ s'.files (.object srcA .commit) = some [1, 2] := ⟨_, rfl, rfl, rfl⟩

/-- One that is not there. -/
example : ∃ e s', getObject (httpFetch srcLossy) srcB (some .dirTree) (run (httpFetch srcLossy) [(srcA, some .commit)] fresh) =
      (.error e, s') ∧ s'.log.length = 6 ∧ s'.files (.object srcB .dirTree) = none := ⟨_, _, rfl, rfl, rfl⟩

example : ∃ p s', getObject (httpFetch srcLossy) srcA (some .commit)
      (run (httpFetch srcLossy) [(srcA, some .commit), (srcB, none)] fresh) = (.ok p, s') ∧ p = .object srcA .commit :=
  ⟨_, _, rfl, C88_type_partial (w := srcLossy) (ops := [(srcA, some .commit), (srcB, none)]) (by decide) rfl⟩

example : (getObject dirFetch srcA (some .commit) { files := fun p => if p = .object srcA .commit then some [1] else none }).1 =
    .ok (.object srcA .commit) := (C88_directory rfl).1.2 (by decide)

example : (Path.object srcA .dirTree).text ≠ (Path.object srcB .dirTree).text :=
  fun h => absurd (C88_names (by decide) h).1 (by decide)

example : String.ofList (Path.object srcA .dirTree).text = "objects/aa/11.dirtree" := by decide +kernel

example : (looksValid (fun _ _ => { body := [7] }) (fun b => if b = [7] then some "archive-z2" else none) fresh).1 = true :=
  (C88_valid_partial rfl).2 ⟨by decide, rfl⟩

end Aktualizr
