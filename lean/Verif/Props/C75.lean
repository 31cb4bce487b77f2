import Verif.Props.C19
import Verif.Model.Manifest

/-!
# C75 The server is told what the ECUs said, signed by those who said it

This file: where the entries of the Secondaries come from. The document that is sent is in
`Props/C75Document.lean`, a concrete device in `Props/C75Case.lean`.
-/

namespace Aktualizr

open M

/-! ### Specification -/

namespace Spec

/-- The first signature of the document is one of its signed part, valid under the key. -/
def SignedBy (env : Env) (j : Json) (k : PublicKey) : Prop :=
  ∃ l s rest x sig b, j = .obj l ∧ l.lookup "signatures" = some (.arr (s :: rest)) ∧ At s ["sig"] x ∧ x.asString = .ok sig ∧
    l.lookup "signed" = some b ∧ ValidUnder env k sig (env.canon b)

/-- No message has the empty text as its signature. -/
def NoEmptySignature (env : Env) : Prop := ∀ k msg, ¬ ValidUnder env k "" msg

/-- In these answers the Secondary gives a key under which the document is signed. -/
def Vouched (env : Env) (p : Peers) (s : String) (j : Json) : Prop := ∃ n k, p.secKey n s = .ok k ∧ SignedBy env j k

/-- In these answers the Secondary gives the document as its manifest, and the key for it. -/
def Gave (env : Env) (p : Peers) (s : String) (j : Json) : Prop := (∃ n, p.secManifest n s = .ok j) ∧ Vouched env p s j

/-- The Secondary gives no manifest in these answers. -/
def Silent (p : Peers) (s : String) : Prop := ∀ n, match p.secManifest n s with
  | .ok j => j = .null ∨ j = .obj [] ∨ j = .arr []
  | .error e => e.isStd = true

/-- The Secondary answers with this manifest and this key whenever it is asked. -/
def AnswersWith (p : Peers) (s : String) (j : Json) (k : PublicKey) : Prop := (∀ n, p.secManifest n s = .ok j) ∧ ∀ n, p.secKey n s = .ok k

end Spec

open Spec

/-! ### Signatures -/

theorem at_cons_iff {j x : Json} {k : String} {ks : List String} : At j (k :: ks) x ↔ ∃ y, j.get k = .ok y ∧ At y ks x := Iff.rfl

theorem validUnder_iff {env : Env} {k : PublicKey} {sig msg : String} : ValidUnder env k sig msg ↔ k.verifySignature env sig msg = true := by
  unfold ValidUnder PublicKey.verifySignature
  cases k.type <;> simp

/-- `Manifest::signature` of an object. -/
theorem manifestSignature_obj (l : List (String × Json)) : manifestSignature (.obj l) =
    match l.lookup "signatures" with
    | some (.arr (s :: _)) => (match s.get "sig" with
      | .ok x => (match x.asString with | .ok t => t | .error _ => "")
      | .error _ => "")
    | _ => "" := by
  unfold manifestSignature
  rw [show (Json.obj l).get "signatures" = .ok ((l.lookup "signatures").getD .null) from rfl]
  cases hl : l.lookup "signatures" with
  | none => rfl
  | some x =>
    cases x with
    | arr xs =>
      cases xs with
      | nil => rfl
      | cons s rest =>
        show (match (s.get "sig" >>= fun x => x.asString) with | .ok s => s | .error _ => "") = (match s.get "sig" with
          | .ok x => (match x.asString with | .ok t => t | .error _ => "")
          | .error _ => "")
        cases hs : s.get "sig" with
        | error e => rfl
        | ok x => rfl
    | _ => rfl

theorem manifestVerifies_ok {env : Env} {j : Json} {k : PublicKey} (hne : NoEmptySignature env) (h : manifestVerifies env j k = .ok true) :
    SignedBy env j k := by
  unfold manifestVerifies at h
  obtain ⟨a, h1, h⟩ := exc_bind_ok.1 h
  obtain ⟨b, h2, h⟩ := exc_bind_ok.1 h
  cases hb : (!(a && b)) with
  | true => rw [hb] at h; cases h
  | false =>
    rw [hb] at h
    have hv : k.verifySignature env (manifestSignature j) (manifestBody env j) = true := by
      injection h
    rw [← validUnder_iff] at hv
    have hs : manifestSignature j ≠ "" := by
      intro h0
      rw [h0] at hv
      exact hne _ _ hv
    simp only [Bool.not_eq_false', Bool.and_eq_true] at hb
    rw [hb.1] at h1
    rw [hb.2] at h2
    cases j with
    | obj l =>
      simp only [Json.isMember, Except.ok.injEq] at h1 h2
      obtain ⟨y, hy⟩ := Option.isSome_iff_exists.1 h2
      rw [manifestSignature_obj] at hs hv
      cases hl : l.lookup "signatures" with
      | none => rw [hl] at h1; cases h1
      | some v =>
        rw [hl] at hs hv
        cases v with
        | arr xs =>
          cases xs with
          | nil => exact absurd rfl hs
          | cons s rest =>
            simp only at hs hv
            cases hg : s.get "sig" with
            | error e => rw [hg] at hs; exact absurd rfl hs
            | ok x =>
              rw [hg] at hs hv
              simp only at hs hv
              cases hx : x.asString with
              | error e => rw [hx] at hs; exact absurd rfl hs
              | ok sig =>
                rw [hx] at hv
                refine ⟨l, s, rest, x, sig, y, rfl, hl, ⟨x, hg, rfl⟩, hx, hy, ?_⟩
                have hbody : manifestBody env (.obj l) = env.canon y := by
                  unfold manifestBody
                  simp [Json.get, hy]
                rw [hbody] at hv
                exact hv
        | _ => exact absurd rfl hs
    | _ => cases h1

theorem manifestVerifies_of {env : Env} {j : Json} {k : PublicKey} (h : SignedBy env j k) : manifestVerifies env j k = .ok true := by
  obtain ⟨l, s, rest, x, sig, b, rfl, h1, ⟨z, h2, h2'⟩, h3, h4, h5⟩ := h
  simp only [At] at h2'
  subst h2'
  rw [validUnder_iff] at h5
  have e1 : manifestSignature (.obj l) = sig := by
    rw [manifestSignature_obj, h1]
    simp [h2, h3]
  have e2 : manifestBody env (.obj l) = env.canon b := by
    unfold manifestBody
    simp [Json.get, h4]
  unfold manifestVerifies
  simp only [Json.isMember, h1, h4, e1, e2, h5]
  rfl

/-! ### Where the entries come from -/

variable {env : Env} {p : Peers}

/-- `j` is what the Secondary gave in these answers, or was kept from before. -/
def Traced (env : Env) (p : Peers) (old : List (String × String)) (s : String) (j : Json) : Prop :=
  Gave env p s j ∨ (∃ j0, Gave env p s j0 ∧ j = env.parseJson (env.canon j0)) ∨
    ∃ text, (s, text) ∈ old ∧ text ≠ "" ∧ j = env.parseJson text

/-- What is kept is what was, or what was given in these answers. -/
def KeepsSaid (env : Env) (p : Peers) (old new : List (String × String)) : Prop :=
  ∀ s text, (s, text) ∈ new → text = "" ∨ (s, text) ∈ old ∨ ∃ j, Gave env p s j ∧ text = env.canon j

theorem KeepsSaid.refl (l : List (String × String)) : KeepsSaid env p l l := fun _ _ h => .inr (.inl h)

theorem KeepsSaid.trans {a b c : List (String × String)} (h : KeepsSaid env p a b) (h' : KeepsSaid env p b c) : KeepsSaid env p a c := by
  intro s text hm
  rcases h' s text hm with h1 | h1 | h1
  · exact .inl h1
  · exact h s text h1
  · exact .inr (.inr h1)

theorem Traced.of_keeps {a b : List (String × String)} {s : String} {j : Json} (h : KeepsSaid env p a b) (ht : Traced env p b s j) : Traced env p a s j := by
  rcases ht with h1 | h1 | ⟨text, h1, h2, h3⟩
  · exact .inl h1
  · exact .inr (.inl h1)
  · rcases h s text h1 with h4 | h4 | ⟨j0, h4, h5⟩
    · exact absurd h4 h2
    · exact .inr (.inr ⟨text, h4, h2, h3⟩)
    · exact .inr (.inl ⟨j0, h4, by rw [h3, h5]⟩)

theorem lookup_mem' {α : Type} : ∀ {l : List (String × α)} {k : String} {v : α}, l.lookup k = some v → (k, v) ∈ l
  | (a, b) :: l, k, v, h => by
    simp only [List.lookup] at h
    split at h
    · next hk =>
      have := eq_of_beq hk
      cases h
      subst this
      exact .head _
    · exact .tail _ (lookup_mem' h)

/-- The kept manifest of a Secondary. -/
def kept (env : Env) (cache : List (String × String)) (s : String) : Option (Json × Bool) :=
  match cache.lookup s with
  | some text => if text = "" then none else some (env.parseJson text, true)
  | none => none

theorem obtainManifest_eq (s : String) (d : Dev) : obtainManifest env p s d =
    ((match p.secManifest d.n s with
      | .error e => if e.isStd then .ok (kept env d.cache s) else .error e
      | .ok j => if j.isEmpty then .ok (kept env d.cache s) else .ok (some (j, false))), { d with n := d.n + 1 }) := by
  have hk : ∀ d : Dev, (do
      let d ← gets id
      match d.cache.lookup s with
      | some text => if text = "" then pure none else pure (some (env.parseJson text, true))
      | none => pure none : D (Option (Json × Bool))) d = (.ok (kept env d.cache s), d) := by
    intro d
    unfold kept
    rw [show (do
      let d ← gets id
      match d.cache.lookup s with
      | some text => if text = "" then pure none else pure (some (env.parseJson text, true))
      | none => pure none : D (Option (Json × Bool))) d = (match d.cache.lookup s with
      | some text => if text = "" then pure none else pure (some (env.parseJson text, true))
      | none => pure none : D (Option (Json × Bool))) d from rfl]
    cases d.cache.lookup s with
    | none => rfl
    | some text =>
      simp only
      split <;> rfl
  unfold obtainManifest
  refine (M.run_bind (m := ask fun n => p.secManifest n s) (a := p.secManifest d.n s) (w1 := { d with n := d.n + 1 }) rfl).trans ?_
  cases ha : p.secManifest d.n s with
  | error e =>
    cases he : e.isStd with
    | false =>
      have : orDefault Json.null (.error e : Except Err Json) = .error e := by simp [orDefault, he]
      rw [this]
      refine (M.run_bind_err (m := lift (.error e)) (e := e) (w1 := { d with n := d.n + 1 }) rfl).trans ?_
      simp [he]
    | true =>
      have : orDefault Json.null (.error e : Except Err Json) = .ok .null := by simp [orDefault, he]
      rw [this]
      refine (M.run_bind (m := lift (.ok Json.null)) (a := Json.null) (w1 := { d with n := d.n + 1 }) rfl).trans ?_
      rw [if_pos (show Json.null.isEmpty = true from rfl)]
      refine (hk _).trans ?_
      simp [he]
  | ok j =>
    refine (M.run_bind (m := lift (.ok j)) (a := j) (w1 := { d with n := d.n + 1 }) rfl).trans ?_
    cases hj : j.isEmpty with
    | true =>
      rw [if_pos rfl]
      refine (hk _).trans ?_
      simp [hj]
    | false =>
      rw [if_neg (by simp)]
      simp [hj]

/-- The parts of an answer. -/
theorem obtainManifest_ok {s : String} {d d' : Dev} {j : Json} {c : Bool} (h : obtainManifest env p s d = (.ok (some (j, c)), d')) :
    d' = { d with n := d.n + 1 } ∧ (c = false ∧ p.secManifest d.n s = .ok j ∨
      c = true ∧ ∃ text, (s, text) ∈ d.cache ∧ text ≠ "" ∧ j = env.parseJson text) := by
  rw [obtainManifest_eq] at h
  simp only [Prod.mk.injEq] at h
  obtain ⟨h1, rfl⟩ := h
  refine ⟨rfl, ?_⟩
  have hk : kept env d.cache s = some (j, c) → (c = true ∧ ∃ text, (s, text) ∈ d.cache ∧ text ≠ "" ∧ j = env.parseJson text) := by
    intro hx
    unfold kept at hx
    cases hl : d.cache.lookup s with
    | none => rw [hl] at hx; cases hx
    | some text =>
      rw [hl] at hx
      simp only at hx
      split at hx
      · cases hx
      · next hne =>
        cases hx
        exact ⟨rfl, text, lookup_mem' hl, hne, rfl⟩
  cases ha : p.secManifest d.n s with
  | error e =>
    rw [ha] at h1
    simp only at h1
    split at h1
    · injection h1 with h1
      exact .inr (hk h1)
    · cases h1
  | ok a =>
    rw [ha] at h1
    simp only at h1
    split at h1
    · injection h1 with h1
      exact .inr (hk h1)
    · cases h1
      exact .inl ⟨rfl, rfl⟩

theorem storeCached_run {s text : String} {d d' : Dev} {o : Except Err Unit} (h : storeCached s text d = (o, d')) :
    d'.log = d.log ∧ d'.cl.secondaries = d.cl.secondaries ∧ (d'.cache = d.cache ∨ d'.cache = d.cache.map (fun q => if q.1 = s then (q.1, text) else q)) ∧
      (o = .ok () → d'.cache = d.cache.map (fun q => if q.1 = s then (q.1, text) else q)) := by
  unfold storeCached at h
  rcases bind_cases h with ⟨a, d1, g1, h⟩ | ⟨e, g1, rfl⟩
  · obtain ⟨cl', h5, rfl⟩ := inClient_run g1
    simp only [modify_eq, Prod.mk.injEq] at h
    obtain ⟨_, rfl⟩ := h
    refine ⟨rfl, ?_, .inr rfl, fun _ => rfl⟩
    rcases cwrite_cases h5 with ⟨n, _, _, rfl⟩ | ⟨_, rfl⟩ <;> rfl
  · obtain ⟨cl', h5, rfl⟩ := inClient_run g1
    refine ⟨rfl, ?_, .inl rfl, fun h => by cases h⟩
    rcases cwrite_cases h5 with ⟨n, _, _, rfl⟩ | ⟨_, rfl⟩ <;> rfl

theorem KeepsSaid.store {l : List (String × String)} {s : String} {j : Json} (hg : Gave env p s j) :
    KeepsSaid env p l (l.map (fun q => if q.1 = s then (q.1, env.canon j) else q)) := by
  intro s' text hm
  obtain ⟨q, hq, he⟩ := List.mem_map.1 hm
  split at he
  · next h1 =>
    cases he
    exact .inr (.inr ⟨j, h1 ▸ hg, rfl⟩)
  · subst he
    exact .inr (.inl hq)

theorem secondaryManifests_traces (hne : NoEmptySignature env) : ∀ (l : List (String × String)) {d d' : Dev} {o : Except Err (List (String × Json))},
    secondaryManifests env p l d = (o, d') →
    KeepsSaid env p d.cache d'.cache ∧ d'.log = d.log ∧ ∀ out, o = .ok out → ∀ s j, (s, j) ∈ out → s ∈ l.map Prod.fst ∧ Vouched env p s j ∧ Traced env p d.cache s j
  | [], d, d', o, h => by
    simp only [secondaryManifests, pure_eq, Prod.mk.injEq] at h
    obtain ⟨rfl, rfl⟩ := h
    refine ⟨.refl _, rfl, fun out ho s j hm => ?_⟩
    cases ho
    cases hm
  | (s, hw) :: rest, d, d', o, h => by
    have ih := @secondaryManifests_traces hne rest
    have lift' : ∀ {d1 : Dev} {out : List (String × Json)}, KeepsSaid env p d.cache d1.cache →
        (∀ s j, (s, j) ∈ out → s ∈ rest.map Prod.fst ∧ Vouched env p s j ∧ Traced env p d1.cache s j) →
        ∀ s' j, (s', j) ∈ out → s' ∈ ((s, hw) :: rest).map Prod.fst ∧ Vouched env p s' j ∧ Traced env p d.cache s' j :=
      fun hk hx s' j hm => ⟨.tail _ (hx s' j hm).1, (hx s' j hm).2.1, (hx s' j hm).2.2.of_keeps hk⟩
    unfold secondaryManifests at h
    rcases bind_cases h with ⟨a, d1, g1, h⟩ | ⟨e, g1, rfl⟩
    swap_goal
    · rw [obtainManifest_eq] at g1
      simp only [Prod.mk.injEq] at g1
      obtain ⟨_, rfl⟩ := g1
      exact ⟨.refl _, rfl, fun out ho => by cases ho⟩
    cases a with
    | none =>
      rw [obtainManifest_eq] at g1
      simp only [Prod.mk.injEq] at g1
      obtain ⟨_, rfl⟩ := g1
      obtain ⟨k1, k2, k3⟩ := ih h
      exact ⟨k1, k2, fun out ho => lift' (d1 := d) (.refl _) (k3 out ho)⟩
    | some jc =>
      obtain ⟨j, c⟩ := jc
      obtain ⟨rfl, hsrc⟩ := obtainManifest_ok g1
      simp only at h
      rcases bind_cases h with ⟨k, d2, g2, h⟩ | ⟨e, g2, rfl⟩
      swap_goal
      · simp at g2
      simp only [ask_eq, Prod.mk.injEq, Except.ok.injEq] at g2
      obtain ⟨hkey, rfl⟩ := g2
      rcases bind_cases h with ⟨good, d3, g3, h⟩ | ⟨e, g3, rfl⟩
      swap_goal
      · simp only [lift_eq, Prod.mk.injEq] at g3
        obtain ⟨_, rfl⟩ := g3
        exact ⟨.refl _, rfl, fun out ho => by cases ho⟩
      simp only [lift_eq, Prod.mk.injEq] at g3
      obtain ⟨hgood, rfl⟩ := g3
      cases good with
      | false =>
        rw [if_neg (by simp)] at h
        obtain ⟨k1, k2, k3⟩ := ih h
        exact ⟨k1, k2, fun out ho => lift' (d1 := d) (.refl _) (k3 out ho)⟩
      | true =>
        rw [if_pos rfl] at h
        have hv : Vouched env p s j := by
          cases hk : k with
          | error e =>
            rw [hk] at hgood
            simp only [orDefault, Bind.bind, Except.bind] at hgood
            split at hgood <;> cases hgood
          | ok key =>
            rw [hk] at hgood
            refine ⟨d.n + 1, key, hkey.trans hk, manifestVerifies_ok hne ?_⟩
            simp only [orDefault, Bind.bind, Except.bind] at hgood
            cases hx : manifestVerifies env j key with
            | error e =>
              rw [hx] at hgood
              simp only at hgood
              split at hgood <;> cases hgood
            | ok b =>
              rw [hx] at hgood
              exact hgood
        have htr : Traced env p d.cache s j := by
          rcases hsrc with ⟨_, h1⟩ | ⟨_, text, h1, h2, h3⟩
          · exact .inl ⟨⟨_, h1⟩, hv⟩
          · exact .inr (.inr ⟨text, h1, h2, h3⟩)
        have tail : ∀ {d4 : Dev}, KeepsSaid env p d.cache d4.cache → d4.log = d.log →
            (do let l ← secondaryManifests env p rest; pure ((s, j) :: l) : D _) d4 = (o, d') →
            KeepsSaid env p d.cache d'.cache ∧ d'.log = d.log ∧ ∀ out, o = .ok out → ∀ s' j', (s', j') ∈ out →
              s' ∈ ((s, hw) :: rest).map Prod.fst ∧ Vouched env p s' j' ∧ Traced env p d.cache s' j' := by
          intro d4 k0 kl h
          rcases bind_cases h with ⟨out, d5, g5, h⟩ | ⟨e, g5, rfl⟩
          · obtain ⟨k1, k2, k3⟩ := ih g5
            simp only [pure_eq, Prod.mk.injEq] at h
            obtain ⟨rfl, rfl⟩ := h
            refine ⟨k0.trans k1, k2.trans kl, fun out' ho s' j' hm => ?_⟩
            injection ho with ho
            subst ho
            rcases List.mem_cons.1 hm with hm | hm
            · cases hm
              exact ⟨.head _, hv, htr⟩
            · exact lift' k0 (k3 out rfl) s' j' hm
          · obtain ⟨k1, k2, k3⟩ := ih g5
            exact ⟨k0.trans k1, k2.trans kl, fun out ho => by cases ho⟩
        cases c with
        | true => exact tail (d4 := { d with n := d.n + 1 + 1 }) (.refl _) rfl h
        | false =>
          rcases hsrc with ⟨_, h1⟩ | ⟨h1, _⟩
          swap_goal
          · cases h1
          rw [if_neg (by simp)] at h
          rcases bind_cases h with ⟨_, d4, g4, h⟩ | ⟨e, g4, rfl⟩
          · obtain ⟨r1, _, r2, _⟩ := storeCached_run g4
            refine tail ?_ r1 h
            rcases r2 with r2 | r2
            · rw [r2]; exact .refl _
            · rw [r2]; exact .store ⟨⟨_, h1⟩, hv⟩
          · obtain ⟨r1, _, r2, _⟩ := storeCached_run g4
            refine ⟨?_, r1, fun out ho => by cases ho⟩
            rcases r2 with r2 | r2
            · rw [r2]; exact .refl _
            · rw [r2]; exact .store ⟨⟨_, h1⟩, hv⟩

/-- What the manifests sent meanwhile list was vouched for, and traced. -/
def Traces (env : Env) (p : Peers) (d d' : Dev) : Prop :=
  KeepsSaid env p d.cache d'.cache ∧ ∃ new, d'.log = d.log ++ new ∧ ∀ m ok, Action.sent m ok ∈ new →
    ∀ s j, (s, j) ∈ m.secondaries → Vouched env p s j ∧ Traced env p d.cache s j

theorem Traces.nothing {d d' : Dev} (hc : KeepsSaid env p d.cache d'.cache) {new : List Action} (hl : d'.log = d.log ++ new)
    (hn : ∀ m ok, Action.sent m ok ∉ new) : Traces env p d d' := ⟨hc, new, hl, fun m ok hm => absurd hm (hn m ok)⟩

theorem traces_pre : IsPre (Traces env p) := by
  refine ⟨fun d => .nothing (.refl _) (List.append_nil _).symm (by simp), ?_⟩
  rintro a b c ⟨h1, n1, h2, h3⟩ ⟨g1, n2, g2, g3⟩
  refine ⟨h1.trans g1, n1 ++ n2, by rw [g2, h2, List.append_assoc], fun m ok hm s j hj => ?_⟩
  rcases List.mem_append.1 hm with hm | hm
  · exact h3 m ok hm s j hj
  · exact ⟨(g3 m ok hm s j hj).1, (g3 m ok hm s j hj).2.of_keeps h1⟩

theorem traces_frame : DevBase (fun _ _ => True) (fun a => ∀ m ok, a ≠ .sent m ok) (Traces env p) where
  cl := ⟨⟨fun _ => trivial, fun _ _ _ _ _ => trivial⟩, fun _ _ => trivial⟩
  versions := fun _ _ _ _ _ => trivial
  ecuResult := fun _ _ _ => trivial
  devResult := fun _ _ => trivial
  pre := traces_pre
  client := fun _ _ _ => .nothing (.refl _) (List.append_nil _).symm (by simp)
  log := fun _ a ha => .nothing (.refl _) rfl (fun m ok hm => ha m ok (by simpa using (List.mem_singleton.1 hm).symm))
  asked := fun _ _ => .nothing (.refl _) (List.append_nil _).symm (by simp)

theorem assembleManifest_traces (hne : NoEmptySignature env) {d d' : Dev} {o : Except Err Manifest} (h : assembleManifest env p d = (o, d')) :
    Traces env p d d' ∧ ∀ m, o = .ok m → m.primary = d.cl.primary ∧ ∀ s j, (s, j) ∈ m.secondaries →
      s ∈ d.cl.secondaries.map Prod.fst ∧ Vouched env p s j ∧ Traced env p d.cache s j := by
  have hf := traces_frame (env := env) (p := p)
  have hp := traces_pre (env := env) (p := p)
  unfold assembleManifest at h
  rcases bind_cases h with ⟨_, _, g1, h⟩ | ⟨_, g1, rfl⟩
  swap_goal
  · simp at g1
  simp only [gets_eq, Prod.mk.injEq, Except.ok.injEq, id] at g1
  obtain ⟨rfl, rfl⟩ := g1
  have hcount : Preserves (fun a b : Dev => Traces env p a b ∧ b.cache = a.cache) nextCounter := by
    have hq : IsPre (fun a b : Dev => Traces env p a b ∧ b.cache = a.cache) :=
      ⟨fun d => ⟨hp.refl d, rfl⟩, fun a b c h h' => ⟨hp.trans _ _ _ h.1 h'.1, h'.2.trans h.2⟩⟩
    unfold nextCounter
    wpres hq
    exact fun d => ⟨hf.inClient (hf.cl.cwrite (fun _ => trivial)) d, rfl⟩
  rcases bind_cases h with ⟨c, d1, g2, h⟩ | ⟨_, g2, rfl⟩
  swap_goal
  · exact ⟨(hcount.of_eq g2).1, fun m ho => by cases ho⟩
  obtain ⟨t1, c1⟩ := hcount.of_eq g2
  rcases bind_cases h with ⟨_, d2, g3, h⟩ | ⟨_, g3, rfl⟩
  swap_goal
  · exact ⟨hp.trans _ _ _ t1 ((hf.act (by intros; simp)).of_eq g3), fun m ho => by cases ho⟩
  have t2 := hp.trans _ _ _ t1 ((hf.act (by intros; simp)).of_eq g3)
  have c2 : d2.cache = d.cache := by
    obtain ⟨k, _, rfl⟩ := act_ok.1 g3
    exact c1
  rcases bind_cases h with ⟨secs, d3, g4, h⟩ | ⟨_, g4, rfl⟩
  swap_goal
  · obtain ⟨k1, k2, _⟩ := secondaryManifests_traces hne _ g4
    exact ⟨hp.trans _ _ _ t2 (.nothing k1 (by rw [k2, List.append_nil]) (by simp)), fun m ho => by cases ho⟩
  obtain ⟨k1, k2, k3⟩ := secondaryManifests_traces hne _ g4
  have t3 := hp.trans _ _ _ t2 (.nothing k1 (new := []) (by rw [k2, List.append_nil]) (by simp))
  rcases bind_cases h with ⟨r, d4, g5, h⟩ | ⟨_, g5, rfl⟩
  swap_goal
  · exact ⟨hp.trans _ _ _ t3 (hf.assembleReport.of_eq g5), fun m ho => by cases ho⟩
  have t4 := hp.trans _ _ _ t3 (hf.assembleReport.of_eq g5)
  simp only [pure_eq, Prod.mk.injEq] at h
  obtain ⟨rfl, rfl⟩ := h
  refine ⟨t4, fun m ho => ?_⟩
  injection ho with ho
  subst ho
  refine ⟨rfl, fun s j hm => ?_⟩
  obtain ⟨q1, q2, q3⟩ := k3 secs rfl s j hm
  rw [c2] at q3
  exact ⟨q1, q2, q3⟩

/-- The pieces of `putManifestSimple`: nothing was sent, or the assembled manifest. -/
theorem putManifestSimple_traces (hne : NoEmptySignature env) {d d' : Dev} {o : Except Err Bool} (h : putManifestSimple env p d = (o, d')) :
    Traces env p d d' := by
  have hf := traces_frame (env := env) (p := p)
  have hp := traces_pre (env := env) (p := p)
  unfold putManifestSimple at h
  rcases bind_cases h with ⟨_, _, g1, h⟩ | ⟨_, g1, rfl⟩
  swap_goal
  · simp at g1
  simp only [gets_eq, Prod.mk.injEq, Except.ok.injEq, id] at g1
  obtain ⟨rfl, rfl⟩ := g1
  split at h
  · simp only [pure_eq, Prod.mk.injEq] at h
    obtain ⟨_, rfl⟩ := h
    exact hp.refl _
  rcases bind_cases h with ⟨m, d1, g1, h⟩ | ⟨e, g1, rfl⟩
  swap_goal
  · exact (assembleManifest_traces hne g1).1
  obtain ⟨t1, q1⟩ := assembleManifest_traces hne g1
  rcases bind_cases h with ⟨ok, d2, g2, h⟩ | ⟨e, g2, rfl⟩
  swap_goal
  · simp at g2
  have t2 := (hf.ask (fun n => p.putManifest n m)).of_eq g2
  simp only [ask_eq, Prod.mk.injEq, Except.ok.injEq] at g2
  obtain ⟨_, rfl⟩ := g2
  -- the manifest is sent between two stretches in which nothing is
  have sent : ∀ {d3 : Dev}, d3.cache = d1.cache → d3.log = d1.log ++ [.sent m ok] → Traces env p d d3 := by
    intro d3 hc hl
    obtain ⟨hk, new, hn, hs⟩ := t1
    refine ⟨by rw [hc]; exact hk, new ++ [.sent m ok], by rw [hl, hn, List.append_assoc], fun m' ok' hm s j hj => ?_⟩
    rcases List.mem_append.1 hm with hm | hm
    · exact hs m' ok' hm s j hj
    · simp only [List.mem_singleton, Action.sent.injEq] at hm
      obtain ⟨rfl, rfl⟩ := hm
      exact ((q1 m' rfl).2 s j hj).2
  rcases bind_cases h with ⟨_, d3, g3, h⟩ | ⟨e, g3, rfl⟩
  swap_goal
  · rcases act_cases g3 with ⟨_, _, ho, _⟩ | ⟨_, rfl⟩
    · simp at ho
    · exact hp.trans _ _ _ t1 t2
  obtain ⟨k, _, rfl⟩ := act_ok.1 g3
  have t3 := sent (d3 := { d1 with n := d1.n + 1, cl := { d1.cl with w := { d1.cl.w with fuel := k } }, log := d1.log ++ [Action.sent m ok] }) rfl rfl
  refine hp.trans _ _ _ t3 ?_
  have hrest : Preserves (Traces env p) (if ok = true then do inClient clearInstallationResults; pure true else pure false : D Bool) := by
    split
    · exact .bind hp (hf.inClient (fun _ => trivial)) (fun _ => .pure hp)
    · exact .pure hp
  exact hrest.of_eq h

theorem finalizeAfterReboot_traces (hne : NoEmptySignature env) : Preserves (Traces env p) (finalizeAfterReboot env p) := by
  have hf := traces_frame (env := env) (p := p)
  unfold finalizeAfterReboot
  wpres (traces_pre (env := env) (p := p))
  all_goals first
    | exact fun d => putManifestSimple_traces hne rfl
    | exact hf.ask _
    | exact hf.saveVersion _ _ _ _
    | exact hf.saveEcuResult _ _
    | exact hf.storeDeviceResult _ _ _
    | exact hf.inWorld _
    | exact hf.act (by intros; simp)

theorem keepsSaid_rows (secs cache : List (String × String)) : KeepsSaid env p cache (addSecondaryRows secs cache) := by
  intro s text hm
  unfold addSecondaryRows at hm
  rcases List.mem_append.1 hm with hm | hm
  · exact .inr (.inl hm)
  · obtain ⟨q, _, hq⟩ := List.mem_map.1 hm
    cases hq
    exact .inl rfl

theorem run_traces (hne : NoEmptySignature env) (c : Ctx) (hc : c.env = env) (call : DevCall) : Preserves (Traces env p) (call.run c p) := by
  have hf := traces_frame (env := env) (p := p)
  have hk := traces_pre (env := env) (p := p)
  have hput : Preserves (Traces env p) (putManifestSimple env p) := fun d => putManifestSimple_traces hne rfl
  subst hc
  cases call with
  | init cfg ok =>
    show Preserves _ (startUp c.env p cfg ok)
    unfold startUp
    wpres hk
    all_goals first
      | exact finalizeAfterReboot_traces hne
      | exact hf.inClient (fun _ => trivial)
      | exact fun d => .nothing (keepsSaid_rows _ _) (List.append_nil _).symm (by simp)
      | skip
    exact .nothing (keepsSaid_rows _ _) (List.append_nil _).symm (by simp)
  | install ts => exact .bind hk (hf.uptaneInstall (fun _ _ h => h) _ _ _) (fun _ => .pure hk)
  | putManifest => exact .bind hk hput (fun _ => .pure hk)
  | fetchMeta =>
    refine .bind hk ?_ (fun _ => .pure hk)
    unfold fetchMeta
    wpres hk
    all_goals first
      | exact hput
      | exact hf.checkPending _ _
      | exact hf.inClient (fun _ => trivial)
  | checkUpdates => exact .bind hk (hf.inClient (fun _ => trivial)) (fun _ => .pure hk)
  | checkPending => exact hf.checkPending _ _
  | storeFailure r => exact hf.inClient (fun _ => trivial)
  | setRaw raw => exact hf.inClient (fun _ => trivial)

theorem step_traces (hne : NoEmptySignature env) (d : Dev) (e : DevEvent) : Traces env e.peers d (e.step env d) := by
  have hp := traces_pre (env := env) (p := e.peers)
  have off : ∀ d : Dev, Traces env e.peers d d.off := fun d => .nothing (.refl _) (List.append_nil _).symm (by simp)
  have start : Traces env e.peers d (e.start d) := by
    unfold DevEvent.start
    split
    · exact .nothing (.refl _) (List.append_nil _).symm (by simp)
    · exact .nothing (.refl _) (List.append_nil _).symm (by simp)
  unfold DevEvent.step
  have run := run_traces (p := e.peers) hne { env := env, net := e.net, clock := e.clock } rfl e.call
  split
  · split
    · next hx => exact hp.trans _ _ _ (hp.trans _ _ _ start (run.of_eq hx)) (off _)
    · next hx => exact hp.trans _ _ _ (hp.trans _ _ _ start (run.of_eq hx)) (off _)
    · next hx => exact hp.trans _ _ _ start (run.of_eq hx)
  · exact hp.refl _

/-- What is kept was given by the Secondary itself. -/
theorem cache_said (hne : NoEmptySignature env) (es : List DevEvent) : ∀ s text, (s, text) ∈ (runDevice env Dev.fresh es).cache →
    text = "" ∨ ∃ e ∈ es, ∃ j, Gave env e.peers s j ∧ text = env.canon j := by
  have : ∀ (es : List DevEvent) (d : Dev) (P : String → String → Prop), (∀ s text, (s, text) ∈ d.cache → text = "" ∨ P s text) →
      ∀ s text, (s, text) ∈ (runDevice env d es).cache → text = "" ∨ P s text ∨ ∃ e ∈ es, ∃ j, Gave env e.peers s j ∧ text = env.canon j := by
    intro es
    induction es with
    | nil => intro d P h s text hm; exact (h s text hm).imp id .inl
    | cons e es ih =>
      intro d P h s text hm
      have hstep := (step_traces hne d e).1
      have := ih (e.step env d) (fun s text => P s text ∨ ∃ j, Gave env e.peers s j ∧ text = env.canon j) (fun s text hm => by
        rcases hstep s text hm with h1 | h1 | h1
        · exact .inl h1
        · exact (h s text h1).imp id .inl
        · exact .inr (.inr h1)) s text hm
      rcases this with h1 | (h1 | ⟨j, h1⟩) | ⟨e', h1, h2⟩
      · exact .inl h1
      · exact .inr (.inl h1)
      · exact .inr (.inr ⟨e, .head _, j, h1⟩)
      · exact .inr (.inr ⟨e', .tail _ h1, h2⟩)
  intro s text hm
  rcases this es Dev.fresh (fun _ _ => False) (fun s text hm => by cases hm) s text hm with h | h | h
  · exact .inl h
  · exact h.elim
  · exact .inr h

/-- **The entries of the Secondaries.** Over all histories, with restarts and crashes anywhere: whatever a manifest lists for
a Secondary is signed by a key the Secondary gave in the same call, and is the manifest the Secondary gave itself, in
the same call or (as text that was stored) in an earlier one. -/
theorem C75_secondary_entries (hne : NoEmptySignature env) (es : List DevEvent) (e : DevEvent) :
    ∃ new, (runDevice env Dev.fresh (es ++ [e])).log = (runDevice env Dev.fresh es).log ++ new ∧
      ∀ m ok, Action.sent m ok ∈ new → ∀ s j, (s, j) ∈ m.secondaries →
        Vouched env e.peers s j ∧
        (Gave env e.peers s j ∨ ∃ e0 ∈ es ++ [e], ∃ j0, Gave env e0.peers s j0 ∧ j = env.parseJson (env.canon j0)) := by
  obtain ⟨_, new, h1, h2⟩ := step_traces hne (runDevice env Dev.fresh es) e
  refine ⟨new, by unfold runDevice at h1 ⊢; rw [List.foldl_append]; exact h1, fun m ok hm s j hj => ?_⟩
  obtain ⟨hv, ht⟩ := h2 m ok hm s j hj
  refine ⟨hv, ?_⟩
  rcases ht with ht | ⟨j0, ht, hj0⟩ | ⟨text, ht, hn, hj0⟩
  · exact .inl ht
  · exact .inr ⟨e, List.mem_append_right _ (.head _), j0, ht, hj0⟩
  · rcases cache_said hne es s text ht with h3 | ⟨e0, h3, j0, h4, h5⟩
    · exact absurd h3 hn
    · exact .inr ⟨e0, List.mem_append_left _ h3, j0, h4, by rw [hj0, h5]⟩

end Aktualizr
