import Verif.Props.C24

/-!
# C47 Secondary Root rotation sends every missing Root in order
-/

namespace Aktualizr

open M

/-! ### Specification -/

namespace Spec

/-- `text` is the Root of version `v`: the stored one, or, if none is stored, what the server
delivered under that version at some time. -/
def RootText (c : Ctx) (db : MetaDb) (repo : Repo) (v : Int) (text : String) : Prop :=
  db.loadRootVersion repo v = some text ∨ (db.loadRootVersion repo v = none ∧ ∃ t, c.net t repo "root" v = some text)

/-- The Root of version `v` is not stored and at some time the server did not deliver it. -/
def RootUnavailable (c : Ctx) (db : MetaDb) (repo : Repo) (v : Int) : Prop :=
  db.loadRootVersion repo v = none ∧
    ∃ t, c.net t repo "root" v = none ∨ ∃ b, c.net t repo "root" v = some b ∧ kMaxRootSize < (b.utf8ByteSize : Int)

/-- The Secondary answered that it accepted. -/
def Accepted (x : Except Err InstResult) : Prop := ∃ r, x = .ok r ∧ r.success = true

/-- The Roots `texts` are those of versions `v`, `v + 1`, ...; all but possibly the last have
been accepted, the answers starting at interaction `n`. -/
structure RootsSent (c : Ctx) (p : Peers) (db : MetaDb) (repo : Repo) (serial : String) (v : Int) (n : Nat) (texts : List String) : Prop where
  versions : ∀ i (h : i < texts.length), RootText c db repo (v + i) texts[i]
  accepted : ∀ i (h : i + 1 < texts.length), Accepted (p.putRoot (n + i) serial (repo == .director) (texts[i]'(by omega)))

/-- Why sending stopped early: the last Root was not accepted, or the next one is unavailable. -/
def Stopped (c : Ctx) (p : Peers) (db : MetaDb) (repo : Repo) (serial : String) (v : Int) (n : Nat) (texts : List String) : Prop :=
  (∃ h : 0 < texts.length, ¬ Accepted (p.putRoot (n + (texts.length - 1)) serial (repo == .director) (texts[texts.length - 1]'(by omega)))) ∨
  RootUnavailable c db repo (v + texts.length)

end Spec

open Spec

/-! ### Lemmas -/

theorem tryFetchRoot_some {c : Ctx} {repo : Repo} {v : Int} {w w' : World} {text : String} (h : tryFetchRoot c repo v w = (.ok (some text), w')) :
    c.net w.tick repo "root" v = some text := by
  unfold tryFetchRoot at h
  rcases Aktualizr.catchStd_ok.1 h with h | ⟨_, _, _, _, h⟩
  · obtain ⟨raw, _, h1, h2⟩ := M.bind_ok.1 h
    simp only [pure_eq, Prod.mk.injEq, Except.ok.injEq, Option.some.injEq] at h2
    rw [← h2.1]
    exact (fetchRole_ok h1).1
  · simp at h

theorem rootForSecondary_cases {c : Ctx} {repo : Repo} {v : Int} {d d' : Dev} {o : Except Err (Option String)}
    (h : rootForSecondary c repo v d = (o, d')) :
    d'.log = d.log ∧ d'.n = d.n ∧ d'.cl.w.db = d.cl.w.db ∧
      (∀ text, o = .ok (some text) → RootText c d.cl.w.db repo v text) ∧ (o = .ok none → RootUnavailable c d.cl.w.db repo v) := by
  unfold rootForSecondary at h
  rcases bind_cases h with ⟨_, _, g1, h⟩ | ⟨_, g1, rfl⟩
  swap_goal
  · simp at g1
  simp only [gets_eq, Prod.mk.injEq, Except.ok.injEq, id] at g1
  obtain ⟨rfl, rfl⟩ := g1
  cases hs : d.cl.w.db.loadRootVersion repo v with
  | some text =>
    rw [hs] at h
    simp only [pure_eq, Prod.mk.injEq] at h
    obtain ⟨rfl, rfl⟩ := h
    refine ⟨rfl, rfl, rfl, fun t ht => ?_, fun hn => ?_⟩
    · simp only [Except.ok.injEq, Option.some.injEq] at ht
      rw [← ht]; exact .inl hs
    · simp at hn
  | none =>
    rw [hs] at h
    obtain ⟨cl', g2, rfl⟩ := inClient_run h
    rw [inWorld_eq, Prod.mk.injEq] at g2
    obtain ⟨rfl, rfl⟩ := g2
    refine ⟨rfl, rfl, (tryFetchRoot_same c repo v d.cl.w).1, fun t ht => .inr ⟨hs, d.cl.w.tick, ?_⟩, fun hn => ⟨hs, d.cl.w.tick, ?_⟩⟩
    · exact tryFetchRoot_some (w' := (tryFetchRoot c repo v d.cl.w).2) (Prod.ext ht rfl)
    · exact (tryFetchRoot_none (w' := (tryFetchRoot c repo v d.cl.w).2) (Prod.ext hn rfl)).2

/-- What the loop of `rotateSecondaryRoot` sends. -/
theorem rotateSecLoop_sends (c : Ctx) (p : Peers) (repo : Repo) (serial : String) :
    ∀ (k : Nat) (v : Int) (r0 : InstResult) (d d' : Dev) (o : Except Err InstResult), rotateSecLoop c p repo serial k v r0 d = (o, d') →
      ∃ texts : List String, d'.log = d.log ++ texts.map (Action.putRoot serial (repo == .director)) ∧ texts.length ≤ k ∧
        RootsSent c p d.cl.w.db repo serial v d.n texts ∧
        ∀ r, o = .ok r →
          (r.success = true → texts.length = k ∧ ∀ i (h : i < texts.length), Accepted (p.putRoot (d.n + i) serial (repo == .director) texts[i])) ∧
          (k ≠ 0 → r.success = false → Stopped c p d.cl.w.db repo serial v d.n texts)
  | 0, v, r0, d, d', o, h => by
    simp only [rotateSecLoop, pure_eq, Prod.mk.injEq] at h
    obtain ⟨rfl, rfl⟩ := h
    exact ⟨[], by simp, Nat.le_refl _, ⟨fun i h => absurd h (Nat.not_lt_zero _), fun i h => absurd h (Nat.not_lt_zero _)⟩,
      fun r _ => ⟨fun _ => ⟨rfl, fun i h => absurd h (Nat.not_lt_zero _)⟩, fun h => absurd rfl h⟩⟩
  | k + 1, v, r0, d, d', o, h => by
    have empty : ∀ d1 : Dev, d1.log = d.log → (∀ r, o = .ok r → r.success = false ∧ RootUnavailable c d.cl.w.db repo v) → d' = d1 →
        ∃ texts : List String, d'.log = d.log ++ texts.map (Action.putRoot serial (repo == .director)) ∧ texts.length ≤ k + 1 ∧
        RootsSent c p d.cl.w.db repo serial v d.n texts ∧
        ∀ r, o = .ok r →
          (r.success = true → texts.length = k + 1 ∧ ∀ i (h : i < texts.length), Accepted (p.putRoot (d.n + i) serial (repo == .director) texts[i])) ∧
          (k + 1 ≠ 0 → r.success = false → Stopped c p d.cl.w.db repo serial v d.n texts) := by
      rintro d1 hl hr rfl
      refine ⟨[], by simp [hl], Nat.zero_le _, ⟨fun i h => absurd h (Nat.not_lt_zero _), fun i h => absurd h (Nat.not_lt_zero _)⟩, fun r ho => ⟨?_, ?_⟩⟩
      · intro hs; rw [(hr r ho).1] at hs; cases hs
      · intro _ _
        refine .inr ?_
        simpa using (hr r ho).2
    unfold rotateSecLoop at h
    rcases bind_cases h with ⟨x, d1, g1, h⟩ | ⟨e, g1, rfl⟩
    swap_goal
    · obtain ⟨k1, _⟩ := rootForSecondary_cases g1
      exact empty _ k1 (by simp) rfl
    obtain ⟨k1, k2, k3, k4, k5⟩ := rootForSecondary_cases g1
    cases x with
    | none =>
      simp only [pure_eq, Prod.mk.injEq] at h
      obtain ⟨rfl, rfl⟩ := h
      refine empty _ k1 (fun r hr => ?_) rfl
      simp only [Except.ok.injEq] at hr
      exact ⟨by rw [← hr]; rfl, k5 rfl⟩
    | some root =>
      have hroot := k4 root rfl
      simp only at h
      rcases bind_cases h with ⟨_, d2, g2, h⟩ | ⟨e, g2, rfl⟩
      swap_goal
      · rcases act_cases g2 with ⟨_, _, ho, _⟩ | ⟨_, rfl⟩
        · simp at ho
        · exact empty _ k1 (by simp) rfl
      obtain ⟨f, _, rfl⟩ := act_ok.1 g2
      have one : ∀ d3 : Dev, d3.log = d1.log ++ [Action.putRoot serial (repo == .director) root] →
          (∀ r, o = .ok r → r.success = false ∧ ¬ Accepted (p.putRoot d.n serial (repo == .director) root)) → d' = d3 →
          ∃ texts : List String, d'.log = d.log ++ texts.map (Action.putRoot serial (repo == .director)) ∧ texts.length ≤ k + 1 ∧
          RootsSent c p d.cl.w.db repo serial v d.n texts ∧
          ∀ r, o = .ok r →
            (r.success = true → texts.length = k + 1 ∧ ∀ i (h : i < texts.length), Accepted (p.putRoot (d.n + i) serial (repo == .director) texts[i])) ∧
            (k + 1 ≠ 0 → r.success = false → Stopped c p d.cl.w.db repo serial v d.n texts) := by
        rintro d3 hl hr rfl
        refine ⟨[root], by rw [hl, k1]; rfl, by simp, ⟨fun i h => ?_, fun i h => absurd h (by simp)⟩, fun r ho => ⟨?_, ?_⟩⟩
        · obtain rfl : i = 0 := by simpa using h
          simpa using hroot
        · intro hs; rw [(hr r ho).1] at hs; cases hs
        · intro _ _
          exact .inl ⟨by simp, by simpa using (hr r ho).2⟩
      rcases bind_cases h with ⟨a, d3, g3, h⟩ | ⟨e, g3, rfl⟩
      swap_goal
      · simp at g3
      simp only [ask_eq, Prod.mk.injEq, Except.ok.injEq] at g3
      obtain ⟨rfl, rfl⟩ := g3
      rcases bind_cases h with ⟨r, d4, g4, h⟩ | ⟨e, g4, rfl⟩
      swap_goal
      · simp only [lift_eq, Prod.mk.injEq] at g4
        obtain ⟨_, rfl⟩ := g4
        exact one _ rfl (by simp) rfl
      simp only [lift_eq, Prod.mk.injEq] at g4
      obtain ⟨g4, rfl⟩ := g4
      simp only [k2] at g4
      have hacc : r.success = true → p.putRoot d.n serial (repo == .director) root = .ok r := by
        intro hs
        unfold orFailure at g4
        split at g4
        · split at g4
          · cases g4; cases hs
          · cases g4
        · next hx => rw [hx]; rw [g4]
      split at h
      · next hs =>
        obtain ⟨texts, t1, t2, t3, t4⟩ := rotateSecLoop_sends c p repo serial k (v + 1) r _ _ _ h
        simp only [k2, k3] at t3 t4
        have tail : ∀ i (hi : i < texts.length), (root :: texts)[i + 1]'(by simp; omega) = texts[i] := fun i hi => rfl
        refine ⟨root :: texts, ?_, by simp; omega, ⟨?_, ?_⟩, ?_⟩
        · rw [t1]
          show d1.log ++ [_] ++ _ = _
          rw [k1, List.append_assoc]; rfl
        · intro i hi
          cases i with
          | zero => simpa using hroot
          | succ i =>
            have := t3.versions i (by simpa using hi)
            have hv : v + 1 + (i : Int) = v + ((i + 1 : Nat) : Int) := by push_cast; omega
            rw [hv] at this
            exact this
        · intro i hi
          cases i with
          | zero => exact ⟨r, hacc hs, hs⟩
          | succ i =>
            have := t3.accepted i (by simpa using hi)
            have hn : d.n + 1 + i = d.n + (i + 1) := by omega
            rw [hn] at this
            exact this
        · intro r' ho
          obtain ⟨t5, t6⟩ := t4 r' ho
          constructor
          · intro hs'
            obtain ⟨t7, t8⟩ := t5 hs'
            refine ⟨by simp [t7], fun i hi => ?_⟩
            cases i with
            | zero => exact ⟨r, hacc hs, hs⟩
            | succ i =>
              have := t8 i (by simpa using hi)
              have hn : d.n + 1 + i = d.n + (i + 1) := by omega
              rw [hn] at this
              exact this
          · intro _ hs'
            have hk : k ≠ 0 := by
              rintro rfl
              simp only [rotateSecLoop, pure_eq, Prod.mk.injEq] at h
              rw [ho] at h
              simp only [Except.ok.injEq] at h
              rw [← h.1, hs] at hs'
              cases hs'
            rcases t6 hk hs' with ⟨hl, hna⟩ | hu
            · refine .inl ⟨by simp, fun hc => hna ?_⟩
              obtain ⟨j, hj⟩ : ∃ j, texts.length = j + 1 := ⟨texts.length - 1, by omega⟩
              simp only [List.length_cons, hj, Nat.add_sub_cancel] at hc ⊢
              have hn : d.n + 1 + j = d.n + (j + 1) := by omega
              rw [hn]
              exact hc
            · right
              have hv : v + 1 + (texts.length : Int) = v + ((texts.length + 1 : Nat) : Int) := by push_cast; omega
              rw [hv] at hu
              exact hu
      · next hs =>
        simp only [pure_eq, Prod.mk.injEq] at h
        obtain ⟨rfl, rfl⟩ := h
        refine one _ rfl (fun r' hr' => ?_) rfl
        simp only [Except.ok.injEq] at hr'
        subst hr'
        refine ⟨by simpa using hs, ?_⟩
        rintro ⟨r2, h2, h3⟩
        rw [h2] at g4
        simp only [orFailure, Except.ok.injEq] at g4
        subst g4
        exact hs h3

/-! ### The property -/

/-- C47. The Primary holds Root `last`, the Secondary says it has Root `sec`, and is more than one
version behind: whatever happens, the Primary sends the Roots `sec + 1`, `sec + 2`, ... in order
and no others, each after the previous one was accepted. If the outcome is success, all up to
`last` were sent and accepted; if it is a failure, the last one sent was not accepted or the next
one could not be had. -/
theorem C47_roots_in_order {c : Ctx} {p : Peers} {repo : Repo} {serial : String} {d d' : Dev} {o : Except Err InstResult} {raw : String} {last sec : Int}
    (h : rotateSecondaryRoot c p repo serial d = (o, d'))
    (hraw : (d.cl.w.db.latestOf repo .root).map (·.data) = some raw) (hne : raw ≠ "")
    (hlast : extractVersionUntrusted c.env raw = .ok last)
    (hsec : p.rootVersion d.n serial (repo == .director) = .ok sec) (h0 : 0 < sec) (hgap : sec + 1 < last) :
    ∃ texts : List String, d'.log = d.log ++ texts.map (Action.putRoot serial (repo == .director)) ∧ (texts.length : Int) ≤ last - sec ∧
      RootsSent c p d.cl.w.db repo serial (sec + 1) (d.n + 1) texts ∧
      ∀ r, o = .ok r →
        (r.success = true → (texts.length : Int) = last - sec ∧
          ∀ i (h : i < texts.length), Accepted (p.putRoot (d.n + 1 + i) serial (repo == .director) texts[i])) ∧
        (r.success = false → Stopped c p d.cl.w.db repo serial (sec + 1) (d.n + 1) texts) := by
  unfold rotateSecondaryRoot at h
  have hl : inClient (inWorld (loadLatestRoot repo)) d = (.ok (some raw), d) := by
    show ((loadLatestRoot repo d.cl.w).1, { d with cl := { d.cl with w := (loadLatestRoot repo d.cl.w).2 } }) = _
    unfold loadLatestRoot
    rw [hraw]
    simp [readBlob, hne]
  rw [run_bind hl] at h
  simp only at h
  rw [run_bind (a := last) (w1 := d) (by simp [hlast]), run_bind (ask_eq _ _), run_bind (a := sec) (by rw [lift_eq, hsec])] at h
  rw [if_pos ⟨h0, by omega⟩] at h
  obtain ⟨texts, t1, t2, t3, t4⟩ := rotateSecLoop_sends c p repo serial _ _ _ _ _ _ h
  have hk : (((last - sec).toNat : Nat) : Int) = last - sec := Int.toNat_of_nonneg (by omega)
  refine ⟨texts, t1, by omega, t3, fun r ho => ⟨fun hs => ?_, fun hs => (t4 r ho).2 (by omega) hs⟩⟩
  obtain ⟨t5, t6⟩ := (t4 r ho).1 hs
  exact ⟨by omega, t6⟩

/-- C47. A Secondary that is up to date or one version behind gets no separate Root (the newest
one is part of the metadata sent next), nor one whose version is unknown. -/
theorem C47_nothing_sent {c : Ctx} {p : Peers} {repo : Repo} {serial : String} {d d' : Dev} {o : Except Err InstResult}
    (h : rotateSecondaryRoot c p repo serial d = (o, d'))
    (hcase : ∀ raw last sec, (d.cl.w.db.latestOf repo .root).map (·.data) = some raw → extractVersionUntrusted c.env raw = .ok last →
      p.rootVersion d.n serial (repo == .director) = .ok sec → sec ≤ 0 ∨ last ≤ sec + 1) : d'.log = d.log := by
  unfold rotateSecondaryRoot at h
  have hl : ∀ {x d1}, inClient (inWorld (loadLatestRoot repo)) d = (x, d1) →
      d1 = d ∧ ∀ raw, x = .ok (some raw) → (d.cl.w.db.latestOf repo .root).map (·.data) = some raw := by
    intro x d1 h1
    rw [inClient_eq, inWorld_eq] at h1
    simp only [loadLatestRoot] at h1
    cases hq : (d.cl.w.db.latestOf repo .root).map (·.data) with
    | none =>
      rw [hq] at h1
      simp only [readBlob, Prod.mk.injEq] at h1
      exact ⟨h1.2.symm, fun raw hr => by rw [← h1.1] at hr; simp at hr⟩
    | some s =>
      rw [hq] at h1
      simp only [readBlob] at h1
      split at h1
      · simp only [Prod.mk.injEq] at h1
        exact ⟨h1.2.symm, fun raw hr => by rw [← h1.1] at hr; simp at hr⟩
      · simp only [Prod.mk.injEq] at h1
        exact ⟨h1.2.symm, fun raw hr => by rw [← h1.1] at hr; simpa using hr⟩
  rcases bind_cases h with ⟨x, d1, g1, h⟩ | ⟨e, g1, rfl⟩
  swap_goal
  · obtain ⟨rfl, _⟩ := hl g1; rfl
  obtain ⟨rfl, hx⟩ := hl g1
  cases x with
  | none => simp only [pure_eq, Prod.mk.injEq] at h; rw [← h.2]
  | some raw =>
    simp only at h
    rcases bind_cases h with ⟨last, d2, g2, h⟩ | ⟨e, g2, rfl⟩
    swap_goal
    · simp only [lift_eq, Prod.mk.injEq] at g2; rw [← g2.2]
    simp only [lift_eq, Prod.mk.injEq] at g2
    obtain ⟨g2, rfl⟩ := g2
    rcases bind_cases h with ⟨a, d2, g3, h⟩ | ⟨e, g3, rfl⟩
    swap_goal
    · simp at g3
    simp only [ask_eq, Prod.mk.injEq, Except.ok.injEq] at g3
    obtain ⟨rfl, rfl⟩ := g3
    rcases bind_cases h with ⟨sec, d2, g4, h⟩ | ⟨e, g4, rfl⟩
    swap_goal
    · simp only [lift_eq, Prod.mk.injEq] at g4; rw [← g4.2]
    simp only [lift_eq, Prod.mk.injEq] at g4
    obtain ⟨g4, rfl⟩ := g4
    have := hcase raw last sec (hx raw rfl) g2 g4
    rw [if_neg (by omega)] at h
    simp only [pure_eq, Prod.mk.injEq] at h
    rw [← h.2]

/-! ### Cases -/

namespace Toy

/-- Roots 1 and 3 of the Director are stored, Root 2 is on the server. -/
def rotated : Dev :=
  { cl := { w := { boot ((({} : MetaDb).storeRoot "dr1" .director 1).storeRoot "dr3" .director 3) with fuel := 1000 }
            primary := "e1", primaryHw := "h1", secondaries := [("e2", "h1")] } }

/-- A context whose server has Root 2. -/
def second : Ctx := { env := E, net := net [((.director, "root", 2), "dr2")], clock := clock "2026-01-01T00:00:00Z" }

/-- The Roots sent to the Secondary, and whether the outcome was success. -/
def rootsSent (c : Ctx) (p : Peers) : Option Bool × List String :=
  let r := rotateSecondaryRoot c p .director "e2" rotated
  (r.1.toOption.map (·.success), r.2.log.filterMap (fun a => match a with | .putRoot _ _ t => some t | _ => none))

end Toy

/-- Not vacuous: the Secondary has Root 1 and the Primary Root 3. All is well; the Secondary
refuses Root 2; Root 2 cannot be fetched. -/
example :
    (Toy.rotated.cl.w.db.latestOf .director .root).map (·.data) = some "dr3" ∧
    (extractVersionUntrusted Toy.E "dr3").toOption = some 3 ∧
    Toy.rootsSent Toy.second (Toy.peers .good) = (some true, ["dr2", "dr3"]) ∧
    Toy.rootsSent Toy.second { Toy.peers .good with putRoot := fun _ _ _ _ => .error (.std "no") } = (some false, ["dr2"]) ∧
    Toy.rootsSent Toy.july (Toy.peers .good) = (some false, []) ∧
    Toy.rootsSent Toy.second { Toy.peers .good with rootVersion := fun _ _ _ => .ok 2 } = (some true, []) := by
  decide +kernel

end Aktualizr
