import Verif.Lemmas.Delegation
import Verif.Props.C08

/-!
# C11 Target matching, C12 delegation search, C13 delegated Targets pinned to the Snapshot
-/

namespace Aktualizr

open Spec M

/-! ### C11 -/

/-- C11. Two targets match exactly when they have the same content and are for the same ECUs and
hardware, or the Director one is allowed by the Image repository one. -/
theorem C11_match_iff (a b : Target) : a.matchTarget b = true ↔ SameContent a b ∧ SameAssignment a b := matchTarget_iff

/-- C11. Matching is symmetric. -/
theorem C11_symmetric (a b : Target) : a.matchTarget b = b.matchTarget a := by
  have key : ∀ a b : Target, a.matchTarget b = true → b.matchTarget a = true := by
    intro a b h
    obtain ⟨⟨h1, h2, ⟨x, hx, hx'⟩, h3⟩, h4⟩ := (C11_match_iff a b).1 h
    refine (C11_match_iff b a).2 ⟨⟨h1.symm, h2.symm, ⟨x, hx', hx⟩, fun y hy z hz ht => (h3 z hz y hy ht.symm).symm⟩, ?_⟩
    rcases h4 with ⟨h, h'⟩ | h | h
    · exact .inl ⟨h.symm, h'.symm⟩
    · exact .inr (.inr h)
    · exact .inr (.inl h)
  cases h : a.matchTarget b
  · cases h' : b.matchTarget a
    · rfl
    · rw [key b a h'] at h; exact h.symm
  · exact (key a b h).symm

theorem sortHashes_mem {x : Hash} {l : List Hash} : x ∈ sortHashes l ↔ x ∈ l := by
  have ins : ∀ (y : Hash) (l : List Hash), x ∈ insertHash y l ↔ x = y ∨ x ∈ l := by
    intro y l
    induction l with
    | nil => simp [insertHash]
    | cons a l ih =>
      unfold insertHash
      split
      · simp
      · simp only [List.mem_cons, ih]
        constructor
        · rintro (h | h | h)
          · exact .inr (.inl h)
          · exact .inl h
          · exact .inr (.inr h)
        · rintro (h | h | h)
          · exact .inr (.inl h)
          · exact .inl h
          · exact .inr (.inr h)
  induction l with
  | nil => simp [sortHashes]
  | cons a l ih => unfold sortHashes; rw [ins]; simp [ih]

/-- C11. A target read from metadata that matches anything has a SHA-256 or SHA-512 hash to
check the download against, and it is one of the other target's hashes as well. -/
theorem C11_hash_to_check (name : String) (j : Json) (a b : Target) (ha : Target.ofJson name j = .ok a)
    (h : a.matchTarget b = true) :
    ∃ x ∈ a.hashes, x ∈ b.hashes ∧ (x.type = .sha256 ∨ x.type = .sha512) := by
  obtain ⟨⟨_, _, ⟨x, hx, hx'⟩, _⟩, _⟩ := (C11_match_iff a b).1 h
  refine ⟨x, hx, hx', ?_⟩
  unfold Target.ofJson at ha
  simp only [exc_bind_ok, exc_pure_ok] at ha
  obtain ⟨_, _, _, _, _, _, _, _, _, _, hs, _, rfl⟩ := ha
  replace hx : x ∈ sortHashes (hs.filter Hash.haveAlgorithm) := hx
  rw [sortHashes_mem, List.mem_filter] at hx
  cases ht : x.type
  · exact .inl rfl
  · exact .inr rfl
  · simp [Hash.haveAlgorithm, ht] at hx

/-- Not vacuous: a Director target and the Image repository target allowing its hardware. -/
example : Target.matchTarget
    { filename := "fw", length := 3, hashes := [Hash.mk' .sha256 "abc", Hash.mk' .sha512 "d"], ecus := [("e1", "h1")] }
    { filename := "fw", length := 3, hashes := [Hash.mk' .sha256 "ABC"], hwids := ["h0", "h1"] } = true := by decide +kernel

/-- One of the conditions missing: an ECU whose hardware is not listed. -/
example : Target.matchTarget
    { filename := "fw", length := 3, hashes := [Hash.mk' .sha256 "abc"], ecus := [("e1", "h1"), ("e2", "h2")] }
    { filename := "fw", length := 3, hashes := [Hash.mk' .sha256 "abc"], hwids := ["h1"] } = false := by decide +kernel

example : ∃ a, Target.ofJson "fw" (Toy.tgt "fw" "abc" 3 []).2 = .ok a ∧ a.matchTarget a = true :=
  ⟨_, rfl, by decide +kernel⟩

/-! ### C12 -/

/-- C12, proved part. A target found by the search is listed by a document reached from the
top-level Targets by a chain of at most five delegations, each with a pattern matching the file
name, none of them (but the last) terminating, each delegated document properly signed, pinned
by the Snapshot and unexpired at some moment during the search; and the target matches the one
searched for.

Missing: that a terminating delegation also ends the search of the delegations listed after
it, which is false, see `C12_terminating_does_not_stop_siblings`. -/
theorem C12_found_partial (c : Ctx) (q found : Target) (offline : Bool) (w w' : World) (top : Targets) (rawTop rawS : String)
    (hr : ReadsAsTargets c.env rawTop top) (hi : w.img.targets = some top)
    (hs : ReadsAsSnapshot c.env rawS w.img.snapshot)
    (h : Delegation.findInTree c q offline w = (.ok (some found), w')) :
    ∃ n terminating leaf, n ≤ 5 ∧
      Chain c.env rawS q.filename (fun x => ∃ t, w.tick ≤ t ∧ t < w'.tick ∧ x = c.clock t) ⟨rawTop, top⟩ n terminating leaf ∧
      found ∈ leaf.content.targets ∧ SameContent found q ∧ SameAssignment found q := by
  unfold Delegation.findInTree at h
  replace h := M.bind_ok.1 h
  obtain ⟨i, w1, h1, h⟩ := h
  simp only [gets_eq, Prod.mk.injEq, Except.ok.injEq] at h1
  obtain ⟨rfl, rfl⟩ := h1
  rw [hi] at h
  replace h : Delegation.findTarget c q offline Delegation.kMaxDepth top false w = (.ok (some found), w') := h
  obtain ⟨k, b, leaf, hk, hch, hm, hmt⟩ := Delegation.findTarget_found (top := ⟨rawTop, top⟩) (cur := ⟨rawTop, top⟩) (n := 0)
    (t0 := w.tick) (t1 := w'.tick) Delegation.kMaxDepth hr .top hs (Nat.le_refl _) (Nat.le_refl _) h
  have := (C11_match_iff _ _).1 hmt
  exact ⟨k, b, leaf, by unfold Delegation.kMaxDepth at hk; omega, hch, hm, this.1, this.2⟩

/-- The time a computation takes, counted in fetches and clock readings. -/
theorem Delegation.getTrusted_cost (c : Ctx) (role : Role) (parent : Targets) (offline : Bool) (w : World) :
    (Delegation.getTrusted c role parent offline w).2.tick ≤ w.tick + 1 := by
  generalize hx : Delegation.getTrusted c role parent offline w = x
  obtain ⟨o, w'⟩ := x
  show w'.tick ≤ _
  have hpre : IsPre (fun a b : World => b.tick = a.tick) := ⟨fun _ => rfl, fun _ _ _ h1 h2 => h2.trans h1⟩
  have hw : ∀ f, Preserves (fun a b : World => b.tick = a.tick) (write f) := by
    intro f w; unfold write; split <;> rfl
  have hstored : ∀ l, Preserves (fun a b : World => b.tick = a.tick) (Delegation.stored c role l) := by
    intro l
    unfold Delegation.stored
    wpres hpre
    · intro w; rw [← loadDelegationM_same role w]
    · exact hw _
  have hhash : ∀ sn raw, Preserves (fun a b : World => b.tick = a.tick) (Delegation.checkHashes c sn raw role) := by
    intro sn raw; unfold Delegation.checkHashes; wpres hpre
  unfold Delegation.getTrusted at hx
  rcases bind_cases hx with ⟨i, w1, h1, h⟩ | ⟨e, h1, rfl⟩
  swap_goal
  · simp at h1
  simp only [gets_eq, Prod.mk.injEq, Except.ok.injEq] at h1
  obtain ⟨rfl, rfl⟩ := h1
  rcases bind_cases h with ⟨o1, w2, h2, h3⟩ | ⟨e, h2, rfl⟩
  swap_goal
  · have := (hstored _).of_eq h2; omega
  have e2 := (hstored _).of_eq h2
  cases o1 with
  | some raw =>
    have : Preserves (fun a b : World => b.tick = a.tick) (do
        Delegation.checkHashes c w.img.snapshot raw role
        lift (Image.verifyDelegation c raw role parent) : U Targets) := by
      wpres hpre; exact hhash _ _
    have := this.of_eq h3
    omega
  | none =>
    replace h3 : (Delegation.fetch c role offline >>= fun raw => do
      Delegation.checkHashes c w.img.snapshot raw role
      let ts ← lift (Image.verifyDelegation c raw role parent)
      throwWhen (ts.base.version != w.img.snapshot.versionOf role) (.upt (.versionMismatch role.name))
      write (fun db => db.storeDelegation raw role.name)
      pure ts : U Targets) w2 = (o, w') := h3
    have hf : ∀ a : World, (Delegation.fetch c role offline a).2.tick ≤ a.tick + 1 := by
      intro a
      unfold Delegation.fetch
      cases offline
      · show (catchStd (fetchLatestRole c kMaxImageTargetsSize .image role) _ a).2.tick ≤ _
        unfold catchStd fetchLatestRole fetchRole
        dsimp only
        cases c.net a.tick .image role.name (-1) with
        | none => simp [Err.isStd, throw_eq]
        | some body =>
          dsimp only
          by_cases hle : c.limited = false ∨ (body.utf8ByteSize : Int) ≤ kMaxImageTargetsSize
          · rw [if_pos hle]; exact Nat.le_refl _
          · rw [if_neg hle]; simp [Err.isStd, throw_eq]
      · show a.tick ≤ _; omega
    rcases bind_cases h3 with ⟨raw, w3, h4, h5⟩ | ⟨e, h4, rfl⟩
    swap_goal
    · have := hf w2; rw [h4] at this; simp only at this; omega
    have hf2 := hf w2
    rw [h4] at hf2
    have : Preserves (fun a b : World => b.tick = a.tick) (do
      Delegation.checkHashes c w.img.snapshot raw role
      let ts ← lift (Image.verifyDelegation c raw role parent)
      throwWhen (ts.base.version != w.img.snapshot.versionOf role) (.upt (.versionMismatch role.name))
      write (fun db => db.storeDelegation raw role.name)
      pure ts : U Targets) := by
      wpres hpre
      · exact hhash _ _
      · exact hw _
    have := this.of_eq h5
    simp only at hf2
    omega

/-- Every Targets document in this environment has at most `k` delegations. -/
def AtMostDelegations (env : Env) (k : Nat) : Prop := ∀ raw ts, ReadsAsTargets env raw ts → ts.delegatedRoleNames.length ≤ k

theorem Delegation.searchNames_cost {c : Ctx} {q : Target} {offline : Bool} {cur : Targets} {sub : Targets → Bool → U (Option Target)}
    {B : Nat} (hsub : ∀ raw child b w, ReadsAsTargets c.env raw child → (sub child b w).2.tick ≤ w.tick + B) :
    ∀ (names : List String) (w : World),
      (Delegation.searchNames c q offline cur sub names w).2.tick ≤ w.tick + names.length * (2 + B) := by
  intro names
  induction names with
  | nil => intro w; simp [Delegation.searchNames]
  | cons name names ih =>
    intro w
    have hexp : (name :: names).length * (2 + B) = names.length * (2 + B) + (2 + B) := by
      rw [List.length_cons, Nat.add_mul, Nat.one_mul]
    generalize hx : Delegation.searchNames c q offline cur sub (name :: names) w = x
    obtain ⟨o, w'⟩ := x
    show w'.tick ≤ _
    rw [hexp]
    unfold Delegation.searchNames at hx
    rcases bind_cases hx with ⟨role, w1, h1, h⟩ | ⟨e, h1, rfl⟩
    swap_goal
    · simp only [lift_eq, Prod.mk.injEq] at h1
      rw [← h1.2]; omega
    simp only [lift_eq, Prod.mk.injEq] at h1
    obtain ⟨hrole, rfl⟩ := h1
    obtain rfl := Delegation.delegation_ok hrole
    clear hx
    have ihw := ih w
    cases hpat : List.lookup name cur.pathsForRole with
    | none => simp only [hpat] at h; rw [h] at ihw; simp only at ihw; omega
    | some patterns =>
      simp only [hpat] at h
      split at h
      · rw [h] at ihw; simp only at ihw; omega
      · have hc := Delegation.getTrusted_cost c ⟨.delegation, name⟩ cur offline w
        rcases bind_cases h with ⟨d, w2, h2, h3⟩ | ⟨e, h2, rfl⟩
        swap_goal
        · rw [h2] at hc; simp only at hc; omega
        rw [h2] at hc
        simp only at hc
        clear h
        obtain ⟨raw, hok, _, _⟩ := Delegation.getTrusted_ok h2
        have hread := (Targets.ofJsonSigned_ok (role := ⟨.delegation, name⟩) (.inr rfl) hok).2.2
        rcases bind_cases h3 with ⟨tm, w3, h4, h5⟩ | ⟨e, h4, rfl⟩
        swap_goal
        · simp [now] at h4
        simp only [now, Prod.mk.injEq, Except.ok.injEq] at h4
        obtain ⟨rfl, rfl⟩ := h4
        clear h3
        split at h5
        · have := ih { w2 with tick := w2.tick + 1 }
          rw [h5] at this; simp only at this; omega
        · rcases bind_cases h5 with ⟨term, w4, h6, h7⟩ | ⟨e, h6, rfl⟩
          swap_goal
          · have := orThrow_snd (w := { w2 with tick := w2.tick + 1 }) (o := List.lookup name cur.terminatingRole) (e := .upt .reservedRoleName)
            rw [h6] at this
            simp only at this
            rw [this]; simp only; omega
          simp only [orThrow_ok] at h6
          obtain ⟨_, rfl⟩ := h6
          have hs := hsub raw d term { w2 with tick := w2.tick + 1 } hread
          rcases bind_cases h7 with ⟨o2, w5, h8, h9⟩ | ⟨e, h8, rfl⟩
          swap_goal
          · rw [h8] at hs; simp only at hs; omega
          rw [h8] at hs
          simp only at hs
          cases o2 with
          | some f =>
            simp only [pure_eq, Prod.mk.injEq] at h9
            rw [← h9.2]; omega
          | none =>
            replace h9 : Delegation.searchNames c q offline cur sub names w5 = (o, w') := h9
            have := ih w5
            rw [h9] at this; simp only at this; omega

/-- Fetches and clock readings of a search `n` levels deep with `k` delegations per document. -/
def searchCost (k : Nat) : Nat → Nat
  | 0 => 0
  | n + 1 => k * (2 + searchCost k n)

theorem Delegation.findTarget_cost {c : Ctx} {q : Target} {offline : Bool} {k : Nat} (hk : AtMostDelegations c.env k) :
    ∀ (n : Nat) (cur : Targets) (term : Bool) (w : World), cur.delegatedRoleNames.length ≤ k →
      (Delegation.findTarget c q offline n cur term w).2.tick ≤ w.tick + searchCost k n := by
  intro n
  induction n with
  | zero => intro cur term w _; simp [Delegation.findTarget]
  | succ n ih =>
    intro cur term w hw
    unfold Delegation.findTarget
    cases cur.targets.find? (fun t => t.matchTarget q) with
    | some t => show w.tick ≤ _; omega
    | none =>
      cases term with
      | true => show w.tick ≤ _; omega
      | false =>
        show (Delegation.searchNames c q offline cur (Delegation.findTarget c q offline n) cur.delegatedRoleNames w).2.tick ≤ _
        refine Nat.le_trans (Delegation.searchNames_cost (B := searchCost k n) ?_ _ w) ?_
        · intro raw child b w1 hr
          exact ih child b w1 (hk raw child hr)
        · show _ ≤ w.tick + k * (2 + searchCost k n)
          have := Nat.mul_le_mul_right (2 + searchCost k n) hw
          omega

/-- C12. The search always ends, whatever the delegation graph (cycles included): if no
document lists more than `k` delegations, it makes at most `2(k + k² + k³ + k⁴ + k⁵)` fetches
and clock readings. -/
theorem C12_bounded (c : Ctx) (q : Target) (offline : Bool) (w : World) (k : Nat) (hk : AtMostDelegations c.env k)
    (ht : ∀ top, w.img.targets = some top → top.delegatedRoleNames.length ≤ k) :
    (Delegation.findInTree c q offline w).2.tick ≤ w.tick + 2 * (k + k ^ 2 + k ^ 3 + k ^ 4 + k ^ 5) := by
  have hcost : searchCost k 5 = 2 * (k + k ^ 2 + k ^ 3 + k ^ 4 + k ^ 5) := by
    simp only [searchCost, Nat.pow_succ, Nat.pow_zero, Nat.one_mul, Nat.mul_add, Nat.mul_zero, Nat.add_zero]
    simp only [Nat.mul_comm, Nat.mul_left_comm, Nat.mul_assoc]
    omega
  rw [← hcost]
  unfold Delegation.findInTree
  rw [run_bind (m := gets (·.img)) (a := w.img) (w1 := w) rfl]
  cases hi : w.img.targets with
  | none => show w.tick ≤ _; omega
  | some top => exact Delegation.findTarget_cost hk 5 top false w (ht top hi)

/-! ### C13 -/

/-- C13, proved part. Whenever a delegated Targets document is used, it is signed to threshold
with the keys its parent gives for that name, the Snapshot in use pins it, and it is either the
stored document (nothing changed) or one the server served just now, which is stored. Its
version is the pinned one unless the pinned version is -1.

Missing: the exact version when the Snapshot does not list the role (or lists version -1); see
`C13_pinned_exact` for roles it does list and `C13_unlisted_accepted` for one it does not. -/
theorem C13_pinned_partial (c : Ctx) (name : String) (parent ts : Targets) (offline : Bool) (w w' : World) (rawS : String)
    (hs : ReadsAsSnapshot c.env rawS w.img.snapshot)
    (h : Delegation.getTrusted c ⟨.delegation, name⟩ parent offline w = (.ok ts, w')) :
    ∃ raw v, TrustedDelegate c.env rawS parent name ⟨raw, ts⟩ v ∧ (ts.base.version = v ∨ v = -1) ∧
      w'.db.loadDelegation name = some raw ∧
      (w' = w ∨ offline = false ∧ ∃ t, w.tick ≤ t ∧ t < w'.tick ∧ c.net t .image name (-1) = some raw) := by
  obtain ⟨raw, v, h1, h2, _, h3⟩ := Delegation.getTrusted_trusted hs h
  refine ⟨raw, v, h1, h2, ?_⟩
  cases h3 with
  | stored he hl _ => exact ⟨by rw [he]; exact hl, .inl he⟩
  | fetched ho ht1 ht2 hn _ hl => exact ⟨hl, .inr ⟨ho, _, ht1, ht2, hn⟩⟩

/-- C13. If the Snapshot lists the role, and not with a negative version, the delegated document
has exactly a version listed for it, and all the hashes. -/
theorem C13_pinned_exact (c : Ctx) (name : String) (parent ts : Targets) (offline : Bool) (w w' : World) (rawS : String) (ml : Json)
    (hs : ReadsAsSnapshot c.env rawS w.img.snapshot) (hml : At (c.env.parseJson rawS) ["signed", "meta"] ml)
    (hlisted : ∃ kj ∈ ml.entries, stripExtension kj.1 = name)
    (hpos : ∀ kj ∈ ml.entries, ∀ vj v, stripExtension kj.1 = name → kj.2.get "version" = .ok vj → vj.asInt = .ok v → 0 ≤ v)
    (h : Delegation.getTrusted c ⟨.delegation, name⟩ parent offline w = (.ok ts, w')) :
    ∃ raw, SignedToThreshold c.env parent.base name (c.env.parseJson raw) ∧ ReadsAsTargets c.env raw ts ∧
      (∃ kj ∈ ml.entries, stripExtension kj.1 = name ∧ ∃ vj, kj.2.get "version" = .ok vj ∧ vj.asInt = .ok ts.base.version) ∧
      (∀ kj ∈ ml.entries, stripExtension kj.1 = name →
        ∃ hashes, kj.2.get "hashes" = .ok hashes ∧ (hashes.isObject = true → HashesToAll c.env raw hashes)) := by
  obtain ⟨raw, v, h1, h2, _⟩ := C13_pinned_partial c name parent ts offline w w' rawS hs h
  obtain ⟨ml', hml', hh, hv⟩ := h1.vouched
  have : ml' = ml := by
    obtain ⟨a, ha, b, hb, rfl⟩ := hml
    obtain ⟨a', ha', b', hb', rfl⟩ := hml'
    have e1 : a = a' := by simpa using ha.symm.trans ha'
    subst e1
    simpa using hb'.symm.trans hb
  subst this
  refine ⟨raw, h1.signed, h1.reads, ?_, hh⟩
  rcases hv with ⟨kj, hkj, hn, vj, hg, hi⟩ | ⟨hno, _⟩
  · have hp := hpos kj hkj vj v hn hg hi
    rcases h2 with h2 | h2
    · exact ⟨kj, hkj, hn, vj, hg, by rw [h2]; exact hi⟩
    · omega
  · obtain ⟨kj, hkj, hn⟩ := hlisted
    exact (hno kj hkj hn).elim

/-! ### Concrete cases -/

namespace Toy

/-- The Director's target searched for. -/
def q3 : Target := { filename := "fw3", length := 3, hashes := [Hash.mk' .sha256 "abe"], ecus := [("e1", "h1")] }

/-- World after a successful check of the delegating Image repository, and the search. -/
def deleCtx (t : List ((Repo × String × Int) × String)) : Ctx := { env := E, net := net t, clock := clock "2026-01-01T00:00:00Z" }
def deleWorld (t : List ((Repo × String × Int) × String)) : World := (Image.updateMeta (deleCtx t) { fuel := 100 }).2
def deleFound (t : List ((Repo × String × Int) × String)) : Option Target :=
  match (Delegation.findInTree (deleCtx t) q3 false (deleWorld t)).1 with
  | .ok o => o
  | .error _ => none

end Toy

/-- Not vacuous (`C12_found_partial`, `C13_pinned_partial`): the target is found two delegations
down, `targets` → B → C; the check before succeeded. -/
example : (Image.updateMeta (Toy.deleCtx Toy.delegating) { fuel := 100 }).1 = .ok () ∧
    (Toy.deleFound Toy.delegating).map (·.filename) = some "fw3" ∧
    (Toy.deleWorld Toy.delegating).img.targets.map (·.targets.length) = some 0 ∧
    ((Delegation.findInTree (Toy.deleCtx Toy.delegating) Toy.q3 false (Toy.deleWorld Toy.delegating)).2.db.delegations.map Prod.fst) = ["C", "B", "A"] := by
  decide +kernel

/-- Why C12 is partial: the top-level Targets lists a terminating delegation A whose pattern
matches the file name, but after A (which does not have the target) the search goes on with B,
listed after A, and returns a target found through B. -/
theorem C12_terminating_does_not_stop_siblings :
    Delegates Toy.E "it5" "A" ["fw3"] true ∧ Toy.E.fnmatch "fw3" "fw3" = true ∧
    ∃ (w : World) (top : Targets), w.img.targets = some top ∧ ReadsAsTargets Toy.E "it5" top ∧
      top.delegatedRoleNames = ["A", "B"] ∧
      ∃ found w', Delegation.findInTree (Toy.deleCtx Toy.delegating) Toy.q3 false w = (.ok (some found), w') ∧
        found.filename = "fw3" := by
  refine ⟨?_, by decide +kernel, Toy.deleWorld Toy.delegating, ?_⟩
  · refine ⟨_, _, _, _, ⟨_, rfl, _, rfl, _, rfl, rfl⟩, List.mem_cons_self, ⟨_, rfl, rfl⟩, rfl, ⟨rfl, ?_⟩, rfl, rfl⟩
    intro p hp
    have hp' : p ∈ [(Json.str "fw3", "fw3")] := hp
    have : p = (Json.str "fw3", "fw3") := by simpa using hp'
    subst this
    rfl
  · have h : ∃ top, (Toy.deleWorld Toy.delegating).img.targets = some top ∧ top.delegatedRoleNames = ["A", "B"] := by
      have : (Toy.deleWorld Toy.delegating).img.targets.map (·.delegatedRoleNames) = some ["A", "B"] := by decide +kernel
      cases hx : (Toy.deleWorld Toy.delegating).img.targets with
      | none => rw [hx] at this; simp at this
      | some top => rw [hx] at this; exact ⟨top, rfl, by simpa using this⟩
    obtain ⟨top, h1, h2⟩ := h
    have hf : ∃ found w', Delegation.findInTree (Toy.deleCtx Toy.delegating) Toy.q3 false (Toy.deleWorld Toy.delegating) = (.ok (some found), w') ∧
        found.filename = "fw3" := by
      have : (Toy.deleFound Toy.delegating).map (·.filename) = some "fw3" := by decide +kernel
      unfold Toy.deleFound at this
      split at this
      · rename_i o ho
        cases o with
        | none => simp at this
        | some f => exact ⟨f, _, Prod.ext ho rfl, by simpa using this⟩
      · simp at this
    refine ⟨top, h1, ?_, h2, hf⟩
    have hr : (Toy.deleWorld Toy.delegating).img.targets = (targetsInit Toy.E { version := 5, expiry := ⟨"2030-01-01T00:00:00Z"⟩ } (Toy.E.parseJson "it5")).toOption := by
      rfl
    rw [h1] at hr
    refine ⟨5, ⟨"2030-01-01T00:00:00Z"⟩, rfl, ?_⟩
    cases hx : targetsInit Toy.E { version := 5, expiry := ⟨"2030-01-01T00:00:00Z"⟩ } (Toy.E.parseJson "it5") with
    | ok ts => rw [hx] at hr; simp [Except.toOption] at hr; rw [hr]
    | error e => rw [hx] at hr; simp [Except.toOption] at hr

/-- Why C13 is partial: the Snapshot in use does not list the delegated role U at all, and a
document of version -1 (properly signed) is accepted for it and a target found in it. -/
theorem C13_unlisted_accepted :
    (Toy.deleWorld Toy.unlisted).img.snapshot.roleVersion.map Prod.fst = ["targets"] ∧
    (Toy.deleFound Toy.unlisted).map (·.filename) = some "fw3" ∧
    (Delegation.findInTree (Toy.deleCtx Toy.unlisted) Toy.q3 false (Toy.deleWorld Toy.unlisted)).2.db.loadDelegation "U" = some "itU" := by
  decide +kernel

end Aktualizr
