import Verif.Props.C70Deleg
import Verif.Props.C70Limits

/-!
# C70 Images of delegated roles: a case, and what the generator does not prevent
-/

namespace Aktualizr

open Spec Gen

namespace ToyGen

def readT (raw : String) : Except Err Targets := do
  let (v, e) ← baseInit (env.parseJson raw)
  targetsInit env { version := v, expiry := e } (env.parseJson raw)

theorem readT_ok {raw : String} (h : (readT raw).toBool = true) : ReadsAsTargets env raw (Toy.val (readT raw) {}) := by
  have h1 := Toy.val_eq (d := ({} : Targets)) h
  generalize Toy.val (readT raw) {} = t at h1
  unfold readT at h1
  obtain ⟨⟨v, e⟩, h2, h3⟩ := exc_bind_ok.1 h1
  exact ⟨v, e, h2, h3⟩

/-- What a delegated role says. -/
def roleFor (r : Repos) (n : String) : Targets := Toy.val (readT (file r.image (.delegation n))) {}

/-- A role delegated by a delegated role lists the first firmware, which is assigned. -/
def nestFirst : List Cmd := [.addDelegation "a" "targets" "x" false .ed25519 "ka" "ka" "" year, .addDelegation "b" "a" "x" true .ed25519 "kb" "kb" "" year,
  .image "firmware" "x" "h1" "" (some "b"), .addTarget "x" "h1" "e1" "" "", .signTargets]

/-- Later that role lists other firmware, under the same name. -/
def nestNext : List Cmd := [.image "new firmware" "x" "h1" "" (some "b"), .emptyTargets "" year "", .addTarget "x" "h1" "e1" "" "", .signTargets]

def nest1 : Repos := Toy.val (runAll gen start nestFirst) {}
theorem nest1_ok : runAll gen start nestFirst = .ok nest1 := Toy.val_eq (by decide +kernel)

def nest2 : Repos := Toy.val (runAll gen start (nestFirst ++ nestNext)) {}
theorem nest2_ok : runAll gen start (nestFirst ++ nestNext) = .ok nest2 := Toy.val_eq (by decide +kernel)

attribute [irreducible] nest1 nest2

/-- A server with the files of `r`, those of delegated roles as well. -/
def ctxRoles (r : Repos) : Ctx where
  env := env
  net _ repo role v := (dirOf r repo).files.lookup
    (if role = "root" then .numbered v else if role = "timestamp" then .timestamp else if role = "snapshot" then .snapshot else
      if role = "targets" then .targets else .delegation role)
  clock _ := now

theorem publishes_all (r : Repos) (repo : Repo) : Publishes (ctxRoles r) repo (dirOf r repo) :=
  ⟨fun _ _ _ => rfl, fun _ => rfl, fun _ => rfl, fun _ => rfl⟩

theorem publishes_roles (r : Repos) (h : within r.image = true) : PublishesRoles (ctxRoles r) gen r.image where
  net n name hres := by
    show r.image.files.lookup _ = _
    have h0 := notTop hres
    simp only [topRoles, List.mem_cons, List.not_mem_nil, or_false, not_or] at h0
    rw [if_neg (by simp [h0]), if_neg (by simp [h0]), if_neg (by simp [h0]), if_neg (by simp [h0])]
  size name text hf := by
    have key := List.all_eq_true.1 h _ (mem_files hf)
    simp only [Bool.and_eq_true, decide_eq_true_eq] at key
    have := key.1.1.1
    omega
  fresh name j e hj he := by
    unfold Dir.signed Dir.json at hj
    split at hj
    · cases hj; cases he
    · rename_i hp
      have key := List.all_eq_true.1 h _ (mem_files hp)
      simp only [Bool.and_eq_true] at key
      have := key.2
      rw [show (do (← (env.parseJson _).get "signed").get "expires" : Except Err Json) = .ok (.str e) from exc_bind_ok.2 ⟨j, hj, he⟩] at this
      intro n
      show (TimeStamp.mk e).isExpiredAt now = false
      simpa using this

theorem within_all {d : Dir} (r : Repos) (repo : Repo) (h : within d = true) : WithinLimits (ctxRoles r) gen repo d :=
  let w := within_ok r repo h
  ⟨w.roots, w.versions, w.fresh, w.timestamp, w.snapshot, w.targets⟩

/-- What is computed of the second state. -/
def factsNest : Bool :=
  decide ((targetsFor nest2 .director).targets.map brief =
    [("x", [("e1", "h1")], [⟨.sha256, env.sha256 "new firmware"⟩, ⟨.sha512, env.sha512 "new firmware"⟩], 12, [])]) &&
  decide ((targetsFor nest2 .image).targets.map brief = [] ∧ (targetsFor nest2 .image).delegatedRoleNames = ["a"] ∧
    (targetsFor nest2 .image).pathsForRole = [("a", ["x"])] ∧ (targetsFor nest2 .image).terminatingRole = [("a", false)]) &&
  decide ((roleFor nest2 "a").targets.map brief = [] ∧ (roleFor nest2 "a").delegatedRoleNames = ["b"] ∧
    (roleFor nest2 "a").pathsForRole = [("b", ["x"])] ∧ (roleFor nest2 "a").terminatingRole = [("b", true)]) &&
  decide ((roleFor nest2 "b").targets.map brief =
    [("x", [], [⟨.sha256, env.sha256 "new firmware"⟩, ⟨.sha512, env.sha512 "new firmware"⟩], 12, ["h1"])] ∧ (roleFor nest2 "b").delegatedRoleNames = []) &&
  within nest2.director && within nest2.image &&
  (Targets.ofJsonSigned env Role.targets (env.parseJson (file nest2.director .targets)) (rootFor nest2 .director).base).toBool &&
  (Targets.ofJsonSigned env Role.targets (env.parseJson (file nest2.image .targets)) (rootFor nest2 .image).base).toBool &&
  (readT (file nest2.image (.delegation "a"))).toBool && (readT (file nest2.image (.delegation "b"))).toBool &&
  (nest2.director.files.lookup .targets).isSome &&
  [Gen.Path.snapshot, .targets, .delegation "a", .delegation "b"].all (fun p => (nest2.image.files.lookup p).isSome) &&
  decide (upper (digest env "sha256" (file nest1.image .snapshot)) ≠ upper (digest env "sha256" (file nest2.image .snapshot)) ∧
    upper (digest env "sha512" (file nest1.image .snapshot)) ≠ upper (digest env "sha512" (file nest2.image .snapshot))) &&
  [Gen.Path.numbered 1, .timestamp, .snapshot, .targets].all (fun p => (nest1.director.files.lookup p).isSome && (nest1.image.files.lookup p).isSome) &&
  [Gen.Path.delegation "a", .delegation "b"].all (fun p => (nest1.image.files.lookup p).isSome)

theorem factsNest_ok : factsNest = true := by decide +kernel

structure NestFacts : Prop where
  assigned : (targetsFor nest2 .director).targets.map brief =
    [("x", [("e1", "h1")], [⟨.sha256, env.sha256 "new firmware"⟩, ⟨.sha512, env.sha512 "new firmware"⟩], 12, [])]
  top : (targetsFor nest2 .image).targets.map brief = [] ∧ (targetsFor nest2 .image).delegatedRoleNames = ["a"] ∧
    (targetsFor nest2 .image).pathsForRole = [("a", ["x"])] ∧ (targetsFor nest2 .image).terminatingRole = [("a", false)]
  a : (roleFor nest2 "a").targets.map brief = [] ∧ (roleFor nest2 "a").delegatedRoleNames = ["b"] ∧
    (roleFor nest2 "a").pathsForRole = [("b", ["x"])] ∧ (roleFor nest2 "a").terminatingRole = [("b", true)]
  b : (roleFor nest2 "b").targets.map brief =
    [("x", [], [⟨.sha256, env.sha256 "new firmware"⟩, ⟨.sha512, env.sha512 "new firmware"⟩], 12, ["h1"])] ∧ (roleFor nest2 "b").delegatedRoleNames = []
  director : within nest2.director = true
  image : within nest2.image = true
  readsD : ReadsAsTargets env (file nest2.director .targets) (targetsFor nest2 .director)
  readsI : ReadsAsTargets env (file nest2.image .targets) (targetsFor nest2 .image)
  readsA : ReadsAsTargets env (file nest2.image (.delegation "a")) (roleFor nest2 "a")
  readsB : ReadsAsTargets env (file nest2.image (.delegation "b")) (roleFor nest2 "b")
  thereD : nest2.director.files.lookup .targets = some (file nest2.director .targets)
  thereI : ∀ p ∈ [Gen.Path.snapshot, .targets, .delegation "a", .delegation "b"], nest2.image.files.lookup p = some (file nest2.image p)
  apart : ∀ alg, upper (digest env alg (file nest1.image .snapshot)) ≠ upper (digest env alg (file nest2.image .snapshot))
  were : ∀ p ∈ [Gen.Path.numbered 1, .timestamp, .snapshot, .targets], ∀ repo, (dirOf nest1 repo).files.lookup p = some (file (dirOf nest1 repo) p)
  roles : ∀ p ∈ [Gen.Path.delegation "a", .delegation "b"], nest1.image.files.lookup p = some (file nest1.image p)

theorem nest_facts : NestFacts := by
  have h := factsNest_ok
  simp only [factsNest, Bool.and_eq_true, decide_eq_true_eq] at h
  obtain ⟨⟨⟨⟨⟨⟨⟨⟨⟨⟨⟨⟨⟨⟨h1, h2⟩, h3⟩, h4⟩, h5⟩, h6⟩, h7⟩, h8⟩, h9⟩, h10⟩, h11⟩, h12⟩, h13⟩, h14⟩, h15⟩ := h
  refine ⟨h1, h2, h3, h4, h5, h6, reads_targets h7, reads_targets h8, readT_ok h9, readT_ok h10, there h11, fun p hp => there (List.all_eq_true.1 h12 p hp), fun alg => ?_, fun p hp repo => ?_,
    fun p hp => there (List.all_eq_true.1 h15 p hp)⟩
  · by_cases ha : alg = "sha256"
    · rw [ha]; exact h13.1
    · have : ∀ raw, digest env alg raw = digest env "sha512" raw := fun raw => by unfold digest; rw [if_neg ha, if_neg (by decide)]
      rw [this, this]
      exact h13.2
  · have := List.all_eq_true.1 h14 p hp
    rw [Bool.and_eq_true] at this
    match repo with
    | .director => exact there this.1
    | .image => exact there this.2

/-- A device that saw the first state, with the delegated roles. -/
def heldNest : MetaDb := { held nest1 with delegations := [("a", file nest1.image (.delegation "a")), ("b", file nest1.image (.delegation "b"))] }

theorem wasNest (repo : Repo) {p : Gen.Path} (hp : p ∈ [Gen.Path.numbered 1, .timestamp, .snapshot, .targets]) :
    WasPublished gen start (nestFirst ++ nestNext) repo p (file (dirOf nest1 repo) p) :=
  ⟨nestFirst, nestNext, nest1, rfl, nest1_ok, nest_facts.were p hp repo⟩

theorem heldNest_stored {repo : Repo} {t : RoleKind} {raw : String} (h : Stored heldNest repo t raw) : Stored (held nest1) repo t raw := h

theorem heldNest_ok : HoldsPublished gen start (nestFirst ++ nestNext) (device heldNest).w.db where
  dRoot row hr := by
    rw [held_stored.1 row hr]
    exact ⟨1, wasNest .director (by simp), by show (1 : Int) ≤ 1 + 1; decide⟩
  dTargets raw hr := by
    rw [held_stored.2.1 raw (heldNest_stored hr)]
    exact wasNest .director (by simp)
  iRoot row hr := by
    rw [held_stored.2.2.1 row hr]
    exact ⟨1, wasNest .image (by simp), by show (1 : Int) ≤ 1 + 1; decide⟩
  iTimestamp raw hr := by
    rw [held_stored.2.2.2.1 raw (heldNest_stored hr)]
    exact wasNest .image (by simp)
  iSnapshot raw hr := by
    rw [held_stored.2.2.2.2.1 raw (heldNest_stored hr)]
    exact wasNest .image (by simp)
  iTargets raw hr := by
    rw [held_stored.2.2.2.2.2 raw (heldNest_stored hr)]
    exact wasNest .image (by simp)

theorem heldNest_roles : HoldsRoles gen start (nestFirst ++ nestNext) (device heldNest).w.db := by
  intro name raw _ h
  have h : List.lookup name [("a", file nest1.image (.delegation "a")), ("b", file nest1.image (.delegation "b"))] = some raw := h
  refine ⟨nestFirst, nestNext, nest1, rfl, nest1_ok, ?_⟩
  rw [List.lookup_cons] at h
  split at h
  · rename_i ha
    rw [beq_iff_eq] at ha
    subst ha
    cases h
    exact nest_facts.roles _ (by simp)
  · rw [List.lookup_cons] at h
    split at h
    · rename_i hb
      rw [beq_iff_eq] at hb
      subst hb
      cases h
      exact nest_facts.roles _ (by simp)
    · cases h

theorem nest_brief {t : Target} (h : t ∈ (targetsFor nest2 .director).targets) : t.filename = "x" ∧ t.ecus = [("e1", "h1")] ∧
    t.hashes = [⟨.sha256, env.sha256 "new firmware"⟩, ⟨.sha512, env.sha512 "new firmware"⟩] ∧ t.length = 12 ∧ t.hwids = [] := by
  have := Toy.map_mem nest_facts.assigned h
  simpa [brief] using this

theorem unlisted {its : Targets} (h : its.targets.map brief = []) (q m : Target) : ¬ ListedBy its q m := by
  rintro ⟨h1, -⟩
  rw [List.map_eq_nil_iff.1 h] at h1
  cases h1

theorem nest_islisted {t : Target} (ht : t ∈ (targetsFor nest2 .director).targets) : ∃ m, PublishedUnder env nest2.image t m 5 (targetsFor nest2 .image) false := by
  obtain ⟨h1, h2, h3, h4, h5⟩ := nest_brief ht
  have hm := nest_facts.b.1
  rcases hl : (roleFor nest2 "b").targets with _ | ⟨m, l⟩
  · rw [hl] at hm; cases hm
  · rw [hl] at hm
    simp only [List.map_cons, brief, List.cons.injEq, Prod.mk.injEq] at hm
    obtain ⟨⟨a1, a2, a3, a4, a5⟩, -⟩ := hm
    refine ⟨m, .inr ⟨unlisted nest_facts.top.1 t, rfl, "a", by rw [nest_facts.top.2.1]; simp, ⟨["x"], by rw [nest_facts.top.2.2.1]; rfl, "x", by simp, by rw [h1]; rfl⟩,
      _, _, false, nest_facts.thereI _ (by simp), nest_facts.readsA, by rw [nest_facts.top.2.2.2]; rfl,
      .inr ⟨unlisted nest_facts.a.1 t, rfl, "b", by rw [nest_facts.a.2.1]; simp, ⟨["x"], by rw [nest_facts.a.2.2.1]; rfl, "x", by simp, by rw [h1]; rfl⟩,
        _, _, true, nest_facts.thereI _ (by simp), nest_facts.readsB, by rw [nest_facts.a.2.2.2]; rfl, .inl ?_⟩⟩⟩
    refine ⟨by rw [hl]; simp, same_content (by rw [a1, h1]) (by rw [a4, h4]) a3 h3, .inr (.inr ?_)⟩
    unfold HardwareAllowed
    rw [h2, h5, a2, a5]
    simp

theorem nest_below : Below env nest2.image 5 (targetsFor nest2 .image) 2 := by
  refine ⟨fun _ => 1, by rw [nest_facts.top.2.1]; decide, fun name hn raw r h1 h2 => ?_⟩
  rw [nest_facts.top.2.1, List.mem_singleton] at hn
  subst hn
  rw [nest_facts.thereI _ (by simp)] at h1
  cases h1
  rw [readsAsTargets_unique h2 nest_facts.readsA]
  refine ⟨fun _ => 0, by rw [nest_facts.a.2.1]; decide, fun name hn raw r h1 h2 => ?_⟩
  rw [nest_facts.a.2.1, List.mem_singleton] at hn
  subst hn
  rw [nest_facts.thereI _ (by simp)] at h1
  cases h1
  rw [readsAsTargets_unique h2 nest_facts.readsB]
  refine ⟨fun _ => 0, by rw [nest_facts.b.2]; decide, fun name hn raw r h1 h2 => ?_⟩
  rw [nest_facts.b.2] at hn
  cases hn

theorem nest_sensible : ∀ x ∈ nestFirst ++ nestNext, x.Sensible gen := by
  intro x hx
  simp only [nestFirst, nestNext, List.cons_append, List.nil_append, List.mem_cons, List.not_mem_nil, or_false] at hx
  rcases hx with rfl | rfl | rfl | rfl | rfl | rfl | rfl | rfl | rfl
  · exact ⟨works _ _, year_ok⟩
  · exact ⟨works _ _, year_ok⟩
  · exact ⟨by decide, by decide⟩
  · exact ⟨by decide, by decide, by decide⟩
  · exact trivial
  · exact ⟨by decide, by decide⟩
  · exact year_ok
  · exact ⟨by decide, by decide, by decide⟩
  · exact trivial

theorem nest_lasting : ∀ x ∈ nestFirst ++ nestNext, x.Lasting := by
  intro x hx
  simp only [nestFirst, nestNext, List.cons_append, List.nil_append, List.mem_cons, List.not_mem_nil, or_false] at hx
  rcases hx with rfl | rfl | rfl | rfl | rfl | rfl | rfl | rfl | rfl <;> first | exact trivial | (show (_ : String) ≠ _; decide)

theorem nest_keys : ∀ x ∈ nestFirst ++ nestNext, ∀ a, x.key = some a → a.type = .ed25519 := by
  intro x hx
  simp only [nestFirst, nestNext, List.cons_append, List.nil_append, List.mem_cons, List.not_mem_nil, or_false] at hx
  rcases hx with rfl | rfl | rfl | rfl | rfl | rfl | rfl | rfl | rfl <;> (intro a ha; cases ha; try rfl)

theorem nest_fits : ∀ t ∈ (targetsFor nest2 .director).targets, FitsDevice env (device heldNest) t := by
  intro t ht p hp
  rw [(nest_brief ht).2.1] at hp
  simp only [List.mem_singleton] at hp
  subst hp
  exact ⟨.inl ⟨rfl, rfl, by decide⟩, ⟨none, no_current _, fun _ h => by cases h⟩, fun _ h => by cases h⟩

theorem nest_outdated : ∀ t ∈ (targetsFor nest2 .director).targets, Outdated env (device heldNest) t := by
  intro t ht
  refine ⟨("e1", "h1"), by simp [(nest_brief ht).2.1], fun y hy => ?_⟩
  rw [no_current] at hy
  cases hy

end ToyGen

/-- The hypotheses of `C70_delegated_partial` are met: a device that saw the first firmware, listed by a
role two delegations deep, accepts the second one, listed there later under the same name. -/
example : ∃ res cl', checkUpdates (ToyGen.ctxRoles ToyGen.nest2) (ToyGen.device ToyGen.heldNest) = (.ok res, cl') ∧ res.status = .available ∧
    (∃ u ∈ res.updates, u.filename = "x" ∧ u.length = 12) ∧ HoldsRoles ToyGen.gen ToyGen.start (ToyGen.nestFirst ++ ToyGen.nestNext) cl'.w.db := by
  have f := ToyGen.nest_facts
  obtain ⟨t, hl⟩ : ∃ t, t ∈ (ToyGen.targetsFor ToyGen.nest2 .director).targets := by
    have f1 := f.assigned
    cases hl : (ToyGen.targetsFor ToyGen.nest2 .director).targets with
    | nil => rw [hl] at f1; cases f1
    | cons t l => exact ⟨t, by simp⟩
  obtain ⟨res, cl', h1, h2, -, -, h5, -, h7⟩ := C70_delegated_partial (cl := ToyGen.device ToyGen.heldNest) (c := ToyGen.ctxRoles ToyGen.nest2) (U := fun k => k.type = .ed25519) (k := 2)
    ToyGen.sound rfl (ToyGen.keysFor_ok _ _ _ _) (ToyGen.keysFor_ok _ _ _ _)
    ToyGen.year_ok ToyGen.start_ok ToyGen.nest_sensible ToyGen.nest2_ok ToyGen.nest_lasting
    (fun a b ha hb h => by
      obtain ⟨va, ta⟩ := a
      obtain ⟨vb, tb⟩ := b
      have h : va = vb := h
      have ha : ta = .ed25519 := ha
      have hb : tb = .ed25519 := hb
      rw [h, ha, hb]) ToyGen.nest_keys
    (ToyGen.publishes_all _ .director) (ToyGen.publishes_all _ .image) (ToyGen.publishes_roles _ f.image) (ToyGen.within_all _ _ f.director) (ToyGen.within_all _ _ f.image)
    ToyGen.heldNest_ok ToyGen.heldNest_roles
    (.inl (by decide)) (fun old raw ho hr _ alg => by
      rw [f.thereI _ (by simp)] at hr
      cases hr
      rw [ToyGen.held_stored.2.2.2.2.1 old (ToyGen.heldNest_stored ho)]
      exact f.apart alg) f.thereD f.readsD (f.thereI _ (by simp)) f.readsI
    (by
      unfold EcusOnce
      have f1 := f.assigned
      rcases hts : (ToyGen.targetsFor ToyGen.nest2 .director).targets with _ | ⟨x, _ | ⟨y, l⟩⟩
      · simp
      · have := (ToyGen.nest_brief (t := x) (by rw [hts]; simp)).2.1
        simp [this]
      · rw [hts] at f1; exact absurd (congrArg List.length f1) (by simp)) ToyGen.nest_fits ⟨t, hl, ToyGen.nest_outdated t hl⟩ (fun t ht _ => ToyGen.nest_islisted ht)
    ToyGen.nest_below (by
      have hlen : (ToyGen.targetsFor ToyGen.nest2 .director).targets.length = 1 := by
        rw [← List.length_map (f := ToyGen.brief), f.assigned]
        rfl
      rw [hlen]
      show 4002 + 2 * 2 * 1 ≤ 5000
      decide)
  obtain ⟨u, m, hu, -, ho⟩ := h5 t hl (ToyGen.nest_outdated t hl)
  exact ⟨res, cl', h1, h2, ⟨u, hu, by rw [ho]; exact (ToyGen.nest_brief hl).1, by rw [ho]; exact (ToyGen.nest_brief hl).2.2.2.1⟩, h7⟩

namespace ToyGen

def shared : List Cmd := [.addDelegation "a" "targets" "x" false .ed25519 "ka" "ka" "" year, .addDelegation "b" "targets" "y" false .ed25519 "ka" "ka" "" year,
  .image "firmware" "y" "h1" "" (some "b"), .revokeDelegation "a"]

def again : List Cmd := [.addDelegation "a" "targets" "x" false .ed25519 "ka" "ka" "" year, .image "firmware" "x" "h1" "" (some "a"), .revokeDelegation "a",
  .addDelegation "a" "targets" "x" false .ed25519 "kb" "kb" "" year]

def misnamed : List Cmd := [.addDelegation "invalidrole" "targets" "x" false .ed25519 "ka" "ka" "" year, .image "firmware" "x" "h1" "" (some "invalidrole")]

/-- Clients accept the role, delegated by the top-level Targets. -/
def accepted (r : Repos) (n : String) : Bool :=
  (Image.verifyDelegation (ctxRoles r) (file r.image (.delegation n)) ⟨.delegation, n⟩ (targetsFor r .image)).toBool

end ToyGen

open ToyGen

/-- Why `C70_delegated_partial` excludes revoking: of two roles with the same key, revoking one takes the
key from the other, which stays listed but is not accepted any more. -/
theorem C70_shared_key_lost : ∃ r1 r2, runAll gen start shared.dropLast = .ok r1 ∧ run gen r1 (.revokeDelegation "a") = .ok r2 ∧
    accepted r1 "b" = true ∧ delegatesOf r2.image .targets = ["b"] ∧ accepted r2 "b" = false := by
  have h : after shared.dropLast (fun r1 => accepted r1 "b" &&
      (match run gen r1 (.revokeDelegation "a") with
      | .ok r2 => delegatesOf r2.image .targets == ["b"] && !accepted r2 "b"
      | .error _ => false)) = true := by decide +kernel
  obtain ⟨r1, h1, h⟩ := of_after h
  rw [Bool.and_eq_true] at h
  obtain ⟨h2, h⟩ := h
  split at h
  · rename_i r2 h3
    simp only [Bool.and_eq_true, beq_iff_eq, Bool.not_eq_true'] at h
    exact ⟨r1, r2, h1, h3, h2, h.1, h.2⟩
  · cases h

/-- A role that is revoked and added again starts at version 1: devices that hold the former one have a
higher version and do not take it. -/
theorem C70_version_restarts : ∃ r1 r2, runAll gen start (again.take 2) = .ok r1 ∧ runAll gen r1 (again.drop 2) = .ok r2 ∧
    versionOf r1.image (.delegation "a") = some 2 ∧ delegatesOf r2.image .targets = ["a"] ∧ versionOf r2.image (.delegation "a") = some 1 := by
  have h : after (again.take 2) (fun r1 => versionOf r1.image (.delegation "a") == some 2 &&
      (match runAll gen r1 (again.drop 2) with
      | .ok r2 => delegatesOf r2.image .targets == ["a"] && versionOf r2.image (.delegation "a") == some 1
      | .error _ => false)) = true := by decide +kernel
  obtain ⟨r1, h1, h⟩ := of_after h
  rw [Bool.and_eq_true, beq_iff_eq] at h
  obtain ⟨h2, h⟩ := h
  split at h
  · rename_i r2 h3
    simp only [Bool.and_eq_true, beq_iff_eq] at h
    exact ⟨r1, r2, h1, h3, h2, h.1, h.2⟩
  · cases h

/-- A role called `invalidrole` can be added and given images; clients never accept it. -/
theorem C70_invalidrole : ∃ r, runAll gen start misnamed = .ok r ∧ delegatesOf r.image .targets = ["invalidrole"] ∧
    namesOf r.image (.delegation "invalidrole") = ["x"] ∧ accepted r "invalidrole" = false := by
  have h : after misnamed (fun r => delegatesOf r.image .targets == ["invalidrole"] && (namesOf r.image (.delegation "invalidrole") == ["x"] &&
      !accepted r "invalidrole")) = true := by decide +kernel
  obtain ⟨r, h1, h⟩ := of_after h
  simp only [Bool.and_eq_true, beq_iff_eq, Bool.not_eq_true'] at h
  exact ⟨r, h1, h.1, h.2.1, h.2.2⟩

end Aktualizr
