import Verif.Props.C70Toy

namespace Aktualizr

open Spec Gen

namespace ToyGen

def file (d : Dir) (p : Gen.Path) : String := (d.files.lookup p).getD ""

/-- The tables of a device that saw these documents. -/
def heldDb (dr dt ir im is it : String) : MetaDb where
  rows := [⟨.director, .root, 1, dr⟩, ⟨.director, .targets, -1, dt⟩, ⟨.image, .root, 1, ir⟩, ⟨.image, .timestamp, -1, im⟩,
    ⟨.image, .snapshot, -1, is⟩, ⟨.image, .targets, -1, it⟩]

def held (r : Repos) : MetaDb :=
  heldDb (file r.director (.numbered 1)) (file r.director .targets) (file r.image (.numbered 1)) (file r.image .timestamp) (file r.image .snapshot) (file r.image .targets)

theorem held_stored {dr dt ir im is it : String} : (∀ row, (heldDb dr dt ir im is it).latestOf .director .root = some row → row = ⟨.director, .root, 1, dr⟩) ∧
    (∀ raw, Stored (heldDb dr dt ir im is it) .director .targets raw → raw = dt) ∧
    (∀ row, (heldDb dr dt ir im is it).latestOf .image .root = some row → row = ⟨.image, .root, 1, ir⟩) ∧
    (∀ raw, Stored (heldDb dr dt ir im is it) .image .timestamp raw → raw = im) ∧
    (∀ raw, Stored (heldDb dr dt ir im is it) .image .snapshot raw → raw = is) ∧
    (∀ raw, Stored (heldDb dr dt ir im is it) .image .targets raw → raw = it) := by
  refine ⟨?_, ?_, ?_, ?_, ?_, ?_⟩
  · intro row h; cases h; rfl
  · rintro raw ⟨row, h, rfl⟩; cases h; rfl
  · intro row h; cases h; rfl
  · rintro raw ⟨row, h, rfl⟩; cases h; rfl
  · rintro raw ⟨row, h, rfl⟩; cases h; rfl
  · rintro raw ⟨row, h, rfl⟩; cases h; rfl

def device (db : MetaDb) : Client := { Toy.device with w := { db := db, fuel := 5000 } }

def rootFor (r : Repos) (repo : Repo) : Root := Toy.val (Root.ofJson env (env.parseJson (file (dirOf r repo) .root))) {}
def targetsFor (r : Repos) (repo : Repo) : Targets :=
  Toy.val (Targets.ofJsonSigned env Role.targets (env.parseJson (file (dirOf r repo) .targets)) (rootFor r repo).base) {}

def brief (t : Target) : String × List (String × String) × List Hash × Nat × List String := (t.filename, t.ecus, t.hashes, t.length, t.hwids)

theorem there {d : Dir} {p : Gen.Path} (h : (d.files.lookup p).isSome = true) : d.files.lookup p = some (file d p) := by
  unfold file
  cases hl : d.files.lookup p with
  | none => rw [hl] at h; cases h
  | some t => rfl

theorem reads_targets {raw : String} {r : Root} (h : (Targets.ofJsonSigned env Role.targets (env.parseJson raw) r.base).toBool = true) :
    ReadsAsTargets env raw (Toy.val (Targets.ofJsonSigned env Role.targets (env.parseJson raw) r.base) {}) :=
  (Targets.ofJsonSigned_ok (.inl (by simp)) (Toy.val_eq (d := ({} : Targets)) h)).2.2

/-- What is computed of the second state. -/
def facts2 : Bool :=
  decide ((targetsFor then2 .director).targets.map brief =
    [("app2", [("e1", "h1")], [⟨.sha256, env.sha256 "new firmware"⟩, ⟨.sha512, env.sha512 "new firmware"⟩], 12, [])]) &&
  decide ((targetsFor then2 .image).targets.map brief =
    [("app", [], [⟨.sha256, env.sha256 "firmware"⟩, ⟨.sha512, env.sha512 "firmware"⟩], 8, ["h1"]),
     ("app2", [], [⟨.sha256, env.sha256 "new firmware"⟩, ⟨.sha512, env.sha512 "new firmware"⟩], 12, ["h1"])]) &&
  within then2.director && within then2.image &&
  (Targets.ofJsonSigned env Role.targets (env.parseJson (file then2.director .targets)) (rootFor then2 .director).base).toBool &&
  (Targets.ofJsonSigned env Role.targets (env.parseJson (file then2.image .targets)) (rootFor then2 .image).base).toBool &&
  (then2.director.files.lookup .targets).isSome && (then2.image.files.lookup .targets).isSome && (then2.image.files.lookup .snapshot).isSome &&
  decide (upper (digest env "sha256" (file then1.image .snapshot)) ≠ upper (digest env "sha256" (file then2.image .snapshot)) ∧
    upper (digest env "sha512" (file then1.image .snapshot)) ≠ upper (digest env "sha512" (file then2.image .snapshot))) &&
  [Gen.Path.numbered 1, .timestamp, .snapshot, .targets].all (fun p => (then1.director.files.lookup p).isSome && (then1.image.files.lookup p).isSome)

theorem facts2_ok : facts2 = true := by decide +kernel

theorem then2_facts : ((targetsFor then2 .director).targets.map brief =
      [("app2", [("e1", "h1")], [⟨.sha256, env.sha256 "new firmware"⟩, ⟨.sha512, env.sha512 "new firmware"⟩], 12, [])]) ∧
    ((targetsFor then2 .image).targets.map brief =
      [("app", [], [⟨.sha256, env.sha256 "firmware"⟩, ⟨.sha512, env.sha512 "firmware"⟩], 8, ["h1"]),
       ("app2", [], [⟨.sha256, env.sha256 "new firmware"⟩, ⟨.sha512, env.sha512 "new firmware"⟩], 12, ["h1"])]) ∧
    (∀ r, WithinLimits (ctx r) gen .director then2.director ∧ WithinLimits (ctx r) gen .image then2.image) ∧
    ReadsAsTargets env (file then2.director .targets) (targetsFor then2 .director) ∧
    ReadsAsTargets env (file then2.image .targets) (targetsFor then2 .image) ∧
    then2.director.files.lookup .targets = some (file then2.director .targets) ∧ then2.image.files.lookup .targets = some (file then2.image .targets) ∧
    then2.image.files.lookup .snapshot = some (file then2.image .snapshot) ∧
    (∀ alg, upper (digest env alg (file then1.image .snapshot)) ≠ upper (digest env alg (file then2.image .snapshot))) ∧
    ∀ p ∈ [Gen.Path.numbered 1, .timestamp, .snapshot, .targets], ∀ repo, (dirOf then1 repo).files.lookup p = some (file (dirOf then1 repo) p) := by
  have h := facts2_ok
  simp only [facts2, Bool.and_eq_true, decide_eq_true_eq] at h
  obtain ⟨⟨⟨⟨⟨⟨⟨⟨⟨⟨h1, h2⟩, h3⟩, h4⟩, h5⟩, h6⟩, h7⟩, h8⟩, h9⟩, h10⟩, h11⟩ := h
  refine ⟨h1, h2, fun r => ⟨within_ok r _ h3, within_ok r _ h4⟩, reads_targets h5, reads_targets h6, there h7, there h8, there h9, fun alg => ?_, fun p hp repo => ?_⟩
  · by_cases ha : alg = "sha256"
    · rw [ha]; exact h10.1
    · have : ∀ raw, digest env alg raw = digest env "sha512" raw := fun raw => by unfold digest; rw [if_neg ha, if_neg (by decide)]
      rw [this, this]
      exact h10.2
  · have := List.all_eq_true.1 h11 p hp
    rw [Bool.and_eq_true] at this
    match repo with
    | .director => exact there this.1
    | .image => exact there this.2

theorem was1 (repo : Repo) {p : Gen.Path} (hp : p ∈ [Gen.Path.numbered 1, .timestamp, .snapshot, .targets]) :
    WasPublished gen start (first ++ second) repo p (file (dirOf then1 repo) p) :=
  ⟨first, second, then1, rfl, then1_ok, then2_facts.2.2.2.2.2.2.2.2.2 p hp repo⟩

theorem held_ok : HoldsPublished gen start (first ++ second) (device (held then1)).w.db where
  dRoot row hr := by
    rw [held_stored.1 row hr]
    exact ⟨1, was1 .director (by simp), by show (1 : Int) ≤ 1 + 1; decide⟩
  dTargets raw hr := by
    rw [held_stored.2.1 raw hr]
    exact was1 .director (by simp)
  iRoot row hr := by
    rw [held_stored.2.2.1 row hr]
    exact ⟨1, was1 .image (by simp), by show (1 : Int) ≤ 1 + 1; decide⟩
  iTimestamp raw hr := by
    rw [held_stored.2.2.2.1 raw hr]
    exact was1 .image (by simp)
  iSnapshot raw hr := by
    rw [held_stored.2.2.2.2.1 raw hr]
    exact was1 .image (by simp)
  iTargets raw hr := by
    rw [held_stored.2.2.2.2.2 raw hr]
    exact was1 .image (by simp)

theorem year_ok : IsTime year := ⟨⟨year⟩, by decide +kernel⟩

theorem sensible : ∀ x ∈ first ++ second, x.Sensible gen := by
  intro x hx
  simp only [first, second, List.cons_append, List.nil_append, List.mem_cons, List.not_mem_nil, or_false] at hx
  rcases hx with rfl | rfl | rfl | rfl | rfl | rfl | rfl | rfl
  · exact ⟨by decide, by decide⟩
  · exact ⟨by decide, by decide, by decide⟩
  · exact trivial
  · exact year_ok
  · exact ⟨by decide, by decide⟩
  · exact year_ok
  · exact ⟨by decide, by decide, by decide⟩
  · exact trivial

theorem brief_mem {t : Target} (h : t ∈ (targetsFor then2 .director).targets) : t.filename = "app2" ∧ t.ecus = [("e1", "h1")] ∧
    t.hashes = [⟨.sha256, env.sha256 "new firmware"⟩, ⟨.sha512, env.sha512 "new firmware"⟩] ∧ t.length = 12 ∧ t.hwids = [] := by
  have := Toy.map_mem then2_facts.1 h
  simpa [brief] using this

theorem no_current (db : MetaDb) : (device db).v.loadCurrent env "e1" = .ok none := rfl

theorem same_content {a b : Target} {x y : String} (h1 : a.filename = b.filename) (h2 : a.length = b.length) (h3 : a.hashes = [⟨.sha256, x⟩, ⟨.sha512, y⟩])
    (h4 : b.hashes = [⟨.sha256, x⟩, ⟨.sha512, y⟩]) : SameContent a b := by
  refine ⟨h1, h2, ⟨⟨.sha256, x⟩, by simp [h3], by simp [h4]⟩, ?_⟩
  intro h hh h' hh' ht
  rw [h3] at hh
  rw [h4] at hh'
  simp only [List.mem_cons, List.not_mem_nil, or_false] at hh hh'
  rcases hh with rfl | rfl <;> rcases hh' with rfl | rfl <;> first | rfl | cases ht

theorem then2_islisted {t : Target} (ht : t ∈ (targetsFor then2 .director).targets) : ∃ m, ListedBy (targetsFor then2 .image) t m := by
  obtain ⟨h1, h2, h3, h4, h5⟩ := brief_mem ht
  have hm := then2_facts.2.1
  rcases hl : (targetsFor then2 .image).targets with _ | ⟨m', _ | ⟨m, l⟩⟩
  · rw [hl] at hm; cases hm
  · rw [hl] at hm; exact absurd (congrArg List.length hm) (by simp)
  · rw [hl] at hm
    simp only [List.map_cons, brief, List.cons.injEq, Prod.mk.injEq] at hm
    obtain ⟨-, ⟨a1, a2, a3, a4, a5⟩, -⟩ := hm
    refine ⟨m, by rw [hl]; simp, same_content (by rw [a1, h1]) (by rw [a4, h4]) a3 h3, .inr (.inr ?_)⟩
    unfold HardwareAllowed
    rw [h2, h5, a2, a5]
    simp

theorem fits2 : ∀ t ∈ (targetsFor then2 .director).targets, FitsDevice env (device (held then1)) t := by
  intro t ht p hp
  rw [(brief_mem ht).2.1] at hp
  simp only [List.mem_singleton] at hp
  subst hp
  exact ⟨.inl ⟨rfl, rfl, by decide⟩, ⟨none, no_current _, fun _ h => by cases h⟩, fun _ h => by cases h⟩

theorem outdated2 : ∀ t ∈ (targetsFor then2 .director).targets, Outdated env (device (held then1)) t := by
  intro t ht
  refine ⟨("e1", "h1"), by simp [(brief_mem ht).2.1], fun y hy => ?_⟩
  rw [no_current] at hy
  cases hy

end ToyGen

/-- The hypotheses of `C70_accepted_partial` are met: a device that saw the first assignment accepts the
second one, of another file, published after a new Root of the Image repository. -/
example : ∃ res cl', checkUpdates (ToyGen.ctx ToyGen.then2) (ToyGen.device (ToyGen.held ToyGen.then1)) = (.ok res, cl') ∧ res.status = .available ∧
    (∃ u ∈ res.updates, u.filename = "app2") ∧ HoldsPublished ToyGen.gen ToyGen.start (ToyGen.first ++ ToyGen.second) cl'.w.db := by
  obtain ⟨f1, f2, f3, f4, f5, f6, f7, f8, f9, f10⟩ := ToyGen.then2_facts
  obtain ⟨t, hl⟩ : ∃ t, t ∈ (ToyGen.targetsFor ToyGen.then2 .director).targets := by
    cases hl : (ToyGen.targetsFor ToyGen.then2 .director).targets with
    | nil => rw [hl] at f1; cases f1
    | cons t l => exact ⟨t, by simp⟩
  obtain ⟨res, cl', h1, h2, -, -, h5, h6⟩ := C70_accepted_partial (cl := ToyGen.device (ToyGen.held ToyGen.then1)) ToyGen.sound rfl (ToyGen.keysFor_ok _ _ _ _) (ToyGen.keysFor_ok _ _ _ _)
    ToyGen.year_ok ToyGen.start_ok ToyGen.sensible ToyGen.then2_ok (ToyGen.publishes _ .director) (ToyGen.publishes _ .image) (f3 _).1 (f3 _).2 ToyGen.held_ok
    (.inl (by decide)) (fun old raw ho hr _ alg => by
      rw [f8] at hr
      cases hr
      rw [ToyGen.held_stored.2.2.2.2.1 old ho]
      exact f9 alg) f6 f4 f7 f5
    (by
      unfold EcusOnce
      rcases hts : (ToyGen.targetsFor ToyGen.then2 .director).targets with _ | ⟨x, _ | ⟨y, l⟩⟩
      · simp
      · have := (ToyGen.brief_mem (t := x) (by rw [hts]; simp)).2.1
        simp [this]
      · rw [hts] at f1; exact absurd (congrArg List.length f1) (by simp)) ToyGen.fits2 ⟨t, hl, ToyGen.outdated2 t hl⟩ (fun t ht _ => ToyGen.then2_islisted ht) (by show 4002 ≤ 5000; decide)
  obtain ⟨u, m, hu, -, ho⟩ := h5 t hl (ToyGen.outdated2 t hl)
  exact ⟨res, cl', h1, h2, ⟨u, hu, by rw [ho]; exact (ToyGen.brief_mem hl).1⟩, h6⟩

end Aktualizr
