import Verif.Props.C70Case

/-!
# C70 What the repository generator does not prevent
-/

namespace Aktualizr

open Spec Gen

namespace ToyGen

/-- The member of a published document at `path`. -/
def member (d : Dir) (p : Gen.Path) (path : List String) : Json :=
  path.foldl (fun j k => ((j.get k).toOption).getD .null) (env.parseJson (file d p))

/-- The version of a published document. -/
def versionOf (d : Dir) (p : Gen.Path) : Option Int := (member d p ["signed", "version"]).asInt.toOption

/-- The names of the targets of a published document. -/
def namesOf (d : Dir) (p : Gen.Path) : List String := (member d p ["signed", "targets"]).entries.map Prod.fst

/-- The names of the roles delegated to by a published document. -/
def delegatesOf (d : Dir) (p : Gen.Path) : List String :=
  (member d p ["signed", "delegations", "roles"]).elems.map (fun r => ((r.get "name").toOption.getD .null).asString.toOption.getD "")

/-- A computed observation of the state after `cs`. -/
def after (cs : List Cmd) (p : Repos → Bool) : Bool :=
  match runAll gen start cs with
  | .ok r => p r
  | .error _ => false

theorem of_after {cs : List Cmd} {p : Repos → Bool} (h : after cs p = true) : ∃ r, runAll gen start cs = .ok r ∧ p r = true := by
  unfold after at h
  split at h
  · rename_i r hr
    exact ⟨r, hr, h⟩
  · cases h

def early : List Cmd := [.image "firmware" "app" "h1" "" none, .addTarget "app" "h1" "e1" "" "",
  .refresh .director "targets" now year, .refresh .director "targets" now year]

def orphan : List Cmd := [.addDelegation "a" "targets" "x" false .ed25519 "ka" "ka" "" year, .addDelegation "b" "a" "x" false .ed25519 "kb" "kb" "" year,
  .image "firmware" "x" "h1" "" (some "b"), .revokeDelegation "a"]

def revoked : List Cmd := [.addDelegation "a" "targets" "x" false .ed25519 "ka" "ka" "" year, .image "firmware" "x" "h1" "" (some "a"),
  .addTarget "x" "h1" "e1" "" "", .signTargets, .image "new firmware" "y" "h1" "" none, .addTarget "y" "h1" "e2" "" "", .revokeDelegation "a"]

def doubled : List Cmd := [.image "firmware" "app" "h1" "" none, .image "new firmware" "app2" "h1" "" none, .addTarget "app" "h1" "e1" "" "",
  .addTarget "app2" "h1" "e1" "" "", .signTargets]

end ToyGen

open ToyGen

/-- What is staged keeps the version it was staged with, whatever is published in the meantime:
without the order required by `C70_versions_partial` the published version goes back. -/
theorem C70_version_goes_back : ∃ cs r1 r2, runAll gen start cs = .ok r1 ∧ run gen r1 .signTargets = .ok r2 ∧
    versionOf r1.director .targets = some 3 ∧ versionOf r2.director .targets = some 2 := by
  have h : after early (fun r1 => versionOf r1.director .targets == some 3 &&
      (match run gen r1 .signTargets with
      | .ok r2 => versionOf r2.director .targets == some 2
      | .error _ => false)) = true := by decide +kernel
  obtain ⟨r1, h1, h⟩ := of_after h
  rw [Bool.and_eq_true, beq_iff_eq] at h
  obtain ⟨h2, h⟩ := h
  split at h
  · rename_i r2 h3
    exact ⟨early, r1, r2, h1, h3, h2, by simpa using h⟩
  · cases h

/-- Revoking a delegation takes its targets from the published Director Targets but not from those
staged: signing brings them back, although no Targets role of the Image repository lists them. -/
theorem C70_revoked_comes_back : ∃ cs r1 r2, runAll gen start (cs ++ [.revokeDelegation "a"]) = .ok r1 ∧ run gen r1 .signTargets = .ok r2 ∧
    namesOf r1.director .targets = [] ∧ namesOf r2.director .targets = ["x", "y"] ∧ namesOf r2.image .targets = ["y"] ∧ delegatesOf r2.image .targets = [] := by
  have h : after revoked (fun r1 => namesOf r1.director .targets == [] &&
      (match run gen r1 .signTargets with
      | .ok r2 => namesOf r2.director .targets == ["x", "y"] && (namesOf r2.image .targets == ["y"] && delegatesOf r2.image .targets == [])
      | .error _ => false)) = true := by decide +kernel
  obtain ⟨r1, h1, h⟩ := of_after h
  rw [Bool.and_eq_true, beq_iff_eq] at h
  obtain ⟨h2, h⟩ := h
  split at h
  · rename_i r2 h3
    simp only [Bool.and_eq_true, beq_iff_eq] at h
    exact ⟨revoked.dropLast, r1, r2, h1, h3, h2, h.1, h.2.1, h.2.2⟩
  · cases h

/-- The roles below a revoked delegation stay: their targets can still be assigned, although no Targets
role leads to them, and a role of the same name cannot be added again. -/
theorem C70_orphans_stay : ∃ r1 r2, runAll gen start orphan = .ok r1 ∧ delegatesOf r1.image .targets = [] ∧
    runAll gen r1 [.addTarget "x" "h1" "e1" "" "", .signTargets] = .ok r2 ∧ namesOf r2.director .targets = ["x"] ∧
    namesOf r2.image .targets = [] ∧ delegatesOf r2.image .targets = [] ∧
    run gen r1 (.addDelegation "b" "targets" "x" false .ed25519 "kc" "kc" "" year) = .error (.std "Delegation with the same name already exist.") := by
  have h : after orphan (fun r1 => delegatesOf r1.image .targets == [] &&
      ((match run gen r1 (.addDelegation "b" "targets" "x" false .ed25519 "kc" "kc" "" year) with
      | .ok _ => false
      | .error e => decide (e = .std "Delegation with the same name already exist.")) &&
      (match runAll gen r1 [.addTarget "x" "h1" "e1" "" "", .signTargets] with
      | .ok r2 => namesOf r2.director .targets == ["x"] && (namesOf r2.image .targets == [] && delegatesOf r2.image .targets == [])
      | .error _ => false))) = true := by decide +kernel
  obtain ⟨r1, h1, h⟩ := of_after h
  rw [Bool.and_eq_true, Bool.and_eq_true, beq_iff_eq] at h
  obtain ⟨h2, h3, h4⟩ := h
  split at h4
  · rename_i r2 h5
    simp only [Bool.and_eq_true, beq_iff_eq] at h4
    refine ⟨r1, r2, h1, h2, h5, h4.1, h4.2.1, h4.2.2, ?_⟩
    split at h3
    · cases h3
    · rename_i e he
      rw [he, of_decide_eq_true h3]
  · cases h4

/-- Two files can be assigned to the same ECU; devices do not accept such Targets. -/
theorem C70_ecu_twice : ∃ r, runAll gen start doubled = .ok r ∧ (targetsFor r .director).targets.map (fun t => (t.filename, t.ecus)) =
    [("app", [("e1", "h1")]), ("app2", [("e1", "h1")])] ∧ ¬ EcusOnce (targetsFor r .director) := by
  have h : after doubled (fun r => (targetsFor r .director).targets.map (fun t => (t.filename, t.ecus)) ==
    [("app", [("e1", "h1")]), ("app2", [("e1", "h1")])]) = true := by decide +kernel
  obtain ⟨r, h1, h⟩ := of_after h
  rw [beq_iff_eq] at h
  refine ⟨r, h1, h, fun ho => ?_⟩
  have : (targetsFor r .director).targets.flatMap (fun t => t.ecus.map Prod.fst) =
      ((targetsFor r .director).targets.map (fun t => (t.filename, t.ecus))).flatMap (fun p => p.2.map Prod.fst) := by
    rw [List.flatMap_map]
  unfold EcusOnce at ho
  rw [this, h] at ho
  exact absurd ho (by decide)

/-- The length given for an image that is not at hand is cut to 32 bits. -/
theorem C70_length_cut : ∃ t, customTarget ⟨.sha256, "ab"⟩ 4294967301 "" (.obj []) = .ok t ∧ t.get "length" = .ok (.int 5) :=
  ⟨_, rfl, rfl⟩

/-- A delegation with an empty pattern can be added; adding an image to it is undefined. -/
theorem C70_empty_pattern : ∃ r, runAll gen start [.addDelegation "a" "targets" "" false .ed25519 "ka" "ka" "" year] = .ok r ∧
    run gen r (.image "firmware" "x" "h1" "" (some "a")) = .error (.ub "back of empty string") := by
  have h : after [.addDelegation "a" "targets" "" false .ed25519 "ka" "ka" "" year] (fun r =>
      match run gen r (.image "firmware" "x" "h1" "" (some "a")) with
      | .ok _ => false
      | .error e => decide (e = .ub "back of empty string")) = true := by decide +kernel
  obtain ⟨r, h1, h⟩ := of_after h
  refine ⟨r, h1, ?_⟩
  split at h
  · cases h
  · rename_i e he
    rw [he, of_decide_eq_true h]

end Aktualizr
