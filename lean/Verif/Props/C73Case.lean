import Verif.Props.C73Deleg
import Verif.Props.C70Limits

/-!
# C73 Concrete cases, and what is not as one would expect
-/

namespace Aktualizr

open Spec Gen

namespace ToyGen

/-- A delegation below a delegation, with an image that is assigned, and another one staged. -/
def deep : List Cmd := [.addDelegation "a" "targets" "x" false .ed25519 "ka" "ka" "" year, .addDelegation "b" "a" "x" true .ed25519 "kb" "kb" "" year,
  .image "firmware" "x" "h1" "" (some "b"), .addTarget "x" "h1" "e1" "" "", .signTargets, .image "new firmware" "y" "h1" "" none, .addTarget "y" "h1" "e2" "" ""]

def deepState : Repos := Toy.val (runAll gen start deep) {}

def desc : Json := .obj [("hardwareIds", .arr [.str "h7"]), ("note", .str "n")]

/-- Commands for that state, one of each kind. -/
def each : List Cmd := [.image "third firmware" "x" "h2" "u" (some "b"), .customImage "z" ⟨.sha256, "AB"⟩ 77 "h3" "u" none desc,
  .addTarget "x" "h1" "e3" "u" year, .addDelegation "c" "b" "x/" false .ed25519 "kc" "kc" "" year, .revokeDelegation "b", .signTargets, .emptyTargets "" year "id",
  .oldTargets, .refresh .director "targets" now year, .refresh .image "root" now year]

/-- `DelegatesTo`, computed. -/
def leads (d : Dir) (p : Gen.Path) (n : String) : Bool :=
  match d.files.lookup p with
  | none => false
  | some t =>
    match (do (← (← (env.parseJson t).get "signed").get "delegations").get "roles" : Except Err Json) with
    | .ok rs => rs.elems.any (fun x => match x.get "name" with
      | .ok (.str m) => m == n
      | _ => false)
    | .error _ => false

theorem leads_ok {d : Dir} {p : Gen.Path} {n : String} (h : leads d p n = true) : DelegatesTo gen d p n := by
  unfold leads at h
  split at h
  · cases h
  · rename_i t ht
    split at h
    · rename_i rs hrs
      obtain ⟨b, h1, hdl⟩ := exc_bind_ok.1 hrs
      obtain ⟨dl, h2, h3⟩ := exc_bind_ok.1 hdl
      obtain ⟨x, hx, hn⟩ := List.any_eq_true.1 h
      refine ⟨b, rs, x, ⟨t, ht, at_one h1⟩, ⟨_, h2, at_one h3⟩, hx, ?_⟩
      split at hn
      · rename_i m hm
        rw [← eq_of_beq hn]
        exact at_one hm
      · cases hn
    · cases h

theorem deep_facts : runAll gen start deep = .ok deepState ∧ (∀ c ∈ each, (run gen deepState c).toBool = true) ∧
    leads deepState.image .targets "a" = true ∧ leads deepState.image (.delegation "a") "b" = true ∧ (deepState.director.files.lookup .staging).isSome = true ∧
    (deepState.image.files.lookup (.delegation "b")).isSome = true := by
  have h : ((runAll gen start deep).toBool && (each.all (fun c => (run gen deepState c).toBool) &&
    (leads deepState.image .targets "a" && (leads deepState.image (.delegation "a") "b" && ((deepState.director.files.lookup .staging).isSome &&
      (deepState.image.files.lookup (.delegation "b")).isSome))))) = true := by decide +kernel
  simp only [Bool.and_eq_true] at h
  exact ⟨Toy.val_eq h.1, fun c hc => List.all_eq_true.1 h.2.1 c hc, h.2.2⟩

attribute [irreducible] deepState

theorem deep_reached : Reached gen deepState := by
  refine ⟨kd, ki, "", year, "", start, deep, keysFor_ok _ _ _ _, keysFor_ok _ _ _ _, year_ok, start_ok, ?_, deep_facts.1⟩
  intro c hc
  simp only [deep, List.mem_cons, List.not_mem_nil, or_false] at hc
  rcases hc with rfl | rfl | rfl | rfl | rfl | rfl | rfl
  · exact ⟨works _ _, year_ok⟩
  · exact ⟨works _ _, year_ok⟩
  · exact ⟨by decide, by decide⟩
  · exact ⟨by decide, by decide, by decide⟩
  · exact trivial
  · exact ⟨by decide, by decide⟩
  · exact ⟨by decide, by decide, by decide⟩

theorem runs {c : Cmd} (hc : c ∈ each) : ∃ r', run gen deepState c = .ok r' := by
  have := deep_facts.2.1 c hc
  cases h : run gen deepState c with
  | ok r' => exact ⟨r', rfl⟩
  | error e => rw [h] at this; cases this

end ToyGen

open ToyGen

/-! ### The hypotheses are met -/

example : ∃ r' : Repos, ∃ p b b' t, RoleFor gen deepState.image (some "b") "x" p ∧ Signed gen deepState.image p b ∧ Signed gen r'.image p b' ∧ EntrySet b b' "x" t ∧
    BinaryEntry gen "third firmware" "h2" "u" t := by
  obtain ⟨r', h⟩ := runs (c := .image "third firmware" "x" "h2" "u" (some "b")) (by simp [each])
  obtain ⟨p, b, b', t, h1, h2, h3, h4, h5, -⟩ := C73_image sound deep_reached ⟨by decide, by decide⟩ h
  exact ⟨r', p, b, b', t, h1, h2, h3, h4, h5⟩

example : ∃ r' : Repos, ∃ b', Signed gen r'.image .targets b' ∧ At b' ["targets", "z", "length"] (.int 77) ∧ At b' ["targets", "z", "custom", "note"] (.str "n") := by
  obtain ⟨r', h⟩ := runs (c := .customImage "z" ⟨.sha256, "AB"⟩ 77 "h3" "u" none desc) (by simp [each])
  obtain ⟨p, b, b', t, h1, -, h3, ⟨ts, ts', -, h4, ⟨y, h5, h6⟩, -⟩, h7, -⟩ := C73_custom_image sound deep_reached
    ⟨by decide, .obj (by decide) (by
      intro kv hkv
      simp only [List.mem_cons, List.not_mem_nil, or_false] at hkv
      rcases hkv with rfl | rfl
      · exact .arr (fun x hx => by simp only [List.mem_singleton] at hx; subst hx; exact .str _)
      · exact .str _), Toy.val (Target.ofJson "z" (.obj [("custom", desc)])) { filename := "" }, Toy.val_eq (by decide +kernel)⟩ h
  rcases h1 with ⟨-, rfl⟩ | ⟨n, hn, -⟩
  · cases h6
    obtain ⟨tt, h4, rfl⟩ := h4
    refine ⟨r', b', h3, ⟨_, h4, _, h5, h7.length (by decide)⟩, ⟨_, h4, _, h5, ?_⟩⟩
    obtain ⟨c, ⟨c', k1, rfl⟩, k2⟩ := h7.rest
    exact ⟨_, k1, _, (k2 "note" (by decide)).trans rfl, rfl⟩
  · cases hn

example : ∃ r' : Repos, ∃ p e b b' t, ListsImage gen deepState.image p "x" e ∧ Assigns e t "h1" "e3" "u" ∧ Current gen deepState.director b ∧ Staged gen r'.director b' ∧ EntrySet b b' "x" t := by
  obtain ⟨r', h⟩ := runs (c := .addTarget "x" "h1" "e3" "u" year) (by simp [each])
  obtain ⟨p, e, b, b', t, h1, h2, h3, h4, h5, -⟩ := C73_add_target sound deep_reached ⟨by decide, by decide, by decide⟩ h
  exact ⟨r', p, e, b, b', t, h1, h2, h3, h4, h5⟩

example : ∃ r' : Repos, ∃ b b', Signed gen deepState.image (.delegation "b") b ∧ Signed gen r'.image (.delegation "b") b' ∧ NewDelegation gen "c" "x/" false ⟨"kc", .ed25519⟩ b b' := by
  obtain ⟨r', h⟩ := runs (c := .addDelegation "c" "b" "x/" false .ed25519 "kc" "kc" "" year) (by simp [each])
  obtain ⟨p, b, b', b0, h1, -, h3, h4, h5, -⟩ := C73_add_delegation sound deep_reached ⟨works _ _, year_ok⟩ h
  rw [if_neg (by decide)] at h1
  subst h1
  exact ⟨r', b, b', h3, h4, h5⟩

example : ∃ r' : Repos, ∃ bn b b', r'.image.files.lookup (.delegation "b") = none ∧ Signed gen deepState.image (.delegation "b") bn ∧ Signed gen r'.director .targets b' ∧ Withdrawn bn b b' := by
  obtain ⟨r', h⟩ := runs (c := .revokeDelegation "b") (by simp [each])
  obtain ⟨key, bn, b, b', -, h2, h3, -, -, -, -, -, h8, h9, -⟩ := C73_revoke_delegation sound deep_reached h
  exact ⟨r', bn, b, b', h3, h2, h8, h9⟩

example : ∃ r' : Repos, ∃ b, Staged gen deepState.director b ∧ Signed gen r'.director .targets b := by
  obtain ⟨r', h⟩ := runs (c := .signTargets) (by simp [each])
  obtain ⟨b, h1, h2, -⟩ := C73_sign_targets sound deep_reached h
  rcases h1 with h1 | ⟨h1, -⟩
  · exact ⟨r', b, h1, h2⟩
  · have := deep_facts.2.2.2.2.1
    rw [h1] at this
    cases this

example : ∃ r' : Repos, ∃ b, Staged gen r'.director b ∧ At b ["targets"] (.obj []) ∧ At b ["custom", "correlationId"] (.str "id") := by
  obtain ⟨r', h⟩ := runs (c := .emptyTargets "" year "id") (by simp [each])
  obtain ⟨b, h1, h2, -, -, -, h6, -⟩ := C73_empty_targets sound deep_reached year_ok h
  exact ⟨r', b, h1, h2, h6 (by decide)⟩

example : ∃ r' : Repos, ∃ b, Signed gen deepState.director .targets b ∧ Staged gen r'.director b := by
  obtain ⟨r', h⟩ := runs (c := .oldTargets) (by simp [each])
  obtain ⟨b, h1, h2, -⟩ := C73_old_targets sound deep_reached h
  exact ⟨r', b, h1, h2⟩

example : ∃ r' : Repos, ∃ b b', Signed gen deepState.director .targets b ∧ Signed gen r'.director .targets b' ∧ Refreshed ToyGen.now year b b' := by
  obtain ⟨r', h⟩ := runs (c := .refresh .director "targets" ToyGen.now year) (by simp [each])
  obtain ⟨⟨b, b', h1, h2, h3⟩, -⟩ := C73_refresh_targets sound deep_reached year_ok h
  exact ⟨r', b, b', h1, h2, h3⟩

example : ∃ r' : Repos, ∃ b b', Signed gen deepState.image .root b ∧ Signed gen r'.image .root b' ∧ Refreshed ToyGen.now year b b' := by
  obtain ⟨r', h⟩ := runs (c := .refresh .image "root" ToyGen.now year) (by simp [each])
  obtain ⟨⟨b, b', v, h1, h2, h3, -⟩, -⟩ := C73_refresh_root sound deep_reached year_ok h
  exact ⟨r', b, b', h1, h2, h3⟩

/-- The role below the other one is in the tree and in the Snapshot. -/
example : ∃ b v s, InTree gen deepState.image (.delegation "b") ∧ Signed gen deepState.image (.delegation "b") b ∧ At b ["version"] (.int v) ∧
    Signed gen deepState.image .snapshot s ∧ At s ["meta", "b.json", "version"] (.int v) := by
  have hp : InTree gen deepState.image (.delegation "b") := .step (.step .top (leads_ok deep_facts.2.2.1)) (leads_ok deep_facts.2.2.2.1)
  have hb := (deep_reached.sane sound).image.base
  obtain ⟨-, b, v, e, h1, h2⟩ := hb.delegated "b" _ (there deep_facts.2.2.2.2.2)
  have hs := signed_wrote sound (there deep_facts.2.2.2.2.2) h1
  obtain ⟨s, h3, h4⟩ := C73_snapshot sound deep_reached (repo := .image) hp hs (at_one h2.version)
  exact ⟨b, v, s, hp, hs, at_one h2.version, h3, h4⟩

/-! ### Limits -/

/-- A role with an empty name can be added, and its pattern is checked, but an image given for it goes to the top-level
Targets. -/
theorem C73_empty_role_name : ∃ r r', runAll gen start [.addDelegation "" "targets" "x" false .ed25519 "ka" "ka" "" year] = .ok r ∧
    run gen r (.image "firmware" "x" "h1" "" (some "")) = .ok r' ∧ delegatesOf r'.image .targets = [""] ∧ namesOf r'.image .targets = ["x"] ∧
    namesOf r'.image (.delegation "") = [] ∧ (run gen r (.image "firmware" "y" "h1" "" (some ""))).toBool = false := by
  have h : after [.addDelegation "" "targets" "x" false .ed25519 "ka" "ka" "" year] (fun r =>
      (match run gen r (.image "firmware" "x" "h1" "" (some "")) with
      | .ok r' => delegatesOf r'.image .targets == [""] && namesOf r'.image .targets == ["x"] && namesOf r'.image (.delegation "") == []
      | .error _ => false) && !(run gen r (.image "firmware" "y" "h1" "" (some ""))).toBool) = true := by decide +kernel
  obtain ⟨r, h1, h⟩ := of_after h
  rw [Bool.and_eq_true] at h
  obtain ⟨h, h2⟩ := h
  split at h
  · rename_i r' h3
    simp only [Bool.and_eq_true, beq_iff_eq] at h
    exact ⟨r, r', h1, h3, h.1.1, h.1.2, h.2, by simpa using h2⟩
  · cases h

end Aktualizr
