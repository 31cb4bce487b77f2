import Verif.Model.Tuf
import Verif.Lemmas.Except

/-! Reading documents fails only with exceptions a C++ handler sees. -/

namespace Aktualizr

/-- Fails only with a `std::exception`. -/
def Tame {α : Type} (x : Except Err α) : Prop := ∀ e, x = .error e → e.isStd = true

namespace Tame

variable {α β : Type}

theorem ok (a : α) : Tame (.ok a : Except Err α) := fun _ h => by cases h
theorem pure (a : α) : Tame (Pure.pure a : Except Err α) := fun _ h => by cases h
theorem std (s : String) : Tame (.error (.std s) : Except Err α) := fun _ h => by cases h; rfl
theorem upt (e : UptErr) : Tame (.error (.upt e) : Except Err α) := fun _ h => by cases h; rfl
theorem throwUpt (e : UptErr) : Tame (throw (.upt e) : Except Err α) := fun _ h => by cases h; rfl

theorem bind {x : Except Err α} {f : α → Except Err β} (h : Tame x) (hf : ∀ a, Tame (f a)) : Tame (x >>= f) := by
  intro e he
  cases x with
  | error e' => simp at he; exact he ▸ h e' rfl
  | ok a => exact hf a e he

theorem map {x : Except Err α} {f : α → β} (h : Tame x) : Tame (f <$> x) := by
  intro e he
  cases x with
  | error e' => cases he; exact h _ rfl
  | ok a => cases he

theorem throwIf {b : Bool} {e : UptErr} : Tame (Aktualizr.throwIf b (.upt e)) := by
  unfold Aktualizr.throwIf
  split
  · exact upt _
  · exact ok _

theorem ite {c : Prop} [Decidable c] {x y : Except Err α} (h1 : Tame x) (h2 : Tame y) : Tame (if c then x else y) := by
  split
  · exact h1
  · exact h2

theorem get (j : Json) (k : String) : Tame (j.get k) := by
  unfold Json.get; split <;> first | exact ok _ | exact std _
theorem isMember (j : Json) (k : String) : Tame (j.isMember k) := by
  unfold Json.isMember; split <;> first | exact ok _ | exact std _
theorem asString (j : Json) : Tame j.asString := by
  unfold Json.asString; split <;> first | exact ok _ | exact std _
theorem asInt (j : Json) : Tame j.asInt := by
  unfold Json.asInt Json.asIntIn; repeat' split
  all_goals first | exact ok _ | exact std _
theorem asInt64 (j : Json) : Tame j.asInt64 := by
  unfold Json.asInt64 Json.asIntIn; repeat' split
  all_goals first | exact ok _ | exact std _
theorem asUInt64 (j : Json) : Tame j.asUInt64 := by
  unfold Json.asUInt64 Json.asIntIn; repeat' split
  all_goals first | exact ok _ | exact std _
theorem asBool (j : Json) : Tame j.asBool := by
  unfold Json.asBool; repeat' split
  all_goals first | exact ok _ | exact std _
theorem delegation (n : String) : Tame (Role.delegation n) := by
  unfold Role.delegation; repeat' split
  all_goals first | exact ok _ | exact std _ | exact upt _
theorem hwId (n : String) : Tame (mkHwId n) := by
  unfold mkHwId; repeat' split
  all_goals first | exact ok _ | exact std _ | exact upt _
theorem serial (n : String) : Tame (mkEcuSerial n) := by
  unfold mkEcuSerial; repeat' split
  all_goals first | exact ok _ | exact std _ | exact upt _

end Tame

/-- Goes through the structure of a computation. -/
macro "tame" : tactic => `(tactic| repeat' (first
  | with_reducible exact Tame.get _ _ | with_reducible exact Tame.isMember _ _ | with_reducible exact Tame.asString _ | with_reducible exact Tame.asInt _ | with_reducible exact Tame.asInt64 _
  | with_reducible exact Tame.asUInt64 _ | with_reducible exact Tame.asBool _ | with_reducible exact Tame.delegation _ | with_reducible exact Tame.hwId _ | with_reducible exact Tame.serial _
  | with_reducible exact Tame.throwIf | with_reducible exact Tame.pure _ | with_reducible exact Tame.ok _ | with_reducible exact Tame.upt _ | with_reducible exact Tame.std _ | with_reducible exact Tame.throwUpt _
  | assumption
  | with_reducible refine Tame.bind ?_ (fun _ => ?_) | with_reducible refine Tame.map ?_ | with_reducible refine Tame.ite ?_ ?_
  | split))

namespace Tame

theorem hwids : ∀ l, Tame (parseHwids l)
  | [] => ok _
  | j :: js => by unfold parseHwids; have := hwids js; tame
theorem ecus : ∀ l, Tame (parseEcus l)
  | [] => ok _
  | (k, j) :: js => by unfold parseEcus; have := ecus js; tame
theorem hashes : ∀ l, Tame (parseHashes l)
  | [] => ok _
  | (k, j) :: js => by unfold parseHashes; have := hashes js; tame
theorem updateCustom (t : Target) (j : Json) : Tame (t.updateCustom j) := by
  unfold Target.updateCustom
  have := hwids
  have := ecus
  tame
  all_goals first | exact hwids _ | exact ecus _
theorem target (f : String) (j : Json) : Tame (Target.ofJson f j) := by
  unfold Target.ofJson
  tame
  all_goals first | exact updateCustom _ _ | exact hashes _
theorem targetList : ∀ l, Tame (parseTargetList l)
  | [] => ok _
  | (k, j) :: js => by
    unfold parseTargetList; have := targetList js; tame
    all_goals exact target _ _
theorem paths : ∀ l, Tame (parsePaths l)
  | [] => ok _
  | j :: js => by unfold parsePaths; have := paths js; tame
theorem keyIds (role : Role) : ∀ l acc, Tame (parseKeyIds role acc l)
  | [], acc => ok _
  | j :: js, acc => by
    unfold parseKeyIds; have := keyIds role js; tame
    all_goals exact keyIds role js _
theorem role (m : MetaWithKeys) (j : Json) (r : Role) : Tame (parseRole m j r) := by
  unfold parseRole
  tame
  all_goals exact keyIds _ _ _
theorem keysLoop (env : Env) : ∀ l m, Tame (parseKeysLoop env m l)
  | [], m => ok _
  | (k, j) :: js, m => by
    unfold parseKeysLoop; tame
    all_goals exact keysLoop env js _
theorem delegRoles : ∀ l ts, Tame (parseDelegRoles ts l)
  | [], ts => ok _
  | j :: js, ts => by
    unfold parseDelegRoles; tame
    all_goals first | exact role _ _ _ | exact paths _ | exact delegRoles js _
theorem targetsInit (env : Env) (m : MetaWithKeys) (j : Json) : Tame (Aktualizr.targetsInit env m j) := by
  unfold Aktualizr.targetsInit
  tame
  all_goals first | exact targetList _ | exact keysLoop _ _ _ | exact delegRoles _ _
theorem baseInit (j : Json) : Tame (Aktualizr.baseInit j) := by
  unfold Aktualizr.baseInit
  tame
theorem sigLoop (env : Env) (m : MetaWithKeys) (r : Role) (c : String) : ∀ l used n, Tame (Aktualizr.sigLoop env m r c used n l)
  | [], used, n => ok _
  | j :: js, used, n => by
    unfold Aktualizr.sigLoop
    tame
    all_goals exact sigLoop env m r c js _ _
theorem unpack (env : Env) (m : MetaWithKeys) (r : Role) (j : Json) : Tame (unpackSignedObject env m r j) := by
  unfold unpackSignedObject
  tame
  all_goals exact sigLoop _ _ _ _ _ _ _
theorem baseSigned (env : Env) (r : Role) (j : Json) (m : MetaWithKeys) : Tame (baseMetaSigned env r j m) := by
  unfold baseMetaSigned
  tame
  all_goals first | exact unpack _ _ _ _ | exact baseInit _
theorem targets (env : Env) (r : Role) (j : Json) (m : MetaWithKeys) : Tame (Targets.ofJsonSigned env r j m) := by
  unfold Targets.ofJsonSigned
  tame
  all_goals first | exact baseSigned _ _ _ _ | exact targetsInit _ _ _

end Tame

end Aktualizr
