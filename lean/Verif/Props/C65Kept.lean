import Verif.Props.C65
import Verif.Lemmas.Monad
/-!
# C65: what provisioning recorded

Rows of Secondaries that are in the storage are not replaced at the start.
-/

namespace Aktualizr
namespace Connect
open M

/-! ### What provisioning recorded -/

/-- Between the two states rows without details were added to the table of Secondaries, for serials that
had none; nothing else of the storage changed. -/
def Adds (s s' : St) : Prop :=
  ∃ more : List String, s'.store = { s.store with secs := s.store.secs ++ more.map (fun x => (x, {})) } ∧ more.Nodup ∧
    ∀ x ∈ more, x ∉ s.store.secs.map Prod.fst

theorem lookup_none_mem {α : Type} {l : List (String × α)} {k : String} : l.lookup k = none ↔ k ∉ l.map Prod.fst := by
  induction l with
  | nil => simp
  | cons a l ih =>
    obtain ⟨x, y⟩ := a
    rw [List.lookup_cons]
    by_cases h : k = x
    · subst h; simp
    · rw [beq_false_of_ne h]
      simp [ih, h]

theorem adds_pre : IsPre Adds where
  refl s := ⟨[], by simp, by simp, by simp⟩
  trans := by
    rintro a b c ⟨m, h1, h2, h3⟩ ⟨m', h4, h5, h6⟩
    rw [h1] at h6
    simp only [List.map_append, List.map_map, List.mem_append, not_or] at h6
    refine ⟨m ++ m', ?_, ?_, ?_⟩
    · rw [h4, h1]; simp
    · rw [List.nodup_append]
      refine ⟨h2, h5, fun x hx y hy e => ?_⟩
      subst e
      exact (h6 x hy).2 (List.mem_map.2 ⟨x, hx, rfl⟩)
    · intro x hx
      rcases List.mem_append.1 hx with hx | hx
      · exact h3 x hx
      · exact (h6 x hx).1

theorem setData_adds (serial data : String) : Preserves Adds (setData serial data) := by
  intro s
  unfold setData
  split
  · exact adds_pre.refl s
  · by_cases h : (s.store.secs.lookup serial).isSome = true
    · exact ⟨[], by simp [h], by simp, by simp⟩
    · refine ⟨[serial], by simp [h], by simp, ?_⟩
      intro x hx
      rw [List.mem_singleton.1 hx]
      cases hl : s.store.secs.lookup serial with
      | none => exact lookup_none_mem.1 hl
      | some r => rw [hl] at h; exact absurd rfl h

theorem contact_adds (net : Net) (ip : String) (port : Nat) : Preserves Adds (contact net ip port) := by
  intro s
  exact ⟨[], by simp [contact], by simp, by simp⟩

theorem connectKnown_adds (env : Env) (net : Net) (ip : String) (port : Nat) (k : Known) : Preserves Adds (connectKnown env net ip port k) :=
  (contact_adds net ip port).bind adds_pre (fun _ => Preserves.orThrow adds_pre)

theorem connectNew_adds (env : Env) (net : Net) (ip : String) (port : Nat) : Preserves Adds (connectNew env net ip port) := by
  refine (contact_adds net ip port).bind adds_pre (fun c => (Preserves.lift adds_pre).bind adds_pre (fun o => ?_))
  cases o with
  | none => exact Preserves.pure adds_pre
  | some x => exact (setData_adds _ _).bind adds_pre (fun _ => Preserves.pure adds_pre)

theorem connectOne_adds (env : Env) (net : Net) (known : List Known) (single : Bool) (ip : String) (port : Nat) :
    Preserves Adds (connectOne env net known single ip port) := by
  refine (Preserves.lift adds_pre).bind adds_pre (fun o => ?_)
  cases o with
  | some k => exact (connectKnown_adds env net ip port k).bind adds_pre (fun _ => Preserves.pure adds_pre)
  | none =>
    dsimp only
    split
    · exact (setData_adds _ _).bind adds_pre (fun _ => (connectKnown_adds env net ip port _).bind adds_pre (fun _ => Preserves.pure adds_pre))
    · exact connectNew_adds env net ip port

theorem connectAll_adds (env : Env) (net : Net) (known : List Known) (single : Bool) : ∀ l, Preserves Adds (connectAll env net known single l)
  | [] => Preserves.pure adds_pre
  | a :: l => by
    refine (connectOne_adds env net known single a.1 a.2).bind adds_pre (fun o => (connectAll_adds env net known single l).bind adds_pre (fun r => ?_))
    cases o <;> exact Preserves.pure adds_pre

theorem wait_adds (env : Env) : ∀ (es : List Event) (w : List String), Preserves Adds (wait env w es)
  | [], [] => Preserves.pure adds_pre
  | [], _ :: _ => Preserves.throw adds_pre
  | _ :: _, [] => Preserves.pure adds_pre
  | .failure :: _, _ :: _ => Preserves.throw adds_pre
  | .connection ip port c :: es, y :: w => by
    unfold wait
    refine (Preserves.catchStd adds_pre ?_ (fun _ => Preserves.pure adds_pre)).bind adds_pre (fun l => (wait_adds env es _).bind adds_pre (fun _ => Preserves.pure adds_pre))
    exact (Preserves.lift adds_pre).bind adds_pre (fun _ => (setData_adds _ _).bind adds_pre (fun _ => Preserves.pure adds_pre))

/-- **C65** Whatever happens while connecting, what provisioning recorded stays as it is: every row about a
Secondary is there once and unchanged, and of the rest of the storage nothing changes. -/
theorem C65_kept (env : Env) (net : Net) (es : List Event) (cfg : Option (List (String × Nat))) (virt : List (String × Prov.Secondary)) (s : St) :
    ∃ more : List String, (initSecondaries env net es cfg virt s).2.store =
        { s.store with secs := s.store.secs ++ more.map (fun x => (x, {})) } ∧
      ((s.store.secs.map Prod.fst).Nodup → ((s.store.secs ++ more.map (fun x => (x, ({} : Prov.SecRow)))).map Prod.fst).Nodup) := by
  have : Preserves Adds (initSecondaries env net es cfg virt) := by
    unfold initSecondaries
    refine Preserves.bind adds_pre ?_ (fun l => (Preserves.lift adds_pre).bind adds_pre (fun _ => Preserves.lift adds_pre))
    cases cfg with
    | none => exact Preserves.pure adds_pre
    | some cfg =>
      refine (Preserves.gets adds_pre).bind adds_pre (fun _ => (Preserves.lift adds_pre).bind adds_pre (fun _ => (connectAll_adds _ _ _ _ _).bind adds_pre (fun _ =>
        (wait_adds _ _ _).bind adds_pre (fun _ => Preserves.pure adds_pre))))
  obtain ⟨more, h1, h2, h3⟩ := this s
  refine ⟨more, h1, fun hn => ?_⟩
  rw [List.map_append, List.map_map, List.nodup_append]
  refine ⟨hn, by simpa [Function.comp_def] using h2, fun x hx y hy e => ?_⟩
  subst e
  obtain ⟨z, hz, rfl⟩ := List.mem_map.1 hy
  exact h3 _ hz hx

end Connect
end Aktualizr
