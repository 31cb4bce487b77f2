import Verif.Props.C79True

/-! # C79: the whole program -/

namespace Aktualizr.Info

open M

section Truth

variable {a : Around} {o : Options} {N : Nat}

theorem registered_facts {d : Db} {b : Bool} (h : d.registered = b) :
    if b = true then ∃ i, d.device = some (i, true) else ∀ i, d.device ≠ some (i, true) := by
  unfold Db.registered at h
  cases hd : d.device with
  | none =>
    rw [hd] at h
    cases h
    simp
  | some p =>
    obtain ⟨i, r⟩ := p
    rw [hd] at h
    change r = b at h
    subst h
    cases r
    · simp
    · simp

theorem at_ite {b : Bool} {φ ψ : Db → Prop} (h : Spec.At a N (fun d => if b = true then φ d else ψ d)) :
    if b = true then Spec.At a N φ else Spec.At a N ψ := by
  cases b
  · simpa using h
  · simpa using h

theorem tells_inform {registered has : Bool} {root : String}
    (hr : registered = true → Spec.At a N (fun d => ∃ i, d.device = some (i, true)))
    (hh : has = true → Spec.At a N (fun d => Spec.Newest d .director .root root)) :
    Tells a o N (inform a o registered has root) (fun _ => True) := by
  unfold inform
  have lg := fun d t k r h => later_general a d t k r h
  have lc := later_credentials a o
  have lm := fun h r => later_metadataOptions a o h r
  refine Tells.bind Tells.read (fun _ => ?_) (fun device hd => ?_)
  · repeat' first | exact lg _ _ _ _ _ | exact lc | exact lm _ _ | exact later_read _ _ | exact later_readE _ _ | exact later_line _ | exact later_pure _ | refine Preserves.bind later_pre ?_ (fun _ => ?_) | refine later_ite ?_ ?_ | split
  split
  · rename_i i hi
    split at hi
    · rename_i hn
      subst hi
      refine Tells.line (.asked hn (At.imp hd (fun d h => ?_)))
      obtain ⟨p, hp, rfl⟩ := Option.map_eq_some_iff.1 h
      exact .name hp
    · cases hi
  refine Tells.bind (Q := fun b => if b = true then Spec.At a N (fun d => ∃ i, d.device = some (i, true)) else Spec.At a N (fun d => ∀ i, d.device ≠ some (i, true)))
    (Tells.ite (fun hc => Tells.pure (hr hc)) (fun _ => Tells.weaken Tells.read (fun b hb => at_ite (At.imp hb (fun d => registered_facts))))) (fun _ => ?_) (fun reg hreg => ?_)
  · repeat' first | exact lg _ _ _ _ _ | exact lc | exact lm _ _ | exact later_read _ _ | exact later_readE _ _ | exact later_line _ | exact later_pure _ | refine Preserves.bind later_pre ?_ (fun _ => ?_) | refine later_ite ?_ ?_ | split
  refine Tells.bind (Q := fun x => if has = true then x = none else Spec.At a N (fun d => d.doc .director .root = .ok x))
    (Tells.ite (fun hc => Tells.pure (if_pos hc ▸ rfl)) (fun hc => Tells.weaken Tells.readE (fun x hx => by rw [if_neg hc]; exact hx))) (fun _ => ?_) (fun found hf => ?_)
  · repeat' first | exact lg _ _ _ _ _ | exact lc | exact lm _ _ | exact later_read _ _ | exact later_readE _ _ | exact later_line _ | exact later_pure _ | refine Preserves.bind later_pre ?_ (fun _ => ?_) | refine later_ite ?_ ?_ | split
  have h1 : (has || found.isSome) = true → Spec.At a N (fun d => Spec.Newest d .director .root (found.getD root)) := by
    intro h
    cases has with
    | true =>
      rw [if_pos rfl] at hf
      rw [hf]
      exact hh rfl
    | false =>
      rw [if_neg (by simp)] at hf
      cases found with
      | none => cases h
      | some x => exact At.imp hf (fun d => doc_some)
  have h2 : (has || found.isSome) = false → Spec.At a N (fun d => Spec.NoDoc d .director .root) := by
    intro h
    cases has with
    | true => cases h
    | false =>
      rw [if_neg (by simp)] at hf
      cases found with
      | none => exact At.imp hf (fun d => doc_none)
      | some x => cases h
  refine Tells.bind tells_credentials (fun _ => ?_) (fun c hc => ?_)
  · repeat' first | exact lg _ _ _ _ _ | exact lc | exact lm _ _ | exact later_read _ _ | exact later_readE _ _ | exact later_line _ | exact later_pure _ | refine Preserves.bind later_pre ?_ (fun _ => ?_) | refine later_ite ?_ ?_ | split
  refine Tells.ite (fun hp => ?_) (fun _ => ?_)
  · refine Tells.bind Tells.read (fun _ => later_line _) (fun x hx => Tells.line ?_)
    exact says_option (f := fun d => d.keys) (g := (·.1)) hp (fun d p h => .pub (y := p.2) (by simp) h) (fun d h => .keys (by simp) h) hx
  refine Tells.bind (Q := fun _ => True) (Tells.ite (fun hp => ?_) (fun _ => Tells.pure trivial)) (fun _ => ?_) (fun _ _ => ?_)
  · refine Tells.bind Tells.read (fun _ => by later) (fun x hx => Tells.bind (Tells.line ?_) (fun _ => by later) (fun _ _ => Tells.pure trivial))
    exact says_option (f := fun d => d.keys) (g := (·.2)) hp (fun d p h => .priv (x := p.1) (by simp) h) (fun d h => .keys (by simp) h) hx
  · repeat' first | exact lg _ _ _ _ _ | exact lc | exact lm _ _ | exact later_read _ _ | exact later_readE _ _ | exact later_line _ | exact later_pure _ | refine Preserves.bind later_pre ?_ (fun _ => ?_) | refine later_ite ?_ ?_ | split
  refine Tells.bind (tells_metadataOptions h1 h2) (fun _ => ?_) (fun _ _ => ?_)
  · repeat' first | exact lg _ _ _ _ _ | exact lc | exact lm _ _ | exact later_read _ _ | exact later_readE _ _ | exact later_line _ | exact later_pure _ | refine Preserves.bind later_pre ?_ (fun _ => ?_) | refine later_ite ?_ ?_ | split
  exact Tells.ite (fun _ => Tells.pure trivial) (fun _ => tells_general hd hc hreg h1 h2)

/-- What the results of waiting mean. -/
def Seen (a : Around) (N : Nat) (v : Bool × Bool × String) : Prop :=
  (v.1 = true → Spec.At a N (fun d => ∃ i, d.device = some (i, true))) ∧
  (v.2.1 = true → Spec.At a N (fun d => Spec.Newest d .director .root v.2.2))

theorem tells_wait : ∀ (n : Nat) (r m : Bool) (root : String), Seen a N (r, m, root) →
    Tells a o N (wait a n r m root) (fun v => Seen a N v ∧ v.1 = true ∧ v.2.1 = true)
  | 0, _, _, _, _ => fun s _ hg => ⟨hg, by intro v hv; cases hv⟩
  | n + 1, r, m, root, h => by
    unfold wait
    refine Tells.ite (fun hc => Tells.pure ⟨h, by simpa using hc⟩) (fun _ => ?_)
    refine Tells.bind (Q := fun _ => True) (fun s _ hg => ⟨hg, fun _ _ => trivial⟩) (fun ok => ?_) (fun ok _ => ?_)
    · refine later_ite ?_ (later_wait _ _ _ _ _)
      exact Preserves.bind later_pre (later_read _ _) (fun _ => Preserves.bind later_pre (later_readE _ _) (fun _ => later_wait _ _ _ _ _))
    refine Tells.ite (fun _ => ?_) (fun _ => tells_wait n r m root h)
    refine Tells.bind Tells.read (fun _ => Preserves.bind later_pre (later_readE _ _) (fun _ => later_wait _ _ _ _ _)) (fun r' hr => ?_)
    refine Tells.bind Tells.readE (fun _ => later_wait _ _ _ _ _) (fun d hd => tells_wait n r' d.isSome (d.getD root) ⟨fun hb => ?_, fun hb => ?_⟩)
    · exact At.imp hr (fun d h => by
        have := registered_facts h
        rw [if_pos hb] at this
        exact this)
    · cases d with
      | none => cases hb
      | some x => exact At.imp hd (fun d => doc_some)

theorem tells_main (n : Nat) : Tells a o N (main a o n) (fun _ => True) := by
  unfold main
  refine Tells.ite (fun _ => ?_) (fun _ => ?_)
  · exact Tells.bind (tells_wait n false false "" ⟨by simp, by simp⟩) (fun _ => later_inform _ _ _ _ _) (fun v hv => tells_inform hv.1.1 hv.1.2)
  · refine Tells.bind (Q := fun _ => True) (fun s _ hg => ⟨?_, fun _ _ => trivial⟩) (fun _ => later_inform _ _ _ _ _) (fun _ _ => tells_inform (by simp) (by simp))
    unfold openStorage
    split <;> exact hg

end Truth

/-- C79. Everything aktualizr-info prints, with whatever options, however it ends and however the database changes meanwhile, is
true of the database at a moment during its run. -/
theorem C79_true (a : Around) (o : Options) (attempts : Nat) :
    ∀ p ∈ (main a o attempts {}).2.out, Spec.Says a o (main a o attempts {}).2.tick p :=
  (tells_main attempts {} (Nat.le_refl _) (by intro p hp; cases hp)).1

end Aktualizr.Info
