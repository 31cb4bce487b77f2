import Verif.Model.Uboot

/-!
# C89: rolling back with U-Boot
-/

namespace Aktualizr

open Uboot

namespace Spec

/-- `fw_setenv` does not fail, but the process may die between two calls (and then installs nothing). -/
def BootOrderly : Event → Prop
  | .boot _ k => ∀ i, k (i + 1) = true → k i = true
  | .restart k => ∀ i, k (i + 1) = true → k i = true
  | .install _ deploys k => (∀ i, k (i + 1) = true → k i = true) ∧ (deploys = true → ∀ i, k i = true)

/-- No image is installed. -/
def BootsOnly : Event → Prop
  | .install .. => False
  | _ => True

/-- A device as it leaves the factory: it runs, and both images work. -/
def Healthy (c : Cfg) (d : Dev) : Prop :=
  d.vars = {} ∧ c.works d.main = true ∧ c.works d.alt = true ∧ d.running = some (d.main, true)

/-- A switch on that is not interrupted. -/
def On : Event := .boot false (fun _ => true)

end Spec

/-- What holds at all times. -/
structure BootInv (c : Cfg) (d : Dev) : Prop where
  alt : c.works d.alt = true
  way : c.works d.main = true ∨ c.mode = .generic ∨ d.vars.upgradeAvailable = true ∨ d.vars.rollback = true
  runs : ∀ x, d.running = some x → c.works x.1 = true
  first : ∀ i, d.running = some (i, true) → i = d.main
  fresh : ∀ i, d.running = some (i, true) → d.vars.rollback = false

theorem ok_rollback {m : Mode} {k : Calls} {v : Vars} : (setBootOK m k v).rollback = v.rollback := by
  unfold setBootOK setenv
  cases m <;> cases k 0 <;> cases k 1 <;> rfl

theorem notify_rollback {m : Mode} {k : Calls} {v : Vars} (h : v.rollback = false) : (updateNotify m k v).rollback = false := by
  unfold updateNotify setenv
  cases m <;> cases k 0 <;> cases k 1 <;> cases k 2 <;> simp [h]

theorem start_inv {c : Cfg} {k : Calls} {d : Dev} (h : BootInv c d) : BootInv c (start c k d) := by
  unfold start
  split
  · rename_i i hr
    have hm : c.works d.main = true := by rw [← h.first i hr]; exact h.runs _ hr
    exact ⟨h.alt, .inl hm, h.runs, h.first, fun j hj => ok_rollback.trans (h.fresh j hj)⟩
  · exact h

theorem uboot_cases {c : Cfg} {v : Vars} (hm : c.mode ≠ .none) :
    (v.rollback = true ∧ uboot c v = (false, v)) ∨
    (v.rollback = false ∧ ∃ n, (n = if c.mode = .generic || v.upgradeAvailable then v.bootcount + 1 else v.bootcount) ∧
      ((c.limit < n ∧ uboot c v = (false, ⟨n, false, true⟩)) ∨ (n ≤ c.limit ∧ uboot c v = (true, ⟨n, v.upgradeAvailable, false⟩)))) := by
  obtain ⟨b, u, r⟩ := v
  cases r with
  | true =>
    left
    unfold uboot
    cases hc : c.mode <;> simp_all
  | false =>
    right
    refine ⟨rfl, _, rfl, ?_⟩
    unfold uboot
    cases hc : c.mode with
    | none => exact absurd hc hm
    | generic =>
      by_cases hl : c.limit < b + 1
      · left; simp [hl]
      · right; simp [hl]; omega
    | masked =>
      cases u with
      | true =>
        by_cases hl : c.limit < b + 1
        · left; simp [hl]
        · right; simp [hl]; omega
      | false =>
        by_cases hl : c.limit < b
        · left; simp [hl]
        · right; simp [hl]; omega

theorem boot_eq {c : Cfg} {i : Bool} {k : Calls} {d : Dev} : boot c i k d =
    if i || !c.works (if (uboot c d.vars).1 then d.main else d.alt) then { d with vars := (uboot c d.vars).2, running := none }
    else start c k { d with
      vars := (uboot c d.vars).2, running := some (if (uboot c d.vars).1 then d.main else d.alt, (uboot c d.vars).1) } := rfl

theorem boot_inv {c : Cfg} {i : Bool} {k : Calls} {d : Dev} (hm : c.mode ≠ .none) (h : BootInv c d) : BootInv c (boot c i k d) := by
  have hv : c.works d.main = true ∨ c.mode = .generic ∨ (uboot c d.vars).2.upgradeAvailable = true ∨ (uboot c d.vars).2.rollback = true := by
    rcases uboot_cases (v := d.vars) hm with ⟨h1, h2⟩ | ⟨h1, n, h2, ⟨h3, h4⟩ | ⟨h3, h4⟩⟩
    · rw [h2]; exact h.way
    · rw [h4]; exact .inr (.inr (.inr rfl))
    · rw [h4]
      rcases h.way with h | h | h | h
      · exact .inl h
      · exact .inr (.inl h)
      · exact .inr (.inr (.inl h))
      · rw [h1] at h; cases h
  have hb : (uboot c d.vars).1 = true → (uboot c d.vars).2.rollback = false := by
    rcases uboot_cases (v := d.vars) hm with ⟨h1, h2⟩ | ⟨h1, n, h2, ⟨h3, h4⟩ | ⟨h3, h4⟩⟩
    · rw [h2]; exact nofun
    · rw [h4]; exact nofun
    · rw [h4]; exact fun _ => rfl
  rw [boot_eq]
  revert hv hb
  cases uboot c d.vars with
  | mk b v =>
    intro hv hb
    dsimp only at hv hb ⊢
    generalize hg : (if b = true then d.main else d.alt) = image
    by_cases hw : (i || !c.works image) = true
    · rw [if_pos hw]
      exact ⟨h.alt, hv, nofun, nofun, nofun⟩
    · rw [if_neg hw]
      apply start_inv
      refine ⟨h.alt, hv, ?_, ?_, ?_⟩
      · intro x hx
        cases hx
        revert hw
        cases i <;> simp
      · intro j hj
        cases hj
        exact hg.symm
      · intro j hj
        cases hj
        exact hb rfl

theorem notify_up {k : Calls} {v : Vars} (h : k 1 = true) : (updateNotify .masked k v).upgradeAvailable = true := by
  unfold updateNotify setenv
  rw [h]
  cases k 0 <;> cases k 2 <;> rfl

theorem notify_keeps {k : Calls} {v : Vars} (h : k 2 = false) :
    (v.upgradeAvailable = true → (updateNotify .masked k v).upgradeAvailable = true) ∧
    (v.rollback = true → (updateNotify .masked k v).rollback = true) := by
  unfold updateNotify setenv
  rw [h]
  cases k 0 <;> cases k 1 <;> simp

theorem install_deployed {c : Cfg} {image now : Nat} {f : Bool} {k : Calls} {d : Dev} (h : d.running = some (now, f)) :
    install c image true k d = { vars := updateNotify c.mode k d.vars, main := image, alt := now, running := some (now, false) } := by
  unfold install
  rw [h]
  rfl

theorem install_failed {c : Cfg} {image now : Nat} {f : Bool} {k : Calls} {d : Dev} (h : d.running = some (now, f)) :
    install c image false k d = { d with vars := updateNotify c.mode k d.vars } := by
  unfold install
  rw [h]
  rfl

theorem install_inv {c : Cfg} {image : Nat} {deploys : Bool} {k : Calls} {d : Dev} (hm : c.mode ≠ .none)
    (ho : Spec.BootOrderly (.install image deploys k)) (h : BootInv c d) : BootInv c (install c image deploys k d) := by
  obtain ⟨hk, hd⟩ := ho
  cases hr : d.running with
  | none => unfold install; rw [hr]; exact h
  | some x =>
    obtain ⟨now, f⟩ := x
    have hnow : c.works now = true := h.runs _ hr
    cases deploys with
    | true =>
      have h1 : k 1 = true := hd rfl 1
      rw [install_deployed hr]
      refine ⟨hnow, ?_, ?_, nofun, nofun⟩
      · right
        cases hc : c.mode with
        | none => exact absurd hc hm
        | generic => exact .inl rfl
        | masked =>
          right; left
          exact notify_up h1
      · intro x hx
        cases hx
        exact hnow
    | false =>
      rw [install_failed hr]
      refine ⟨h.alt, ?_, h.runs, h.first, fun i hi => notify_rollback (h.fresh i hi)⟩
      show _ ∨ _ ∨ (updateNotify c.mode k d.vars).upgradeAvailable = true ∨ (updateNotify c.mode k d.vars).rollback = true
      cases hc : c.mode with
      | none => exact absurd hc hm
      | generic => exact .inr (.inl rfl)
      | masked =>
        cases h2 : k 2 with
        | true => exact .inr (.inr (.inl (notify_up (hk 1 h2))))
        | false =>
          have := h.way
          rw [hc] at this
          rcases this with h | h | h | h
          · exact .inl h
          · cases h
          · exact .inr (.inr (.inl ((notify_keeps h2).1 h)))
          · exact .inr (.inr (.inr ((notify_keeps h2).2 h)))

theorem uboot_step_inv {c : Cfg} {d : Dev} {e : Event} (hm : c.mode ≠ .none) (ho : Spec.BootOrderly e) (h : BootInv c d) : BootInv c (step c d e) := by
  cases e with
  | boot i k => exact boot_inv hm h
  | restart k => exact start_inv h
  | install im de k => exact install_inv hm ho h

theorem uboot_run_inv {c : Cfg} (hm : c.mode ≠ .none) : ∀ {es : List Event} {d : Dev}, (∀ e ∈ es, Spec.BootOrderly e) → BootInv c d →
    BootInv c (run c d es) := by
  intro es
  induction es with
  | nil => intro d _ h; exact h
  | cons e es ih => intro d ho h; exact ih (fun x hx => ho x (by simp [hx])) (uboot_step_inv hm (ho e (by simp)) h)

theorem healthy_inv {c : Cfg} {d : Dev} (h : Spec.Healthy c d) : BootInv c d := by
  obtain ⟨h0, h1, h2, h3⟩ := h
  refine ⟨h2, .inl h1, ?_, ?_, fun _ _ => by rw [h0]⟩
  · intro x hx; rw [h3] at hx; cases hx; exact h1
  · intro i hi; rw [h3] at hi; cases hi; rfl

theorem start_running {c : Cfg} {k : Calls} {d : Dev} : (start c k d).running = d.running := by
  unfold start
  split <;> rfl

/-- Being switched on once. -/
theorem on_cases {c : Cfg} {k : Calls} {d : Dev} (hm : c.mode ≠ .none) (h : BootInv c d) :
    (boot c false k d).running.isSome = true ∨
      ((boot c false k d).vars.bootcount = d.vars.bootcount + 1 ∧ d.vars.bootcount + 1 ≤ c.limit) := by
  rw [boot_eq]
  rcases uboot_cases (v := d.vars) hm with ⟨h1, h2⟩ | ⟨h1, n, h2, ⟨h3, h4⟩ | ⟨h3, h4⟩⟩
  · left; rw [h2]; simp [h.alt, start_running]
  · left; rw [h4]; simp [h.alt, start_running]
  · rw [h4]
    cases hw : c.works d.main with
    | true => left; simp [hw, start_running]
    | false =>
      right
      have hc : (c.mode = .generic || d.vars.upgradeAvailable) = true := by
        rcases h.way with h | h | h | h
        · rw [hw] at h; cases h
        · simp [h]
        · simp [h]
        · rw [h1] at h; cases h
      simp only [hc, if_true] at h2
      simp [hw, h2]
      omega

/-- Being switched on again and again. -/
theorem comes_up {c : Cfg} (hm : c.mode ≠ .none) : ∀ (m : Nat) {d : Dev}, BootInv c d → c.limit - d.vars.bootcount ≤ m →
    ∃ n ≤ m + 1, (run c d (List.replicate n Spec.On)).running.isSome = true := by
  intro m
  induction m with
  | zero =>
    intro d h hb
    refine ⟨1, by omega, ?_⟩
    show (boot c false (fun _ => true) d).running.isSome = true
    rcases on_cases (k := fun _ => true) hm h with h | ⟨_, h⟩
    · exact h
    · omega
  | succ m ih =>
    intro d h hb
    rcases on_cases (k := fun _ => true) hm h with h1 | ⟨h1, h2⟩
    · exact ⟨1, by omega, h1⟩
    · obtain ⟨n, hn, hr⟩ := ih (d := boot c false (fun _ => true) d) (boot_inv hm h) (by omega)
      exact ⟨n + 1, by omega, hr⟩

/-- C89. Whatever happened: installations of images that do not work, also one after the other, failed and interrupted ones, boots that were
interrupted. The device runs again after being switched on at most `bootlimit + 1` times. -/
theorem C89_comes_up_partial {c : Cfg} {d : Dev} {es : List Event} (hm : c.mode ≠ .none) (hd : Spec.Healthy c d)
    (ho : ∀ e ∈ es, Spec.BootOrderly e) :
    ∃ n ≤ c.limit + 1, (run c (run c d es) (List.replicate n Spec.On)).running.isSome = true :=
  let ⟨n, h1, h2⟩ := comes_up hm c.limit (uboot_run_inv hm ho (healthy_inv hd)) (by omega)
  ⟨n, h1, h2⟩

/-- The main image runs and was confirmed: nothing is counted any more. -/
def BootSettled (d : Dev) : Prop := d.vars = {} ∧ (d.running = none ∨ d.running = some (d.main, true))

theorem settled_step {c : Cfg} {d : Dev} {e : Event} (hm : c.mode = .masked) (hn : Spec.BootsOnly e) (h : BootSettled d) :
    BootSettled (step c d e) ∧ (step c d e).main = d.main := by
  obtain ⟨hv, hr⟩ := h
  have hok : ∀ k : Calls, setBootOK .masked k {} = {} := by
    intro k
    unfold setBootOK setenv
    cases k 0 <;> cases k 1 <;> rfl
  have hs : ∀ (k : Calls) (x : Dev), x.vars = {} → (x.running = none ∨ x.running = some (x.main, true)) →
      BootSettled (start c k x) ∧ (start c k x).main = x.main := by
    intro k x hx hy
    unfold start
    split
    · exact ⟨⟨by rw [hm, hx]; exact hok k, hy⟩, rfl⟩
    · exact ⟨⟨hx, hy⟩, rfl⟩
  cases e with
  | install => exact absurd hn nofun
  | restart k => exact hs k d hv hr
  | boot i k =>
    have hu : uboot c d.vars = (true, {}) := by
      unfold uboot
      rw [hv, hm]
      simp
    show BootSettled (boot c i k d) ∧ (boot c i k d).main = d.main
    rw [boot_eq, hu]
    dsimp only
    simp only [if_true]
    split
    · exact ⟨⟨rfl, .inl rfl⟩, rfl⟩
    · exact hs k _ rfl (.inr rfl)

theorem settled_run {c : Cfg} (hm : c.mode = .masked) : ∀ {es : List Event} {d : Dev}, (∀ e ∈ es, Spec.BootsOnly e) → BootSettled d →
    BootSettled (run c d es) ∧ (run c d es).main = d.main := by
  intro es
  induction es with
  | nil => intro d _ h; exact ⟨h, rfl⟩
  | cons e es ih =>
    intro d hn h
    obtain ⟨h1, h2⟩ := settled_step hm (hn e (by simp)) h
    obtain ⟨h3, h4⟩ := ih (d := step c d e) (fun x hx => hn x (by simp [hx])) h1
    exact ⟨h3, h4.trans h2⟩

/-- C89. With `uboot_masked`, an image that was booted and confirmed is never rolled back, however many boots are interrupted afterwards and
whatever happened before: until the next installation, what runs is this image. -/
theorem C89_stays {c : Cfg} {d₀ : Dev} {before after : List Event} {x y : Nat × Bool} (hm : c.mode = .masked) (hd : Spec.Healthy c d₀)
    (ho : ∀ e ∈ before, Spec.BootOrderly e) (hr : (run c d₀ before).running = some x) (hon : x.2 = true)
    (hn : ∀ e ∈ after, Spec.BootsOnly e)
    (hy : (run c (run c d₀ before) (.restart (fun _ => true) :: after)).running = some y) : y = x := by
  have hi := uboot_run_inv (by rw [hm]; exact nofun) ho (healthy_inv hd)
  revert hr hy hi
  generalize run c d₀ before = d
  intro hr hy hi
  obtain ⟨i, f⟩ := x
  cases hon
  have hmain := hi.first i hr
  have hf := hi.fresh i hr
  have hs : BootSettled (start c (fun _ => true) d) ∧ (start c (fun _ => true) d).main = d.main := by
    unfold start
    rw [hr]
    refine ⟨⟨?_, .inr (by rw [hmain])⟩, rfl⟩
    rw [hm]
    show Vars.mk 0 false d.vars.rollback = {}
    rw [hf]
  obtain ⟨h1, h2⟩ := settled_run hm (d := start c (fun _ => true) d) hn hs.1
  have hy : (run c (start c (fun _ => true) d) after).running = some y := hy
  rcases h1.2 with h | h
  · rw [hy] at h; cases h
  · rw [hy, h2, hs.2] at h
    cases h
    rw [hmain]

/-- C89. Once the device was rolled back, it stays with the old image until the next installation. -/
theorem C89_rolled_back {c : Cfg} (hm : c.mode ≠ .none) : ∀ {es : List Event} {d : Dev}, d.vars.rollback = true →
    (d.running = none ∨ d.running = some (d.alt, false)) → (∀ e ∈ es, Spec.BootsOnly e) →
    (run c d es).vars = d.vars ∧ (run c d es).alt = d.alt ∧
      ((run c d es).running = none ∨ (run c d es).running = some (d.alt, false)) := by
  intro es
  induction es with
  | nil => intro d _ hr _; exact ⟨rfl, rfl, hr⟩
  | cons e es ih =>
    intro d hb hr hn
    have key : (step c d e).vars = d.vars ∧ (step c d e).alt = d.alt ∧
        ((step c d e).running = none ∨ (step c d e).running = some (d.alt, false)) := by
      cases e with
      | install => exact absurd (hn _ List.mem_cons_self) id
      | restart k =>
        show (start c k d).vars = _ ∧ _
        unfold step start
        rcases hr with hr | hr <;> rw [hr] <;> simp [hr]
      | boot i k =>
        have hu : uboot c d.vars = (false, d.vars) := by
          rcases uboot_cases (v := d.vars) hm with ⟨_, h⟩ | ⟨h, _⟩
          · exact h
          · rw [hb] at h; cases h
        show (boot c i k d).vars = _ ∧ (boot c i k d).alt = _ ∧ ((boot c i k d).running = _ ∨ (boot c i k d).running = _)
        rw [boot_eq, hu]
        simp only [Bool.false_eq_true, if_false]
        split
        · simp
        · simp [start]
    obtain ⟨h1, h2, h3⟩ := ih (d := step c d e) (by rw [key.1]; exact hb) (by rw [key.2.1]; exact key.2.2)
      (fun x hx => hn x (by simp [hx]))
    refine ⟨h1.trans key.1, h2.trans key.2.1, ?_⟩
    rw [key.2.1] at h3
    exact h3

/-- C89. A new image is tried: the first `bootlimit` boots after an installation go to it, and if it works and the first of them is not
interrupted, it runs and is confirmed. -/
theorem C89_tried {c : Cfg} {d : Dev} {image : Nat} (hm : c.mode ≠ .none) (hl : 1 ≤ c.limit) (hr : d.running.isSome = true)
    (hw : c.works image = true) :
    (run c d [.install image true (fun _ => true), Spec.On]).running = some (image, true) ∧
    (run c d [.install image true (fun _ => true), Spec.On]).vars.bootcount = 0 ∧
    (run c d [.install image true (fun _ => true), Spec.On]).vars.rollback = false ∧
    (c.mode = .masked → (run c d [.install image true (fun _ => true), Spec.On]).vars.upgradeAvailable = false) := by
  obtain ⟨⟨now, f⟩, hr⟩ := Option.isSome_iff_exists.1 hr
  show (boot c false _ (install c image true _ d)).running = _ ∧ _
  have hrun : run c d [.install image true (fun _ => true), Spec.On] = boot c false (fun _ => true) (install c image true (fun _ => true) d) := rfl
  rw [hrun, install_deployed hr, boot_eq]
  dsimp only
  have hu : ∃ n u, uboot c (updateNotify c.mode (fun _ => true) d.vars) = (true, ⟨n, u, false⟩) := by
    cases hc : c.mode with
    | none => exact absurd hc hm
    | generic =>
      refine ⟨1, d.vars.upgradeAvailable, ?_⟩
      have : ¬c.limit < 1 := by omega
      simp [uboot, hc, updateNotify, setenv, this]
    | masked =>
      refine ⟨1, true, ?_⟩
      have : ¬c.limit < 1 := by omega
      simp [uboot, hc, updateNotify, setenv, this]
  obtain ⟨n, u, hu⟩ := hu
  rw [hu]
  simp only [if_true, hw, Bool.not_true, Bool.or_self, Bool.false_eq_true, if_false, start]
  cases hc : c.mode with
  | none => exact absurd hc hm
  | generic => simp [setBootOK, setenv]
  | masked => simp [setBootOK, setenv]

/-- C89. An image is not rolled back before it was booted `bootlimit` times without being confirmed. -/
theorem C89_not_before {c : Cfg} {d : Dev} {image : Nat} (hm : c.mode = .masked) (hr : d.running.isSome = true)
    (hw : c.works image = false) : ∀ (n : Nat), n ≤ c.limit →
    run c d (.install image true (fun _ => true) :: List.replicate n Spec.On) =
      if n = 0 then install c image true (fun _ => true) d
      else { vars := ⟨n, true, false⟩, main := image, alt := (install c image true (fun _ => true) d).alt, running := none } := by
  obtain ⟨⟨now, f⟩, hr⟩ := Option.isSome_iff_exists.1 hr
  intro n
  induction n with
  | zero => intro _; rfl
  | succ n ih =>
    intro hn
    have hrun : run c d (.install image true (fun _ => true) :: List.replicate (n + 1) Spec.On) =
        step c (run c d (.install image true (fun _ => true) :: List.replicate n Spec.On)) Spec.On := by
      unfold run
      rw [List.replicate_succ', ← List.cons_append, List.foldl_append]
      rfl
    rw [hrun, ih (by omega), install_deployed hr, if_neg (by omega : n + 1 ≠ 0)]
    have hv : (updateNotify c.mode (fun _ => true) d.vars) = ⟨0, true, false⟩ := by
      rw [hm]; rfl
    rw [hv]
    have hu : uboot c ⟨n, true, false⟩ = (true, ⟨n + 1, true, false⟩) := by
      have : ¬c.limit < n + 1 := by omega
      simp [uboot, hm, this]
    show boot c false (fun _ => true) _ = _
    rw [boot_eq]
    by_cases h0 : n = 0
    · subst h0
      simp [hu, hw]
    · simp [h0, hu, hw]

/-! ## What goes wrong -/

/-- Images 1 and 2 work, 3 does not. -/
def ubCfg : Cfg := { mode := .masked, limit := 3, works := fun i => i ≠ 3 }

def ubDev : Dev := { main := 1, alt := 1, running := some (1, true) }

/-- C89, violated. If `fw_setenv` fails when the update is announced, which is only logged, the image is installed all the same; one that does not
work is then tried for ever. -/
theorem C89_not_announced (n : Nat) :
    (run ubCfg ubDev (.install 3 true (fun _ => false) :: List.replicate (n + 1) Spec.On)).running = none := by
  have key : ∀ n, run ubCfg { main := 3, alt := 1, running := none } (List.replicate n Spec.On) = { main := 3, alt := 1, running := none } := by
    intro n
    induction n with
    | zero => rfl
    | succ n ih =>
      show run ubCfg (step ubCfg { main := 3, alt := 1, running := none } Spec.On) (List.replicate n Spec.On) = _
      have : step ubCfg { main := 3, alt := 1, running := none } Spec.On = { main := 3, alt := 1, running := none } := by decide
      rw [this, ih]
  have h2 : step ubCfg (step ubCfg ubDev (.install 3 true (fun _ => false))) Spec.On = { main := 3, alt := 1, running := none } := by decide
  show (run ubCfg (step ubCfg (step ubCfg ubDev (.install 3 true (fun _ => false))) Spec.On) (List.replicate n Spec.On)).running = none
  rw [h2, key]

/-- C89, violated. If it fails when the boot is confirmed, which is only logged, an image that works is rolled back after enough boots, and
this is not found out from the variables. -/
theorem C89_not_confirmed :
    (run ubCfg ubDev (.install 2 true (fun _ => true) :: List.replicate 3 (.boot false (fun _ => false)))).running = some (2, true) ∧
    (run ubCfg ubDev (.install 2 true (fun _ => true) :: List.replicate 4 (.boot false (fun _ => false)))).running = some (1, false) := by
  decide

/-- C89, violated. A device that was rolled back tries the image that does not work again after an installation that failed. -/
theorem C89_tries_again :
    (run ubCfg ubDev (.install 3 true (fun _ => true) :: List.replicate 4 Spec.On)).running = some (1, false) ∧
    (run ubCfg ubDev ((.install 3 true (fun _ => true) :: List.replicate 4 Spec.On) ++ [.install 2 false (fun _ => true), Spec.On])).running = none := by
  decide

/-- C89, violated. With `uboot_generic` an image that was confirmed long ago is rolled back after some interrupted boots. -/
theorem C89_generic_interrupted :
    (run { ubCfg with mode := .generic } ubDev [.install 2 true (fun _ => true), Spec.On]).running = some (2, true) ∧
    (run { ubCfg with mode := .generic } ubDev ([.install 2 true (fun _ => true), Spec.On] ++
      List.replicate 3 (.boot true (fun _ => true)) ++ [Spec.On])).running = some (1, false) := by
  decide

/-! ## Cases -/

example : Spec.Healthy ubCfg ubDev := by
  refine ⟨?_, ?_, ?_, ?_⟩ <;> decide

/-- Two images that do not work, one after the other, and then one that does. -/
example :
    let es := (.install 3 true (fun _ => true) :: List.replicate 4 Spec.On)
    (run ubCfg ubDev (es ++ es)).running = some (1, false) ∧
    (run ubCfg ubDev (es ++ es ++ [.install 2 true (fun _ => true), .boot true (fun _ => true), Spec.On])).running = some (2, true) ∧
    (run ubCfg ubDev (es ++ es ++ [.install 2 true (fun _ => true), .boot true (fun _ => true), Spec.On])).vars = {} := by
  decide

/-- The process may die after the second variable. -/
example : Spec.BootOrderly (.install 3 false (fun i => i < 2)) ∧ Spec.BootOrderly (.install 3 true (fun _ => true)) ∧ Spec.BootOrderly Spec.On := by
  refine ⟨⟨fun i h => ?_, nofun⟩, ⟨fun _ _ => rfl, fun _ _ => rfl⟩, fun _ _ => rfl⟩
  have : i + 1 < 2 := of_decide_eq_true h
  exact decide_eq_true (by omega)

/-- A bad image, interrupted boots, and the device comes up at the `bootlimit + 1`-st attempt only. -/
example :
    (run ubCfg ubDev (.install 3 true (fun _ => true) :: List.replicate 3 Spec.On)).running = none ∧
    (run ubCfg ubDev (.install 3 true (fun _ => true) :: List.replicate 4 Spec.On)).running = some (1, false) ∧
    (run ubCfg ubDev (.install 3 true (fun _ => true) :: List.replicate 4 Spec.On)).vars.rollback = true := by
  decide

/-- An image that was confirmed, and boots that were interrupted. -/
example : (run ubCfg (run ubCfg ubDev [.install 2 true (fun _ => true), Spec.On])
    (.restart (fun _ => true) :: (List.replicate 9 (.boot true (fun _ => true)) ++ [Spec.On]))).running = some (2, true) := by
  decide

end Aktualizr
