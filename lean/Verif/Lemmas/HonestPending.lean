import Verif.Lemmas.HonestReboot
import Verif.Props.C75

/-! Installations that some ECUs complete later: forward execution. -/

namespace Aktualizr

open M Spec

namespace Spec

/-- Each ECU installs what it is told to; those in `later` answer that the installation is completed
later, the others that it is done. -/
structure Reacts (p : Peers) (primary : String) (later : String → Bool) : Prop where
  primaryLater : later primary = true → ∀ n t, AsksReboot (p.install n t)
  primaryNow : later primary = false → ∀ n t, Installed (p.install n t)
  secLater : ∀ s, later s = true → ∀ n t, AsksReboot (p.secInstall n s t)
  secNow : ∀ s, later s = false → ∀ n t, Installed (p.secInstall n s t)

/-- The manifest names `h` as the SHA-256 hash of the installed image. -/
def NamesHash (j : Json) (h : String) : Prop :=
  ∃ x, At j ["signed", "installed_image", "fileinfo", "hashes", "sha256"] x ∧ x.asString = .ok h

/-- The Secondary answers with a manifest that it has signed and that names the image of `t`. -/
def ShowsImage (env : Env) (p : Peers) (s : String) (t : Target) : Prop :=
  ∃ j k h, AnswersWith p s j k ∧ SignedBy env j k ∧ NamesHash j h ∧ upper h = upper t.sha256Hash

/-- No manifest the Secondary answers with names the image of `t`. -/
def ShowsOther (p : Peers) (s : String) (t : Target) : Prop :=
  ∀ n j h, p.secManifest n s = .ok j → NamesHash j h → upper h ≠ upper t.sha256Hash

end Spec

/-- The answer of the ECU `s`. -/
def AnswerOf (later : String → Bool) (s : String) (r : InstResult) : Prop :=
  (later s = true → ∃ desc, r = ⟨false, .needCompletion, desc⟩) ∧ (later s = false → ∃ desc, r = ⟨true, .ok, desc⟩)

section Mixed

variable {c : Ctx} {p : Peers} {P : VersionRow → Prop} {K : Client} {L : List Action} {ts : Targets} {wait done : List (String × Target)} {acts : List Action} {d : Dev}
  {dLast iLast : Root} {us : List Target} {later : String → Bool}

theorem sendFirmware_mixed {serial : String} {t : Target} (hp : Obliges c p dLast iLast) (hr : Reacts p K.primary later) (h : Progress P K L ts wait done acts d) :
    WillAt 2 d (sendFirmware p serial t) (fun r d' => AnswerOf later serial r ∧ Progress P K L ts wait done (.secInstall serial t :: acts) d') := by
  unfold sendFirmware
  refine (WillAt.bind (n := 1) (k := 1) (h.act _) (fun _ d1 h1 => WillAt.askBind ?_))
  obtain ⟨r, hr1, hr2⟩ := hp.sendFirmware d1.n serial t
  refine WillAt.liftBind (a := r) (by rw [hr1]; rfl) ?_
  simp only [hr1, hr2, Except.toOption, Option.isSome_some, and_self, if_true]
  refine (WillAt.bind (n := 1) (k := 0) (h1.asked.act _) (fun _ d2 h2 => WillAt.askBind ?_))
  have h3 := (h2.asked (n := d2.n + 1)).forget (acts' := .secInstall serial t :: acts) (by
    intro a ha
    rcases List.mem_cons.1 ha with rfl | ha
    · simp
    · simp [ha])
  cases hl : later serial with
  | true =>
    obtain ⟨desc, he⟩ := hr.secLater serial hl d2.n t
    exact WillAt.lift (a := ⟨false, .needCompletion, desc⟩) (by rw [he]; rfl) ⟨⟨fun _ => ⟨_, rfl⟩, fun h => by rw [hl] at h; cases h⟩, h3⟩
  | false =>
    obtain ⟨desc, he⟩ := hr.secNow serial hl d2.n t
    exact WillAt.lift (a := ⟨true, .ok, desc⟩) (by rw [he]; rfl) ⟨⟨(fun h => by rw [hl] at h; cases h), fun _ => ⟨_, rfl⟩⟩, h3⟩

theorem sendAll_mixed (hp : Obliges c p dLast iLast) (hr : Reacts p K.primary later) : ∀ (l : List (Target × String × String)) {d : Dev} {acts : List Action},
    (∀ x ∈ l, x.2.1 = K.primary ∨ ∃ s ∈ K.secondaries, s.1 = x.2.1) → Progress P K L ts wait done acts d →
    WillAt (2 * l.length) d (sendAll p l) (fun r d' => r.map (fun y => (y.1, y.2.1)) = forSecondaries K.primary l ∧
      (∀ y ∈ r, AnswerOf later y.2.1 y.2.2) ∧
      Progress P K L ts wait done ((forSecondaries K.primary l).map (fun y => .secInstall y.2 y.1) ++ acts) d')
  | [], d, acts, _, h => WillAt.pure ⟨rfl, by simp, h⟩
  | (t, serial, hw) :: l, d, acts, hk, h => by
    have e : 2 * ((t, serial, hw) :: l).length = 2 + 2 * l.length := by simp; omega
    rw [e]
    have hk' := fun x hx => hk x (List.mem_cons_of_mem _ hx)
    unfold sendAll
    refine WillAt.gets ?_
    simp only [id, h.primary, h.secs]
    by_cases hpr : serial = K.primary
    · have hl : forSecondaries K.primary ((t, serial, hw) :: l) = forSecondaries K.primary l := by
        simp [forSecondaries, hpr]
      rw [if_pos hpr, hl]
      exact (sendAll_mixed hp hr l hk' h).more (by omega)
    · have hl : forSecondaries K.primary ((t, serial, hw) :: l) = (t, serial) :: forSecondaries K.primary l := by
        simp [forSecondaries, hpr]
      have ha : K.secondaries.any (fun s => s.1 == serial) = true := by
        rcases hk (t, serial, hw) (by simp) with h1 | ⟨s, h1, h2⟩
        · exact absurd h1 hpr
        · exact List.any_eq_true.2 ⟨s, h1, by simp [h2]⟩
      rw [if_neg hpr, hl]
      simp only [ha, if_true]
      refine WillAt.bind (sendFirmware_mixed hp hr h) ?_
      rintro r d1 ⟨hr', h1⟩
      refine WillAt.bind (n := 2 * l.length) (k := 0) (sendAll_mixed hp hr l hk' h1) ?_
      rintro l' d2 ⟨h2, h3, h4⟩
      refine WillAt.pure ⟨by simp [h2], ?_, h4.forget ?_⟩
      · intro y hy
        rcases List.mem_cons.1 hy with rfl | hy
        · exact hr'
        · exact h3 y hy
      · intro a ha
        simp only [List.map_cons, List.cons_append, List.mem_cons, List.mem_append] at ha ⊢
        rcases ha with ha | ha | ha
        · exact .inr (.inl ha)
        · exact .inl ha
        · exact .inr (.inr ha)

theorem recordAll_mixed {env : Env} : ∀ (l : List (Target × String × InstResult)) {d : Dev} {wait done : List (String × Target)},
    (∀ y ∈ l, AnswerOf later y.2.1 y.2.2) → (∀ y ∈ l, y.2.1 ≠ "" ∧ y.2.1 ∉ (wait ++ done).map Prod.fst) →
    (∀ y ∈ l, ∀ cid, RowSafe env P { y.1 with correlationId := cid }) → (l.map (fun y => y.2.1)).Nodup →
    Progress P K L ts wait done acts d →
    WillAt (2 * l.length) d (recordAllResults env l) (fun _ d' => ∃ wait' done', Progress P K L ts wait' done' acts d' ∧
      (∀ x, x ∈ wait' ↔ x ∈ wait ∨ ∃ y ∈ l, later y.2.1 = true ∧ x = (y.2.1, { y.1 with correlationId := ts.correlationId })) ∧
      ∀ x, x ∈ done' ↔ x ∈ done ∨ ∃ y ∈ l, later y.2.1 = false ∧ x = (y.2.1, y.1))
  | [], d, wait, done, _, _, _, _, h => WillAt.pure ⟨wait, done, h, by simp, by simp⟩
  | (t, serial, r) :: l, d, wait, done, hr, hd, hk, hn, h => by
    have e : 2 * ((t, serial, r) :: l).length = 2 + 2 * l.length := by simp; omega
    rw [e]
    obtain ⟨hne, hnew⟩ := hd (t, serial, _) (List.mem_cons_self ..)
    rw [List.map_cons, List.nodup_cons] at hn
    have hrest : ∀ y ∈ l, y.2.1 ≠ serial := fun y hy he => hn.1 (List.mem_map.2 ⟨y, hy, he⟩)
    obtain ⟨hr1, hr2⟩ := hr (t, serial, r) (by simp)
    have hcons : ∀ d, recordAllResults env ((t, serial, r) :: l) d = (do
      let nc ← lift r.needCompletion
      let d ← gets id
      let t' : Target := if r.success ∨ nc then { t with correlationId := d.cl.w.dir.targets.correlationId } else t
      if r.success ∨ nc then saveVersion env serial t' (if r.success then .current else .pending)
      else pure ()
      inClient (saveEcuResult serial r)
      let l ← recordAllResults env l
      pure (⟨t', serial, r⟩ :: l) : D _) d := fun _ => rfl
    intro hfuel
    rw [hcons]
    revert hfuel
    show WillAt (2 + 2 * l.length) d _ _
    cases hl : later serial with
    | true =>
      obtain ⟨desc, rfl⟩ := hr1 hl
      refine WillAt.liftBind (a := true) (by show ResultCode.needCompletion.same .needCompletion = _; decide +kernel) (WillAt.gets ?_)
      simp only [id, h.dir, or_true, if_true, Bool.false_eq_true, if_false]
      intro hfuel
      obtain ⟨_, d2, h1, h2, h3⟩ := h.pended env hne hnew (hk (t, serial, _) (List.mem_cons_self ..) ts.correlationId) desc (by omega)
      rw [bind_ok] at h1
      obtain ⟨_, d1, h4, h5⟩ := h1
      rw [run_bind h4, run_bind h5]
      obtain ⟨out, d3, h6, ⟨w', dn, h7, h8, h9⟩, h10⟩ := recordAll_mixed l (d := d2) (fun y hy => hr y (by simp [hy])) (fun y hy => by
        obtain ⟨a, b⟩ := hd y (by simp [hy])
        refine ⟨a, ?_⟩
        simp only [List.cons_append, List.map_cons, List.mem_cons, not_or]
        exact ⟨hrest y hy, b⟩) (fun y hy => hk y (by simp [hy])) hn.2 h2 (by omega)
      rw [run_bind h6]
      refine ⟨_, d3, rfl, ⟨w', dn, h7, ?_, ?_⟩, by omega⟩
      · intro x
        rw [h8]
        simp only [List.mem_cons, exists_eq_or_imp, hl]
        constructor
        · rintro ((h | h) | h)
          · exact .inr (.inl ⟨trivial, h⟩)
          · exact .inl h
          · exact .inr (.inr h)
        · rintro (h | ⟨-, h⟩ | h)
          · exact .inl (.inr h)
          · exact .inl (.inl h)
          · exact .inr h
      · intro x
        rw [h9]
        simp [hl]
    | false =>
      obtain ⟨desc, rfl⟩ := hr2 hl
      refine WillAt.liftBind (a := false) rfl (WillAt.gets ?_)
      simp only [id, h.dir, true_or, if_true]
      refine (WillAt.bind (n := 1) (k := 1 + 2 * l.length) (h.saved env hne hnew (by decide) (hk (t, serial, _) (List.mem_cons_self ..) _)) ?_).more (by omega)
      rintro _ d1 ⟨h1, hc⟩
      refine (WillAt.bind (n := 1) (k := 2 * l.length) (h1.finished (e := serial) (t := t) (hc rfl) desc) (fun _ d2 h2 => ?_))
      refine (WillAt.bind (n := 2 * l.length) (k := 0) (recordAll_mixed l (fun y hy => hr y (by simp [hy])) ?_ (fun y hy => hk y (by simp [hy])) hn.2 h2) ?_)
      · intro y hy
        obtain ⟨a, b⟩ := hd y (by simp [hy])
        refine ⟨a, ?_⟩
        simp only [List.map_append, List.map_cons, List.mem_append, List.mem_cons, not_or] at b ⊢
        exact ⟨b.1, hrest y hy, b.2⟩
      · rintro _ d3 ⟨w', dn, h7, h8, h9⟩
        refine WillAt.pure ⟨w', dn, h7, ?_, ?_⟩
        · intro x
          rw [h8]
          simp [hl]
        · intro x
          rw [h9]
          simp only [List.mem_cons, exists_eq_or_imp, hl]
          constructor
          · rintro ((h | h) | h)
            · exact .inr (.inl ⟨trivial, h⟩)
            · exact .inl h
            · exact .inr (.inr h)
          · rintro (h | ⟨-, h⟩ | h)
            · exact .inl (.inr h)
            · exact .inl (.inl h)
            · exact .inr h

/-- Those that complete later wait, the others are done. -/
def Split (later : String → Bool) (wait done : List (String × Target)) : Prop :=
  (∀ x ∈ wait, later x.1 = true) ∧ ∀ x ∈ done, later x.1 = false

theorem Split.apart (h : Split later wait done) : ∀ x ∈ wait, x.1 ∉ done.map Prod.fst := by
  intro x hx hm
  obtain ⟨y, hy, he⟩ := List.mem_map.1 hm
  have h1 := h.1 x hx
  have h2 := h.2 y hy
  rw [he, h1] at h2
  cases h2

/-- One target for each ECU, all under the Director's correlation id. -/
def OneId (ts : Targets) (wait : List (String × Target)) : Prop :=
  (∀ x ∈ wait, x.2.correlationId = ts.correlationId) ∧ ∀ x ∈ wait, ∀ y ∈ wait, x.1 = y.1 → x = y

theorem sendImages_mixed {env : Env} (hp : Obliges c p dLast iLast) (hr : Reacts p K.primary later) (hpl : Planned K us)
    (h : Progress P K L ts wait done acts d) (hk : ∀ t ∈ us, ∀ cid, RowSafe env P { t with correlationId := cid }) (hsp : Split later wait done)
    (hids : OneId ts wait)
    (hdone : ∀ x ∈ wait ++ done, x.1 = K.primary ∧ ∃ y ∈ assignments us, y.2.1 = x.1)
    (hcov : ∀ x ∈ assignments us, x.2.1 = K.primary → ((x.2.1, { x.1 with correlationId := ts.correlationId }) ∈ wait ∨ (x.2.1, x.1) ∈ done) ∧
      .install { x.1 with correlationId := ts.correlationId } ∈ acts) :
    WillAt (4 * (assignments us).length) d (sendImagesToEcus env p us) (fun _ d' => ∃ wait' done', AllDone P K L ts us wait' done' d' ∧
      Split later wait' done' ∧ OneId ts wait') := by
  have hknown : ∀ x ∈ assignments us, x.2.1 = K.primary ∨ ∃ s ∈ K.secondaries, s.1 = x.2.1 := by
    intro x hx
    rcases (hpl.ecu x hx).1 with ⟨h1, -, -⟩ | ⟨-, -, h1⟩
    · exact .inl h1
    · exact .inr ⟨_, lookup_mem h1, rfl⟩
  unfold sendImagesToEcus
  refine (WillAt.bind (n := 2 * (assignments us).length) (k := 2 * (assignments us).length) (sendAll_mixed hp hr _ hknown h) ?_).more (by omega)
  rintro l d2 ⟨h2, h3, h4⟩
  have hlen : l.length ≤ (assignments us).length := by
    have : l.length = (forSecondaries K.primary (assignments us)).length := by rw [← h2, List.length_map]
    rw [this]
    unfold forSecondaries
    rw [List.length_map]
    exact List.length_filter_le _ _
  have hl : ∀ y ∈ l, ∃ x ∈ assignments us, x.2.1 ≠ K.primary ∧ (y.1, y.2.1) = (x.1, x.2.1) := fun y hy =>
    mem_forSecondaries.1 (by rw [← h2]; exact List.mem_map.2 ⟨y, hy, rfl⟩)
  have hser : l.map (fun y => y.2.1) = (forSecondaries K.primary (assignments us)).map Prod.snd := by rw [← h2, List.map_map]; rfl
  refine (recordAll_mixed l h3 ?_ ?_ ?_ h4).weaken (by omega) ?_
  · intro y hy
    obtain ⟨x, hx, hne, he⟩ := hl y hy
    have hy' : y.2.1 = x.2.1 := congrArg Prod.snd he
    rw [hy']
    refine ⟨(hpl.ecu x hx).2.1, ?_⟩
    intro hm
    obtain ⟨z, hz, hze⟩ := List.mem_map.1 hm
    exact hne (hze ▸ (hdone z hz).1)
  · intro y hy cid
    obtain ⟨x, hx, -, he⟩ := hl y hy
    have hy' : y.1 = x.1 := congrArg Prod.fst he
    rw [hy']
    exact hk _ (mem_assignments.1 hx).1 cid
  · rw [hser]
    exact nodup_forSecondaries hpl.once
  · rintro _ d3 ⟨w', dn, h5, hw, hd⟩
    have hsp' : Split later w' dn := by
      constructor
      · intro x hx
        rcases (hw x).1 hx with h | ⟨y, -, h6, rfl⟩
        · exact hsp.1 x h
        · exact h6
      · intro x hx
        rcases (hd x).1 hx with h | ⟨y, -, h6, rfl⟩
        · exact hsp.2 x h
        · exact h6
    refine ⟨w', dn, ⟨⟨_, h5, ?_⟩, ?_, ?_, hsp'.apart⟩, hsp', ?_⟩
    · intro x hx
      refine ⟨fun hprm => List.mem_append.2 (.inr (hcov x hx hprm).2), fun hne => List.mem_append.2 (.inl ?_)⟩
      exact List.mem_map.2 ⟨(x.1, x.2.1), mem_forSecondaries.2 ⟨x, hx, hne, rfl⟩, rfl⟩
    · intro x hx
      by_cases hprm : x.2.1 = K.primary
      · rcases (hcov x hx hprm).1 with h | h
        · exact .inl ((hw _).2 (.inl h))
        · exact .inr ((hd _).2 (.inl h))
      · have : (x.1, x.2.1) ∈ l.map (fun y => (y.1, y.2.1)) := by rw [h2]; exact mem_forSecondaries.2 ⟨x, hx, hprm, rfl⟩
        obtain ⟨y, hy, he⟩ := List.mem_map.1 this
        rw [Prod.mk.injEq] at he
        rw [← he.1, ← he.2]
        cases hlt : later y.2.1 with
        | true => exact .inl ((hw _).2 (.inr ⟨y, hy, hlt, rfl⟩))
        | false => exact .inr ((hd _).2 (.inr ⟨y, hy, hlt, rfl⟩))
    · intro x hx
      rcases List.mem_append.1 hx with hx | hx
      · rcases (hw x).1 hx with h | ⟨y, hy, -, rfl⟩
        · exact (hdone x (List.mem_append.2 (.inl h))).2
        · obtain ⟨z, hz, _, he⟩ := hl y hy
          exact ⟨z, hz, (congrArg Prod.snd he).symm⟩
      · rcases (hd x).1 hx with h | ⟨y, hy, -, rfl⟩
        · exact (hdone x (List.mem_append.2 (.inr h))).2
        · obtain ⟨z, hz, _, he⟩ := hl y hy
          exact ⟨z, hz, (congrArg Prod.snd he).symm⟩
    · constructor
      · intro x hx
        rcases (hw x).1 hx with h | ⟨y, -, -, rfl⟩
        · exact hids.1 x h
        · rfl
      · have hnot : ∀ x ∈ wait, ∀ y ∈ l, x.1 ≠ y.2.1 := by
          intro x hx y hy he
          obtain ⟨z, _, hne, he'⟩ := hl y hy
          have h6 : y.2.1 = z.2.1 := congrArg Prod.snd he'
          exact hne (by rw [← h6, ← he]; exact (hdone x (List.mem_append.2 (.inl hx))).1)
        intro x hx y hy he
        rcases (hw x).1 hx with h | ⟨a, ha, -, rfl⟩ <;> rcases (hw y).1 hy with h' | ⟨b, hb, -, rfl⟩
        · exact hids.2 x h y h' he
        · exact absurd he (hnot x h b hb)
        · exact absurd he.symm (hnot y h' a ha)
        · have : a = b := nodup_map_inj (f := fun y => y.2.1) (by rw [hser]; exact nodup_forSecondaries hpl.once) ha hb he
          rw [this]

/-- All is installed, or waits: what is known after an installation. -/
def Left (P : VersionRow → Prop) (K : Client) (L : List Action) (ts : Targets) (us : List Target) (later : String → Bool)
    (wait done : List (String × Target)) (d : Dev) : Prop :=
  AllDone P K L ts us wait done d ∧ Split later wait done ∧ OneId ts wait

theorem installBoth_mixed {env : Env} (hp : Obliges c p dLast iLast) (hr : Reacts p K.primary later) (hpl : Planned K us)
    (h : Progress P K L ts [] [] acts d) (hk : ∀ t ∈ us, ∀ cid, RowSafe env P { t with correlationId := cid }) :
    WillAt (6 + 4 * (assignments us).length) d (do
      let first ← installPrimary env p us
      let others ← sendImagesToEcus env p us
      pure (first ++ others)) (fun _ d' => ∃ wait done, Left P K L ts us later wait done d') := by
  have hcost : 6 + 4 * (assignments us).length = 6 + (4 * (assignments us).length + 0) := by omega
  rw [hcost]
  have hrest : ∀ {d1 : Dev} {first : List EcuReport} {wait done : List (String × Target)} {acts : List Action}, Progress P K L ts wait done acts d1 → Split later wait done →
      OneId ts wait → (∀ x ∈ wait ++ done, x.1 = K.primary ∧ ∃ y ∈ assignments us, y.2.1 = x.1) →
      (∀ x ∈ assignments us, x.2.1 = K.primary → ((x.2.1, { x.1 with correlationId := ts.correlationId }) ∈ wait ∨ (x.2.1, x.1) ∈ done) ∧
        .install { x.1 with correlationId := ts.correlationId } ∈ acts) →
      WillAt (4 * (assignments us).length + 0) d1 (do
        let others ← sendImagesToEcus env p us
        pure (first ++ others)) (fun _ d' => ∃ wait done, Left P K L ts us later wait done d') := by
    intro d1 first wait done acts h1 h2 h3 h4 h5
    exact WillAt.bind (n := 4 * (assignments us).length) (k := 0) (sendImages_mixed hp hr hpl h1 hk h2 h3 h4 h5) (fun _ d2 h => WillAt.pure h)
  cases hf : us.find? (fun t => t.isForEcu K.primary) with
  | none =>
    refine WillAt.bind (n := 6) (Q := fun _ d1 => d1 = d) ?_ ?_
    · unfold installPrimary
      refine WillAt.gets ?_
      simp only [id, h.primary, hf]
      exact (WillAt.pure (Q := fun _ d1 => d1 = d) rfl).more (by omega)
    · rintro _ _ rfl
      refine hrest h ⟨by simp, by simp⟩ ⟨by simp, by simp⟩ (by simp) (fun x hx hprm => ?_)
      have := List.find?_eq_none.1 hf x.1 (mem_assignments.1 hx).1
      refine absurd ?_ this
      unfold Target.isForEcu
      exact List.any_eq_true.2 ⟨_, (mem_assignments.1 hx).2, by simp [hprm]⟩
  | some t =>
    obtain ⟨x0, hx0, h2, h3⟩ := primary_assigned (List.mem_of_find?_eq_some hf) (by simpa using List.find?_some hf)
    have he : K.primary ≠ "" := by rw [← h3]; exact (hpl.ecu x0 hx0).2.1
    have hx : ∀ x ∈ assignments us, x.2.1 = K.primary → x.1 = t := by
      intro x hx hprm
      have : x = x0 := nodup_map_inj hpl.once hx hx0 (by rw [hprm, h3])
      rw [this]
      exact h2
    cases hl : later K.primary with
    | true =>
      refine WillAt.bind (n := 6) ((installPrimary_waits (hr.primaryLater hl) h hf he hk).more (by omega)) ?_
      intro first d1 h1
      refine hrest h1 ⟨?_, by simp⟩ ?_ ?_ (fun x hx' hprm => ?_)
      · intro x hx
        rw [List.mem_singleton.1 hx]
        exact hl
      · exact ⟨fun x hx => by rw [List.mem_singleton.1 hx], fun x hx y hy _ => by rw [List.mem_singleton.1 hx, List.mem_singleton.1 hy]⟩
      · intro x hx
        rw [List.append_nil] at hx
        rw [List.mem_singleton.1 hx]
        exact ⟨rfl, x0, hx0, h3⟩
      · rw [hprm, hx x hx' hprm]
        exact ⟨.inl (by simp), by simp⟩
    | false =>
      refine WillAt.bind (n := 6) (installPrimary_will (hr.primaryNow hl) h (fun _ _ _ => he) hk) ?_
      intro first d1 h1
      rcases h1 with ⟨hf', -⟩ | ⟨t', hf', h1⟩
      · rw [hf] at hf'
        cases hf'
      · rw [hf] at hf'
        cases hf'
        refine hrest h1 ⟨by simp, ?_⟩ ⟨by simp, by simp⟩ ?_ (fun x hx' hprm => ?_)
        · intro x hx
          rw [List.mem_singleton.1 hx]
          exact hl
        · intro x hx
          rw [List.nil_append] at hx
          rw [List.mem_singleton.1 hx]
          exact ⟨rfl, x0, hx0, h3⟩
        · rw [hprm, hx x hx' hprm]
          exact ⟨.inr (by simp), by simp⟩

theorem Left.some (h : Left P K L ts us later wait done d) (hw : ∃ x ∈ assignments us, later x.2.1 = true) : wait ≠ [] := by
  obtain ⟨x, hx, hl⟩ := hw
  rcases h.1.covers x hx with h1 | h1
  · intro h2
    rw [h2] at h1
    cases h1
  · have := h.2.1.2 _ h1
    rw [hl] at this
    cases this

theorem installVerified_mixed {dRoot iRoot : String} (hp : Obliges c p dLast iLast) (hr : Reacts p K.primary later)
    (hd : Stored K.w.db .director .root dRoot) (hdg : GenuineRoot c.env dRoot dLast) (hir : Stored K.w.db .image .root iRoot)
    (hig : GenuineRoot c.env iRoot iLast) (hpl : Planned K us) (hser : ∀ e ∈ K.v.ecus, mkEcuSerial e.serial = .ok e.serial)
    (hw : ∃ x ∈ assignments us, later x.2.1 = true)
    (hk : ∀ t ∈ us, ∀ cid, RowSafe c.env P { t with correlationId := cid }) (h : Progress P K L ts [] [] acts d) :
    WillAt (installCost dLast iLast us) d (installVerified c p us)
      (fun r d' => (∃ s, r.1.device = .ofCode .needCompletion s) ∧ ∃ wait done, Left P K L ts us later wait done d') := by
  unfold installVerified
  refine (WillAt.bind (n := 0) (k := installCost dLast iLast us) (waitReachable_will hp h) ?_).more (by omega)
  rintro ok d1 ⟨rfl, h1⟩
  simp only [Bool.not_true, Bool.false_eq_true, if_false]
  refine (WillAt.bind (n := (assignments us).length * (dLast.base.version.toNat + iLast.base.version.toNat + 1)) (k := 6 + 4 * (assignments us).length)
    (sendMetadataToEcus_will hp hd hdg hir hig h1) ?_).more (by unfold installCost; omega)
  rintro m d2 ⟨hm, h2⟩
  simp only [hm, Bool.not_true, Bool.false_eq_true, if_false]
  intro hn
  obtain ⟨l, d3, h3, ⟨wait, done, h4⟩, h5⟩ := installBoth_mixed (env := c.env) hp hr hpl h2 hk hn
  rw [bind_ok] at h3
  obtain ⟨a, d4, h6, h7⟩ := h3
  rw [bind_ok] at h7
  obtain ⟨b, d5, h8, h9⟩ := h7
  have h9' : d5 = d3 := by cases h9; rfl
  subst h9'
  rw [run_bind h6, run_bind h8]
  obtain ⟨acts', hpr, -⟩ := h4.1.progress
  obtain ⟨s, raw, hdev⟩ := hpr.deviceWaits hser (fun x hx => by
    obtain ⟨y, hy, he⟩ := h4.1.only x hx
    rw [← he]
    exact ⟨(hpl.ecu y hy).2.2, _, (hpl.ecu y hy).1⟩) (h4.some hw) h4.1.apart
  refine ⟨(⟨.ofCode .needCompletion s, a ++ b⟩, raw), d5, ?_, ⟨⟨s, rfl⟩, wait, done, h4⟩, h5⟩
  rw [run_bind (by rw [gets_eq])]
  refine (run_bind (m := lift d5.cl.computeDeviceResult) (w := d5) (by rw [lift_eq, hdev])).trans ?_
  rfl

variable {dRoot dRaw iRoot rawT rawS iRaw : String} {tm : TimestampMeta} {sn : Snapshot} {its : Targets}

theorem uptaneInstall_mixed (hp : Obliges c p dLast iLast) (hr : Reacts p d.cl.primary later)
    (h : Authorised c d dRoot dLast dRaw ts iRoot iLast rawT rawS iRaw tm sn its us)
    (hw : ∃ x ∈ assignments us, later x.2.1 = true) (hk : ∀ t ∈ us, ∀ cid, RowSafe c.env P { t with correlationId := cid })
    (hleg : ∀ r ∈ d.cl.v.rows, P r) (hempty : d.cl.ecuResults = []) :
    WillAt (installCost dLast iLast us + 1) d (uptaneInstall c p us) (fun _ d' => ∃ wait done, Left P d.cl d.log ts us later wait done d') := by
  intro hn
  obtain ⟨w', h1, h2, h3, h4⟩ := h.recheck
  have hpr : Progress P d.cl d.log ts [] [] [] { d with cl := { d.cl with w := w' } } :=
    ⟨rfl, rfl, rfl, rfl, h2, h3, rfl, h.ordered, (fun r hr hpend => by rw [h.idle r hr] at hpend; cases hpend), by simp, by simp, (by
      intro y hy
      change y ∈ d.cl.ecuResults at hy
      rw [hempty] at hy
      cases hy), ⟨[], by simp, by simp⟩, by simp, hleg⟩
  have hbody : WillAt (installCost dLast iLast us) d (installBody c p us)
      (fun r d' => (∃ s, r.1.device = .ofCode .needCompletion s) ∧ ∃ wait done, Left P d.cl d.log ts us later wait done d') := by
    intro hn
    have : WillAt (installCost dLast iLast us) { d with cl := { d.cl with w := w' } } (do
        let good ← verifyAll p us
        if !good then pure (⟨⟨false, .internalError, ""⟩, []⟩, "Downloaded target is invalid")
        else installVerified c p us)
        (fun r d' => (∃ s, r.1.device = .ofCode .needCompletion s) ∧ ∃ wait done, Left P d.cl d.log ts us later wait done d') := by
      refine (WillAt.bind (n := 0) (k := installCost dLast iLast us) (verifyAll_will hp us hpr) ?_).more (by omega)
      rintro ok d1 ⟨rfl, h5⟩
      simp only [Bool.not_true, Bool.false_eq_true, if_false]
      exact installVerified_mixed hp hr h.director.root h.director.genuineR h.image.root h.image.genuineR h.planned h.serials hw hk h5
    obtain ⟨r, d', h5, h6, h7⟩ := this (by show _ ≤ w'.fuel; omega)
    refine ⟨r, d', ?_, h6, ?_⟩
    · unfold installBody
      rw [run_bind h1]
      exact h5
    · have : d.cl.w.fuel = w'.fuel := h4.symm
      show d.cl.w.fuel ≤ _
      rw [this]
      exact h7
  refine WillAt.bind (n := installCost dLast iLast us) (k := 1) hbody ?_ hn
  rintro ⟨r, raw⟩ d1 ⟨⟨s, h5⟩, wait, done, h7, h7'⟩
  obtain ⟨acts, h8, h9⟩ := h7.progress
  refine WillAt.gets ?_
  simp only at h5
  simp only [id, h5, h8.dir]
  have hrow : ∃ row, (InstResult.ofCode .needCompletion s).toRow = .ok row := ⟨_, rfl⟩
  obtain ⟨row, hrow⟩ := hrow
  refine WillAt.bind (n := 1) (k := 0)
    (Q := fun _ d' => ∃ wait done, Left P d.cl d.log ts us later wait done d') ?_ (fun _ d2 h => WillAt.pure h)
  intro hn
  have hw : inClient (storeDeviceResult (.ofCode .needCompletion s) raw ts.correlationId) d1 =
      inClient (cwrite (fun cl => { cl with devResult := some ⟨row, raw, ts.correlationId⟩ })) d1 := by
    rw [inClient_eq, inClient_eq]
    unfold storeDeviceResult
    rw [run_bind (m := lift (InstResult.ofCode .needCompletion s).toRow) (w := d1.cl) (by rw [lift_eq, hrow])]
  rw [hw]
  refine WillAt.cwrite (f := fun cl => { cl with devResult := some ⟨row, raw, ts.correlationId⟩ })
    (Q := fun _ d' => ∃ wait done, Left P d.cl d.log ts us later wait done d')
    (fun k => ⟨wait, done, ⟨⟨acts, ?_, h9⟩, h7.covers, h7.only, h7.apart⟩, h7'⟩) hn
  exact ⟨h8.1, h8.2, h8.3, h8.4, h8.5, h8.6, h8.7, h8.8, h8.9, h8.10, h8.11, h8.12, h8.13, h8.14, h8.15⟩

theorem pendingLoop_all : ∀ (l : List VersionRow), (∀ r ∈ l, mkEcuSerial r.ecu = .ok r.ecu) →
    VersionDb.pendingLoop l = .ok (l.map (fun r => (r.ecu, Hash.mk' .sha256 r.sha256)))
  | [], _ => rfl
  | r :: l, h => by
    unfold VersionDb.pendingLoop
    rw [h r (by simp)]
    show (VersionDb.pendingLoop l >>= _) = _
    rw [pendingLoop_all l (fun r hr => h r (by simp [hr]))]
    rfl

/-- What `getPendingEcus` gives. -/
theorem Progress.pendingEcus (h : Progress P K L ts wait done acts d) (hq : ∀ x ∈ wait, mkEcuSerial x.1 = .ok x.1) :
    d.cl.v.getPendingEcus = .ok ((d.cl.v.rows.filter (·.isPending)).map (fun r => (r.ecu, Hash.mk' .sha256 r.sha256))) := by
  unfold VersionDb.getPendingEcus
  refine pendingLoop_all _ (fun r hr => ?_)
  obtain ⟨h1, h2⟩ := List.mem_filter.1 hr
  obtain ⟨x, hx, he⟩ := List.mem_map.1 (h.idle r h1 h2)
  rw [← he]
  exact hq x hx

theorem Progress.pendingUpdates (h : Progress P K L ts wait done acts d) (hne : wait ≠ []) : d.cl.hasPendingUpdates = true := by
  cases wait with
  | nil => exact absurd rfl hne
  | cons x l =>
    obtain ⟨⟨row, hrow, -, hpend⟩, -⟩ := h.waiting x (by simp)
    unfold Client.hasPendingUpdates VersionDb.hasPendingInstall
    exact List.any_eq_true.2 ⟨row, hrow, hpend⟩

theorem cycleEnd_mixed {force : Bool} (hq : ∀ x ∈ wait, mkEcuSerial x.1 = .ok x.1) (hne : wait ≠ []) (h : Progress P K L ts wait done acts d) :
    ∃ b, cycleEnd c p force d = (.ok b, d) ∧ ((∀ x ∈ wait, x.1 ≠ K.primary) → b = true) := by
  have hreq : ∃ r, completionRequired force d = (.ok r, d) ∧ ((∀ x ∈ wait, x.1 ≠ K.primary) → r = false) := by
    unfold completionRequired
    rw [run_bind (by rw [gets_eq])]
    refine ⟨_, (run_bind (m := lift d.cl.v.getPendingEcus) (w := d) (by rw [lift_eq, h.pendingEcus hq])).trans rfl, ?_⟩
    intro hx
    rw [Bool.and_eq_false_iff]
    left
    rw [List.any_eq_false]
    intro y hy
    obtain ⟨r, hr, rfl⟩ := List.mem_map.1 hy
    obtain ⟨h1, h2⟩ := List.mem_filter.1 hr
    obtain ⟨x, hx', he⟩ := List.mem_map.1 (h.idle r h1 h2)
    simp only [id, h.primary, beq_iff_eq, ← he]
    exact hx x hx'
  obtain ⟨r, hreq, hr⟩ := hreq
  unfold cycleEnd
  rw [run_bind hreq]
  cases r with
  | true => exact ⟨false, rfl, fun h => by cases hr h⟩
  | false =>
    simp only [Bool.false_eq_true, if_false]
    rw [run_bind (by rw [gets_eq])]
    simp only [id, h.pendingUpdates hne, if_true]
    exact ⟨true, rfl, fun _ => rfl⟩

theorem Authorised.serial (h : Authorised c d dRoot dLast dRaw ts iRoot iLast rawT rawS iRaw tm sn its us) :
    ∀ x ∈ assignments us, mkEcuSerial x.2.1 = .ok x.2.1 := by
  intro x hx
  obtain ⟨e, he, hs⟩ := (h.planned.ecu x hx).2.2
  rw [← hs]
  exact h.serials e he

theorem cycleDownload_mixed {f : Fetched} {force : Bool} {r : UpdateCheck} (hfetch : ∀ n t, f n t = true) (hp : Obliges c p dLast iLast)
    (hr : Reacts p d.cl.primary later) (h : Authorised c d dRoot dLast dRaw ts iRoot iLast rawT rawS iRaw tm sn its r.updates)
    (hw : ∃ x ∈ assignments r.updates, later x.2.1 = true) (hk : ∀ t ∈ r.updates, ∀ cid, RowSafe c.env P { t with correlationId := cid })
    (hleg : ∀ r ∈ d.cl.v.rows, P r) (hempty : d.cl.ecuResults = []) :
    WillAt (installCost dLast iLast r.updates + 1) d (cycleDownload c p f force r) (fun b d' =>
      (later d.cl.primary = false → b = true) ∧ ∃ wait done, Left P d.cl d.log ts r.updates later wait done d') := by
  intro hn
  obtain ⟨w', n, h1, h2, h3⟩ := downloadImages_run hfetch h
  let d1 : Dev := { d with cl := { d.cl with w := w' }, n := n }
  have h' : Authorised c d1 dRoot dLast dRaw ts iRoot iLast rawT rawS iRaw tm sn its r.updates := h.world h2
  have hne : r.updates.isEmpty = false := by
    have := h.nonempty
    cases hr : r.updates with
    | nil => exact absurd hr this
    | cons a l => rfl
  have hrun : WillAt (installCost dLast iLast r.updates + 1) d1 (do
      let _ ← uptaneInstall c p r.updates
      cycleEnd c p force) (fun b d' => (later d.cl.primary = false → b = true) ∧ ∃ wait done, Left P d.cl d.log ts r.updates later wait done d') := by
    refine (WillAt.bind (k := 0) (uptaneInstall_mixed (d := d1) hp hr h' hw hk hleg hempty) ?_).more (by omega)
    rintro _ d2 ⟨wait, done, h5⟩ hn
    obtain ⟨acts, hpr, ha⟩ := h5.1.progress
    obtain ⟨b, hb1, hb2⟩ := cycleEnd_mixed (c := c) (p := p) (force := force) (fun x hx => by
      obtain ⟨y, hy, he⟩ := h5.1.only x (List.mem_append.2 (.inl hx))
      rw [← he]
      exact h.serial y hy) (h5.some hw) hpr
    refine ⟨b, d2, hb1, ⟨fun hl => hb2 (fun x hx he => ?_), wait, done, ?_⟩, by omega⟩
    · have := h5.2.1.1 x hx
      rw [he] at this
      change later d.cl.primary = true at this
      rw [hl] at this
      cases this
    · obtain ⟨⟨-, h5, h6, h7⟩, h8⟩ := h5
      exact ⟨⟨⟨acts, ⟨hpr.1, hpr.2, hpr.3, hpr.4, hpr.5.trans h2, hpr.6, hpr.7, hpr.8, hpr.9, hpr.10, hpr.11, hpr.12, hpr.13, hpr.14, hpr.15⟩, ha⟩, h5, h6, h7⟩, h8⟩
  obtain ⟨b, d', h4, h5, h6⟩ := hrun (by show _ ≤ w'.fuel; omega)
  refine ⟨b, d', ?_, h5, by rw [← h3]; exact h6⟩
  unfold cycleDownload
  rw [hne]
  simp only [Bool.false_eq_true, if_false]
  rw [run_bind h1]
  unfold cycleInstall
  simp only [hne, ne_eq, not_true_eq_false, Bool.false_eq_true, or_self, if_false]
  exact h4

end Mixed

/-! ### Completing -/

/-- Versions that are pending can be read back. -/
def PendLegible (env : Env) (r : VersionRow) : Prop := r.isPending = true → Legible env r

theorem manifestHash_names {j : Json} {h : String} (hn : NamesHash j h) : manifestHash j = Hash.mk' .sha256 h := by
  obtain ⟨x, ⟨a, h1, b, h2, c, h3, e, h4, f, h5, rfl⟩, h6⟩ := hn
  unfold manifestHash
  simp only [h1, h2, h3, h4, h5, h6, bind, Except.bind]

theorem names_manifestHash {j : Json} {s : String} (h : Hash.mk' .sha256 s = manifestHash j) : ∃ h, NamesHash j h ∧ upper h = upper s := by
  unfold manifestHash at h
  split at h
  · next x hx =>
    obtain ⟨a, h1, hx⟩ := exc_bind_ok.1 hx
    obtain ⟨b, h2, hx⟩ := exc_bind_ok.1 hx
    obtain ⟨c, h3, hx⟩ := exc_bind_ok.1 hx
    obtain ⟨e, h4, hx⟩ := exc_bind_ok.1 hx
    obtain ⟨f, h5, hx⟩ := exc_bind_ok.1 hx
    exact ⟨x, ⟨f, ⟨a, h1, b, h2, c, h3, e, h4, f, h5, rfl⟩, hx⟩, (congrArg Hash.hash h).symm⟩
  · exact absurd (congrArg Hash.type h) (by simp [Hash.mk'])

section Confirm

variable {env : Env} {p : Peers} {P : VersionRow → Prop} {K : Client} {L : List Action} {ts : Targets} {wait done : List (String × Target)} {acts : List Action} {d : Dev}

/-- The pending version of one of the waiting ECUs has become the current one, and the result is recorded. -/
theorem Progress.confirmed {e desc : String} {t t' : Target} {row : ResultRow} {k : Nat} (h : Progress (PendLegible env) K L ts wait done acts d)
    (hm : (e, t) ∈ wait) (he : e ≠ "") (hnew : e ∉ done.map Prod.fst) (hrow : (⟨true, .ok, desc⟩ : InstResult).toRow = .ok row)
    (hn : t'.filename = t.filename) (hs : t'.sha256Hash = t.sha256Hash) :
    Progress (PendLegible env) K L ts (wait.filter (fun x => x.1 != e)) ((e, t) :: done) acts { d with cl := { d.cl with
      v := d.cl.v.saveInstalledVersion env e t' .current, ecuResults := upsert e row d.cl.ecuResults, w := { d.cl.w with fuel := k } } } := by
  have hother : ∀ x ∈ done, e ≠ x.1 := by
    rintro x hx rfl
    exact hnew (List.mem_map_of_mem hx)
  have hrest : ∀ x, x ∈ wait.filter (fun x => x.1 != e) ↔ x ∈ wait ∧ x.1 ≠ e := by
    intro x
    rw [List.mem_filter]
    simp
  have hmap : ∀ s, s ∈ wait.map Prod.fst → s ≠ e → s ∈ (wait.filter (fun x => x.1 != e)).map Prod.fst := by
    intro s hs hne
    obtain ⟨x, hx, rfl⟩ := List.mem_map.1 hs
    exact List.mem_map.2 ⟨x, (hrest x).2 ⟨hx, hne⟩, rfl⟩
  have hreal : d.cl.v.realSerial e = e := by simp [VersionDb.realSerial, he]
  have hpending : ∀ r ∈ (d.cl.v.saveInstalledVersion env e t' .current).rows, r.isPending = true → r ∈ d.cl.v.rows ∧ r.ecu ≠ e := by
    intro r hr hpend
    rw [VersionDb.save_rows, hreal] at hr
    rcases List.mem_append.1 hr with hr | hr
    · obtain ⟨r0, h0, rfl⟩ := List.mem_map.1 hr
      by_cases hre : r0.ecu = e
      · rcases VersionDb.save1_isPending hre hpend with ⟨h1, -⟩ | ⟨h1, -, -⟩
        · cases h1
        · first | exact absurd h1 (by simp) | simp at h1
      · have := VersionDb.save1_other (t := t') h.ordered .current h0 hre
        rw [this]
        exact ⟨h0, hre⟩
    · split at hr
      · cases hr
      · simp only [List.mem_singleton] at hr
        subst hr
        cases hpend
  refine ⟨h.1, h.2, h.3, h.4, h.5, h.6, ?_, ?_, ?_, ?_, ?_, ?_, h.13, ?_, ?_⟩
  · exact (VersionDb.save_ecus ..).trans h.ecus
  · exact VersionDb.save_ordered _ _ _ h.ordered
  · intro r hr hpend
    obtain ⟨h1, h2⟩ := hpending r hr hpend
    exact hmap _ (h.idle r h1 hpend) h2
  · intro x hx
    rcases List.mem_cons.1 hx with rfl | hx
    · have := save_recorded (env := env) he t' h.ordered
      unfold RecordedCurrent at this ⊢
      rw [hn, hs] at this
      exact this
    · exact recordedCurrent_congr (save_versionsOf t' .current h.ordered he (hother x hx)) (h.current x hx)
  · intro x hx
    by_cases hxe : x.1 = e
    · exact ⟨row, by show (x.1, row) ∈ upsert _ _ _; rw [mem_upsert_iff, hxe]; exact .inr rfl⟩
    · have hx' : x ∈ wait ++ done := by
        rcases List.mem_append.1 hx with hx | hx
        · exact List.mem_append.2 (.inl ((hrest x).1 hx).1)
        · rcases List.mem_cons.1 hx with rfl | hx
          · exact absurd rfl hxe
          · exact List.mem_append.2 (.inr hx)
      obtain ⟨row', h1⟩ := h.reported x hx'
      exact ⟨row', mem_upsert_iff.2 (.inl ⟨h1, hxe⟩)⟩
  · intro y hy
    rcases mem_upsert_iff.1 hy with ⟨h1, h2⟩ | rfl
    · rcases h.good y h1 with ⟨h3, h4⟩ | ⟨h3, h4⟩
      · exact .inl ⟨by simp [h3], h4⟩
      · exact .inr ⟨hmap _ h3 h2, h4⟩
    · exact .inl ⟨by simp, desc, hrow⟩
  · intro x hx
    obtain ⟨h1, h2⟩ := (hrest x).1 hx
    exact recordedPending_congr (save_versionsOf t' .current h.ordered he (fun h => h2 h.symm)) (h.waiting x h1)
  · intro r hr hpend
    exact h.legible r (hpending r hr hpend).1 hpend

/-- What is known while ECUs wait. -/
structure Awaits (env : Env) (K : Client) (L : List Action) (ts : Targets) (cid : String) (wait done : List (String × Target)) (acts : List Action) (d : Dev) :
    Prop where
  progress : Progress (PendLegible env) K L ts wait done acts d
  apart : ∀ x ∈ wait, x.1 ∉ done.map Prod.fst
  ids : ∀ x ∈ wait, x.2.correlationId = cid
  once : ∀ x ∈ wait, ∀ y ∈ wait, x.1 = y.1 → x = y
  named : ∀ x ∈ wait, x.1 ≠ ""
  serials : ∀ e ∈ K.v.ecus, mkEcuSerial e.serial = .ok e.serial
  hwids : ∀ e ∈ K.v.ecus, mkHwId e.hwid = .ok e.hwid
  known : ∀ x ∈ wait ++ done, (∃ e ∈ K.v.ecus, e.serial = x.1) ∧ ∃ hw, HasEcu K x.1 hw

theorem Awaits.asked {cid : String} (h : Awaits env K L ts cid wait done acts d) {n : Nat} : Awaits env K L ts cid wait done acts { d with n := n } :=
  ⟨h.1.asked, h.2, h.3, h.4, h.5, h.6, h.7, h.8⟩

/-- The device's result for a complete success is stored. -/
def StoredSuccess (cid : String) (d : Dev) : Prop :=
  ∃ row, row.read = .ok ⟨true, ⟨0, "OK"⟩, "Device has been successfully installed"⟩ ∧ d.cl.devResult = some ⟨row, "Installation succesful", cid⟩

theorem Awaits.computed {cid : String} (h : Awaits env K L ts cid wait done acts d) (hne : done ≠ []) :
    ∃ r raw row, d.cl.computeDeviceResult = .ok (r, raw) ∧ r.toRow = .ok row ∧
      (wait = [] → row.read = .ok ⟨true, ⟨0, "OK"⟩, "Device has been successfully installed"⟩ ∧ raw = "Installation succesful") := by
  cases wait with
  | nil =>
    have hdev := h.progress.device h.serials (fun x hx => h.known x (List.mem_append.2 (.inr hx))) hne
    obtain ⟨row, hrow, hread⟩ := installedResult_row
    exact ⟨_, _, row, hdev, hrow, fun _ => ⟨hread, rfl⟩⟩
  | cons y l =>
    obtain ⟨s, raw, hdev⟩ := h.progress.deviceWaits h.serials h.known (by simp) h.apart
    have hrow : ∃ row, (InstResult.ofCode .needCompletion s).toRow = .ok row := ⟨_, rfl⟩
    obtain ⟨row, hrow⟩ := hrow
    exact ⟨_, _, row, hdev, hrow, fun h => by cases h⟩

theorem Awaits.store {cid raw : String} {r : InstResult} {row : ResultRow} (h : Awaits env K L ts cid wait done acts d) (hrow : r.toRow = .ok row) :
    WillAt 1 d (inClient (storeDeviceResult r raw cid)) (fun _ d' => Awaits env K L ts cid wait done acts d' ∧ d'.log = d.log ∧ d'.cl.devResult = some ⟨row, raw, cid⟩) := by
  have hw : ∀ d : Dev, inClient (storeDeviceResult r raw cid) d = inClient (cwrite (fun cl => { cl with devResult := some ⟨row, raw, cid⟩ })) d := by
    intro d
    rw [inClient_eq, inClient_eq]
    unfold storeDeviceResult
    rw [run_bind (m := lift r.toRow) (w := d.cl) (by rw [lift_eq, hrow])]
  intro hf
  rw [hw]
  have hq := h.progress
  exact WillAt.cwrite (Q := fun _ d' => Awaits env K L ts cid wait done acts d' ∧ d'.log = d.log ∧ d'.cl.devResult = some ⟨row, raw, cid⟩)
    (fun k => ⟨⟨⟨hq.1, hq.2, hq.3, hq.4, hq.5, hq.6, hq.7, hq.8, hq.9, hq.10, hq.11, hq.12, hq.13, hq.14, hq.15⟩, h.2, h.3, h.4, h.5, h.6, h.7, h.8⟩, rfl, rfl⟩) hf

/-- One of the waiting ECUs is recorded as done. -/
theorem Awaits.confirmed {cid e desc : String} {t t' : Target} {row : ResultRow} {k : Nat} (h : Awaits env K L ts cid wait done acts d) (hm : (e, t) ∈ wait)
    (hrow : (⟨true, .ok, desc⟩ : InstResult).toRow = .ok row) (hn : t'.filename = t.filename) (hs : t'.sha256Hash = t.sha256Hash) :
    Awaits env K L ts cid (wait.filter (fun x => x.1 != e)) ((e, t) :: done) acts { d with cl := { d.cl with
      v := d.cl.v.saveInstalledVersion env e t' .current, ecuResults := upsert e row d.cl.ecuResults, w := { d.cl.w with fuel := k } } } := by
  refine ⟨h.progress.confirmed (k := k) hm (h.named _ hm) (h.apart _ hm) hrow hn hs, ?_, ?_, ?_, ?_, h.6, h.7, ?_⟩
  · intro x hx
    obtain ⟨h1, h2⟩ := List.mem_filter.1 hx
    simp only [List.map_cons, List.mem_cons, not_or]
    exact ⟨by simpa using h2, h.apart x h1⟩
  · exact fun x hx => h.ids x (List.mem_filter.1 hx).1
  · exact fun x hx y hy => h.once x (List.mem_filter.1 hx).1 y (List.mem_filter.1 hy).1
  · exact fun x hx => h.named x (List.mem_filter.1 hx).1
  · intro x hx
    refine h.known x ?_
    rcases List.mem_append.1 hx with hx | hx
    · exact List.mem_append.2 (.inl (List.mem_filter.1 hx).1)
    · rcases List.mem_cons.1 hx with rfl | hx
      · exact List.mem_append.2 (.inl hm)
      · exact List.mem_append.2 (.inr hx)

theorem saveResult_run {e desc : String} : ∃ row, (⟨true, .ok, desc⟩ : InstResult).toRow = .ok row ∧
    ∀ d : Dev, inClient (saveEcuResult e ⟨true, .ok, desc⟩) d = inClient (cwrite (fun cl => { cl with ecuResults := upsert e row cl.ecuResults })) d := by
  have hrow : ∃ row, (⟨true, .ok, desc⟩ : InstResult).toRow = .ok row := ⟨_, rfl⟩
  obtain ⟨row, hrow⟩ := hrow
  refine ⟨row, hrow, fun d => ?_⟩
  rw [inClient_eq, inClient_eq]
  unfold saveEcuResult
  rw [run_bind (m := lift (InstResult.toRow ⟨true, .ok, desc⟩)) (w := d.cl) (by rw [lift_eq, hrow])]

/-- Recording the success of a waiting ECU. -/
theorem Awaits.record {cid e desc : String} {t t' : Target} {β : Type} {f : D β} {k : Nat} {Q : β → Dev → Prop}
    (h : Awaits env K L ts cid wait done acts d) (hm : (e, t) ∈ wait) (hn : t'.filename = t.filename) (hs : t'.sha256Hash = t.sha256Hash)
    (hf : ∀ d', Awaits env K L ts cid (wait.filter (fun x => x.1 != e)) ((e, t) :: done) acts d' → d'.log = d.log → WillAt k d' f Q) :
    WillAt (2 + k) d (do
      inClient (saveEcuResult e ⟨true, .ok, desc⟩)
      saveVersion env e t' .current
      f) Q := by
  obtain ⟨row, hrow, hw⟩ := saveResult_run (e := e) (desc := desc)
  refine (WillAt.bind (n := 1) (k := 1 + k) (Q := fun _ d2 => ∃ k, d2 = { d with cl := { d.cl with
    ecuResults := upsert e row d.cl.ecuResults, w := { d.cl.w with fuel := k } } }) ?_ ?_).more (by omega)
  · intro hn
    rw [hw]
    exact WillAt.cwrite (Q := fun _ d2 => ∃ k, d2 = { d with cl := { d.cl with
      ecuResults := upsert e row d.cl.ecuResults, w := { d.cl.w with fuel := k } } }) (fun k => ⟨k, rfl⟩) hn
  rintro _ _ ⟨k', rfl⟩
  refine (WillAt.bind (n := 1) (k := k) (Q := fun _ d2 => Awaits env K L ts cid (wait.filter (fun x => x.1 != e)) ((e, t) :: done) acts d2 ∧ d2.log = d.log) ?_ ?_)
  · unfold saveVersion
    exact WillAt.cwrite (fun k' => ⟨h.confirmed (k := k') hm hrow hn hs, rfl⟩)
  · rintro _ d2 ⟨h2, hlog⟩
    exact hf d2 h2 hlog

theorem confirmSecondary_will {cid e : String} {t : Target} (h : Awaits env K L ts cid wait done acts d) (hm : (e, t) ∈ wait) :
    WillAt 3 d (confirmSecondary env e) (fun _ d' => Awaits env K L ts cid (wait.filter (fun x => x.1 != e)) ((e, t) :: done) acts d' ∧ d'.log = d.log ∧
      (wait.filter (fun x => x.1 != e) = [] → StoredSuccess cid d')) := by
  have hpr := h.progress
  obtain ⟨t', hl, hn, hs, hcid⟩ := loadPending_run (h.named _ hm) (fun r hr hp => hpr.legible r hr hp) (by rw [hpr.ecus]; exact h.serials)
    (by rw [hpr.ecus]; exact h.hwids) (hpr.waiting _ hm)
  have hcid' : t'.correlationId = cid := hcid.trans (h.ids _ hm)
  unfold confirmSecondary
  refine WillAt.gets ?_
  simp only [id]
  refine WillAt.liftBind (a := some t') hl ?_
  simp only
  refine h.record (k := 1) hm hn hs ?_
  intro d2 h2 hlog
  refine WillAt.gets ?_
  simp only [id]
  obtain ⟨r, raw, row, hdev, hrow, hst⟩ := h2.computed (by simp)
  refine WillAt.liftBind hdev ?_
  simp only [hcid']
  refine (h2.store hrow).weaken (by omega) ?_
  rintro _ d3 ⟨h4, h5, h6⟩
  refine ⟨h4, h5.trans hlog, fun h => ?_⟩
  obtain ⟨h7, rfl⟩ := hst h
  exact ⟨row, h7, h6⟩

/-- What one round of asking the waiting Secondaries does. -/
structure AskedRound (env : Env) (p : Peers) (primary : String) (wait done wait' done' : List (String × Target)) (l : List (String × Hash)) : Prop where
  less : ∀ x ∈ wait', x ∈ wait
  kept : ∀ x ∈ wait, x ∈ wait' ∨ x ∈ done'
  more : ∀ x ∈ done, x ∈ done'
  only : ∀ x ∈ done', x ∈ done ∨ x ∈ wait
  shown : ∀ x ∈ wait, x.1 ∈ l.map Prod.fst → x.1 ≠ primary → ShowsImage env p x.1 x.2 → x ∉ wait'
  other : ∀ x ∈ wait, ShowsOther p x.1 x.2 → x ∈ wait'
  rest : ∀ x ∈ wait, x.1 ∉ l.map Prod.fst → x ∈ wait'
  primary : ∀ x ∈ wait, x.1 = primary → x ∈ wait'

theorem pendingLoop_will {cid : String} (hh : Hears p) : ∀ (l : List (String × Hash)) {d : Dev} {wait done : List (String × Target)},
    Awaits env K L ts cid wait done acts d → (wait = [] → StoredSuccess cid d) → (l.map Prod.fst).Nodup →
    (∀ x ∈ l, (x.1 ≠ K.primary → ∃ s ∈ K.secondaries, s.1 = x.1) ∧ ∃ t, (x.1, t) ∈ wait ∧ x.2 = Hash.mk' .sha256 t.sha256Hash) →
    WillAt (3 * l.length) d (pendingSecondaryLoop env p l) (fun _ d' => ∃ wait' done', Awaits env K L ts cid wait' done' acts d' ∧ d'.log = d.log ∧
      AskedRound env p K.primary wait done wait' done' l ∧ (wait' = [] → StoredSuccess cid d'))
  | [], d, wait, done, h, hst, _, _ => WillAt.pure ⟨wait, done, h, rfl, ⟨fun _ h => h, fun _ h => .inl h, fun _ h => h, fun _ h => .inl h,
      fun _ _ h => (by cases h), fun _ h _ => h, fun _ h _ => h, fun _ h _ => h⟩, hst⟩
  | (serial, hash) :: l, d, wait, done, h, hst, hnd, hl => by
    obtain ⟨hsec, t, ht, hhash⟩ := hl (serial, hash) (by simp)
    simp only at hsec ht hhash
    rw [List.map_cons, List.nodup_cons] at hnd
    have e : 3 * ((serial, hash) :: l).length = 3 + 3 * l.length := by simp; omega
    rw [e]
    -- not confirmed
    have skip : ∀ n, (serial ≠ K.primary → ¬ ShowsImage env p serial t) → WillAt (3 + 3 * l.length) { d with n := n } (pendingSecondaryLoop env p l)
        (fun _ d' => ∃ wait' done', Awaits env K L ts cid wait' done' acts d' ∧ d'.log = d.log ∧
          AskedRound env p K.primary wait done wait' done' ((serial, hash) :: l) ∧ (wait' = [] → StoredSuccess cid d')) := by
      intro n hno
      refine (pendingLoop_will hh l (h.asked (n := n)) hst hnd.2 (fun x hx => hl x (by simp [hx]))).weaken (by omega) ?_
      rintro _ d' ⟨w', dn, h1, h2, h3, h4⟩
      refine ⟨w', dn, h1, h2, ⟨h3.1, h3.2, h3.3, h3.4, ?_, h3.6, ?_, h3.8⟩, h4⟩
      · intro x hx hm hxp hsh
        rw [List.map_cons, List.mem_cons] at hm
        rcases hm with hm | hm
        · have : x = (serial, t) := h.once x hx _ ht hm
          subst this
          exact absurd hsh (hno hxp)
        · exact h3.shown x hx hm hxp hsh
      · intro x hx hm
        rw [List.map_cons, List.mem_cons, not_or] at hm
        exact h3.rest x hx hm.2
    unfold pendingSecondaryLoop
    refine WillAt.gets ?_
    simp only [id, h.progress.primary]
    split
    · next hpp => exact skip d.n (fun h => absurd hpp.symm h)
    next hpp =>
    have hnp : serial ≠ K.primary := fun h => hpp h.symm
    obtain ⟨s, hs1, hs2⟩ := hsec hnp
    have hany : d.cl.secondaries.any (fun s => s.1 == serial) = true := by
      rw [h.progress.secs]
      exact List.any_eq_true.2 ⟨s, hs1, by simp [hs2]⟩
    simp only [hany, Bool.not_true, Bool.false_eq_true, if_false]
    refine WillAt.askBind ?_
    obtain ⟨j, hj⟩ := answers_default (hh.secManifest d.n serial) Json.null
    refine WillAt.liftBind hj ?_
    split
    · next hje =>
      refine skip _ (fun _ => ?_)
      rintro ⟨j', k', h', ha, hsg, -⟩
      rw [ha.1] at hj
      cases hj
      obtain ⟨o, s', rest, x, sig, b, rfl, h1, -⟩ := hsg
      have : o.isEmpty = true := hje
      rw [List.isEmpty_iff.1 this] at h1
      cases h1
    · next hje =>
      refine WillAt.askBind ?_
      simp only
      obtain ⟨good, hgood⟩ := answers_default (verifies_answers (env := env) (j := j) (hh.secKey (d.n + 1) serial)) false
      refine WillAt.liftBind hgood ?_
      split
      · next hc =>
        -- confirmed
        refine WillAt.bind (confirmSecondary_will ((h.asked (n := d.n + 1)).asked (n := d.n + 1 + 1)) ht) ?_
        rintro _ d1 ⟨h1, h2, h3⟩
        have hl' : ∀ x ∈ l, (x.1 ≠ K.primary → ∃ s ∈ K.secondaries, s.1 = x.1) ∧
            ∃ t, (x.1, t) ∈ wait.filter (fun x => x.1 != serial) ∧ x.2 = Hash.mk' .sha256 t.sha256Hash := by
          intro x hx
          obtain ⟨b, t', c, e⟩ := hl x (by simp [hx])
          refine ⟨b, t', List.mem_filter.2 ⟨c, ?_⟩, e⟩
          simp only [bne_iff_ne]
          intro he
          exact hnd.1 (List.mem_map.2 ⟨x, hx, he⟩)
        refine (pendingLoop_will hh l h1 h3 hnd.2 hl').weaken (by omega) ?_
        rintro _ d' ⟨w', dn, h4, h5, h6, h7⟩
        have hmem : ∀ x, x ∈ wait → x ≠ (serial, t) → x ∈ wait.filter (fun x => x.1 != serial) := by
          intro x hx hne
          refine List.mem_filter.2 ⟨hx, ?_⟩
          simp only [bne_iff_ne]
          exact fun he => hne (h.once x hx _ ht he)
        refine ⟨w', dn, h4, h5.trans h2, ⟨?_, ?_, ?_, ?_, ?_, ?_, ?_, ?_⟩, ?_⟩
        · exact fun x hx => (List.mem_filter.1 (h6.less x hx)).1
        · intro x hx
          by_cases hxe : x = (serial, t)
          · exact .inr (h6.more _ (by rw [hxe]; simp))
          · exact h6.kept x (hmem x hx hxe)
        · exact fun x hx => h6.more x (List.mem_cons_of_mem _ hx)
        · intro x hx
          rcases h6.only x hx with h | h
          · rcases List.mem_cons.1 h with rfl | h
            · exact .inr ht
            · exact .inl h
          · exact .inr (List.mem_filter.1 h).1
        · intro x hx hm hxp hsh hx'
          have h8 := h6.less x hx'
          rw [List.map_cons, List.mem_cons] at hm
          rcases hm with hm | hm
          · have := (List.mem_filter.1 h8).2
            simp only [bne_iff_ne] at this
            exact this hm
          · exact h6.shown x h8 hm hxp hsh hx'
        · intro x hx hso
          refine h6.other x (hmem x hx ?_) hso
          rintro rfl
          have hjj : p.secManifest d.n serial = .ok j := by
            unfold orDefault at hj
            split at hj
            · next e' he' =>
              split at hj
              · injection hj with hj
                subst hj
                exact absurd rfl hje
              · cases hj
            · next a ha => injection hj with hj; rw [ha, hj]
          obtain ⟨h', hn, hu⟩ := names_manifestHash (s := t.sha256Hash) (j := j) (by rw [← hhash]; exact hc.2)
          exact hso d.n j h' hjj hn hu
        · intro x hx hm
          rw [List.map_cons, List.mem_cons, not_or] at hm
          exact h6.rest x (hmem x hx (fun he => hm.1 (by rw [he]))) hm.2
        · intro x hx hxp
          refine h6.primary x (hmem x hx ?_) hxp
          rintro rfl
          exact hnp hxp
        · exact h7
      · next hc =>
        refine skip _ (fun _ => ?_)
        rintro ⟨j', k', h', ha, hsg, hn, hu⟩
        refine hc ⟨?_, ?_⟩
        · rw [ha.1] at hj
          cases hj
          rw [ha.2] at hgood
          have : (do manifestVerifies env j (← (.ok k' : Except Err PublicKey))) = .ok true := manifestVerifies_of hsg
          rw [this] at hgood
          cases hgood
          rfl
        · rw [ha.1] at hj
          cases hj
          rw [manifestHash_names hn, hhash]
          unfold Hash.mk'
          rw [hu]

end Confirm

end Aktualizr
