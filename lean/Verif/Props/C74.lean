import Verif.Lemmas.SecondaryOstree
import Verif.Props.C26
import Verif.Props.C72

/-!
# C74: what an OSTree Secondary fetches, deploys and reports

Histories are arbitrary sequences of requests from the Primary, starts of the process and reboots of the machine, with
arbitrary contents, faults, and deaths of the process.
-/

namespace Aktualizr.Spec

open SecOst

/-- `o`, between the states `s1` and `s2`, gave the Secondary the target `t`: by metadata of which everything was
checked, or by the Director metadata found in storage, verified, when the process started. -/
def OstEstablished (env : Env) (s1 s2 : SecOst.State) (t : Target) : Op → Option Reply → Prop
  | .putMeta _ _ _, a => a = some (.metadata .ok) ∧ DirectorAssigns env s2.core.serial s2.core.hwid s2.core.w t ∧
      ImageApproves env s2.core.w t
  | .start _ clock _, _ => ∃ w raw, w.db = s1.core.w.db ∧
      DirectorVerified { env, clock, net := fun _ _ _ _ => none } w raw ∧
      TheTarget s1.core.serial s1.core.hwid w.dir.targets.targets t
  | _, _ => False

/-- `o` leaves what was established: no start, no metadata accepted, no failed download. -/
def OstKept : Op → Option Reply → Prop
  | .start _ _ _, _ => False
  | .putMeta _ _ _, a => a ≠ some (.metadata .ok)
  | .download _ _, some (.result r) => r.success = true
  | _, _ => True

/-- In the history `ops` from `s0` the target `t` was established, and nothing since then revoked it. -/
def OstAuthorised (env : Env) (s0 : SecOst.State) (ops : List Op) (t : Target) : Prop :=
  t.isOstree = true ∧
  ∃ before o after s1 a s2, ops = before ++ o :: after ∧ SecOst.run env s0 before = .ok s1 ∧
    SecOst.step env s1 o = .ok (a, s2) ∧ s1.core.serial = s0.core.serial ∧ s1.core.hwid = s0.core.hwid ∧
    OstEstablished env s1 s2 t o a ∧
    ∀ p o' q s3 b s4, after = p ++ o' :: q → SecOst.run env s2 p = .ok s3 → SecOst.step env s3 o' = .ok (b, s4) → OstKept o' b

/-- White space, for trimming. -/
def White (c : Char) : Prop := c = ' ' ∨ c = '\t' ∨ c = '\n' ∨ c = '\r' ∨ c = '\x0b' ∨ c = '\x0c'

/-- `url` is the text without the white space around it. -/
def UrlOf (text url : String) : Prop :=
  ∃ l r, text.toList = l ++ url.toList ++ r ∧ (∀ c ∈ l ++ r, White c) ∧
    ∀ c, (url.toList.head? = some c ∨ url.toList.getLast? = some c) → ¬White c

/-- The archive has one file of that name, and this text is in it. -/
def HasFile (archive : Option (List Entry)) (name text : String) : Prop :=
  ∃ pre e post, archive = some (pre ++ e :: post) ∧ e.name = name ∧ e.whole = true ∧ e.data = text ∧
    ∀ x ∈ pre ++ post, x.name ≠ name

/-- The version recorded as pending with both flags set before a restart of the machine; then a result was recorded
while running this version. -/
def BootedAfterFlags (log : List Boot.Note) (name hash : String) : Prop :=
  ∃ before t r after, log = before ++ .result t r (some hash) :: after ∧ r.success = true ∧
    t.filename = name ∧ t.sha256Hash = hash ∧ FlaggedThenRebooted before t

end Aktualizr.Spec

namespace Aktualizr.SecOst

open M Spec

/-! ## Steps -/

theorem observe_ok {α : Type} {m : O α} {f : α → Reply} {s s' : State} {a : Option Reply} (h : observe m f s = .ok (a, s')) :
    ∃ o s1, m s = (o, s1) ∧
      ((∃ x, o = .ok x ∧ a = some (f x) ∧ s' = s1) ∨
       (∃ e, o = .error e ∧ a = none ∧ s' = { s1 with core := { s1.core with up := false } })) := by
  unfold observe at h
  obtain ⟨o, s1, hm⟩ : ∃ o s1, m s = (o, s1) := ⟨_, _, rfl⟩
  rw [hm] at h
  refine ⟨o, s1, hm, ?_⟩
  cases o with
  | ok x =>
    simp only [Except.ok.injEq, Prod.mk.injEq] at h
    exact .inl ⟨x, rfl, h.1.symm, h.2.symm⟩
  | error e =>
    cases e <;> first
      | (simp only [Except.ok.injEq, Prod.mk.injEq] at h; exact .inr ⟨_, rfl, h.1.symm, h.2.symm⟩)
      | cases h

/-- The state in which a request is handled. -/
def State.fuelled (s : State) (fuel : Nat) : State := { s with core := { s.core with w := { s.core.w with fuel := fuel } } }

theorem request_ok {α : Type} {m : O α} {f : α → Reply} {fuel : Nat} {s s' : State} {a : Option Reply}
    (h : request m f fuel s = .ok (a, s')) :
    (s.core.up = false ∧ a = none ∧ s' = s) ∨
    (s.core.up = true ∧ ∃ o s1, m (s.fuelled fuel) = (o, s1) ∧
      ((∃ x, o = .ok x ∧ a = some (f x) ∧ s' = s1) ∨
       (∃ e, o = .error e ∧ a = none ∧ s' = { s1 with core := { s1.core with up := false } }))) := by
  unfold request at h
  by_cases hu : s.core.up = true
  · rw [if_pos hu] at h
    exact .inr ⟨hu, observe_ok h⟩
  · rw [if_neg hu] at h
    simp only [Except.ok.injEq, Prod.mk.injEq] at h
    exact .inl ⟨by simpa using hu, h.1.symm, h.2.symm⟩

/-- What a request with metadata does. -/
theorem putMeta_step {env : Env} {m : Sec.PutMeta} {clock : Nat → TimeStamp} {fuel : Nat} {s s' : State}
    {a : Option Reply} (h : step env s (.putMeta m clock fuel) = .ok (a, s')) :
    s'.core.serial = s.core.serial ∧ s'.core.hwid = s.core.hwid ∧ s'.board = s.board ∧ s'.repo = s.repo ∧
    s'.pulls = s.pulls ∧ s'.keys = s.keys ∧
    ((s'.core.pending = s.core.pending ∧ a ≠ some (.metadata .ok)) ∨
     (a = some (.metadata .ok) ∧ ∃ t, s'.core.pending = some t ∧ t.isOstree = true ∧
       DirectorAssigns env s'.core.serial s'.core.hwid s'.core.w t ∧ ImageApproves env s'.core.w t)) := by
  rcases request_ok h with ⟨_, rfl, rfl⟩ | ⟨_, o, s1, hm, h⟩
  · exact ⟨rfl, rfl, rfl, rfl, rfl, rfl, .inl ⟨rfl, by simp⟩⟩
  · rw [inCore_eq] at hm
    cases hp : Sec.putMeta Target.isOstree env clock m (s.fuelled fuel).core with
    | mk o1 c1 =>
      rw [hp] at hm
      simp only [Prod.mk.injEq] at hm
      obtain ⟨rfl, rfl⟩ := hm
      obtain ⟨w', ⟨ho, rfl⟩ | ⟨t, rfl, rfl, hd, hi, hs⟩⟩ := Sec.putMeta_cases hp
      · rcases h with ⟨x, rfl, rfl, rfl⟩ | ⟨e, rfl, rfl, rfl⟩
        · refine ⟨rfl, rfl, rfl, rfl, rfl, rfl, .inl ⟨rfl, fun hx => ho ?_⟩⟩
          injection hx with hx
          injection hx with hx
          rw [hx]
        · exact ⟨rfl, rfl, rfl, rfl, rfl, rfl, .inl ⟨rfl, by simp⟩⟩
      · rcases h with ⟨x, hx, rfl, rfl⟩ | ⟨e, he, _⟩
        · injection hx with hx
          subst hx
          exact ⟨rfl, rfl, rfl, rfl, rfl, rfl, .inr ⟨rfl, t, rfl, hs, hd, hi⟩⟩
        · cases he

/-- What a request to download does. -/
theorem download_step {env : Env} {io : PullIo} {archive : Option (List Entry)} {s s' : State}
    {a : Option Reply} (h : step env s (.download io archive) = .ok (a, s')) :
    s'.core.serial = s.core.serial ∧ s'.core.hwid = s.core.hwid ∧ s'.board = s.board ∧
    (∀ r, a = some (.result r) → r.code.num ≠ 21 ∧
      (r.success = true → ∃ t c, s.core.pending = some t ∧ c ∈ s'.repo ∧ t.sha256Hash.toList <+: c.toList)) ∧
    (s'.core.pending = none ∨ (s'.core.pending = s.core.pending ∧ ∀ r, a = some (.result r) → r.success = true)) ∧
    ((s'.repo = s.repo ∧ s'.pulls = s.pulls) ∨
     ∃ t ca cert pkey server, s.core.up = true ∧ s.core.pending = some t ∧ extract archive = .ok (ca, cert, pkey, server) ∧
       s'.pulls = s.pulls ++ [⟨server, (s.keys.load ca cert pkey).used, t.sha256Hash⟩] ∧
       ((s'.repo = s.repo ∧ ∃ r, a = some (.result r) ∧ r.success = false) ∨
        (s'.repo = s.repo ++ [t.sha256Hash] ∧ ∃ r, a = some (.result r) ∧ r.success = true))) := by
  have hbad : ∀ (c : ResultCode) (d : String), (c = .generalError ∨ c = .downloadFailed ∨ c = .installFailed) →
      ∀ r, some (Reply.result (.ofCode c d)) = some (.result r) → r.code.num ≠ 21 ∧ r.success = false := by
    intro c d hc r hr
    injection hr with hr
    injection hr with hr
    rw [← hr]
    rcases hc with rfl | rfl | rfl
    · exact ⟨show ResultCode.generalError.num ≠ 21 by decide, rfl⟩
    · exact ⟨show ResultCode.downloadFailed.num ≠ 21 by decide, rfl⟩
    · exact ⟨show ResultCode.installFailed.num ≠ 21 by decide, rfl⟩
  have hgood : ∀ (c : ResultCode) (d : String), (c = .ok ∨ c = .alreadyProcessed) →
      ∀ r, some (Reply.result (.ofCode c d)) = some (.result r) → r.code.num ≠ 21 ∧ r.success = true := by
    intro c d hc r hr
    injection hr with hr
    injection hr with hr
    rw [← hr]
    rcases hc with rfl | rfl
    · exact ⟨show ResultCode.ok.num ≠ 21 by decide, rfl⟩
    · exact ⟨show ResultCode.alreadyProcessed.num ≠ 21 by decide, rfl⟩
  have hno : ∀ {P : Prop} (c : ResultCode) (d : String), (c = .generalError ∨ c = .downloadFailed ∨ c = .installFailed) →
      ∀ r, some (Reply.result (.ofCode c d)) = some (.result r) → r.code.num ≠ 21 ∧ (r.success = true → P) := by
    intro P c d hc r hr
    obtain ⟨h1, h2⟩ := hbad c d hc r hr
    exact ⟨h1, fun h3 => by rw [h2] at h3; cases h3⟩
  rcases request_ok h with ⟨_, rfl, rfl⟩ | ⟨hu, o, s1, hm, h⟩
  · exact ⟨rfl, rfl, rfl, by simp, .inr ⟨rfl, by simp⟩, .inl ⟨rfl, rfl⟩⟩
  · rcases download_cases hm with ⟨hp, rfl, d, rfl⟩ | ⟨t, hp, hc⟩
    · rcases h with ⟨x, hx, rfl, rfl⟩ | ⟨e, he, _⟩
      · injection hx with hx
        subst hx
        exact ⟨rfl, rfl, rfl, hno _ d (.inl rfl), .inl hp, .inl ⟨rfl, rfl⟩⟩
      · cases he
    · rcases hc with ⟨e, he, rfl, d, rfl⟩ | ⟨ca, cert, pkey, server, hx, hc⟩
      · rcases h with ⟨x, hx, rfl, rfl⟩ | ⟨e, he, _⟩
        · injection hx with hx
          subst hx
          exact ⟨rfl, rfl, rfl, hno _ d (.inr (.inl rfl)), .inl rfl, .inl ⟨rfl, rfl⟩⟩
        · cases he
      · rcases hc with ⟨rfl, e, rfl⟩ | ⟨rfl, ⟨c, hc1, hc2⟩, d, rfl⟩ | ⟨⟨ps, rfl, hps⟩, d, rfl⟩ | ⟨rfl, d, rfl⟩
        · rcases h with ⟨x, hx, _⟩ | ⟨e, he, rfl, rfl⟩
          · cases hx
          · exact ⟨rfl, rfl, rfl, by simp, .inr ⟨rfl, by simp⟩, .inl ⟨rfl, rfl⟩⟩
        · rcases h with ⟨x, hx, rfl, rfl⟩ | ⟨e, he, _⟩
          · injection hx with hx
            subst hx
            exact ⟨rfl, rfl, rfl, fun r hr => ⟨(hgood _ d (.inr rfl) r hr).1, fun _ => ⟨t, c, hp, hc1, hc2⟩⟩,
              .inr ⟨rfl, fun r hr => (hgood _ d (.inr rfl) r hr).2⟩, .inl ⟨rfl, rfl⟩⟩
          · cases he
        · rcases h with ⟨x, hxx, rfl, rfl⟩ | ⟨e, he, _⟩
          · injection hxx with hxx
            subst hxx
            refine ⟨rfl, rfl, rfl, hno _ d (.inr (.inr rfl)), .inl rfl, ?_⟩
            rcases hps with rfl | rfl
            · exact .inl ⟨rfl, List.append_nil _⟩
            · exact .inr ⟨t, ca, cert, pkey, server, hu, hp, hx, rfl, .inl ⟨rfl, _, rfl, rfl⟩⟩
          · cases he
        · rcases h with ⟨x, hxx, rfl, rfl⟩ | ⟨e, he, _⟩
          · injection hxx with hxx
            subst hxx
            exact ⟨rfl, rfl, rfl,
              fun r hr => ⟨(hgood _ d (.inl rfl) r hr).1, fun _ =>
                ⟨t, _, hp, List.mem_append_right _ (List.mem_singleton.2 rfl), List.prefix_refl _⟩⟩,
              .inr ⟨rfl, fun r hr => (hgood _ d (.inl rfl) r hr).2⟩,
              .inr ⟨t, ca, cert, pkey, server, hu, hp, hx, rfl, .inr ⟨rfl, _, rfl, rfl⟩⟩⟩
          · cases he

/-- What a request to install does. -/
theorem install_step {env : Env} {sysroot : Bool} {io : Boot.Io} {fuel : Nat} {s s' : State}
    {a : Option Reply} (h : step env s (.install sysroot io fuel) = .ok (a, s')) :
    s'.core.serial = s.core.serial ∧ s'.core.hwid = s.core.hwid ∧ s'.core.pending = s.core.pending ∧
    s'.repo = s.repo ∧ s'.pulls = s.pulls ∧
    ((s'.board = s.board ∧ ∀ r, a = some (.result r) → r.code.num ≠ 21) ∨
     ∃ t o, s.core.up = true ∧ s.core.pending = some t ∧ (∀ r, a = some (.result r) → o = .ok r) ∧
       Boot.installSecondary env .ostree { io with deploys := io.deploys && s.repo.contains t.sha256Hash } t
         { s.board with fuel := fuel } = (o, s'.board)) := by
  rcases request_ok h with ⟨_, rfl, rfl⟩ | ⟨hu, o, s1, hm, h⟩
  · exact ⟨rfl, rfl, rfl, rfl, rfl, .inl ⟨rfl, by simp⟩⟩
  · rcases install_cases hm with ⟨rfl, ⟨hp, d, rfl⟩ | ⟨hs, e, rfl⟩⟩ | ⟨t, b', hp, rfl, hi⟩
    · rcases h with ⟨x, hx, rfl, rfl⟩ | ⟨e, he, _⟩
      · injection hx with hx
        subst hx
        refine ⟨rfl, rfl, rfl, rfl, rfl, .inl ⟨rfl, fun r hr => ?_⟩⟩
        injection hr with hr
        injection hr with hr
        rw [← hr]
        exact show ResultCode.internalError.num ≠ 21 by decide
      · cases he
    · rcases h with ⟨x, hx, _⟩ | ⟨e, he, rfl, rfl⟩
      · cases hx
      · exact ⟨rfl, rfl, rfl, rfl, rfl, .inl ⟨rfl, by simp⟩⟩
    · rcases h with ⟨x, rfl, rfl, rfl⟩ | ⟨e, rfl, rfl, rfl⟩
      · refine ⟨rfl, rfl, rfl, rfl, rfl, .inr ⟨t, _, hu, hp, fun r hr => ?_, hi⟩⟩
        injection hr with hr
        injection hr with hr
        rw [hr]
      · exact ⟨rfl, rfl, rfl, rfl, rfl, .inr ⟨t, _, hu, hp, by simp, hi⟩⟩

/-- What a start does. -/
theorem start_step {env : Env} {supported : Bool} {clock : Nat → TimeStamp} {fuel : Nat} {s s' : State}
    {a : Option Reply} (h : step env s (.start supported clock fuel) = .ok (a, s')) :
    s'.core.serial = s.core.serial ∧ s'.core.hwid = s.core.hwid ∧ s'.repo = s.repo ∧ s'.pulls = s.pulls ∧
    (s'.core.pending = none ∨ ∃ t w', s'.core.pending = some t ∧ w'.db = s.core.w.db ∧
      (∃ raw, DirectorVerified { env, clock, net := fun _ _ _ _ => none } w' raw) ∧
      TheTarget s.core.serial s.core.hwid w'.dir.targets.targets t ∧ t.isOstree = true) ∧
    ∃ k, s'.board = { s.board with supported := supported } ∨
      ∃ o1 b1, finalize env { s.board with supported := supported, fuel := k } = (o1, b1) ∧ ∃ k', s'.board = { b1 with fuel := k' } := by
  obtain ⟨o, s1, hm, h⟩ := observe_ok h
  obtain ⟨e1, e2, e3, e4, e5, k, e6⟩ := start_cases hm
  have e6' : s1.board = { s.board with supported := supported } ∨
      ∃ o1 b1, finalize env { s.board with supported := supported, fuel := k } = (o1, b1) ∧ ∃ k', s1.board = { b1 with fuel := k' } :=
    e6.imp And.left id
  rcases h with ⟨x, rfl, rfl, rfl⟩ | ⟨e, rfl, rfl, rfl⟩
  · exact ⟨e1, e2, e3, e4, e5, k, e6'⟩
  · exact ⟨e1, e2, e3, e4, e5, k, e6'⟩

theorem step_pending {env : Env} {s s' : State} {o : Op} {a : Option Reply} (h : step env s o = .ok (a, s')) :
    s'.core.serial = s.core.serial ∧ s'.core.hwid = s.core.hwid ∧
    (s'.core.pending = none ∨ (s'.core.pending = s.core.pending ∧ OstKept o a) ∨
     ∃ t, s'.core.pending = some t ∧ t.isOstree = true ∧ OstEstablished env s s' t o a) := by
  cases o with
  | putMeta m clock fuel =>
    obtain ⟨e1, e2, -, -, -, -, hc⟩ := putMeta_step h
    refine ⟨e1, e2, ?_⟩
    rcases hc with ⟨h1, h2⟩ | ⟨rfl, t, h1, h2, h3, h4⟩
    · exact .inr (.inl ⟨h1, h2⟩)
    · exact .inr (.inr ⟨t, h1, h2, rfl, h3, h4⟩)
  | download io archive =>
    obtain ⟨e1, e2, -, -, hc, -⟩ := download_step h
    refine ⟨e1, e2, ?_⟩
    rcases hc with h1 | ⟨h1, h2⟩
    · exact .inl h1
    · refine .inr (.inl ⟨h1, ?_⟩)
      cases a with
      | none => trivial
      | some a =>
        cases a with
        | result r => exact h2 r rfl
        | metadata _ => trivial
        | started => trivial
  | install sysroot io fuel =>
    obtain ⟨e1, e2, e3, -⟩ := install_step h
    exact ⟨e1, e2, .inr (.inl ⟨e3, trivial⟩)⟩
  | start supported clock fuel =>
    obtain ⟨e1, e2, -, -, hc, -⟩ := start_step h
    refine ⟨e1, e2, ?_⟩
    rcases hc with h1 | ⟨t, w', h1, h2, ⟨raw, h3⟩, h4, h5⟩
    · exact .inl h1
    · exact .inr (.inr ⟨t, h1, h5, w', raw, h2, h3, h4⟩)
  | reboot boots =>
    simp only [step, Except.ok.injEq, Prod.mk.injEq] at h
    obtain ⟨rfl, rfl⟩ := h
    exact ⟨rfl, rfl, .inr (.inl ⟨rfl, trivial⟩)⟩

/-! ## Histories -/

theorem run_snoc {env : Env} {s s' : State} {ops : List Op} {o : Op} (h : run env s (ops ++ [o]) = .ok s') :
    ∃ s1 a, run env s ops = .ok s1 ∧ step env s1 o = .ok (a, s') := by
  induction ops generalizing s with
  | nil =>
    simp only [List.nil_append, run, bind, Except.bind] at h
    cases hs : step env s o with
    | error e => rw [hs] at h; cases h
    | ok r =>
      rw [hs] at h
      injection h with h
      exact ⟨s, r.1, rfl, by rw [← h, hs]⟩
  | cons o1 ops ih =>
    simp only [List.cons_append, run, bind, Except.bind] at h ⊢
    cases hs : step env s o1 with
    | error e => rw [hs] at h; cases h
    | ok r =>
      rw [hs] at h
      exact ih h

theorem run_append {env : Env} {s s1 : State} {ops ops' : List Op} (h : run env s ops = .ok s1) :
    run env s (ops ++ ops') = run env s1 ops' := by
  induction ops generalizing s with
  | nil => simp only [run, Except.ok.injEq] at h; rw [h]; rfl
  | cons o ops ih =>
    simp only [List.cons_append, run, bind, Except.bind] at h ⊢
    cases hs : step env s o with
    | error e => rw [hs] at h; cases h
    | ok r => rw [hs] at h; exact ih h

theorem run_names {env : Env} {s0 s : State} (ops : List Op) (h : run env s0 ops = .ok s) :
    s.core.serial = s0.core.serial ∧ s.core.hwid = s0.core.hwid := by
  induction ops using Sec.snoc_ind generalizing s with
  | h0 => simp only [run, Except.ok.injEq] at h; rw [h]; exact ⟨rfl, rfl⟩
  | h1 l o ih =>
    obtain ⟨s1, a, h1, h2⟩ := run_snoc h
    have := ih h1
    have h3 := step_pending h2
    exact ⟨h3.1.trans this.1, h3.2.1.trans this.2⟩

/-- A pending target was established in the history. -/
theorem pending_authorised {env : Env} {s0 s : State} (h0 : s0.core.pending = none) {t : Target} (ops : List Op)
    (h : run env s0 ops = .ok s) (hp : s.core.pending = some t) : OstAuthorised env s0 ops t := by
  induction ops using Sec.snoc_ind generalizing s with
  | h0 =>
    simp only [run, Except.ok.injEq] at h
    rw [← h, h0] at hp
    cases hp
  | h1 l o ih =>
    obtain ⟨s1, a, h1, h2⟩ := run_snoc h
    obtain ⟨e1, e2, h3⟩ := step_pending h2
    obtain ⟨n1, n2⟩ := run_names l h1
    rcases h3 with h3 | ⟨h3, h4⟩ | ⟨t', h3, h4, h5⟩
    · rw [h3] at hp; cases hp
    · rw [hp] at h3
      obtain ⟨k, before, o1, after, s2, a2, s3, rfl, g1, g2, g3, g4, g5, g6⟩ := ih h1 h3.symm
      refine ⟨k, before, o1, after ++ [o], s2, a2, s3, by simp, g1, g2, g3, g4, g5, ?_⟩
      intro p o' q s4 a' s5 hsplit hr hst
      rcases List.eq_nil_or_concat q with rfl | ⟨q', x, rfl⟩
      · have := List.append_inj' (s₁ := after) (t₁ := [o]) (s₂ := p) (t₂ := [o']) hsplit rfl
        obtain ⟨rfl, ho⟩ := this
        injection ho with ho
        subst ho
        have : run env s0 (before ++ o1 :: after) = .ok s4 := by
          rw [run_append g1]
          simp only [run, bind, Except.bind, g2]
          exact hr
        rw [this] at h1
        injection h1 with h1
        subst h1
        rw [hst] at h2
        simp only [Except.ok.injEq, Prod.mk.injEq] at h2
        obtain ⟨rfl, rfl⟩ := h2
        exact h4
      · rw [List.concat_eq_append] at hsplit
        have hsplit' : after ++ [o] = (p ++ o' :: q') ++ [x] := by rw [hsplit]; simp
        obtain ⟨rfl, _⟩ := List.append_inj' hsplit' rfl
        exact g6 p o' q' s4 a' s5 rfl hr hst
    · rw [h3] at hp
      injection hp with hp
      subst hp
      refine ⟨h4, l, o, [], s1, a, s, rfl, h1, h2, n1, n2, h5, ?_⟩
      intro p o' q s4 a' s5 hsplit
      simp at hsplit

/-! ## C74: deployment -/

/-- Only an install request deploys: what boots next, and what is recorded as waiting for a restart, is the pending
target, established before, an OSTree image whose commit is in the repository. -/
theorem C74_deploys_authorised {env : Env} {s0 s s' : State} {ops : List Op} {o : Op} {a : Option Reply}
    (h0 : s0.core.pending = none) (h : run env s0 ops = .ok s) (hs : step env s o = .ok (a, s'))
    (hc : s'.board.next ≠ s.board.next ∨ ∃ r, a = some (.result r) ∧ r.code.num = 21) :
    ∃ sysroot io fuel t, o = .install sysroot io fuel ∧ s.core.up = true ∧ s.core.pending = some t ∧
      OstAuthorised env s0 ops t ∧ t.sha256Hash ∈ s.repo ∧ s'.board.next = some t.sha256Hash := by
  cases o with
  | putMeta m clock fuel =>
    exfalso
    obtain ⟨-, -, e3, -⟩ := putMeta_step hs
    rcases hc with hc | ⟨r, rfl, -⟩
    · exact hc (by rw [e3])
    · rcases request_ok hs with ⟨_, h1, _⟩ | ⟨_, o1, s1, _, ⟨x, _, h1, _⟩ | ⟨e, _, h1, _⟩⟩
      · cases h1
      · injection h1 with h1; cases h1
      · cases h1
  | download io archive =>
    exfalso
    obtain ⟨-, -, e3, e4, -⟩ := download_step hs
    rcases hc with hc | ⟨r, rfl, hn⟩
    · exact hc (by rw [e3])
    · exact (e4 r rfl).1 hn
  | install sysroot io fuel =>
    obtain ⟨-, -, -, -, -, hi⟩ := install_step hs
    rcases hi with ⟨h1, h2⟩ | ⟨t, o1, hu, hp, h2, h3⟩
    · exfalso
      rcases hc with hc | ⟨r, rfl, hn⟩
      · exact hc (by rw [h1])
      · exact h2 r rfl hn
    · refine ⟨sysroot, io, fuel, t, rfl, hu, hp, pending_authorised h0 ops h hp, ?_⟩
      obtain ⟨-, -, -, -, hc'⟩ := installSecondary_cases h3
      rcases hc' with ⟨k1, -, -, k4⟩ | ⟨k1, k2, -⟩
      · exfalso
        rcases hc with hc | ⟨r, rfl, hn⟩
        · exact hc k1
        · exact k4 r (h2 r rfl) hn
      · simp only [Bool.and_eq_true, List.contains_iff_mem] at k1
        exact ⟨k1.2, k2⟩
  | start supported clock fuel =>
    exfalso
    obtain ⟨-, -, -, -, -, k, hb⟩ := start_step hs
    rcases hc with hc | ⟨r, rfl, -⟩
    · apply hc
      rcases hb with hb | ⟨o1, b1, hf, k', hb⟩
      · rw [hb]
      · rw [hb]
        have := finalize_next env { s.board with supported := supported, fuel := k }
        rw [hf] at this
        exact this
    · obtain ⟨o1, s1, _, ⟨x, _, h1, _⟩ | ⟨e, _, h1, _⟩⟩ := observe_ok hs
      · injection h1 with h1; cases h1
      · cases h1
  | reboot boots =>
    exfalso
    simp only [step, Except.ok.injEq, Prod.mk.injEq] at hs
    obtain ⟨rfl, rfl⟩ := hs
    rcases hc with hc | ⟨r, hr, -⟩
    · exact hc rfl
    · cases hr

/-! ## C74: fetching -/

theorem ostSpace_white {c : Char} (h : isSpace c = true) : White c := by
  unfold isSpace at h
  simp only [Bool.or_eq_true, beq_iff_eq, Bool.and_eq_true, decide_eq_true_eq] at h
  rcases h with h | ⟨h1, h2⟩
  · exact .inl h
  · have hc : ∀ d : Char, c.toNat = d.toNat → c = d := fun d hd => Char.ext (UInt32.toNat_inj.1 hd)
    have : c.toNat = 9 ∨ c.toNat = 10 ∨ c.toNat = 11 ∨ c.toNat = 12 ∨ c.toNat = 13 := by omega
    rcases this with h | h | h | h | h
    · exact .inr (.inl (hc '\t' h))
    · exact .inr (.inr (.inl (hc '\n' h)))
    · exact .inr (.inr (.inr (.inr (.inl (hc '\x0b' h)))))
    · exact .inr (.inr (.inr (.inr (.inr (hc '\x0c' h)))))
    · exact .inr (.inr (.inr (.inl (hc '\r' h))))

theorem ostWhite_space {c : Char} (h : White c) : isSpace c = true := by
  rcases h with rfl | rfl | rfl | rfl | rfl | rfl <;> decide

theorem trimUrl_urlOf (text : String) : UrlOf text (trimUrl text) := by
  obtain ⟨l1, r1, h1, h2, -⟩ := Tools.trim_trimmed text.toList
  generalize hu : Tools.trim text.toList = u at h1
  obtain ⟨l, k1, k2, k3⟩ := Tools.dropWhile_parts (p := isSpace) u
  obtain ⟨r, m1, m2, m3⟩ := Tools.dropWhile_parts (p := isSpace) (u.dropWhile isSpace).reverse
  have hs : u.dropWhile isSpace = Conf.trim u ++ r.reverse := by
    unfold Conf.trim
    rw [← List.reverse_append, ← m1, List.reverse_reverse]
  have hurl : (trimUrl text).toList = Conf.trim u := by
    unfold trimUrl
    rw [String.toList_ofList, hu]
  refine ⟨l1 ++ l, r.reverse ++ r1, ?_, ?_, ?_⟩
  · rw [hurl, h1]
    conv => lhs; rw [k1, hs]
    simp
  · intro c hc
    simp only [List.mem_append, List.mem_reverse] at hc
    have hb : ∀ c, c ∈ l1 ∨ c ∈ r1 → White c := by
      intro c hc
      rcases h2 c (List.mem_append.2 hc) with h | h | h | h
      · exact .inl h
      · exact .inr (.inl h)
      · exact .inr (.inr (.inr (.inl h)))
      · exact .inr (.inr (.inl h))
    rcases hc with (hc | hc) | (hc | hc)
    · exact hb c (.inl hc)
    · exact ostSpace_white (k2 c hc)
    · exact ostSpace_white (m2 c hc)
    · exact hb c (.inr hc)
  · rw [hurl]
    intro c hc hw
    have hsp := ostWhite_space hw
    have : isSpace c = false := by
      rcases hc with hc | hc
      · refine k3 c ?_
        rw [hs, List.head?_append, hc]
        rfl
      · refine m3 c ?_
        unfold Conf.trim at hc
        rwa [List.getLast?_reverse] at hc
    rw [hsp] at this
    cases this

theorem readFile_has {archive : Option (List Entry)} {name text : String} (h : HasFile archive name text) :
    readFile archive name = .ok text := by
  obtain ⟨pre, e, post, rfl, rfl, hw, rfl, hx⟩ := h
  have hpre : pre.filter (fun x => x.name == e.name) = [] :=
    List.filter_eq_nil_iff.2 fun x hm => by simpa using hx x (List.mem_append_left _ hm)
  have hpost : post.filter (fun x => x.name == e.name) = [] :=
    List.filter_eq_nil_iff.2 fun x hm => by simpa using hx x (List.mem_append_right _ hm)
  unfold readFile
  simp only [List.filter_append, List.filter_cons, hpre, hpost, beq_self_eq_true, if_true, List.nil_append, List.any_cons, hw,
    Bool.true_or, List.map_cons, List.map_nil]
  simp [String.join]

/-- The archive was opened and has a file of that name that was read to its end. -/
def _root_.Aktualizr.Spec.Readable (archive : Option (List Entry)) (name : String) : Prop :=
  ∃ es e, archive = some es ∧ e ∈ es ∧ e.name = name ∧ e.whole = true

theorem readFile_readable {archive : Option (List Entry)} {name text : String} (h : readFile archive name = .ok text) : Readable archive name := by
  unfold readFile at h
  cases archive with
  | none => cases h
  | some es =>
    simp only at h
    split at h
    · rename_i hw
      obtain ⟨e, h1, h2⟩ := List.any_eq_true.1 hw
      rw [List.mem_filter] at h1
      exact ⟨es, e, rfl, h1.1, by simpa using h1.2, h2⟩
    · cases h

/-- `p` was pulled for a download request in the history: the commit of the target that was pending then, from the
server in the archive with the credentials in the archive, all of which could be read. -/
def _root_.Aktualizr.Spec.FetchedFor (env : Env) (s0 : State) (ops : List Op) (p : Pull) : Prop :=
  ∃ before io archive after s1 t, ops = before ++ .download io archive :: after ∧ run env s0 before = .ok s1 ∧
    s1.core.up = true ∧ s1.core.pending = some t ∧ OstAuthorised env s0 before t ∧ p.commit = t.sha256Hash ∧
    (∀ name ∈ ["ca.pem", "client.pem", "pkey.pem", "server.url"], Readable archive name) ∧
    (∀ text, HasFile archive "server.url" text → UrlOf text p.server) ∧
    ∀ ca cert pkey, HasFile archive "ca.pem" ca → HasFile archive "client.pem" cert → HasFile archive "pkey.pem" pkey →
      ca ≠ "" → cert ≠ "" → pkey ≠ "" → p.keys = some ⟨ca, cert, pkey⟩

theorem fetchedFor_more {env : Env} {s0 : State} {ops : List Op} {p : Pull} (h : FetchedFor env s0 ops p) (o : Op) :
    FetchedFor env s0 (ops ++ [o]) p := by
  obtain ⟨before, io, archive, after, s1, t, rfl, h⟩ := h
  exact ⟨before, io, archive, after ++ [o], s1, t, by simp, h⟩

/-- Every pull, and every commit that came into the repository, is for an established target. -/
theorem C74_fetches_authorised {env : Env} {s0 s : State} (ops : List Op) (h0 : s0.core.pending = none)
    (h : run env s0 ops = .ok s) :
    ∃ new, s.pulls = s0.pulls ++ new ∧ (∀ p ∈ new, FetchedFor env s0 ops p) ∧
      ∀ c ∈ s.repo, c ∈ s0.repo ∨ ∃ p ∈ new, p.commit = c := by
  induction ops using Sec.snoc_ind generalizing s with
  | h0 =>
    simp only [run, Except.ok.injEq] at h
    subst h
    exact ⟨[], by simp, by simp, fun c hc => .inl hc⟩
  | h1 l o ih =>
    obtain ⟨s1, a, h1, h2⟩ := run_snoc h
    obtain ⟨new, g1, g2, g3⟩ := ih h1
    have hsame : s.repo = s1.repo → s.pulls = s1.pulls → ∃ new, s.pulls = s0.pulls ++ new ∧
        (∀ p ∈ new, FetchedFor env s0 (l ++ [o]) p) ∧ ∀ c ∈ s.repo, c ∈ s0.repo ∨ ∃ p ∈ new, p.commit = c :=
      fun e1 e2 => ⟨new, by rw [e2, g1], fun p hp => fetchedFor_more (g2 p hp) o, by rw [e1]; exact g3⟩
    cases o with
    | putMeta m clock fuel =>
      obtain ⟨-, -, -, e1, e2, -⟩ := putMeta_step h2
      exact hsame e1 e2
    | install sysroot io fuel =>
      obtain ⟨-, -, -, e1, e2, -⟩ := install_step h2
      exact hsame e1 e2
    | start supported clock fuel =>
      obtain ⟨-, -, e1, e2, -⟩ := start_step h2
      exact hsame e1 e2
    | reboot boots =>
      simp only [step, Except.ok.injEq, Prod.mk.injEq] at h2
      obtain ⟨rfl, rfl⟩ := h2
      exact hsame rfl rfl
    | download io archive =>
      obtain ⟨-, -, -, -, -, hc⟩ := download_step h2
      rcases hc with ⟨e1, e2⟩ | ⟨t, ca, cert, pkey, server, hu, hp, hx, e1, hr⟩
      · exact hsame e1 e2
      · refine ⟨new ++ [⟨server, (s1.keys.load ca cert pkey).used, t.sha256Hash⟩], by rw [e1, g1, List.append_assoc], ?_, ?_⟩
        · intro p hpm
          rcases List.mem_append.1 hpm with hpm | hpm
          · exact fetchedFor_more (g2 p hpm) _
          · obtain rfl := List.mem_singleton.1 hpm
            unfold extract at hx
            simp only [exc_bind_ok] at hx
            obtain ⟨ca', x1, cert', x2, pkey', x3, url, x4, hx⟩ := hx
            simp only [pure, Except.pure, Except.ok.injEq, Prod.mk.injEq] at hx
            obtain ⟨rfl, rfl, rfl, rfl⟩ := hx
            refine ⟨l, io, archive, [], s1, t, rfl, h1, hu, hp, pending_authorised h0 l h1 hp, rfl, ?_, ?_, ?_⟩
            · intro name hname
              simp only [List.mem_cons, List.not_mem_nil, or_false] at hname
              rcases hname with rfl | rfl | rfl | rfl
              · exact readFile_readable x1
              · exact readFile_readable x2
              · exact readFile_readable x3
              · exact readFile_readable x4
            · intro text ht
              rw [readFile_has ht] at x4
              injection x4 with x4
              subst x4
              exact trimUrl_urlOf _
            · intro ca cert pkey k1 k2 k3 n1 n2 n3
              rw [readFile_has k1] at x1
              rw [readFile_has k2] at x2
              rw [readFile_has k3] at x3
              injection x1 with x1
              injection x2 with x2
              injection x3 with x3
              subst x1 x2 x3
              simp [Keys.used, Keys.load, n1, n2, n3]
        · intro c hc
          rcases hr with ⟨hr, -⟩ | ⟨hr, -⟩
          · rw [hr] at hc
            exact (g3 c hc).imp id fun ⟨p, q1, q2⟩ => ⟨p, List.mem_append_left _ q1, q2⟩
          · rw [hr] at hc
            rcases List.mem_append.1 hc with hc | hc
            · exact (g3 c hc).imp id fun ⟨p, q1, q2⟩ => ⟨p, List.mem_append_left _ q1, q2⟩
            · obtain rfl := List.mem_singleton.1 hc
              exact .inr ⟨_, List.mem_append_right _ (List.mem_singleton.2 rfl), rfl⟩

/-- A download answered with success: the commit is in the repository, or one whose hash begins with it. -/
theorem C74_download_answer {env : Env} {s s' : State} {io : PullIo} {archive : Option (List Entry)} {r : InstResult}
    (h : step env s (.download io archive) = .ok (some (.result r), s')) (hr : r.success = true) :
    ∃ t c, s.core.pending = some t ∧ c ∈ s'.repo ∧ t.sha256Hash.toList <+: c.toList := by
  obtain ⟨-, -, -, e4, -⟩ := download_step h
  exact (e4 r rfl).2 hr

/-! ## C74: the record of what is installed -/

/-- Where current rows come from. -/
theorem current_save {env : Env} {db : VersionDb} {p : String} (hp : p ≠ "") (ho : VersionDb.Ordered db.rows) {t : Target}
    {mode : UpdateMode} {x : VersionRow} (hx : x ∈ (db.saveInstalledVersion env p t mode).rows) (he : x.ecu = p)
    (hcur : x.isCurrent = true) :
    (mode = .current ∧ x.name = t.filename ∧ x.sha256 = t.sha256Hash) ∨
    ∃ r ∈ db.rows, r.ecu = p ∧ r.isCurrent = true ∧ r.name = x.name ∧ r.sha256 = x.sha256 := by
  have hreal : db.realSerial p = p := by simp [VersionDb.realSerial, hp]
  rw [VersionDb.save_rows, hreal] at hx
  rcases List.mem_append.1 hx with hx | hx
  · obtain ⟨r, hr, rfl⟩ := List.mem_map.1 hx
    rw [VersionDb.save1_ecu] at he
    have hent := VersionDb.save1_entry p t mode (VersionDb.oldRow db.rows p t) r
    rcases VersionDb.save1_isCurrent he hcur with ⟨h1, o, h2, h3⟩ | ⟨h1, h2, -⟩
    · obtain ⟨q1, q2, q3, q4⟩ := VersionDb.oldRow_some h2
      obtain rfl := ho.inj hr q1 h3
      exact .inl ⟨h1, by rw [← q4]; exact hent.2.2.1.symm, by rw [← q3]; exact hent.2.1.symm⟩
    · exact .inr ⟨r, hr, he, h2, hent.2.2.1, hent.2.1⟩
  · split at hx
    · simp at hx
    · simp only [List.mem_singleton] at hx
      subst hx
      cases mode with
      | current => exact .inl ⟨rfl, rfl, rfl⟩
      | none => simp [VersionDb.freshRow] at hcur
      | pending => simp [VersionDb.freshRow] at hcur

theorem save_ecus {env : Env} {db : VersionDb} {p : String} {t : Target} {mode : UpdateMode} :
    (db.saveInstalledVersion env p t mode).ecus = db.ecus := by
  unfold VersionDb.saveInstalledVersion
  simp only
  split <;> rfl

/-- What holds between any two operations. -/
structure Sound (env : Env) (b : Boot.Board) : Prop where
  inv : Boot.Inv env .ostree b
  supported : b.supported = true
  tidy : VersionDb.Tidy b.v.rows
  cur : ∀ x ∈ b.v.rows, x.ecu = b.primary → x.isCurrent = true → ∃ before t r after,
    b.log = before ++ .result t r (some x.sha256) :: after ∧ r.success = true ∧ t.filename = x.name ∧ t.sha256Hash = x.sha256

theorem Sound.install {env : Env} {io : Boot.Io} {t : Target} {b b' : Boot.Board} {o : Except Err InstResult}
    (h : Sound env b) (ht : WellHashed t) (hi : Boot.installSecondary env .ostree io t b = (o, b')) : Sound env b' := by
  obtain ⟨i1, i2, i3, i4⟩ := h
  have hinv := Boot.installSecondary_inv (io := io) i1 ht i2
  rw [hi] at hinv
  obtain ⟨c1, -, -, -, hc⟩ := installSecondary_cases hi
  have same : b'.v = b.v → b'.log = b.log → Sound env b' := fun e1 e2 =>
    ⟨hinv.1, hinv.2, by rw [e1]; exact i3, by rw [e1, e2, c1]; exact i4⟩
  rcases hc with ⟨-, e1, e2, -⟩ | ⟨-, -, ⟨e1, e2, -⟩ | ⟨r, f, s, -, -, e1, e2⟩⟩
  · exact same e1 e2
  · exact same e1 e2
  · refine ⟨hinv.1, hinv.2, by rw [e1]; exact VersionDb.save_tidy _ _ _ i3, ?_⟩
    rw [e1, e2, c1]
    intro x hx he hcur
    rcases current_save i1.primary i1.ordered hx he hcur with ⟨h1, -⟩ | ⟨y, hy, q1, q2, q3, q4⟩
    · cases h1
    · obtain ⟨before, t1, r1, after, m1, m2, m3, m4⟩ := i4 y hy q1 q2
      exact ⟨before, t1, r1, after ++ [.pending t f s], by rw [m1, q4]; simp, m2, m3.trans q3, m4.trans q4⟩

theorem Sound.finalize {env : Env} {b b' : Boot.Board} {o : Except Err Bool} (h : Sound env b)
    (hf : finalize env b = (o, b')) : Sound env b' := by
  obtain ⟨i1, i2, i3, i4⟩ := h
  have hb := finalize_board env b
  rw [hf] at hb
  obtain ⟨j1, j2⟩ := Boot.finalize_inv i1 (o := (Boot.finalizeAfterReboot env .ostree {} b).1) (b' := b')
    (io := {}) (Prod.ext rfl hb)
  obtain ⟨c1, -, -, -, hc⟩ := finalize_versions hf
  have old : ∀ tail, ∀ x ∈ b.v.rows, x.ecu = b.primary → x.isCurrent = true → ∃ before t r after,
      b.log ++ tail = before ++ .result t r (some x.sha256) :: after ∧ r.success = true ∧ t.filename = x.name ∧ t.sha256Hash = x.sha256 := by
    intro tail x hx he hcur
    obtain ⟨before, t1, r1, after, m1, m2⟩ := i4 x hx he hcur
    exact ⟨before, t1, r1, after ++ tail, by rw [m1]; simp, m2⟩
  refine ⟨j1, j2.trans i2, ?_, ?_⟩
  · rcases hc with ⟨e1, -⟩ | ⟨t, r, -, -, -, -, e1⟩
    · rw [e1]; exact i3
    · rw [e1]; exact VersionDb.save_tidy _ _ _ i3
  · rcases hc with ⟨e1, e2 | ⟨t, r, -, -, -, e2⟩⟩ | ⟨t, r, -, -, e3, e2, e1⟩
    · rw [e1, e2, c1]; exact i4
    · rw [e1, e2, c1]; exact old _
    · rw [e1, e2, c1]
      intro x hx he hcur
      rcases current_save i1.primary i1.ordered hx he hcur with ⟨h1, q1, q2⟩ | ⟨y, hy, q1, q2, q3, q4⟩
      · have hs : r.success = true := by
          cases hr : r.success with
          | true => rfl
          | false => rw [hr] at h1; cases h1
        exact ⟨b.log, t, r, [], by rw [e3 hs, q2], hs, q1.symm, q2.symm⟩
      · obtain ⟨before, t1, r1, after, m1, m2, m3, m4⟩ := old [.result t r b.booted] y hy q1 q2
        exact ⟨before, t1, r1, after, by rw [m1, q4], m2, m3.trans q3, m4.trans q4⟩

/-- Starts find reboot detection working. -/
def _root_.Aktualizr.Spec.StartsSupported (ops : List Op) : Prop := ∀ b c f, Op.start b c f ∈ ops → b = true

/-- The targets that become pending have well-formed hashes, with a SHA-256. -/
def _root_.Aktualizr.Spec.PendingHashed (env : Env) (s0 : State) (ops : List Op) : Prop :=
  ∀ before after s1 t, ops = before ++ after → run env s0 before = .ok s1 → s1.core.pending = some t → WellHashed t

/-- A device as it leaves the factory: no versions, no notes. -/
structure _root_.Aktualizr.Spec.FactoryBoard (b : Boot.Board) : Prop where
  rows : b.v.rows = []
  log : b.log = []
  primary : b.primary ≠ ""
  supported : b.supported = true

theorem FactoryBoard.sound {env : Env} {b : Boot.Board} (h : FactoryBoard b) : Sound env b := by
  obtain ⟨h1, h2, h3, h4⟩ := h
  exact ⟨⟨h3, by simp [h1, VersionDb.Ordered], by simp [h1], by simp [h1], by simp [h2]⟩, h4,
    ⟨by simp [h1, VersionDb.Ordered], by simp [h1], by simp [h1]⟩, by simp [h1]⟩

theorem run_sound {env : Env} {s0 s : State} (ops : List Op) (hb : Sound env s0.board) (hs : StartsSupported ops)
    (hw : PendingHashed env s0 ops) (h : run env s0 ops = .ok s) :
    Sound env s.board ∧ s.board.primary = s0.board.primary ∧ s.board.v.ecus = s0.board.v.ecus := by
  induction ops using Sec.snoc_ind generalizing s with
  | h0 =>
    simp only [run, Except.ok.injEq] at h
    subst h
    exact ⟨hb, rfl, rfl⟩
  | h1 l o ih =>
    obtain ⟨s1, a, h1, h2⟩ := run_snoc h
    obtain ⟨ih, n1, n2⟩ := ih (fun b c f hm => hs b c f (List.mem_append_left _ hm))
      (fun before after s2 t e => hw before (after ++ [o]) s2 t (by rw [e, List.append_assoc])) h1
    have refuel : ∀ {b : Boot.Board} (k : Nat), Sound env b → Sound env { b with fuel := k } := fun k g =>
      ⟨⟨g.inv.primary, g.inv.ordered, g.inv.recorded, g.inv.pend, g.inv.result⟩, g.supported, g.tidy, g.cur⟩
    cases o with
    | putMeta m clock fuel =>
      obtain ⟨-, -, e, -⟩ := putMeta_step h2
      rw [e]; exact ⟨ih, n1, n2⟩
    | download io archive =>
      obtain ⟨-, -, e, -⟩ := download_step h2
      rw [e]; exact ⟨ih, n1, n2⟩
    | install sysroot io fuel =>
      obtain ⟨-, -, -, -, -, hi⟩ := install_step h2
      rcases hi with ⟨e, -⟩ | ⟨t, o1, -, hp, -, hi⟩
      · rw [e]; exact ⟨ih, n1, n2⟩
      · have ht := hw l [_] s1 t rfl h1 hp
        obtain ⟨c1, -, -, -, hc⟩ := installSecondary_cases hi
        refine ⟨(refuel fuel ih).install ht hi, c1.trans n1, ?_⟩
        rcases hc with ⟨-, e1, -⟩ | ⟨-, -, ⟨e1, -⟩ | ⟨_, _, _, -, -, e1, -⟩⟩
        · rw [e1]; exact n2
        · rw [e1]; exact n2
        · rw [e1, save_ecus]; exact n2
    | start supported clock fuel =>
      obtain rfl := hs supported clock fuel (by simp)
      have hsup : Sound env { s1.board with supported := true } :=
        ⟨⟨ih.inv.primary, ih.inv.ordered, ih.inv.recorded, ih.inv.pend, ih.inv.result⟩, rfl, ih.tidy, ih.cur⟩
      obtain ⟨-, -, -, -, -, k, hc⟩ := start_step h2
      rcases hc with e | ⟨o1, b1, hf, k', e⟩
      · rw [e]; exact ⟨hsup, n1, n2⟩
      · have h3 := (refuel k hsup).finalize hf
        obtain ⟨c1, -, -, -, hc⟩ := finalize_versions hf
        rw [e]
        refine ⟨refuel k' h3, c1.trans n1, ?_⟩
        rcases hc with ⟨e1, -⟩ | ⟨_, _, -, -, -, -, e1⟩
        · show b1.v.ecus = _
          rw [e1]; exact n2
        · show b1.v.ecus = _
          rw [e1, save_ecus]; exact n2
    | reboot boots =>
      simp only [step, Except.ok.injEq, Prod.mk.injEq] at h2
      obtain ⟨rfl, rfl⟩ := h2
      refine ⟨⟨Boot.append_reboot ih.inv rfl rfl rfl, ih.supported, ih.tidy, ?_⟩, n1, n2⟩
      intro x hx he hcur
      obtain ⟨before, t1, r1, after, m1, m2⟩ := ih.cur x hx he hcur
      exact ⟨before, t1, r1, after ++ [.reboot], by show s1.board.log ++ _ = _; rw [m1]; simp, m2⟩

/-- What is recorded as the current version booted: it had been recorded as pending with both flags set, the machine
was restarted, and the next start found this very version running. Partial: if reboot detection does not work at some
start, or hashes are malformed, this is not shown. -/
theorem C74_current_partial {env : Env} {s0 s : State} {ops : List Op} (hb : FactoryBoard s0.board) (hs : StartsSupported ops)
    (hw : PendingHashed env s0 ops) (h : run env s0 ops = .ok s) {x : VersionRow} (hx : x ∈ s.board.v.rows)
    (he : x.ecu = s.board.primary) (hc : x.isCurrent = true) : BootedAfterFlags s.board.log x.name x.sha256 := by
  obtain ⟨hsound, -⟩ := run_sound ops (FactoryBoard.sound hb) hs hw h
  obtain ⟨before, t, r, after, m1, m2, m3, m4⟩ := hsound.cur x hx he hc
  exact ⟨before, t, r, after, m1, m2, m3, m4, (hsound.inv.result _ _ _ _ _ m1 m2).1⟩

theorem readAll_mem {env : Env} {ecus : List (String × String)} : ∀ {rows : List VersionRow} {l : List Target},
    VersionDb.readAll env ecus rows = .ok l →
    (∀ t ∈ l, ∃ r ∈ rows, VersionDb.readTarget env ecus r = .ok t) ∧ ∀ r ∈ rows, ∃ t ∈ l, VersionDb.readTarget env ecus r = .ok t
  | [], l, h => by
    simp only [VersionDb.readAll, Except.ok.injEq] at h
    subst h
    exact ⟨by simp, by simp⟩
  | r :: rs, l, h => by
    simp only [VersionDb.readAll, exc_bind_ok] at h
    obtain ⟨t, h1, l', h2, h3⟩ := h
    simp only [pure, Except.pure, Except.ok.injEq] at h3
    subst h3
    obtain ⟨q1, q2⟩ := readAll_mem h2
    refine ⟨fun u hu => ?_, fun u hu => ?_⟩
    · rcases List.mem_cons.1 hu with rfl | hu
      · exact ⟨r, by simp, h1⟩
      · obtain ⟨r', k1, k2⟩ := q1 u hu
        exact ⟨r', by simp [k1], k2⟩
    · rcases List.mem_cons.1 hu with rfl | hu
      · exact ⟨t, by simp, h1⟩
      · obtain ⟨t', k1, k2⟩ := q2 u hu
        exact ⟨t', by simp [k1], k2⟩

/-- The manifest names the hash that runs. The name is that of a recorded version with this hash, the current one if
that has it; else it is made from the hardware id and the hash, and no version is recorded with this hash. -/
theorem C74_manifest {env : Env} {s0 s : State} {ops : List Op} {pre name hash : String} (hb : FactoryBoard s0.board)
    (hr : s0.board.v.realSerial "" = s0.board.primary) (hs : StartsSupported ops)
    (hw : PendingHashed env s0 ops) (h : run env s0 ops = .ok s) (hm : installedImage env pre s = some (name, hash)) :
    s.board.booted = some hash ∧
    ((∃ x ∈ s.board.v.rows, x.ecu = s.board.primary ∧ x.name = name ∧ x.sha256 = hash) ∨
     (name = pre ++ "-" ++ hash ∧ ∀ x ∈ s.board.v.rows, x.ecu = s.board.primary → x.sha256 ≠ hash)) ∧
    ∀ x ∈ s.board.v.rows, x.ecu = s.board.primary → x.isCurrent = true → x.sha256 = hash → x.name = name := by
  obtain ⟨hsound, n1, n2⟩ := run_sound ops (FactoryBoard.sound hb) hs hw h
  have hreal : s.board.v.realSerial "" = s.board.primary := by
    rw [n1, ← hr]
    unfold VersionDb.realSerial
    rw [n2]
  have hread : ∀ {ecus r t}, r ∈ s.board.v.rows → VersionDb.readTarget env ecus r = .ok t →
      t.filename = r.name ∧ t.sha256Hash = r.sha256 := fun {ecus r t} hm hrd => by
    obtain ⟨t0, hw, hrec⟩ := hsound.inv.recorded r hm
    obtain ⟨n1, n2, -⟩ := Boot.read_sha hw hrec hrd
    exact ⟨n1, n2⟩
  unfold installedImage at hm
  cases hbt : s.board.booted with
  | none => rw [hbt] at hm; cases hm
  | some hash' =>
    rw [hbt] at hm
    simp only at hm
    cases hg : getCurrent env s.board.v hash' with
    | error e => rw [hg] at hm; cases hm
    | ok ot =>
      have hh : hash' = hash := by
        rw [hg] at hm
        cases ot <;> (simp only [Option.some.injEq, Prod.mk.injEq] at hm; exact hm.2)
      subst hh
      refine ⟨rfl, ?_⟩
      have hgc := hg
      unfold getCurrent at hg
      simp only [exc_bind_ok] at hg
      obtain ⟨oc, hlc, hg⟩ := hg
      unfold VersionDb.loadCurrent at hlc
      rw [hreal] at hlc
      simp only [exc_bind_ok] at hlc
      obtain ⟨ecus, -, hlc⟩ := hlc
      -- the rows found in the log
      have hlog : ∀ {o : Option Target}, (do
            let l ← s.board.v.loadInstallationLog env "" false
            pure (l.reverse.find? (fun t => t.sha256Hash == hash')) : Except Err (Option Target)) = .ok o →
          (∀ t, o = some t → ∃ x ∈ s.board.v.rows, x.ecu = s.board.primary ∧ x.name = t.filename ∧ x.sha256 = hash') ∧
          (o = none → ∀ x ∈ s.board.v.rows, x.ecu = s.board.primary → x.sha256 ≠ hash') := by
        intro o hl
        simp only [exc_bind_ok] at hl
        obtain ⟨l, h1, h2⟩ := hl
        simp only [pure, Except.pure, Except.ok.injEq] at h2
        unfold VersionDb.loadInstallationLog at h1
        rw [hreal] at h1
        simp only [exc_bind_ok] at h1
        obtain ⟨ecus', -, h1⟩ := h1
        obtain ⟨q1, q2⟩ := readAll_mem h1
        refine ⟨fun t ht => ?_, fun hn x hx he hsha => ?_⟩
        · rw [ht] at h2
          have hmem := List.mem_reverse.1 (List.mem_of_find?_eq_some h2)
          have hp := List.find?_some h2
          simp only [beq_iff_eq] at hp
          obtain ⟨x, hx, hrd⟩ := q1 t hmem
          obtain ⟨hx1, hx2⟩ := List.mem_filter.1 hx
          simp only [Bool.not_false, Bool.true_or, Bool.and_true, beq_iff_eq] at hx2
          obtain ⟨k1, k2⟩ := hread hx1 hrd
          exact ⟨x, hx1, hx2, k1.symm, by rw [← k2, hp]⟩
        · rw [hn] at h2
          obtain ⟨t, ht, hrd⟩ := q2 x (List.mem_filter.2 ⟨hx, by simp [he]⟩)
          have := List.find?_eq_none.1 h2 t (List.mem_reverse.2 ht)
          rw [(hread hx hrd).2, hsha] at this
          simp at this
      have viaLog : (do
            let l ← s.board.v.loadInstallationLog env "" false
            pure (l.reverse.find? (fun t => t.sha256Hash == hash')) : Except Err (Option Target)) = .ok ot →
          ((∃ x ∈ s.board.v.rows, x.ecu = s.board.primary ∧ x.name = name ∧ x.sha256 = hash') ∨
           (name = pre ++ "-" ++ hash' ∧ ∀ x ∈ s.board.v.rows, x.ecu = s.board.primary → x.sha256 ≠ hash')) := by
        intro hl
        obtain ⟨k1, k2⟩ := hlog hl
        rw [hgc] at hm
        cases ot with
        | none =>
          simp only [Option.some.injEq, Prod.mk.injEq] at hm
          exact .inr ⟨hm.1.symm, k2 rfl⟩
        | some t =>
          simp only [Option.some.injEq, Prod.mk.injEq] at hm
          obtain ⟨x, m1, m2, m3, m4⟩ := k1 t rfl
          exact .inl ⟨x, m1, m2, m3.trans hm.1, m4⟩
      cases hcr : s.board.v.currentRow s.board.primary with
      | none =>
        rw [hcr] at hlc
        simp only [VersionDb.readRow, Except.ok.injEq] at hlc
        subst hlc
        refine ⟨viaLog hg, fun x hx he hc => ?_⟩
        have := List.find?_eq_none.1 hcr x hx
        simp [he, hc] at this
      | some y =>
        rw [hcr] at hlc
        simp only [VersionDb.readRow, exc_bind_ok] at hlc
        obtain ⟨t, hrd, hlc⟩ := hlc
        simp only [pure, Except.pure, Except.ok.injEq] at hlc
        subst hlc
        have hym := List.mem_of_find?_eq_some hcr
        have hyp := List.find?_some hcr
        simp only [Bool.and_eq_true, beq_iff_eq] at hyp
        obtain ⟨k1, k2⟩ := hread hym hrd
        have uniq : ∀ x ∈ s.board.v.rows, x.ecu = s.board.primary → x.isCurrent = true → x = y := fun x hx he hc =>
          hsound.tidy.ordered.inj hx hym (hsound.tidy.current x hx y hym (he.trans hyp.1.symm) hc hyp.2)
        by_cases hsha : t.sha256Hash = hash'
        · simp only [hsha, if_true, pure, Except.pure, Except.ok.injEq] at hg
          subst hg
          rw [hgc] at hm
          simp only [Option.some.injEq, Prod.mk.injEq] at hm
          exact ⟨.inl ⟨y, hym, hyp.1, by rw [← k1, hm.1], by rw [← k2, hsha]⟩,
            fun x hx he hc _ => by rw [uniq x hx he hc, ← k1, hm.1]⟩
        · simp only [hsha, if_false] at hg
          refine ⟨viaLog hg, fun x hx he hc hxs => ?_⟩
          rw [uniq x hx he hc, ← k2] at hxs
          exact absurd hxs hsha

end Aktualizr.SecOst
