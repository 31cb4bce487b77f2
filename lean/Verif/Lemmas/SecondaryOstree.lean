import Verif.Model.SecondaryOstree
import Verif.Lemmas.Secondary
import Verif.Props.C21
import Verif.Lemmas.Honest
import Verif.Lemmas.Frame

/-! # Lemmas about the OSTree Secondary -/

namespace Aktualizr.SecOst

open M Spec

theorem inCore_eq {α : Type} (m : Sec.S α) (s : State) :
    inCore m s = ((m s.core).1, { s with core := (m s.core).2 }) := rfl

theorem inBoard_eq {α : Type} (m : Boot.B α) (s : State) :
    inBoard m s = ((m s.boardNow).1, s.setBoard (m s.boardNow).2) := rfl

/-! ### Finalisation -/

/-- What the Secondary does with a pending version is what the Primary does. -/
theorem finalize_eq (env : Env) (b : Boot.Board) :
    Boot.finalizeAfterReboot env .ostree {} b = (finalize env >>= fun _ => pure ()) b := by
  unfold Boot.finalizeAfterReboot finalize
  simp only [Sec.bind_apply, gets_eq, id]
  cases hp : b.v.hasPendingInstall with
  | false => rfl
  | true =>
    simp only [Bool.not_true, Bool.false_eq_true, if_false, Sec.bind_apply, lift_eq]
    cases hl : b.v.loadPending env b.primary with
    | error e => rfl
    | ok p =>
      cases p with
      | none => rfl
      | some t =>
        simp only [Sec.bind_apply]
        cases hf : Boot.pmFinalize env .ostree {} t b with
        | mk o b1 =>
          cases o with
          | error e => rfl
          | ok r =>
            simp only [Sec.bind_apply, lift_eq]
            cases hc : r.code.same .needCompletion with
            | error e => rfl
            | ok c =>
              cases c with
              | true => rfl
              | false =>
                simp only [Bool.false_eq_true, if_false, Sec.bind_apply]
                cases he : Boot.effect (fun b => { b with log := b.log ++ [.result t r b.booted] }) b1 with
                | mk o2 b2 =>
                  cases o2 with
                  | error e => rfl
                  | ok u =>
                    simp only
                    cases hs : Boot.save env t (if r.success then .current else .none) b2 with
                    | mk o3 b3 =>
                      cases o3 with
                      | error e => rfl
                      | ok u => rfl

theorem finalize_board (env : Env) (b : Boot.Board) :
    (Boot.finalizeAfterReboot env .ostree {} b).2 = (finalize env b).2 := by
  rw [finalize_eq, Sec.bind_apply]
  cases finalize env b with
  | mk o b' => cases o <;> rfl

/-- Finalising does not change what boots next. -/
theorem finalize_next (env : Env) : Preserves (fun (b b' : Boot.Board) => b'.next = b.next) (finalize env) := by
  have hR : IsPre (fun (b b' : Boot.Board) => b'.next = b.next) := ⟨fun _ => rfl, fun _ _ _ h1 h2 => h2.trans h1⟩
  have he : ∀ f : Boot.Board → Boot.Board, (∀ b, (f b).next = b.next) →
      Preserves (fun (b b' : Boot.Board) => b'.next = b.next) (Boot.effect f) := by
    intro f hf b
    unfold Boot.effect
    split
    · rfl
    · exact hf b
  have hc : Preserves (fun (b b' : Boot.Board) => b'.next = b.next) Boot.rebootFlagClear := by
    unfold Boot.rebootFlagClear
    refine Preserves.bind hR (Preserves.gets hR) fun b => ?_
    split
    · exact Preserves.pure hR
    · exact Preserves.bind hR (he _ fun _ => rfl) fun _ => he _ fun _ => rfl
  unfold finalize
  refine Preserves.bind hR (Preserves.gets hR) fun b => ?_
  split
  · exact Preserves.pure hR
  · refine Preserves.bind hR (Preserves.lift hR) fun p => ?_
    split
    · exact Preserves.pure hR
    · refine Preserves.bind hR ?_ fun r => ?_
      · unfold Boot.pmFinalize
        refine Preserves.bind hR (Preserves.gets hR) fun b => ?_
        split
        · exact Preserves.pure hR
        · exact Preserves.bind hR (Preserves.orThrow hR) fun _ => Preserves.bind hR hc fun _ => Preserves.pure hR
      · refine Preserves.bind hR (Preserves.lift hR) fun c => ?_
        split
        · exact Preserves.pure hR
        · exact Preserves.bind hR (he _ fun _ => rfl) fun _ => Preserves.bind hR (he _ fun _ => rfl) fun _ => Preserves.pure hR

/-- How a finalisation changes what is recorded. -/
theorem finalize_versions {env : Env} {b b' : Boot.Board} {o : Except Err Bool} (h : finalize env b = (o, b')) :
    b'.primary = b.primary ∧ b'.booted = b.booted ∧ b'.next = b.next ∧ b'.supported = b.supported ∧
    ((b'.v = b.v ∧ (b'.log = b.log ∨
        ∃ t r, PendingFor env b t ∧ b.rebootDetected = true ∧ (r.success = true → b.booted = some t.sha256Hash) ∧
          b'.log = b.log ++ [.result t r b.booted])) ∨
     ∃ t r, PendingFor env b t ∧ b.rebootDetected = true ∧ (r.success = true → b.booted = some t.sha256Hash) ∧
       b'.log = b.log ++ [.result t r b.booted] ∧
       b'.v = b.v.saveInstalledVersion env b.primary t (if r.success then .current else .none)) := by
  have hn := (finalize_next env).of_eq h
  have hb := finalize_board env b
  rw [h] at hb
  cases hf : Boot.finalizeAfterReboot env .ostree {} b with
  | mk o1 b1 =>
    rw [hf] at hb
    simp only at hb
    subst hb
    rcases Boot.finalize_cases hf with rfl | ⟨t, hpf, o1, b1, hpm, hc⟩
    · exact ⟨rfl, rfl, rfl, rfl, .inl ⟨rfl, .inl rfl⟩⟩
    · obtain ⟨p1, p2, p3⟩ := Boot.pmFinalize_cases hpm
      rcases hc with rfl | ⟨r, rfl, hcode, k, hc⟩
      · exact ⟨p1.primary, p1.booted, hn, p1.supported, .inl ⟨p1.v, .inl p1.log⟩⟩
      · rcases p3 r rfl with ⟨-, rfl, -⟩ | ⟨hd, hbt⟩
        · exact absurd hcode (by decide +kernel)
        · rcases hc with rfl | ⟨o2, hsv⟩
          · exact ⟨p1.primary, p1.booted, hn, p1.supported,
              .inl ⟨p1.v, .inr ⟨t, r, hpf, hd, fun hs => hbt hs rfl, by simp only [p1.log, p1.booted]⟩⟩⟩
          · unfold Boot.save at hsv
            rcases Boot.effect_cases (fun b => { b with v := b.v.saveInstalledVersion env b.primary t (if r.success then .current else .none) })
              { b1 with log := b1.log ++ [.result t r b1.booted], fuel := k } with he | ⟨k', -, he⟩
            · rw [he] at hsv
              simp only [Prod.mk.injEq] at hsv
              obtain ⟨-, rfl⟩ := hsv
              exact ⟨p1.primary, p1.booted, hn, p1.supported,
                .inl ⟨p1.v, .inr ⟨t, r, hpf, hd, fun hs => hbt hs rfl, by simp only [p1.log, p1.booted]⟩⟩⟩
            · rw [he] at hsv
              simp only [Prod.mk.injEq] at hsv
              obtain ⟨-, rfl⟩ := hsv
              exact ⟨p1.primary, p1.booted, hn, p1.supported,
                .inr ⟨t, r, hpf, hd, fun hs => hbt hs rfl, by simp only [p1.log, p1.booted], by simp only [p1.v, p1.primary]⟩⟩

/-! ### Installation -/

/-- What an installation does: nothing, or the deployment of the target, and possibly the record of it as pending. -/
theorem installSecondary_cases {env : Env} {io : Boot.Io} {t : Target} {b b' : Boot.Board} {o : Except Err InstResult}
    (h : Boot.installSecondary env .ostree io t b = (o, b')) :
    b'.primary = b.primary ∧ b'.booted = b.booted ∧ b'.supported = b.supported ∧ (∀ r, o = .ok r → r.code.num ≠ 0) ∧
    ((b'.next = b.next ∧ b'.v = b.v ∧ b'.log = b.log ∧ ∀ r, o = .ok r → r.code.num ≠ 21) ∨
     (io.deploys = true ∧ b'.next = some t.sha256Hash ∧
       ((b'.v = b.v ∧ b'.log = b.log ∧ ∃ e, o = .error e) ∨
        ∃ r f s, o = .ok r ∧ r.code.num = 21 ∧ b'.v = b.v.saveInstalledVersion env b.primary t .pending ∧
          b'.log = b.log ++ [.pending t f s]))) := by
  have hflag : ∀ ok, Preserves (fun (b b' : Boot.Board) => b'.next = b.next) (Boot.rebootFlagSet ok) := by
    intro ok
    have hR : IsPre (fun (b b' : Boot.Board) => b'.next = b.next) := ⟨fun _ => rfl, fun _ _ _ h1 h2 => h2.trans h1⟩
    have he : ∀ f : Boot.Board → Boot.Board, (∀ b, (f b).next = b.next) →
        Preserves (fun (b b' : Boot.Board) => b'.next = b.next) (Boot.effect f) := by
      intro f hf b
      unfold Boot.effect
      split
      · rfl
      · exact hf b
    unfold Boot.rebootFlagSet
    refine Preserves.bind hR (Preserves.gets hR) fun b => ?_
    split
    · exact Preserves.pure hR
    · exact Preserves.bind hR (Preserves.throwWhen hR) fun _ =>
        Preserves.bind hR (he _ fun _ => rfl) fun _ => he _ fun _ => rfl
  unfold Boot.installSecondary Boot.pmInstall at h
  simp only at h
  cases hd : io.deploys with
  | false =>
    simp only [hd, Bool.not_false, if_true, Sec.bind_apply, pure_eq] at h
    rw [if_neg (by decide), if_neg (by decide)] at h
    simp only [pure_eq, Prod.mk.injEq] at h
    obtain ⟨rfl, rfl⟩ := h
    exact ⟨rfl, rfl, rfl, by simp [InstResult.ofCode, ResultCode.installFailed],
      .inl ⟨rfl, rfl, rfl, by simp [InstResult.ofCode, ResultCode.installFailed]⟩⟩
  | true =>
    simp only [hd, Bool.not_true, Bool.false_eq_true, if_false] at h
    rcases bind_cases h with ⟨r, b1, h1, h2⟩ | ⟨e, h1, rfl⟩
    · rcases bind_cases h1 with ⟨u, b2, h3, h4⟩ | ⟨e, h3, he⟩
      · rcases bind_cases h4 with ⟨u, b3, h5, h6⟩ | ⟨e, h5, he⟩
        · simp only [pure_eq, Prod.mk.injEq, Except.ok.injEq] at h6
          obtain ⟨rfl, rfl⟩ := h6
          obtain ⟨p1, -, -⟩ := Boot.flagSet_cases h5
          have hn := (hflag _).of_eq h5
          rcases Boot.effect_cases (fun b => { b with next := some t.sha256Hash }) b with hc | ⟨k, -, hc⟩
          · rw [hc] at h3; simp at h3
          · rw [hc] at h3
            simp only [Prod.mk.injEq] at h3
            obtain ⟨-, rfl⟩ := h3
            rw [if_neg (by decide), if_pos (by decide)] at h2
            rcases bind_cases h2 with ⟨u, b4, h7, h8⟩ | ⟨e, h7, rfl⟩
            · unfold Boot.save at h7
              rcases Boot.effect_cases (fun b => { b with v := b.v.saveInstalledVersion env b.primary t .pending }) b3 with hc | ⟨k, -, hc⟩
              · rw [hc] at h7; simp at h7
              · rw [hc] at h7
                simp only [Prod.mk.injEq] at h7
                obtain ⟨-, rfl⟩ := h7
                rw [run_bind modify_eq] at h8
                simp only [pure_eq, Prod.mk.injEq] at h8
                obtain ⟨rfl, rfl⟩ := h8
                refine ⟨p1.primary, p1.booted, p1.supported, by simp [InstResult.ofCode, ResultCode.needCompletion],
                  .inr ⟨rfl, hn, .inr ⟨_, b3.needReboot, b3.sentinel, rfl, by decide, by simp only [p1.v, p1.primary], by simp only [p1.log]⟩⟩⟩
            · unfold Boot.save at h7
              rcases Boot.effect_cases (fun b => { b with v := b.v.saveInstalledVersion env b.primary t .pending }) b3 with hc | ⟨k, -, hc⟩
              · rw [hc] at h7
                simp only [Prod.mk.injEq, Except.error.injEq] at h7
                obtain ⟨rfl, rfl⟩ := h7
                exact ⟨p1.primary, p1.booted, p1.supported, by simp, .inr ⟨rfl, hn, .inl ⟨p1.v, p1.log, _, rfl⟩⟩⟩
              · rw [hc] at h7; simp at h7
        · cases he
      · cases he
    · rcases bind_cases h1 with ⟨u, b2, h3, h4⟩ | ⟨e', h3, he⟩
      · rcases bind_cases h4 with ⟨u, b3, h5, h6⟩ | ⟨e', h5, he⟩
        · simp [pure_eq] at h6
        · simp only [Except.error.injEq] at he
          subst he
          obtain ⟨p1, -, -⟩ := Boot.flagSet_cases h5
          have hn := (hflag _).of_eq h5
          rcases Boot.effect_cases (fun b => { b with next := some t.sha256Hash }) b with hc | ⟨k, -, hc⟩
          · rw [hc] at h3; simp at h3
          · rw [hc] at h3
            simp only [Prod.mk.injEq] at h3
            obtain ⟨-, rfl⟩ := h3
            exact ⟨p1.primary, p1.booted, p1.supported, by simp, .inr ⟨rfl, hn, .inl ⟨p1.v, p1.log, _, rfl⟩⟩⟩
      · rcases Boot.effect_cases (fun b => { b with next := some t.sha256Hash }) b with hc | ⟨k, -, hc⟩
        · rw [hc] at h3
          simp only [Prod.mk.injEq, Except.error.injEq] at h3
          obtain ⟨rfl, rfl⟩ := h3
          exact ⟨rfl, rfl, rfl, by simp, .inl ⟨rfl, rfl, rfl, by simp⟩⟩
        · rw [hc] at h3; simp at h3

/-! ### Download -/

/-- The state in which commits are pulled. -/
def State.withKeys (s : State) (ca cert pkey : String) : State := { s with keys := s.keys.load ca cert pkey }

theorem throw_off {σ : Type} {e : Err} {s : σ} : throwWhen (σ := σ) (!true) e s = (.ok (), s) := rfl

theorem pull_cases {io : PullIo} {server : String} {t : Target} {s s' : State} {o : Except Err InstResult}
    (h : pull io server t s = (o, s')) :
    (s' = s ∧ ((∃ e, o = .error (.std e)) ∨ (∃ d, o = .ok (.ofCode .installFailed d)) ∨
      (o = .ok (.ofCode .alreadyProcessed "Refhash was already pulled") ∧
        ∃ c ∈ s.repo, t.sha256Hash.toList <+: c.toList))) ∨
    (s' = { s with pulls := s.pulls ++ [⟨server, s.keys.used, t.sha256Hash⟩] } ∧ ∃ d, o = .ok (.ofCode .installFailed d)) ∨
    (s' = { s with
        pulls := s.pulls ++ [⟨server, s.keys.used, t.sha256Hash⟩]
        repo := s.repo ++ [t.sha256Hash] } ∧
      o = .ok (.ofCode .ok "Pulling OSTree image was successful")) := by
  unfold pull at h
  cases h1 : io.sysroot with
  | false =>
    simp only [h1, Sec.bind_apply, throwWhen, Bool.not_false, if_true, Prod.mk.injEq] at h
    exact .inl ⟨h.2.symm, .inl ⟨_, h.1.symm⟩⟩
  | true =>
    rw [h1, run_bind throw_off] at h
    cases h2 : io.opens with
    | false =>
      simp only [h2, Bool.not_false, if_true, pure_eq, Prod.mk.injEq] at h
      exact .inl ⟨h.2.symm, .inr (.inl ⟨_, h.1.symm⟩)⟩
    | true =>
      simp only [h2, Bool.not_true, Bool.false_eq_true, if_false] at h
      rw [run_bind gets_eq] at h
      simp only [id] at h
      split at h
      · rename_i hl
        simp only [Bool.and_eq_true, List.any_eq_true, List.isPrefixOf_iff_prefix] at hl
        simp only [pure_eq, Prod.mk.injEq] at h
        exact .inl ⟨h.2.symm, .inr (.inr ⟨h.1.symm, hl.2⟩)⟩
      · cases h3 : io.remote with
        | false =>
          simp only [h3, Bool.not_false, if_true, pure_eq, Prod.mk.injEq] at h
          exact .inl ⟨h.2.symm, .inr (.inl ⟨_, h.1.symm⟩)⟩
        | true =>
          simp only [h3, Bool.not_true, Bool.false_eq_true, if_false] at h
          rw [run_bind modify_eq] at h
          cases h4 : io.pulls with
          | false =>
            simp only [h4, Bool.not_false, if_true, pure_eq, Prod.mk.injEq] at h
            exact .inr (.inl ⟨h.2.symm, _, h.1.symm⟩)
          | true =>
            simp only [h4, Bool.not_true, Bool.false_eq_true, if_false] at h
            rw [run_bind modify_eq] at h
            simp only [pure_eq, Prod.mk.injEq] at h
            exact .inr (.inr ⟨h.2.symm, h.1.symm⟩)

/-- What a download does. -/
theorem download_cases {io : PullIo} {archive : Option (List Entry)} {s s' : State} {o : Except Err InstResult}
    (h : download io archive s = (o, s')) :
    (s.core.pending = none ∧ s' = s ∧ ∃ d, o = .ok (.ofCode .generalError d)) ∨
    ∃ t, s.core.pending = some t ∧
      ((∃ e, extract archive = .error e ∧ s' = { s with core := { s.core with pending := none } } ∧
          ∃ d, o = .ok (.ofCode .downloadFailed d)) ∨
       ∃ ca cert pkey server, extract archive = .ok (ca, cert, pkey, server) ∧
        ((s' = s.withKeys ca cert pkey ∧ ∃ e, o = .error (.std e)) ∨
         (s' = s.withKeys ca cert pkey ∧ (∃ c ∈ s.repo, t.sha256Hash.toList <+: c.toList) ∧
            ∃ d, o = .ok (.ofCode .alreadyProcessed d)) ∨
         ((∃ ps, s' = { s.withKeys ca cert pkey with
              core := { s.core with pending := none }
              pulls := s.pulls ++ ps } ∧ (ps = [] ∨ ps = [⟨server, (s.keys.load ca cert pkey).used, t.sha256Hash⟩])) ∧
            ∃ d, o = .ok (.ofCode .installFailed d)) ∨
         (s' = { s.withKeys ca cert pkey with
              pulls := s.pulls ++ [⟨server, (s.keys.load ca cert pkey).used, t.sha256Hash⟩]
              repo := s.repo ++ [t.sha256Hash] } ∧ ∃ d, o = .ok (.ofCode .ok d)))) := by
  unfold download at h
  rw [run_bind gets_eq] at h
  simp only [id] at h
  cases hp : s.core.pending with
  | none =>
    simp only [hp, pure_eq, Prod.mk.injEq] at h
    exact .inl ⟨rfl, h.2.symm, _, h.1.symm⟩
  | some t =>
    rw [hp] at h
    simp only at h
    refine .inr ⟨t, rfl, ?_⟩
    unfold downloadTargetRev at h
    cases hx : extract archive with
    | error e =>
      rw [hx] at h
      simp only [Sec.bind_apply, pure_eq] at h
      rw [if_pos (by decide)] at h
      simp only [Sec.bind_apply, modify_eq, pure_eq, Prod.mk.injEq] at h
      exact .inl ⟨e, rfl, h.2.symm, _, h.1.symm⟩
    | ok x =>
      obtain ⟨ca, cert, pkey, server⟩ := x
      rw [hx] at h
      simp only at h
      refine .inr ⟨ca, cert, pkey, server, rfl, ?_⟩
      rcases bind_cases h with ⟨r, s1, h1, h2⟩ | ⟨e, h1, rfl⟩
      · rw [run_bind modify_eq] at h1
        rcases pull_cases h1 with ⟨rfl, hc⟩ | ⟨rfl, d, hr⟩ | ⟨rfl, hr⟩
        · rcases hc with ⟨e, hr⟩ | ⟨d, hr⟩ | ⟨hr, hc⟩
          · cases hr
          · injection hr with hr
            subst hr
            rw [if_pos (show (!(InstResult.ofCode .installFailed d).success) = true from rfl)] at h2
            simp only [Sec.bind_apply, modify_eq, pure_eq, Prod.mk.injEq] at h2
            exact .inr (.inr (.inl ⟨⟨[], by rw [← h2.2]; simp [State.withKeys], .inl rfl⟩, _, h2.1.symm⟩))
          · injection hr with hr
            subst hr
            rw [if_neg (by decide)] at h2
            simp only [pure_eq, Prod.mk.injEq] at h2
            exact .inr (.inl ⟨h2.2.symm, hc, _, h2.1.symm⟩)
        · injection hr with hr
          subst hr
          rw [if_pos (show (!(InstResult.ofCode .installFailed d).success) = true from rfl)] at h2
          simp only [Sec.bind_apply, modify_eq, pure_eq, Prod.mk.injEq] at h2
          exact .inr (.inr (.inl ⟨⟨_, h2.2.symm, .inr rfl⟩, _, h2.1.symm⟩))
        · injection hr with hr
          subst hr
          rw [if_neg (by decide)] at h2
          simp only [pure_eq, Prod.mk.injEq] at h2
          exact .inr (.inr (.inr ⟨h2.2.symm, _, h2.1.symm⟩))
      · rw [run_bind modify_eq] at h1
        rcases pull_cases h1 with ⟨rfl, hc⟩ | ⟨rfl, d, hr⟩ | ⟨rfl, hr⟩
        · rcases hc with ⟨e, hr⟩ | ⟨d, hr⟩ | ⟨hr, hc⟩
          · injection hr with hr
            subst hr
            exact .inl ⟨rfl, e, rfl⟩
          · cases hr
          · cases hr
        · cases hr
        · cases hr

/-! ### Requests and starts -/

/-- What an install request does. -/
theorem install_cases {env : Env} {sysroot : Bool} {io : Boot.Io} {s s' : State} {o : Except Err InstResult}
    (h : install env sysroot io s = (o, s')) :
    (s' = s ∧ ((s.core.pending = none ∧ ∃ d, o = .ok (.ofCode .internalError d)) ∨
      (sysroot = false ∧ ∃ e, o = .error (.std e)))) ∨
    ∃ t b', s.core.pending = some t ∧ s' = s.setBoard b' ∧
      Boot.installSecondary env .ostree { io with deploys := io.deploys && s.repo.contains t.sha256Hash } t s.boardNow = (o, b') := by
  unfold install at h
  rw [run_bind gets_eq] at h
  simp only [id] at h
  cases hp : s.core.pending with
  | none =>
    simp only [hp, pure_eq, Prod.mk.injEq] at h
    exact .inl ⟨h.2.symm, .inl ⟨rfl, _, h.1.symm⟩⟩
  | some t =>
    rw [hp] at h
    simp only at h
    cases h1 : sysroot with
    | false =>
      simp only [h1, Sec.bind_apply, throwWhen, Bool.not_false, if_true, Prod.mk.injEq] at h
      exact .inl ⟨h.2.symm, .inr ⟨rfl, _, h.1.symm⟩⟩
    | true =>
      rw [h1, run_bind throw_off, Sec.bind_apply, inBoard_eq] at h
      refine .inr ⟨t, ?_⟩
      cases hi : Boot.installSecondary env .ostree { io with deploys := io.deploys && s.repo.contains t.sha256Hash } t s.boardNow with
      | mk o1 b1 =>
        rw [hi] at h
        refine ⟨b1, rfl, ?_⟩
        cases o1 with
        | error e =>
          simp only [Prod.mk.injEq] at h
          obtain ⟨rfl, rfl⟩ := h
          exact ⟨rfl, rfl⟩
        | ok r =>
          obtain ⟨-, -, -, h0, -⟩ := installSecondary_cases hi
          simp only at h
          rw [if_neg (h0 r rfl)] at h
          simp only [pure_eq, Prod.mk.injEq] at h
          obtain ⟨rfl, rfl⟩ := h
          exact ⟨rfl, rfl⟩

/-! Checking stored metadata writes nothing. -/

/-- Database and remaining writes are as before. -/
def Quiet (w w' : World) : Prop := w'.db = w.db ∧ w'.fuel = w.fuel

theorem quiet_pre : IsPre Quiet := ⟨fun _ => ⟨rfl, rfl⟩, fun _ _ _ h1 h2 => ⟨h2.1.trans h1.1, h2.2.trans h1.2⟩⟩

theorem quiet_eq {α : Type} {m : U α} (h : Preserves Eq m) : Preserves Quiet m := fun w => by
  rw [← h w]
  exact ⟨rfl, rfl⟩

theorem quiet_now (c : Ctx) : Preserves Quiet (now c) := fun _ => ⟨rfl, rfl⟩

theorem quiet_modify {f : World → World} (hf : ∀ w, (f w).db = w.db ∧ (f w).fuel = w.fuel) : Preserves Quiet (M.modify f) :=
  fun w => hf w

macro "quiet_step" : tactic => `(tactic| with_reducible first
  | exact Preserves.pure quiet_pre
  | exact Preserves.throw quiet_pre
  | exact Preserves.lift quiet_pre
  | exact Preserves.gets quiet_pre
  | exact Preserves.throwWhen quiet_pre
  | exact Preserves.orThrow quiet_pre
  | exact quiet_now _
  | exact quiet_eq (loadLatestRoot_same _)
  | exact quiet_eq (loadNonRoot_same _ _)
  | (refine quiet_modify (fun w => ?_); first | exact ⟨rfl, rfl⟩ | exact ⟨setRoot_db _ _ _, setRoot_fuel _ _ _⟩ | (split <;> exact ⟨rfl, rfl⟩))
  | refine Preserves.bind quiet_pre ?_ (fun _ => ?_)
  | refine Preserves.map ?_
  | refine Preserves.catchStd quiet_pre ?_ (fun _ => ?_)
  | refine Preserves.catchUpt quiet_pre ?_ (fun _ => ?_)
  | split)

theorem offline_quiet (c : Ctx) : Preserves Quiet (Director.checkMetaOffline c) := by
  unfold Director.checkMetaOffline Director.resetMeta initRoot checkRootExpired Director.verifyTargets
    Director.checkTargetsExpired Director.targetsSanityCheck
  repeat' quiet_step

/-- What the part of a start before finalising does. -/
theorem initPending_quiet {sup : Target → Bool} {c : Ctx} {s s' : Sec.State} {o : Except Err Unit}
    (h : Sec.initPending sup c s = (o, s')) :
    ∃ w', Quiet s.w w' ∧ (s' = { s with w := w' } ∨
      (∃ t, o = .ok () ∧ s' = { s with w := w', pending := some t } ∧ (∃ raw, DirectorVerified c w' raw) ∧
        TheTarget s.serial s.hwid w'.dir.targets.targets t ∧ sup t = true)) := by
  obtain ⟨w', hc⟩ := Sec.initPending_cases h
  refine ⟨w', ?_, hc⟩
  have hw : s'.w = w' := by
    rcases hc with rfl | ⟨t, -, rfl, -⟩ <;> rfl
  rw [← hw]
  have hR : IsPre (fun (s s' : Sec.State) => Quiet s.w s'.w) :=
    ⟨fun s => quiet_pre.refl s.w, fun a b c => quiet_pre.trans a.w b.w c.w⟩
  have : Preserves (fun (s s' : Sec.State) => Quiet s.w s'.w) (Sec.initPending sup c) := by
    unfold Sec.initPending
    refine Preserves.bind hR (Preserves.catchStd hR (Preserves.bind hR (fun s => offline_quiet c s.w) fun _ => Preserves.pure hR)
      fun _ => Preserves.pure hR) fun b => ?_
    split
    · refine Preserves.bind hR ?_ fun _ => Preserves.pure hR
      unfold Sec.choosePending
      refine Preserves.bind hR (Preserves.gets hR) fun s => ?_
      split
      · split
        · exact Preserves.pure hR
        · exact Preserves.bind hR (Preserves.modify fun s => ⟨rfl, rfl⟩) fun _ => Preserves.pure hR
      · exact Preserves.pure hR
    · exact Preserves.pure hR
  exact this.of_eq h

/-- The state a process starts from. -/
def State.fresh (s : State) (supported : Bool) (fuel : Nat) : State :=
  { s with
    core := { s.core with w := { db := s.core.w.db, fuel := fuel }, pending := none, up := false }
    board := { s.board with supported := supported }
    keys := {} }

/-- What a start does: the stored Director metadata may give a pending target, the version recorded as pending is
decided about or not; if it is, the Director's metadata is dropped. -/
theorem start_cases {env : Env} {supported : Bool} {clock : Nat → TimeStamp} {fuel : Nat} {s s' : State}
    {o : Except Err Unit} (h : start env supported clock fuel s = (o, s')) :
    s'.core.serial = s.core.serial ∧ s'.core.hwid = s.core.hwid ∧ s'.repo = s.repo ∧ s'.pulls = s.pulls ∧
    (s'.core.pending = none ∨ ∃ t w', s'.core.pending = some t ∧ w'.db = s.core.w.db ∧
      (∃ raw, DirectorVerified { env, clock, net := fun _ _ _ _ => none } w' raw) ∧
      TheTarget s.core.serial s.core.hwid w'.dir.targets.targets t ∧ t.isOstree = true) ∧
    ∃ k, (s'.board = { s.board with supported := supported } ∧ o ≠ .ok ()) ∨
      ∃ o1 b1, finalize env { s.board with supported := supported, fuel := k } = (o1, b1) ∧ ∃ k', s'.board = { b1 with fuel := k' } := by
  unfold start at h
  rw [run_bind modify_eq] at h
  rcases bind_cases h with ⟨u, s1, h1, h⟩ | ⟨e, h1, rfl⟩
  · rw [inCore_eq] at h1
    cases hi : Sec.initPending Target.isOstree { env, clock, net := fun _ _ _ _ => none }
        { s.core with w := { db := s.core.w.db, fuel := fuel }, pending := none, up := false } with
    | mk o1 c1 =>
      rw [hi] at h1
      simp only [Prod.mk.injEq] at h1
      obtain ⟨rfl, rfl⟩ := h1
      obtain ⟨w', hq, hc⟩ := initPending_quiet hi
      have hc1 : c1.serial = s.core.serial ∧ c1.hwid = s.core.hwid ∧ c1.w = w' ∧
          (c1.pending = none ∨ ∃ t, c1.pending = some t ∧
            (∃ raw, DirectorVerified { env, clock, net := fun _ _ _ _ => none } w' raw) ∧
            TheTarget s.core.serial s.core.hwid w'.dir.targets.targets t ∧ t.isOstree = true) := by
        rcases hc with rfl | ⟨t, -, rfl, hv, ht, hs⟩
        · exact ⟨rfl, rfl, rfl, .inl rfl⟩
        · exact ⟨rfl, rfl, rfl, .inr ⟨t, rfl, hv, ht, hs⟩⟩
      obtain ⟨e1, e2, e3, e4⟩ := hc1
      have e5 : c1.pending = none ∨ ∃ t w', c1.pending = some t ∧ w'.db = s.core.w.db ∧
          (∃ raw, DirectorVerified { env, clock, net := fun _ _ _ _ => none } w' raw) ∧
          TheTarget s.core.serial s.core.hwid w'.dir.targets.targets t ∧ t.isOstree = true :=
        e4.imp id fun ⟨t, q1, q2⟩ => ⟨t, w', q1, hq.1, q2⟩
      rcases bind_cases h with ⟨d, s2, h2, h⟩ | ⟨e, h2, rfl⟩
      · rw [inBoard_eq] at h2
        cases hf : finalize env { s.board with supported := supported, fuel := c1.w.fuel } with
        | mk o1 b1 =>
          simp only [State.boardNow] at h2
          rw [hf] at h2
          simp only [Prod.mk.injEq] at h2
          obtain ⟨rfl, rfl⟩ := h2
          rcases bind_cases h with ⟨u, s3, h3, h⟩ | ⟨e, h3, rfl⟩ <;> unfold dropIf at h3
          · rw [modify_eq] at h
            simp only [Prod.mk.injEq] at h
            obtain ⟨-, rfl⟩ := h
            cases d with
            | true =>
              simp only [if_true] at h3
              rw [inCore_eq, Sec.inMeta_eq] at h3
              simp only [Prod.mk.injEq] at h3
              obtain ⟨-, rfl⟩ := h3
              exact ⟨e1, e2, rfl, rfl, e5, _, .inr ⟨_, _, hf, _, rfl⟩⟩
            | false =>
              simp only [Bool.false_eq_true, if_false, pure_eq, Prod.mk.injEq] at h3
              obtain ⟨-, rfl⟩ := h3
              exact ⟨e1, e2, rfl, rfl, e5, _, .inr ⟨_, _, hf, _, rfl⟩⟩
          · cases d with
            | true =>
              simp only [if_true] at h3
              rw [inCore_eq, Sec.inMeta_eq] at h3
              simp only [Prod.mk.injEq] at h3
              obtain ⟨-, rfl⟩ := h3
              exact ⟨e1, e2, rfl, rfl, e5, _, .inr ⟨_, _, hf, _, rfl⟩⟩
            | false =>
              simp [pure_eq] at h3
      · rw [inBoard_eq] at h2
        cases hf : finalize env { s.board with supported := supported, fuel := c1.w.fuel } with
        | mk o1 b1 =>
          simp only [State.boardNow] at h2
          rw [hf] at h2
          simp only [Prod.mk.injEq] at h2
          obtain ⟨rfl, rfl⟩ := h2
          exact ⟨e1, e2, rfl, rfl, e5, _, .inr ⟨_, _, hf, _, rfl⟩⟩
  · rw [inCore_eq] at h1
    cases hi : Sec.initPending Target.isOstree { env, clock, net := fun _ _ _ _ => none }
        { s.core with w := { db := s.core.w.db, fuel := fuel }, pending := none, up := false } with
    | mk o1 c1 =>
      rw [hi] at h1
      simp only [Prod.mk.injEq] at h1
      obtain ⟨rfl, rfl⟩ := h1
      obtain ⟨w', hq, hc⟩ := initPending_quiet hi
      rcases hc with rfl | ⟨t, ho, -⟩
      · exact ⟨rfl, rfl, rfl, rfl, .inl rfl, 0, .inl ⟨rfl, by simp⟩⟩
      · cases ho

end Aktualizr.SecOst
