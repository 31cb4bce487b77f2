import Verif.Props.C74

/-!
# C74, continued: an installation comes to an end
-/

namespace Aktualizr.SecOst
open M Spec

theorem dropTargets_ok {w : World} {k : Nat} (hf : w.fuel = k + 1) : ∃ dir, Director.dropTargets w =
    (.ok (), { w with db := w.db.clearNonRoot .director, dir := dir, fuel := k }) := by
  let w1 : World := { w with db := w.db.clearNonRoot .director, fuel := k }
  have hw : write (fun db => db.clearNonRoot .director) w = (.ok (), w1) := by
    unfold write
    simp only [hf]
    rfl
  refine ⟨{ root := { policy := .acceptAll }, targets := {}, latest := {} }, ?_⟩
  unfold Director.dropTargets catchUpt
  rw [run_bind hw]
  unfold Director.resetMeta
  rw [modify_eq]

/-- A start that comes to its end. -/
theorem start_ok {env : Env} {supported : Bool} {clock : Nat → TimeStamp} {fuel : Nat} {s s' : State}
    (h : start env supported clock fuel s = (.ok (), s')) :
    ∃ d b1, finalize env { s.board with supported := supported, fuel := fuel } = (.ok d, b1) ∧
      s'.board = b1 ∧ s'.core.up = true ∧
      (d = true → s'.core.w.db = s.core.w.db.clearNonRoot .director) ∧ (d = false → s'.core.w.db = s.core.w.db) := by
  unfold start at h
  rw [run_bind modify_eq] at h
  rcases bind_cases h with ⟨u, s1, h1, h⟩ | ⟨e, h1, he⟩
  · rw [inCore_eq] at h1
    cases hi : Sec.initPending Target.isOstree { env, clock, net := fun _ _ _ _ => none }
        { s.core with w := { db := s.core.w.db, fuel := fuel }, pending := none, up := false } with
    | mk o1 c1 =>
      rw [hi] at h1
      simp only [Prod.mk.injEq] at h1
      obtain ⟨rfl, rfl⟩ := h1
      obtain ⟨w', hq, hc⟩ := initPending_quiet hi
      have hc1 : c1.w = w' := by
        rcases hc with rfl | ⟨t, -, rfl, -⟩ <;> rfl
      have hdb : c1.w.db = s.core.w.db := by rw [hc1]; exact hq.1
      have hfu : c1.w.fuel = fuel := by rw [hc1]; exact hq.2
      rcases bind_cases h with ⟨d, s2, h2, h⟩ | ⟨e, h2, he⟩
      · rw [inBoard_eq] at h2
        cases hf : finalize env { s.board with supported := supported, fuel := c1.w.fuel } with
        | mk o1 b1 =>
          simp only [State.boardNow] at h2
          rw [hf] at h2
          simp only [Prod.mk.injEq] at h2
          obtain ⟨rfl, rfl⟩ := h2
          rw [hfu] at hf
          rcases bind_cases h with ⟨u, s3, h3, h⟩ | ⟨e, h3, he⟩
          · unfold dropIf at h3
            rw [modify_eq] at h
            simp only [Prod.mk.injEq] at h
            obtain ⟨-, rfl⟩ := h
            cases d with
            | true =>
              simp only [if_true] at h3
              rw [inCore_eq, Sec.inMeta_eq] at h3
              cases hk : b1.fuel with
              | zero =>
                exfalso
                have : Director.dropTargets { c1.w with fuel := b1.fuel } = (.error .crash, { c1.w with fuel := b1.fuel }) := by
                  rw [hk]; rfl
                simp only [State.setBoard, this, Prod.mk.injEq] at h3
                cases h3.1
              | succ k =>
                obtain ⟨dir, hd⟩ := dropTargets_ok (w := { c1.w with fuel := b1.fuel }) hk
                simp only [State.setBoard, hd, Prod.mk.injEq] at h3
                obtain ⟨-, rfl⟩ := h3
                refine ⟨true, b1, hf, rfl, rfl, fun _ => ?_, by simp⟩
                show c1.w.db.clearNonRoot .director = _
                rw [hdb]
            | false =>
              simp only [Bool.false_eq_true, if_false, pure_eq, Prod.mk.injEq] at h3
              obtain ⟨-, rfl⟩ := h3
              exact ⟨false, b1, hf, rfl, rfl, by simp, fun _ => hdb⟩
          · cases he
      · cases he
  · cases he

/-- Without a decision nothing is noted. -/
theorem finalize_false {env : Env} {b b' : Boot.Board} (h : finalize env b = (.ok false, b')) : b'.log = b.log := by
  unfold finalize at h
  rw [run_bind gets_eq] at h
  simp only [id] at h
  split at h
  · simp only [pure_eq, Prod.mk.injEq] at h
    rw [← h.2]
  · obtain ⟨p, b1, h1, h⟩ := bind_ok.1 h
    have hb1 : b1 = b := by
      rw [lift_eq] at h1
      exact (Prod.mk.inj h1).2.symm
    subst hb1
    cases p with
    | none =>
      simp only [pure_eq, Prod.mk.injEq] at h
      rw [← h.2]
    | some t =>
      simp only at h
      obtain ⟨r, b2, h2, h⟩ := bind_ok.1 h
      obtain ⟨p1, -, -⟩ := Boot.pmFinalize_cases h2
      obtain ⟨c, b3, h3, h⟩ := bind_ok.1 h
      have hb3 : b3 = b2 := by
        rw [lift_eq] at h3
        exact (Prod.mk.inj h3).2.symm
      subst hb3
      cases c with
      | true =>
        simp only [if_true, pure_eq, Prod.mk.injEq] at h
        rw [← h.2]
        exact p1.log
      | false =>
        simp only [Bool.false_eq_true, if_false] at h
        obtain ⟨u, b4, h4, h⟩ := bind_ok.1 h
        obtain ⟨u, b5, h5, h⟩ := bind_ok.1 h
        simp only [pure_eq, Prod.mk.injEq] at h
        cases h.1

/-- A finalisation after a restart, not interrupted. -/
theorem finalize_decides {env : Env} {b : Boot.Board} {t : Target} {x : String} {k : Nat} (hp : b.primary ≠ "")
    (hpend : PendingFor env b t) (hd : b.rebootDetected = true) (hb : b.booted = some x) (hf : b.fuel = k + 4) :
    ∃ r : InstResult, r.success = decide (x = t.sha256Hash) ∧ finalize env b = (.ok true, { b with
      needReboot := false
      sentinel := false
      fuel := k
      log := b.log ++ [.result t r (some x)]
      v := b.v.saveInstalledVersion env b.primary t (if x = t.sha256Hash then .current else .none) }) := by
  refine ⟨if x ≠ t.sha256Hash then .ofCode .installFailed "Wrong version booted"
      else .ofCode .ok "Successfully booted on new version", ?_, ?_⟩
  · by_cases hx : x = t.sha256Hash
    · simp only [hx, ne_eq, not_true_eq_false, if_false]; decide +kernel
    · simp only [hx, ne_eq, not_false_eq_true, if_true, decide_false]; decide +kernel
  · have h := Boot.finalize_ostree (io := {}) hp hpend hd hb hf
    simp only at h
    rw [finalize_eq, Sec.bind_apply] at h
    cases hfin : finalize env b with
    | mk o b' =>
      rw [hfin] at h
      cases o with
      | error e => simp only [Prod.mk.injEq] at h; cases h.1
      | ok d =>
        simp only [pure_eq, Prod.mk.injEq, true_and] at h
        subst h
        cases d with
        | true => rfl
        | false =>
          exfalso
          have := congrArg List.length (finalize_false hfin)
          simp at this

/-- Both flags are set once an installation waits for a restart. -/
theorem installSecondary_flags {env : Env} {io : Boot.Io} {t : Target} {b b' : Boot.Board} {r : InstResult}
    (h : Boot.installSecondary env .ostree io t b = (.ok r, b')) (hn : r.code.num = 21) (hs : b.supported = true) :
    b'.needReboot = true ∧ b'.sentinel = true ∧ b'.supported = true := by
  unfold Boot.installSecondary at h
  obtain ⟨r1, b1, h1, h⟩ := bind_ok.1 h
  unfold Boot.pmInstall at h1
  simp only at h1
  split at h1
  · simp only [pure_eq, Prod.mk.injEq, Except.ok.injEq] at h1
    obtain ⟨rfl, -⟩ := h1
    rw [if_neg (by decide), if_neg (by decide)] at h
    simp only [pure_eq, Prod.mk.injEq, Except.ok.injEq] at h
    rw [← h.1] at hn
    exact absurd hn (by decide)
  obtain ⟨u4, b4, h4, h1⟩ := bind_ok.1 h1
  obtain ⟨u5, b5, h5, h1⟩ := bind_ok.1 h1
  simp only [pure_eq, Prod.mk.injEq, Except.ok.injEq] at h1
  obtain ⟨rfl, rfl⟩ := h1
  rw [if_neg (by decide), if_pos (by decide)] at h
  unfold Boot.save at h
  obtain ⟨u', b3, h3, h⟩ := bind_ok.1 h
  rw [run_bind modify_eq] at h
  simp only [pure_eq, Prod.mk.injEq] at h
  obtain ⟨-, rfl⟩ := h
  have hb4 : b4.supported = b.supported := by
    rcases Boot.effect_cases (fun b => { b with next := some t.sha256Hash }) b with hc | ⟨k, -, hc⟩ <;>
      rw [hc] at h4 <;> simp only [Prod.mk.injEq] at h4 <;> obtain ⟨_, rfl⟩ := h4 <;> rfl
  obtain ⟨p1, -, p3⟩ := Boot.flagSet_cases h5
  obtain ⟨q1, q2⟩ := p3 rfl (hb4.trans hs)
  have h13 : b3.needReboot = b5.needReboot ∧ b3.sentinel = b5.sentinel ∧ b3.supported = b5.supported := by
    rcases Boot.effect_cases (fun b => { b with v := b.v.saveInstalledVersion env b.primary t .pending }) b5 with hc | ⟨k, -, hc⟩ <;>
      rw [hc] at h3 <;> simp only [Prod.mk.injEq] at h3 <;> obtain ⟨_, rfl⟩ := h3 <;> exact ⟨rfl, rfl, rfl⟩
  exact ⟨h13.1.trans q2, h13.2.1.trans q1, h13.2.2.trans (p1.supported.trans (hb4.trans hs))⟩

/-! ## The version recorded as pending -/

theorem lastRow_map {f : VersionRow → VersionRow} (hf : ∀ r, (f r).ecu = r.ecu) (rows : List VersionRow) (ecu : String) :
    VersionDb.lastRow (rows.map f) ecu = (VersionDb.lastRow rows ecu).map f := by
  unfold VersionDb.lastRow
  rw [List.filter_map]
  have : ((fun r : VersionRow => r.ecu == ecu) ∘ f) = (fun r => r.ecu == ecu) := by
    funext r; simp [hf]
  rw [this, List.getLast?_map]

/-- After saving a version it is the last of its ECU, marked as asked. -/
theorem saved_last {env : Env} {db : VersionDb} {p : String} (hp : p ≠ "") (t : Target) (mode : UpdateMode) :
    ∃ y ∈ (db.saveInstalledVersion env p t mode).rows, VersionDb.lastRow (db.saveInstalledVersion env p t mode).rows p = some y ∧
      y.ecu = p ∧ y.name = t.filename ∧ y.sha256 = t.sha256Hash ∧ y.isPending = (mode == .pending) ∧ y.isCurrent = (mode == .current) := by
  have hreal : db.realSerial p = p := by simp [VersionDb.realSerial, hp]
  rw [VersionDb.save_rows, hreal]
  cases ho : VersionDb.oldRow db.rows p t with
  | none =>
    simp only [Option.isSome_none, Bool.false_eq_true, if_false]
    refine ⟨VersionDb.freshRow env (VersionDb.nextId db.rows) p t mode, by simp, ?_, rfl, rfl, rfl, rfl, rfl⟩
    unfold VersionDb.lastRow
    rw [List.filter_append]
    simp [VersionDb.freshRow]
  | some old =>
    obtain ⟨q1, q2, q3, q4⟩ := VersionDb.oldRow_some ho
    simp only [Option.isSome_some, if_true, List.append_nil]
    have hl : VersionDb.lastRow db.rows p = some old := by
      unfold VersionDb.oldRow at ho
      cases hl : VersionDb.lastRow db.rows p with
      | none => rw [hl] at ho; cases ho
      | some r =>
        rw [hl] at ho
        simp only at ho
        split at ho
        · exact ho
        · cases ho
    have hent := VersionDb.save1_entry p t mode (some old) old
    refine ⟨VersionDb.save1 p t mode (some old) old, List.mem_map.2 ⟨old, q1, rfl⟩, ?_, ?_, ?_, ?_, ?_, ?_⟩
    · rw [lastRow_map (fun r => VersionDb.save1_ecu p t mode (some old) r), hl]
      rfl
    · rw [VersionDb.save1_ecu]; exact q2
    · rw [← q4]; exact hent.2.2.1.symm
    · rw [← q3]; exact hent.2.1.symm
    · simp [VersionDb.save1, VersionDb.reflag]
    · simp [VersionDb.save1, VersionDb.reflag]

/-- The install request that leads to a restart, the restart, and the start after it: what the start reads back. -/
theorem pending_at_start {env : Env} {s s2 s4 : State} {sysroot : Bool} {io : Boot.Io} {fuel fuel' : Nat} {clock : Nat → TimeStamp}
    {t : Target} {r : InstResult} {x : String} (hsound : Sound env s.board) (hp : s.core.pending = some t) (hw : WellHashed t)
    (h2 : step env s (.install sysroot io fuel) = .ok (some (.result r), s2)) (hn : r.code.num = 21)
    (h4 : run env s2 [.reboot (some x), .start true clock fuel'] = .ok s4) (hup : s4.core.up = true) (hf : 4 ≤ fuel') :
    ∃ t' b r', t'.filename = t.filename ∧ t'.sha256Hash = t.sha256Hash ∧ PendingFor env b t' ∧ Sound env b ∧ b.v = s2.board.v ∧
      b.log = s2.board.log ++ [.reboot] ∧ b.primary = s.board.primary ∧ b.booted = some x ∧
      (∃ y, VersionDb.oldRow b.v.rows b.primary t' = some y ∧ y.isPending = true) ∧
      r'.success = decide (x = t.sha256Hash) ∧ s4.board.log = b.log ++ [.result t' r' (some x)] ∧
      s4.board.v = b.v.saveInstalledVersion env b.primary t' (if x = t.sha256Hash then .current else .none) ∧
      s4.board.primary = s.board.primary ∧ s4.board.booted = some x ∧
      s4.core.w.db = s2.core.w.db.clearNonRoot .director := by
  obtain ⟨-, -, -, -, -, hi⟩ := install_step h2
  rcases hi with ⟨-, hno⟩ | ⟨t1, o1, -, hp1, hr, hi⟩
  · exact absurd hn (hno r rfl)
  · rw [hp] at hp1
    injection hp1 with hp1
    subst hp1
    have ho1 := hr r rfl
    subst ho1
    have hs0 : Sound env { s.board with fuel := fuel } :=
      ⟨⟨hsound.inv.primary, hsound.inv.ordered, hsound.inv.recorded, hsound.inv.pend, hsound.inv.result⟩, hsound.supported, hsound.tidy, hsound.cur⟩
    have hs2 := hs0.install hw hi
    obtain ⟨f1, f2, f3⟩ := installSecondary_flags hi hn hsound.supported
    obtain ⟨c1, -, -, -, hc⟩ := installSecondary_cases hi
    obtain ⟨hv, -⟩ : s2.board.v = s.board.v.saveInstalledVersion env s.board.primary t .pending ∧ True := by
      rcases hc with ⟨-, -, -, hno⟩ | ⟨-, -, ⟨-, -, e, he⟩ | ⟨_, _, _, -, -, e1, -⟩⟩
      · exact absurd hn (hno r rfl)
      · cases he
      · exact ⟨e1, trivial⟩
    -- the restart
    simp only [run, step, bind, Except.bind] at h4
    generalize hs3 : ({ s2 with
      core := { s2.core with up := false }
      board := { s2.board with sentinel := false, booted := some x, log := s2.board.log ++ [.reboot] } } : State) = s3 at h4
    cases hst : observe (start env true clock fuel') (fun _ => Reply.started) s3 with
    | error e => rw [hst] at h4; cases h4
    | ok res =>
      obtain ⟨a, s5⟩ := res
      rw [hst] at h4
      simp only [Except.ok.injEq] at h4
      subst h4
      obtain ⟨o, s6, hm, hob⟩ := observe_ok hst
      rcases hob with ⟨u, rfl, -, rfl⟩ | ⟨e, -, -, rfl⟩
      swap_goal
      · cases hup
      obtain ⟨d, b1, hfin, rfl, -, hd1, hd2⟩ := start_ok hm
      -- the board of that start
      have hb : Sound env { s3.board with supported := true, fuel := fuel' } := by
        subst hs3
        refine ⟨Boot.append_reboot hs2.inv rfl rfl rfl, rfl, hs2.tidy, ?_⟩
        intro y hy he hcur
        obtain ⟨before, t1, r1, after, m1, m2⟩ := hs2.cur y hy he hcur
        exact ⟨before, t1, r1, after ++ [.reboot], by show s2.board.log ++ _ = _; rw [m1]; simp, m2⟩
      generalize hbb : ({ s3.board with supported := true, fuel := fuel' } : Boot.Board) = b at hfin hb
      have hbv : b.v = s2.board.v := by rw [← hbb, ← hs3]
      have hbp : b.primary = s.board.primary := by rw [← hbb, ← hs3]; exact c1
      have hbl : b.log = s2.board.log ++ [.reboot] := by rw [← hbb, ← hs3]
      have hbx : b.booted = some x := by rw [← hbb, ← hs3]
      have hbf : b.fuel = fuel' := by rw [← hbb]
      have hdet : b.rebootDetected = true := by
        rw [← hbb, ← hs3]
        simp [Boot.Board.rebootDetected, f1]
      obtain ⟨y, hy, hylast, hye, hyn, hys, hyp, hyc⟩ := saved_last (env := env) (db := s.board.v) (p := s.board.primary) hsound.inv.primary t .pending
      rw [← hv, ← hbv] at hy hylast
      rw [← hbp] at hylast hye
      have hyp : y.isPending = true := by rw [hyp]; rfl
      have hany : b.v.hasPendingInstall = true := List.any_eq_true.2 ⟨y, hy, hyp⟩
      -- reading it back
      have hreal : b.v.realSerial b.primary = b.primary := by simp [VersionDb.realSerial, hb.inv.primary]
      have hrow : ∃ z, b.v.pendingRow b.primary = some z ∧ z.name = t.filename ∧ z.sha256 = t.sha256Hash ∧ z ∈ b.v.rows := by
        cases hz : b.v.pendingRow b.primary with
        | none =>
          have := List.find?_eq_none.1 hz y hy
          simp [hye, hyp] at this
        | some z =>
          have hzm := List.mem_of_find?_eq_some hz
          have hzp := List.find?_some hz
          simp only [Bool.and_eq_true, beq_iff_eq] at hzp
          have : z = y := hb.tidy.ordered.inj hzm hy (hb.tidy.pending z hzm y hy (hzp.1.trans hye.symm) hzp.2 hyp)
          subst this
          exact ⟨z, rfl, hyn, hys, hzm⟩
      obtain ⟨z, hz, hzn, hzs, hzm⟩ := hrow
      obtain ⟨t', hpend, ht1, ht2⟩ : ∃ t', PendingFor env b t' ∧ t'.filename = t.filename ∧ t'.sha256Hash = t.sha256Hash := by
        cases hl : b.v.loadPending env b.primary with
        | error e =>
          exfalso
          unfold finalize at hfin
          rw [run_bind gets_eq] at hfin
          simp only [id, hany, Bool.not_true, Bool.false_eq_true, if_false] at hfin
          rw [Sec.bind_apply, lift_eq, hl] at hfin
          simp at hfin
        | ok ot =>
          have hl' := hl
          unfold VersionDb.loadPending at hl'
          rw [hreal] at hl'
          simp only [exc_bind_ok] at hl'
          obtain ⟨ecus, -, hl'⟩ := hl'
          rw [hz] at hl'
          simp only [VersionDb.readRow, exc_bind_ok] at hl'
          obtain ⟨t', hrd, hl'⟩ := hl'
          simp only [pure, Except.pure, Except.ok.injEq] at hl'
          subst hl'
          obtain ⟨t0, hw0, hrec⟩ := hb.inv.recorded z hzm
          obtain ⟨n1, n2, -⟩ := Boot.read_sha hw0 hrec hrd
          exact ⟨t', hl, n1.trans hzn, n2.trans hzs⟩
      obtain ⟨k, hk⟩ : ∃ k, b.fuel = k + 4 := ⟨fuel' - 4, by omega⟩
      obtain ⟨r', hr1, hr2⟩ := finalize_decides hb.inv.primary hpend hdet hbx hk
      rw [hr2] at hfin
      simp only [Prod.mk.injEq, Except.ok.injEq] at hfin
      obtain ⟨rfl, hb1⟩ := hfin
      refine ⟨t', b, r', ht1, ht2, hpend, hb, hbv, hbl, hbp, hbx, ⟨y, ?_, hyp⟩, by rw [hr1, ht2], ?_, ?_, ?_, ?_, ?_⟩
      · unfold VersionDb.oldRow
        rw [hylast]
        simp [hyn, hys, ht1, ht2]
      · rw [← hb1]
      · rw [← hb1, ht2]
      · rw [← hb1]; exact hbp
      · rw [← hb1]; exact hbx
      · rw [hd1 rfl, ← hs3]

/-! ## The end of an installation -/

/-- Rebooting into the version that waits: a start that is not interrupted records it as the current one, with
success, leaves nothing pending, and drops the Director's metadata. -/
theorem C74_completes {env : Env} {s0 s s2 s4 : State} {ops : List Op} {sysroot : Bool} {io : Boot.Io} {fuel fuel' : Nat}
    {clock : Nat → TimeStamp} {t : Target} {r : InstResult} (hb : FactoryBoard s0.board) (hs : StartsSupported ops)
    (hw : PendingHashed env s0 ops) (h : run env s0 ops = .ok s) (hp : s.core.pending = some t)
    (h2 : step env s (.install sysroot io fuel) = .ok (some (.result r), s2)) (hn : r.code.num = 21)
    (h4 : run env s2 [.reboot (some t.sha256Hash), .start true clock fuel'] = .ok s4) (hup : s4.core.up = true) (hf : 4 ≤ fuel') :
    (∃ x ∈ s4.board.v.rows, x.ecu = s0.board.primary ∧ x.isCurrent = true ∧ x.name = t.filename ∧ x.sha256 = t.sha256Hash) ∧
    (∀ x ∈ s4.board.v.rows, x.ecu = s0.board.primary → x.isPending = false) ∧
    (∃ t' r', s4.board.log = s2.board.log ++ [.reboot, .result t' r' (some t.sha256Hash)] ∧ r'.success = true ∧
      t'.filename = t.filename) ∧
    s4.core.w.db = s2.core.w.db.clearNonRoot .director := by
  obtain ⟨hsound, n1, -⟩ := run_sound ops (FactoryBoard.sound hb) hs hw h
  obtain ⟨t', b, r', q1, q2, -, hsb, -, q5, q6, -, -, q9, q10, q11, -, -, q14⟩ := pending_at_start hsound hp
    (hw ops [] s t (by simp) h hp) h2 hn h4 hup hf
  simp only [if_true] at q11
  obtain ⟨y, hy, -, y2, y3, y4, y5, y6⟩ := saved_last (env := env) (db := b.v) (p := b.primary) hsb.inv.primary t' .current
  rw [← n1, ← q6]
  refine ⟨⟨y, by rw [q11]; exact hy, y2, y6, by rw [y3, q1], by rw [y4, q2]⟩, ?_, ⟨t', r', by rw [q10, q5]; simp, by rw [q9]; simp, q1⟩, q14⟩
  rw [q11]
  intro x hx he
  cases hxp : x.isPending with
  | false => rfl
  | true =>
    exfalso
    have hreal : b.v.realSerial b.primary = b.primary := by simp [VersionDb.realSerial, hsb.inv.primary]
    rw [VersionDb.save_rows, hreal] at hx
    rcases List.mem_append.1 hx with hx | hx
    · obtain ⟨z, hz, rfl⟩ := List.mem_map.1 hx
      rw [VersionDb.save1_ecu] at he
      rcases VersionDb.save1_isPending he hxp with ⟨h1, -⟩ | ⟨h1, -⟩ <;> cases h1
    · split at hx
      · cases hx
      · obtain rfl := List.mem_singleton.1 hx
        cases hxp

/-- Rebooting into anything else: a start that is not interrupted notes a failure, leaves nothing pending, and marks no
version as current that was not. -/
theorem C74_rolled_back {env : Env} {s0 s s2 s4 : State} {ops : List Op} {sysroot : Bool} {io : Boot.Io} {fuel fuel' : Nat}
    {clock : Nat → TimeStamp} {t : Target} {r : InstResult} {x : String} (hb : FactoryBoard s0.board) (hs : StartsSupported ops)
    (hw : PendingHashed env s0 ops) (h : run env s0 ops = .ok s) (hp : s.core.pending = some t)
    (h2 : step env s (.install sysroot io fuel) = .ok (some (.result r), s2)) (hn : r.code.num = 21) (hx : x ≠ t.sha256Hash)
    (h4 : run env s2 [.reboot (some x), .start true clock fuel'] = .ok s4) (hup : s4.core.up = true) (hf : 4 ≤ fuel') :
    (∀ y ∈ s4.board.v.rows, y.ecu = s0.board.primary → y.isPending = false ∧
      (y.isCurrent = true → ∃ z ∈ s2.board.v.rows, z.ecu = y.ecu ∧ z.isCurrent = true ∧ z.name = y.name ∧ z.sha256 = y.sha256)) ∧
    (∃ t' r', s4.board.log = s2.board.log ++ [.reboot, .result t' r' (some x)] ∧ r'.success = false ∧
      t'.filename = t.filename ∧ t'.sha256Hash = t.sha256Hash) ∧
    s4.core.w.db = s2.core.w.db.clearNonRoot .director := by
  obtain ⟨hsound, n1, -⟩ := run_sound ops (FactoryBoard.sound hb) hs hw h
  obtain ⟨t', b, r', q1, q2, -, hsb, q4, q5, q6, -, ⟨o, ho, hop⟩, q9, q10, q11, -, -, q14⟩ := pending_at_start hsound hp
    (hw ops [] s t (by simp) h hp) h2 hn h4 hup hf
  rw [if_neg hx] at q11
  rw [← n1, ← q6]
  refine ⟨?_, ⟨t', r', by rw [q10, q5]; simp, by rw [q9]; simp [hx], q1, q2⟩, q14⟩
  rw [q11]
  intro y hy he
  obtain ⟨o1, o2, -⟩ := VersionDb.oldRow_some ho
  have hreal : b.v.realSerial b.primary = b.primary := by simp [VersionDb.realSerial, hsb.inv.primary]
  constructor
  · cases hyp : y.isPending with
    | false => rfl
    | true =>
      exfalso
      rw [VersionDb.save_rows, hreal, ho] at hy
      simp only [Option.isSome_some, if_true, List.append_nil] at hy
      obtain ⟨z, hz, rfl⟩ := List.mem_map.1 hy
      rw [VersionDb.save1_ecu] at he
      rcases VersionDb.save1_isPending he hyp with ⟨h1, -⟩ | ⟨-, h2, h3⟩
      · cases h1
      · exact h3 o rfl (hsb.tidy.pending z hz o o1 (he.trans o2.symm) h2 hop)
  · intro hc
    rcases current_save hsb.inv.primary hsb.inv.ordered hy he hc with ⟨h1, -⟩ | ⟨z, hz, k1, k2, k3, k4⟩
    · cases h1
    · exact ⟨z, by rw [← q4]; exact hz, k1.trans he.symm, k2, k3, k4⟩

/-! ## Requests without faults -/

/-- With a pending target, an archive that has the four files, and no fault, a download request is answered with
success. -/
theorem C74_download_proceeds {env : Env} {s : State} {archive : Option (List Entry)} {t : Target} {ca cert pkey url : String}
    (hu : s.core.up = true) (hp : s.core.pending = some t) (h1 : HasFile archive "ca.pem" ca)
    (h2 : HasFile archive "client.pem" cert) (h3 : HasFile archive "pkey.pem" pkey) (h4 : HasFile archive "server.url" url) :
    ∃ r s', step env s (.download {} archive) = .ok (some (.result r), s') ∧ r.success = true ∧ s'.core.pending = some t ∧
      (t.sha256Hash ∈ s'.repo ∨ ∃ c ∈ s.repo, t.sha256Hash.toList <+: c.toList) := by
  have hx : extract archive = .ok (ca, cert, pkey, trimUrl url) := by
    unfold extract
    rw [readFile_has h1, readFile_has h2, readFile_has h3, readFile_has h4]
    rfl
  have hpf : (s.fuelled 0).core.pending = some t := hp
  have hreq : ∀ r s', download {} archive (s.fuelled 0) = (.ok r, s') →
      step env s (.download {} archive) = .ok (some (.result r), s') := by
    intro r s' h
    show request (download {} archive) .result 0 s = _
    unfold request
    rw [if_pos hu]
    show observe _ _ (s.fuelled 0) = _
    unfold observe
    rw [h]
  by_cases hin : s.repo.any (fun c => t.sha256Hash.toList.isPrefixOf c.toList) = true
  · refine ⟨_, _, hreq (.ofCode .alreadyProcessed "Refhash was already pulled") ((s.fuelled 0).withKeys ca cert pkey) ?_, rfl, hp, .inr ?_⟩
    · unfold download downloadTargetRev
      rw [run_bind gets_eq]
      simp only [id, hpf, hx]
      have : (do modify (fun s => { s with keys := s.keys.load ca cert pkey }); pull {} (trimUrl url) t : O InstResult) (s.fuelled 0) =
          (.ok (.ofCode .alreadyProcessed "Refhash was already pulled"), (s.fuelled 0).withKeys ca cert pkey) := by
        rw [run_bind modify_eq]
        unfold pull
        rw [run_bind throw_off]
        simp only [Bool.not_true, Bool.false_eq_true, if_false]
        rw [run_bind gets_eq]
        have : ((s.fuelled 0).withKeys ca cert pkey).repo = s.repo := rfl
        simp only [id, Bool.true_and]
        rw [show ({ s.fuelled 0 with keys := (s.fuelled 0).keys.load ca cert pkey } : State).repo = s.repo from rfl, if_pos hin]
        rfl
      rw [run_bind this]
      rfl
    · obtain ⟨c, hc, hc'⟩ := List.any_eq_true.1 hin
      exact ⟨c, hc, List.isPrefixOf_iff_prefix.1 hc'⟩
  · refine ⟨_, _, hreq (.ofCode .ok "Pulling OSTree image was successful") { (s.fuelled 0).withKeys ca cert pkey with
        pulls := s.pulls ++ [⟨trimUrl url, (s.keys.load ca cert pkey).used, t.sha256Hash⟩]
        repo := s.repo ++ [t.sha256Hash] } ?_, rfl, hp, .inl (List.mem_append_right _ (List.mem_singleton.2 rfl))⟩
    unfold download downloadTargetRev
    rw [run_bind gets_eq]
    simp only [id, hpf, hx]
    have : (do modify (fun s => { s with keys := s.keys.load ca cert pkey }); pull {} (trimUrl url) t : O InstResult) (s.fuelled 0) =
        (.ok (.ofCode .ok "Pulling OSTree image was successful"), { (s.fuelled 0).withKeys ca cert pkey with
          pulls := s.pulls ++ [⟨trimUrl url, (s.keys.load ca cert pkey).used, t.sha256Hash⟩]
          repo := s.repo ++ [t.sha256Hash] }) := by
      rw [run_bind modify_eq]
      unfold pull
      rw [run_bind throw_off]
      simp only [Bool.not_true, Bool.false_eq_true, if_false]
      rw [run_bind gets_eq]
      simp only [id, Bool.true_and]
      rw [show ({ s.fuelled 0 with keys := (s.fuelled 0).keys.load ca cert pkey } : State).repo = s.repo from rfl, if_neg hin]
      rfl
    rw [run_bind this]
    rfl

theorem installSecondary_runs {env : Env} {io : Boot.Io} {t : Target} {b : Boot.Board} {k : Nat} (hd : io.deploys = true)
    (hw : io.writes = true) (hf : b.fuel = k + 4) :
    ∃ r b', Boot.installSecondary env .ostree io t b = (.ok r, b') ∧ r.code.num = 21 := by
  obtain ⟨v, primary, nr, sent, sup, next, booted, fuel, log⟩ := b
  obtain ⟨d, w, f⟩ := io
  simp only at hd hw hf
  subst hd hw hf
  cases sup with
  | true => exact ⟨.ofCode .needCompletion "Application successful, need reboot", _, rfl, by decide⟩
  | false => exact ⟨.ofCode .needCompletion "Application successful, need reboot", _, rfl, by decide⟩

/-- With a pending target whose commit is in the repository and no fault, an install request deploys it and asks for a
restart. -/
theorem C74_install_proceeds {env : Env} {s : State} {io : Boot.Io} {t : Target} {k : Nat}
    (hu : s.core.up = true) (hp : s.core.pending = some t) (hc : t.sha256Hash ∈ s.repo) (hd : io.deploys = true) (hw : io.writes = true) :
    ∃ r s', step env s (.install true io (k + 4)) = .ok (some (.result r), s') ∧ r.code.num = 21 ∧
      s'.board.next = some t.sha256Hash ∧ s'.core.pending = some t ∧
      (s.board.supported = true → s'.board.needReboot = true ∧ s'.board.sentinel = true) := by
  have hdep : (io.deploys && s.repo.contains t.sha256Hash) = true := by
    rw [hd, Bool.true_and, List.contains_iff_mem]; exact hc
  have hinst : ∃ r b', Boot.installSecondary env .ostree { io with deploys := io.deploys && s.repo.contains t.sha256Hash } t
      { s.board with fuel := k + 4 } = (.ok r, b') ∧ r.code.num = 21 := by
    exact installSecondary_runs hdep hw rfl
  obtain ⟨r, b', hi, hn⟩ := hinst
  have hpf : (s.fuelled (k + 4)).core.pending = some t := hp
  have hrun : install env true io (s.fuelled (k + 4)) = (.ok r, (s.fuelled (k + 4)).setBoard b') := by
    unfold install
    rw [run_bind gets_eq]
    simp only [id, hpf]
    rw [run_bind throw_off]
    have : inBoard (Boot.installSecondary env .ostree { io with deploys := io.deploys && (s.fuelled (k + 4)).repo.contains t.sha256Hash } t)
        (s.fuelled (k + 4)) = (.ok r, (s.fuelled (k + 4)).setBoard b') := by
      rw [inBoard_eq]
      show ((Boot.installSecondary env .ostree { io with deploys := io.deploys && s.repo.contains t.sha256Hash } t
        { s.board with fuel := k + 4 }).1, _) = _
      have h2 : (Boot.installSecondary env .ostree { io with deploys := io.deploys && (s.fuelled (k + 4)).repo.contains t.sha256Hash } t
        (s.fuelled (k + 4)).boardNow) = (.ok r, b') := hi
      rw [h2, hi]
    rw [run_bind this, if_neg (by rw [hn]; decide)]
    rfl
  obtain ⟨-, -, -, -, hc⟩ := installSecondary_cases hi
  refine ⟨r, (s.fuelled (k + 4)).setBoard b', ?_, hn, ?_, hp, fun hs => ?_⟩
  · show request (install env true io) .result (k + 4) s = _
    unfold request
    rw [if_pos hu]
    show observe _ _ (s.fuelled (k + 4)) = _
    unfold observe
    rw [hrun]
  · rcases hc with ⟨-, -, -, hno⟩ | ⟨-, h2, -⟩
    · exact absurd hn (hno r rfl)
    · exact h2
  · obtain ⟨f1, f2, -⟩ := installSecondary_flags hi hn hs
    exact ⟨f1, f2⟩

end Aktualizr.SecOst
