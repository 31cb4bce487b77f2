import Verif.Props.C76
import Verif.Props.C75Kept

/-! # C76, continued: starts, and what the Secondary installs and reports under its name -/

namespace Aktualizr

open M Spec

namespace SecId

open VersionDb

variable {a : Around}

/-! ### Starting again -/

/-- The process has keys and names, and the names can be read. -/
structure Known (s : State) : Prop where
  keys : ∃ k, s.keys = some k ∧ k.1 ≠ ""
  ecus : s.core.versions.ecus = [⟨s.core.serial, s.core.hwid, true⟩]
  size : 1 ≤ s.core.serial.utf8ByteSize ∧ s.core.serial.utf8ByteSize ≤ 64 ∧ s.core.hwid.utf8ByteSize ≤ 200

theorem known_of_life {ops : List Op} {s : State} (L : Life a ops s) (hid : Identified s) : Known s := by
  obtain ⟨k, q1, q2, e, rest, q3, q4, q5⟩ := hid
  rcases L.ecus with he | ⟨cfg, c, f, k', x, y, p0, p1, p2, p3⟩
  · rw [he] at q3; cases q3
  · rw [p2] at q3
    obtain ⟨e1, -⟩ := List.cons.inj q3
    have e2 : s.core.serial = x := by rw [q4, ← e1]
    have e3 : s.core.hwid = y := by rw [q5, ← e1]
    exact ⟨⟨k, q1, q2⟩, by rw [e2, e3]; exact p2, by rw [e2, e3]; exact p3.2.2.2⟩

theorem known_init {cfg : Config} {s : State} (h : Known s) : uptaneInitialize a cfg s = (.ok (), s) := by
  obtain ⟨k, hk, hne⟩ := h.keys
  unfold uptaneInitialize
  have h1 : generateKeys a cfg.keyType s = (.ok k.1, s) := by
    unfold generateKeys
    rw [run_bind (gets_eq (f := id))]
    simp only [id, hk]
    have : throwWhen (σ := State) (k.1 == "" && k.2 == "") (.std "Could not get Uptane keys") s = (.ok (), s) :=
      throwWhen_ok.2 ⟨by simp [hne], rfl⟩
    rw [run_bind this]
    rfl
  have h2 : throwWhen (σ := State) (k.1 == "") (.std "Failed to generate Uptane key pair") s = (.ok (), s) :=
    throwWhen_ok.2 ⟨by simp [hne], rfl⟩
  have h3 : s.core.versions.loadEcuSerials = .ok (some [(s.core.serial, s.core.hwid)]) := by
    unfold VersionDb.loadEcuSerials
    rw [h.ecus]
    have : VersionDb.loadSerialsLoop [⟨s.core.serial, s.core.hwid, true⟩] = .ok [(s.core.serial, s.core.hwid)] := by
      unfold VersionDb.loadSerialsLoop
      have e1 : mkEcuSerial s.core.serial = .ok s.core.serial := by
        unfold mkEcuSerial
        rw [if_neg (by have := h.size; omega), if_neg (by have := h.size; omega)]
      have e2 : mkHwId s.core.hwid = .ok s.core.hwid := by
        unfold mkHwId
        rw [if_neg (by have := h.size; omega)]
      simp only [e1, e2]
      rfl
    rw [this]
    rfl
  rw [run_bind h1, run_bind h2, run_bind (gets_eq (f := id))]
  simp only [id]
  have h4 : lift (σ := State) s.core.versions.loadEcuSerials s = (.ok (some [(s.core.serial, s.core.hwid)]), s) := by rw [lift_eq, h3]
  rw [run_bind h4]
  rfl

theorem known_start {cfg : Config} {clock : Nat → TimeStamp} {fuel : Nat} {s : State} (h : Known s) :
    start a cfg clock fuel s =
      ((Sec.start a.g.env clock fuel s.core).1, { s with type := cfg.keyType, core := (Sec.start a.g.env clock fuel s.core).2 }) := by
  unfold start
  rw [run_bind modify_eq]
  have hk : Known { s with core := { s.core with up := false, w := { s.core.w with fuel := fuel } }, type := cfg.keyType } :=
    ⟨h.keys, h.ecus, h.size⟩
  rw [run_bind (known_init hk), run_bind (gets_eq (f := id)), inCore_eq]
  have : Sec.start a.g.env clock fuel { s.core with up := false, w := { s.core.w with fuel := fuel } } = Sec.start a.g.env clock fuel s.core := by
    unfold Sec.start
    rw [run_bind modify_eq, run_bind modify_eq]
  simp only [id]
  rw [this]

/-- **A start that is not the first is a restart**: whatever the configuration, it acts on everything but the key type as
`Sec.step` with `restart` does. -/
theorem C76_restart {s : State} (h : Known s) (cfg : Config) (clock : Nat → TimeStamp) (fuel : Nat) :
    step a s (.start cfg clock fuel) = (Sec.step a.g.env a.hashing s.core (.restart clock fuel)).map
      (fun q => (q.1.map (fun _ => Reply.started), { s with type := cfg.keyType, core := q.2 })) := by
  show observe _ _ _ = (Sec.observe _ _).map _
  unfold observe Sec.observe
  rw [known_start h]
  cases hs : Sec.start a.g.env clock fuel s.core with
  | mk o c =>
    cases o with
    | ok u =>
      rw [run_bind hs]
      rfl
    | error e =>
      rw [run_bind_err hs]
      cases e <;> rfl

/-- The key type goes with the key. -/
def Suits (a : Around) (ty : KeyType) (pub : String) : Prop :=
  ty ≠ .unknown ∧ (ty = .rsa2048 ∨ ty = .rsa3072 ∨ ty = .rsa4096 → a.g.env.rsaType pub = ty)

theorem public_suits {s : State} {k : String × String} (hk : s.keys = some k) (h : Suits a s.type k.1) :
    Man.Keys.public a.g.env ⟨s.keys, s.type⟩ = .ok ⟨k.1, s.type⟩ := by
  unfold Man.Keys.public
  simp only [hk]
  have e : ((s.type == .rsa2048 || s.type == .rsa3072 || s.type == .rsa4096) && s.type != a.g.env.rsaType k.1) = false := by
    by_cases ht : s.type = .rsa2048 ∨ s.type = .rsa3072 ∨ s.type = .rsa4096
    · rw [h.2 ht]; simp
    · simp only [not_or] at ht
      simp [ht.1, ht.2.1, ht.2.2]
  rw [e]
  rfl

/-- **A Secondary that runs answers**, provided the key type it is configured with goes with its key. -/
theorem C76_answers {s0 s : State} (hn : New s0) (ops : List Op) (h : run a s0 ops = .ok s) (hu : s.core.up = true)
    (ht : ∀ k ty, s.keys = some k → configured ops = some ty → Suits a ty k.1) :
    (∃ x hw key, Says a s0 ops x hw key) ∧ ∃ j, Reports a s0 ops j := by
  have L := life hn ops h
  obtain ⟨⟨k, q1, q2, -⟩, hty⟩ := L.up hu
  have hp := public_suits q1 (ht k s.type q1 hty)
  constructor
  · refine ⟨s.core.serial, s.core.hwid, ⟨k.1, s.type⟩, s, s, h, ?_⟩
    show request _ _ _ = _
    unfold request observe getInfo
    rw [if_pos hu, run_bind (gets_eq (f := id))]
    have : lift (σ := State) (Man.Keys.public a.g.env ⟨s.keys, s.type⟩) s = (.ok ⟨k.1, s.type⟩, s) := by rw [lift_eq, hp]
    simp only [id]
    rw [run_bind this]
    rfl
  · obtain ⟨m, hm⟩ : ∃ m, Gen.method s.type = .ok m := by
      cases hs : s.type with
      | unknown => exact absurd hs (ht k s.type q1 hty).1
      | _ => exact ⟨_, rfl⟩
    obtain ⟨j, hj⟩ : ∃ j, Man.sign a.g ⟨s.keys, s.type⟩ s.drawn (Man.ecuPart (image a s) s.core.serial) none = .ok j := by
      unfold Man.sign Man.signTuf
      simp only [hm, hp]
      exact ⟨_, rfl⟩
    refine ⟨j, s, { s with drawn := s.drawn + 1 }, h, ?_⟩
    show request _ _ _ = _
    unfold request observe getManifest
    rw [if_pos hu, run_bind (gets_eq (f := id)), run_bind modify_eq]
    simp only [id]
    unfold image at hj
    rw [lift_eq, hj]

/-! ### The life after the first start -/

/-- What the operations are to the part without identity. -/
def core : List Op → List Sec.Op
  | [] => []
  | .start _ clock fuel :: os => .restart clock fuel :: core os
  | .putMeta m clock fuel :: os => .putMeta m clock fuel :: core os
  | .upload io data :: os => .upload io data :: core os
  | .install renames fuel :: os => .install renames fuel :: core os
  | .place _ :: os => core os
  | .getInfo :: os => core os
  | .getManifest :: os => core os

theorem core_append (l l' : List Op) : core (l ++ l') = core l ++ core l' := by
  induction l with
  | nil => rfl
  | cons o l ih => cases o <;> simp only [List.cons_append, core, ih]

theorem secRun_append {env : Env} {hs : Sec.Hashing} {s : Sec.State} (ops ops' : List Sec.Op) :
    Sec.run env hs s (ops ++ ops') = (Sec.run env hs s ops >>= fun s => Sec.run env hs s ops') := by
  induction ops generalizing s with
  | nil => rfl
  | cons o ops ih =>
    show (Sec.step env hs s o >>= fun q => Sec.run env hs q.2 (ops ++ ops')) = ((Sec.step env hs s o >>= fun q => Sec.run env hs q.2 ops) >>= fun s => Sec.run env hs s ops')
    cases Sec.step env hs s o with
    | error e => rfl
    | ok q => exact ih

/-- What one operation is to the part without identity. -/
theorem step_core {s s' : State} {o : Op} {r : Option Reply} (hk : Known s) (h : step a s o = .ok (r, s'))
    (ht : ∀ k, s.keys = some k → Suits a s.type k.1) : Sec.run a.g.env a.hashing s.core (core [o]) = .ok s'.core := by
  obtain ⟨k, hk1, hk2⟩ := hk.keys
  have hp := public_suits hk1 (ht k hk1)
  have oth : ∀ x, other a x s = .ok (r, s') → Sec.run a.g.env a.hashing s.core [x] = .ok s'.core := by
    intro x h
    unfold other at h
    obtain ⟨q, h1, h⟩ := exc_bind_ok.1 h
    cases h
    show (Sec.step _ _ _ _ >>= fun q => Sec.run _ _ q.2 []) = _
    rw [h1]
    rfl
  cases o with
  | start cfg clock fuel =>
    rw [C76_restart hk] at h
    show (Sec.step _ _ _ _ >>= fun q => Sec.run _ _ q.2 []) = _
    cases hs : Sec.step a.g.env a.hashing s.core (.restart clock fuel) with
    | error e => rw [hs] at h; cases h
    | ok q =>
      rw [hs] at h
      cases h
      rfl
  | place f => cases h; rfl
  | getInfo =>
    change request _ _ _ = _ at h
    unfold request at h
    split at h
    · obtain ⟨o, s1, hm, hr⟩ := observe_ok h
      have e1 := (getInfo_cases hm).1
      subst e1
      unfold getInfo at hm
      rw [run_bind (gets_eq (f := id))] at hm
      have : lift (σ := State) (Man.Keys.public a.g.env ⟨s1.keys, s1.type⟩) s1 = (.ok ⟨k.1, s1.type⟩, s1) := by rw [lift_eq, hp]
      simp only [id] at hm
      rw [run_bind this] at hm
      cases hm
      rcases hr with ⟨x, -, -, rfl⟩ | ⟨e, hx, -⟩
      · rfl
      · cases hx
    · cases h; rfl
  | getManifest =>
    change request _ _ _ = _ at h
    unfold request at h
    split at h
    · obtain ⟨o, s1, hm, hr⟩ := observe_ok h
      obtain ⟨e1, e2⟩ := getManifest_cases hm
      subst e1
      rcases hr with ⟨x, -, -, rfl⟩ | ⟨e, hx, -⟩
      · rfl
      · obtain ⟨m, hm⟩ : ∃ m, Gen.method s.type = .ok m := by
          cases hs : s.type with
          | unknown => exact absurd hs (ht k hk1).1
          | _ => exact ⟨_, rfl⟩
        rw [e2] at hx
        unfold Man.sign Man.signTuf at hx
        simp only [hm, hp] at hx
        cases hx
    · cases h; rfl
  | putMeta m clock fuel => exact oth _ h
  | upload io data => exact oth _ h
  | install renames fuel => exact oth _ h

theorem known_step {s s' : State} {o : Op} {r : Option Reply} (hk : Known s) (h : step a s o = .ok (r, s')) :
    Known s' ∧ s'.core.serial = s.core.serial ∧ s'.core.hwid = s.core.hwid := by
  have key : s'.core.serial = s.core.serial ∧ s'.core.hwid = s.core.hwid ∧ s'.keys = s.keys ∧ s'.core.versions.ecus = s.core.versions.ecus := by
    rcases step_cases h with ⟨cfg, c, f, rfl, -⟩ | ⟨hno, h1, h2, h3, h4, h5, h6⟩
    · rw [C76_restart hk] at h
      cases hs : Sec.step a.g.env a.hashing s.core (.restart c f) with
      | error e => rw [hs] at h; cases h
      | ok q =>
        rw [hs] at h
        cases h
        obtain ⟨o, s1, hst, hr⟩ := Sec.restart_ok hs
        obtain ⟨⟨w', pd, nm, u', hc⟩, -⟩ := Sec.start_cases hst
        rcases hr with ⟨-, -, hr⟩ | ⟨e, -, -, hr⟩ <;> · simp only [hr, hc]; exact ⟨trivial, trivial, trivial, trivial⟩
    · exact ⟨h4, h5, h1, h2⟩
  obtain ⟨e1, e2, e3, e4⟩ := key
  exact ⟨⟨by rw [e3]; exact hk.keys, by rw [e4, e1, e2]; exact hk.ecus, by rw [e1, e2]; exact hk.size⟩, e1, e2⟩

/-- What the first part of a start leaves alone. -/
def Leaves (s s' : State) : Prop := s'.core.firmware = s.core.firmware ∧ s'.core.w.db = s.core.w.db ∧ s'.core.newtarget = s.core.newtarget

theorem leaves_pre : IsPre Leaves := ⟨fun _ => ⟨rfl, rfl, rfl⟩, fun _ _ _ h h' => ⟨h'.1.trans h.1, h'.2.1.trans h.2.1, h'.2.2.trans h.2.2⟩⟩

theorem write_leaves {f : State → State} (h : ∀ s, Leaves s (f s)) : Preserves Leaves (write f) := by
  intro s
  unfold write
  cases s.core.w.fuel with
  | zero => exact ⟨rfl, rfl, rfl⟩
  | succ n =>
    have := h { s with core := { s.core with w := { s.core.w with fuel := n } } }
    exact ⟨this.1, this.2⟩

theorem init_leaves {cfg : Config} : Preserves Leaves (uptaneInitialize a cfg) := by
  have p := leaves_pre
  unfold uptaneInitialize
  refine .bind p ?_ fun k => .bind p (.throwWhen p) fun _ => .bind p (.gets p) fun s => .bind p (.lift p) fun l => ?_
  · unfold generateKeys
    refine .bind p (.gets p) fun s => ?_
    cases s.keys with
    | some k => exact .bind p (.throwWhen p) fun _ => .pure p
    | none =>
      refine .bind p (.modify fun _ => ⟨rfl, rfl, rfl⟩) fun _ => ?_
      cases a.newKey cfg.keyType s.drawn with
      | none => exact .throw p
      | some k => exact .bind p (write_leaves fun _ => ⟨rfl, rfl, rfl⟩) fun _ => .bind p (.throwWhen p) fun _ => .pure p
  · cases l with
    | some l => exact .modify fun _ => ⟨rfl, rfl, rfl⟩
    | none =>
      refine .bind p ?_ fun pub => .bind p (.throwWhen p) fun _ => .bind p (.lift p) fun _ => .bind p (.lift p) fun _ =>
        .bind p (write_leaves fun _ => ⟨rfl, rfl, rfl⟩) fun _ => .bind p (.modify fun _ => ⟨rfl, rfl, rfl⟩) fun _ => ?_
      · split
        · exact .lift p
        · exact .pure p
      · unfold importVersions
        refine .bind p (.gets p) fun s => .bind p (.lift p) fun l => ?_
        cases l with
        | cons => exact .pure p
        | nil =>
          simp only
          split
          · exact .pure p
          · exact .bind p (write_leaves fun _ => ⟨rfl, rfl, rfl⟩) fun _ => write_leaves fun _ => ⟨rfl, rfl, rfl⟩

/-- What a start does, whether it is the first or not. -/
theorem start_core {s s' : State} {cfg : Config} {clock : Nat → TimeStamp} {fuel : Nat} {o : Except Err Unit}
    (h : start a cfg clock fuel s = (o, s')) :
    s'.core.firmware = s.core.firmware ∧ (o = .ok () → ∃ c n, Sec.step a.g.env a.hashing c (.restart clock n) = .ok (some .ok, s'.core) ∧
      c.pending = none ∧ c.hasher = none ∧ c.firmware = s.core.firmware ∧ c.serial = s'.core.serial ∧ c.hwid = s'.core.hwid ∧ c.w.db = s.core.w.db) := by
  unfold start at h
  rw [run_bind modify_eq] at h
  rcases bind_cases h with ⟨u, s1, h1, h⟩ | ⟨e, h1, rfl⟩
  swap_goal
  · exact ⟨(init_leaves.of_eq h1).1, fun hx => by cases hx⟩
  have hl := init_leaves.of_eq h1
  rw [run_bind (gets_eq (f := id)), inCore_eq] at h
  simp only [id] at h
  cases hst : Sec.start a.g.env clock s1.core.w.fuel s1.core with
  | mk o1 c1 =>
    rw [hst] at h
    simp only [Prod.mk.injEq] at h
    obtain ⟨rfl, rfl, rfl⟩ := h
    obtain ⟨⟨w', pd, nm, u', hc⟩, -⟩ := Sec.start_cases hst
    refine ⟨by rw [hc]; exact hl.1, fun ho => ⟨{ s1.core with pending := none, hasher := none }, s1.core.w.fuel, ?_, rfl, rfl, hl.1, by rw [hc], by rw [hc], hl.2.1⟩⟩
    have same : Sec.start a.g.env clock s1.core.w.fuel { s1.core with pending := none, hasher := none } = (.ok (), c1) := by
      rw [← ho, ← hst]
      unfold Sec.start
      rw [run_bind modify_eq, run_bind modify_eq]
    show Sec.observe _ _ = _
    unfold Sec.observe
    rw [run_bind same]
    rfl

theorem start_newtarget {s s' : State} {cfg : Config} {clock : Nat → TimeStamp} {fuel : Nat} {o : Except Err Unit}
    (h : start a cfg clock fuel s = (o, s')) : s'.core.newtarget = s.core.newtarget := by
  unfold start at h
  rw [run_bind modify_eq] at h
  rcases bind_cases h with ⟨u, s1, h1, h⟩ | ⟨e, h1, rfl⟩
  swap_goal
  · exact (init_leaves.of_eq h1).2.2
  have hl := init_leaves.of_eq h1
  rw [run_bind (gets_eq (f := id)), inCore_eq] at h
  simp only [id] at h
  cases hst : Sec.start a.g.env clock s1.core.w.fuel s1.core with
  | mk o1 c1 =>
    rw [hst] at h
    simp only [Prod.mk.injEq] at h
    obtain ⟨rfl, rfl⟩ := h
    obtain ⟨⟨w', pd, nm, u', hc⟩, -⟩ := Sec.start_cases hst
    rw [hc]
    exact hl.2.2

/-- All key types the process is configured with go with all keys it makes. -/
def AllSuit (a : Around) (ops : List Op) : Prop :=
  ∀ cfg c f cfg' c' f' n k, Op.start cfg c f ∈ ops → Op.start cfg' c' f' ∈ ops → a.newKey cfg'.keyType n = some k → Suits a cfg.keyType k.1

/-- The life of the part without identity since the first start that succeeded; it begins without a pending target and without
an upload. -/
def Since (a : Around) (s0 s : State) (ops : List Op) (c : Sec.State) (sops : List Sec.Op) : Prop :=
  (∃ before cfg clock fuel after n, ops = before ++ .start cfg clock fuel :: after ∧ sops = .restart clock n :: core after) ∧
  Sec.run a.g.env a.hashing c sops = .ok s.core ∧ c.pending = none ∧ c.hasher = none ∧ c.firmware = s0.core.firmware ∧ c.serial = s.core.serial ∧ c.hwid = s.core.hwid

theorem type_configured {ops : List Op} {s0 s : State} (h : run a s0 ops = .ok s) (hx : ∃ cfg c f, Op.start cfg c f ∈ ops) :
    ∃ cfg c f, Op.start cfg c f ∈ ops ∧ s.type = cfg.keyType := by
  induction ops using Sec.snoc_ind generalizing s with
  | h0 => obtain ⟨_, _, _, hx⟩ := hx; cases hx
  | h1 l o ih =>
    obtain ⟨s1, r, h1, h2⟩ := run_snoc h
    rcases step_cases h2 with ⟨cfg, c, f, rfl, -, -, ht, -⟩ | ⟨hno, -, -, ht, -⟩
    · exact ⟨cfg, c, f, List.mem_append_right _ (.head _), ht⟩
    · obtain ⟨cfg, c, f, hm⟩ := hx
      have hm : Op.start cfg c f ∈ l := by
        rcases List.mem_append.1 hm with hm | hm
        · exact hm
        · exact absurd (List.mem_singleton.1 hm).symm (hno _ _ _)
      obtain ⟨cfg', c', f', q1, q2⟩ := ih h1 ⟨cfg, c, f, hm⟩
      exact ⟨cfg', c', f', List.mem_append_left _ q1, ht.trans q2⟩

theorem since_or {s0 s : State} (hn : New s0) (ops : List Op) (h : run a s0 ops = .ok s) (ha : AllSuit a ops) :
    (Known s ∧ ∃ c sops, Since a s0 s ops c sops) ∨ (s.core.up = false ∧ s.core.firmware = s0.core.firmware) := by
  induction ops using Sec.snoc_ind generalizing s with
  | h0 => cases h; exact .inr ⟨hn.2.2, rfl⟩
  | h1 l o ih =>
    obtain ⟨s1, r, h1, h2⟩ := run_snoc h
    have ha' : AllSuit a l := fun cfg c f cfg' c' f' n k m m' => ha cfg c f cfg' c' f' n k (List.mem_append_left _ m) (List.mem_append_left _ m')
    rcases ih h1 ha' with ⟨hk, c, sops, ⟨before, cfg, clock, fuel, after, n, rfl, rfl⟩, q1, q2, q2', q3, q4, q5⟩ | ⟨hu, hf⟩
    · obtain ⟨hk', e1, e2⟩ := known_step hk h2
      refine .inl ⟨hk', c, .restart clock n :: core after ++ core [o], ⟨before, cfg, clock, fuel, after ++ [o], n, by simp, by
        rw [core_append]; rfl⟩, ?_, q2, q2', q3, q4.trans e1.symm, q5.trans e2.symm⟩
      rw [secRun_append, q1, exc_bind_of_ok]
      refine step_core hk h2 fun k hkk => ?_
      obtain ⟨cfg', c', f', n', m1, m2⟩ := (life hn _ h1).keys k hkk
      obtain ⟨cfg2, c2, f2, m3, m4⟩ := type_configured h1 ⟨cfg', c', f', m1⟩
      rw [m4]
      exact ha' cfg2 c2 f2 cfg' c' f' n' k m3 m1 m2
    · have idle : ∀ x, (∀ c f, x ≠ Sec.Op.restart c f) → other a x s1 = .ok (r, s) → s.core.up = false ∧ s.core.firmware = s0.core.firmware := by
        intro x hx hh
        unfold other at hh
        obtain ⟨q, g1, hh⟩ := exc_bind_ok.1 hh
        cases hh
        have : q.2 = s1.core := by
          cases x with
          | restart c f => exact absurd rfl (hx c f)
          | _ =>
            rcases Sec.request_ok (a := q.1) (s' := q.2) g1 with ⟨_, _, e⟩ | ⟨hu', _⟩
            · exact e
            · rw [hu] at hu'; cases hu'
        simp only [this]
        exact ⟨hu, hf⟩
      cases o with
      | start cfg clock fuel =>
        obtain ⟨o, s2, hm, hr⟩ := observe_ok h2
        obtain ⟨g1, g2⟩ := start_core hm
        rcases hr with ⟨x, rfl, -, rfl⟩ | ⟨e, rfl, -, rfl⟩
        · obtain ⟨c, n, p1, p2, p2', p3, p4, p5, -⟩ := g2 rfl
          refine .inl ⟨known_of_life (life hn _ h) ((start_cases hm).2.2.2 rfl), c, [.restart clock n],
            ⟨l, cfg, clock, fuel, [], n, rfl, rfl⟩, ?_, p2, p2', p3.trans hf, p4, p5⟩
          show (Sec.step _ _ _ _ >>= fun q => Sec.run _ _ q.2 []) = _
          rw [p1]
          rfl
        · exact .inr ⟨rfl, g1.trans hf⟩
      | place f => cases h2; exact .inr ⟨hu, hf⟩
      | getInfo =>
        change request _ _ _ = _ at h2
        unfold request at h2
        rw [if_neg (by simp [hu])] at h2
        cases h2
        exact .inr ⟨hu, hf⟩
      | getManifest =>
        change request _ _ _ = _ at h2
        unfold request at h2
        rw [if_neg (by simp [hu])] at h2
        cases h2
        exact .inr ⟨hu, hf⟩
      | putMeta m clock fuel => exact .inr (idle _ (by simp) h2)
      | upload io data => exact .inr (idle _ (by simp) h2)
      | install renames fuel => exact .inr (idle _ (by simp) h2)

/-- **The life of a Secondary is one of the lives C26 to C29 are about**: since the first start that succeeded, with the names it
tells. -/
theorem C76_refines {s0 s : State} (hn : New s0) (ops : List Op) (h : run a s0 ops = .ok s) (ha : AllSuit a ops) (hu : s.core.up = true) :
    ∃ c sops, Since a s0 s ops c sops ∧ ∀ x hw key, Says a s0 ops x hw key → c.serial = x ∧ c.hwid = hw := by
  rcases since_or hn ops h ha with ⟨-, c, sops, hs⟩ | ⟨hd, -⟩
  · refine ⟨c, sops, hs, fun x hw key hsay => ?_⟩
    obtain ⟨s', s1, hr, hst⟩ := hsay
    rw [h] at hr
    cases hr
    obtain ⟨-, -, rfl, rfl, -⟩ := says_state hst
    exact ⟨hs.2.2.2.2.2.1, hs.2.2.2.2.2.2⟩
  · rw [hd] at hu; cases hu

/-- **What it installs is assigned to the name it tells**: when the firmware changes, in any life, the new one has the length of a
target that was established for the ECU with the serial and hardware identifier the Secondary tells. -/
theorem C76_installs {s0 s s' : State} (hn : New s0) (ops : List Op) (o : Op) {r : Option Reply} (h : run a s0 ops = .ok s) (ha : AllSuit a ops)
    (hstep : step a s o = .ok (r, s')) (hc : s'.core.firmware ≠ s.core.firmware) :
    ∃ t b c sops, s'.core.firmware = some b ∧ b.length = t.length ∧ Since a s0 s ops c sops ∧ Sec.Authorised a.g.env a.hashing c sops t ∧
      ∀ x hw key, Says a s0 ops x hw key → c.serial = x ∧ c.hwid = hw := by
  have via : ∀ x, (∀ c f, x ≠ Sec.Op.restart c f) → other a x s = .ok (r, s') →
      ∃ t b c sops, s'.core.firmware = some b ∧ b.length = t.length ∧ Since a s0 s ops c sops ∧ Sec.Authorised a.g.env a.hashing c sops t ∧
      ∀ x hw key, Says a s0 ops x hw key → c.serial = x ∧ c.hwid = hw := by
    intro x hx hh
    unfold other at hh
    obtain ⟨q, g1, hh⟩ := exc_bind_ok.1 hh
    cases hh
    have hup : s.core.up = true := by
      cases hu : s.core.up with
      | true => rfl
      | false =>
        exfalso
        apply hc
        show q.2.firmware = _
        have : q.2 = s.core := by
          cases x with
          | restart c f => exact absurd rfl (hx c f)
          | _ =>
            rcases Sec.request_ok (a := q.1) (s' := q.2) g1 with ⟨_, _, e⟩ | ⟨hu', _⟩
            · exact e
            · rw [hu] at hu'; cases hu'
        rw [this]
    obtain ⟨c, sops, hs, hsay⟩ := C76_refines hn ops h ha hup
    obtain ⟨t, b, -, hb, hl, hau⟩ := Sec.C26_partial a.g.env a.hashing c s.core q.2 sops x q.1 hs.2.2.1 hs.2.1 g1 (.inl hc)
    exact ⟨t, b, c, sops, hb, hl, hs, hau, hsay⟩
  cases o with
  | start cfg clock fuel =>
    obtain ⟨o, s2, hm, hr⟩ := observe_ok hstep
    obtain ⟨g1, -⟩ := start_core hm
    rcases hr with ⟨x, -, -, rfl⟩ | ⟨e, -, -, rfl⟩ <;> exact absurd g1 hc
  | place f => cases hstep; exact absurd rfl hc
  | getInfo =>
    change request _ _ _ = _ at hstep
    unfold request at hstep
    split at hstep
    · obtain ⟨o, s1, hm, hr⟩ := observe_ok hstep
      have e1 := (getInfo_cases hm).1
      subst e1
      rcases hr with ⟨x, -, -, rfl⟩ | ⟨e, -, -, rfl⟩ <;> exact absurd rfl hc
    · cases hstep; exact absurd rfl hc
  | getManifest =>
    change request _ _ _ = _ at hstep
    unfold request at hstep
    split at hstep
    · obtain ⟨o, s1, hm, hr⟩ := observe_ok hstep
      have e1 := (getManifest_cases hm).1
      subst e1
      rcases hr with ⟨x, -, -, rfl⟩ | ⟨e, -, -, rfl⟩ <;> exact absurd rfl hc
    · cases hstep; exact absurd rfl hc
  | putMeta m clock fuel => exact via _ (by simp) hstep
  | upload io data => exact via _ (by simp) hstep
  | install renames fuel => exact via _ (by simp) hstep

/-- **What it reports reaches the server**: a Primary that knows the Secondary under the name and key it told once, and gets its
manifest now, puts it into every manifest it sends, where it is a valid statement of this ECU about the file it has. -/
theorem C76_reported {s0 : State} {ty : KeyType} (hn : New s0) (hw : KeysWork a ty) (ops more : List Op) (ho : OneType (ops ++ more) ty)
    {x hwid : String} {key : PublicKey} {j : Json} (h : Says a s0 ops x hwid key) (h' : Reports a s0 (ops ++ more) j)
    (es : List DevEvent) (e : DevEvent) (hc : e.call = .putManifest) (hs : x ∈ (runDevice a.g.env Dev.fresh es).cl.secondaries.map Prod.fst)
    (ha : AnswersWith e.peers x j key) :
    ∃ new, (runDevice a.g.env Dev.fresh (es ++ [e])).log = (runDevice a.g.env Dev.fresh es).log ++ new ∧
      ∀ m ok, Action.sent m ok ∈ new → (x, j) ∈ m.secondaries ∧ ∃ s i, run a s0 (ops ++ more) = .ok s ∧ EcuManifest a.g.env j key x i none ∧
        ∀ b, s.core.firmware = some b → i.length = b.length ∧ i.hash = a.hashing.digest .sha256 b := by
  obtain ⟨s, i, q1, q2, q3⟩ := C76_manifest hn hw ops more ho h h'
  obtain ⟨new, p1, p2⟩ := C75_passed_on (env := a.g.env) es e hc
  refine ⟨new, p1, fun m ok hm => ⟨p2 m ok hm x j key hs ha q2.signed, s, i, q1, q2, fun b hb => ?_⟩⟩
  rw [hb] at q3
  rw [q3]
  exact ⟨rfl, rfl⟩

/-! ### The first start -/

/-- The version a file for import names as current. -/
def named (env : Env) (file : Option String) : Option Target :=
  let r := FsMig.loadInstalled env { installed := file }
  r.2.bind (fun k => r.1[k]?)

/-- **The first start** of a Secondary with empty tables, with a key that can be made and names that are chosen, stores keys and names,
records the version the file names as current and removes the file; then it goes on as a restart. -/
theorem C76_first_start {s : State} (hk : s.keys = none) (hv : s.core.versions = {}) (cfg : Config) (clock : Nat → TimeStamp) (fuel : Nat)
    {k : String × String} {x hw : String} (hn : a.newKey cfg.keyType s.drawn = some k) (hne : k.1 ≠ "") (hc : Chosen a cfg k.1 x hw)
    (hs : cfg.serial = "" → Suits a cfg.keyType k.1) :
    ∃ s1 n, start a cfg clock (fuel + 4) s = inCore (Sec.start a.g.env clock n) s1 ∧ Known s1 ∧ s1.keys = some k ∧ s1.core.serial = x ∧
      s1.core.hwid = hw ∧ s1.type = cfg.keyType ∧ s1.core.firmware = s.core.firmware ∧
      match named a.g.env s.file with
      | none => s1.core.versions.rows = [] ∧ s1.file = s.file
      | some t => s1.core.versions = (s.core.versions.storeEcuSerials [(x, hw)]).saveInstalledVersion a.g.env "" t .current ∧ s1.file = none := by
  have write_eq : ∀ (f : State → State) (z : State) (n : Nat), z.core.w.fuel = n + 1 →
      write f z = (.ok (), f { z with core := { z.core with w := { z.core.w with fuel := n } } }) := by
    intro f z n hz
    unfold write
    rw [hz]
  let c0 : Sec.State := { s.core with up := false, w := { s.core.w with fuel := fuel + 3 } }
  let z1 : State := { s with core := c0, type := cfg.keyType, drawn := s.drawn + 1, keys := some k }
  have h1 : generateKeys a cfg.keyType { s with core := { s.core with up := false, w := { s.core.w with fuel := fuel + 4 } }, type := cfg.keyType } = (.ok k.1, z1) := by
    unfold generateKeys
    rw [run_bind (gets_eq (f := id))]
    simp only [id, hk]
    rw [run_bind modify_eq]
    simp only [hn]
    rw [run_bind (write_eq _ _ (fuel + 3) rfl)]
    have : throwWhen (σ := State) (k.1 == "" && k.2 == "") (.std "Could not get Uptane keys") z1 = (.ok (), z1) :=
      throwWhen_ok.2 ⟨by simp [hne], rfl⟩
    exact run_bind this
  have h2 : throwWhen (σ := State) (k.1 == "") (.std "Failed to generate Uptane key pair") z1 = (.ok (), z1) :=
    throwWhen_ok.2 ⟨by simp [hne], rfl⟩
  have h3 : lift (σ := State) z1.core.versions.loadEcuSerials z1 = (.ok none, z1) := by
    show lift (σ := State) s.core.versions.loadEcuSerials z1 = _
    rw [hv]
    rfl
  obtain ⟨hx, hy, hy0, hs1, hs2, hs3⟩ := hc
  have e1 : mkEcuSerial x = .ok x := by
    unfold mkEcuSerial
    rw [if_neg (by omega), if_neg (by omega)]
  have e2 : mkHwId hw = .ok hw := by
    unfold mkHwId
    rw [if_neg (by omega)]
  obtain ⟨pub, h4, hpub⟩ : ∃ pub, (if cfg.serial = "" then lift (σ := State) (Man.Keys.public a.g.env ⟨z1.keys, cfg.keyType⟩) else pure ⟨"", .unknown⟩) z1 = (.ok pub, z1) ∧
      (if cfg.serial = "" then a.g.keyId pub else cfg.serial) = x := by
    by_cases h0 : cfg.serial = ""
    · have := public_suits (a := a) (s := z1) (k := k) rfl (hs h0)
      refine ⟨⟨k.1, cfg.keyType⟩, ?_, ?_⟩
      · rw [if_pos h0, lift_eq]
        exact congrArg (fun q => (q, z1)) this
      · rw [hx, if_pos h0]
    · exact ⟨_, by rw [if_neg h0]; rfl, by rw [hx, if_neg h0]; simp [h0]⟩
  let z2 : State := { z1 with core := { c0 with w := { s.core.w with fuel := fuel + 2 }, versions := s.core.versions.storeEcuSerials [(x, hw)], serial := x, hwid := hw } }
  have h5 : uptaneInitialize a cfg { s with core := { s.core with up := false, w := { s.core.w with fuel := fuel + 4 } }, type := cfg.keyType } =
      importVersions a.g.env z2 := by
    unfold uptaneInitialize
    rw [run_bind h1, run_bind h2, run_bind (gets_eq (f := id))]
    simp only [id]
    rw [run_bind h3]
    simp only
    rw [run_bind h4, hpub, ← hy]
    have h5 : throwWhen (σ := State) (hw == "") (.std "Failed to define ECU hardware ID") z1 = (.ok (), z1) := throwWhen_ok.2 ⟨by simp [hy0], rfl⟩
    have h6 : lift (σ := State) (mkEcuSerial x) z1 = (.ok x, z1) := by rw [lift_eq, e1]
    have h7 : lift (σ := State) (mkHwId hw) z1 = (.ok hw, z1) := by rw [lift_eq, e2]
    rw [run_bind h5, run_bind h6, run_bind h7, run_bind (write_eq _ _ (fuel + 2) rfl), run_bind modify_eq]
  have hz : z2.core.versions.ecus = [⟨x, hw, true⟩] := by
    show (s.core.versions.storeEcuSerials _).ecus = _
    simp [VersionDb.storeEcuSerials, VersionDb.secondaryRows]
  have hlog : lift (σ := State) (z2.core.versions.loadInstallationLog a.g.env "" false) z2 = (.ok [], z2) := by
    rw [lift_eq]
    have : z2.core.versions.loadInstallationLog a.g.env "" false = .ok [] := by
      have hv2 : z2.core.versions = { ecus := [⟨x, hw, true⟩], rows := [] } := by
        show s.core.versions.storeEcuSerials [(x, hw)] = _
        rw [hv]
        simp [VersionDb.storeEcuSerials, VersionDb.secondaryRows]
      have hx0 : x ≠ "" := by
        rintro rfl
        revert hs1
        decide
      rw [hv2]
      unfold VersionDb.loadInstallationLog
      simp [VersionDb.realSerial, VersionDb.ecuMap, hx0, e1, e2]
      rfl
    rw [this]
  have fin : ∀ z n, importVersions a.g.env z2 = (.ok (), z) → z.core.w.fuel = n → start a cfg clock (fuel + 4) s = inCore (Sec.start a.g.env clock n) z := by
    intro z n hz hn
    unfold start
    rw [run_bind modify_eq, run_bind (h5.trans hz), run_bind (gets_eq (f := id))]
    simp only [id]
    rw [hn]
  let z3 : Target → State := fun t =>
    let v := z2.core.versions.saveInstalledVersion a.g.env "" t .current
    { z2 with file := none, core := { z2.core with w := { s.core.w with fuel := fuel }, versions := v } }
  have himp : importVersions a.g.env z2 = (.ok (), match named a.g.env s.file with | none => z2 | some t => z3 t) := by
    unfold importVersions
    rw [run_bind (gets_eq (f := id))]
    simp only [id]
    rw [run_bind hlog]
    show (match named a.g.env s.file with | none => _ | some t => _ : I Unit) z2 = _
    cases named a.g.env s.file with
    | none => rfl
    | some t =>
      simp only
      rw [run_bind (write_eq _ _ (fuel + 1) rfl), write_eq _ _ fuel rfl]
  cases hnm : named a.g.env s.file with
  | none =>
    rw [hnm] at himp
    refine ⟨z2, _, fin z2 _ himp rfl, ⟨⟨k, rfl, hne⟩, hz, hs1, hs2, hs3⟩, rfl, rfl, rfl, rfl, rfl, ?_, rfl⟩
    show (s.core.versions.storeEcuSerials _).rows = []
    rw [hv]
    rfl
  | some t =>
    rw [hnm] at himp
    refine ⟨_, _, fin _ _ himp rfl, ⟨⟨k, rfl, hne⟩, ?_, hs1, hs2, hs3⟩, rfl, rfl, rfl, rfl, rfl, rfl, rfl⟩
    show (VersionDb.saveInstalledVersion _ _ _ _ _).ecus = _
    rw [save_ecus]
    exact hz

end SecId

end Aktualizr
