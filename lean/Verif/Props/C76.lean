import Verif.Props.C26
import Verif.Props.C75Document
import Verif.Model.SecondaryStart

/-!
# C76 An IP Secondary keeps its identity

Over any life of `aktualizr-secondary`, started again and again with any configuration and dying anywhere.
-/

namespace Aktualizr

open M Spec

/-! ### Specification -/

namespace SecId

/-- The key type configured at the last start. -/
def configured (ops : List Op) : Option KeyType :=
  ops.foldl (fun t o => match o with | .start cfg _ _ => some cfg.keyType | _ => t) none

/-- The names a configuration gives: the configured serial or else the identifier of the key; the configured hardware identifier
or else the name of the host. Neither is empty or too long. -/
def Chosen (a : Around) (cfg : Config) (pub : String) (serial hwid : String) : Prop :=
  serial = (if cfg.serial = "" then a.g.keyId ⟨pub, cfg.keyType⟩ else cfg.serial) ∧
  hwid = (if cfg.hwid = "" then cfg.hostname else cfg.hwid) ∧ hwid ≠ "" ∧
  1 ≤ serial.utf8ByteSize ∧ serial.utf8ByteSize ≤ 64 ∧ hwid.utf8ByteSize ≤ 200

/-- After this history the Secondary answers a request for information with this. -/
def Says (a : Around) (s0 : State) (ops : List Op) (serial hwid : String) (key : PublicKey) : Prop :=
  ∃ s s', run a s0 ops = .ok s ∧ step a s .getInfo = .ok (some (.info serial hwid key), s')

/-- After this history the Secondary answers a request for its manifest with this. -/
def Reports (a : Around) (s0 : State) (ops : List Op) (j : Json) : Prop :=
  ∃ s s', run a s0 ops = .ok s ∧ step a s .getManifest = .ok (some (.manifest j), s')

/-- A Secondary before its first start: nothing in its tables. -/
def New (s : State) : Prop := s.keys = none ∧ s.core.versions.ecus = [] ∧ s.core.up = false

end SecId

namespace SecId

open VersionDb

variable {a : Around}

/-! ### What a start does -/

/-- The process knows who it is. -/
def Identified (s : State) : Prop :=
  ∃ k, s.keys = some k ∧ k.1 ≠ "" ∧ ∃ e rest, s.core.versions.ecus = e :: rest ∧ s.core.serial = e.serial ∧ s.core.hwid = e.hwid

/-- What happens to keys and names. -/
structure Grows (a : Around) (cfg : Config) (s s' : State) : Prop where
  keys : s'.keys = s.keys ∨ (s.keys = none ∧ ∃ n k, a.newKey cfg.keyType n = some k ∧ s'.keys = some k)
  ecus : s'.core.versions.ecus = s.core.versions.ecus ∨
    (s.core.versions.ecus = [] ∧ ∃ k x h, s'.keys = some k ∧ s'.core.versions.ecus = [⟨x, h, true⟩] ∧ Chosen a cfg k.1 x h)
  type : s'.type = s.type
  up : s'.core.up = s.core.up

theorem write_cases {f : State → State} {s s' : State} {o : Except Err Unit} (h : write f s = (o, s')) :
    (o = .error .crash ∧ s' = s) ∨ (∃ n, o = .ok () ∧ s' = f { s with core := { s.core with w := { s.core.w with fuel := n } } }) := by
  unfold write at h
  cases hf : s.core.w.fuel with
  | zero => rw [hf] at h; cases h; exact .inl ⟨rfl, rfl⟩
  | succ n => rw [hf] at h; cases h; exact .inr ⟨n, rfl, rfl⟩

theorem save_ecus (env : Env) (v : VersionDb) (x : String) (t : Target) (m : UpdateMode) : (v.saveInstalledVersion env x t m).ecus = v.ecus := by
  unfold VersionDb.saveInstalledVersion
  simp only
  split <;> rfl

theorem generateKeys_cases {ty : KeyType} {s s' : State} {o : Except Err String} (h : generateKeys a ty s = (o, s')) :
    (∃ fuel drawn, s' = { s with core := { s.core with w := { s.core.w with fuel := fuel } }, drawn := drawn, keys := s'.keys }) ∧
    (s'.keys = s.keys ∨ (s.keys = none ∧ ∃ n k, a.newKey ty n = some k ∧ s'.keys = some k)) ∧
    ∀ p, o = .ok p → ∃ k, s'.keys = some k ∧ k.1 = p := by
  unfold generateKeys at h
  rw [run_bind (gets_eq (f := id))] at h
  simp only [id] at h
  cases hk : s.keys with
  | some k =>
    rw [hk] at h
    rcases bind_cases h with ⟨u, s1, h1, h⟩ | ⟨e, h1, rfl⟩
    · rw [throwWhen_ok] at h1
      obtain ⟨-, rfl⟩ := h1
      cases h
      exact ⟨⟨_, _, rfl⟩, .inl hk, fun p hp => by cases hp; exact ⟨k, hk, rfl⟩⟩
    · have : s' = s := by have := congrArg Prod.snd h1; simpa using this.symm
      subst this
      exact ⟨⟨_, _, rfl⟩, .inl hk, fun p hp => by cases hp⟩
  | none =>
    rw [hk] at h
    simp only at h
    rw [run_bind modify_eq] at h
    cases hn : a.newKey ty s.drawn with
    | none =>
      rw [hn] at h
      cases h
      exact ⟨⟨_, _, rfl⟩, .inl hk, fun p hp => by cases hp⟩
    | some k =>
      rw [hn] at h
      rcases bind_cases h with ⟨u, s1, h1, h⟩ | ⟨e, h1, rfl⟩
      · rcases write_cases h1 with ⟨h1, _⟩ | ⟨n, -, rfl⟩
        · cases h1
        · rcases bind_cases h with ⟨u, s2, h2, h⟩ | ⟨e, h2, rfl⟩
          · rw [throwWhen_ok] at h2
            obtain ⟨-, rfl⟩ := h2
            cases h
            exact ⟨⟨_, _, rfl⟩, .inr ⟨rfl, _, k, hn, rfl⟩, fun p hp => by cases hp; exact ⟨k, rfl, rfl⟩⟩
          · have := congrArg Prod.snd h2
            simp only [throwWhen_snd] at this
            subst this
            exact ⟨⟨_, _, rfl⟩, .inr ⟨rfl, _, k, hn, rfl⟩, fun p hp => by cases hp⟩
      · rcases write_cases h1 with ⟨-, rfl⟩ | ⟨n, h1, _⟩
        · exact ⟨⟨_, _, rfl⟩, .inl hk, fun p hp => by cases hp⟩
        · cases h1

theorem importVersions_cases {env : Env} {s s' : State} {o : Except Err Unit} (h : importVersions env s = (o, s')) :
    ∃ fuel v f, s' = { s with core := { s.core with w := { s.core.w with fuel := fuel }, versions := v }, file := f } ∧
      v.ecus = s.core.versions.ecus := by
  have same : ∀ x : State, x = s → ∃ fuel v f, x = { s with core := { s.core with w := { s.core.w with fuel := fuel }, versions := v }, file := f } ∧
      v.ecus = s.core.versions.ecus := fun x hx => ⟨s.core.w.fuel, s.core.versions, s.file, by rw [hx], rfl⟩
  unfold importVersions at h
  rw [run_bind (gets_eq (f := id))] at h
  simp only [id] at h
  rcases bind_cases h with ⟨l, s1, h1, h⟩ | ⟨e, h1, rfl⟩
  swap_goal
  · rw [lift_eq, Prod.mk.injEq] at h1
    exact same _ h1.2.symm
  · rw [lift_eq, Prod.mk.injEq] at h1
    obtain ⟨-, rfl⟩ := h1
    cases l with
    | cons => cases h; exact same _ rfl
    | nil =>
      simp only at h
      cases ht : (FsMig.loadInstalled env { installed := s.file }).2.bind (fun k => (FsMig.loadInstalled env { installed := s.file }).1[k]?) with
      | none => rw [ht] at h; cases h; exact same _ rfl
      | some t =>
        rw [ht] at h
        rcases bind_cases h with ⟨u, s2, h2, h⟩ | ⟨e, h2, rfl⟩
        · rcases write_cases h2 with ⟨h2, _⟩ | ⟨n, -, rfl⟩
          · cases h2
          · rcases write_cases h with ⟨-, rfl⟩ | ⟨n', -, rfl⟩
            · exact ⟨_, _, _, rfl, save_ecus _ _ _ _ _⟩
            · exact ⟨_, _, _, rfl, save_ecus _ _ _ _ _⟩
        · rcases write_cases h2 with ⟨-, rfl⟩ | ⟨n, h2, _⟩
          · exact same _ rfl
          · cases h2

theorem loadSerialsLoop_ok : ∀ {l : List EcuRow} {r : List (String × String)}, VersionDb.loadSerialsLoop l = .ok r → r = l.map (fun e => (e.serial, e.hwid))
  | [], r, h => by cases h; rfl
  | e :: es, r, h => by
    unfold VersionDb.loadSerialsLoop at h
    obtain ⟨x, h1, h⟩ := exc_bind_ok.1 h
    obtain ⟨y, h2, h⟩ := exc_bind_ok.1 h
    obtain ⟨z, h3, h⟩ := exc_bind_ok.1 h
    have e1 := loadSerialsLoop_ok h3
    have e2 : x = e.serial := by
      unfold mkEcuSerial at h1
      split at h1
      · cases h1
      · split at h1
        · cases h1
        · injection h1 with h1; exact h1.symm
    have e3 : y = e.hwid := by
      unfold mkHwId at h2
      split at h2
      · cases h2
      · injection h2 with h2; exact h2.symm
    cases h
    rw [e1, e2, e3]
    rfl

theorem loadEcuSerials_some {v : VersionDb} {l : List (String × String)} (h : v.loadEcuSerials = .ok (some l)) :
    ∃ e rest, v.ecus = e :: rest ∧ l.headD ("", "") = (e.serial, e.hwid) := by
  unfold VersionDb.loadEcuSerials at h
  obtain ⟨r, h1, h⟩ := exc_bind_ok.1 h
  have := loadSerialsLoop_ok h1
  subst this
  cases hv : v.ecus with
  | nil => rw [hv] at h; cases h
  | cons e rest =>
    rw [hv] at h
    cases h
    exact ⟨e, rest, rfl, rfl⟩

theorem loadEcuSerials_none {v : VersionDb} (h : v.loadEcuSerials = .ok none) : v.ecus = [] := by
  unfold VersionDb.loadEcuSerials at h
  obtain ⟨r, h1, h⟩ := exc_bind_ok.1 h
  have := loadSerialsLoop_ok h1
  subst this
  cases hv : v.ecus with
  | nil => rfl
  | cons e rest => rw [hv] at h; cases h

theorem mkEcuSerial_ok {x y : String} (h : mkEcuSerial x = .ok y) : y = x := by
  unfold mkEcuSerial at h
  split at h
  · cases h
  · split at h
    · cases h
    · injection h with h; exact h.symm

theorem mkHwId_ok {x y : String} (h : mkHwId x = .ok y) : y = x := by
  unfold mkHwId at h
  split at h
  · cases h
  · injection h with h; exact h.symm

theorem public_ok {env : Env} {k : Man.Keys} {p : PublicKey} (h : k.public env = .ok p) : ∃ q, k.stored = some q ∧ p = ⟨q.1, k.type⟩ := by
  unfold Man.Keys.public at h
  cases hs : k.stored with
  | none => rw [hs] at h; cases h
  | some q =>
    rw [hs] at h
    simp only at h
    split at h
    · cases h
    · cases h; exact ⟨q, rfl, rfl⟩

theorem mkEcuSerial_size {x y : String} (h : mkEcuSerial x = .ok y) : 1 ≤ y.utf8ByteSize ∧ y.utf8ByteSize ≤ 64 := by
  have e := mkEcuSerial_ok h
  subst e
  unfold mkEcuSerial at h
  split at h
  · cases h
  · split at h
    · cases h
    · omega

theorem mkHwId_size {x y : String} (h : mkHwId x = .ok y) : y.utf8ByteSize ≤ 200 := by
  have e := mkHwId_ok h
  subst e
  unfold mkHwId at h
  split at h
  · cases h
  · omega

theorem uptaneInitialize_cases {cfg : Config} {s s' : State} {o : Except Err Unit} (h : uptaneInitialize a cfg s = (o, s')) :
    Grows a cfg s s' ∧ (o = .ok () → Identified s') := by
  unfold uptaneInitialize at h
  rcases bind_cases h with ⟨p, s1, h1, h⟩ | ⟨e, h1, rfl⟩
  swap_goal
  · obtain ⟨⟨fuel, drawn, e1⟩, hk, -⟩ := generateKeys_cases h1
    exact ⟨⟨hk, .inl (by rw [e1]), by rw [e1], by rw [e1]⟩, fun hx => by cases hx⟩
  obtain ⟨⟨fuel, drawn, e1⟩, hk, hp⟩ := generateKeys_cases h1
  obtain ⟨k, hk1, rfl⟩ := hp p rfl
  have g1 : Grows a cfg s s1 := ⟨hk, .inl (by rw [e1]), by rw [e1], by rw [e1]⟩
  have ec1 : s1.core.versions.ecus = s.core.versions.ecus := by rw [e1]
  rcases bind_cases h with ⟨u, s2, h2, h⟩ | ⟨e, h2, rfl⟩
  swap_goal
  · have := congrArg Prod.snd h2
    simp only [throwWhen_snd] at this
    subst this
    exact ⟨g1, fun hx => by cases hx⟩
  rw [throwWhen_ok] at h2
  obtain ⟨hne, rfl⟩ := h2
  have hne : k.1 ≠ "" := by simpa using hne
  rw [run_bind (gets_eq (f := id))] at h
  simp only [id] at h
  rcases bind_cases h with ⟨l, s3, h3, h⟩ | ⟨e, h3, rfl⟩
  swap_goal
  · rw [lift_eq, Prod.mk.injEq] at h3
    obtain ⟨-, rfl⟩ := h3
    exact ⟨g1, fun hx => by cases hx⟩
  rw [lift_eq, Prod.mk.injEq] at h3
  obtain ⟨h3, rfl⟩ := h3
  cases l with
  | some l =>
    obtain ⟨e, rest, q1, q2⟩ := loadEcuSerials_some h3
    simp only [q2] at h
    cases h
    exact ⟨⟨g1.keys, g1.ecus, g1.type, g1.up⟩, fun _ => ⟨k, hk1, hne, e, rest, q1, rfl, rfl⟩⟩
  | none =>
    have he := loadEcuSerials_none h3
    simp only at h
    rcases bind_cases h with ⟨pub, s4, h4, h⟩ | ⟨e, h4, rfl⟩
    swap_goal
    · split at h4
      · rw [lift_eq, Prod.mk.injEq] at h4
        obtain ⟨-, rfl⟩ := h4
        exact ⟨g1, fun hx => by cases hx⟩
      · cases h4
    have hpub : s4 = s1 ∧ (cfg.serial = "" → pub = ⟨k.1, cfg.keyType⟩) := by
      split at h4
      · rw [lift_eq, Prod.mk.injEq] at h4
        obtain ⟨h4, rfl⟩ := h4
        obtain ⟨q, q1, q2⟩ := public_ok h4
        simp only at q1
        rw [hk1] at q1
        cases q1
        exact ⟨rfl, fun _ => q2⟩
      · cases h4
        exact ⟨rfl, fun hx => absurd hx ‹_›⟩
    obtain ⟨e4, hpub⟩ := hpub
    rw [e4] at h
    rcases bind_cases h with ⟨u, s5, h5, h⟩ | ⟨e, h5, rfl⟩
    swap_goal
    · have := congrArg Prod.snd h5
      simp only [throwWhen_snd] at this
      subst this
      exact ⟨g1, fun hx => by cases hx⟩
    rw [throwWhen_ok] at h5
    obtain ⟨hh, rfl⟩ := h5
    rcases bind_cases h with ⟨x, s6, h6, h⟩ | ⟨e, h6, rfl⟩
    swap_goal
    · rw [lift_eq, Prod.mk.injEq] at h6
      obtain ⟨-, rfl⟩ := h6
      exact ⟨g1, fun hx => by cases hx⟩
    rw [lift_eq, Prod.mk.injEq] at h6
    obtain ⟨h6, rfl⟩ := h6
    have hx := mkEcuSerial_ok h6
    rcases bind_cases h with ⟨y, s7, h7, h⟩ | ⟨e, h7, rfl⟩
    swap_goal
    · rw [lift_eq, Prod.mk.injEq] at h7
      obtain ⟨-, rfl⟩ := h7
      exact ⟨g1, fun hx => by cases hx⟩
    rw [lift_eq, Prod.mk.injEq] at h7
    obtain ⟨h7, rfl⟩ := h7
    have hy := mkHwId_ok h7
    have hch : Chosen a cfg k.1 x y := by
      refine ⟨?_, hy, ?_, ?_⟩
      · rw [hx]
        split
        · rename_i h0; rw [hpub h0]
        · rfl
      · rw [hy]; simpa using hh
      · exact ⟨(mkEcuSerial_size h6).1, (mkEcuSerial_size h6).2, mkHwId_size h7⟩
    rcases bind_cases h with ⟨u, s8, h8, h⟩ | ⟨e, h8, rfl⟩
    swap_goal
    · rcases write_cases h8 with ⟨-, rfl⟩ | ⟨n, h8, -⟩
      · exact ⟨g1, fun hx => by cases hx⟩
      · cases h8
    rcases write_cases h8 with ⟨h8, -⟩ | ⟨n, -, rfl⟩
    · cases h8
    rw [run_bind modify_eq] at h
    obtain ⟨fuel', v, f, rfl, hv⟩ := importVersions_cases h
    have hv : v.ecus = [⟨x, y, true⟩] := by
      rw [hv]
      simp [VersionDb.storeEcuSerials, VersionDb.secondaryRows]
    have hs0 : s.core.versions.ecus = [] := by rw [← ec1]; exact he
    exact ⟨⟨g1.keys, .inr ⟨hs0, k, x, y, hk1, hv, hch⟩, g1.type, g1.up⟩, fun _ => ⟨k, hk1, hne, _, [], hv, rfl, rfl⟩⟩

theorem inCore_eq {α : Type} (m : Sec.S α) (s : State) : inCore m s = ((m s.core).1, { s with core := (m s.core).2 }) := rfl

theorem start_cases {cfg : Config} {clock : Nat → TimeStamp} {fuel : Nat} {s s' : State} {o : Except Err Unit} (h : start a cfg clock fuel s = (o, s')) :
    (s'.keys = s.keys ∨ (s.keys = none ∧ ∃ n k, a.newKey cfg.keyType n = some k ∧ s'.keys = some k)) ∧
    (s'.core.versions.ecus = s.core.versions.ecus ∨
      (s.core.versions.ecus = [] ∧ ∃ k x h, s'.keys = some k ∧ s'.core.versions.ecus = [⟨x, h, true⟩] ∧ Chosen a cfg k.1 x h)) ∧
    s'.type = cfg.keyType ∧ (o = .ok () → Identified s') := by
  unfold start at h
  rw [run_bind modify_eq] at h
  rcases bind_cases h with ⟨u, s1, h1, h⟩ | ⟨e, h1, rfl⟩
  swap_goal
  · obtain ⟨g, -⟩ := uptaneInitialize_cases h1
    exact ⟨g.keys, g.ecus, g.type, fun hx => by cases hx⟩
  obtain ⟨g, hid⟩ := uptaneInitialize_cases h1
  rw [run_bind (gets_eq (f := id)), inCore_eq] at h
  simp only [id] at h
  cases hst : Sec.start a.g.env clock s1.core.w.fuel s1.core with
  | mk o1 c1 =>
    rw [hst] at h
    simp only [Prod.mk.injEq] at h
    obtain ⟨rfl, rfl⟩ := h
    obtain ⟨⟨w', pd, nm, u', hc⟩, -⟩ := Sec.start_cases hst
    refine ⟨g.keys, ?_, g.type, fun _ => ?_⟩
    · rw [hc]; exact g.ecus
    · obtain ⟨k, q1, q2, e, rest, q3, q4, q5⟩ := hid rfl
      exact ⟨k, q1, q2, e, rest, by rw [hc]; exact q3, by rw [hc]; exact q4, by rw [hc]; exact q5⟩

/-- The other requests do not touch it. -/
theorem core_frame {env : Env} {hs : Sec.Hashing} {s s' : Sec.State} {o : Sec.Op} {r : Option Sec.Answer} (h : Sec.step env hs s o = .ok (r, s'))
    (ho : ∀ c f, o ≠ .restart c f) :
    s'.serial = s.serial ∧ s'.hwid = s.hwid ∧ s'.versions.ecus = s.versions.ecus ∧ (s'.up = true → s.up = true) := by
  have names := Sec.step_pending h
  refine ⟨names.1, names.2.1, ?_⟩
  cases o with
  | restart c f => exact absurd rfl (ho c f)
  | putMeta m clock fuel =>
    rcases Sec.request_ok h with ⟨_, rfl, rfl⟩ | ⟨hu, o, s1, hm, _, h⟩
    · exact ⟨rfl, id⟩
    · refine ⟨?_, fun _ => hu⟩
      obtain ⟨w', ⟨_, rfl⟩ | ⟨t, rfl, rfl, _⟩⟩ := Sec.putMeta_cases hm <;>
        rcases h with ⟨x, _, rfl, rfl⟩ | ⟨e, _, rfl, rfl⟩ <;> rfl
  | upload io data =>
    rcases Sec.request_ok h with ⟨_, rfl, rfl⟩ | ⟨hu, o, s1, hm, _, h⟩
    · exact ⟨rfl, id⟩
    · refine ⟨?_, fun _ => hu⟩
      rcases Sec.upload_cases hm with ⟨_, rfl, _⟩ | ⟨t, _, hr⟩
      · rcases h with ⟨x, _, rfl, rfl⟩ | ⟨e, _, rfl, rfl⟩ <;> rfl
      · obtain ⟨⟨nt, hh, rfl⟩, _⟩ := Sec.receiveData_cases hr
        rcases h with ⟨x, _, rfl, rfl⟩ | ⟨e, _, rfl, rfl⟩ <;> rfl
  | install renames fuel =>
    rcases Sec.request_ok h with ⟨_, rfl, rfl⟩ | ⟨hu, o, s1, hm, _, h⟩
    · exact ⟨rfl, id⟩
    · refine ⟨?_, fun _ => hu⟩
      have key : s1.versions.ecus = s.versions.ecus := by
        rcases Sec.install_cases hm with ⟨_, rfl, _⟩ | ⟨t, _, _, ⟨_, _, hv, _⟩ | ⟨b, h0, _, _, _, _, _, _, _, _, ⟨_, _, hv⟩ | ⟨_, _, hv⟩⟩⟩
        · rfl
        · rw [hv]
        · rw [hv, save_ecus]
        · rw [hv]
      rcases h with ⟨x, _, rfl, rfl⟩ | ⟨e, _, rfl, rfl⟩ <;> exact key

theorem observe_ok {α : Type} {m : I α} {f : α → Reply} {s s' : State} {r : Option Reply} (h : observe m f s = .ok (r, s')) :
    ∃ o s1, m s = (o, s1) ∧
      ((∃ x, o = .ok x ∧ r = some (f x) ∧ s' = s1) ∨ (∃ e, o = .error e ∧ r = none ∧ s' = { s1 with core := { s1.core with up := false } })) := by
  unfold observe at h
  cases hm : m s with
  | mk o s1 =>
    rw [hm] at h
    cases o with
    | ok x =>
      simp only [Except.ok.injEq, Prod.mk.injEq] at h
      exact ⟨_, _, rfl, .inl ⟨x, rfl, h.1.symm, h.2.symm⟩⟩
    | error e =>
      cases e <;> first
        | (simp only [Except.ok.injEq, Prod.mk.injEq] at h; exact ⟨_, _, rfl, .inr ⟨_, rfl, h.1.symm, h.2.symm⟩⟩)
        | cases h

theorem getInfo_cases {s s' : State} {o : Except Err (String × String × PublicKey)} (h : getInfo a s = (o, s')) :
    s' = s ∧ ∀ r, o = .ok r → ∃ k, s.keys = some k ∧ r = (s.core.serial, s.core.hwid, ⟨k.1, s.type⟩) := by
  unfold getInfo at h
  rw [run_bind (gets_eq (f := id))] at h
  simp only [id] at h
  rcases bind_cases h with ⟨p, s1, h1, h⟩ | ⟨e, h1, rfl⟩
  · rw [lift_eq, Prod.mk.injEq] at h1
    obtain ⟨h1, rfl⟩ := h1
    cases h
    obtain ⟨q, q1, q2⟩ := public_ok h1
    refine ⟨rfl, fun r hr => ?_⟩
    cases hr
    exact ⟨q, q1, by rw [q2]⟩
  · rw [lift_eq, Prod.mk.injEq] at h1
    exact ⟨h1.2.symm, fun r hr => by cases hr⟩

/-- The image the manifest is about. -/
def image (a : Around) (s : State) : Man.Image :=
  ⟨(Sec.installedImage s.core a.hashing).1, (Sec.installedImage s.core a.hashing).2.1, (Sec.installedImage s.core a.hashing).2.2⟩

theorem getManifest_cases {s s' : State} {o : Except Err Json} (h : getManifest a s = (o, s')) :
    s' = { s with drawn := s.drawn + 1 } ∧ o = Man.sign a.g ⟨s.keys, s.type⟩ s.drawn (Man.ecuPart (image a s) s.core.serial) none := by
  unfold getManifest at h
  rw [run_bind (gets_eq (f := id)), run_bind modify_eq] at h
  simp only [id] at h
  rw [lift_eq, Prod.mk.injEq] at h
  exact ⟨h.2.symm, h.1.symm⟩

/-- What one operation can do to the identity. -/
theorem step_cases {s s' : State} {o : Op} {r : Option Reply} (h : step a s o = .ok (r, s')) :
    (∃ cfg c f, o = .start cfg c f ∧
      (s'.keys = s.keys ∨ (s.keys = none ∧ ∃ n k, a.newKey cfg.keyType n = some k ∧ s'.keys = some k)) ∧
      (s'.core.versions.ecus = s.core.versions.ecus ∨
        (s.core.versions.ecus = [] ∧ ∃ k x h, s'.keys = some k ∧ s'.core.versions.ecus = [⟨x, h, true⟩] ∧ Chosen a cfg k.1 x h)) ∧
      s'.type = cfg.keyType ∧ (s'.core.up = true → Identified s')) ∨
    ((∀ cfg c f, o ≠ .start cfg c f) ∧ s'.keys = s.keys ∧ s'.core.versions.ecus = s.core.versions.ecus ∧ s'.type = s.type ∧
      s'.core.serial = s.core.serial ∧ s'.core.hwid = s.core.hwid ∧ (s'.core.up = true → s.core.up = true)) := by
  have oth : ∀ x : Sec.Op, (∀ c f, x ≠ .restart c f) → other a x s = .ok (r, s') → s'.keys = s.keys ∧ s'.core.versions.ecus = s.core.versions.ecus ∧
      s'.type = s.type ∧ s'.core.serial = s.core.serial ∧ s'.core.hwid = s.core.hwid ∧ (s'.core.up = true → s.core.up = true) := by
    intro x hx h
    unfold other at h
    obtain ⟨q, h1, h⟩ := exc_bind_ok.1 h
    cases h
    obtain ⟨e1, e2, e3, e4⟩ := core_frame h1 hx
    exact ⟨rfl, e3, rfl, e1, e2, e4⟩
  cases o with
  | start cfg clock fuel =>
    obtain ⟨o, s1, hm, hr⟩ := observe_ok h
    obtain ⟨h1, h2, h3, h4⟩ := start_cases hm
    rcases hr with ⟨x, rfl, -, rfl⟩ | ⟨e, rfl, -, rfl⟩
    · exact .inl ⟨cfg, clock, fuel, rfl, h1, h2, h3, fun _ => h4 rfl⟩
    · exact .inl ⟨cfg, clock, fuel, rfl, h1, h2, h3, fun hx => by cases hx⟩
  | place f => cases h; exact .inr ⟨by simp, rfl, rfl, rfl, rfl, rfl, id⟩
  | getInfo =>
    change request _ _ _ = _ at h
    unfold request at h
    split at h
    · obtain ⟨o, s1, hm, hr⟩ := observe_ok h
      obtain ⟨rfl, -⟩ := getInfo_cases hm
      rcases hr with ⟨x, -, -, rfl⟩ | ⟨e, -, -, rfl⟩
      · exact .inr ⟨by simp, rfl, rfl, rfl, rfl, rfl, id⟩
      · exact .inr ⟨by simp, rfl, rfl, rfl, rfl, rfl, fun hx => by cases hx⟩
    · cases h; exact .inr ⟨by simp, rfl, rfl, rfl, rfl, rfl, id⟩
  | getManifest =>
    change request _ _ _ = _ at h
    unfold request at h
    split at h
    · obtain ⟨o, s1, hm, hr⟩ := observe_ok h
      obtain ⟨rfl, -⟩ := getManifest_cases hm
      rcases hr with ⟨x, -, -, rfl⟩ | ⟨e, -, -, rfl⟩
      · exact .inr ⟨by simp, rfl, rfl, rfl, rfl, rfl, id⟩
      · exact .inr ⟨by simp, rfl, rfl, rfl, rfl, rfl, fun hx => by cases hx⟩
    · cases h; exact .inr ⟨by simp, rfl, rfl, rfl, rfl, rfl, id⟩
  | putMeta m c f => exact .inr ⟨by simp, oth _ (by simp) h⟩
  | upload io d => exact .inr ⟨by simp, oth _ (by simp) h⟩
  | install b f => exact .inr ⟨by simp, oth _ (by simp) h⟩

/-! ### Lives -/

theorem run_append {s : State} (ops ops' : List Op) : run a s (ops ++ ops') = (run a s ops >>= fun s => run a s ops') := by
  induction ops generalizing s with
  | nil => rfl
  | cons o ops ih =>
    show (step a s o >>= fun q => run a q.2 (ops ++ ops')) = ((step a s o >>= fun q => run a q.2 ops) >>= fun s => run a s ops')
    cases step a s o with
    | error e => rfl
    | ok q => exact ih

theorem run_snoc {s s' : State} {ops : List Op} {o : Op} (h : run a s (ops ++ [o]) = .ok s') :
    ∃ s1 r, run a s ops = .ok s1 ∧ step a s1 o = .ok (r, s') := by
  rw [run_append] at h
  obtain ⟨s1, h1, h⟩ := exc_bind_ok.1 h
  obtain ⟨q, h2, h⟩ := exc_bind_ok.1 h
  cases h
  exact ⟨s1, q.1, h1, h2⟩

theorem configured_snoc (ops : List Op) (o : Op) :
    configured (ops ++ [o]) = match o with | .start cfg _ _ => some cfg.keyType | _ => configured ops := by
  unfold configured
  rw [List.foldl_append]
  cases o <;> rfl

/-- What holds after any life of a new Secondary. -/
structure Life (a : Around) (ops : List Op) (s : State) : Prop where
  up : s.core.up = true → Identified s ∧ configured ops = some s.type
  keys : ∀ k, s.keys = some k → ∃ cfg c f n, Op.start cfg c f ∈ ops ∧ a.newKey cfg.keyType n = some k
  ecus : s.core.versions.ecus = [] ∨ ∃ cfg c f k x h, Op.start cfg c f ∈ ops ∧ s.keys = some k ∧
    s.core.versions.ecus = [⟨x, h, true⟩] ∧ Chosen a cfg k.1 x h

theorem life {s0 s : State} (hn : New s0) (ops : List Op) (h : run a s0 ops = .ok s) : Life a ops s := by
  induction ops using Sec.snoc_ind generalizing s with
  | h0 =>
    cases h
    exact ⟨fun hu => (by rw [hn.2.2] at hu; cases hu), fun k hk => (by rw [hn.1] at hk; cases hk), .inl hn.2.1⟩
  | h1 l o ih =>
    obtain ⟨s1, r, h1, h2⟩ := run_snoc h
    have L := ih h1
    rcases step_cases h2 with ⟨cfg, c, f, rfl, hk, he, ht, hid⟩ | ⟨hno, hk, he, ht, hs, hh, hu⟩
    · have hmem : Op.start cfg c f ∈ l ++ [Op.start cfg c f] := List.mem_append_right _ (.head _)
      refine ⟨fun hu => ⟨hid hu, by rw [configured_snoc, ht]⟩, fun k hkk => ?_, ?_⟩
      · rcases hk with hk | ⟨-, n, k', hnk, hk⟩
        · rw [hk] at hkk
          obtain ⟨cfg', c', f', n, q1, q2⟩ := L.keys k hkk
          exact ⟨cfg', c', f', n, List.mem_append_left _ q1, q2⟩
        · rw [hk] at hkk
          cases hkk
          exact ⟨cfg, c, f, n, hmem, hnk⟩
      · rcases he with he | ⟨-, k, x, hw, q1, q2, q3⟩
        · rw [he]
          rcases L.ecus with q | ⟨cfg', c', f', k, x, hw, q0, q1, q2, q3⟩
          · exact .inl q
          · refine .inr ⟨cfg', c', f', k, x, hw, List.mem_append_left _ q0, ?_, q2, q3⟩
            rcases hk with hk | ⟨hk, -⟩
            · rw [hk]; exact q1
            · rw [hk] at q1; cases q1
        · exact .inr ⟨cfg, c, f, k, x, hw, hmem, q1, q2, q3⟩
    · refine ⟨fun hu' => ?_, fun k hkk => ?_, ?_⟩
      · obtain ⟨⟨k, q1, q2, e, rest, q3, q4, q5⟩, q6⟩ := L.up (hu hu')
        refine ⟨⟨k, by rw [hk]; exact q1, q2, e, rest, by rw [he]; exact q3, by rw [hs]; exact q4, by rw [hh]; exact q5⟩, ?_⟩
        rw [configured_snoc, ht]
        cases o <;> first | exact q6 | exact absurd rfl (hno _ _ _)
      · rw [hk] at hkk
        obtain ⟨cfg', c', f', n, q1, q2⟩ := L.keys k hkk
        exact ⟨cfg', c', f', n, List.mem_append_left _ q1, q2⟩
      · rw [he, hk]
        rcases L.ecus with q | ⟨cfg', c', f', k, x, hw, q0, q1, q2, q3⟩
        · exact .inl q
        · exact .inr ⟨cfg', c', f', k, x, hw, List.mem_append_left _ q0, q1, q2, q3⟩

/-- Keys and names stay once they are there. -/
theorem kept {s s' : State} (ops : List Op) (h : run a s ops = .ok s') :
    (∀ k, s.keys = some k → s'.keys = some k) ∧ (s.core.versions.ecus ≠ [] → s'.core.versions.ecus = s.core.versions.ecus) := by
  induction ops using Sec.snoc_ind generalizing s' with
  | h0 => cases h; exact ⟨fun _ h => h, fun _ => rfl⟩
  | h1 l o ih =>
    obtain ⟨s1, r, h1, h2⟩ := run_snoc h
    obtain ⟨k1, k2⟩ := ih h1
    rcases step_cases h2 with ⟨cfg, c, f, rfl, hk, he, ht, hid⟩ | ⟨hno, hk, he, -⟩
    · refine ⟨fun k q => ?_, fun q => ?_⟩
      · rcases hk with hk | ⟨hk, -⟩
        · rw [hk]; exact k1 k q
        · rw [k1 k q] at hk; cases hk
      · rcases he with he | ⟨he, -⟩
        · rw [he]; exact k2 q
        · rw [k2 q] at he; exact absurd he q
    · exact ⟨fun k q => by rw [hk]; exact k1 k q, fun q => by rw [he]; exact k2 q⟩

theorem says_state {s s' : State} {x hw : String} {key : PublicKey} (h : step a s .getInfo = .ok (some (.info x hw key), s')) :
    s.core.up = true ∧ s' = s ∧ x = s.core.serial ∧ hw = s.core.hwid ∧ ∃ k, s.keys = some k ∧ key = ⟨k.1, s.type⟩ := by
  change request _ _ _ = _ at h
  unfold request at h
  split at h
  · rename_i hu
    obtain ⟨o, s1, hm, hr⟩ := observe_ok h
    obtain ⟨rfl, hq⟩ := getInfo_cases hm
    rcases hr with ⟨r, rfl, hr, rfl⟩ | ⟨e, -, hr, -⟩
    · obtain ⟨k, q1, rfl⟩ := hq r rfl
      cases hr
      exact ⟨hu, rfl, rfl, rfl, k, q1, rfl⟩
    · cases hr
  · cases h

/-- **The identity stays.** After any two histories of which one continues the other, a Secondary that answers requests for
information tells the same serial, hardware identifier and key; the type it gives the key is the one it was configured with last. -/
theorem C76_same_identity {s0 : State} (hn : New s0) (ops more : List Op) {x x' hw hw' : String} {key key' : PublicKey}
    (h : Says a s0 ops x hw key) (h' : Says a s0 (ops ++ more) x' hw' key') :
    x' = x ∧ hw' = hw ∧ key'.value = key.value ∧ configured ops = some key.type ∧ configured (ops ++ more) = some key'.type := by
  obtain ⟨s, s1, hr, hs⟩ := h
  obtain ⟨t, t1, hr', ht⟩ := h'
  obtain ⟨hu, -, rfl, rfl, k, hk, rfl⟩ := says_state hs
  obtain ⟨hu', -, rfl, rfl, k', hk', rfl⟩ := says_state ht
  obtain ⟨⟨_, _, _, e, rest, q3, q4, q5⟩, c1⟩ := (life hn _ hr).up hu
  obtain ⟨⟨_, _, _, e', rest', p3, p4, p5⟩, c2⟩ := (life hn _ hr').up hu'
  rw [run_append, hr, exc_bind_of_ok] at hr'
  obtain ⟨k1, k2⟩ := kept more hr'
  have e1 : t.keys = some k := k1 k hk
  rw [hk'] at e1
  cases e1
  have e2 := k2 (by rw [q3]; simp)
  rw [p3, q3] at e2
  cases e2
  exact ⟨p4.trans q4.symm, p5.trans q5.symm, rfl, c1, c2⟩

/-- **Where the identity comes from.** What a Secondary tells about itself was chosen at one of its starts, by that start's
configuration; the key was made at one of its starts. -/
theorem C76_chosen {s0 : State} (hn : New s0) (ops : List Op) {x hw : String} {key : PublicKey} (h : Says a s0 ops x hw key) :
    (∃ cfg c f, Op.start cfg c f ∈ ops ∧ Chosen a cfg key.value x hw) ∧
    ∃ cfg c f n priv, Op.start cfg c f ∈ ops ∧ a.newKey cfg.keyType n = some (key.value, priv) := by
  obtain ⟨s, s1, hr, hs⟩ := h
  obtain ⟨hu, -, rfl, rfl, k, hk, rfl⟩ := says_state hs
  have L := life hn _ hr
  obtain ⟨⟨_, _, _, e, rest, q3, q4, q5⟩, c1⟩ := L.up hu
  obtain ⟨cfg', c', f', n, m1, m2⟩ := L.keys k hk
  refine ⟨?_, cfg', c', f', n, k.2, m1, m2⟩
  rcases L.ecus with he | ⟨cfg, c, f, k', x, y, p0, p1, p2, p3⟩
  · rw [he] at q3; cases q3
  · rw [hk] at p1
    cases p1
    rw [p2] at q3
    cases q3
    rw [q4, q5]
    exact ⟨cfg, c, f, p0, p3⟩

/-- All starts are configured with this key type. -/
def OneType (ops : List Op) (ty : KeyType) : Prop := ∀ cfg c f, Op.start cfg c f ∈ ops → cfg.keyType = ty

/-- Keys of this type can sign. -/
def KeysWork (a : Around) (ty : KeyType) : Prop := ∀ n k, a.newKey ty n = some k → Gen.Works a.g ⟨⟨k.1, ty⟩, k.2⟩

theorem reports_state {s s' : State} {j : Json} (h : step a s .getManifest = .ok (some (.manifest j), s')) :
    s.core.up = true ∧ Man.sign a.g ⟨s.keys, s.type⟩ s.drawn (Man.ecuPart (image a s) s.core.serial) none = .ok j := by
  change request _ _ _ = _ at h
  unfold request at h
  split at h
  · rename_i hu
    obtain ⟨o, s1, hm, hr⟩ := observe_ok h
    obtain ⟨-, rfl⟩ := getManifest_cases hm
    rcases hr with ⟨r, hq, hr, -⟩ | ⟨e, -, hr, -⟩
    · cases hr
      exact ⟨hu, hq⟩
    · cases hr
  · cases h

theorem configured_type {ty : KeyType} : ∀ {ops : List Op} {t : KeyType}, OneType ops ty → configured ops = some t → t = ty := by
  intro ops
  induction ops using Sec.snoc_ind with
  | h0 => intro t _ h; cases h
  | h1 l o ih =>
    intro t ho h
    rw [configured_snoc] at h
    cases o with
    | start cfg c f =>
      cases h
      exact ho cfg c f (List.mem_append_right _ (.head _))
    | _ => exact ih (fun cfg c f hm => ho cfg c f (List.mem_append_left _ hm)) h

/-- **Manifests are signed by the key that was told**, and are about the file the Secondary has: whenever before or after the
Secondary told its name and key. -/
theorem C76_manifest {s0 : State} {ty : KeyType} (hn : New s0) (hw : KeysWork a ty) (ops more : List Op) (ho : OneType (ops ++ more) ty)
    {x hwid : String} {key : PublicKey} {j : Json} (h : Says a s0 ops x hwid key) (h' : Reports a s0 (ops ++ more) j) :
    ∃ s i, run a s0 (ops ++ more) = .ok s ∧ EcuManifest a.g.env j key x i none ∧
      match s.core.firmware with
      | some b => i = ⟨s.core.name, b.length, a.hashing.digest .sha256 b⟩
      | none => i = ⟨"unknown", 0, a.hashing.digest .sha256 []⟩ := by
  obtain ⟨s, s1, hr, hs⟩ := h
  obtain ⟨t, t1, hr', ht⟩ := h'
  obtain ⟨hu, -, rfl, rfl, k, hk, rfl⟩ := says_state hs
  obtain ⟨hu', hj⟩ := reports_state ht
  have L := life hn _ hr
  have L' := life hn _ hr'
  obtain ⟨⟨_, _, _, e, rest, q3, q4, q5⟩, c1⟩ := L.up hu
  obtain ⟨⟨_, _, _, e', rest', p3, p4, p5⟩, c2⟩ := L'.up hu'
  have hrun := hr'
  rw [run_append, hr, exc_bind_of_ok] at hr'
  obtain ⟨k1, k2⟩ := kept more hr'
  have e1 : t.keys = some k := k1 k hk
  have e2 := k2 (by rw [q3]; simp)
  rw [p3, q3] at e2
  cases e2
  have ho1 : OneType ops ty := fun cfg c f hm => ho cfg c f (List.mem_append_left _ hm)
  have t1 : s.type = ty := configured_type ho1 c1
  have t2 : t.type = ty := configured_type ho c2
  obtain ⟨cfg, c, f, n, m1, m2⟩ := L.keys k hk
  rw [ho1 cfg c f m1] at m2
  have hwk := hw n k m2
  refine ⟨t, image a t, hrun, ?_, ?_⟩
  · rw [e1, t2, p4] at hj
    rw [t1, q4]
    exact Man.own_manifest (g := a.g) (k := ⟨some k, ty⟩) (pub := k.1) (priv := k.2) rfl hwk hj
  · unfold image Sec.installedImage
    cases t.core.firmware <;> rfl

end SecId

end Aktualizr
