import Verif.Props.C79Stable

/-! # C79: the general report leaves nothing out -/

namespace Aktualizr.Info

open M

namespace Spec

/-- The version of the ECU with the mark `flag`, if there is one. -/
def Marked (env : Env) (v : VersionDb) (serial : String) (flag : VersionRow → Bool) : Option Target → Prop
  | none => ∀ r ∈ v.rows, r.ecu = serial → flag r = false
  | some t => VersionOf env v serial flag t

/-- What is printed about the versions of a Secondary. -/
def VersionPart (env : Env) (v : VersionDb) (serial : String) (l : List String) : Prop :=
  ∃ c p, Marked env v serial (·.isCurrent) c ∧ Marked env v serial (·.isPending) p ∧
    match c, p with
    | none, none => l = ["   no details about installed nor pending images"]
    | some t, none => l = ["   installed image hash: " ++ t.sha256Hash, "   installed image filename: " ++ t.filename]
    | none, some t => l = ["   pending image hash: " ++ t.sha256Hash, "   pending image filename: " ++ t.filename]
    | some t, some t' => l = ["   installed image hash: " ++ t.sha256Hash, "   installed image filename: " ++ t.filename,
        "   pending image hash: " ++ t'.sha256Hash, "   pending image filename: " ++ t'.filename]

/-- What is printed about the Secondaries from number `n` on. -/
inductive SecondaryPart (env : Env) (v : VersionDb) : Nat → List EcuRow → List String → Prop where
  | nil {n} : SecondaryPart env v n [] []
  | cons {n e rest l l'} : VersionPart env v e.serial l → SecondaryPart env v (n + 1) rest l' →
      SecondaryPart env v n (e :: rest) ([toString n ++ ") serial ID: " ++ e.serial, "   hardware ID: " ++ e.hwid] ++ l ++ l')

inductive EcuPart (env : Env) (v : VersionDb) : List String → Prop where
  | none : v.ecus = [] → EcuPart env v ["Couldn't load ECU serials"]
  | one {e} : v.ecus = [e] → EcuPart env v ["Primary ECU serial ID: " ++ e.serial, "Primary ECU hardware ID: " ++ e.hwid]
  | more {e e' rest l} : v.ecus = e :: e' :: rest → SecondaryPart env v 1 (e' :: rest) l →
      EcuPart env v (["Primary ECU serial ID: " ++ e.serial, "Primary ECU hardware ID: " ++ e.hwid, "Secondaries:"] ++ l)

def misconfiguredPart : List (String × String × Bool) → List String
  | [] => []
  | l => "Removed or unregistered ECUs (deprecated):" :: l.map (fun e => "   '" ++ e.1 ++ "' with hardware_id '" ++ e.2.1 ++ "' " ++
      (if e.2.2 then "has been removed from config" else "not registered yet"))

inductive FetchedPart (d : Db) : List String → Prop where
  | yes {x} : Newest d .director .root x → FetchedPart d ["Fetched metadata: yes"]
  | no : NoDoc d .director .root → FetchedPart d ["Fetched metadata: no"]

inductive RunningPart (a : Around) (v : VersionDb) : List String → Prop where
  | some {t} : Runs a v t → RunningPart a v ["Current Primary ECU running version: " ++ t.sha256Hash]
  | none : (∀ t, ¬Runs a v t) → RunningPart a v ["No currently running version on Primary ECU"]

inductive PendingPart (env : Env) (v : VersionDb) : List String → Prop where
  | some {s t} : PrimaryIs v s → VersionOf env v s (·.isPending) t → PendingPart env v ["Pending Primary ECU version: " ++ t.sha256Hash]
  | none {s} : PrimaryIs v s → (∀ r ∈ v.rows, r.ecu = s → r.isPending = false) → PendingPart env v []

/-- The report about a Primary with an identity. -/
def Report (a : Around) (d : Db) (i : String) (r : Bool) (l : List String) : Prop :=
  ∃ ecus fetched running pending, EcuPart a.env d.versions ecus ∧ FetchedPart d fetched ∧ RunningPart a d.versions running ∧
    PendingPart a.env d.versions pending ∧
    l = ["Device ID: " ++ i] ++ ecus ++ misconfiguredPart d.misconfigured ++
      [if r then "Provisioned on server: yes" else "Provisioned on server: no"] ++ fetched ++ running ++ pending

end Spec

/-- If `m` succeeds it prints something as `Q` says. -/
def Gives {α : Type} (m : P α) (Q : α → List String → Prop) : Prop :=
  ∀ s v s', m s = (.ok v, s') → ∃ l, s'.out = s.out ++ l ∧ Q v l

theorem Gives.bind {α β : Type} {m : P α} {k : α → P β} {Q : α → List String → Prop} {R : β → List String → Prop} (hm : Gives m Q)
    (hk : ∀ v l, Q v l → Gives (k v) (fun w l' => R w (l ++ l'))) : Gives (m >>= k) R := by
  intro s v s' h
  obtain ⟨x, s1, h1, h2⟩ := bind_ok.1 h
  obtain ⟨l, e1, q1⟩ := hm s x s1 h1
  obtain ⟨l', e2, q2⟩ := hk x l q1 s1 v s' h2
  exact ⟨l ++ l', by rw [e2, e1, List.append_assoc], q2⟩

theorem Gives.bind0 {α β : Type} {m : P α} {k : α → P β} {Q : α → Prop} {R : β → List String → Prop} (hm : Gives m (fun v l => Q v ∧ l = []))
    (hk : ∀ v, Q v → Gives (k v) R) : Gives (m >>= k) R :=
  Gives.bind hm (fun v l h => by obtain ⟨h, rfl⟩ := h; simpa using hk v h)

theorem Gives.line {p : String} : Gives (line p) (fun _ l => l = [p]) := by
  intro s v s' h
  cases h
  exact ⟨[p], rfl, rfl⟩

theorem Gives.pure {α : Type} {x : α} {Q : α → List String → Prop} (h : Q x []) : Gives (pure x : P α) Q := by
  intro s v s' hs
  cases hs
  exact ⟨[], by simp, h⟩

theorem Gives.lines {l : List String} : Gives (lines l) (fun _ l' => l' = l) := by
  intro s v s' h
  obtain ⟨w, t, h1, -⟩ := Adds.lines (l := l) s
  rw [h1] at h
  cases h
  exact ⟨l, rfl, rfl⟩

theorem Gives.readE {α : Type} {a : Around} {d : Db} (hd : ∀ t, a.db t = d) {f : Db → Except Err α} :
    Gives (readE a f) (fun v l => f d = .ok v ∧ l = []) := by
  intro s v s' h
  unfold Info.readE at h
  rw [Prod.mk.injEq, hd] at h
  exact ⟨[], by rw [← h.2]; simp, h.1, rfl⟩

theorem Gives.weaken {α : Type} {m : P α} {Q R : α → List String → Prop} (h : Gives m Q) (hq : ∀ v l, Q v l → R v l) : Gives m R := by
  intro s v s' hs
  obtain ⟨l, h1, h2⟩ := h s v s' hs
  exact ⟨l, h1, hq v l h2⟩

section Stable

variable {a : Around} {d : Db} {o : Options}

theorem version_part {serial : String} {v : Option Target × Option Target} (hs : serial ≠ "") (h : d.installed a.env serial = .ok v) :
    Spec.VersionPart a.env d.versions serial (versionLines v) := by
  unfold Db.installed at h
  obtain ⟨c, h1, h⟩ := exc_bind_ok.1 h
  obtain ⟨p, h2, h⟩ := exc_bind_ok.1 h
  have h := Except.ok.inj h
  subst h
  have hr : d.versions.realSerial serial = serial := by
    unfold VersionDb.realSerial
    rw [if_pos hs]
  have f1 := loadCurrent_facts h1
  have f2 := loadPending_facts h2
  rw [hr] at f1 f2
  refine ⟨c, p, ?_, ?_, ?_⟩
  · cases c with
    | none => exact f1.2 rfl
    | some t => exact f1.1 t rfl
  · cases p with
    | none => exact f2.2 rfl
    | some t => exact f2.1 t rfl
  · cases c <;> cases p <;> rfl

theorem gives_secondaries (hd : ∀ t, a.db t = d) : ∀ (l : List EcuRow) (n : Nat), (∀ e ∈ l, e.serial ≠ "") →
    Gives (secondaries a n (l.map (fun e => (e.serial, e.hwid)))) (fun _ out => Spec.SecondaryPart a.env d.versions n l out)
  | [], n, _ => Gives.pure .nil
  | e :: l, n, h => by
    simp only [List.map_cons]
    unfold secondaries
    refine Gives.bind Gives.lines (fun _ _ h1 => ?_)
    subst h1
    refine Gives.bind0 (Gives.readE hd) (fun v hv => ?_)
    refine Gives.bind Gives.lines (fun _ _ h1 => ?_)
    subst h1
    refine Gives.weaken (gives_secondaries hd l (n + 1) (fun e he => h e (by simp [he]))) (fun _ out hout => ?_)
    rw [← List.append_assoc]
    exact .cons (version_part (h e (by simp)) hv) hout

theorem gives_general (hd : ∀ t, a.db t = d) {i : String} {r : Bool} {tls keys : Bool} {x : Option String}
    (hx : d.doc .director .root = .ok x) :
    Gives (general a (some i) tls keys r x.isSome) (fun _ l => Spec.Report a d i r l) := by
  unfold general
  simp only [Option.isNone_some, Bool.false_and, Bool.false_eq_true, if_false]
  refine Gives.bind Gives.line (fun _ _ h1 => ?_)
  subst h1
  refine Gives.bind0 (Gives.readE hd) (fun serials hs => ?_)
  refine Gives.bind (Q := fun _ l1 => (serials = none ∧ d.versions.ecus = [] ∧ l1 = ["Couldn't load ECU serials"]) ∨
      (∃ e rest, d.versions.ecus = e :: rest ∧ serials = some ((e :: rest).map (fun e => (e.serial, e.hwid))) ∧ (∀ e ∈ rest, e.serial ≠ "") ∧
        l1 = ["Primary ECU serial ID: " ++ e.serial, "Primary ECU hardware ID: " ++ e.hwid])) ?_ (fun _ l1 h1 => ?_)
  · split
    · exact Gives.weaken Gives.line (fun _ _ h => .inl ⟨rfl, SecId.loadEcuSerials_none hs, h⟩)
    · exact absurd rfl (serials_some hs).2.1
    · rename_i p rest
      obtain ⟨g1, -, g3⟩ := serials_some hs
      cases hv : d.versions.ecus with
      | nil => rw [hv] at g1; cases g1
      | cons e rest' =>
        rw [hv] at g1 g3
        have hp : p = (e.serial, e.hwid) := by injection g1
        subst hp
        exact Gives.weaken Gives.lines (fun _ _ h => .inr ⟨e, rest', rfl, by rw [g1], fun e he => g3 e (by simp [he]), h⟩)
  refine Gives.bind (Q := fun _ l2 => Spec.EcuPart a.env d.versions (l1 ++ l2)) ?_ (fun _ l2 h2 => ?_)
  · rcases h1 with ⟨rfl, he, rfl⟩ | ⟨e, rest, he, rfl, hne, rfl⟩
    · exact Gives.pure (.none he)
    · cases rest with
      | nil => exact Gives.pure (.one he)
      | cons e' rest =>
        simp only [List.map_cons, Option.getD_some, List.drop_succ_cons, List.drop_zero]
        refine Gives.bind Gives.line (fun _ _ h => ?_)
        subst h
        exact Gives.weaken (gives_secondaries hd (e' :: rest) 1 hne) (fun _ l hl => .more he hl)
  clear h1
  refine Gives.bind0 (Gives.readE hd) (fun mis hm => ?_)
  have hm := misconfigured_ok hm
  subst hm
  refine Gives.bind (Q := fun _ l => l = Spec.misconfiguredPart d.misconfigured) ?_ (fun _ l3 h3 => ?_)
  · split
    · rename_i he
      rw [he]
      exact Gives.pure rfl
    · refine Gives.weaken Gives.lines (fun _ l hl => ?_)
      rw [hl]
      cases hm : d.misconfigured with
      | nil => exact absurd hm (by assumption)
      | cons e l => rfl
  subst h3
  refine Gives.bind Gives.line (fun _ _ h => ?_)
  rw [provisioned_text] at h
  subst h
  refine Gives.bind Gives.line (fun _ l5 h5 => ?_)
  have hf : Spec.FetchedPart d l5 := by
    rw [h5, fetched_text]
    cases x with
    | none => exact .no (doc_none hx)
    | some x => exact .yes (doc_some hx)
  clear h5
  refine Gives.bind0 (Gives.readE hd) (fun cur hcur => ?_)
  refine Gives.bind Gives.line (fun _ l6 h6 => ?_)
  have hrun : Spec.RunningPart a d.versions l6 := by
    rw [h6]
    cases cur with
    | none => exact .none ((current_facts hcur).2 rfl)
    | some t => exact .some ((current_facts hcur).1 t rfl)
  clear h6
  refine Gives.bind0 (Gives.readE hd) (fun pending hp => ?_)
  have fp := loadPending_facts hp
  have fin : ∀ l7, Spec.PendingPart a.env d.versions l7 → Spec.Report a d i r
      (["Device ID: " ++ i] ++ (l1 ++ (l2 ++ (Spec.misconfiguredPart d.misconfigured ++
        ([if r = true then "Provisioned on server: yes" else "Provisioned on server: no"] ++ (l5 ++ (l6 ++ l7))))))) := by
    intro l7 h7
    exact ⟨l1 ++ l2, l5, l6, l7, h2, hf, hrun, h7, by simp [List.append_assoc]⟩
  cases pending with
  | none => exact Gives.pure (fin _ (.none (primaryIs_iff.2 rfl) (fp.2 rfl)))
  | some t =>
    refine Gives.weaken Gives.line (fun _ l hl => ?_)
    subst hl
    exact fin _ (.some (primaryIs_iff.2 rfl) (fp.1 t rfl))

theorem Gives.read {α : Type} {a : Around} {d : Db} (hd : ∀ t, a.db t = d) {f : Db → α} :
    Gives (read a f) (fun v l => f d = v ∧ l = []) := by
  intro s v s' h
  unfold Info.read at h
  rw [Prod.mk.injEq, hd] at h
  exact ⟨[], by rw [← h.2]; simp, Except.ok.inj h.1, rfl⟩

theorem gives_inform (hd : ∀ t, a.db t = d) (ho : ∀ n ∈ ["name-only", "ecu-pub-key"] ++ Spec.groups.flatten, o.has n = false) {i : String} {r : Bool}
    (hi : d.device = some (i, r)) : Gives (inform a o false false "") (fun _ l => Spec.Report a d i r l) := by
  have h1 := ho "name-only" (by decide +kernel)
  have h2 := ho "ecu-pub-key" (by decide +kernel)
  have h3 := ho "tls-creds" (by decide +kernel)
  have h4 := ho "tls-root-ca" (by decide +kernel)
  have h5 := ho "tls-cert" (by decide +kernel)
  have h6 := ho "tls-prv-key" (by decide +kernel)
  have h7 := ho "ecu-keys" (by decide +kernel)
  have h8 := ho "ecu-prv-key" (by decide +kernel)
  have k1 := ho "image-root" (by decide +kernel)
  have k2 := ho "images-root" (by decide +kernel)
  have k3 := ho "image-targets" (by decide +kernel)
  have k4 := ho "image-target" (by decide +kernel)
  have k5 := ho "images-targets" (by decide +kernel)
  have k6 := ho "images-target" (by decide +kernel)
  have k7 := ho "delegation" (by decide +kernel)
  have k8 := ho "director-root" (by decide +kernel)
  have k9 := ho "director-targets" (by decide +kernel)
  have k10 := ho "director-target" (by decide +kernel)
  have k11 := ho "image-snapshot" (by decide +kernel)
  have k12 := ho "images-snapshot" (by decide +kernel)
  have k13 := ho "image-timestamp" (by decide +kernel)
  have k14 := ho "images-timestamp" (by decide +kernel)
  unfold inform
  refine Gives.bind0 (Gives.read hd) (fun device hdev => ?_)
  rw [hi] at hdev
  simp only [Option.map_some] at hdev
  subst hdev
  simp only [h1, h2, h8, Bool.false_eq_true, if_false, Bool.false_or]
  refine Gives.bind0 (Gives.read hd) (fun reg hreg => ?_)
  have hreg : r = reg := by
    rw [← hreg]
    unfold Db.registered
    rw [hi]
    rfl
  subst hreg
  refine Gives.bind0 (Gives.readE hd) (fun found hf => ?_)
  refine Gives.bind0 (Q := fun c => c.2.2 = false) ?_ (fun c hc => ?_)
  · unfold credentials
    simp only [h3, h4, h5, h6, h7, Bool.false_eq_true, if_false]
    refine Gives.bind0 (Gives.read hd) (fun t _ => ?_)
    refine Gives.bind0 (Q := fun _ => True) (Gives.pure ⟨trivial, rfl⟩) (fun _ _ => ?_)
    refine Gives.bind0 (Q := fun _ => True) (Gives.pure ⟨trivial, rfl⟩) (fun _ _ => ?_)
    refine Gives.bind0 (Q := fun _ => True) (Gives.pure ⟨trivial, rfl⟩) (fun _ _ => ?_)
    refine Gives.bind0 (Q := fun _ => True) (Gives.pure ⟨trivial, rfl⟩) (fun _ _ => ?_)
    refine Gives.bind0 (Gives.read hd) (fun k _ => ?_)
    refine Gives.bind0 (Q := fun _ => True) (Gives.pure ⟨trivial, rfl⟩) (fun _ _ => ?_)
    refine Gives.pure ⟨?_, rfl⟩
    simp only [List.any_cons, List.any_nil, h3, h4, h5, h6, h7, Bool.or_false]
  refine Gives.bind0 (Q := fun b => b = false) (Gives.pure ⟨rfl, rfl⟩) (fun b hb => ?_)
  subst hb
  refine Gives.bind0 (Q := fun b => b = false) ?_ (fun b hb => ?_)
  · unfold metadataOptions metadataOption
    simp only [List.any_cons, List.any_nil, k1, k2, k3, k4, k5, k6, k7, k8, k9, k10, k11, k12, k13, k14, Bool.or_false, Bool.false_eq_true, if_false]
    iterate 7 refine Gives.bind0 (Q := fun b => b = false) (Gives.pure ⟨rfl, rfl⟩) (fun b hb => ?_)
    refine Gives.pure ⟨?_, rfl⟩
    simp_all
  subst hb
  simp only [hc, Bool.false_eq_true, if_false, Bool.or_false]
  exact gives_general hd hf

end Stable

/-- C79. A database that does not change, of a device with an identity, and no option that asks for something in particular: if
aktualizr-info succeeds it has printed the whole report. -/
theorem C79_report (a : Around) (d : Db) (o : Options) (attempts : Nat) (i : String) (r : Bool) (s' : St) (hd : ∀ t, a.db t = d)
    (hi : d.device = some (i, r)) (hw : o.has "wait-until-provisioned" = false)
    (ho : ∀ n ∈ ["name-only", "ecu-pub-key"] ++ Spec.groups.flatten, o.has n = false)
    (h : main a o attempts {} = (.ok (), s')) : Spec.Report a d i r s'.out := by
  unfold main at h
  rw [hw] at h
  obtain ⟨_, s1, h1, h2⟩ := bind_ok.1 h
  have hs : s1.out = [] := by
    unfold openStorage at h1
    split at h1 <;> cases h1
    rfl
  obtain ⟨l, hl, hr⟩ := gives_inform hd ho hi s1 () s' h2
  rw [hl, hs]
  exact hr

/-- C79. With `--name-only` the identity is printed and nothing else. -/
theorem C79_name (a : Around) (o : Options) (attempts : Nat) (i : String) (r : Bool) (hi : (a.db 1).device = some (i, r)) (hop : a.opens 0 = true)
    (hn : o.has "name-only" = true) (hw : o.has "wait-until-provisioned" = false) : main a o attempts {} = (.ok (), ⟨[i], 2⟩) := by
  unfold main
  rw [hw]
  have : openStorage a {} = (.ok (), ⟨[], 1⟩) := by
    unfold openStorage
    rw [if_pos hop]
  show (openStorage a >>= fun _ => inform a o false false "") {} = _
  rw [run_bind this]
  unfold inform
  have h2 : read a (fun d => d.device.map (·.1)) ⟨[], 1⟩ = (.ok (some i), ⟨[], 2⟩) := by
    show ((Except.ok ((a.db 1).device.map (·.1)) : Except Err (Option String)), (⟨[], 2⟩ : St)) = _
    rw [hi]
    rfl
  rw [run_bind h2, hn]
  rfl

end Aktualizr.Info
