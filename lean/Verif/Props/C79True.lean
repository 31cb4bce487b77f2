import Verif.Props.C79
import Verif.Props.C74
import Verif.Props.C76

/-! # C79: everything printed is true -/

namespace Aktualizr.Info

open M

section Truth

variable {a : Around} {o : Options} {N : Nat}

theorem tls_facts {d : Db} {t : String × String × String} (h : d.tls = t) :
    (t = ("", "", "") ∧ (d.ca = none ∨ d.cert = none ∨ d.pkey = none)) ∨ (d.ca = some t.1 ∧ d.cert = some t.2.1 ∧ d.pkey = some t.2.2) := by
  unfold Db.tls at h
  split at h
  · subst h
    exact .inr ⟨by assumption, by assumption, by assumption⟩
  · rename_i hne
    refine .inl ⟨h.symm, ?_⟩
    cases h1 : d.ca with
    | none => exact .inl rfl
    | some x =>
      cases h2 : d.cert with
      | none => exact .inr (.inl rfl)
      | some y =>
        cases h3 : d.pkey with
        | none => exact .inr (.inr rfl)
        | some z => exact absurd h3 (hne x y z h1 h2)

theorem tls_empty {d : Db} {t : String × String × String} (h : d.tls = t) :
    (t.1 == "" && t.2.1 == "" && t.2.2 == "") = true ↔ Spec.NoTls d := by
  simp only [Bool.and_eq_true, beq_iff_eq]
  rcases tls_facts h with ⟨rfl, hn⟩ | ⟨h1, h2, h3⟩
  · refine ⟨fun _ x y z h1 h2 h3 => ?_, fun _ => by simp⟩
    rcases hn with hn | hn | hn <;> simp_all
  · constructor
    · rintro ⟨⟨e1, e2⟩, e3⟩ x y z g1 g2 g3
      rw [h1] at g1
      rw [h2] at g2
      rw [h3] at g3
      cases g1; cases g2; cases g3
      exact ⟨e1, e2, e3⟩
    · intro hn
      obtain ⟨e1, e2, e3⟩ := hn _ _ _ h1 h2 h3
      exact ⟨⟨e1, e2⟩, e3⟩

theorem keys_full {d : Db} {k : String × String} (h : d.ecuKeys = k) : (k.1 != "" && k.2 != "") = true ↔ Spec.HasKeys d := by
  unfold Db.ecuKeys at h
  simp only [Bool.and_eq_true, bne_iff_ne, ne_eq]
  cases hk : d.keys with
  | none =>
    rw [hk] at h
    subst h
    simp [Spec.HasKeys, hk]
  | some p =>
    rw [hk] at h
    subst h
    simp only [Option.getD_some]
    constructor
    · rintro ⟨h1, h2⟩
      exact ⟨p.1, p.2, hk, h1, h2⟩
    · rintro ⟨x, y, h1, h2, h3⟩
      rw [hk] at h1
      cases h1
      exact ⟨h2, h3⟩

/-- What the results of `credentials` mean. -/
def CredsMean (a : Around) (N : Nat) (v : Bool × Bool × Bool) : Prop :=
  (if v.1 = true then Spec.At a N (fun d => ¬Spec.NoTls d) else Spec.At a N Spec.NoTls) ∧
  (if v.2.1 = true then Spec.At a N Spec.HasKeys else Spec.At a N (fun d => ¬Spec.HasKeys d))

theorem tells_credentials : Tells a o N (credentials a o) (CredsMean a N) := by
  unfold credentials
  refine Tells.bind Tells.read (fun _ => by later) (fun t ht => ?_)
  refine Tells.bind (Q := fun _ => True) (Tells.ite (fun hc => ?_) (fun _ => Tells.pure trivial)) (fun _ => by later) (fun _ _ => ?_)
  · refine Tells.lines (fun p hp => ?_)
    have hh : ∀ q, q ∈ Spec.headings → Spec.Says a o N q := fun q => .heading
    have hv : Spec.Says a o N t.1 ∧ Spec.Says a o N t.2.1 ∧ Spec.Says a o N t.2.2 := by
      obtain ⟨m, hm, ht⟩ := ht
      rcases tls_facts ht with ⟨rfl, hn⟩ | ⟨h1, h2, h3⟩
      · have : Spec.Says a o N "" := by
          refine .blank hc ⟨m, hm, ?_⟩
          rcases hn with hn | hn | hn
          · exact .ca (by simp) hn
          · exact .cert (by simp) hn
          · exact .pkey (by simp) hn
        exact ⟨this, this, this⟩
      · exact ⟨.asked hc ⟨m, hm, .ca (by simp) h1⟩, .asked hc ⟨m, hm, .cert (by simp) h2⟩, .asked hc ⟨m, hm, .pkey (by simp) h3⟩⟩
    simp only [List.mem_cons, List.not_mem_nil, or_false] at hp
    rcases hp with rfl | rfl | rfl | rfl | rfl | rfl
    · exact hh _ (by simp [Spec.headings])
    · exact hv.1
    · exact hh _ (by simp [Spec.headings])
    · exact hv.2.1
    · exact hh _ (by simp [Spec.headings])
    · exact hv.2.2
  have one : ∀ {n : String} {f : Db → Option String}, (∀ d x, f d = some x → Spec.Content d n x) → (∀ d, f d = none → Spec.Lacks d n) →
      Tells a o N (if o.has n = true then do line (← read a (fun d => (f d).getD "")) else pure ()) (fun _ => True) := by
    intro n f hs hl
    refine Tells.ite (fun hc => ?_) (fun _ => Tells.pure trivial)
    refine Tells.bind Tells.read (fun _ => by later) (fun x hx => Tells.line ?_)
    exact says_option (f := f) (g := id) hc hs hl (At.imp hx (fun d hd => by simpa using hd))
  refine Tells.bind (one (f := fun d => d.ca) (fun d x h => .ca (by simp) h) (fun d h => .ca (by simp) h)) (fun _ => by later) (fun _ _ => ?_)
  refine Tells.bind (one (f := fun d => d.cert) (fun d x h => .cert (by simp) h) (fun d h => .cert (by simp) h)) (fun _ => by later) (fun _ _ => ?_)
  refine Tells.bind (one (f := fun d => d.pkey) (fun d x h => .pkey (by simp) h) (fun d h => .pkey (by simp) h)) (fun _ => by later) (fun _ _ => ?_)
  refine Tells.bind Tells.read (fun _ => by later) (fun k hk => ?_)
  refine Tells.bind (Q := fun _ => True) (Tells.ite (fun hc => ?_) (fun _ => Tells.pure trivial)) (fun _ => by later) (fun _ _ => ?_)
  · refine Tells.lines (fun p hp => ?_)
    have hh : ∀ q, q ∈ Spec.headings → Spec.Says a o N q := fun q => .heading
    have hv : Spec.Says a o N k.1 ∧ Spec.Says a o N k.2 := by
      obtain ⟨m, hm, hk⟩ := hk
      unfold Db.ecuKeys at hk
      cases hd : (a.db m).keys with
      | none =>
        rw [hd] at hk
        subst hk
        exact ⟨.blank hc ⟨m, hm, .keys (by simp) hd⟩, .blank hc ⟨m, hm, .keys (by simp) hd⟩⟩
      | some p =>
        rw [hd] at hk
        subst hk
        exact ⟨.asked hc ⟨m, hm, .pub (by simp) hd⟩, .asked hc ⟨m, hm, .priv (by simp) hd⟩⟩
    simp only [List.mem_cons, List.not_mem_nil, or_false] at hp
    rcases hp with rfl | rfl | rfl | rfl
    · exact hh _ (by simp [Spec.headings])
    · exact hv.1
    · exact hh _ (by simp [Spec.headings])
    · exact hv.2
  refine Tells.pure ⟨?_, ?_⟩
  · show if (!(t.1 == "" && t.2.1 == "" && t.2.2 == "")) = true then _ else _
    cases hb : (t.1 == "" && t.2.1 == "" && t.2.2 == "")
    · rw [if_pos (by simp)]
      exact At.imp ht (fun d hd hn => by rw [(tls_empty hd).2 hn] at hb; cases hb)
    · rw [if_neg (by simp)]
      exact At.imp ht (fun d hd => (tls_empty hd).1 hb)
  · show if (k.1 != "" && k.2 != "") = true then _ else _
    split
    · rename_i hb
      exact At.imp hk (fun d hd => (keys_full hd).1 hb)
    · rename_i hb
      exact At.imp hk (fun d hd hn => hb ((keys_full hd).2 hn))

theorem tells_metadataOption {names : List String} {has : Bool} {m : P Unit}
    (hm : ∀ n, n ∈ names → o.has n = true → has = true → Tells a o N m (fun _ => True)) (_hl : Preserves Later m)
    (hn : has = false → Spec.At a N (fun d => Spec.NoDoc d .director .root)) :
    Tells a o N (metadataOption o names has m) (fun _ => True) := by
  unfold metadataOption
  refine Tells.ite (fun hc => ?_) (fun _ => Tells.pure trivial)
  obtain ⟨n, h1, h2⟩ := List.any_eq_true.1 hc
  refine Tells.bind (Q := fun _ => True) (Tells.ite (fun hh => hm n h1 h2 hh) (fun hh => Tells.line (.noMetadata (hn (by simpa using hh)))))
    (fun _ => by later) (fun _ _ => Tells.pure trivial)

theorem tells_showDoc {n : String} {repo : Repo} {type : RoleKind} (hn : (n, repo, type) ∈ Spec.documents) (ho : o.has n = true) :
    Tells a o N (showDoc a repo type) (fun _ => True) := by
  unfold showDoc
  exact Tells.bind Tells.readE (fun _ => by later) (fun x hx => Tells.line (says_doc hn ho hx))

theorem tells_showDelegations (ho : o.has "delegation" = true) : Tells a o N (showDelegations a) (fun _ => True) := by
  unfold showDelegations
  refine Tells.bind Tells.read (fun _ => by later) (fun x hx => ?_)
  have hs : ∀ l, x = some l → Spec.At a N (fun d => d.metadata.delegations = l) := by
    rintro l rfl
    refine At.imp hx (fun d hd => ?_)
    unfold Db.delegations at hd
    split at hd
    · exact Option.some.inj hd
    · cases hd
  split
  · refine Tells.line (.badDelegations ho (At.imp hx (fun d hd hn => ?_)))
    unfold Db.delegations at hd
    rw [hn] at hd
    simp at hd
  · exact Tells.line (.noDelegations ho (hs _ rfl))
  · refine Tells.lines (fun p hp => ?_)
    obtain ⟨q, hq, rfl⟩ := List.mem_map.1 hp
    exact .asked ho (At.imp (hs _ rfl) (fun d hd => .delegation (by rw [hd]; exact hq)))

theorem tells_metadataOptions {has : Bool} {root : String}
    (hr : has = true → Spec.At a N (fun d => Spec.Newest d .director .root root))
    (hn : has = false → Spec.At a N (fun d => Spec.NoDoc d .director .root)) :
    Tells a o N (metadataOptions a o has root) (fun _ => True) := by
  unfold metadataOptions
  have ld : ∀ names repo type, Preserves Later (metadataOption o names has (showDoc a repo type)) :=
    fun _ _ _ => later_metadataOption _ _ _ (later_showDoc _ _ _)
  have lg : ∀ names, Preserves Later (metadataOption o names has (showDelegations a)) :=
    fun _ => later_metadataOption _ _ _ (later_showDelegations _)
  have ll : ∀ names, Preserves Later (metadataOption o names has (line root)) :=
    fun _ => later_metadataOption _ _ _ (later_line _)
  have doc : ∀ names repo type, (∀ n ∈ names, (n, repo, type) ∈ Spec.documents) →
      Tells a o N (metadataOption o names has (showDoc a repo type)) (fun _ => True) := fun names repo type h =>
    tells_metadataOption (fun n h1 h2 _ => tells_showDoc (h n h1) h2) (later_showDoc _ _ _) hn
  refine Tells.bind (doc _ _ _ (by simp [Spec.documents])) (fun _ => ?_) (fun _ _ => ?_)
  · repeat' first | exact ld _ _ _ | exact lg _ | exact ll _ | exact later_pure _ | refine Preserves.bind later_pre ?_ (fun _ => ?_)
  refine Tells.bind (doc _ _ _ (by simp [Spec.documents])) (fun _ => ?_) (fun _ _ => ?_)
  · repeat' first | exact ld _ _ _ | exact lg _ | exact ll _ | exact later_pure _ | refine Preserves.bind later_pre ?_ (fun _ => ?_)
  refine Tells.bind (tells_metadataOption (fun n h1 h2 _ => ?_) (later_showDelegations _) hn) (fun _ => ?_) (fun _ _ => ?_)
  · rw [List.mem_singleton.1 h1] at h2
    exact tells_showDelegations h2
  · repeat' first | exact ld _ _ _ | exact lg _ | exact ll _ | exact later_pure _ | refine Preserves.bind later_pre ?_ (fun _ => ?_)
  refine Tells.bind (tells_metadataOption (fun n h1 h2 h3 => ?_) (later_line _) hn) (fun _ => ?_) (fun _ _ => ?_)
  · rw [List.mem_singleton.1 h1] at h2
    exact Tells.line (.asked h2 (At.imp (hr h3) (fun d hd => .document (by simp [Spec.documents]) hd)))
  · repeat' first | exact ld _ _ _ | exact lg _ | exact ll _ | exact later_pure _ | refine Preserves.bind later_pre ?_ (fun _ => ?_)
  refine Tells.bind (doc _ _ _ (by simp [Spec.documents])) (fun _ => ?_) (fun _ _ => ?_)
  · repeat' first | exact ld _ _ _ | exact lg _ | exact ll _ | exact later_pure _ | refine Preserves.bind later_pre ?_ (fun _ => ?_)
  refine Tells.bind (doc _ _ _ (by simp [Spec.documents])) (fun _ => ?_) (fun _ _ => ?_)
  · repeat' first | exact ld _ _ _ | exact lg _ | exact ll _ | exact later_pure _ | refine Preserves.bind later_pre ?_ (fun _ => ?_)
  exact Tells.bind (doc _ _ _ (by simp [Spec.documents])) (fun _ => later_pure _) (fun _ _ => Tells.pure trivial)

/-! ### Versions -/

theorem primaryIs_iff {v : VersionDb} {s : String} : Spec.PrimaryIs v s ↔ v.realSerial "" = s := by
  unfold VersionDb.realSerial Spec.PrimaryIs
  rw [if_neg (by simp)]
  cases h : v.ecus.find? (·.primary) with
  | none =>
    have h' := List.find?_eq_none.1 h
    simp only
    constructor
    · rintro (⟨l, e, r, he, -, hp, -⟩ | ⟨-, rfl⟩)
      · exact absurd hp (h' e (by rw [he]; simp))
      · rfl
    · rintro rfl
      exact .inr ⟨fun e he => by simpa using h' e he, rfl⟩
  | some e =>
    obtain ⟨hp, l, r, he, hl⟩ := List.find?_eq_some_iff_append.1 h
    simp only
    constructor
    · rintro (⟨l', e', r', he', hl', hp', rfl⟩ | ⟨hn, rfl⟩)
      · have : v.ecus.find? (·.primary) = some e' := List.find?_eq_some_iff_append.2 ⟨hp', l', r', he', fun x hx => by simp [hl' x hx]⟩
        rw [h] at this
        cases this
        rfl
      · have := hn e (by rw [he]; simp)
        rw [this] at hp
        cases hp
    · rintro rfl
      exact .inl ⟨l, e, r, he, fun x hx => by simpa using hl x hx, hp, rfl⟩

theorem rowOf_facts {env : Env} {v : VersionDb} {s : String} {flag : VersionRow → Bool} {x : Option Target}
    (h : (do
      let ecus ← v.ecuMap s
      VersionDb.readRow env ecus (v.rows.find? (fun r => r.ecu == s && flag r))) = .ok x) :
    (∀ t, x = some t → Spec.VersionOf env v s flag t) ∧
      (x = none → ∀ r ∈ v.rows, r.ecu = s → flag r = false) := by
  obtain ⟨ecus, h1, h2⟩ := exc_bind_ok.1 h
  cases hf : v.rows.find? (fun r => r.ecu == s && flag r) with
  | none =>
    rw [hf] at h2
    simp only [VersionDb.readRow, Except.ok.injEq] at h2
    subst h2
    refine ⟨by simp, fun _ r hr he => ?_⟩
    have := List.find?_eq_none.1 hf r hr
    simpa [he] using this
  | some r =>
    rw [hf] at h2
    obtain ⟨t, h3, h4⟩ := exc_bind_ok.1 h2
    simp only [pure, Except.pure, Except.ok.injEq] at h4
    subst h4
    have hp := List.find?_some hf
    simp only [Bool.and_eq_true, beq_iff_eq] at hp
    refine ⟨fun t' ht => ?_, by simp⟩
    cases ht
    exact ⟨r, List.mem_of_find?_eq_some hf, hp.1, hp.2, ecus, h1, h3⟩

theorem loadCurrent_facts {env : Env} {v : VersionDb} {serial : String} {x : Option Target} (h : v.loadCurrent env serial = .ok x) :
    (∀ t, x = some t → Spec.VersionOf env v (v.realSerial serial) (·.isCurrent) t) ∧
      (x = none → ∀ r ∈ v.rows, r.ecu = v.realSerial serial → r.isCurrent = false) :=
  rowOf_facts h

theorem loadPending_facts {env : Env} {v : VersionDb} {serial : String} {x : Option Target} (h : v.loadPending env serial = .ok x) :
    (∀ t, x = some t → Spec.VersionOf env v (v.realSerial serial) (·.isPending) t) ∧
      (x = none → ∀ r ∈ v.rows, r.ecu = v.realSerial serial → r.isPending = false) :=
  rowOf_facts h

theorem log_facts {env : Env} {v : VersionDb} {l : List Target} (h : v.loadInstallationLog env "" false = .ok l) :
    ∀ t, t ∈ l ↔ Spec.VersionOf env v (v.realSerial "") (fun _ => true) t := by
  unfold VersionDb.loadInstallationLog at h
  obtain ⟨ecus, h1, h2⟩ := exc_bind_ok.1 h
  obtain ⟨g1, g2⟩ := SecOst.readAll_mem h2
  intro t
  constructor
  · intro ht
    obtain ⟨r, hr, hrt⟩ := g1 t ht
    simp only [List.mem_filter, Bool.and_eq_true, beq_iff_eq] at hr
    exact ⟨r, hr.1, hr.2.1, rfl, ecus, h1, hrt⟩
  · rintro ⟨r, hr, he, -, ecus', h1', hrt⟩
    rw [h1] at h1'
    cases h1'
    obtain ⟨t', ht', hrt'⟩ := g2 r (by simp [List.mem_filter, hr, he])
    rw [hrt] at hrt'
    cases hrt'
    exact ht'

theorem current_facts {v : VersionDb} {x : Option Target} (h : current a.env v a.pacman = .ok x) :
    (∀ t, x = some t → Spec.Runs a v t) ∧ (x = none → ∀ t, ¬Spec.Runs a v t) := by
  have hps : ∀ {s}, Spec.PrimaryIs v s → s = v.realSerial "" := fun hs => (primaryIs_iff.1 hs).symm
  cases hp : a.pacman with
  | fake =>
    rw [hp] at h
    obtain ⟨h1, h2⟩ := loadCurrent_facts h
    refine ⟨fun t ht => ⟨_, primaryIs_iff.2 rfl, ?_⟩, ?_⟩
    · rw [hp]
      exact h1 t ht
    · rintro hx t ⟨s, hs, hv⟩
      rw [hp] at hv
      rw [hps hs] at hv
      obtain ⟨r, hr, he, hc, -⟩ := hv
      change r.isCurrent = true at hc
      rw [h2 hx r hr he] at hc
      cases hc
  | unknown _ => rw [hp] at h; cases h
  | ostree b =>
    rw [hp] at h
    match b, h with
    | some (some hash), h =>
      have key : ∀ {l : List Target}, v.loadInstallationLog a.env "" false = .ok l → x = l.reverse.find? (fun t => t.sha256Hash == hash) →
          (∀ t, x = some t → Spec.Runs a v t) ∧ (x = none → ∀ t, ¬Spec.Runs a v t) := by
        intro l hl hx
        refine ⟨fun t ht => ⟨_, primaryIs_iff.2 rfl, ?_⟩, ?_⟩
        · rw [ht] at hx
          have h1 := List.find?_some hx.symm
          have h2 := List.mem_of_find?_eq_some hx.symm
          rw [hp]
          simp only [beq_iff_eq] at h1
          exact ⟨by rw [h1], (log_facts hl t).1 (List.mem_reverse.1 h2)⟩
        · rintro hn t ⟨s, hs, hv⟩
          rw [hp] at hv
          rw [hps hs] at hv
          rw [hn] at hx
          have := List.find?_eq_none.1 hx.symm t (List.mem_reverse.2 ((log_facts hl t).2 hv.2))
          have he : hash = t.sha256Hash := Option.some.inj (Option.some.inj hv.1)
          simp [he] at this
      unfold current SecOst.getCurrent at h
      obtain ⟨c, h1, h⟩ := exc_bind_ok.1 h
      cases c with
      | none =>
        obtain ⟨l, hl, h⟩ := exc_bind_ok.1 h
        exact key hl (Except.ok.inj h).symm
      | some t =>
        simp only at h
        split at h
        · rename_i he
          have hx : some t = x := Except.ok.inj h
          subst hx
          refine ⟨fun t' ht => ⟨_, primaryIs_iff.2 rfl, ?_⟩, by simp⟩
          cases ht
          rw [hp]
          obtain ⟨r, hr, h2, -, h3⟩ := (loadCurrent_facts h1).1 t rfl
          exact ⟨by rw [he], r, hr, h2, rfl, h3⟩
        · obtain ⟨l, hl, h⟩ := exc_bind_ok.1 h
          exact key hl (Except.ok.inj h).symm
    | none, h => cases h
    | some none, h => cases h

theorem serials_named : ∀ {l : List EcuRow} {r : List (String × String)}, VersionDb.loadSerialsLoop l = .ok r → ∀ e ∈ l, e.serial ≠ ""
  | [], _, _ => by simp
  | e :: es, r, h => by
    unfold VersionDb.loadSerialsLoop at h
    obtain ⟨x, h1, h⟩ := exc_bind_ok.1 h
    obtain ⟨y, h2, h⟩ := exc_bind_ok.1 h
    obtain ⟨z, h3, h⟩ := exc_bind_ok.1 h
    intro e' he
    rcases List.mem_cons.1 he with rfl | he
    · intro hc
      rw [hc] at h1
      cases h1
    · exact serials_named h3 e' he

theorem serials_some {v : VersionDb} {l : List (String × String)} (h : v.loadEcuSerials = .ok (some l)) :
    l = v.ecus.map (fun e => (e.serial, e.hwid)) ∧ l ≠ [] ∧ ∀ e ∈ v.ecus, e.serial ≠ "" := by
  unfold VersionDb.loadEcuSerials at h
  obtain ⟨r, h1, h⟩ := exc_bind_ok.1 h
  have h := Except.ok.inj h
  split at h
  · cases h
  · have h := Option.some.inj h
    subst h
    exact ⟨SecId.loadSerialsLoop_ok h1, by assumption, serials_named h1⟩

theorem misconfigured_ok : ∀ {l r : List (String × String × Bool)}, misconfiguredLoop l = .ok r → r = l
  | [], r, h => by cases h; rfl
  | (s, hw, b) :: es, r, h => by
    unfold misconfiguredLoop at h
    obtain ⟨x, h1, h⟩ := exc_bind_ok.1 h
    obtain ⟨y, h2, h⟩ := exc_bind_ok.1 h
    obtain ⟨z, h3, h⟩ := exc_bind_ok.1 h
    have h := Except.ok.inj h
    rw [← h, misconfigured_ok h3, SecId.mkEcuSerial_ok h1, SecId.mkHwId_ok h2]

/-! ### The general report -/

theorem installed_facts {d : Db} {serial : String} {v : Option Target × Option Target} (hs : serial ≠ "")
    (h : d.installed a.env serial = .ok v) :
    (∀ t, v.1 = some t → Spec.VersionOf a.env d.versions serial (·.isCurrent) t) ∧
    (∀ t, v.2 = some t → Spec.VersionOf a.env d.versions serial (·.isPending) t) ∧
    (v = (none, none) → ∀ r ∈ d.versions.rows, r.ecu = serial → r.isCurrent = false ∧ r.isPending = false) := by
  unfold Db.installed at h
  obtain ⟨c, h1, h⟩ := exc_bind_ok.1 h
  obtain ⟨p, h2, h⟩ := exc_bind_ok.1 h
  have h := Except.ok.inj h
  subst h
  have hr : d.versions.realSerial serial = serial := by
    unfold VersionDb.realSerial
    rw [if_pos hs]
  have f1 := loadCurrent_facts h1
  have f2 := loadPending_facts h2
  rw [hr] at f1 f2
  refine ⟨f1.1, f2.1, fun hn r hrr he => ?_⟩
  simp only [Prod.mk.injEq] at hn
  exact ⟨f1.2 hn.1 r hrr he, f2.2 hn.2 r hrr he⟩

theorem says_versions {n : Nat} {e : EcuRow} {v : Option Target × Option Target} (hn : 0 < n) (he : Spec.At a N (fun d => d.versions.ecus[n]? = some e))
    (hs : e.serial ≠ "") (h : Spec.At a N (fun d => d.installed a.env e.serial = .ok v)) :
    ∀ p ∈ versionLines v, Spec.Says a o N p := by
  have h1 : ∀ t, v.1 = some t → Spec.At a N (fun d => Spec.VersionOf a.env d.versions e.serial (·.isCurrent) t) :=
    fun t ht => At.imp h (fun d hd => (installed_facts hs hd).1 t ht)
  have h2 : ∀ t, v.2 = some t → Spec.At a N (fun d => Spec.VersionOf a.env d.versions e.serial (·.isPending) t) :=
    fun t ht => At.imp h (fun d hd => (installed_facts hs hd).2.1 t ht)
  have h3 := fun hv => At.imp h (fun d hd => (installed_facts hs hd).2.2 hv)
  have c1 := fun t ht => Spec.Says.installed (o := o) hn he (h1 t ht)
  have c2 := fun t ht => Spec.Says.installedName (o := o) hn he (h1 t ht)
  have c3 := fun t ht => Spec.Says.waiting (o := o) hn he (h2 t ht)
  have c4 := fun t ht => Spec.Says.waitingName (o := o) hn he (h2 t ht)
  obtain ⟨c, p⟩ := v
  intro q hq
  cases c <;> cases p <;> simp only [versionLines, Option.isNone_none, Option.isNone_some, Bool.and_true, Bool.and_false, Bool.false_eq_true, if_true, if_false, List.nil_append, List.append_nil, List.cons_append, List.mem_cons, List.not_mem_nil, or_false] at hq
  · subst hq
    exact .noVersions hn he (h3 rfl)
  · rcases hq with rfl | rfl
    · exact c3 _ rfl
    · exact c4 _ rfl
  · rcases hq with rfl | rfl
    · exact c1 _ rfl
    · exact c2 _ rfl
  · rcases hq with rfl | rfl | rfl | rfl
    · exact c1 _ rfl
    · exact c2 _ rfl
    · exact c3 _ rfl
    · exact c4 _ rfl

theorem tells_secondaries : ∀ (l : List EcuRow) (n : Nat), 0 < n →
    (∀ k e, l[k]? = some e → Spec.At a N (fun d => d.versions.ecus[n + k]? = some e) ∧ e.serial ≠ "") →
    Tells a o N (secondaries a n (l.map (fun e => (e.serial, e.hwid)))) (fun _ => True)
  | [], n, _, _ => Tells.pure trivial
  | e :: l, n, hn, h => by
    have h0 := h 0 e rfl
    rw [Nat.add_zero] at h0
    have ih := tells_secondaries l (n + 1) (Nat.succ_pos _) (fun k e' hk => by
      have := h (k + 1) e' hk
      rw [show n + 1 + k = n + (k + 1) by omega]
      exact this)
    have hl := later_secondaries a (l.map (fun e => (e.serial, e.hwid))) (n + 1)
    simp only [List.map_cons]
    unfold secondaries
    refine Tells.bind (Tells.lines (fun p hp => ?_)) (fun _ => by later) (fun _ _ => ?_)
    · simp only [List.mem_cons, List.not_mem_nil, or_false] at hp
      rcases hp with rfl | rfl
      · exact .other hn h0.1
      · exact .otherHw hn h0.1
    refine Tells.bind Tells.readE (fun _ => by later) (fun v hv => ?_)
    exact Tells.bind (Tells.lines (says_versions hn h0.1 h0.2 hv)) (fun _ => hl) (fun _ _ => ih)

theorem provisioned_text (b : Bool) : "Provisioned on server: " ++ (if b = true then "yes" else "no") =
    if b = true then "Provisioned on server: yes" else "Provisioned on server: no" := by
  cases b <;> decide +kernel

theorem fetched_text (b : Bool) : "Fetched metadata: " ++ (if b = true then "yes" else "no") =
    if b = true then "Fetched metadata: yes" else "Fetched metadata: no" := by
  cases b <;> decide +kernel

theorem tells_general {device : Option String} {tls keys registered has : Bool} {root : String}
    (hd : Spec.At a N (fun d => d.device.map (·.1) = device)) (hc : CredsMean a N (tls, keys, false))
    (hr : if registered = true then Spec.At a N (fun d => ∃ i, d.device = some (i, true)) else Spec.At a N (fun d => ∀ i, d.device ≠ some (i, true)))
    (hh : has = true → Spec.At a N (fun d => Spec.Newest d .director .root root))
    (hn : has = false → Spec.At a N (fun d => Spec.NoDoc d .director .root)) :
    Tells a o N (general a device tls keys registered has) (fun _ => True) := by
  have called : Spec.Called a N (if (device.isNone && !tls && keys) = true then "Secondary" else "Primary") := by
    obtain ⟨c1, c2⟩ := hc
    simp only at c1 c2
    cases device with
    | some i =>
      simp only [Option.isNone_some, Bool.false_and, Bool.false_eq_true, if_false]
      exact .primary (.inl (At.imp hd (fun d h hne => by rw [hne] at h; cases h)))
    | none =>
      cases tls with
      | true =>
        rw [if_neg (by simp)]
        exact .primary (.inr (.inl (by simpa using c1)))
      | false =>
        cases keys with
        | false =>
          rw [if_neg (by simp)]
          exact .primary (.inr (.inr (by simpa using c2)))
        | true =>
          rw [if_pos (by simp)]
          exact .secondary (At.imp hd (fun d h => by simpa using h)) (by simpa using c1) (by simpa using c2)
  have hls := fun n l => later_secondaries a l n
  unfold general
  generalize hsec : (device.isNone && !tls && keys) = sec at called
  generalize hname : (if sec = true then "Secondary" else "Primary") = name at called
  simp only [hname]
  refine Tells.bind (Q := fun _ => True) (Tells.ite (fun _ => Tells.pure trivial) (fun _ => Tells.line ?_)) (fun _ => ?_) (fun _ _ => ?_)
  · cases device with
    | none => exact .noDevice (At.imp hd (fun d h => by simpa using h))
    | some i =>
      obtain ⟨t, ht, h⟩ := hd
      obtain ⟨p, hp, hi⟩ := Option.map_eq_some_iff.1 h
      subst hi
      exact .device (r := p.2) ⟨t, ht, hp⟩
  · repeat' first | exact hls _ _ | exact later_readE _ _ | exact later_line _ | exact later_lines _ | exact later_pure _ | refine Preserves.bind later_pre ?_ (fun _ => ?_) | refine later_ite ?_ ?_ | split
  refine Tells.bind Tells.readE (fun _ => ?_) (fun serials hs => ?_)
  · repeat' first | exact hls _ _ | exact later_readE _ _ | exact later_line _ | exact later_lines _ | exact later_pure _ | refine Preserves.bind later_pre ?_ (fun _ => ?_) | refine later_ite ?_ ?_ | split
  refine Tells.bind (Q := fun _ => True) ?_ (fun _ => ?_) (fun _ _ => ?_)
  · split
    · exact Tells.line (.noEcus (At.imp hs (fun d h => SecId.loadEcuSerials_none h)))
    · obtain ⟨t, ht, h⟩ := hs
      exact absurd rfl (serials_some h).2.1
    · obtain ⟨t, ht, h⟩ := hs
      rename_i e rest
      obtain ⟨h1, -, -⟩ := serials_some h
      cases hv : (a.db t).versions.ecus with
      | nil => rw [hv] at h1; cases h1
      | cons e' rest' =>
        rw [hv, List.map_cons] at h1
        injection h1 with h1 _
        subst h1
        refine Tells.lines (fun p hp => ?_)
        simp only [List.mem_cons, List.not_mem_nil, or_false] at hp
        rcases hp with rfl | rfl
        · exact .serial called ⟨t, ht, by show (a.db t).versions.ecus.head? = _; rw [hv]; rfl⟩
        · exact .hardware called ⟨t, ht, by show (a.db t).versions.ecus.head? = _; rw [hv]; rfl⟩
  · repeat' first | exact hls _ _ | exact later_readE _ _ | exact later_line _ | exact later_lines _ | exact later_pure _ | refine Preserves.bind later_pre ?_ (fun _ => ?_) | refine later_ite ?_ ?_ | split
  refine Tells.bind (Q := fun _ => True) ?_ (fun _ => ?_) (fun _ _ => ?_)
  · split
    · exact Tells.pure trivial
    · refine Tells.bind (Tells.line (.heading (by simp [Spec.headings]))) (fun _ => hls _ _) (fun _ _ => ?_)
      cases serials with
      | none => exact Tells.pure trivial
      | some l =>
        obtain ⟨t, ht, h⟩ := hs
        obtain ⟨h1, -, h3⟩ := serials_some h
        subst h1
        rw [Option.getD_some, ← List.map_drop]
        refine tells_secondaries _ 1 Nat.one_pos (fun k e hk => ?_)
        rw [List.getElem?_drop] at hk
        exact ⟨⟨t, ht, hk⟩, h3 e (List.mem_of_getElem? hk)⟩
  · repeat' first | exact hls _ _ | exact later_readE _ _ | exact later_line _ | exact later_lines _ | exact later_pure _ | refine Preserves.bind later_pre ?_ (fun _ => ?_) | refine later_ite ?_ ?_ | split
  refine Tells.bind Tells.readE (fun _ => by later) (fun mis hm => ?_)
  refine Tells.bind (Q := fun _ => True) (Tells.ite (fun _ => Tells.pure trivial) (fun _ => Tells.lines (fun p hp => ?_))) (fun _ => by later) (fun _ _ => ?_)
  · rcases List.mem_cons.1 hp with rfl | hp
    · exact .heading (by simp [Spec.headings])
    · obtain ⟨⟨s, h, b⟩, he, rfl⟩ := List.mem_map.1 hp
      have hm' : Spec.At a N (fun d => (s, h, b) ∈ d.misconfigured) := At.imp hm (fun d hd => by rw [← misconfigured_ok hd]; exact he)
      cases b with
      | true => exact .removed hm'
      | false => exact .unregistered hm'
  refine Tells.bind (Q := fun _ => True) (Tells.ite (fun _ => Tells.pure trivial) (fun _ => Tells.line ?_)) (fun _ => by later) (fun _ _ => ?_)
  · rw [provisioned_text]
    split
    · rw [if_pos ‹_›] at hr
      exact .provisioned hr
    · rw [if_neg ‹_›] at hr
      exact .notProvisioned hr
  refine Tells.bind (Tells.line ?_) (fun _ => by later) (fun _ _ => ?_)
  · rw [fetched_text]
    split
    · exact .fetched (hh ‹_›)
    · rename_i hx
      exact .notFetched (hn (Bool.eq_false_iff.2 hx))
  refine Tells.bind Tells.readE (fun _ => by later) (fun cur hcur => ?_)
  refine Tells.bind (Tells.line ?_) (fun _ => by later) (fun _ _ => ?_)
  · cases cur with
    | some t => exact .running called (At.imp hcur (fun d hd => (current_facts hd).1 t rfl))
    | none => exact .notRunning called (At.imp hcur (fun d hd => (current_facts hd).2 rfl))
  refine Tells.bind Tells.readE (fun _ => by later) (fun pending hp => ?_)
  cases pending with
  | none => exact Tells.pure trivial
  | some t =>
    obtain ⟨m, hm, h⟩ := hp
    exact Tells.line (.pending called ⟨m, hm, primaryIs_iff.2 rfl, (loadPending_facts h).1 t rfl⟩)

end Truth

end Aktualizr.Info
