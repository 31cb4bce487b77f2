import Verif.Model.Info
import Verif.Lemmas.Monad
import Verif.Lemmas.Db

/-!
# C79: what aktualizr-info prints is true, and it prints secrets only on request
-/

namespace Aktualizr.Info

open M

namespace Spec

/-- At some moment before `N`. -/
def At (a : Around) (N : Nat) (φ : Db → Prop) : Prop := ∃ t, t < N ∧ φ (a.db t)

/-- `x` is the stored document with the highest version. -/
def Newest (d : Db) (repo : Repo) (type : RoleKind) (x : String) : Prop :=
  ∃ r ∈ d.metadata.rows, r.repo = repo ∧ r.type = type ∧ r.data = x ∧
    ∀ r' ∈ d.metadata.rows, r'.repo = repo → r'.type = type → r'.version ≤ r.version

def NoDoc (d : Db) (repo : Repo) (type : RoleKind) : Prop := ∀ r ∈ d.metadata.rows, ¬(r.repo = repo ∧ r.type = type)

/-- Which option is about which document. -/
def documents : List (String × Repo × RoleKind) :=
  [("image-root", .image, .root), ("images-root", .image, .root),
   ("image-targets", .image, .targets), ("image-target", .image, .targets),
   ("images-targets", .image, .targets), ("images-target", .image, .targets),
   ("director-root", .director, .root),
   ("director-targets", .director, .targets), ("director-target", .director, .targets),
   ("image-snapshot", .image, .snapshot), ("images-snapshot", .image, .snapshot),
   ("image-timestamp", .image, .timestamp), ("images-timestamp", .image, .timestamp)]

/-- Text `x` is what option `n` asks for. -/
inductive Content (d : Db) : String → String → Prop where
  | name {i r} : d.device = some (i, r) → Content d "name-only" i
  | ca {n x} : n ∈ ["tls-creds", "tls-root-ca"] → d.ca = some x → Content d n x
  | cert {n x} : n ∈ ["tls-creds", "tls-cert"] → d.cert = some x → Content d n x
  | pkey {n x} : n ∈ ["tls-creds", "tls-prv-key"] → d.pkey = some x → Content d n x
  | pub {n x y} : n ∈ ["ecu-keys", "ecu-pub-key"] → d.keys = some (x, y) → Content d n x
  | priv {n x y} : n ∈ ["ecu-keys", "ecu-prv-key"] → d.keys = some (x, y) → Content d n y
  | document {n repo type x} : (n, repo, type) ∈ documents → Newest d repo type x → Content d n x
  | delegation {role x} : (role, x) ∈ d.metadata.delegations → Content d "delegation" (role ++ ": " ++ x)

/-- Something that option `n` asks for is not there. -/
inductive Lacks (d : Db) : String → Prop where
  | ca {n} : n ∈ ["tls-creds", "tls-root-ca"] → d.ca = none → Lacks d n
  | cert {n} : n ∈ ["tls-creds", "tls-cert"] → d.cert = none → Lacks d n
  | pkey {n} : n ∈ ["tls-creds", "tls-prv-key"] → d.pkey = none → Lacks d n
  | keys {n} : n ∈ ["ecu-keys", "ecu-pub-key", "ecu-prv-key"] → d.keys = none → Lacks d n
  | document {n repo type} : (n, repo, type) ∈ documents → NoDoc d repo type → Lacks d n

/-- A version recorded for the ECU, with the mark `flag`. -/
def VersionOf (env : Env) (v : VersionDb) (serial : String) (flag : VersionRow → Bool) (t : Target) : Prop :=
  ∃ r ∈ v.rows, r.ecu = serial ∧ flag r = true ∧ ∃ ecus, v.ecuMap serial = .ok ecus ∧ VersionDb.readTarget env ecus r = .ok t

/-- The name the Primary's versions are recorded under. -/
def PrimaryIs (v : VersionDb) (s : String) : Prop :=
  (∃ l e r, v.ecus = l ++ e :: r ∧ (∀ x ∈ l, x.primary = false) ∧ e.primary = true ∧ e.serial = s) ∨ ((∀ e ∈ v.ecus, e.primary = false) ∧ s = "")

/-- The version that runs: recorded as current, or with OSTree a recorded one with the booted commit. -/
def Runs (a : Around) (v : VersionDb) (t : Target) : Prop :=
  ∃ s, PrimaryIs v s ∧
    match a.pacman with
    | .fake => VersionOf a.env v s (·.isCurrent) t
    | .ostree x => x = some (some t.sha256Hash) ∧ VersionOf a.env v s (fun _ => true) t
    | .unknown _ => False

def NoTls (d : Db) : Prop := ∀ x y z, d.ca = some x → d.cert = some y → d.pkey = some z → x = "" ∧ y = "" ∧ z = ""

def HasKeys (d : Db) : Prop := ∃ x y, d.keys = some (x, y) ∧ x ≠ "" ∧ y ≠ ""

/-- What the ECU is called. -/
inductive Called (a : Around) (N : Nat) : String → Prop where
  | secondary : At a N (fun d => d.device = none) → At a N NoTls → At a N HasKeys → Called a N "Secondary"
  | primary : (At a N (fun d => d.device ≠ none) ∨ At a N (fun d => ¬NoTls d) ∨ At a N (fun d => ¬HasKeys d)) → Called a N "Primary"

def headings : List String :=
  ["Root CA certificate:", "Client certificate:", "Client private key:", "Public key:", "Private key:", "Secondaries:",
   "Removed or unregistered ECUs (deprecated):"]

/-- What may be printed: each piece is about the database as it was at a moment before `N`. -/
inductive Says (a : Around) (o : Options) (N : Nat) : String → Prop where
  | heading {p} : p ∈ headings → Says a o N p
  /-- What was asked for. -/
  | asked {n x} : o.has n = true → At a N (fun d => Content d n x) → Says a o N x
  /-- Something asked for is not there. -/
  | blank {n} : o.has n = true → At a N (fun d => Lacks d n) → Says a o N ""
  | noMetadata : At a N (fun d => NoDoc d .director .root) → Says a o N "Metadata is not available"
  | noDelegations : o.has "delegation" = true → At a N (fun d => d.metadata.delegations = []) → Says a o N "Delegations are not present"
  | badDelegations : o.has "delegation" = true → At a N (fun d => d.metadata.delegations ≠ []) → Says a o N "Failed to load delegations"
  | device {i r} : At a N (fun d => d.device = some (i, r)) → Says a o N ("Device ID: " ++ i)
  | noDevice : At a N (fun d => d.device = none) → Says a o N "Couldn't load device ID"
  | noEcus : At a N (fun d => d.versions.ecus = []) → Says a o N "Couldn't load ECU serials"
  | serial {name e} : Called a N name → At a N (fun d => d.versions.ecus.head? = some e) → Says a o N (name ++ " ECU serial ID: " ++ e.serial)
  | hardware {name e} : Called a N name → At a N (fun d => d.versions.ecus.head? = some e) → Says a o N (name ++ " ECU hardware ID: " ++ e.hwid)
  | other {n e} : 0 < n → At a N (fun d => d.versions.ecus[n]? = some e) → Says a o N (toString n ++ ") serial ID: " ++ e.serial)
  | otherHw {n e} : 0 < n → At a N (fun d => d.versions.ecus[n]? = some e) → Says a o N ("   hardware ID: " ++ e.hwid)
  | noVersions {n : Nat} {e} : 0 < n → At a N (fun d => d.versions.ecus[n]? = some e) →
      At a N (fun d => ∀ r ∈ d.versions.rows, r.ecu = e.serial → r.isCurrent = false ∧ r.isPending = false) →
      Says a o N "   no details about installed nor pending images"
  | installed {n : Nat} {e t} : 0 < n → At a N (fun d => d.versions.ecus[n]? = some e) → At a N (fun d => VersionOf a.env d.versions e.serial (·.isCurrent) t) →
      Says a o N ("   installed image hash: " ++ t.sha256Hash)
  | installedName {n : Nat} {e t} : 0 < n → At a N (fun d => d.versions.ecus[n]? = some e) → At a N (fun d => VersionOf a.env d.versions e.serial (·.isCurrent) t) →
      Says a o N ("   installed image filename: " ++ t.filename)
  | waiting {n : Nat} {e t} : 0 < n → At a N (fun d => d.versions.ecus[n]? = some e) → At a N (fun d => VersionOf a.env d.versions e.serial (·.isPending) t) →
      Says a o N ("   pending image hash: " ++ t.sha256Hash)
  | waitingName {n : Nat} {e t} : 0 < n → At a N (fun d => d.versions.ecus[n]? = some e) → At a N (fun d => VersionOf a.env d.versions e.serial (·.isPending) t) →
      Says a o N ("   pending image filename: " ++ t.filename)
  | removed {s h} : At a N (fun d => (s, h, true) ∈ d.misconfigured) → Says a o N ("   '" ++ s ++ "' with hardware_id '" ++ h ++ "' " ++ "has been removed from config")
  | unregistered {s h} : At a N (fun d => (s, h, false) ∈ d.misconfigured) → Says a o N ("   '" ++ s ++ "' with hardware_id '" ++ h ++ "' " ++ "not registered yet")
  | provisioned : At a N (fun d => ∃ i, d.device = some (i, true)) → Says a o N "Provisioned on server: yes"
  | notProvisioned : At a N (fun d => ∀ i, d.device ≠ some (i, true)) → Says a o N "Provisioned on server: no"
  | fetched {x} : At a N (fun d => Newest d .director .root x) → Says a o N "Fetched metadata: yes"
  | notFetched : At a N (fun d => NoDoc d .director .root) → Says a o N "Fetched metadata: no"
  | running {name t} : Called a N name → At a N (fun d => Runs a d.versions t) → Says a o N ("Current " ++ name ++ " ECU running version: " ++ t.sha256Hash)
  | notRunning {name} : Called a N name → At a N (fun d => ∀ t, ¬Runs a d.versions t) → Says a o N ("No currently running version on " ++ name ++ " ECU")
  | pending {name s t} : Called a N name → At a N (fun d => PrimaryIs d.versions s ∧ VersionOf a.env d.versions s (·.isPending) t) →
      Says a o N ("Pending " ++ name ++ " ECU version: " ++ t.sha256Hash)

end Spec

/-! ## Time passes -/

def Later (s s' : St) : Prop := s.tick ≤ s'.tick

theorem later_pre : IsPre Later := ⟨fun _ => Nat.le_refl _, fun _ _ _ => Nat.le_trans⟩

theorem later_read {α : Type} (a : Around) (f : Db → α) : Preserves Later (read a f) := fun _ => Nat.le_succ _
theorem later_readE {α : Type} (a : Around) (f : Db → Except Err α) : Preserves Later (readE a f) := fun _ => Nat.le_succ _
theorem later_line (t : String) : Preserves Later (line t) := fun _ => Nat.le_refl _
theorem later_pure {α : Type} (x : α) : Preserves Later (pure x : P α) := fun _ => Nat.le_refl _

theorem later_lines (l : List String) : Preserves Later (lines l) := by
  induction l with
  | nil => exact later_pure _
  | cons t l ih => exact Preserves.bind later_pre (later_line t) (fun _ => ih)

theorem later_open (a : Around) : Preserves Later (openStorage a) := by
  intro s
  unfold openStorage Later
  split <;> exact Nat.le_succ _

theorem later_ite {α : Type} {c : Prop} [Decidable c] {m n : P α} (hm : Preserves Later m) (hn : Preserves Later n) :
    Preserves Later (if c then m else n) := by
  split
  · exact hm
  · exact hn

theorem later_option {α β : Type} {x : Option α} {m : α → P β} {n : P β} (hm : ∀ v, Preserves Later (m v)) (hn : Preserves Later n) :
    Preserves Later (match x with | some v => m v | none => n) := by
  split
  · exact hm _
  · exact hn

macro "later" : tactic => `(tactic| repeat' first
  | exact later_read _ _ | exact later_readE _ _ | exact later_line _ | exact later_lines _ | exact later_pure _ | exact later_open _
  | refine Preserves.bind later_pre ?_ (fun _ => ?_) | refine later_ite ?_ ?_ | assumption | split)

theorem later_showDoc (a : Around) (repo : Repo) (type : RoleKind) : Preserves Later (showDoc a repo type) := by
  unfold showDoc
  later

theorem later_showDelegations (a : Around) : Preserves Later (showDelegations a) := by
  unfold showDelegations
  later

theorem later_metadataOption (o : Options) (names : List String) (has : Bool) {m : P Unit} (hm : Preserves Later m) :
    Preserves Later (metadataOption o names has m) := by
  unfold metadataOption
  later

theorem later_metadataOptions (a : Around) (o : Options) (has : Bool) (root : String) :
    Preserves Later (metadataOptions a o has root) := by
  unfold metadataOptions
  repeat' first
    | exact later_pure _
    | exact later_metadataOption _ _ _ (later_showDoc _ _ _)
    | exact later_metadataOption _ _ _ (later_showDelegations _)
    | exact later_metadataOption _ _ _ (later_line _)
    | refine Preserves.bind later_pre ?_ (fun _ => ?_)

theorem later_credentials (a : Around) (o : Options) : Preserves Later (credentials a o) := by
  unfold credentials
  later

theorem later_secondaries (a : Around) (l : List (String × String)) : ∀ n, Preserves Later (secondaries a n l) := by
  induction l with
  | nil => intro n; exact later_pure _
  | cons e l ih =>
    intro n
    unfold secondaries
    have := ih (n + 1)
    later

theorem later_general (a : Around) (device : Option String) (tls keys registered has : Bool) :
    Preserves Later (general a device tls keys registered has) := by
  unfold general
  have := fun l n => later_secondaries a l n
  repeat' first
    | exact this _ _
    | exact later_read _ _ | exact later_readE _ _ | exact later_line _ | exact later_lines _ | exact later_pure _ | exact later_open _
    | refine Preserves.bind later_pre ?_ (fun _ => ?_) | refine later_ite ?_ ?_ | split

theorem later_inform (a : Around) (o : Options) (r h : Bool) (root : String) : Preserves Later (inform a o r h root) := by
  unfold inform
  repeat' first
    | exact later_general _ _ _ _ _ _ | exact later_credentials _ _ | exact later_metadataOptions _ _ _ _
    | exact later_read _ _ | exact later_readE _ _ | exact later_line _ | exact later_lines _ | exact later_pure _ | exact later_open _
    | refine Preserves.bind later_pre ?_ (fun _ => ?_) | refine later_ite ?_ ?_ | split

theorem later_wait (a : Around) (n : Nat) : ∀ r m root, Preserves Later (wait a n r m root) := by
  induction n with
  | zero => intro r m root s; exact Nat.le_refl _
  | succ n ih =>
    intro r m root
    unfold wait
    refine later_ite (later_pure _) (Preserves.bind later_pre (fun s => Nat.le_succ _) (fun ok => ?_))
    refine later_ite ?_ (ih _ _ _)
    refine Preserves.bind later_pre (later_read _ _) (fun _ => Preserves.bind later_pre (later_readE _ _) (fun _ => ih _ _ _))

theorem later_main (a : Around) (o : Options) (n : Nat) : Preserves Later (main a o n) := by
  unfold main
  refine later_ite ?_ ?_
  · exact Preserves.bind later_pre (later_wait _ _ _ _ _) (fun _ => later_inform _ _ _ _ _)
  · exact Preserves.bind later_pre (later_open _) (fun _ => later_inform _ _ _ _ _)

/-! ## What is printed is true -/

section Truth

variable {a : Around} {o : Options} {N : Nat}

def Good (a : Around) (o : Options) (N : Nat) (s : St) : Prop := ∀ p ∈ s.out, Spec.Says a o N p

/-- If `m` ends before `N` all it prints is true, and what it gives is as `Q` says. -/
def Tells (a : Around) (o : Options) (N : Nat) {α : Type} (m : P α) (Q : α → Prop) : Prop :=
  ∀ s, (m s).2.tick ≤ N → Good a o N s → Good a o N (m s).2 ∧ ∀ v, (m s).1 = .ok v → Q v

theorem Tells.bind {α β : Type} {m : P α} {k : α → P β} {Q : α → Prop} {R : β → Prop} (hm : Tells a o N m Q)
    (hl : ∀ v, Preserves Later (k v)) (hk : ∀ v, Q v → Tells a o N (k v) R) : Tells a o N (m >>= k) R := by
  intro s hN hg
  cases h : m s with
  | mk x s1 =>
    cases x with
    | ok v =>
      rw [run_bind h] at hN ⊢
      have h1 := hm s (by rw [h]; exact Nat.le_trans (hl v s1) hN) hg
      rw [h] at h1
      exact hk v (h1.2 v rfl) s1 hN h1.1
    | error e =>
      rw [run_bind_err h] at hN ⊢
      have h1 := hm s (by rw [h]; exact hN) hg
      rw [h] at h1
      exact ⟨h1.1, by simp⟩

theorem Tells.line {p : String} (h : Spec.Says a o N p) : Tells a o N (line p) (fun _ => True) := by
  intro s _ hg
  refine ⟨?_, fun _ _ => trivial⟩
  intro q hq
  rcases List.mem_append.1 hq with hq | hq
  · exact hg q hq
  · rw [List.mem_singleton.1 hq]
    exact h

theorem Tells.pure {α : Type} {x : α} {Q : α → Prop} (h : Q x) : Tells a o N (pure x : P α) Q := by
  intro s _ hg
  exact ⟨hg, fun v hv => by cases hv; exact h⟩

theorem Tells.lines {l : List String} (h : ∀ p ∈ l, Spec.Says a o N p) : Tells a o N (lines l) (fun _ => True) := by
  induction l with
  | nil => exact Tells.pure trivial
  | cons p l ih =>
    exact Tells.bind (Tells.line (h p (by simp))) (fun _ => later_lines _) (fun _ _ => ih (fun q hq => h q (by simp [hq])))

theorem Tells.read {α : Type} {f : Db → α} : Tells a o N (read a f) (fun v => Spec.At a N (fun d => f d = v)) := by
  intro s hN hg
  exact ⟨hg, fun v hv => ⟨s.tick, hN, by cases hv; rfl⟩⟩

theorem Tells.readE {α : Type} {f : Db → Except Err α} : Tells a o N (readE a f) (fun v => Spec.At a N (fun d => f d = .ok v)) := by
  intro s hN hg
  exact ⟨hg, fun v hv => ⟨s.tick, hN, hv⟩⟩

theorem Tells.ite {α : Type} {c : Prop} [Decidable c] {m n : P α} {Q : α → Prop} (hm : c → Tells a o N m Q) (hn : ¬c → Tells a o N n Q) :
    Tells a o N (if c then m else n) Q := by
  split
  · exact hm ‹_›
  · exact hn ‹_›

theorem Tells.weaken {α : Type} {m : P α} {Q R : α → Prop} (h : Tells a o N m Q) (hq : ∀ v, Q v → R v) : Tells a o N m R :=
  fun s hN hg => ⟨(h s hN hg).1, fun v hv => hq v ((h s hN hg).2 v hv)⟩

theorem At.imp {φ ψ : Db → Prop} (h : Spec.At a N φ) (hi : ∀ d, φ d → ψ d) : Spec.At a N ψ := by
  obtain ⟨t, ht, hp⟩ := h
  exact ⟨t, ht, hi _ hp⟩

/-! ### Queries -/

theorem doc_some {d : Db} {repo : Repo} {type : RoleKind} {x : String} (h : d.doc repo type = .ok (some x)) :
    Spec.Newest d repo type x := by
  unfold Db.doc at h
  cases hl : d.metadata.latestOf repo type with
  | none => rw [hl] at h; simp [blob] at h
  | some r =>
    rw [hl] at h
    simp only [blob] at h
    split at h
    · cases h
    · have h := Option.some.inj (Except.ok.inj h)
      obtain ⟨h1, h2⟩ := MetaDb.latest_some hl
      simp only [List.mem_filter, Bool.and_eq_true, beq_iff_eq] at h1 h2
      exact ⟨r, h1.1, h1.2.1, h1.2.2, h, fun r' hr h3 h4 => h2 r' ⟨hr, h3, h4⟩⟩

theorem doc_none {d : Db} {repo : Repo} {type : RoleKind} (h : d.doc repo type = .ok none) : Spec.NoDoc d repo type := by
  unfold Db.doc at h
  cases hl : d.metadata.latestOf repo type with
  | none =>
    have h1 := MetaDb.latest_none.1 hl
    intro r hr hc
    have : r ∈ d.metadata.rows.filter (fun r => r.repo == repo && r.type == type) := by
      simp [List.mem_filter, hr, hc.1, hc.2]
    rw [h1] at this
    simp at this
  | some r =>
    rw [hl] at h
    simp only [blob] at h
    split at h <;> cases h

theorem says_doc {n : String} {repo : Repo} {type : RoleKind} (hn : (n, repo, type) ∈ Spec.documents) (ho : o.has n = true)
    {x : Option String} (h : Spec.At a N (fun d => d.doc repo type = .ok x)) : Spec.Says a o N (x.getD "") := by
  cases x with
  | none => exact .blank ho (At.imp h (fun d hd => .document hn (doc_none hd)))
  | some x => exact .asked ho (At.imp h (fun d hd => .document hn (doc_some hd)))

theorem says_option {α : Type} {n : String} {f : Db → Option α} {g : α → String} (ho : o.has n = true)
    (hs : ∀ d x, f d = some x → Spec.Content d n (g x)) (hl : ∀ d, f d = none → Spec.Lacks d n) {x : String}
    (h : Spec.At a N (fun d => ((f d).map g).getD "" = x)) : Spec.Says a o N x := by
  obtain ⟨t, ht, hp⟩ := h
  cases hf : f (a.db t) with
  | none =>
    simp only [hf] at hp
    subst hp
    exact .blank ho ⟨t, ht, hl _ hf⟩
  | some y =>
    simp only [hf] at hp
    subst hp
    exact .asked ho ⟨t, ht, hs _ _ hf⟩

end Truth

end Aktualizr.Info
