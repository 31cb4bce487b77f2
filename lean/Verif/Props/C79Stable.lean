import Verif.Props.C79Secrets

/-! # C79: a database that does not change -/

namespace Aktualizr.Info

open M

namespace Spec

/-- The options that ask for something, those that ask for the same together, in the order of the answers. -/
def groups : List (List String) :=
  [["tls-creds"], ["tls-root-ca"], ["tls-cert"], ["tls-prv-key"], ["ecu-keys"], ["ecu-prv-key"], ["image-root", "images-root"],
   ["image-targets", "image-target", "images-targets", "images-target"], ["delegation"], ["director-root"],
   ["director-targets", "director-target"], ["image-snapshot", "images-snapshot"], ["image-timestamp", "images-timestamp"]]

/-- The answer to option `n`. -/
inductive Answer (d : Db) : String → List String → Prop where
  | creds {x y z} : d.ca = some x → d.cert = some y → d.pkey = some z →
      Answer d "tls-creds" ["Root CA certificate:", x, "Client certificate:", y, "Client private key:", z]
  | noCreds : d.ca = none ∨ d.cert = none ∨ d.pkey = none →
      Answer d "tls-creds" ["Root CA certificate:", "", "Client certificate:", "", "Client private key:", ""]
  | keys {x y} : d.keys = some (x, y) → Answer d "ecu-keys" ["Public key:", x, "Private key:", y]
  | noKeys : d.keys = none → Answer d "ecu-keys" ["Public key:", "", "Private key:", ""]
  | single {n x} : n ∈ ["tls-root-ca", "tls-cert", "tls-prv-key", "ecu-prv-key"] → Content d n x → Answer d n [x]
  | missing {n} : n ∈ ["tls-root-ca", "tls-cert", "tls-prv-key", "ecu-prv-key"] → Lacks d n → Answer d n [""]
  | notFetched {n} : n = "delegation" ∨ (∃ r t, (n, r, t) ∈ documents) → NoDoc d .director .root → Answer d n ["Metadata is not available"]
  | document {n repo type x y} : (n, repo, type) ∈ documents → Newest d .director .root y → Newest d repo type x → Answer d n [x]
  | noDocument {n repo type y} : (n, repo, type) ∈ documents → Newest d .director .root y → NoDoc d repo type → Answer d n [""]
  | delegations {y} : Newest d .director .root y → d.metadata.delegations ≠ [] →
      (∀ p ∈ d.metadata.delegations, p.2 ≠ "" ∧ Role.isReserved (lower p.1) = false) →
      Answer d "delegation" (d.metadata.delegations.map (fun p => p.1 ++ ": " ++ p.2))
  | noDelegations {y} : Newest d .director .root y → d.metadata.delegations = [] → Answer d "delegation" ["Delegations are not present"]
  | badDelegations {y} : Newest d .director .root y → (∃ p ∈ d.metadata.delegations, p.2 = "" ∨ Role.isReserved (lower p.1) = true) →
      Answer d "delegation" ["Failed to load delegations"]

end Spec

/-- `m` succeeds and prints `l`. -/
def Adds {α : Type} (m : P α) (l : List String) (Q : α → Prop) : Prop :=
  ∀ s, ∃ v t, m s = (.ok v, ⟨s.out ++ l, t⟩) ∧ Q v

theorem Adds.bind {α β : Type} {m : P α} {k : α → P β} {l1 l2 : List String} {Q : α → Prop} {R : β → Prop} (hm : Adds m l1 Q)
    (hk : ∀ v, Q v → Adds (k v) l2 R) : Adds (m >>= k) (l1 ++ l2) R := by
  intro s
  obtain ⟨v, t, h1, h2⟩ := hm s
  obtain ⟨w, t', h3, h4⟩ := hk v h2 ⟨s.out ++ l1, t⟩
  exact ⟨w, t', by rw [run_bind h1, h3, List.append_assoc], h4⟩

theorem Adds.bind0 {α β : Type} {m : P α} {k : α → P β} {l : List String} {Q : α → Prop} {R : β → Prop} (hm : Adds m [] Q)
    (hk : ∀ v, Q v → Adds (k v) l R) : Adds (m >>= k) l R := Adds.bind (l1 := []) hm hk

theorem Adds.last {α β : Type} {m : P α} {k : α → P β} {l : List String} {Q : α → Prop} {R : β → Prop} (hm : Adds m l Q)
    (hk : ∀ v, Q v → Adds (k v) [] R) : Adds (m >>= k) l R := by
  have := Adds.bind hm hk
  rwa [List.append_nil] at this

theorem Adds.line {p : String} : Adds (line p) [p] (fun _ => True) := fun s => ⟨(), s.tick, rfl, trivial⟩

theorem Adds.pure {α : Type} {x : α} {Q : α → Prop} (h : Q x) : Adds (pure x : P α) [] Q :=
  fun s => ⟨x, s.tick, by simp, h⟩

theorem Adds.lines : ∀ {l : List String}, Adds (lines l) l (fun _ => True)
  | [] => Adds.pure trivial
  | p :: l => Adds.bind (l1 := [p]) Adds.line (fun _ _ => Adds.lines (l := l))

theorem Adds.read {α : Type} {a : Around} {d : Db} (hd : ∀ t, a.db t = d) {f : Db → α} : Adds (read a f) [] (fun v => f d = v) :=
  fun s => ⟨f d, s.tick + 1, by simp [Info.read, hd], rfl⟩

theorem Adds.readE {α : Type} {a : Around} {d : Db} (hd : ∀ t, a.db t = d) {f : Db → Except Err α} {x : α} (h : f d = .ok x) :
    Adds (readE a f) [] (fun v => v = x) :=
  fun s => ⟨x, s.tick + 1, by simp [Info.readE, hd, h], rfl⟩

theorem Adds.ite {α : Type} {c : Prop} [Decidable c] {m n : P α} {l1 l2 : List String} {Q : α → Prop} (hm : c → Adds m l1 Q) (hn : ¬c → Adds n l2 Q) :
    Adds (if c then m else n) (if c then l1 else l2) Q := by
  split
  · exact hm ‹_›
  · exact hn ‹_›

theorem Adds.weaken {α : Type} {m : P α} {l : List String} {Q R : α → Prop} (h : Adds m l Q) (hq : ∀ v, Q v → R v) : Adds m l R := by
  intro s
  obtain ⟨v, t, h1, h2⟩ := h s
  exact ⟨v, t, h1, hq v h2⟩

section Stable

variable {a : Around} {d : Db} {o : Options}

/-- No document is empty. -/
def Filled (d : Db) : Prop := ∀ r ∈ d.metadata.rows, r.data ≠ ""

theorem doc_filled (h : Filled d) (repo : Repo) (type : RoleKind) : ∃ x, d.doc repo type = .ok x := by
  unfold Db.doc
  cases hl : d.metadata.latestOf repo type with
  | none => exact ⟨none, rfl⟩
  | some r =>
    have h1 := (MetaDb.latest_some hl).1
    simp only [List.mem_filter] at h1
    exact ⟨some r.data, by simp [blob, h r h1.1]⟩

/-- The texts in the answers. -/
def tlsText (d : Db) : List String := ["Root CA certificate:", d.tls.1, "Client certificate:", d.tls.2.1, "Client private key:", d.tls.2.2]

def keysText (d : Db) : List String := ["Public key:", d.ecuKeys.1, "Private key:", d.ecuKeys.2]

theorem tls_answer (d : Db) : Spec.Answer d "tls-creds" (tlsText d) := by
  unfold tlsText
  rcases tls_facts (d := d) rfl with ⟨h, hn⟩ | ⟨h1, h2, h3⟩
  · rw [h]
    exact .noCreds hn
  · exact .creds h1 h2 h3

theorem keys_answer (d : Db) : Spec.Answer d "ecu-keys" (keysText d) := by
  unfold keysText Db.ecuKeys
  cases h : d.keys with
  | none => exact .noKeys h
  | some p => exact .keys (x := p.1) (y := p.2) h

theorem single_answer {α : Type} {n : String} {f : Db → Option α} {g : α → String} (hn : n ∈ ["tls-root-ca", "tls-cert", "tls-prv-key", "ecu-prv-key"])
    (hs : ∀ x, f d = some x → Spec.Content d n (g x)) (hl : f d = none → Spec.Lacks d n) : Spec.Answer d n [((f d).map g).getD ""] := by
  cases hf : f d with
  | none => exact .missing hn (hl hf)
  | some x => exact .single hn (hs x hf)

def docText (d : Db) (repo : Repo) (type : RoleKind) : List String :=
  match d.doc .director .root, d.doc repo type with
  | .ok (some _), .ok x => [x.getD ""]
  | _, _ => ["Metadata is not available"]

def delegationText (d : Db) : List String :=
  match d.doc .director .root, d.delegations with
  | .ok (some _), none => ["Failed to load delegations"]
  | .ok (some _), some [] => ["Delegations are not present"]
  | .ok (some _), some l => l.map (fun p => p.1 ++ ": " ++ p.2)
  | _, _ => ["Metadata is not available"]

theorem doc_answer (h : Filled d) {n : String} {repo : Repo} {type : RoleKind} (hn : (n, repo, type) ∈ Spec.documents) :
    Spec.Answer d n (docText d repo type) := by
  obtain ⟨x, hx⟩ := doc_filled h .director .root
  obtain ⟨y, hy⟩ := doc_filled h repo type
  unfold docText
  rw [hx, hy]
  cases x with
  | none => exact .notFetched (.inr ⟨_, _, hn⟩) (doc_none hx)
  | some x =>
    cases y with
    | none => exact .noDocument hn (doc_some hx) (doc_none hy)
    | some y => exact .document hn (doc_some hx) (doc_some hy)

theorem delegation_answer (h : Filled d) : Spec.Answer d "delegation" (delegationText d) := by
  obtain ⟨x, hx⟩ := doc_filled h .director .root
  unfold delegationText
  rw [hx]
  cases x with
  | none => exact .notFetched (.inl rfl) (doc_none hx)
  | some x =>
    unfold Db.delegations
    by_cases hc : (d.metadata.delegations.all (fun p => p.2 ≠ "" && !Role.isReserved (lower p.1))) = true
    · rw [if_pos hc]
      simp only [List.all_eq_true, Bool.and_eq_true, decide_eq_true_eq, Bool.not_eq_eq_eq_not, Bool.not_true] at hc
      cases hl : d.metadata.delegations with
      | nil => exact .noDelegations (doc_some hx) hl
      | cons p l =>
        have := Spec.Answer.delegations (doc_some hx) (by rw [hl]; simp) hc
        rw [hl] at this
        exact this
    · rw [if_neg hc]
      refine .badDelegations (doc_some hx) ?_
      simp only [List.all_eq_true, Bool.and_eq_true, decide_eq_true_eq, Bool.not_eq_eq_eq_not, Bool.not_true, Classical.not_forall] at hc
      obtain ⟨p, hp, hc⟩ := hc
      refine ⟨p, hp, ?_⟩
      by_cases h1 : p.2 = ""
      · exact .inl h1
      · refine .inr ?_
        cases h2 : Role.isReserved (lower p.1)
        · exact absurd ⟨h1, h2⟩ hc
        · rfl

theorem adds_metadataOption {names : List String} {has : Bool} {m : P Unit} {l : List String}
    (h : Adds (if has = true then m else line "Metadata is not available") l (fun _ => True)) :
    Adds (metadataOption o names has m) (if names.any o.has then l else []) (fun v => v = names.any o.has) := by
  unfold metadataOption
  refine Adds.ite (fun hc => ?_) (fun hc => Adds.pure (by simpa using hc))
  have := Adds.bind (R := fun v => v = names.any o.has) h (fun _ _ => Adds.pure (x := true) (by rw [hc]))
  simpa using this

theorem adds_doc (hd : ∀ t, a.db t = d) (h : Filled d) {x : Option String} (hx : d.doc .director .root = .ok x) (repo : Repo) (type : RoleKind) :
    Adds (if x.isSome = true then showDoc a repo type else line "Metadata is not available") (docText d repo type) (fun _ => True) := by
  obtain ⟨y, hy⟩ := doc_filled h repo type
  unfold docText
  rw [hx, hy]
  cases x with
  | none => exact Adds.line
  | some x =>
    have := Adds.bind (k := fun y => line (y.getD "")) (Adds.readE hd (f := fun d => d.doc repo type) hy) (fun v hv => by subst hv; exact Adds.line)
    exact this

theorem adds_root {x : Option String} (hx : d.doc .director .root = .ok x) :
    Adds (if x.isSome = true then line (x.getD "") else line "Metadata is not available") (docText d .director .root) (fun _ => True) := by
  unfold docText
  rw [hx]
  cases x with
  | none => exact Adds.line
  | some x => exact Adds.line

theorem adds_delegations (hd : ∀ t, a.db t = d) {x : Option String} (hx : d.doc .director .root = .ok x) :
    Adds (if x.isSome = true then showDelegations a else line "Metadata is not available") (delegationText d) (fun _ => True) := by
  unfold delegationText
  rw [hx]
  cases x with
  | none => exact Adds.line
  | some x =>
    rw [Option.isSome_some, if_pos rfl]
    unfold showDelegations
    have h0 : Adds (read a Db.delegations) [] (fun v => d.delegations = v) := Adds.read hd
    generalize d.delegations = z at h0
    match z, h0 with
    | none, h0 => exact Adds.bind (l1 := []) h0 (fun v hv => by subst hv; exact Adds.line)
    | some [], h0 => exact Adds.bind (l1 := []) h0 (fun v hv => by subst hv; exact Adds.line)
    | some (p :: l), h0 => exact Adds.bind (l1 := []) h0 (fun v hv => by subst hv; exact Adds.lines)

/-- The texts of the groups, in their order. -/
def texts (d : Db) : List (List String) :=
  [tlsText d, [(d.ca.map id).getD ""], [(d.cert.map id).getD ""], [(d.pkey.map id).getD ""], keysText d, [(d.keys.map (·.2)).getD ""],
   docText d .image .root, docText d .image .targets, delegationText d, docText d .director .root, docText d .director .targets,
   docText d .image .snapshot, docText d .image .timestamp]

theorem texts_answer (h : Filled d) : ∀ g ∈ Spec.groups.zip (texts d), ∀ n ∈ g.1, Spec.Answer d n g.2 := by
  have hdoc : ∀ {n repo type}, (n, repo, type) ∈ Spec.documents → Spec.Answer d n (docText d repo type) := fun hn => doc_answer h hn
  intro g hg n hn
  simp only [Spec.groups, texts, List.zip_cons_cons, List.zip_nil_right, List.mem_cons, List.not_mem_nil, or_false] at hg
  rcases hg with rfl | rfl | rfl | rfl | rfl | rfl | rfl | rfl | rfl | rfl | rfl | rfl | rfl <;>
    simp only [List.mem_cons, List.not_mem_nil, or_false] at hn
  · subst hn; exact tls_answer d
  · subst hn; exact single_answer (f := fun d => d.ca) (by simp) (fun x hx => .ca (by simp) hx) (fun hx => .ca (by simp) hx)
  · subst hn; exact single_answer (f := fun d => d.cert) (by simp) (fun x hx => .cert (by simp) hx) (fun hx => .cert (by simp) hx)
  · subst hn; exact single_answer (f := fun d => d.pkey) (by simp) (fun x hx => .pkey (by simp) hx) (fun hx => .pkey (by simp) hx)
  · subst hn; exact keys_answer d
  · subst hn; exact single_answer (f := fun d => d.keys) (g := (·.2)) (by simp) (fun x hx => .priv (x := x.1) (by simp) hx) (fun hx => .keys (by simp) hx)
  · rcases hn with rfl | rfl <;> exact hdoc (by simp [Spec.documents])
  · rcases hn with rfl | rfl | rfl | rfl <;> exact hdoc (by simp [Spec.documents])
  · subst hn; exact delegation_answer h
  · subst hn; exact hdoc (by simp [Spec.documents])
  · rcases hn with rfl | rfl <;> exact hdoc (by simp [Spec.documents])
  · rcases hn with rfl | rfl <;> exact hdoc (by simp [Spec.documents])
  · rcases hn with rfl | rfl <;> exact hdoc (by simp [Spec.documents])

theorem adds_credentials (hd : ∀ t, a.db t = d) : Adds (credentials a o)
    ((if o.has "tls-creds" = true then tlsText d else []) ++ ((if o.has "tls-root-ca" = true then [(d.ca.map id).getD ""] else []) ++
     ((if o.has "tls-cert" = true then [(d.cert.map id).getD ""] else []) ++ ((if o.has "tls-prv-key" = true then [(d.pkey.map id).getD ""] else []) ++
     (if o.has "ecu-keys" = true then keysText d else [])))))
    (fun v => v.1 = (!(d.tls.1 == "" && d.tls.2.1 == "" && d.tls.2.2 == "")) ∧ v.2.1 = (d.ecuKeys.1 != "" && d.ecuKeys.2 != "") ∧
      v.2.2 = ["tls-creds", "tls-root-ca", "tls-cert", "tls-prv-key", "ecu-keys"].any o.has) := by
  have one : ∀ {n : String} {f : Db → Option String},
      Adds (if o.has n = true then do line (← read a (fun d => (f d).getD "")) else pure ()) (if o.has n = true then [((f d).map id).getD ""] else []) (fun _ => True) := by
    intro n f
    refine Adds.ite (fun _ => ?_) (fun _ => Adds.pure trivial)
    exact Adds.bind0 (Adds.read hd) (fun v hv => by subst hv; rw [Option.map_id]; exact Adds.line)
  unfold credentials
  refine Adds.bind0 (Adds.read hd) (fun t ht => ?_)
  subst ht
  refine Adds.bind (Q := fun _ => True) (Adds.ite (fun _ => Adds.lines) (fun _ => Adds.pure trivial)) (fun _ _ => ?_)
  refine Adds.bind (one (n := "tls-root-ca") (f := fun d => d.ca)) (fun _ _ => ?_)
  refine Adds.bind (one (n := "tls-cert") (f := fun d => d.cert)) (fun _ _ => ?_)
  refine Adds.bind (one (n := "tls-prv-key") (f := fun d => d.pkey)) (fun _ _ => ?_)
  refine Adds.bind0 (Adds.read hd) (fun k hk => ?_)
  subst hk
  refine Adds.last (Q := fun _ => True) (Adds.ite (fun _ => Adds.lines) (fun _ => Adds.pure trivial)) (fun _ _ => ?_)
  exact Adds.pure ⟨rfl, rfl, rfl⟩

theorem adds_metadataOptions (hd : ∀ t, a.db t = d) (h : Filled d) {x : Option String} (hx : d.doc .director .root = .ok x) :
    Adds (metadataOptions a o x.isSome (x.getD ""))
      ((if ["image-root", "images-root"].any o.has = true then docText d .image .root else []) ++
       ((if ["image-targets", "image-target", "images-targets", "images-target"].any o.has = true then docText d .image .targets else []) ++
       ((if ["delegation"].any o.has = true then delegationText d else []) ++
       ((if ["director-root"].any o.has = true then docText d .director .root else []) ++
       ((if ["director-targets", "director-target"].any o.has = true then docText d .director .targets else []) ++
       ((if ["image-snapshot", "images-snapshot"].any o.has = true then docText d .image .snapshot else []) ++
       (if ["image-timestamp", "images-timestamp"].any o.has = true then docText d .image .timestamp else [])))))))
      (fun v => v = (Spec.groups.drop 6).any (fun g => g.any o.has)) := by
  have opt : ∀ names repo type, Adds (metadataOption o names x.isSome (showDoc a repo type)) (if names.any o.has = true then docText d repo type else [])
      (fun v => v = names.any o.has) := fun names repo type => adds_metadataOption (adds_doc hd h hx repo type)
  unfold metadataOptions
  refine Adds.bind (opt _ _ _) (fun b1 h1 => ?_)
  refine Adds.bind (opt _ _ _) (fun b2 h2 => ?_)
  refine Adds.bind (adds_metadataOption (adds_delegations hd hx)) (fun b3 h3 => ?_)
  refine Adds.bind (adds_metadataOption (adds_root hx)) (fun b4 h4 => ?_)
  refine Adds.bind (opt _ _ _) (fun b5 h5 => ?_)
  refine Adds.bind (opt _ _ _) (fun b6 h6 => ?_)
  refine Adds.last (opt _ _ _) (fun b7 h7 => Adds.pure ?_)
  subst h1 h2 h3 h4 h5 h6 h7
  simp [Spec.groups, Bool.or_assoc]

theorem any_groups : Spec.groups.any (fun g => g.any o.has) =
    ((["tls-creds", "tls-root-ca", "tls-cert", "tls-prv-key", "ecu-keys"].any o.has || o.has "ecu-prv-key") ||
      (Spec.groups.drop 6).any (fun g => g.any o.has)) := by
  simp [Spec.groups, Bool.or_assoc]

theorem groups_text : (Spec.groups.zip (texts d)).flatMap (fun g => if g.1.any o.has = true then g.2 else []) =
    ((if o.has "tls-creds" = true then tlsText d else []) ++ ((if o.has "tls-root-ca" = true then [(d.ca.map id).getD ""] else []) ++
     ((if o.has "tls-cert" = true then [(d.cert.map id).getD ""] else []) ++ ((if o.has "tls-prv-key" = true then [(d.pkey.map id).getD ""] else []) ++
     (if o.has "ecu-keys" = true then keysText d else []))))) ++
    ((if o.has "ecu-prv-key" = true then [(d.keys.map (·.2)).getD ""] else []) ++
      ((if ["image-root", "images-root"].any o.has = true then docText d .image .root else []) ++
       ((if ["image-targets", "image-target", "images-targets", "images-target"].any o.has = true then docText d .image .targets else []) ++
       ((if ["delegation"].any o.has = true then delegationText d else []) ++
       ((if ["director-root"].any o.has = true then docText d .director .root else []) ++
       ((if ["director-targets", "director-target"].any o.has = true then docText d .director .targets else []) ++
       ((if ["image-snapshot", "images-snapshot"].any o.has = true then docText d .image .snapshot else []) ++
       (if ["image-timestamp", "images-timestamp"].any o.has = true then docText d .image .timestamp else [])))))))) := by
  simp only [Spec.groups, texts, List.zip_cons_cons, List.zip_nil_right, List.flatMap_cons, List.flatMap_nil, List.append_nil, List.append_assoc,
    List.any_cons, List.any_nil, Bool.or_false]

/-- The program up to the general report. -/
theorem adds_inform (hd : ∀ t, a.db t = d) (h : Filled d) (hn : o.has "name-only" = true → d.device = none)
    (hp : o.has "ecu-pub-key" = false) {l : List String}
    (hg : Spec.groups.any (fun g => g.any o.has) = false → ∀ x, d.doc .director .root = .ok x →
      Adds (general a (d.device.map (·.1)) (!(d.tls.1 == "" && d.tls.2.1 == "" && d.tls.2.2 == "")) (d.ecuKeys.1 != "" && d.ecuKeys.2 != "")
        d.registered x.isSome) l (fun _ => True)) :
    Adds (inform a o false false "") ((Spec.groups.zip (texts d)).flatMap (fun g => if g.1.any o.has = true then g.2 else []) ++
      (if Spec.groups.any (fun g => g.any o.has) = true then [] else l)) (fun _ => True) := by
  obtain ⟨x, hx⟩ := doc_filled h .director .root
  unfold inform
  refine Adds.bind0 (Adds.read hd) (fun device hdev => ?_)
  have hnone : (if o.has "name-only" = true then device else none) = none := by
    split
    · rw [← hdev, hn ‹_›]
      rfl
    · rfl
  rw [hnone]
  simp only [Bool.false_eq_true, if_false]
  refine Adds.bind0 (Adds.read hd) (fun reg hreg => ?_)
  refine Adds.bind0 (Adds.readE hd hx) (fun found hf => ?_)
  subst hf
  rw [groups_text, List.append_assoc]
  refine Adds.bind (adds_credentials hd) (fun c hc => ?_)
  rw [hp]
  simp only [Bool.false_eq_true, if_false, Bool.false_or]
  rw [List.append_assoc]
  refine Adds.bind (Q := fun b => b = o.has "ecu-prv-key") (Adds.ite (fun he => ?_) (fun he => Adds.pure (by simpa using he))) (fun b hb => ?_)
  · refine Adds.bind0 (Adds.read hd) (fun v hv => ?_)
    subst hv
    exact Adds.last Adds.line (fun _ _ => Adds.pure he.symm)
  refine Adds.bind (adds_metadataOptions hd h hx) (fun m hm => ?_)
  subst hb hm
  rw [hc.1, hc.2.1, hc.2.2, ← any_groups, ← hdev, ← hreg]
  refine Adds.ite (fun _ => Adds.pure trivial) (fun hne => ?_)
  exact hg (Bool.eq_false_iff.2 hne) _ hx

theorem run_main (hop : a.opens 0 = true) (hw : o.has "wait-until-provisioned" = false) {l : List String}
    (h : Adds (inform a o false false "") l (fun _ => True)) (n : Nat) : ∃ t, main a o n {} = (.ok (), ⟨l, t⟩) := by
  obtain ⟨v, t, h1, -⟩ := h ⟨[], 1⟩
  refine ⟨t, ?_⟩
  unfold main
  rw [hw]
  have : openStorage a {} = (.ok (), ⟨[], 1⟩) := by
    unfold openStorage
    rw [if_pos hop]
  show (openStorage a >>= fun _ => inform a o false false "") {} = _
  rw [run_bind this, h1]
  simp

end Stable

/-- C79. A database that does not change: if options ask for something, exactly the answers to them are printed, in a fixed order
(`--name-only` and `--ecu-pub-key` aside, which end the program). -/
theorem C79_answers (a : Around) (d : Db) (o : Options) (attempts : Nat) (hd : ∀ t, a.db t = d) (hop : a.opens 0 = true)
    (hdocs : ∀ r ∈ d.metadata.rows, r.data ≠ "") (hw : o.has "wait-until-provisioned" = false)
    (hn : o.has "name-only" = true → d.device = none) (hp : o.has "ecu-pub-key" = false)
    (hasked : ∃ g ∈ Spec.groups, ∃ n ∈ g, o.has n = true) :
    ∃ answers t, (∀ g ∈ Spec.groups.zip answers, ∀ n ∈ g.1, Spec.Answer d n g.2) ∧ answers.length = Spec.groups.length ∧
      main a o attempts {} = (.ok (), ⟨(Spec.groups.zip answers).flatMap (fun g => if g.1.any o.has = true then g.2 else []), t⟩) := by
  have hany : Spec.groups.any (fun g => g.any o.has) = true := by
    obtain ⟨g, hg, n, hn, ho⟩ := hasked
    exact List.any_eq_true.2 ⟨g, hg, List.any_eq_true.2 ⟨n, hn, ho⟩⟩
  have := adds_inform (l := []) hd hdocs hn hp (fun hf => by rw [hany] at hf; cases hf)
  rw [if_pos hany, List.append_nil] at this
  obtain ⟨t, ht⟩ := run_main hop hw this attempts
  exact ⟨texts d, t, texts_answer hdocs, rfl, ht⟩

end Aktualizr.Info
