import Verif.Lemmas.FsMigrate
import Verif.Lemmas.Versions
import Verif.Props.C41
import Verif.Spec.Toy

/-!
# C66: upgrading from the old storage in files keeps the device what it was

The files of the old storage are copied into the database, then removed.
-/

namespace Aktualizr
namespace FsMig
open M

/-! ## What is in the files -/

/-- A file of metadata, as the row it corresponds to. -/
def OnDisk (f : Files) (r : MetaRow) : Prop :=
  ∃ d, (match r.repo with | .director => f.director | .image => f.image) = some d ∧
    match r.type with
    | .root => (r.version, r.data) ∈ d.roots ∧ d.roots.lookup r.version = some r.data
    | .snapshot => r.version = -1 ∧ d.snapshot = some r.data
    | .targets => r.version = -1 ∧ d.targets = some r.data
    | .timestamp => r.version = -1 ∧ d.timestamp = some r.data
    | _ => False

/-- The directory once an unversioned `root.json` has the version it claims in its name. -/
def settleDir (env : Env) (d : Dir) : Except Err Dir :=
  match d.plainRoot with
  | none => .ok d
  | some data => match extractVersionUntrusted env data with
    | .error e => .error e
    | .ok v => .ok (if 0 ≤ v then { d with plainRoot := none, roots := (v, data) :: d.roots.filter (fun r => r.1 != v) }
        else { d with plainRoot := none })

/-- The same for a directory that need not be there. -/
def settleOpt (env : Env) : Option Dir → Except Err (Option Dir)
  | none => .ok none
  | some d => match settleDir env d with
    | .ok d' => .ok (some d')
    | .error e => .error e

/-- The files once that has happened in both directories. -/
def Settled (env : Env) (f f' : Files) : Prop :=
  ∃ a b, settleOpt env f.director = .ok a ∧ settleOpt env f.image = .ok b ∧ f' = { f with director := a, image := b }

/-- The Roots of the Director, seen by the version the latest one claims (-1: there is none). -/
def claimed (env : Env) (f : Files) (n : Int) : Prop :=
  match f.director with
  | none => n = -1
  | some d => (∀ r ∈ d.roots, r.1 < 0) ∧ n = -1 ∨
      ∃ v data, d.roots.lookup v = some data ∧ 0 ≤ v ∧ (∀ r ∈ d.roots, r.1 ≤ v) ∧ extractVersionUntrusted env data = .ok n

/-- The database is a copy of the files. `l`: the list of ECUs, `ts`: the versions, `cur`: the index
of the current one, `n`: the version the latest Root of the Director claims. -/
structure Copy (env : Env) (hostname : String) (f : Files) (db : Db) : Prop where
  keys : ∀ a b, db.keys = some (a, b) ↔ f.pub = some a ∧ f.priv = some b
  ca : db.ca = f.ca
  cert : db.cert = f.cert
  pkey : db.pkey = f.pkey
  device : db.device = f.deviceId.map (fun i => (i, f.registered))
  ecus : ∃ l, loadEcuSerials hostname f = .ok l ∧
    db.vers.ecus = (match l with
      | none => []
      | some l => if (l.map Prod.fst).Nodup then
          (l.head?.toList.map (fun p => ⟨p.1, p.2, true⟩)) ++ l.tail.map (fun p => ⟨p.1, p.2, false⟩) else [])
  installed : ((loadInstalled env f).1.map (fun t => (t.filename, t.sha256Hash))).Nodup →
    db.vers.rows.map (fun r => (r.name, r.sha256, r.length, r.isCurrent)) =
      ((loadInstalled env f).1.zipIdx).map
        (fun p => (p.1.filename, p.1.sha256Hash, p.1.length, decide ((loadInstalled env f).2 = some p.2)))
  misconfigured : ((loadMisconfigured env f).map Prod.fst).Nodup → db.misconfigured = loadMisconfigured env f
  metas : ∃ n, claimed env f n ∧
    ∀ r, r ∈ db.metas.rows ↔ OnDisk f r ∧ (r.type = .root → 0 ≤ r.version ∧ r.version ≤ n)

/-! ## The tables after copying -/

theorem gChain_rows (f : Files) (repo : Repo) (n : Nat) (v : Int) (d : MetaDb) (r : MetaRow) :
    r ∈ (gChain f repo n v d).rows ↔
      (r.repo = repo ∧ r.type = .root ∧ v ≤ r.version ∧ r.version < v + n ∧ loadRoot f repo r.version = some r.data) ∨
      (r ∈ d.rows ∧ ¬ (r.repo = repo ∧ r.type = .root ∧ v ≤ r.version ∧ r.version < v + n ∧
        (loadRoot f repo r.version).isSome = true)) := by
  induction n generalizing v d with
  | zero =>
    unfold gChain
    constructor
    · intro h
      exact .inr ⟨h, by rintro ⟨_, _, _, _, _⟩; omega⟩
    · rintro (⟨_, _, _, _, _⟩ | ⟨h, _⟩)
      · omega
      · exact h
  | succ n ih =>
    unfold gChain
    rw [ih]
    cases hl : loadRoot f repo v with
    | none =>
      dsimp only
      constructor
      · rintro (⟨a, b, c, d', e⟩ | ⟨h, hn⟩)
        · exact .inl ⟨a, b, by omega, by omega, e⟩
        · refine .inr ⟨h, fun ⟨a, b, c, d', e⟩ => hn ⟨a, b, ?_, by omega, e⟩⟩
          by_cases hv : r.version = v
          · rw [hv, hl] at e; simp at e
          · omega
      · rintro (⟨a, b, c, d', e⟩ | ⟨h, hn⟩)
        · refine .inl ⟨a, b, ?_, by omega, e⟩
          by_cases hv : r.version = v
          · rw [hv, hl] at e; simp at e
          · omega
        · exact .inr ⟨h, fun ⟨a, b, c, d', e⟩ => hn ⟨a, b, by omega, by omega, e⟩⟩
    | some data =>
      have hmem : r ∈ (d.storeRoot data repo v).rows ↔ r = ⟨repo, .root, v, data⟩ ∨
          (r ∈ d.rows ∧ ¬ (r.repo = repo ∧ r.type = .root ∧ r.version = v)) := by
        unfold MetaDb.storeRoot
        simp only [List.mem_cons, List.mem_filter]
        simp
        grind
      dsimp only
      rw [hmem]
      constructor
      · rintro (⟨a, b, c, d', e⟩ | ⟨h | ⟨h, h'⟩, hn⟩)
        · exact .inl ⟨a, b, by omega, by omega, e⟩
        · subst h
          exact .inl ⟨rfl, rfl, by simp, by simp; omega, hl⟩
        · refine .inr ⟨h, fun ⟨a, b, c, d', e⟩ => ?_⟩
          by_cases hv : r.version = v
          · exact h' ⟨a, b, hv⟩
          · exact hn ⟨a, b, by omega, by omega, e⟩
      · rintro (⟨a, b, c, d', e⟩ | ⟨h, hn⟩)
        · by_cases hv : r.version = v
          · refine .inr ⟨.inl ?_, fun ⟨_, _, _, _, _⟩ => by omega⟩
            rw [hv, hl] at e
            obtain ⟨r1, r2, r3, r4⟩ := r
            simp at a b hv e ⊢
            exact ⟨a, b, hv, e.symm⟩
          · exact .inl ⟨a, b, by omega, by omega, e⟩
        · refine .inr ⟨.inr ⟨h, fun ⟨a, b, c⟩ => hn ⟨a, b, by omega, by omega, by rw [c, hl]; rfl⟩⟩, ?_⟩
          exact fun ⟨a, b, c, d', e⟩ => hn ⟨a, b, by omega, by omega, e⟩

theorem gNonRoot_rows (f : Files) (repo : Repo) (role : RoleKind) (d : MetaDb) (r : MetaRow) :
    r ∈ (gNonRoot f repo role d).rows ↔
      (r.repo = repo ∧ r.type = role ∧ r.version = -1 ∧ loadNonRoot f repo role = some r.data) ∨
      (r ∈ d.rows ∧ ¬ (r.repo = repo ∧ r.type = role ∧ (loadNonRoot f repo role).isSome = true)) := by
  unfold gNonRoot
  cases hl : loadNonRoot f repo role with
  | none => simp
  | some m =>
    obtain ⟨r1, r2, r3, r4⟩ := r
    simp [MetaDb.storeNonRoot]
    grind

theorem foldl_max (rs : List (Int × String)) (m : Int) :
    m ≤ rs.foldl (fun m r => if m < r.1 then r.1 else m) m ∧
      (∀ r ∈ rs, r.1 ≤ rs.foldl (fun m r => if m < r.1 then r.1 else m) m) ∧
      (rs.foldl (fun m r => if m < r.1 then r.1 else m) m = m ∨
        ∃ r ∈ rs, r.1 = rs.foldl (fun m r => if m < r.1 then r.1 else m) m) := by
  induction rs generalizing m with
  | nil => simp
  | cons a rs ih =>
    simp only [List.foldl_cons, List.mem_cons]
    by_cases hlt : m < a.1
    · simp only [hlt, if_true]
      obtain ⟨h1, h2, h3⟩ := ih a.1
      refine ⟨by omega, ?_, .inr ?_⟩
      · rintro r (rfl | hr)
        · exact h1
        · exact h2 r hr
      · rcases h3 with h3 | ⟨r, hr, h3⟩
        · exact ⟨a, .inl rfl, h3.symm⟩
        · exact ⟨r, .inr hr, h3⟩
    · simp only [hlt, if_false]
      obtain ⟨h1, h2, h3⟩ := ih m
      refine ⟨h1, ?_, ?_⟩
      · rintro r (rfl | hr)
        · omega
        · exact h2 r hr
      · rcases h3 with h3 | ⟨r, hr, h3⟩
        · exact .inl h3
        · exact .inr ⟨r, .inr hr, h3⟩

theorem lookup_isSome {rs : List (Int × String)} {v : Int} {r : Int × String} (h : r ∈ rs) (hv : r.1 = v) :
    ∃ data, rs.lookup v = some data := by
  induction rs with
  | nil => simp at h
  | cons a rs ih =>
    unfold List.lookup
    cases ha : v == a.1 with
    | true => exact ⟨_, rfl⟩
    | false =>
      rcases List.mem_cons.1 h with rfl | h
      · simp [hv] at ha
      · exact ih h

theorem lookup_mem {rs : List (Int × String)} {v : Int} {data : String} (h : rs.lookup v = some data) :
    (v, data) ∈ rs := by
  induction rs with
  | nil => simp at h
  | cons a rs ih =>
    unfold List.lookup at h
    cases ha : v == a.1 with
    | true =>
      rw [ha] at h
      simp at h ha
      subst h ha
      simp
    | false =>
      rw [ha] at h
      exact List.mem_cons_of_mem _ (ih h)

theorem loadRoot_nonneg {f : Files} {repo : Repo} {v : Int} (h : 0 ≤ v) :
    loadRoot f repo v = (f.dir repo).bind (fun d => d.roots.lookup v) := by
  unfold loadRoot
  simp only [show ¬ v < 0 by omega, if_false]

/-- The version up to which Roots are copied. -/
theorem claimed_turns {env : Env} {f : Files} (h : Readable env f) :
    ∃ n, claimed env f n ∧ turns env f = (n + 1).toNat := by
  unfold claimed turns
  unfold Readable at h
  unfold loadRoot latestRoot at h ⊢
  cases hd : f.director with
  | none => exact ⟨-1, rfl, by simp⟩
  | some d =>
    rw [hd] at h
    simp only at h ⊢
    obtain ⟨h1, h2, h3⟩ := foldl_max d.roots (-1)
    by_cases hm : maxVersion d.roots < 0
    · refine ⟨-1, .inl ⟨fun r hr => ?_, rfl⟩, by simp [hm]⟩
      have := h2 r hr
      unfold maxVersion at hm
      omega
    · have h4 : ∃ r ∈ d.roots, r.1 = maxVersion d.roots := by
        rcases h3 with h3 | h3
        · unfold maxVersion at hm; omega
        · exact h3
      obtain ⟨r, hr, hv⟩ := h4
      obtain ⟨data, hl⟩ := lookup_isSome hr hv
      obtain ⟨n, hn⟩ := h data (by
        simp [hm, Files.dir, hd, hl])
      refine ⟨n, .inr ⟨maxVersion d.roots, data, hl, by omega, h2, hn⟩, ?_⟩
      simp [hm, Files.dir, hd, hl, hn]

/-- The tables of metadata. -/
theorem metas_copy {env : Env} {f : Files} (h : Readable env f) :
    ∃ n, claimed env f n ∧
      ∀ r, r ∈ (gChain f .image (turns env f) 0 (gChain f .director (turns env f) 0 (gNonRoots f {}))).rows ↔
        OnDisk f r ∧ (r.type = .root → 0 ≤ r.version ∧ r.version ≤ n) := by
  obtain ⟨n, hn, ht⟩ := claimed_turns h
  refine ⟨n, hn, fun r => ?_⟩
  have hnr : r ∈ (gNonRoots f {}).rows ↔ r.type ≠ .root ∧ OnDisk f r := by
    unfold gNonRoots
    simp only [gNonRoot_rows, List.not_mem_nil, false_and, or_false]
    obtain ⟨repo, type, version, data⟩ := r
    unfold OnDisk loadNonRoot
    cases hdd : f.director <;> cases hii : f.image <;> cases repo <;> cases type <;>
      simp [Files.dir, hdd, hii] <;> grind
  rw [gChain_rows, gChain_rows, hnr, ht]
  obtain ⟨repo, type, version, data⟩ := r
  have hroot : ∀ repo', 0 ≤ version → (loadRoot f repo' version = some data ↔ OnDisk f ⟨repo', .root, version, data⟩) := by
    intro repo' hv
    rw [loadRoot_nonneg hv]
    unfold OnDisk
    cases repo' <;> simp only [Files.dir, Option.bind_eq_some_iff]
    all_goals exact ⟨fun ⟨d, h1, h2⟩ => ⟨d, h1, lookup_mem h2, h2⟩, fun ⟨d, h1, _, h2⟩ => ⟨d, h1, h2⟩⟩
  by_cases hty : type = .root
  · subst hty
    have h0 : ((n + 1).toNat : Int) = if 0 ≤ n + 1 then n + 1 else 0 := by split <;> omega
    constructor
    · rintro (⟨h1, _, h3, h4, h5⟩ | ⟨⟨h1, _, h3, h4, h5⟩ | ⟨⟨h1, _⟩, _⟩, _⟩)
      · simp only at h1 h3 h4 h5
        subst h1
        exact ⟨(hroot _ h3).1 h5, fun _ => ⟨h3, by simp only; omega⟩⟩
      · simp only at h1 h3 h4 h5
        subst h1
        exact ⟨(hroot _ h3).1 h5, fun _ => ⟨h3, by simp only; omega⟩⟩
      · exact absurd rfl h1
    · rintro ⟨h1, h2⟩
      obtain ⟨h3, h4⟩ := h2 rfl
      simp only at h3 h4
      have h5 := (hroot _ h3).2 h1
      cases repo with
      | director =>
        refine .inr ⟨.inl ⟨rfl, rfl, h3, by simp only; omega, h5⟩, fun ⟨h, _⟩ => by simp at h⟩
      | image => exact .inl ⟨rfl, rfl, h3, by simp only; omega, h5⟩
  · constructor
    · rintro (⟨_, h, _⟩ | ⟨⟨_, h, _⟩ | ⟨⟨_, h⟩, _⟩, _⟩)
      · exact absurd h hty
      · exact absurd h hty
      · exact ⟨h, fun h => absurd h hty⟩
    · rintro ⟨h, _⟩
      exact .inr ⟨.inr ⟨⟨hty, h⟩, fun ⟨_, h, _⟩ => hty h⟩, fun ⟨_, h, _⟩ => hty h⟩

/-- The rows of the versions. -/
theorem gInst_rows {env : Env} {current : Option Nat} (ts : List Target) (k : Nat) (d : VersionDb)
    (hnd : (ts.map (fun t => (t.filename, t.sha256Hash))).Nodup)
    (hold : ∀ r ∈ d.rows, r.isPending = false ∧ (∀ j, current = some j → k ≤ j → r.isCurrent = false) ∧
      ∀ t ∈ ts, (r.name, r.sha256) ≠ (t.filename, t.sha256Hash)) :
    (gInst env current k ts d).ecus = d.ecus ∧
      (gInst env current k ts d).rows.map (fun r => (r.name, r.sha256, r.length, r.isCurrent)) =
        d.rows.map (fun r => (r.name, r.sha256, r.length, r.isCurrent)) ++
          (ts.zipIdx k).map (fun p => (p.1.filename, p.1.sha256Hash, p.1.length, decide (current = some p.2))) := by
  induction ts generalizing k d with
  | nil => simp [gInst]
  | cons t ts ih =>
    unfold gInst
    have hno : VersionDb.oldRow d.rows (d.realSerial "") t = none := by
      unfold VersionDb.oldRow
      cases hl : VersionDb.lastRow d.rows (d.realSerial "") with
      | none => rfl
      | some r =>
        have hr : r ∈ d.rows := by
          unfold VersionDb.lastRow at hl
          exact (List.mem_filter.1 (List.mem_of_getLast? hl)).1
        have := (hold r hr).2.2 t (by simp)
        simp only
        rw [if_neg]
        rintro ⟨h1, h2⟩
        exact this (by rw [h1, h2])
    have hclear : VersionDb.clearFlags d.rows (d.realSerial "") (if current = some k then .current else .none) = d.rows := by
      by_cases hc : current = some k
      · rw [if_pos hc]
        unfold VersionDb.clearFlags
        conv => rhs; rw [← List.map_id d.rows]
        apply List.map_congr_left
        intro r hr
        have h1 := (hold r hr).1
        have h2 := (hold r hr).2.1 k hc (Nat.le_refl k)
        obtain ⟨a1, a2, a3, a4, a5, a6, a7, a8, a9, a10, a11⟩ := r
        simp at h1 h2
        subst h1 h2
        simp
      · rw [if_neg hc]
        rfl
    have hsave : d.saveInstalledVersion env "" t (if current = some k then .current else .none) =
        { d with rows := d.rows ++ [VersionDb.freshRow env (VersionDb.nextId d.rows) (d.realSerial "") t
          (if current = some k then .current else .none)] } := by
      unfold VersionDb.saveInstalledVersion
      simp only [hno, hclear]
    rw [hsave]
    have hnd2 : (ts.map (fun t => (t.filename, t.sha256Hash))).Nodup := by
      simp at hnd; exact hnd.2
    have := ih (k + 1) { d with rows := d.rows ++ [VersionDb.freshRow env (VersionDb.nextId d.rows) (d.realSerial "") t
          (if current = some k then .current else .none)] } hnd2 ?_
    · refine ⟨this.1, ?_⟩
      rw [this.2]
      by_cases hc : current = some k
      · simp [VersionDb.freshRow, hc]
      · simp [VersionDb.freshRow, hc]
    · intro r hr
      rcases List.mem_append.1 hr with hr | hr
      · obtain ⟨h1, h2, h3⟩ := hold r hr
        exact ⟨h1, fun j hj hk => h2 j hj (by omega), fun t' ht => h3 t' (by simp [ht])⟩
      · simp at hr
        subst hr
        refine ⟨?_, ?_, ?_⟩
        · unfold VersionDb.freshRow
          by_cases hc : current = some k <;> simp [hc]
        · intro j hj hk
          have : current ≠ some k := by rw [hj]; simp; omega
          simp [VersionDb.freshRow, this]
        · intro t' ht' he
          simp [VersionDb.freshRow] at he
          have := (List.nodup_cons.1 hnd).1
          apply this
          simp
          exact ⟨t', ht', he.1.symm, he.2.symm⟩

theorem gInst_ecus {env : Env} {current : Option Nat} (ts : List Target) (k : Nat) (d : VersionDb) :
    (gInst env current k ts d).ecus = d.ecus := by
  induction ts generalizing k d with
  | nil => rfl
  | cons t ts ih =>
    unfold gInst
    rw [ih, VersionDb.save_ecus]

/-- The two keys, if both files are there. -/
def keyPair (f : Files) : Option (String × String) := match f.pub, f.priv with
  | some a, some b => some (a, b)
  | _, _ => none

theorem gKeys_eq (f : Files) : gKeys f {} = { keys := keyPair f } := by
  unfold gKeys keyPair
  cases f.pub <;> cases f.priv <;> rfl

theorem gCa_eq (f : Files) (d : Db) (h : d.ca = none) : gCa f d = { d with ca := f.ca } := by
  unfold gCa
  cases f.ca with
  | none => cases d; simp at h; subst h; rfl
  | some c => rfl

theorem gCert_eq (f : Files) (d : Db) (h : d.cert = none) : gCert f d = { d with cert := f.cert } := by
  unfold gCert
  cases f.cert with
  | none => cases d; simp at h; subst h; rfl
  | some c => rfl

theorem gPkey_eq (f : Files) (d : Db) (h : d.pkey = none) : gPkey f d = { d with pkey := f.pkey } := by
  unfold gPkey
  cases f.pkey with
  | none => cases d; simp at h; subst h; rfl
  | some c => rfl

theorem gDevice_eq (f : Files) (d : Db) (h : d.device = none) :
    gDevice f d = { d with device := f.deviceId.map (fun i => (i, false)) } := by
  unfold gDevice
  cases f.deviceId with
  | none => cases d; simp at h; subst h; rfl
  | some c => rfl

/-- The table of ECUs. -/
def ecuTable : Option (List (String × String)) → VersionDb
  | none => {}
  | some l => VersionDb.storeEcuSerials {} l

theorem gSerials_eq {hostname : String} {f : Files} {l : Option (List (String × String))}
    (hl : loadEcuSerials hostname f = .ok l) (d : Db) (h : d.vers = {}) :
    gSerials hostname f d = { d with vers := ecuTable l } := by
  unfold gSerials
  rw [hl]
  cases l with
  | none => cases d; simp at h; subst h; rfl
  | some l => cases d; simp at h; subst h; rfl

theorem gRegistered_eq (f : Files) (d : Db) (h : d.device = f.deviceId.map (fun i => (i, false))) :
    gRegistered f d = { d with device := f.deviceId.map (fun i => (i, f.registered)) } := by
  unfold gRegistered
  cases hr : f.registered with
  | true =>
    simp [h]
    cases f.deviceId <;> rfl
  | false =>
    simp [← h]

/-- Everything but the metadata and the versions. -/
theorem first_part {env : Env} {hostname : String} {f : Files} {l : Option (List (String × String))}
    (hl : loadEcuSerials hostname f = .ok l) :
    gMisconfigured (loadMisconfigured env f)
      (gRegistered f (gSerials hostname f (gDevice f (gPkey f (gCert f (gCa f (gKeys f {}))))))) =
    { keys := keyPair f, ca := f.ca, cert := f.cert, pkey := f.pkey,
      device := f.deviceId.map (fun i => (i, f.registered)),
      misconfigured := (loadMisconfigured env f).foldl (fun t e => putMisconfigured e t) [],
      vers := ecuTable l, metas := {} } := by
  rw [gKeys_eq, gCa_eq _ _ rfl, gCert_eq _ _ rfl, gPkey_eq _ _ rfl, gDevice_eq _ _ rfl, gSerials_eq hl _ rfl,
    gRegistered_eq _ _ rfl]
  rfl

/-- Everything. -/
theorem gAll_eq {env : Env} {hostname : String} {f : Files} {l : Option (List (String × String))}
    (hl : loadEcuSerials hostname f = .ok l) :
    gAll env hostname f {} =
    { keys := keyPair f, ca := f.ca, cert := f.cert, pkey := f.pkey,
      device := f.deviceId.map (fun i => (i, f.registered)),
      misconfigured := (loadMisconfigured env f).foldl (fun t e => putMisconfigured e t) [],
      vers := gInst env (loadInstalled env f).2 0 (loadInstalled env f).1 (ecuTable l),
      metas := gChain f .image (turns env f) 0 (gChain f .director (turns env f) 0 (gNonRoots f {})) } := by
  unfold gAll
  simp only [first_part hl]

theorem ecuTable_rows (l : Option (List (String × String))) : (ecuTable l).rows = [] := by
  cases l with
  | none => rfl
  | some l =>
    cases l with
    | nil => rfl
    | cons p r => simp only [ecuTable, VersionDb.storeEcuSerials]; split <;> rfl

theorem foldl_put (l acc : List (String × String × Int)) (h : ((acc ++ l).map Prod.fst).Nodup) :
    l.foldl (fun t e => putMisconfigured e t) acc = acc ++ l := by
  induction l generalizing acc with
  | nil => simp
  | cons e r ih =>
    have h1 : putMisconfigured e acc = acc ++ [e] := by
      unfold putMisconfigured
      congr 1
      apply List.filter_eq_self.2
      intro x hx
      simp
      intro he
      simp [List.nodup_append] at h
      exact h.2.2 x.1 x.2.1 x.2.2 hx |>.1 he
    rw [List.foldl_cons, h1, ih]
    · simp
    · simpa using h

/-- The copying part makes a copy. -/
theorem gAll_copy {env : Env} {hostname : String} {f : Files} (hl : ∃ l, loadEcuSerials hostname f = .ok l)
    (hr : Readable env f) : Copy env hostname f (gAll env hostname f {}) := by
  obtain ⟨l, hl⟩ := hl
  rw [gAll_eq hl]
  refine ⟨?_, rfl, rfl, rfl, rfl, ⟨l, hl, ?_⟩, ?_, ?_, metas_copy hr⟩
  · intro a b
    unfold keyPair
    cases f.pub <;> cases f.priv <;> simp
  · dsimp only
    rw [gInst_ecus]
    cases l with
    | none => rfl
    | some l =>
      cases l with
      | nil => simp [VersionDb.storeEcuSerials, ecuTable]
      | cons p r =>
        simp only [VersionDb.storeEcuSerials, ecuTable]
        split <;> simp [VersionDb.secondaryRows]
  · intro hnd
    have := (gInst_rows (env := env) (current := (loadInstalled env f).2) (loadInstalled env f).1 0 (ecuTable l) hnd
      (by rw [ecuTable_rows]; simp)).2
    rw [ecuTable_rows] at this
    simpa using this
  · intro hnd
    have := foldl_put (loadMisconfigured env f) [] (by simpa using hnd)
    simpa using this

/-! ## The whole start -/

theorem renameRoot_run (env : Env) (repo : Repo) (s : St) :
    (renameRoot env repo s).2.db = s.db ∧ (renameRoot env repo s).2.present = s.present ∧
      ((renameRoot env repo s).1 = .ok () → ∃ a, settleOpt env (s.files.dir repo) = .ok a ∧
        (renameRoot env repo s).2.files = s.files.setDir repo a) ∧
      ((∃ a, settleOpt env (s.files.dir repo) = .ok a) → 2 ≤ s.fuel →
        (renameRoot env repo s).1 = .ok () ∧ s.fuel ≤ (renameRoot env repo s).2.fuel + 2) ∧
      ((renameRoot env repo s).2.files = s.files ∨
        (∃ a, settleOpt env (s.files.dir repo) = .ok a ∧ (renameRoot env repo s).2.files = s.files.setDir repo a) ∨
        ∃ d, s.files.dir repo = some d ∧ (renameRoot env repo s).2.files = s.files.setDir repo (some { d with plainRoot := none })) := by
  have hself : ∀ f : Files, f.setDir repo (f.dir repo) = f := by intro f; cases repo <;> rfl
  have htwice : ∀ (f : Files) a b, (f.setDir repo a).setDir repo b = f.setDir repo b := by intro f a b; cases repo <;> rfl
  unfold renameRoot
  rw [fs_bind]
  simp only [gets]
  cases hd : s.files.dir repo with
  | none =>
    have := hself s.files
    rw [hd] at this
    exact ⟨rfl, rfl, fun _ => ⟨none, rfl, this.symm⟩, fun _ _ => ⟨rfl, by simp [M.pure_eq]⟩, .inl rfl⟩
  | some d =>
    dsimp only
    cases hp : d.plainRoot with
    | none =>
      have := hself s.files
      rw [hd] at this
      refine ⟨rfl, rfl, fun _ => ⟨some d, by simp [settleOpt, settleDir, hp], this.symm⟩,
        fun _ _ => ⟨rfl, by simp [M.pure_eq]⟩, .inl rfl⟩
    | some data =>
      dsimp only
      rw [fs_bind]
      cases hv : extractVersionUntrusted env data with
      | error e =>
        have hse : settleOpt env (some d) = .error e := by simp [settleOpt, settleDir, hp, hv]
        simp [M.lift, hse]
      | ok v =>
        simp only [M.lift]
        by_cases h0 : 0 ≤ v
        · have hse : settleOpt env (some d) = .ok (some ({ d with plainRoot := none }.putRoot v data)) := by
            simp [settleOpt, settleDir, hp, hv, h0, Dir.putRoot]
          simp only [if_pos h0]
          rw [fs_bind]
          unfold change step
          cases hf : s.fuel with
          | zero => simp
          | succ k =>
            cases k with
            | zero => simp
            | succ k => simp [htwice, hse]
        · have hse : settleOpt env (some d) = .ok (some { d with plainRoot := none }) := by
            simp [settleOpt, settleDir, hp, hv, h0]
          simp only [if_neg h0]
          rw [fs_bind]
          unfold change step
          cases hf : s.fuel with
          | zero => simp
          | succ k => simp [hse, M.pure_eq]

/-- The files of the old storage are still there, but for what the change of the name of an old
`root.json` does: its place may be taken by another name, or it may be lost. -/
def Kept (env : Env) (f f' : Files) : Prop :=
  f' = { f with director := f'.director, image := f'.image } ∧
    ∀ repo, f'.dir repo = f.dir repo ∨ settleOpt env (f.dir repo) = .ok (f'.dir repo) ∨
      ∃ d, f.dir repo = some d ∧ f'.dir repo = some { d with plainRoot := none }

theorem fsStorageRead_run (env : Env) (s : St) :
    (fsStorageRead env s).2.db = s.db ∧ (fsStorageRead env s).2.present = s.present ∧
      ((fsStorageRead env s).1 = .ok () → Settled env s.files (fsStorageRead env s).2.files) ∧
      ((∃ f, Settled env s.files f) → 4 ≤ s.fuel →
        (fsStorageRead env s).1 = .ok () ∧ s.fuel ≤ (fsStorageRead env s).2.fuel + 4) ∧
      Kept env s.files (fsStorageRead env s).2.files := by
  unfold fsStorageRead
  obtain ⟨a1, a2, a3, a4, a5⟩ := renameRoot_run env .director s
  rcases fs_bind_cases (renameRoot env .director) (fun _ => renameRoot env .image) s with ⟨e, s1, h, h'⟩ | ⟨s1, h, h'⟩
  · rw [h] at a1 a2 a3 a4 a5
    rw [h']
    refine ⟨a1, a2, fun h => by simp at h, ?_, ?_⟩
    · rintro ⟨f, a, b, ha, hb, _⟩ hn
      have := (a4 ⟨a, ha⟩ (by omega)).1
      simp at this
    · dsimp only at a5 ⊢
      rcases a5 with h5 | ⟨a, ha, h5⟩ | ⟨d, hd, h5⟩
      · rw [h5]; exact ⟨rfl, fun _ => .inl rfl⟩
      · rw [h5]
        refine ⟨rfl, fun repo => ?_⟩
        cases repo with
        | director => exact .inr (.inl ha)
        | image => exact .inl rfl
      · rw [h5]
        refine ⟨rfl, fun repo => ?_⟩
        cases repo with
        | director => exact .inr (.inr ⟨d, hd, rfl⟩)
        | image => exact .inl rfl
  · rw [h] at a1 a2 a3 a4 a5
    rw [h']
    obtain ⟨a, ha, hfa⟩ := a3 rfl
    dsimp only at a1 a2 a4 hfa
    obtain ⟨b1, b2, b3, b4, b5⟩ := renameRoot_run env .image s1
    have hi : s1.files.dir .image = s.files.dir .image := by rw [hfa]; rfl
    refine ⟨b1.trans a1, b2.trans a2, ?_, ?_, ?_⟩
    · intro hok
      obtain ⟨b, hb, hfb⟩ := b3 hok
      rw [hi] at hb
      exact ⟨a, b, ha, hb, by rw [hfb, hfa]; rfl⟩
    · rintro ⟨f, a', b', ha', hb', _⟩ hn
      have h1 := (a4 ⟨a, ha⟩ (by omega)).2
      have h2 := b4 ⟨b', by rw [hi]; exact hb'⟩ (by omega)
      exact ⟨h2.1, by omega⟩
    · rcases b5 with h5 | ⟨b, hb, h5⟩ | ⟨d, hd, h5⟩
      · rw [h5, hfa]
        refine ⟨rfl, fun repo => ?_⟩
        cases repo with
        | director => exact .inr (.inl ha)
        | image => exact .inl rfl
      · rw [h5, hfa]
        rw [hi] at hb
        refine ⟨rfl, fun repo => ?_⟩
        cases repo with
        | director => exact .inr (.inl ha)
        | image => exact .inr (.inl hb)
      · rw [h5, hfa]
        rw [hi] at hd
        refine ⟨rfl, fun repo => ?_⟩
        cases repo with
        | director => exact .inr (.inl ha)
        | image => exact .inr (.inr ⟨d, hd, rfl⟩)

/-- The condition for getting through. -/
def Proper (env : Env) (hostname : String) (f : Files) : Prop :=
  (∃ l, loadEcuSerials hostname f = .ok l) ∧ (f.registered = true → f.deviceId.isSome = true) ∧ Readable env f

theorem migrate_run (env : Env) (hostname : String) (s : St) (h0 : s.db = {}) :
    (migrate env hostname s).2.present = s.present ∧
      ((migrate env hostname s).1 = .ok () → Proper env hostname s.files ∧
        Copy env hostname s.files (migrate env hostname s).2.db ∧ (migrate env hostname s).2.files = {}) ∧
      (Proper env hostname s.files → copySteps env s.files + 15 ≤ s.fuel → (migrate env hostname s).1 = .ok ()) ∧
      ((migrate env hostname s).2.files = s.files ∨ Copy env hostname s.files (migrate env hostname s).2.db) := by
  have hc := copyAll_spec env hostname s.files
  have hdev : (s.files.registered = true → (gDevice s.files s.db).device.isSome = true) ↔
      (s.files.registered = true → s.files.deviceId.isSome = true) := by
    rw [h0, gDevice_eq _ _ rfl]
    simp
  unfold migrate
  rw [fs_bind]
  simp only [gets]
  rcases fs_bind_cases (copyAll env hostname s.files) (fun _ => removeAll (cleanUp ++ cleanMeta)) s with
    ⟨e, s1, h, h'⟩ | ⟨s1, h, h'⟩
  · rw [h']
    have h1 := hc.files s
    have h2 := hc.present s
    rw [h] at h1 h2
    refine ⟨h2, by simp, ?_, .inl h1⟩
    intro ⟨p1, p2, p3⟩ hn
    have := hc.goes s ⟨p1, hdev.2 p2, p3⟩ (by omega)
    rw [h] at this
    simp at this
  · rw [h']
    have h1 := hc.files s
    have h2 := hc.present s
    have h3 := hc.db s (by rw [h])
    obtain ⟨p1, p2, p3⟩ := hc.needs s (by rw [h])
    rw [h] at h1 h2 h3
    rw [h0] at h3
    dsimp only at h1 h2 h3
    obtain ⟨r1, r2, r3, r4⟩ := removeAll_run (cleanUp ++ cleanMeta) s1
    have hcopy : Copy env hostname s.files (removeAll (cleanUp ++ cleanMeta) s1).2.db := by
      rw [r1, h3]
      exact gAll_copy p1 p3
    refine ⟨r2.trans h2, fun hok => ⟨⟨p1, hdev.1 p2, p3⟩, hcopy, ?_⟩, ?_, .inr hcopy⟩
    · rw [r3 hok]
      rfl
    · intro ⟨q1, q2, q3⟩ hn
      have h4 := (hc.goes s ⟨q1, hdev.2 q2, q3⟩ (by omega)).2
      rw [h] at h4
      dsimp only at h4
      apply r4
      simp [cleanUp, cleanMeta]
      omega

/-- The parts of a start that finds the old files and no database. -/
theorem newStorage_run (env : Env) (hostname : String) (s : St) (hp : s.present = false)
    (hr : s.files.registered = true) (h0 : s.db = {}) (r : Except Err Unit × St)
    (hrun : newStorage env hostname false s = r) :
    (r.2.present = true ∨ r = (.error .crash, s)) ∧
      (r.1 = .ok () → ∃ f1, Settled env s.files f1 ∧ Proper env hostname f1 ∧ Copy env hostname f1 r.2.db ∧
        r.2.files = {} ∧ r.2.present = true) ∧
      (∀ f1, Settled env s.files f1 → Proper env hostname f1 → copySteps env f1 + 20 ≤ s.fuel → r.1 = .ok ()) ∧
      (Kept env s.files r.2.files ∨ ∃ f1, Settled env s.files f1 ∧ Copy env hostname f1 r.2.db) := by
  have hkept : Kept env s.files s.files := ⟨rfl, fun _ => .inl rfl⟩
  subst hrun
  unfold newStorage
  rw [fs_bind]
  simp only [gets, id, hp, hr]
  simp only [Bool.false_eq_true, if_false, if_true]
  have e1 : (do
      throwWhen false (.std "Migration from FS is not possible because the SQL database is configured to be readonly")
      step (fun s => { s with present := true })
      fsStorageRead env
      migrate env hostname : F Unit) s = (do
      step (fun s => { s with present := true })
      fsStorageRead env
      migrate env hostname : F Unit) s := rfl
  rw [e1]
  cases hf : s.fuel with
  | zero =>
    have : (do
      step (fun s => { s with present := true })
      fsStorageRead env
      migrate env hostname : F Unit) s = (.error .crash, s) := by
      rw [run_bind_err (e := .crash) (w1 := s)]
      unfold step
      rw [hf]
    rw [this]
    exact ⟨.inr rfl, by simp, fun _ _ _ h => by omega, .inl hkept⟩
  | succ k =>
    have hstep : step (fun s => { s with present := true }) s = (.ok (), { s with present := true, fuel := k }) := by
      unfold step
      rw [hf]
    rw [run_bind hstep]
    obtain ⟨a1, a2, a3, a4, a5⟩ := fsStorageRead_run env { s with present := true, fuel := k }
    rcases fs_bind_cases (fsStorageRead env) (fun _ => migrate env hostname) { s with present := true, fuel := k } with
      ⟨e, s1, h, h'⟩ | ⟨s1, h, h'⟩
    · rw [h'] 
      rw [h] at a1 a2 a3 a4 a5
      refine ⟨.inl a2, by simp, ?_, .inl a5⟩
      intro f1 hs _ hn
      have := (a4 ⟨f1, hs⟩ (by dsimp only; omega)).1
      simp at this
    · rw [h']
      rw [h] at a1 a2 a3 a4 a5
      have hs := a3 rfl
      dsimp only at a1 a2 a4 a5 hs
      obtain ⟨b1, b2, b3, b4⟩ := migrate_run env hostname s1 (a1.trans h0)
      refine ⟨.inl (b1.trans a2), ?_, ?_, ?_⟩
      · intro hok
        obtain ⟨c1, c2, c3⟩ := b2 hok
        exact ⟨_, hs, c1, c2, c3, b1.trans a2⟩
      · intro f1 hs' hpr hn
        have hff : f1 = s1.files := by
          obtain ⟨a, b, ha, hb, he⟩ := hs
          obtain ⟨a', b', ha', hb', he'⟩ := hs'
          rw [ha] at ha'
          rw [hb] at hb'
          simp at ha' hb'
          subst ha' hb'
          rw [he, he']
        subst hff
        have := (a4 ⟨_, hs⟩ (by omega)).2
        exact b3 hpr (by omega)
      · rcases b4 with b4 | b4
        · left; rw [b4]; exact a5
        · exact .inr ⟨_, hs, b4⟩

theorem step_present (s : St) : (step (fun s => { s with present := true }) s).2.files = s.files ∧
    (step (fun s => { s with present := true }) s).2.db = s.db := by
  unfold step
  cases s.fuel <;> exact ⟨rfl, rfl⟩

/-! ## The property -/

/-- A migration that comes to its end leaves in the database a copy of what was in the files — keys,
credentials, the identifier of the device and that it is registered, the ECUs, the installed versions
and which of them is the current one, and the metadata (of Roots: up to the version the Director's
latest claims) — and removes the files. -/
theorem C66_keeps_partial (env : Env) (hostname : String) (readonly : Bool) (s s' : St) (hp : s.present = false)
    (hr : s.files.registered = true) (h0 : s.db = {}) (h : newStorage env hostname readonly s = (.ok (), s')) :
    ∃ f1, Settled env s.files f1 ∧ Copy env hostname f1 s'.db ∧ s'.files = {} ∧ s'.present = true := by
  cases readonly with
  | true =>
    unfold newStorage at h
    rw [fs_bind] at h
    simp [gets, hp, hr, throwWhen, fs_bind] at h
  | false =>
    obtain ⟨_, h2, _⟩ := newStorage_run env hostname s hp hr h0 _ h
    obtain ⟨f1, a, _, b, c, d⟩ := h2 rfl
    exact ⟨f1, a, b, c, d⟩

/-- Wherever the process dies and whatever is thrown: either the old files are still there (a
`root.json` without a version in its name excepted), or the database has a copy of them. -/
theorem C66_nothing_lost_partial (env : Env) (hostname : String) (readonly : Bool) (s : St) (hp : s.present = false)
    (h0 : s.db = {}) :
    Kept env s.files (newStorage env hostname readonly s).2.files ∨
      ∃ f1, Settled env s.files f1 ∧ Copy env hostname f1 (newStorage env hostname readonly s).2.db := by
  have hkept : Kept env s.files s.files := ⟨rfl, fun _ => .inl rfl⟩
  by_cases hr : s.files.registered = true
  · cases readonly with
    | true =>
      left
      unfold newStorage
      rw [fs_bind]
      simp [gets, hp, hr, throwWhen, fs_bind]
      exact hkept
    | false => exact (newStorage_run env hostname s hp hr h0 _ rfl).2.2.2
  · left
    unfold newStorage
    rw [fs_bind]
    simp only [gets, id, hp, hr]
    cases readonly with
    | true => exact hkept
    | false =>
      show Kept env s.files (step (fun s => { s with present := true }) s).2.files
      rw [(step_present s).1]
      exact hkept

/-- Files that can be read are migrated, if the process lives long enough: the serials and hardware
identifiers have admissible lengths, there is an identifier of the device, and no Root throws when
its version is looked for. -/
theorem C66_starts (env : Env) (hostname : String) (s : St) (f1 : Files) (hp : s.present = false)
    (hr : s.files.registered = true) (h0 : s.db = {}) (hs : Settled env s.files f1) (hl : ∃ l, loadEcuSerials hostname f1 = .ok l)
    (hd : f1.deviceId.isSome = true) (hread : Readable env f1) (hf : copySteps env f1 + 20 ≤ s.fuel) :
    (newStorage env hostname false s).1 = .ok () :=
  (newStorage_run env hostname s hp hr h0 _ rfl).2.2.1 f1 hs ⟨hl, fun _ => hd, hread⟩ hf

/-- Once the file of the database exists, the old files are neither read nor removed; and a database
that is only read is never filled. -/
theorem C66_once (env : Env) (hostname : String) (readonly : Bool) (s : St) :
    (s.present = true → newStorage env hostname readonly s = (.ok (), s)) ∧
      (s.present = false → (newStorage env hostname true s).2 = s ∧ (newStorage env hostname true s).1 ≠ .ok ()) ∧
      (s.files.registered = false → (newStorage env hostname readonly s).2.files = s.files ∧
        (newStorage env hostname readonly s).2.db = s.db) := by
  refine ⟨?_, ?_, ?_⟩
  · intro h
    unfold newStorage
    rw [fs_bind]
    simp [gets, h, M.pure_eq]
  · intro h
    unfold newStorage
    rw [fs_bind]
    by_cases hr : s.files.registered = true
    · simp [gets, h, hr, throwWhen, fs_bind]
    · simp [gets, h, hr, throwWhen, fs_bind]
  · intro h
    unfold newStorage
    rw [fs_bind]
    by_cases hp : s.present = true
    · simp [gets, hp, M.pure_eq]
    · cases readonly with
      | true => simp [gets, hp, h, throwWhen, fs_bind]
      | false =>
        simp only [gets, id, hp, h]
        exact step_present s

/-! ### The metadata -/

/-- If no Root is beyond what the Director's latest Root claims to be, every file of metadata is in
the database and nothing else. -/
theorem C66_metadata_partial {env : Env} {hostname : String} {f : Files} {db : Db} (h : Copy env hostname f db) (n : Int)
    (hn : claimed env f n) (hall : ∀ d v data, (f.director = some d ∨ f.image = some d) → (v, data) ∈ d.roots → 0 ≤ v ∧ v ≤ n)
    (r : MetaRow) : r ∈ db.metas.rows ↔ OnDisk f r := by
  obtain ⟨n', hn', hrows⟩ := h.metas
  have hnn : n' = n := by
    unfold claimed at hn hn'
    cases hd : f.director with
    | none => rw [hd] at hn hn'; simp at hn hn'; omega
    | some d =>
      rw [hd] at hn hn'
      simp only at hn hn'
      rcases hn with ⟨a, b⟩ | ⟨v, data, l1, l2, l3, l4⟩
      · rcases hn' with ⟨a', b'⟩ | ⟨v', data', l1', l2', l3', l4'⟩
        · omega
        · have := a _ (lookup_mem l1'); simp at this; omega
      · rcases hn' with ⟨a', b'⟩ | ⟨v', data', l1', l2', l3', l4'⟩
        · have := a' _ (lookup_mem l1); simp at this; omega
        · have h1 := l3 _ (lookup_mem l1')
          have h2 := l3' _ (lookup_mem l1)
          simp at h1 h2
          have : v = v' := by omega
          subst this
          rw [l1] at l1'
          simp at l1'
          subst l1'
          rw [l4] at l4'
          simp at l4'
          exact l4'.symm
  rw [hrows, hnn]
  refine ⟨fun h => h.1, fun h => ⟨h, fun ht => ?_⟩⟩
  obtain ⟨repo, type, version, data⟩ := r
  simp only at ht
  subst ht
  obtain ⟨d, hd, hm, _⟩ := h
  simp only at hd hm ⊢
  refine hall d version data ?_ hm
  cases repo with
  | director => exact .inl hd
  | image => exact .inr hd

/-! ### The list of ECUs -/

/-- The line of one ECU in `secondaries_list`. -/
def ecuLine (p : String × String) : List Char := p.1.toList ++ '\t' :: (p.2.toList ++ ['\n'])

theorem getlines_line (acc l rest : List Char) (h : '\n' ∉ l) :
    getlines acc (l ++ '\n' :: rest) = (acc.reverse ++ l) :: getlines [] rest := by
  induction l generalizing acc with
  | nil => simp [getlines]
  | cons c r ih =>
    simp at h
    have hc : ¬ c = '\n' := fun e => h.1 e.symm
    simp only [List.cons_append, getlines, hc, if_false]
    rw [ih _ h.2]
    simp

theorem splitTab_line (a b : List Char) (h : '\t' ∉ a) : splitTab (a ++ '\t' :: b) = (String.ofList a, String.ofList b) := by
  unfold splitTab
  have h0 : ∀ c ∈ a, (c != '\t') = true := by
    intro c hc
    simp
    rintro rfl
    exact h hc
  rw [List.takeWhile_append_of_pos h0, List.dropWhile_append_of_pos h0]
  simp

theorem readSecondaries_lines (ps : List (String × String)) (h : ∀ p ∈ ps, '\t' ∉ p.1.toList ∧ '\n' ∉ p.1.toList ∧
    '\n' ∉ p.2.toList ∧ 0 < p.1.utf8ByteSize ∧ p.1.utf8ByteSize ≤ 64 ∧ p.2.utf8ByteSize ≤ 200) :
    readSecondaries (getlines [] (ps.flatMap ecuLine)) = .ok ps := by
  induction ps with
  | nil => rfl
  | cons p r ih =>
    obtain ⟨h1, h2, h3, h4, h5, h6⟩ := h p (by simp)
    have e : (p :: r).flatMap ecuLine = (p.1.toList ++ '\t' :: p.2.toList) ++ '\n' :: r.flatMap ecuLine := by
      simp [ecuLine]
    rw [e, getlines_line [] _ _ (by simp [h2, h3])]
    simp only [List.reverse_nil, List.nil_append, readSecondaries, splitTab_line _ _ h1, String.ofList_toList]
    have hs : mkEcuSerial p.1 = .ok p.1 := by
      unfold mkEcuSerial
      rw [if_neg (by omega), if_neg (by omega)]
    have hh : mkHwId p.2 = .ok p.2 := by
      unfold mkHwId
      rw [if_neg (by omega)]
    rw [hs, hh, ih (fun p hp => h p (by simp [hp]))]
    rfl

/-- The ECUs are those of the files, the Primary first: its serial and hardware identifier (the name
of the host, if there is no file for it) and the lines `serial<TAB>hardware identifier` of the list. -/
theorem C66_ecus {env : Env} {hostname : String} {f : Files} {db : Db} (h : Copy env hostname f db) (serial : String)
    (hw : Option String) (ps : List (String × String)) (hs : f.serial = some serial) (hh : f.hwId = hw)
    (hl : f.secondaries = some (String.ofList (ps.flatMap ecuLine)) ∨ (f.secondaries = none ∧ ps = []))
    (hok : ∀ p ∈ ps, '\t' ∉ p.1.toList ∧ '\n' ∉ p.1.toList ∧ '\n' ∉ p.2.toList)
    (hlen : ∀ p ∈ (serial, hw.getD hostname) :: ps, 0 < p.1.utf8ByteSize ∧ p.1.utf8ByteSize ≤ 64 ∧ p.2.utf8ByteSize ≤ 200)
    (hnd : (serial :: ps.map Prod.fst).Nodup) :
    db.vers.ecus = ⟨serial, hw.getD hostname, true⟩ :: ps.map (fun p => ⟨p.1, p.2, false⟩) ∧
      db.vers.loadEcuSerials = .ok (some ((serial, hw.getD hostname) :: ps)) := by
  have hser : ∀ p ∈ (serial, hw.getD hostname) :: ps, mkEcuSerial p.1 = .ok p.1 ∧ mkHwId p.2 = .ok p.2 := by
    intro p hp
    obtain ⟨h1, h2, h3⟩ := hlen p hp
    unfold mkEcuSerial mkHwId
    rw [if_neg (by omega), if_neg (by omega), if_neg (by omega)]
    exact ⟨rfl, rfl⟩
  have hload : loadEcuSerials hostname f = .ok (some ((serial, hw.getD hostname) :: ps)) := by
    unfold loadEcuSerials
    rw [hs, hh]
    obtain ⟨a1, a2⟩ := hser _ (List.mem_cons_self ..)
    simp only at a1 a2 ⊢
    rw [a1, a2]
    rcases hl with hl | ⟨hl, rfl⟩
    · rw [hl]
      simp only [exc_bind_of_ok, String.toList_ofList]
      rw [readSecondaries_lines ps (fun p hp => ⟨(hok p hp).1, (hok p hp).2.1, (hok p hp).2.2,
        hlen p (List.mem_cons_of_mem _ hp)⟩)]
      rfl
    · rw [hl]
      rfl
  obtain ⟨l, hl', hec⟩ := h.ecus
  rw [hload] at hl'
  simp at hl'
  subst hl'
  simp only [List.map_cons] at hec
  rw [if_pos hnd] at hec
  simp at hec
  refine ⟨hec, ?_⟩
  unfold VersionDb.loadEcuSerials
  rw [hec]
  have hloop : ∀ (qs : List (String × String)) (b : Bool), (∀ p ∈ qs, mkEcuSerial p.1 = .ok p.1 ∧ mkHwId p.2 = .ok p.2) →
      VersionDb.loadSerialsLoop (qs.map (fun p => ⟨p.1, p.2, b⟩)) = .ok qs := by
    intro qs b hq
    induction qs with
    | nil => rfl
    | cons q r ih =>
      obtain ⟨a1, a2⟩ := hq q (by simp)
      simp only [List.map_cons, VersionDb.loadSerialsLoop]
      rw [a1, a2, ih (fun p hp => hq p (by simp [hp]))]
      rfl
  obtain ⟨a1, a2⟩ := hser _ (List.mem_cons_self ..)
  simp only at a1 a2
  simp only [VersionDb.loadSerialsLoop]
  rw [a1, a2, hloop ps false (fun p hp => hser p (by simp [hp]))]
  rfl

/-! ### The installed versions -/

/-- An entry of `installed_versions` in the newer format. -/
structure Ver where
  name : String
  sha256 : String
  length : Nat
  current : Bool

/-- Its member in the object. -/
def Ver.member (v : Ver) : String × Json :=
  (v.name, .obj [("hashes", .obj [("sha256", .str v.sha256)]), ("length", .int v.length), ("is_current", .bool v.current)])

/-- The target it describes. -/
def Ver.target (v : Ver) : Target :=
  { filename := v.name, length := v.length, hashes := [Hash.ofStrings "sha256" v.sha256] }

theorem readInstalled_new (vs : List Ver) (k : Nat) (cur : Option Nat) (h : ∀ v ∈ vs, v.length < 2 ^ 63) :
    readInstalled k cur (vs.map Ver.member) =
      .ok (vs.map Ver.target, (vs.zipIdx k).foldl (fun c p => if p.1.current then some p.2 else c) cur) := by
  induction vs generalizing k cur with
  | nil => rfl
  | cons v vs ih =>
    have hv := h v (by simp)
    have ht : Target.ofJson v.name (v.member).2 = .ok v.target := by
      have hu : (Json.int v.length).asUInt64 = .ok (v.length : Int) := by
        simp only [Json.asUInt64, Json.asIntIn]
        rw [if_pos]
        constructor <;> omega
      simp only [Ver.member]
      unfold Target.ofJson
      simp [Json.isMember, Json.get, List.lookup, hu, Json.entries, parseHashes, Json.asString]
      rfl
    have hb : ((v.member).2.get "is_current" >>= fun j => j.asBool) = .ok v.current := by
      simp [Ver.member, Json.get, List.lookup, Json.asBool]
    have ho : (v.member).2.isObject = true := rfl
    have he : v.member = (v.name, (v.member).2) := rfl
    rw [List.map_cons, he]
    simp only [readInstalled, ho, if_true]
    have hb' : ∀ {β : Type} (g : Bool → Except Err β), ((v.member).2.get "is_current" >>= fun j => j.asBool >>= g) = g v.current := by
      intro β g
      rw [← exc_bind_of_ok (f := g) (a := v.current), ← hb]
      rfl
    rw [hb', ht, exc_bind_of_ok, ih (k + 1) _ (fun v hv => h v (by simp [hv])), exc_bind_of_ok]
    simp only [List.zipIdx_cons, List.foldl_cons, List.map_cons]
    rfl

/-- The index of the current one. -/
def curIdx (vs : List Ver) (k : Nat) (c : Option Nat) : Option Nat :=
  (vs.zipIdx k).foldl (fun c p => if p.1.current then some p.2 else c) c

theorem curIdx_none (vs : List Ver) (k : Nat) (c : Option Nat) (h : ∀ v ∈ vs, v.current = false) : curIdx vs k c = c := by
  induction vs generalizing k with
  | nil => rfl
  | cons v vs ih =>
    have hv := h v (by simp)
    simp only [curIdx, List.zipIdx_cons, List.foldl_cons, hv, if_false, Bool.false_eq_true]
    exact ih (k + 1) (fun v hv => h v (by simp [hv]))

theorem curIdx_range (vs : List Ver) (k : Nat) (c : Option Nat) : curIdx vs k c = c ∨ ∃ j, k ≤ j ∧ curIdx vs k c = some j := by
  induction vs generalizing k c with
  | nil => exact .inl rfl
  | cons v vs ih =>
    simp only [curIdx, List.zipIdx_cons, List.foldl_cons]
    rcases ih (k + 1) (if v.current then some k else c) with h | ⟨j, h1, h2⟩
    · unfold curIdx at h
      rw [h]
      cases v.current
      · exact .inl rfl
      · exact .inr ⟨k, Nat.le_refl k, rfl⟩
    · exact .inr ⟨j, by omega, h2⟩

theorem curIdx_flags (vs : List Ver) (k : Nat) (c : Option Nat) (h1 : (vs.filter (·.current)).length ≤ 1)
    (hc : c = none ∨ (∃ j, j < k ∧ c = some j) ∧ ∀ v ∈ vs, v.current = false) :
    (vs.zipIdx k).map (fun p => decide (curIdx vs k c = some p.2)) = vs.map (·.current) := by
  induction vs generalizing k c with
  | nil => rfl
  | cons v vs ih =>
    have hstep : curIdx (v :: vs) k c = curIdx vs (k + 1) (if v.current then some k else c) := rfl
    simp only [List.zipIdx_cons, List.map_cons]
    cases hv : v.current with
    | true =>
      rw [hv] at hstep
      have hnone : ∀ w ∈ vs, w.current = false := by
        simp [hv] at h1
        exact h1
      have hk : curIdx (v :: vs) k c = some k := by rw [hstep, curIdx_none _ _ _ hnone]; rfl
      have := ih (k + 1) (some k) (by simp [List.filter_eq_nil_iff.2 (by simpa using hnone)]) (.inr ⟨⟨k, by omega, rfl⟩, hnone⟩)
      rw [curIdx_none _ _ _ hnone] at this
      rw [hk, this]
      simp
    | false =>
      rw [hv] at hstep
      simp at hstep
      rw [hstep, ih (k + 1) c (by simpa [hv] using h1) (by
        rcases hc with h | ⟨⟨j, hj, h⟩, h'⟩
        · exact .inl h
        · exact .inr ⟨⟨j, by omega, h⟩, fun w hw => h' w (by simp [hw])⟩)]
      congr 1
      simp
      rcases curIdx_range vs (k + 1) c with h | ⟨j, hj, h⟩
      · rw [h]
        rcases hc with h | ⟨⟨j, hj, h⟩, _⟩
        · rw [h]; simp
        · rw [h]; simp; omega
      · rw [h]; simp; omega

/-- The installed versions are those of the file, in its order (hashes in lower case), and the current
one is the one marked there. -/
theorem C66_versions {env : Env} {hostname : String} {f : Files} {db : Db} (h : Copy env hostname f db) (text : String)
    (vs : List Ver) (ht : f.installed = some text) (hj : env.parseJson text = .obj (vs.map Ver.member))
    (hnd : (vs.map (·.name)).Nodup) (hlen : ∀ v ∈ vs, v.length < 2 ^ 63) (hone : (vs.filter (·.current)).length ≤ 1) :
    db.vers.rows.map (fun r => (r.name, r.sha256, r.length, r.isCurrent)) =
      vs.map (fun v => (v.name, lower (upper v.sha256), v.length, v.current)) := by
  have hload : loadInstalled env f = (vs.map Ver.target, curIdx vs 0 none) := by
    unfold loadInstalled
    rw [ht]
    simp only [hj, Json.entries]
    rw [readInstalled_new vs 0 none hlen]
    rfl
  have hsha : ∀ v : Ver, v.target.sha256Hash = lower (upper v.sha256) := by
    intro v
    simp [Target.sha256Hash, Target.hashString, Ver.target, Hash.ofStrings]
  have := h.installed (by
    rw [hload]
    simp only [List.map_map]
    exact List.pairwise_map.2 ((List.pairwise_map.1 hnd).imp (fun h e => h (Prod.mk.inj e).1)))
  rw [this, hload]
  simp only
  have hfl := curIdx_flags vs 0 none hone (.inl rfl)
  have : ∀ (ws : List Ver) (k : Nat) (c : Option Nat), (ws.zipIdx k).map (fun p => decide (c = some p.2)) = ws.map (·.current) →
      ((ws.map Ver.target).zipIdx k).map (fun p => (p.1.filename, p.1.sha256Hash, p.1.length, decide (c = some p.2))) =
        ws.map (fun v => (v.name, lower (upper v.sha256), v.length, v.current)) := by
    intro ws
    induction ws with
    | nil => intros; rfl
    | cons w ws ih =>
      intro k c hc
      simp only [List.zipIdx_cons, List.map_cons, List.cons.injEq] at hc ⊢
      exact ⟨by rw [hc.1, hsha]; rfl, ih (k + 1) c hc.2⟩
  exact this vs 0 _ hfl

/-! ### The device is the same for the server -/

/-- The tables of the database that provisioning looks at. -/
def Db.provisioning (db : Db) : Prov.Store where
  device := db.device
  ca := db.ca
  cert := db.cert
  pkey := db.pkey
  keys := db.keys
  ecus := db.vers.ecus.map (fun e => (e.serial, e.hwid))
  misconfigured := db.misconfigured.map (fun e => (e.1, e.2.1))

/-- A device that had everything in its files and whose list of ECUs has not changed makes no request
at all when it initialises itself after the migration, wherever that is interrupted; identifier, keys and
ECUs stay what they were. -/
theorem C66_same_device {σ : Type} {penv : Prov.Env} {server : Prov.Server σ} {env : Env} {hostname : String} {f : Files}
    {db : Db} (h : Copy env hostname f db) (x : Prov.Start) (srv : σ) (id pub priv ca cert pkey : String)
    (l : List (String × String))
    (hid : f.deviceId = some id) (hpub : f.pub = some pub) (hpriv : f.priv = some priv)
    (hca : f.ca = some ca) (hcert : f.cert = some cert) (hpkey : f.pkey = some pkey)
    (hne : ca ≠ "" ∧ cert ≠ "" ∧ pkey ≠ "") (hfiles : Prov.NonEmpty x.files)
    (hl : loadEcuSerials hostname f = .ok (some l)) (hnd : (l.map Prod.fst).Nodup)
    (hcfg : ∀ e, e ∈ l ↔ e ∈ Prov.configured penv x.cfg x.secondaries pub) :
    (Prov.run penv server x db.provisioning srv).2.log = [] ∧
      (∃ r, (Prov.run penv server x db.provisioning srv).2.store.device = some (id, r)) ∧
      (Prov.run penv server x db.provisioning srv).2.store.keys = some (pub, priv) ∧
      (Prov.run penv server x db.provisioning srv).2.store.ecus = l := by
  have hkeys : db.provisioning.keys = some (pub, priv) := (h.keys pub priv).2 ⟨hpub, hpriv⟩
  have hok : Prov.isOk db.provisioning = true := by
    rw [Prov.isOk_iff]
    refine ⟨⟨ca, ?_, hne.1⟩, ⟨cert, ?_, hne.2.1⟩, ⟨pkey, ?_, hne.2.2⟩⟩
    · exact h.ca.trans hca
    · exact h.cert.trans hcert
    · exact h.pkey.trans hpkey
  have hdev : db.provisioning.device = some (id, f.registered) := by
    show db.device = _
    rw [h.device, hid]
    rfl
  have hecus : db.provisioning.ecus = l := by
    obtain ⟨l', hl', hec⟩ := h.ecus
    rw [hl] at hl'
    simp at hl'
    subst hl'
    show db.vers.ecus.map _ = _
    rw [hec]
    simp only
    rw [if_pos hnd]
    cases l with
    | nil => rfl
    | cons p r => simp [Function.comp_def]
  have hl0 : l ≠ [] := by
    intro e
    have := (hcfg _).2 (List.mem_cons_self ..)
    rw [e] at this
    simp at this
  obtain ⟨e1, e2⟩ := Prov.C41_same_config (env := penv) (server := server) x db.provisioning srv (pub, priv) hkeys
    (by rw [hecus]; exact hl0) (by rw [hecus]; exact hcfg)
  obtain ⟨t1, n, hi, htr⟩ := Prov.run_tr (env := penv) (server := server) x db.provisioning srv
  obtain ⟨_, _, _, h4, h5⟩ := Prov.tr_isOk htr (hi.isOk hfiles hok) (by simp)
  have hk := Prov.C41_keys (env := penv) (server := server) [x] db.provisioning srv (pub, priv) hkeys
  refine ⟨?_, h4 id f.registered ?_, hk, e1.trans hecus⟩
  · apply List.eq_nil_iff_forall_not_mem.2
    rintro ⟨c, q, r⟩ hm
    cases q with
    | device d =>
      have := h5 c d r hm
      simp at this
    | ecus p m => exact e2 c p m r hm
  · show t1.device = _
    rw [hi.rest]
    exact hdev

/-! ## A case, and what goes wrong -/

namespace Case

/-- A Root of a certain version, as text and as JSON. -/
def root (n : Nat) : String × Json := ("root" ++ toString n, .obj [("signed", .obj [("version", .int n)])])

/-- The newer format of the installed versions. -/
def versions : List Ver := [⟨"old", "aa", 10, false⟩, ⟨"new", "bb", 20, true⟩]

def env : Env := Toy.env
  [root 1, root 2, root 3, ("{versions}", .obj (versions.map Ver.member)),
   ("{mis}", .arr [.obj [("serial", .str "gone"), ("hardware_id", .str "hw"), ("state", .int 1)]])]

/-- A device with one Secondary, two Roots of the Director and three of the Image repository, the
last without a version in its name. -/
def files : Files where
  pub := some "pub"
  priv := some "priv"
  ca := some "ca"
  cert := some "cert"
  pkey := some "key"
  deviceId := some "blue-fox"
  registered := true
  serial := some "prim"
  hwId := some "board"
  secondaries := some "sec\tmcu\n"
  misconfigured := some "{mis}"
  installed := some "{versions}"
  director := some { roots := [(1, "root1"), (2, "root2")], targets := some "dtargets" }
  image := some { plainRoot := some "root2", roots := [(1, "root1")], snapshot := some "isnapshot",
                  targets := some "itargets", timestamp := some "itimestamp" }

/-- OpenSSL and the random generator, for provisioning. -/
def penv : Prov.Env where
  cn := fun c => if c = "" then none else some c
  keyId := fun k => k
  rsaType := fun _ => .rsa2048
  newKey := fun _ => some ("pub2", "priv2")
  newName := fun _ => "red-fox"
  p12 := fun b => some ("ca", b, "key")

def disk (n : Nat) : St := { files := files, fuel := n }

/-- The files after the change of the name. -/
def files1 : Files := { files with
  image := some { roots := [(2, "root2"), (1, "root1")], snapshot := some "isnapshot",
                  targets := some "itargets", timestamp := some "itimestamp" } }

/-- The migration of the case gets through, -/
def after : St := (newStorage env "host" false (disk 100)).2

theorem done_ok : newStorage env "host" false (disk 100) = (.ok (), after) := by
  have : (newStorage env "host" false (disk 100)).1 = .ok () := by decide +kernel
  unfold after
  rw [← this]

/-- and every theorem about copies applies to it. -/
theorem copied : Copy env "host" files1 after.db := by
  obtain ⟨f1, ⟨a, b, ha, hb, hf⟩, hc, _⟩ := C66_keeps_partial env "host" false (disk 100) after rfl rfl rfl done_ok
  have ha' : settleOpt env (disk 100).files.director = .ok files1.director := by decide +kernel
  have hb' : settleOpt env (disk 100).files.image = .ok files1.image := by decide +kernel
  rw [ha'] at ha
  rw [hb'] at hb
  simp only [Except.ok.injEq] at ha hb
  subst ha hb
  subst hf
  exact hc

example : after.db.keys = some ("pub", "priv") ∧ after.db.device = some ("blue-fox", true) ∧ after.files = {} := by
  decide +kernel

example : after.db.vers.ecus = [⟨"prim", "board", true⟩, ⟨"sec", "mcu", false⟩] :=
  (C66_ecus copied "prim" (some "board") [("sec", "mcu")] rfl rfl (.inl (by decide +kernel)) (by decide +kernel)
    (by decide +kernel) (by decide +kernel)).1

example : after.db.vers.rows.map (fun r => (r.name, r.sha256, r.length, r.isCurrent)) =
    [("old", lower (upper "aa"), 10, false), ("new", lower (upper "bb"), 20, true)] :=
  C66_versions copied "{versions}" versions rfl (by rfl) (by decide +kernel) (by decide +kernel) (by decide +kernel)

example : ⟨.image, .root, 2, "root2"⟩ ∈ after.db.metas.rows := by
  refine (C66_metadata_partial copied 2 ?_ ?_ _).2 ?_
  · exact .inr ⟨2, "root2", rfl, by decide, by decide, by decide +kernel⟩
  · rintro d v data (h | h) hm <;> (simp [files1, files] at h; subst h; simp at hm; omega)
  · exact ⟨_, rfl, by decide, by decide⟩

example : (Prov.run penv (fun (s : Unit) _ _ => (.ok "", s))
      { cfg := { primarySerial := "prim", primaryHwId := "board" }, files := {}, fuel := 100, seed := 0,
        secondaries := [("sec", ⟨"mcu", "IP", ⟨"k", .ed25519⟩⟩)] } after.db.provisioning ()).2.log = [] :=
  (C66_same_device copied _ _ "blue-fox" "pub" "priv" "ca" "cert" "key" [("prim", "board"), ("sec", "mcu")] rfl rfl rfl
    rfl rfl rfl (by decide) (by unfold Prov.NonEmpty; decide) (by decide +kernel) (by decide) (by
      intro e
      simp [Prov.configured])).1

example : (newStorage env "host" false (disk 60)).1 = .ok () := by
  refine C66_starts env "host" (disk 60) files1 rfl rfl rfl ?_ ⟨some [("prim", "board"), ("sec", "mcu")], by decide +kernel⟩
    rfl ?_ (by decide +kernel)
  · exact ⟨files1.director, files1.image, by decide +kernel, by decide +kernel, rfl⟩
  · intro latest hl
    have : loadRoot files1 .director (-1) = some "root2" := by decide +kernel
    rw [this] at hl
    simp at hl
    subst hl
    exact ⟨2, by decide +kernel⟩

/-- Not so if the power fails: the database is there, the files are there, and the next start uses
the database as it is. A device killed right at the beginning has no identity left, -/
theorem C66_interrupted_is_forgotten :
    (newStorage env "host" false (disk 1)).1 = .error .crash ∧
    newStorage env "host" false { (newStorage env "host" false (disk 1)).2 with fuel := 100 } =
      (.ok (), { files := files, present := true, db := {}, fuel := 100 }) := by
  decide +kernel

/-- and registers itself as a new one. -/
theorem C66_interrupted_registers_again :
    ((Prov.run penv (fun (s : Unit) _ _ => (.ok "cert2", s))
      { cfg := { primarySerial := "", primaryHwId := "board" }, files := {}, fuel := 100, seed := 0, secondaries := [] }
      (newStorage env "host" false (disk 1)).2.db.provisioning ()).2.log.map (fun e => e.2.1)) =
      [.device "red-fox", .ecus "pub2" [⟨"pub2", "board", ⟨"pub2", .rsa2048⟩⟩]] := by
  decide +kernel

/-- An empty line in the list of Secondaries, or a missing file with the identifier, has the same
effect without any power failure: the exception leaves the database half filled. -/
theorem C66_refused_is_forgotten :
    (newStorage env "host" false { files := { files with secondaries := some "sec\tmcu\n\n" }, fuel := 100 }).1 =
      .error (.std "ECU serial identifier is too short") ∧
    (newStorage env "host" false { files := { files with secondaries := some "sec\tmcu\n\n" }, fuel := 100 }).2.present = true ∧
    (newStorage env "host" false { files := { files with secondaries := some "sec\tmcu\n\n" }, fuel := 100 }).2.db.device =
      some ("blue-fox", false) ∧
    (newStorage env "host" false { files := { files with deviceId := none }, fuel := 100 }).1 =
      .error (.std "Failed to set ECU registered because device info is empty.") ∧
    (newStorage env "host" false { files := { files with deviceId := none }, fuel := 100 }).2.present = true := by
  decide +kernel

/-- The files with a third Root of the Image repository. -/
def ahead : Files := { files with
  image := some { roots := [(1, "root1"), (2, "root2"), (3, "root3")] } }

/-- The Roots of the Image repository are copied only up to the version of the Director's latest one;
newer ones are removed with the files. -/
theorem C66_image_root_lost :
    (newStorage env "host" false { files := ahead, fuel := 100 }).1 = .ok () ∧
    OnDisk ahead ⟨.image, .root, 3, "root3"⟩ ∧
    ((newStorage env "host" false { files := ahead, fuel := 100 }).2.db.metas.latestOf .image .root).map (·.version) = some 2 ∧
    (newStorage env "host" false { files := ahead, fuel := 100 }).2.files = {} := by
  refine ⟨by decide +kernel, ⟨_, rfl, ?_⟩, by decide +kernel, by decide +kernel⟩
  decide

/-- Without a Root of the Director none of the Image repository is copied. -/
theorem C66_no_director_root :
    (newStorage env "host" false { files := { ahead with director := none }, fuel := 100 }).1 = .ok () ∧
    (newStorage env "host" false { files := { ahead with director := none }, fuel := 100 }).2.db.metas.rows = [] := by
  decide +kernel

/-- A `root.json` without a version is removed before it is written under its new name. -/
theorem C66_root_lost_on_the_way :
    (newStorage env "host" false (disk 2)).1 = .error .crash ∧
    (newStorage env "host" false (disk 2)).2.files.image.map (fun d => (d.plainRoot, d.roots)) = some (none, [(1, "root1")]) ∧
    (newStorage env "host" false (disk 2)).2.db = {} := by
  decide +kernel

/-- An ECU listed twice: no ECU is stored, and the files are removed all the same. -/
theorem C66_twice_listed :
    (newStorage env "host" false { files := { files with secondaries := some "prim\tmcu\n" }, fuel := 100 }).1 = .ok () ∧
    (newStorage env "host" false { files := { files with secondaries := some "prim\tmcu\n" }, fuel := 100 }).2.db.vers.ecus = [] ∧
    (newStorage env "host" false { files := { files with secondaries := some "prim\tmcu\n" }, fuel := 100 }).2.files = {} := by
  decide +kernel

/-- If one of the two Uptane keys is missing the other one is removed without being copied. -/
theorem C66_half_a_key :
    (newStorage env "host" false { files := { files with priv := none }, fuel := 100 }).1 = .ok () ∧
    (newStorage env "host" false { files := { files with priv := none }, fuel := 100 }).2.db.keys = none ∧
    (newStorage env "host" false { files := { files with priv := none }, fuel := 100 }).2.files.pub = none := by
  decide +kernel

/-- A result of an installation that has not been reported yet is removed without being read. -/
theorem C66_result_dropped :
    newStorage env "host" false { files := { files with result := some "failed" }, fuel := 100 } = (.ok (), after) := by
  decide +kernel

end Case

/-- The ECUs known to be misconfigured are those of the file: serial, hardware, state. -/
theorem C66_misconfigured {env : Env} {hostname : String} {f : Files} {db : Db} (h : Copy env hostname f db) (text : String)
    (l : List (String × String × Int)) (ht : f.misconfigured = some text)
    (hj : (env.parseJson text).elems = l.map (fun e => .obj [("hardware_id", .str e.2.1), ("serial", .str e.1), ("state", .int e.2.2)]))
    (hlen : ∀ e ∈ l, 0 < e.1.utf8ByteSize ∧ e.1.utf8ByteSize ≤ 64 ∧ e.2.1.utf8ByteSize ≤ 200 ∧ -2147483648 ≤ e.2.2 ∧ e.2.2 ≤ 2147483647)
    (hnd : (l.map Prod.fst).Nodup) : db.misconfigured = l := by
  have key : ∀ l : List (String × String × Int), (∀ e ∈ l, 0 < e.1.utf8ByteSize ∧ e.1.utf8ByteSize ≤ 64 ∧ e.2.1.utf8ByteSize ≤ 200 ∧ -2147483648 ≤ e.2.2 ∧ e.2.2 ≤ 2147483647) →
      readMisconfigured (l.map (fun e => .obj [("hardware_id", .str e.2.1), ("serial", .str e.1), ("state", .int e.2.2)])) = .ok l := by
    intro l
    induction l with
    | nil => intro _; rfl
    | cons e l ih =>
      intro h
      obtain ⟨a1, a2, a3, a4, a5⟩ := h e (by simp)
      have h1 : mkEcuSerial e.1 = .ok e.1 := by unfold mkEcuSerial; rw [if_neg (by omega), if_neg (by omega)]
      have h2 : mkHwId e.2.1 = .ok e.2.1 := by unfold mkHwId; rw [if_neg (by omega)]
      have h3 : (Json.int e.2.2).asInt = .ok e.2.2 := by
        simp [Json.asInt, Json.asIntIn, a4, a5]
      unfold readMisconfigured
      refine exc_bind_ok.2 ⟨.str e.1, rfl, exc_bind_ok.2 ⟨e.1, rfl, exc_bind_ok.2 ⟨e.1, h1, exc_bind_ok.2 ⟨.str e.2.1, rfl,
        exc_bind_ok.2 ⟨e.2.1, rfl, exc_bind_ok.2 ⟨e.2.1, h2, exc_bind_ok.2 ⟨.int e.2.2, rfl, exc_bind_ok.2 ⟨e.2.2, h3,
        exc_bind_ok.2 ⟨l, ih (fun x hx => h x (by simp [hx])), rfl⟩⟩⟩⟩⟩⟩⟩⟩⟩
  have hl : loadMisconfigured env f = l := by
    unfold loadMisconfigured
    rw [ht]
    simp only [hj, key l hlen]
  rw [h.misconfigured (by rw [hl]; exact hnd), hl]

end FsMig
end Aktualizr
