import Verif.Lemmas.GenJson
import Verif.Spec.Metadata

/-! # Lemmas on the generator: what is in the directory -/

namespace Aktualizr.Gen

open Spec

/-! ### Files -/

theorem lookup_write_same {d : Dir} {p : Path} {s : String} : (d.write p s).files.lookup p = some s := by
  simp [Dir.write]

theorem lookup_filter_ne {p q : Path} (h : q ≠ p) : ∀ (l : List (Path × String)), (l.filter (fun f => f.1 ≠ p)).lookup q = l.lookup q
  | [] => rfl
  | a :: l => by
    rw [List.filter_cons]
    by_cases ha : a.1 = p
    · rw [if_neg (by simp [ha]), lookup_filter_ne h l, List.lookup_cons]
      rw [beq_false_of_ne (by rw [ha]; exact h)]
    · rw [if_pos (by simp [ha]), List.lookup_cons, List.lookup_cons, lookup_filter_ne h l]

theorem lookup_write_other {d : Dir} {p q : Path} {s : String} (h : q ≠ p) : (d.write p s).files.lookup q = d.files.lookup q := by
  show List.lookup q ((p, s) :: _) = _
  rw [List.lookup_cons, beq_false_of_ne h]
  exact lookup_filter_ne h _

theorem lookup_remove_same {d : Dir} {p : Path} : (d.remove p).files.lookup p = none := by
  unfold Dir.remove
  rw [List.lookup_eq_none_iff]
  intro f hf
  have := (List.mem_filter.1 hf).2
  simp only [ne_eq, decide_not, Bool.not_eq_eq_eq_not, Bool.not_true, decide_eq_false_iff_not] at this
  simp
  exact fun hh => this hh.symm

theorem lookup_remove_other {d : Dir} {p q : Path} (h : q ≠ p) : (d.remove p).files.lookup q = d.files.lookup q := lookup_filter_ne h _

/-! ### What the tool relies on -/

/-- What is written can be read back, and is not empty. -/
structure Sound (g : GenEnv) : Prop where
  reads : ∀ j, Canonical j → g.env.parseJson (g.env.canon j) = j
  nonempty : ∀ j, g.env.canon j ≠ ""

/-- Signatures made with the private key are valid under the public key. -/
def Works (g : GenEnv) (kp : KeyPair) : Prop := ∀ n msg, ValidUnder g.env kp.pub (g.sign n kp.pub kp.priv msg) msg

/-- A working pair whose public part survives being written into metadata. -/
structure GoodKey (g : GenEnv) (kp : KeyPair) : Prop where
  works : Works g kp
  back : PublicKey.ofJson g.env (toUptane kp.pub) = kp.pub

theorem Works.known {g : GenEnv} {kp : KeyPair} (h : Works g kp) : kp.pub.type ≠ .unknown := by
  intro hu
  rcases h 0 "" with ⟨h1, _⟩ | ⟨h1, _⟩
  · rw [hu] at h1; cases h1
  · rw [hu] at h1; simp at h1

/-- The signed document. -/
def docOf (g : GenEnv) (n : Nat) (kp : KeyPair) (m : String) (j : Json) : Json :=
  .obj [("signatures", .arr [.obj [("keyid", .str (g.keyId kp.pub)), ("method", .str m), ("sig", .str (g.sign n kp.pub kp.priv (g.env.canon j)))]]),
    ("signed", j)]

/-- `text` is `j` signed with the key of `role`. -/
def Wrote (g : GenEnv) (keys : List (String × KeyPair)) (role : String) (j : Json) (text : String) : Prop :=
  Canonical j ∧ ∃ n kp m, keys.lookup role = some kp ∧ method kp.pub.type = .ok m ∧ text = g.env.canon (docOf g n kp m j)

theorem docOf_canonical {g : GenEnv} {n : Nat} {kp : KeyPair} {m : String} {j : Json} (h : Canonical j) : Canonical (docOf g n kp m j) := by
  have o3 : Canonical (.obj [("keyid", .str (g.keyId kp.pub)), ("method", .str m), ("sig", .str (g.sign n kp.pub kp.priv (g.env.canon j)))]) := by
    refine .obj (by simp; decide) ?_
    intro kv hkv
    simp at hkv
    rcases hkv with rfl | rfl | rfl <;> exact .str _
  refine .obj (by simp; decide) ?_
  intro kv hkv
  simp at hkv
  rcases hkv with rfl | rfl
  · exact .arr (by simpa using o3)
  · exact h

theorem Wrote.parse {g : GenEnv} (hg : Sound g) {keys : List (String × KeyPair)} {role text : String} {j : Json} (h : Wrote g keys role j text) :
    ∃ n kp m, keys.lookup role = some kp ∧ method kp.pub.type = .ok m ∧ g.env.parseJson text = docOf g n kp m j := by
  obtain ⟨hc, n, kp, m, h1, h2, rfl⟩ := h
  exact ⟨n, kp, m, h1, h2, hg.reads _ (docOf_canonical hc)⟩

theorem docOf_signed (g : GenEnv) (n : Nat) (kp : KeyPair) (m : String) (j : Json) : (docOf g n kp m j).get "signed" = .ok j := by
  simp [docOf, Json.get, List.lookup_cons]

theorem Wrote.signed {g : GenEnv} (hg : Sound g) {keys : List (String × KeyPair)} {role text : String} {j : Json} (h : Wrote g keys role j text) :
    (g.env.parseJson text).get "signed" = .ok j := by
  obtain ⟨n, kp, m, _, _, h3⟩ := h.parse hg
  rw [h3]
  exact docOf_signed ..

theorem Wrote.canon_parse {g : GenEnv} (hg : Sound g) {keys : List (String × KeyPair)} {role text : String} {j : Json} (h : Wrote g keys role j text) :
    g.env.canon (g.env.parseJson text) = text := by
  obtain ⟨hc, n, kp, m, h1, h2, rfl⟩ := h
  rw [hg.reads _ (docOf_canonical hc)]

theorem Wrote.keys {g : GenEnv} {keys keys' : List (String × KeyPair)} {role text : String} {j : Json} (h : Wrote g keys role j text)
    (hk : keys'.lookup role = keys.lookup role) : Wrote g keys' role j text := by
  obtain ⟨hc, n, kp, m, h1, h2⟩ := h
  exact ⟨hc, n, kp, m, hk.trans h1, h2⟩

theorem Dir.signed_of {g : GenEnv} (hg : Sound g) {d : Dir} {p : Path} {keys : List (String × KeyPair)} {role text : String} {j : Json}
    (hf : d.files.lookup p = some text) (h : Wrote g keys role j text) : d.signed g p = .ok j := by
  unfold Dir.signed Dir.json
  rw [hf]
  exact h.signed hg

/-- What writing a signed document does. -/
theorem writeSigned_ok {g : GenEnv} {d d' : Dir} {p : Path} {role text : String} {j : Json} (h : writeSigned g d p role j = .ok (d', text))
    (hj : Canonical j) : Wrote g d.keys role j text ∧ d'.keys = d.keys ∧ d'.files.lookup p = some text ∧
      (∀ q, q ≠ p → d'.files.lookup q = d.files.lookup q) := by
  unfold writeSigned signTuf at h
  obtain ⟨⟨doc, d1⟩, h1, h⟩ := exc_bind_ok.1 h
  cases h
  obtain ⟨m, hm, h1⟩ := exc_bind_ok.1 h1
  cases h1
  refine ⟨⟨hj, d.made, _, m, ?_, hm, rfl⟩, rfl, lookup_write_same, fun q hq => lookup_write_other hq⟩
  cases hl : d.keys.lookup role with
  | none => rw [hl] at hm; cases hm
  | some kp => rfl

/-! ### Content -/

/-- A text the client takes for a time. -/
def IsTime (e : String) : Prop := ∃ t, TimeStamp.parse e = some t

/-- The delegations part of a Targets role. -/
structure DelegationsOk (dl : Json) : Prop where
  obj : ∃ kvs, dl = .obj kvs
  keys : ∃ ks, dl.get "keys" = .ok ks ∧ (ks = .null ∨ ∃ l, ks = .obj l) ∧ ∀ kv ∈ ks.entries, ∃ k : PublicKey, kv.2 = toUptane k ∧ k.type ≠ .unknown
  roles : ∃ rs, dl.get "roles" = .ok rs ∧ (rs = .null ∨ ∃ l, rs = .arr l) ∧ ∀ r ∈ rs.elems, ∃ kid name path term,
    r = .obj [("keyids", .arr [.str kid]), ("name", .str name), ("paths", .arr [.str path]), ("terminating", .bool term), ("threshold", .int 1)] ∧
    Role.isReserved (lower name) = false

/-- The content of a Targets role as the client can read it. -/
structure TargetsBody (j : Json) (v : Int) (e : String) : Prop where
  canonical : Canonical j
  type : j.get "_type" = .ok (.str "Targets")
  version : j.get "version" = .ok (.int v)
  range : 0 ≤ v ∧ v ≤ 4294967295
  expires : j.get "expires" = .ok (.str e)
  time : IsTime e
  targets : ∃ ts, j.get "targets" = .ok ts ∧ (ts = .null ∨ ∃ l, ts = .obj l) ∧ ∀ kv ∈ ts.entries, ∃ x, Target.ofJson kv.1 kv.2 = .ok x
  delegations : ∃ dl, j.get "delegations" = .ok dl ∧ (dl = .null ∨ DelegationsOk dl)
  custom : ∃ c, j.get "custom" = .ok c ∧ (c = .null ∨ ∃ l cid s, c = .obj l ∧ c.get "correlationId" = .ok cid ∧ cid.asString = .ok s)

/-- The Root with key table `tab` and the keys `keys`. -/
def rootWith (g : GenEnv) (tab : List (String × Json)) (keys : List (String × KeyPair)) (v : Int) (e : String) : Json :=
  .obj [("_type", .str "Root"), ("expires", .str e), ("keys", .obj tab),
    ("roles", .obj [("root", roleEntry g { keys := keys } "root"), ("snapshot", roleEntry g { keys := keys } "snapshot"),
      ("targets", roleEntry g { keys := keys } "targets"), ("timestamp", roleEntry g { keys := keys } "timestamp")]),
    ("version", .int v)]

/-- The Snapshot. -/
def snapshotWith (e : String) (m : List (String × Json)) (v : Int) : Json :=
  .obj [("_type", .str "Snapshot"), ("expires", .str e), ("meta", .obj m), ("version", .int v)]

/-- The Timestamp. -/
def timestampWith (e : String) (a b l w : Json) (v : Int) : Json :=
  .obj [("_type", .str "Timestamp"), ("expires", .str e),
    ("meta", .obj [("snapshot.json", .obj [("hashes", .obj [("sha256", a), ("sha512", b)]), ("length", l), ("version", w)])]),
    ("version", .int v)]

def topRoles : List String := ["root", "snapshot", "targets", "timestamp"]

/-- The table of keys describes those of the four roles. -/
structure KeyTable (g : GenEnv) (keys : List (String × KeyPair)) (tab : List (String × Json)) : Prop where
  has : ∀ r ∈ topRoles, ∀ kp, keys.lookup r = some kp → tab.lookup (g.keyId kp.pub) = some (toUptane kp.pub)
  only : ∀ kv ∈ tab, ∃ k : PublicKey, kv.2 = toUptane k ∧ k.type ≠ .unknown
  sorted : tab.Pairwise (fun a b => ltChars a.1.toList b.1.toList = true)

/-- The Roots, from version 1 to `top`. -/
structure RootFiles (g : GenEnv) (d : Dir) (tab : List (String × Json)) (top : Int) : Prop where
  table : KeyTable g d.keys tab
  one : 1 ≤ top
  range : top ≤ 4294967295
  all : ∀ v, 1 ≤ v → v ≤ top → ∃ e text, d.files.lookup (.numbered v) = some text ∧ Wrote g d.keys "root" (rootWith g tab d.keys v e) text ∧ IsTime e
  none : ∀ v, v < 1 ∨ top < v → d.files.lookup (.numbered v) = none
  last : d.files.lookup .root = d.files.lookup (.numbered top)

/-- The directory of a repository, except that Snapshot and Timestamp may be behind. -/
structure Base (g : GenEnv) (d : Dir) : Prop where
  good : ∀ r kp, d.keys.lookup r = some kp → GoodKey g kp
  four : ∀ r ∈ topRoles, ∃ kp, d.keys.lookup r = some kp
  roots : ∃ tab top, RootFiles g d tab top
  targets : ∃ text j v e, d.files.lookup .targets = some text ∧ Wrote g d.keys "targets" j text ∧ TargetsBody j v e
  delegated : ∀ n text, d.files.lookup (.delegation n) = some text → Role.isReserved (lower n) = false ∧
    ∃ j v e, Wrote g d.keys n j text ∧ TargetsBody j v e
  staging : ∀ text, d.files.lookup .staging = some text → ∃ j v e, text = g.env.canon j ∧ TargetsBody j v e
  snapshot : ∃ text m v e, d.files.lookup .snapshot = some text ∧ Wrote g d.keys "snapshot" (snapshotWith e m v) text ∧ IsTime e ∧
    0 ≤ v ∧ v ≤ 4294967295
  timestamp : ∃ text a b l w v e, d.files.lookup .timestamp = some text ∧ Wrote g d.keys "timestamp" (timestampWith e a b l w v) text ∧
    IsTime e ∧ 0 ≤ v ∧ v ≤ 4294967295

/-- The role's document has this version. -/
def HasVersion (g : GenEnv) (d : Dir) (role : Role) (v : Int) : Prop :=
  ∃ j, d.signed g (pathOf role) = .ok j ∧ j.get "version" = .ok (.int v) ∧ 0 ≤ v ∧ v ≤ 4294967295

/-- The newest Root has this version. -/
def RootVersion (g : GenEnv) (d : Dir) (v : Int) : Prop :=
  ∃ j, d.signed g .root = .ok j ∧ j.get "version" = .ok (.int v) ∧ 0 ≤ v ∧ v ≤ 4294967295

/-- The entries of the Snapshot are true. -/
def MetaTrue (g : GenEnv) (d : Dir) (m : List (String × Json)) : Prop :=
  ∀ kv ∈ m, (kv.1 = "root.json" ∧ ∃ h l v, kv.2 = .obj (h ++ l ++ [("version", .int v)]) ∧ RootVersion g d v ∧
      (h = [] ∨ ∃ a b : String, h = [("hashes", .obj [("sha256", .str a), ("sha512", .str b)])]) ∧ (l = [] ∨ ∃ i : Int, l = [("length", .int i)])) ∨
    ∃ role v, (role = Role.targets ∨ Role.delegation role.name = .ok role) ∧ kv.1 = role.name ++ ".json" ∧
      kv.2 = .obj [("version", .int v)] ∧ (HasVersion g d role v ∨ (d.files.lookup (pathOf role) = none ∧ v = 0))

/-- A role lists another one. -/
def Lists (g : GenEnv) (d : Dir) (p role : Role) : Prop :=
  ∃ s dl rs r nj n, d.signed g (pathOf p) = .ok s ∧ s.get "delegations" = .ok dl ∧ dl.get "roles" = .ok rs ∧ r ∈ rs.elems ∧ r.get "name" = .ok nj ∧
    nj.asString = .ok n ∧ Role.delegation n = .ok role

/-- The roles below a role. -/
inductive Under (g : GenEnv) (d : Dir) : Role → Role → Prop where
  | refl (p : Role) : Under g d p p
  | step {p q role : Role} : Lists g d p q → Under g d q role → Under g d p role

theorem Under.congr {g : GenEnv} {d d' : Dir} (h : ∀ role, d'.files.lookup (pathOf role) = d.files.lookup (pathOf role)) {p q : Role} (hu : Under g d' p q) : Under g d p q := by
  induction hu with
  | refl p => exact .refl p
  | step h1 _ ih =>
    obtain ⟨s, dl, rs, r, nj, n, k1, k2⟩ := h1
    refine .step ⟨s, dl, rs, r, nj, n, ?_, k2⟩ ih
    rw [← k1]
    unfold Dir.signed Dir.json
    rw [h]

/-- Snapshot and Timestamp are up to date. -/
def Synced (g : GenEnv) (d : Dir) : Prop :=
  ∃ textS m vs es textT vt et, d.files.lookup .snapshot = some textS ∧ Wrote g d.keys "snapshot" (snapshotWith es m vs) textS ∧
    MetaTrue g d m ∧ (∀ role, Under g d Role.targets role → ∃ x, m.lookup (role.name ++ ".json") = some x) ∧
    d.files.lookup .timestamp = some textT ∧ Wrote g d.keys "timestamp"
      (timestampWith et (.str (lower (g.env.sha256 textS))) (.str (lower (g.env.sha512 textS))) (.int ((textS.utf8ByteSize : Int) % 4294967296)) (.int vs) vt) textT

end Aktualizr.Gen
