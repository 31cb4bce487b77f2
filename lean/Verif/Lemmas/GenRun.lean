import Verif.Lemmas.GenDirector

/-! # Lemmas on the generator: the commands -/

namespace Aktualizr.Gen

open Spec

/-! ### Times -/

theorem utf8_cons (c : Char) (l : List Char) : (String.ofList (c :: l)).utf8ByteSize = c.utf8Size + (String.ofList l).utf8ByteSize := by
  rw [show c :: l = [c] ++ l from rfl, String.ofList_append, String.utf8ByteSize_append, ← String.singleton_eq_ofList, String.utf8ByteSize_singleton]

theorem utf8_ascii {c : Char} (h : c.toNat < 128) : c.utf8Size = 1 := by
  rw [Char.utf8Size]
  split
  · rfl
  · rename_i hh
    exfalso
    apply hh
    exact UInt32.le_iff_toNat_le.2 (show c.toNat ≤ 127 by omega)

theorem utf8_all : ∀ (l : List Char), (∀ c ∈ l, c.toNat < 128) → (String.ofList l).utf8ByteSize = l.length
  | [], _ => rfl
  | c :: l, h => by
    rw [utf8_cons, utf8_ascii (h c List.mem_cons_self), utf8_all l (fun c hc => h c (List.mem_cons_of_mem _ hc))]
    simp; omega

theorem isDig_ascii {c : Char} (h : isDig c = true) : c.toNat < 128 := by
  unfold isDig at h
  simp only [Bool.and_eq_true, decide_eq_true_eq] at h
  have := UInt32.le_iff_toNat_le.1 h.2
  have h9 : ('9' : Char).val.toNat = 57 := rfl
  show c.val.toNat < 128
  omega

theorem isTime_ok {s : String} (h : isTime s.toList = true) : IsTime s := by
  unfold isTime at h
  split at h
  · rename_i a b c d e f h' i j k l m n o heq
    simp only [List.all_cons, List.all_nil, Bool.and_true, Bool.and_eq_true] at h
    have hs : s = String.ofList [a, b, c, d, '-', e, f, '-', h', i, 'T', j, k, ':', l, m, ':', n, o, 'Z'] := by
      rw [← heq]; exact String.ofList_toList.symm
    have hlen : s.utf8ByteSize = 20 := by
      rw [hs, utf8_all]
      · rfl
      · intro x hx
        simp only [List.mem_cons, List.not_mem_nil, or_false] at hx
        obtain ⟨q1, q2, q3, q4, q5, q6, q7, q8, q9, q10, q11, q12, q13, q14⟩ := h
        rcases hx with rfl | rfl | rfl | rfl | rfl | rfl | rfl | rfl | rfl | rfl | rfl | rfl | rfl | rfl | rfl | rfl | rfl | rfl | rfl | rfl <;>
          first | exact isDig_ascii (by assumption) | decide
    have hlast : s.toList.getLast? = some 'Z' := by rw [heq]; rfl
    unfold IsTime TimeStamp.parse
    rw [hlen, hlast]
    exact ⟨⟨s⟩, rfl⟩
  · cases h

theorem expirationTime_ok {e later x : String} (hl : IsTime later) (h : expirationTime e later = .ok x) : IsTime x := by
  unfold expirationTime at h
  split at h
  · cases h; exact hl
  · split at h
    · rename_i ht
      cases h; exact isTime_ok ht
    · cases h

/-! ### A new repository -/

theorem keyTable_fold (g : GenEnv) : ∀ (l : List (String × KeyPair)) (acc : List (String × Json)) (all : List PublicKey),
    (∀ a ∈ all, ∀ b ∈ all, g.keyId a = g.keyId b → a = b) → (∀ k ∈ l, k.2.pub ∈ all) →
    acc.Pairwise (fun a b => ltChars a.1.toList b.1.toList = true) → (∀ kv ∈ acc, ∃ k ∈ all, kv = (g.keyId k, toUptane k)) →
    ∃ tab, l.foldl (fun l k => insertKey (g.keyId k.2.pub) (toUptane k.2.pub) l) acc = tab ∧
      tab.Pairwise (fun a b => ltChars a.1.toList b.1.toList = true) ∧ (∀ kv ∈ tab, ∃ k ∈ all, kv = (g.keyId k, toUptane k)) ∧
      (∀ x ∈ all, acc.lookup (g.keyId x) = some (toUptane x) → tab.lookup (g.keyId x) = some (toUptane x)) ∧
      (∀ k ∈ l, tab.lookup (g.keyId k.2.pub) = some (toUptane k.2.pub))
  | [], acc, all, _, _, h1, h2 => ⟨acc, rfl, h1, h2, fun _ _ h => h, fun _ h => by cases h⟩
  | k :: l, acc, all, hinj, hall, h1, h2 => by
    obtain ⟨tab, e1, e2, e3, e4, e5⟩ := keyTable_fold g l (insertKey (g.keyId k.2.pub) (toUptane k.2.pub) acc) all hinj
      (fun k hk => hall k (List.mem_cons_of_mem _ hk)) (insertKey_sorted h1) (by
        intro kv hkv
        rcases insertKey_mem hkv with rfl | hkv
        · exact ⟨_, hall k List.mem_cons_self, rfl⟩
        · exact h2 kv hkv)
    refine ⟨tab, e1, e2, e3, ?_, ?_⟩
    · intro x hx hl
      refine e4 x hx ?_
      by_cases hk : g.keyId x = g.keyId k.2.pub
      · have := hinj _ hx _ (hall k List.mem_cons_self) hk
        rw [this]; exact lookup_insertKey_same
      · rw [lookup_insertKey_other hk]; exact hl
    · intro k' hk'
      rcases List.mem_cons.1 hk' with rfl | hk'
      · exact e4 _ (hall _ List.mem_cons_self) lookup_insertKey_same
      · exact e5 k' hk'

/-- Four working pairs, told apart by their key ids. -/
structure NewKeys.Ok (g : GenEnv) (k : NewKeys) : Prop where
  root : Works g ⟨⟨k.root.1, k.type⟩, k.root.2⟩
  snapshot : Works g ⟨⟨k.snapshot.1, k.type⟩, k.snapshot.2⟩
  targets : Works g ⟨⟨k.targets.1, k.type⟩, k.targets.2⟩
  timestamp : Works g ⟨⟨k.timestamp.1, k.type⟩, k.timestamp.2⟩
  apart : ∀ a ∈ [k.root.1, k.snapshot.1, k.targets.1, k.timestamp.1], ∀ b ∈ [k.root.1, k.snapshot.1, k.targets.1, k.timestamp.1],
    g.keyId ⟨a, k.type⟩ = g.keyId ⟨b, k.type⟩ → a = b

def NewKeys.keys (k : NewKeys) : List (String × KeyPair) :=
  [("timestamp", ⟨⟨k.timestamp.1, k.type⟩, k.timestamp.2⟩), ("targets", ⟨⟨k.targets.1, k.type⟩, k.targets.2⟩),
   ("snapshot", ⟨⟨k.snapshot.1, k.type⟩, k.snapshot.2⟩), ("root", ⟨⟨k.root.1, k.type⟩, k.root.2⟩)]

theorem generateRepoKeys_ok {g : GenEnv} {d : Dir} {k : NewKeys} (hk : k.Ok g) (h : generateRepoKeys g {} k = .ok d) :
    d = { keys := k.keys } ∧ ∀ r kp, k.keys.lookup r = some kp → GoodKey g kp := by
  unfold generateRepoKeys at h
  obtain ⟨d1, h1, h⟩ := exc_bind_ok.1 h
  obtain ⟨d2, h2, h⟩ := exc_bind_ok.1 h
  obtain ⟨d3, h3, h4⟩ := exc_bind_ok.1 h
  obtain ⟨e1, g1⟩ := generateKeyPair_ok hk.root h1
  obtain ⟨e2, g2⟩ := generateKeyPair_ok hk.snapshot h2
  obtain ⟨e3, g3⟩ := generateKeyPair_ok hk.targets h3
  obtain ⟨e4, g4⟩ := generateKeyPair_ok hk.timestamp h4
  subst e1 e2 e3 e4
  refine ⟨rfl, ?_⟩
  intro r kp hl
  simp only [NewKeys.keys, List.lookup_cons] at hl
  repeat' split at hl
  all_goals first | (cases hl; assumption) | cases hl

theorem NewKeys.table {g : GenEnv} {k : NewKeys} (hk : k.Ok g) : KeyTable g k.keys (keyTable g k.keys) := by
  have hmem : ∀ x ∈ k.keys, x.2.pub ∈ ([k.root.1, k.snapshot.1, k.targets.1, k.timestamp.1].map (fun p => (⟨p, k.type⟩ : PublicKey))) := by
    intro x hx
    simp only [NewKeys.keys, List.mem_cons, List.not_mem_nil, or_false] at hx
    rcases hx with rfl | rfl | rfl | rfl <;> simp
  obtain ⟨tab, e1, e2, e3, -, e5⟩ := keyTable_fold g k.keys [] _ (by
    intro a ha b hb hid
    obtain ⟨a, ha', rfl⟩ := List.mem_map.1 ha
    obtain ⟨b, hb', rfl⟩ := List.mem_map.1 hb
    rw [hk.apart a ha' b hb' hid]) hmem .nil (by simp)
  unfold keyTable
  rw [e1]
  refine ⟨?_, ?_, e2⟩
  · intro r _ kp hl
    refine e5 (r, kp) ?_
    simp only [NewKeys.keys, List.lookup_cons] at hl
    simp only [NewKeys.keys, List.mem_cons, List.not_mem_nil, or_false]
    repeat' split at hl
    all_goals first | (cases hl; rename_i hh; rw [eq_of_beq hh]; simp) | cases hl
  · intro kv hkv
    obtain ⟨x, hx, rfl⟩ := e3 kv hkv
    obtain ⟨p, -, rfl⟩ := List.mem_map.1 hx
    exact ⟨_, rfl, hk.root.known⟩

theorem newBody {repo : Repo} {e cor : String} (he : IsTime e) : TargetsBody (.obj ([("_type", .str "Targets")] ++ customPart repo cor ++
    [("expires", .str e), ("targets", .obj []), ("version", .int 1)])) 1 e ∧
    Json.get (.obj ([("_type", .str "Targets")] ++ customPart repo cor ++
      [("expires", .str e), ("targets", .obj []), ("version", .int 1)])) "delegations" = .ok .null := by
  unfold customPart
  split
  · refine ⟨?_, rfl⟩
    constructor
    · refine .obj (by simp; decide) ?_
      intro kv hkv
      simp at hkv
      rcases hkv with rfl | rfl | rfl | rfl | rfl
      · exact .str _
      · exact .obj (by simp) (by simpa using .str _)
      · exact .str _
      · exact .obj (by simp) (by simp)
      · exact .int (by omega) (by omega)
    · rfl
    · rfl
    · omega
    · rfl
    · exact he
    · exact ⟨.obj [], rfl, .inr ⟨_, rfl⟩, by simp [Json.entries]⟩
    · exact ⟨_, rfl, .inl rfl⟩
    · exact ⟨_, rfl, .inr ⟨_, _, _, rfl, rfl, rfl⟩⟩
  · refine ⟨?_, rfl⟩
    constructor
    · refine .obj (by simp; decide) ?_
      intro kv hkv
      simp at hkv
      rcases hkv with rfl | rfl | rfl | rfl
      · exact .str _
      · exact .str _
      · exact .obj (by simp) (by simp)
      · exact .int (by omega) (by omega)
    · rfl
    · rfl
    · omega
    · rfl
    · exact he
    · exact ⟨.obj [], rfl, .inr ⟨_, rfl⟩, by simp [Json.entries]⟩
    · exact ⟨_, rfl, .inl rfl⟩
    · exact ⟨_, rfl, .inl rfl⟩

/-- A repository in order. -/
structure Fine (g : GenEnv) (d : Dir) : Prop where
  base : Base g d
  keyed : Keyed none d
  synced : Synced g d

theorem hashesOf_canonical (g : GenEnv) (t : String) : Canonical (hashesOf g t) := by
  refine .obj (by simp; decide) ?_
  intro kv hkv
  simp at hkv
  rcases hkv with rfl | rfl <;> exact .str _

theorem generateRepo_ok {g : GenEnv} (hg : Sound g) {repo : Repo} {d : Dir} {k : NewKeys} {e cor : String} (hk : k.Ok g) (he : IsTime e)
    (h : generateRepo g repo {} k e cor = .ok d) : Fine g d ∧ Plain g d := by
  unfold generateRepo at h
  obtain ⟨d0, h0, h⟩ := exc_bind_ok.1 h
  obtain ⟨rfl, hgood⟩ := generateRepoKeys_ok hk h0
  obtain ⟨⟨d1, root⟩, h1, h⟩ := exc_bind_ok.1 h
  dsimp only at h
  obtain ⟨⟨d2, ttext⟩, h2, h⟩ := exc_bind_ok.1 h
  dsimp only at h
  obtain ⟨⟨d3, sn⟩, h3, h⟩ := exc_bind_ok.1 h
  dsimp only at h
  obtain ⟨⟨d4, ts⟩, h4, h⟩ := exc_bind_ok.1 h
  have hd : d4 = d := by injection h
  subst hd
  have htab := NewKeys.table hk
  obtain ⟨hbody, hdel⟩ := newBody (repo := repo) (cor := cor) he
  obtain ⟨w1, k1, f1, o1⟩ := writeSigned_ok (j := rootBody g { keys := k.keys } 1 e) h1 (rootWith_canonical htab (by omega) (by omega))
  obtain ⟨w2, k2, f2, o2⟩ := writeSigned_ok h2 hbody.canonical
  have c3 : Canonical (.obj [("root.json", .obj [("hashes", hashesOf g root), ("length", .int ((root.utf8ByteSize : Int) % 4294967296)), ("version", .int 1)]),
      ("targets.json", .obj [("version", .int 1)])]) := by
    refine .obj (by simp; decide) ?_
    intro kv hkv
    simp at hkv
    rcases hkv with rfl | rfl
    · refine .obj (by simp; decide) ?_
      intro kv hkv
      simp at hkv
      rcases hkv with rfl | rfl | rfl
      · exact hashesOf_canonical _ _
      · exact .int (by omega) (by omega)
      · exact .int (by omega) (by omega)
    · refine .obj (by simp) ?_
      intro kv hkv
      simp at hkv
      subst hkv
      exact .int (by omega) (by omega)
  have c4 : Canonical (timestampWith e (.str (lower (g.env.sha256 sn))) (.str (lower (g.env.sha512 sn))) (.int ((sn.utf8ByteSize : Int) % 4294967296)) (.int 1) 1) := by
    refine .obj (by simp; decide) ?_
    intro kv hkv
    simp at hkv
    rcases hkv with rfl | rfl | rfl | rfl
    · exact .str _
    · exact .str _
    · refine .obj (by simp) ?_
      intro kv hkv
      simp at hkv
      subst hkv
      refine .obj (by simp; decide) ?_
      intro kv hkv
      simp at hkv
      rcases hkv with rfl | rfl | rfl
      · exact hashesOf_canonical _ _
      · exact .int (by omega) (by omega)
      · exact .int (by omega) (by omega)
    · exact .int (by omega) (by omega)
  obtain ⟨w3, k3, f3, o3⟩ := writeSigned_ok h3 (snapshotWith_canonical (v := 1) c3 (by omega) (by omega))
  obtain ⟨w4, k4, f4, o4⟩ := writeSigned_ok h4 c4
  have hk1 : d1.keys = k.keys := k1
  have hk2 : d2.keys = k.keys := k2.trans k1
  have hk3 : d3.keys = k.keys := k3.trans hk2
  have hk4 : d4.keys = k.keys := k4.trans hk3
  have hempty : ∀ q : Path, q ≠ .root → d1.files.lookup q = none := fun q hq => (o1 q hq).trans rfl
  have gone : ∀ q : Path, q ≠ .root → q ≠ .numbered 1 → q ≠ .targets → q ≠ .snapshot → q ≠ .timestamp → d4.files.lookup q = none := by
    intro q a1 a2 a3 a4 a5
    rw [o4 q a5, o3 q a4, o2 q a3, lookup_write_other a2]
    exact hempty q a1
  have hroot : d4.files.lookup .root = some root := by
    rw [o4 _ (by simp), o3 _ (by simp), o2 _ (by simp), lookup_write_other (by simp)]; exact f1
  have hone : d4.files.lookup (.numbered 1) = some root := by
    rw [o4 _ (by simp), o3 _ (by simp), o2 _ (by simp)]; exact lookup_write_same
  have htg : d4.files.lookup .targets = some ttext := by
    rw [o4 _ (by simp), o3 _ (by simp)]; exact f2
  have hsn : d4.files.lookup .snapshot = some sn := by
    rw [o4 _ (by simp)]; exact f3
  have W1 : Wrote g d4.keys "root" (rootWith g (keyTable g k.keys) d4.keys 1 e) root := by rw [hk4]; exact w1
  have W2 := w2.keys (keys' := d4.keys) (by rw [hk4, ← hk1]; rfl)
  have W3 := w3.keys (keys' := d4.keys) (by rw [hk4, hk2])
  have W4 := w4.keys (keys' := d4.keys) (by rw [hk4, hk3])
  have hb : Base g d4 := {
    good := by rw [hk4]; exact hgood
    four := by
      intro r hr
      rw [hk4]
      simp only [topRoles, List.mem_cons, List.not_mem_nil, or_false] at hr
      rcases hr with rfl | rfl | rfl | rfl <;> exact ⟨_, rfl⟩
    roots := by
      refine ⟨keyTable g k.keys, 1, by rw [hk4]; exact htab, by omega, by omega, ?_, ?_, hroot.trans hone.symm⟩
      · intro v a b
        have : v = 1 := by omega
        subst this
        exact ⟨e, root, hone, W1, he⟩
      · intro v hv
        exact gone _ (by simp) (by simp; omega) (by simp) (by simp) (by simp)
    targets := ⟨ttext, _, 1, e, htg, W2, hbody⟩
    delegated := by
      intro n text hl
      rw [gone _ (by simp) (by simp) (by simp) (by simp) (by simp)] at hl
      cases hl
    staging := by
      intro text hl
      rw [gone _ (by simp) (by simp) (by simp) (by simp) (by simp)] at hl
      cases hl
    snapshot := ⟨sn, _, 1, e, hsn, W3, he, by omega, by omega⟩
    timestamp := ⟨ts, _, _, _, _, 1, e, f4, W4, he, by omega, by omega⟩ }
  refine ⟨⟨hb, ?_, ?_⟩, ?_, ?_⟩
  · intro n kp hl hn
    exfalso
    rw [hk4] at hl
    simp only [NewKeys.keys, List.lookup_cons] at hl
    apply hn
    simp only [topRoles, List.mem_cons, List.not_mem_nil, or_false]
    repeat' split at hl
    all_goals first | (rename_i hh; rw [eq_of_beq hh]; simp; done) | cases hl
  · refine ⟨sn, _, 1, e, ts, 1, e, hsn, W3, ?_, ?_, f4, W4⟩
    intro kv hkv
    simp at hkv
    rcases hkv with rfl | rfl
    · exact .inl ⟨rfl, [_], [_], 1, rfl, ⟨_, Dir.signed_of hg hroot W1, rfl, by omega, by omega⟩, .inr ⟨_, _, rfl⟩, .inr ⟨_, rfl⟩⟩
    · refine .inr ⟨Role.targets, 1, .inl rfl, rfl, rfl, .inl ⟨_, Dir.signed_of hg htg W2, hbody.version, by omega, by omega⟩⟩
    · intro role hu
      cases hu with
      | refl => exact ⟨_, rfl⟩
      | step hl _ =>
        obtain ⟨s0, dl0, rs0, r, nj, n, a1, a2, a3, a4, -⟩ := hl
        rw [show d4.signed g (pathOf Role.targets) = _ from Dir.signed_of hg htg W2] at a1
        cases a1
        rw [hdel] at a2
        cases a2
        cases a3
        simp [Json.elems, Json.entries] at a4
  · intro j hj
    rw [Dir.signed_of hg htg W2] at hj
    cases hj
    exact hdel
  · intro text hl
    rw [gone _ (by simp) (by simp) (by simp) (by simp) (by simp)] at hl
    cases hl

end Aktualizr.Gen
