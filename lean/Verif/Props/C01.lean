import Verif.Lemmas.RootParse
import Verif.Spec.Toy

/-!
# C01 — metadata is accepted only with a threshold of distinct authorised signatures
-/

namespace Aktualizr

open Spec

/-- Whenever verification of a document for a role succeeds, the document is signed to the
trusted threshold by different authorised key ids and declares that role as its type. -/
theorem C01_accepted_is_signed (env : Env) (trusted : MetaWithKeys) (role : Role) (doc : Json)
    (hrole : ProperRole role) (h : unpackSignedObject env trusted role doc = .ok ()) :
    SignedToThreshold env trusted role.name doc ∧ DeclaresType role doc := by
  unfold unpackSignedObject at h
  simp at h
  obtain ⟨signed, hs, tj, htj, t, ht, htype, sigs, hsigs, n, hn, ⟨hmin, hmax⟩, _, hle⟩ := h
  obtain ⟨ks, hk1, hk2, hk3⟩ := sigLoop_sound _ _ _ _ _ _ _ _ hn
  constructor
  · cases hl : List.lookup role.name trusted.thresholds with
    | none => rw [hl] at hmin; simp [kMinSignatures] at hmin
    | some t =>
      rw [hl] at hmin hmax hle
      simp [kMinSignatures, kMaxSignatures] at hmin hmax hle
      refine ⟨signed, sigs, t, ks, hs, hsigs, hl, by omega, by omega, hk2, by omega, ?_⟩
      intro k hk
      exact (hk3 k hk).2
  · refine ⟨signed, t, hs, ⟨tj, htj, ht⟩, ?_⟩
    split at htype
    · rename_i hd
      simp [Role.isDelegation] at hd
      simp only [hd, if_true]
      exact (ofName_name (r := Role.targets) (by simp)).1 htype
    · rename_i hd
      simp [Role.isDelegation] at hd
      simp only [hd, if_false]
      rcases hrole with hr | hr
      · exact (ofName_name hr).1 htype.symm
      · exact absurd hr hd

/-- Conversely a well-formed document with that many valid authorised signatures is accepted. -/
theorem C01_signed_is_accepted (env : Env) (trusted : MetaWithKeys) (role : Role) (doc : Json)
    (hrole : ProperRole role) (hsig : SignedToThreshold env trusted role.name doc)
    (htype : DeclaresType role doc) (hwf : WellFormedSignatures doc) :
    unpackSignedObject env trusted role doc = .ok () := by
  obtain ⟨signed, sigs, t, kids, h1, h2, h3, h4, h5, h6, h7, h8⟩ := hsig
  obtain ⟨signed', ty, h9, ⟨tj, h10, h11⟩, h12⟩ := htype
  rw [h1] at h9; cases h9
  obtain ⟨sigs', h13, h14, h15⟩ := hwf
  rw [h2] at h13; cases h13
  obtain ⟨ks, hk1, hk2⟩ := sigLoop_complete env trusted role (env.canon signed) sigs.elems [] 0 (by
    intro s hs
    obtain ⟨⟨k, hk⟩, h', h''⟩ := h14 s hs
    exact ⟨⟨k, hk, by simp⟩, h', h''⟩) h15
  have hlen : kids.length ≤ ks.length := by
    apply nodup_length_le h6
    intro k hk
    obtain ⟨s, hs, hg⟩ := h8 k hk
    exact hk2 k s hs hg
  unfold unpackSignedObject
  simp
  refine ⟨signed, h1, tj, h10, ty, h11, ?_, sigs, h2, _, hk1, ?_⟩
  · by_cases hd : role.kind = .delegation
    · simp only [hd, if_true] at h12
      simp only [Role.isDelegation, hd]
      exact (ofName_name (r := Role.targets) (by simp)).2 h12
    · simp only [hd, if_false] at h12
      simp [Role.isDelegation, hd]
      rcases hrole with hr | hr
      · exact ((ofName_name hr).2 h12).symm
      · exact absurd hr hd
  · simp [h3, kMinSignatures, kMaxSignatures]
    refine ⟨⟨h4, h5⟩, ?_, by omega⟩
    intro _ hc
    rw [hc] at hlen
    simp at hlen
    rw [hlen] at h7
    simp at h7
    omega

/-- Acceptance, exactly. -/
theorem C01_accepted_iff (env : Env) (trusted : MetaWithKeys) (role : Role) (doc : Json)
    (hrole : ProperRole role) (hwf : WellFormedSignatures doc) :
    unpackSignedObject env trusted role doc = .ok () ↔
      SignedToThreshold env trusted role.name doc ∧ DeclaresType role doc :=
  ⟨C01_accepted_is_signed env trusted role doc hrole,
   fun h => C01_signed_is_accepted env trusted role doc hrole h.1 h.2 hwf⟩

theorem ofJson_describes (env : Env) (kj : Json) : DescribesKey env kj (PublicKey.ofJson env kj) := by
  unfold DescribesKey PublicKey.ofJson
  split
  · rename_i keytype kv h1 h2
    simp only
    split
    · rename_i keyvalue h3
      intro h
      split at h
      · rename_i he
        simp only [he, if_true]
        exact ⟨keytype, _, ⟨_, h1, rfl⟩, h2, ⟨_, h3, rfl⟩, Or.inl ⟨he, trivial⟩⟩
      · rename_i he
        split at h
        · rename_i hr
          simp only [hr, if_true]
          exact ⟨keytype, _, ⟨_, h1, rfl⟩, h2, ⟨_, h3, rfl⟩, Or.inr ⟨hr, rfl⟩⟩
        · exact absurd rfl h
    · intro h; exact absurd rfl h
  · intro h; exact absurd rfl h

/-- The trusted table used above is exactly what the trusted Root document says: a threshold
found in it is the threshold of a role entry of that document (and lies in 1..1000), an
authorised key id is listed in a role entry, and the key material is the document's. -/
theorem C01_tables_come_from_root (env : Env) (doc : Json) (r : Root) (h : Root.ofJson env doc = .ok r) :
    (∀ role t, r.base.thresholds.lookup role = some t → 1 ≤ t ∧ t ≤ 1000 ∧
      ∃ rj tj, RootListsRole doc role rj ∧ rj.get "threshold" = .ok tj ∧ tj.asInt64 = .ok t) ∧
    (∀ role kid, (role, kid) ∈ r.base.keysForRole →
      ∃ rj ids k, RootListsRole doc role rj ∧ rj.get "keyids" = .ok ids ∧ k ∈ ids.elems ∧ k.asString = .ok kid) ∧
    (∀ kid key, r.base.keys.lookup kid = some key →
      ∃ kj, RootListsKey doc kid kj ∧ DescribesKey env kj key) := by
  unfold Root.ofJson at h
  simp at h
  obtain ⟨v, e, _, signed, hs, _, _, keys, hkeys, m1, hm1, roles, hroles, m2, hm2, rfl⟩ := h
  obtain ⟨a1, a2, a3, a4, a5⟩ := parseKeysLoop_spec env _ _ _ hm1
  obtain ⟨b1, b2, b3, b4, b5⟩ := rootRolesLoop_spec _ _ _ hm2
  refine ⟨?_, ?_, ?_⟩
  · intro role t ht
    rcases b4 role t ht with h1 | ⟨name, rj, h1, h2, h3, h4, tj, h5, h6⟩
    · rw [a1] at h1; simp at h1
    · exact ⟨h3, h4, rj, tj, ⟨signed, roles, name, hs, hroles, h1, h2⟩, h5, h6⟩
  · intro role kid hk
    rcases b5 _ hk with h1 | ⟨name, rj, h1, h2, ids, h3, k, h4, h5⟩
    · rw [a2] at h1; simp at h1
    · exact ⟨rj, ids, k, ⟨signed, roles, name, hs, hroles, h1, h2⟩, h3, h4, h5⟩
  · intro kid key hk
    rw [b1] at hk
    rcases a5 kid key hk with h1 | ⟨kj, h1, h2⟩
    · simp at h1
    · exact ⟨kj, ⟨signed, keys, hs, hkeys, h1⟩, h2 ▸ ofJson_describes env kj⟩

/-! Non-vacuity: a Root document with two keys and threshold 2, signed by both, is accepted
under itself; signed by one of them, or by the same key id twice, it is rejected. -/

private def twoKeys : List (String × String) := [("k1", "A"), ("k2", "B")]
private def good : Json := Toy.doc "r" (Toy.rootBody 1 2 twoKeys) twoKeys

example : (do let r ← Root.ofJson (Toy.env []) good
              unpackSignedObject (Toy.env []) r.base Role.root good) = .ok () := by decide

example : (do let r ← Root.ofJson (Toy.env []) good
              unpackSignedObject (Toy.env []) r.base Role.root
                (Toy.doc "r" (Toy.rootBody 1 2 twoKeys) [("k1", "A")]))
    = .error (.upt (.unmetThreshold "root")) := by decide

example : (do let r ← Root.ofJson (Toy.env []) good
              unpackSignedObject (Toy.env []) r.base Role.root
                (Toy.doc "r" (Toy.rootBody 1 2 twoKeys) [("k1", "A"), ("k1", "A")]))
    = .error (.upt (.nonUniqueSignatures "root")) := by decide

/-- What the property does *not* give: the threshold counts key *ids*. A Root that lists one
public key under two ids is satisfied by a single private key. -/
theorem C01_same_key_two_ids_counts_twice :
    ∃ (env : Env) (trusted : MetaWithKeys) (doc : Json),
      unpackSignedObject env trusted Role.root doc = .ok () ∧
      trusted.thresholds.lookup "root" = some 2 ∧
      (∀ k p, trusted.keys.lookup k = some p → p.value = "A") := by
  refine ⟨Toy.env [],
    { keys := [("k1", ⟨"A", .ed25519⟩), ("k2", ⟨"A", .ed25519⟩)],
      keysForRole := [("root", "k1"), ("root", "k2")], thresholds := [("root", 2)] },
    Toy.doc "r" (Toy.common "Root" 1) [("k1", "A"), ("k2", "A")], by decide, by decide, ?_⟩
  intro k p h
  simp only [List.lookup] at h
  split at h
  · cases h; rfl
  · split at h
    · cases h; rfl
    · cases h

end Aktualizr
