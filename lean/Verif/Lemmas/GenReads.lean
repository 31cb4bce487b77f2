import Verif.Lemmas.GenRuns
import Verif.Lemmas.Honest

/-! # Lemmas on the generator: what the client makes of the files -/

namespace Aktualizr.Gen

open Spec

/-! ### Texts -/

theorem stripExtension_json (n : String) : stripExtension (n ++ ".json") = n := by
  have hr : (n ++ ".json").toList.reverse = 'n' :: 'o' :: 's' :: 'j' :: '.' :: n.toList.reverse := by
    rw [String.toList_append, List.reverse_append]
    rfl
  unfold stripExtension
  rw [hr]
  simp [List.dropWhile]

/-! ### Roots -/

theorem keytype_ok {k : PublicKey} (h : k.type ≠ .unknown) : ∃ t, (toUptane k).get "keytype" = .ok (.str t) ∧ (lower t = "rsa" ∨ lower t = "ed25519") := by
  unfold toUptane
  cases ht : k.type <;> simp only
  case unknown => exact absurd ht h
  case ed25519 => exact ⟨_, rfl, .inr (by decide)⟩
  all_goals exact ⟨_, rfl, .inl (by decide)⟩

theorem parseKeysLoop_ok {env : Env} : ∀ (l : List (String × Json)) (m : MetaWithKeys), (∀ kv ∈ l, ∃ k : PublicKey, kv.2 = toUptane k ∧ k.type ≠ .unknown) →
    ∃ ks, parseKeysLoop env m l = .ok { m with keys := ks } ∧ (∀ kid, (∀ kv ∈ l, kv.1 ≠ kid) → ks.lookup kid = m.keys.lookup kid) ∧
      (l.Pairwise (fun a b => a.1 ≠ b.1) → ∀ kid j, l.lookup kid = some j → ks.lookup kid = some (PublicKey.ofJson env j))
  | [], m, _ => ⟨m.keys, rfl, fun _ _ => rfl, fun _ _ _ h => by cases h⟩
  | (kid, j) :: l, m, h => by
    obtain ⟨ks, e1, e2, e3⟩ := parseKeysLoop_ok (env := env) l { m with keys := (kid, PublicKey.ofJson env j) :: m.keys } (fun kv hkv => h kv (List.mem_cons_of_mem _ hkv))
    obtain ⟨k, hk, ht⟩ := h _ List.mem_cons_self
    obtain ⟨t, g1, g2⟩ := keytype_ok ht
    have hj : j = toUptane k := hk
    refine ⟨ks, ?_, ?_, ?_⟩
    · unfold parseKeysLoop
      rw [hj, g1, exc_bind_of_ok, show Json.asString (.str t) = .ok t from rfl, exc_bind_of_ok]
      rw [show throwIf (lower t != "rsa" && lower t != "ed25519") (.upt (.security "Unsupported key type")) = .ok () from by
        rw [throwIf_ok]; rcases g2 with h | h <;> rw [h] <;> decide, exc_bind_of_ok, ← hj]
      exact e1
    · intro kid' hn
      rw [e2 kid' (fun kv hkv => hn kv (List.mem_cons_of_mem _ hkv))]
      show List.lookup kid' ((kid, _) :: m.keys) = _
      rw [List.lookup_cons, beq_false_of_ne (fun hh => hn _ List.mem_cons_self hh.symm)]
    · intro hp kid' j' hl
      rw [List.lookup_cons] at hl
      obtain ⟨p1, p2⟩ := List.pairwise_cons.1 hp
      by_cases hkk : kid' = kid
      · subst hkk
        rw [beq_self_eq_true] at hl
        cases hl
        rw [e2 kid' (fun kv hkv hh => p1 kv hkv hh.symm)]
        simp
      · rw [beq_false_of_ne hkk] at hl
        exact e3 p2 kid' j' hl


/-- The id of a role's key. -/
def idOf (g : GenEnv) (keys : List (String × KeyPair)) (role : String) : String := g.keyId ((keys.lookup role).getD ⟨⟨"", .unknown⟩, ""⟩).pub

/-- The content of the Root, with the keys `ks` read from its table. -/
def rootRead (g : GenEnv) (keys : List (String × KeyPair)) (ks : List (String × PublicKey)) (v : Int) (e : String) : Root where
  base := { version := v, expiry := ⟨e⟩, keys := ks
            keysForRole := [("timestamp", idOf g keys "timestamp"), ("targets", idOf g keys "targets"), ("snapshot", idOf g keys "snapshot"), ("root", idOf g keys "root")]
            thresholds := [("timestamp", 1), ("targets", 1), ("snapshot", 1), ("root", 1)] }
  policy := .check

theorem parseRole_entry {g : GenEnv} {keys : List (String × KeyPair)} {name : String} {role : Role} (m : MetaWithKeys) (hr : Role.ofName name = role)
    (hn : role.name = name) (hi : name ≠ "invalidrole") :
    parseRole m (roleEntry g { keys := keys } name) (Role.ofName name) =
      .ok { m with thresholds := (name, 1) :: m.thresholds, keysForRole := (name, idOf g keys name) :: m.keysForRole } := by
  subst hn
  rw [hr]
  unfold parseRole
  rw [if_neg (show ¬ role.name = Role.invalid.name from hi)]
  rfl

theorem baseInit_of {g : GenEnv} {n : Nat} {kp : KeyPair} {m : String} {j : Json} {v : Int} {e : String} (hv : j.get "version" = .ok (.int v)) (h0 : 0 ≤ v)
    (h1 : v ≤ 2147483647) (he : j.get "expires" = .ok (.str e)) (ht : IsTime e) : baseInit (docOf g n kp m j) = .ok (v, ⟨e⟩) := by
  obtain ⟨t, ht⟩ := ht
  have hte : t = ⟨e⟩ := by
    unfold TimeStamp.parse at ht
    split at ht
    · cases ht
    · cases ht; rfl
  unfold baseInit
  rw [show throwIf (!(docOf g n kp m j).isObject) (.upt (.invalidMetadata "")) = .ok () from rfl, exc_bind_of_ok]
  rw [show (docOf g n kp m j).isMember "signed" = .ok true from rfl, exc_bind_of_ok]
  rw [show throwIf (!true) (Err.upt (.invalidMetadata "")) = .ok () from rfl, exc_bind_of_ok]
  rw [docOf_signed, exc_bind_of_ok, hv, exc_bind_of_ok]
  rw [show Json.asInt (.int v) = .ok v from by show (if _ then _ else _) = _; rw [if_pos (by omega)], exc_bind_of_ok, he, exc_bind_of_ok]
  rw [show Json.asString (.str e) = .ok e from rfl, exc_bind_of_ok, ht, hte]
  rfl

theorem root_reads {g : GenEnv} (hg : Sound g) {keys : List (String × KeyPair)} {tab : List (String × Json)} (ht : KeyTable g keys tab) {v : Int} {e text : String}
    (h0 : 0 ≤ v) (h1 : v ≤ 2147483647) (he : IsTime e) (hw : Wrote g keys "root" (rootWith g tab keys v e) text) :
    ∃ ks, ReadsAsRoot g.env text (rootRead g keys ks v e) ∧ ∀ kid j, tab.lookup kid = some j → ks.lookup kid = some (PublicKey.ofJson g.env j) := by
  obtain ⟨n, kp, m, -, -, hp⟩ := hw.parse hg
  obtain ⟨ks, k1, -, k3⟩ := parseKeysLoop_ok (env := g.env) tab { version := v, expiry := ⟨e⟩ } ht.only
  have hne : tab.Pairwise (fun a b => a.1 ≠ b.1) := ht.sorted.imp (by
    intro a b hab hh
    rw [hh, ltChars_irrefl] at hab
    cases hab)
  refine ⟨ks, ?_, k3 hne⟩
  unfold ReadsAsRoot
  rw [hp]
  unfold Root.ofJson
  rw [baseInit_of (v := v) (e := e) rfl h0 h1 rfl he, exc_bind_of_ok]
  dsimp only
  rw [docOf_signed, exc_bind_of_ok]
  rw [show (rootWith g tab keys v e).isMember "keys" = .ok true from rfl, exc_bind_of_ok,
    show throwIf (!true) (Err.upt (.invalidMetadata "root")) = .ok () from rfl, exc_bind_of_ok,
    show (rootWith g tab keys v e).isMember "roles" = .ok true from rfl, exc_bind_of_ok,
    show throwIf (!true) (Err.upt (.invalidMetadata "root")) = .ok () from rfl, exc_bind_of_ok]
  rw [show (rootWith g tab keys v e).get "keys" = .ok (.obj tab) from rfl, exc_bind_of_ok,
    show parseKeys g.env { version := v, expiry := ⟨e⟩ } (.obj tab) = .ok { version := v, expiry := ⟨e⟩, keys := ks } from k1, exc_bind_of_ok]
  rw [show (rootWith g tab keys v e).get "roles" = .ok (.obj [("root", roleEntry g { keys := keys } "root"), ("snapshot", roleEntry g { keys := keys } "snapshot"),
      ("targets", roleEntry g { keys := keys } "targets"), ("timestamp", roleEntry g { keys := keys } "timestamp")]) from rfl, exc_bind_of_ok]
  show (rootRolesLoop _ [("root", roleEntry g { keys := keys } "root"), ("snapshot", roleEntry g { keys := keys } "snapshot"),
      ("targets", roleEntry g { keys := keys } "targets"), ("timestamp", roleEntry g { keys := keys } "timestamp")] >>= _) = _
  simp only [rootRolesLoop]
  rw [parseRole_entry _ (role := Role.root) (by decide) (by decide) (by decide), exc_bind_of_ok,
    parseRole_entry _ (role := Role.snapshot) (by decide) (by decide) (by decide), exc_bind_of_ok,
    parseRole_entry _ (role := Role.targets) (by decide) (by decide) (by decide), exc_bind_of_ok,
    parseRole_entry _ (role := Role.timestamp) (by decide) (by decide) (by decide), exc_bind_of_ok, exc_bind_of_ok]
  rfl

/-- What the generator signs for a top-level role is genuine under its Root. -/
theorem genuine_of {g : GenEnv} (hg : Sound g) {keys : List (String × KeyPair)} (hgood : ∀ r kp, keys.lookup r = some kp → GoodKey g kp) {tab : List (String × Json)}
    (ht : KeyTable g keys tab) {ks : List (String × PublicKey)} (hks : ∀ kid j, tab.lookup kid = some j → ks.lookup kid = some (PublicKey.ofJson g.env j))
    {v : Int} {e : String} {role : Role} (hr : role ∈ [Role.root, Role.snapshot, Role.targets, Role.timestamp]) {j : Json} {text T : String}
    (hT : j.get "_type" = .ok (.str T)) (hl : lower T = role.name) (hw : Wrote g keys role.name j text) :
    Genuine g.env (rootRead g keys ks v e) role text := by
  obtain ⟨n, kp, m, hk, hm, hp⟩ := hw.parse hg
  have hkp := hgood _ _ hk
  have hname : role.name ∈ topRoles := by
    simp only [List.mem_cons, List.not_mem_nil, or_false] at hr
    rcases hr with rfl | rfl | rfl | rfl <;> decide
  have hid : idOf g keys role.name = g.keyId kp.pub := by unfold idOf; rw [hk]; rfl
  have hsigs : (docOf g n kp m j).get "signatures" = .ok (.arr [.obj [("keyid", .str (g.keyId kp.pub)), ("method", .str m), ("sig", .str (g.sign n kp.pub kp.priv (g.env.canon j)))]]) := rfl
  refine ⟨⟨⟨j, _, 1, [g.keyId kp.pub], by rw [hp]; exact docOf_signed .., by rw [hp]; exact hsigs, ?_, by decide, by decide, by simp, by simp, ?_⟩, ?_⟩, ?_, ?_⟩
  · simp only [List.mem_cons, List.not_mem_nil, or_false] at hr
    rcases hr with rfl | rfl | rfl | rfl <;> rfl
  · intro kid hkid
    rw [List.mem_singleton.1 hkid]
    refine ⟨_, by rw [elems_array]; exact List.mem_singleton_self _, kp.pub, g.sign n kp.pub kp.priv (g.env.canon j), ⟨_, rfl, rfl⟩, ?_, ?_, ⟨_, rfl, rfl⟩, hkp.works _ _⟩
    · have := hks _ _ (ht.has _ hname kp hk)
      rw [hkp.back] at this
      exact this
    · rw [← hid]
      show (role.name, _) ∈ [("timestamp", idOf g keys "timestamp"), ("targets", idOf g keys "targets"), ("snapshot", idOf g keys "snapshot"), ("root", idOf g keys "root")]
      simp only [topRoles, List.mem_cons, List.not_mem_nil, or_false] at hname
      rcases hname with hn | hn | hn | hn <;> rw [hn] <;> simp
  · refine ⟨j, T, by rw [hp]; exact docOf_signed .., ⟨_, hT, rfl⟩, ?_⟩
    rw [hl]
    simp only [List.mem_cons, List.not_mem_nil, or_false] at hr
    rcases hr with rfl | rfl | rfl | rfl <;> rfl
  · rw [hp]
    refine ⟨_, hsigs, ?_, ?_⟩
    · intro sig hsig
      rw [elems_array] at hsig
      rw [List.mem_singleton.1 hsig]
      refine ⟨⟨_, _, rfl, rfl⟩, ⟨_, _, rfl, rfl⟩, m, ⟨_, rfl, rfl⟩, ?_⟩
      unfold method at hm
      cases ht : kp.pub.type <;> rw [ht] at hm <;> cases hm <;> decide
    · rw [elems_array]; simp
  · obtain ⟨-, _, _, _, _, _, rfl⟩ := hw
    exact hg.nonempty _

end Aktualizr.Gen
