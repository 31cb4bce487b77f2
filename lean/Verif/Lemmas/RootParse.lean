import Verif.Lemmas.Signatures

/-! What `Root(repo, json)` takes from the document. -/

namespace Aktualizr

open Spec

theorem lookup_cons_some {α β : Type} [BEq α] [LawfulBEq α] {k a : α} {b v : β} {l : List (α × β)}
    (h : List.lookup k ((a, b) :: l) = some v) : (k = a ∧ v = b) ∨ List.lookup k l = some v := by
  simp only [List.lookup] at h
  split at h
  · rename_i he; left; exact ⟨by simpa using he, by simpa using h.symm⟩
  · right; exact h

theorem parseKeysLoop_spec (env : Env) : ∀ (es : List (String × Json)) (m m' : MetaWithKeys),
    parseKeysLoop env m es = .ok m' →
    m'.thresholds = m.thresholds ∧ m'.keysForRole = m.keysForRole ∧ m'.version = m.version ∧ m'.expiry = m.expiry ∧
    ∀ k key, m'.keys.lookup k = some key → m.keys.lookup k = some key ∨
      ∃ kj, (k, kj) ∈ es ∧ key = PublicKey.ofJson env kj
  | [], m, m', h => by
    simp [parseKeysLoop] at h; subst h; simp
  | (kid, j) :: rest, m, m', h => by
    simp [parseKeysLoop] at h
    obtain ⟨a, _, b, _, _, h⟩ := h
    obtain ⟨h1, h2, h3, h4, h5⟩ := parseKeysLoop_spec env rest _ _ h
    refine ⟨h1, h2, h3, h4, ?_⟩
    intro k key hk
    rcases h5 k key hk with h6 | ⟨kj, h6, h7⟩
    · rcases lookup_cons_some h6 with ⟨rfl, rfl⟩ | h6
      · exact .inr ⟨j, by simp, rfl⟩
      · exact .inl h6
    · exact .inr ⟨kj, List.mem_cons_of_mem _ h6, h7⟩

theorem parseKeyIds_spec (role : Role) : ∀ (ks : List Json) (acc out : List (String × String)),
    parseKeyIds role acc ks = .ok out →
    ∀ p ∈ out, p ∈ acc ∨ (p.1 = role.name ∧ ∃ k ∈ ks, k.asString = .ok p.2)
  | [], acc, out, h => by
    simp [parseKeyIds] at h; subst h; intro p hp; exact .inl hp
  | k :: ks, acc, out, h => by
    simp [parseKeyIds] at h
    obtain ⟨s, hs, h⟩ := h
    intro p hp
    rcases parseKeyIds_spec role ks _ _ h p hp with h1 | ⟨h1, k', h2, h3⟩
    · rcases List.mem_cons.1 h1 with rfl | h1
      · exact .inr ⟨rfl, k, by simp, hs⟩
      · exact .inl h1
    · exact .inr ⟨h1, k', List.mem_cons_of_mem _ h2, h3⟩

theorem parseRole_spec {m m' : MetaWithKeys} {j : Json} {role : Role} (h : parseRole m j role = .ok m') :
    m'.keys = m.keys ∧ m'.version = m.version ∧ m'.expiry = m.expiry ∧
    (∀ r t, m'.thresholds.lookup r = some t → m.thresholds.lookup r = some t ∨
      (r = role.name ∧ role.name ≠ "invalidrole" ∧ 1 ≤ t ∧ t ≤ 1000 ∧ ∃ tj, j.get "threshold" = .ok tj ∧ tj.asInt64 = .ok t)) ∧
    (∀ p ∈ m'.keysForRole, p ∈ m.keysForRole ∨
      (p.1 = role.name ∧ role.name ≠ "invalidrole" ∧ ∃ ids, j.get "keyids" = .ok ids ∧ ∃ k ∈ ids.elems, k.asString = .ok p.2)) := by
  unfold parseRole at h
  split at h
  · cases h; exact ⟨rfl, rfl, rfl, fun r t h => .inl h, fun a h => .inl h⟩
  · rename_i hne
    simp [kMinSignatures, kMaxSignatures] at h
    obtain ⟨tj, htj, t, ht, h1, h2, ids, hids, kfr, hkfr, rfl⟩ := h
    refine ⟨rfl, rfl, rfl, ?_, ?_⟩
    · intro r t' hr
      rcases lookup_cons_some hr with ⟨rfl, rfl⟩ | hr
      · exact .inr ⟨rfl, hne, by have := of_decide_eq_false h1; omega, by have := of_decide_eq_false h2; omega, tj, htj, ht⟩
      · exact .inl hr
    · intro p hp
      rcases parseKeyIds_spec role _ _ _ hkfr p hp with h3 | ⟨h3, k, h4, h5⟩
      · exact .inl h3
      · exact .inr ⟨h3, hne, ids, hids, k, h4, h5⟩

theorem ofName_cases (n : String) :
    ((Role.ofName n).name = lower n) ∨ (Role.ofName n).name = "invalidrole" := by
  unfold Role.ofName
  simp only
  (repeat' split) <;> simp_all [Role.invalid]

theorem rootRolesLoop_spec : ∀ (es : List (String × Json)) (m m' : MetaWithKeys),
    rootRolesLoop m es = .ok m' →
    m'.keys = m.keys ∧ m'.version = m.version ∧ m'.expiry = m.expiry ∧
    (∀ r t, m'.thresholds.lookup r = some t → m.thresholds.lookup r = some t ∨
      ∃ name rj, (name, rj) ∈ es ∧ lower name = r ∧ 1 ≤ t ∧ t ≤ 1000 ∧
        ∃ tj, rj.get "threshold" = .ok tj ∧ tj.asInt64 = .ok t) ∧
    (∀ p ∈ m'.keysForRole, p ∈ m.keysForRole ∨
      ∃ name rj, (name, rj) ∈ es ∧ lower name = p.1 ∧ ∃ ids, rj.get "keyids" = .ok ids ∧
        ∃ k ∈ ids.elems, k.asString = .ok p.2)
  | [], m, m', h => by
    simp [rootRolesLoop] at h; subst h
    exact ⟨rfl, rfl, rfl, fun r t h => .inl h, fun a h => .inl h⟩
  | (name, j) :: rest, m, m', h => by
    simp [rootRolesLoop] at h
    obtain ⟨m1, hm1, h⟩ := h
    obtain ⟨a1, a2, a3, a4, a5⟩ := parseRole_spec hm1
    obtain ⟨b1, b2, b3, b4, b5⟩ := rootRolesLoop_spec rest _ _ h
    refine ⟨b1.trans a1, b2.trans a2, b3.trans a3, ?_, ?_⟩
    · intro r t hr
      rcases b4 r t hr with hr | ⟨n, rj, hmem, h1⟩
      · rcases a4 r t hr with hr | ⟨rfl, hne, h1, h2, h3⟩
        · exact .inl hr
        · rcases ofName_cases name with he | he
          · exact .inr ⟨name, j, by simp, he.symm, h1, h2, h3⟩
          · exact absurd he hne
      · exact .inr ⟨n, rj, List.mem_cons_of_mem _ hmem, h1⟩
    · intro p hp
      rcases b5 p hp with hp | ⟨n, rj, hmem, h1⟩
      · rcases a5 p hp with hp | ⟨h0, hne, h1⟩
        · exact .inl hp
        · rcases ofName_cases name with he | he
          · exact .inr ⟨name, j, by simp, by rw [h0]; exact he.symm, h1⟩
          · exact absurd he hne
      · exact .inr ⟨n, rj, List.mem_cons_of_mem _ hmem, h1⟩

end Aktualizr
