import Verif.Lemmas.Except
import Verif.Spec.Signatures

namespace Aktualizr

open Spec

theorem verifySignature_iff (env : Env) (k : PublicKey) (text msg : String) :
    k.verifySignature env text msg = true ↔ ValidUnder env k text msg := by
  unfold PublicKey.verifySignature ValidUnder
  cases k.type <;> simp

theorem nodup_length_le {α : Type} [DecidableEq α] : ∀ {xs ys : List α}, xs.Nodup → (∀ x ∈ xs, x ∈ ys) → xs.length ≤ ys.length
  | [], _, _, _ => by simp
  | x :: xs, ys, hn, hs => by
    have hx : x ∈ ys := hs x (by simp)
    have hn' := List.nodup_cons.1 hn
    have : xs.length ≤ (ys.erase x).length := by
      apply nodup_length_le hn'.2
      intro z hz
      have hzx : z ≠ x := fun h => hn'.1 (h ▸ hz)
      exact (List.mem_erase_of_ne hzx).2 (hs z (by simp [hz]))
    rw [List.length_erase_of_mem hx] at this
    have hpos : 0 < ys.length := List.length_pos_of_mem hx
    simp; omega

theorem textAt_get {j v : Json} {k t : String} (h : j.get k = .ok v) (h2 : v.asString = .ok t) : textAt j k t :=
  ⟨v, h, h2⟩

theorem textAt_unique {j : Json} {k a b : String} (ha : textAt j k a) (hb : textAt j k b) : a = b := by
  obtain ⟨v, h1, h2⟩ := ha
  obtain ⟨w, h3, h4⟩ := hb
  rw [h1] at h3; cases h3
  rw [h2] at h4; cases h4; rfl

theorem sigLoop_sound (env : Env) (m : MetaWithKeys) (role : Role) (c : String) :
    ∀ (sigs : List Json) (used : List String) (v n : Nat), sigLoop env m role c used v sigs = .ok n →
    ∃ ks : List String, n = v + ks.length ∧ ks.Nodup ∧
      ∀ k ∈ ks, k ∉ used ∧ ∃ sig ∈ sigs, GoodSignature env m role.name c sig k
  | [], used, v, n, h => by
    simp [sigLoop] at h
    exact ⟨[], by simp [h]⟩
  | s :: rest, used, v, n, h => by
    unfold sigLoop at h
    simp at h
    obtain ⟨a, ha, kid, hk, hu, mj, hmj, mt, hmt, _, h⟩ := h
    split at h
    · obtain ⟨ks, h1, h2, h3⟩ := sigLoop_sound env m role c rest _ _ _ h
      refine ⟨ks, h1, h2, fun k hk' => ?_⟩
      obtain ⟨h4, sig, h5, h6⟩ := h3 k hk'
      exact ⟨fun hc => h4 (List.mem_cons_of_mem _ hc), sig, List.mem_cons_of_mem _ h5, h6⟩
    · rename_i key hkey
      split at h
      · rename_i hauth
        simp at h
        obtain ⟨sj, hsj, st, hst, h⟩ := h
        split at h
        · rename_i hver
          obtain ⟨ks, h1, h2, h3⟩ := sigLoop_sound env m role c rest _ _ _ h
          refine ⟨kid :: ks, by simp; omega, ?_, ?_⟩
          · rw [List.nodup_cons]
            exact ⟨fun hc => (h3 kid hc).1 (by simp), h2⟩
          · intro k hk'
            rcases List.mem_cons.1 hk' with rfl | hk'
            · exact ⟨hu, s, by simp, key, st, ⟨a, ha, hk⟩, hkey, hauth, ⟨sj, hsj, hst⟩, (verifySignature_iff _ _ _ _).1 hver⟩
            · obtain ⟨h4, sig, h5, h6⟩ := h3 k hk'
              exact ⟨fun hc => h4 (List.mem_cons_of_mem _ hc), sig, List.mem_cons_of_mem _ h5, h6⟩
        · obtain ⟨ks, h1, h2, h3⟩ := sigLoop_sound env m role c rest _ _ _ h
          refine ⟨ks, h1, h2, fun k hk' => ?_⟩
          obtain ⟨h4, sig, h5, h6⟩ := h3 k hk'
          exact ⟨fun hc => h4 (List.mem_cons_of_mem _ hc), sig, List.mem_cons_of_mem _ h5, h6⟩
      · obtain ⟨ks, h1, h2, h3⟩ := sigLoop_sound env m role c rest _ _ _ h
        refine ⟨ks, h1, h2, fun k hk' => ?_⟩
        obtain ⟨h4, sig, h5, h6⟩ := h3 k hk'
        exact ⟨fun hc => h4 (List.mem_cons_of_mem _ hc), sig, List.mem_cons_of_mem _ h5, h6⟩

theorem sigLoop_complete (env : Env) (m : MetaWithKeys) (role : Role) (c : String) :
    ∀ (sigs : List Json) (used : List String) (v : Nat),
    (∀ sig ∈ sigs, (∃ kid, textAt sig "keyid" kid ∧ kid ∉ used) ∧ (∃ t, textAt sig "sig" t) ∧
      ∃ mt, textAt sig "method" mt ∧ lower mt ∈ ["rsassa-pss", "rsassa-pss-sha256", "ed25519"]) →
    sigs.Pairwise (fun a b => ∀ k, textAt a "keyid" k → ¬ textAt b "keyid" k) →
    ∃ ks : List String, sigLoop env m role c used v sigs = .ok (v + ks.length) ∧
      ∀ k sig, sig ∈ sigs → GoodSignature env m role.name c sig k → k ∈ ks
  | [], used, v, _, _ => ⟨[], by simp [sigLoop], by simp⟩
  | s :: rest, used, v, hwf, hp => by
    obtain ⟨⟨kid, hkid, hku⟩, ⟨st, hst⟩, mt, hmt, hms⟩ := hwf s (by simp)
    obtain ⟨hp1, hp2⟩ := List.pairwise_cons.1 hp
    have hrec := fun v' => sigLoop_complete env m role c rest (kid :: used) v' (by
      intro sig hsig
      obtain ⟨⟨k2, hk2, hk2u⟩, h2, h3⟩ := hwf sig (List.mem_cons_of_mem _ hsig)
      refine ⟨⟨k2, hk2, ?_⟩, h2, h3⟩
      intro hc
      rcases List.mem_cons.1 hc with rfl | hc
      · exact hp1 sig hsig _ hkid hk2
      · exact hk2u hc) hp2
    obtain ⟨a, ha1, ha2⟩ := hkid
    obtain ⟨b, hb1, hb2⟩ := hst
    obtain ⟨d, hd1, hd2⟩ := hmt
    have hsup : supportedMethod (lower mt) = true := by
      simp at hms
      simp [supportedMethod]
      rcases hms with h | h | h <;> simp [h]
    have hcontains : used.contains kid = false := by simpa using hku
    unfold sigLoop
    simp only [ha1, exc_bind_of_ok, ha2, hcontains, throwIf, hd1, hd2, hsup, Bool.not_true, Bool.false_eq_true, if_false]
    -- a good entry at the head has key id `kid` and passes all tests
    have hhead : ∀ k, GoodSignature env m role.name c s k → k = kid ∧ ∃ key, m.keys.lookup kid = some key ∧
        (role.name, kid) ∈ m.keysForRole ∧ key.verifySignature env st c = true := by
      rintro k ⟨key, tx, h1, h2, h3, h4, h5⟩
      have e1 := textAt_unique h1 ⟨a, ha1, ha2⟩
      have e2 := textAt_unique h4 ⟨b, hb1, hb2⟩
      subst e1; subst e2
      exact ⟨rfl, key, h2, h3, (verifySignature_iff _ _ _ _).2 h5⟩
    have skip : ∀ v', (¬ ∃ k, GoodSignature env m role.name c s k) → ∃ ks : List String,
        sigLoop env m role c (kid :: used) v' rest = .ok (v' + ks.length) ∧
        ∀ k sig, sig ∈ s :: rest → GoodSignature env m role.name c sig k → k ∈ ks := by
      intro v' hno
      obtain ⟨ks, h1, h2⟩ := hrec v'
      refine ⟨ks, h1, ?_⟩
      intro k sig hsig hg
      rcases List.mem_cons.1 hsig with rfl | hsig
      · exact absurd ⟨k, hg⟩ hno
      · exact h2 k sig hsig hg
    split
    · rename_i hnone
      apply skip
      rintro ⟨k, hg⟩
      obtain ⟨_, key, h2, _⟩ := hhead k hg
      rw [hnone] at h2; cases h2
    · rename_i key hkey
      split
      · rename_i hna
        apply skip
        rintro ⟨k, hg⟩
        obtain ⟨_, key, h2, h3, _⟩ := hhead k hg
        simp at hna
        exact hna h3
      · simp only [hb1, exc_bind_of_ok, hb2]
        split
        · rename_i hver
          obtain ⟨ks, h1, h2⟩ := hrec (v + 1)
          refine ⟨kid :: ks, ?_, ?_⟩
          · rw [h1]; simp; omega
          · intro k sig hsig hg
            rcases List.mem_cons.1 hsig with rfl | hsig
            · obtain ⟨rfl, _⟩ := hhead k hg; simp
            · exact List.mem_cons_of_mem _ (h2 k sig hsig hg)
        · rename_i hver
          apply skip
          rintro ⟨k, hg⟩
          obtain ⟨_, key', h2, h3, h4⟩ := hhead k hg
          rw [hkey] at h2; cases h2
          exact hver h4

theorem ofName_name {t : String} {r : Role}
    (hr : r ∈ [Role.root, Role.snapshot, Role.targets, Role.timestamp]) :
    (Role.ofName t).name = r.name ↔ lower t = r.name := by
  simp at hr
  unfold Role.ofName
  simp only
  have hi : ∀ s : String, s = "invalidrole" → s ≠ "root" ∧ s ≠ "snapshot" ∧ s ≠ "targets" ∧ s ≠ "timestamp" := by
    intro s hs; subst hs; decide
  have hinv := hi _ rfl
  rcases hr with rfl | rfl | rfl | rfl <;>
    (repeat' split) <;> simp_all [Role.root, Role.snapshot, Role.targets, Role.timestamp, Role.invalid]

end Aktualizr
