import Verif.Lemmas.ImageUpdate

/-! Hash lists in documents and their verification. -/

namespace Aktualizr

open Spec M

theorem parseHashes_mem {l : List (String × Json)} {hs : List Hash} (h : parseHashes l = .ok hs) :
    ∀ kj ∈ l, ∃ text, kj.2.asString = .ok text ∧ Hash.ofStrings kj.1 text ∈ hs := by
  induction l generalizing hs with
  | nil => simp
  | cons a l ih =>
    obtain ⟨k, j⟩ := a
    simp only [parseHashes, exc_bind_ok, exc_pure_ok] at h
    obtain ⟨t, ht, hs', h', rfl⟩ := h
    intro kj hkj
    rcases List.mem_cons.1 hkj with rfl | hkj
    · exact ⟨t, ht, by simp⟩
    · obtain ⟨t', h1, h2⟩ := ih h' kj hkj
      exact ⟨t', h1, by simp [h2]⟩

theorem parseHashes_origin {l : List (String × Json)} {hs : List Hash} (h : parseHashes l = .ok hs) :
    ∀ x ∈ hs, ∃ kj ∈ l, ∃ text, kj.2.asString = .ok text ∧ Hash.ofStrings kj.1 text = x := by
  induction l generalizing hs with
  | nil => simp [parseHashes] at h; subst h; simp
  | cons a l ih =>
    obtain ⟨k, j⟩ := a
    simp only [parseHashes, exc_bind_ok, exc_pure_ok] at h
    obtain ⟨t, ht, hs', h', rfl⟩ := h
    intro x hx
    rcases List.mem_cons.1 hx with rfl | hx
    · exact ⟨(k, j), by simp, t, ht, rfl⟩
    · obtain ⟨kj, h1, h2⟩ := ih h' x hx
      exact ⟨kj, by simp [h1], h2⟩

/-- Hash `h` is either of an unsupported kind or the digest of the document. -/
def HashOk (env : Env) (canonical : String) (h : Hash) : Prop :=
  h.type = .unknown ∨ (h.type = .sha256 ∧ h.hash = upper (env.sha256 canonical)) ∨
    (h.type = .sha512 ∧ h.hash = upper (env.sha512 canonical))

theorem hashDiffers_ok {env : Env} {canonical : String} {h : Hash} (hd : Image.hashDiffers env canonical h ≠ some true) :
    HashOk env canonical h := by
  unfold Image.hashDiffers at hd
  obtain ⟨ty, tx⟩ := h
  cases ty
  · right; left
    simp [Hash.mk'] at hd
    exact ⟨rfl, hd.symm⟩
  · right; right
    simp [Hash.mk'] at hd
    exact ⟨rfl, hd.symm⟩
  · exact .inl rfl

theorem snapshotHashLoop_ok {env : Env} {canonical : String} {l : List Hash} {ex b : Bool}
    (h : Image.snapshotHashLoop env canonical ex l = .ok b) :
    (∀ x ∈ l, HashOk env canonical x) ∧ (b = true → ex = true ∨ ∃ x ∈ l, x.type ≠ .unknown) := by
  induction l generalizing ex with
  | nil => simp [Image.snapshotHashLoop] at h; subst h; simp
  | cons a l ih =>
    unfold Image.snapshotHashLoop at h
    split at h
    · rename_i hn
      obtain ⟨h1, h2⟩ := ih h
      refine ⟨?_, fun hb => ?_⟩
      · intro x hx
        rcases List.mem_cons.1 hx with rfl | hx
        · exact hashDiffers_ok (by rw [hn]; simp)
        · exact h1 x hx
      · rcases h2 hb with h | ⟨x, hx, hu⟩
        · exact .inl h
        · exact .inr ⟨x, by simp [hx], hu⟩
    · simp at h
    · rename_i hn
      obtain ⟨h1, h2⟩ := ih h
      refine ⟨?_, fun _ => .inr ⟨a, by simp, ?_⟩⟩
      · intro x hx
        rcases List.mem_cons.1 hx with rfl | hx
        · exact hashDiffers_ok (by rw [hn]; simp)
        · exact h1 x hx
      · intro hu
        simp [Image.hashDiffers, hu] at hn

theorem roleHashLoop_ok {env : Env} {canonical : String} {l : List Hash}
    (h : Image.roleHashLoop env canonical l = .ok ()) : ∀ x ∈ l, HashOk env canonical x := by
  induction l with
  | nil => simp
  | cons a l ih =>
    unfold Image.roleHashLoop at h
    split at h
    · simp at h
    · rename_i hn
      intro x hx
      rcases List.mem_cons.1 hx with rfl | hx
      · exact hashDiffers_ok (by simpa using hn)
      · exact ih h x hx

theorem ofStrings_ok {env : Env} {raw k text : String}
    (h : HashOk env (env.canon (env.parseJson raw)) (Hash.ofStrings k text)) (hk : k = "sha256" ∨ k = "sha512") :
    upper text = upper (digest env k raw) := by
  rcases hk with rfl | rfl
  · simpa [HashOk, Hash.ofStrings, digest] using h
  · simpa [HashOk, Hash.ofStrings, digest] using h

theorem hashesToAll_of {env : Env} {raw : String} {hashes : Json} {hs : List Hash} (hp : parseHashes hashes.entries = .ok hs)
    (h : ∀ x ∈ hs, HashOk env (env.canon (env.parseJson raw)) x) : HashesToAll env raw hashes := by
  intro kj hkj hk
  obtain ⟨text, ht, hm⟩ := parseHashes_mem hp kj hkj
  exact ⟨text, ht, ofStrings_ok (h _ hm) hk⟩

/-! ### Timestamp -/

theorem timestamp_vouches {env : Env} {rawT rawS : String} {signer : MetaWithKeys} {t : TimestampMeta}
    (ht : TimestampMeta.ofJsonSigned env (env.parseJson rawT) signer = .ok t)
    (hh : Image.snapshotHashLoop env (env.canon (env.parseJson rawS)) false t.snapshotHashes = .ok true) :
    TimestampVouches env rawT rawS t.snapshotVersion := by
  unfold TimestampMeta.ofJsonSigned at ht
  simp only [exc_bind_ok, exc_pure_ok] at ht
  obtain ⟨_, _, s, hs, m, hm, sj, hsj, hashes, hhs, size, hsz, ver, hver, ty, hty, _, _, hl, hp, _, _, v, hv, rfl⟩ := ht
  obtain ⟨h1, h2⟩ := snapshotHashLoop_ok hh
  refine ⟨sj, hashes, ver, ⟨s, hs, m, hm, sj, hsj, rfl⟩, hhs, hashesToAll_of hp h1, ?_, hver, hv⟩
  rcases h2 rfl with h | ⟨x, hx, hu⟩
  · simp at h
  · obtain ⟨kj, hkj, text, _, rfl⟩ := parseHashes_origin hp x hx
    refine ⟨kj, hkj, ?_⟩
    simp only [Hash.ofStrings] at hu
    by_cases h5 : kj.1 = "sha512"
    · exact .inr h5
    · by_cases h6 : kj.1 = "sha256"
      · exact .inl h6
      · simp [h5, h6] at hu

/-! ### Snapshot -/

theorem ofName_reserved {n : String} (h : Role.isReserved n = true) : (Role.ofName n).name = n := by
  simp only [Role.isReserved, Bool.or_eq_true, beq_iff_eq] at h
  rcases h with ((rfl | rfl) | rfl) | rfl <;> decide

theorem snapshotLoop_spec {l : List (String × Json)} {sn sn' : Snapshot} (h : snapshotLoop sn l = .ok sn') :
    (∀ n, ∀ x ∈ (sn.roleHashes.lookup n).getD [], x ∈ (sn'.roleHashes.lookup n).getD []) ∧
    (∀ kj ∈ l, ∃ hashes, kj.2.get "hashes" = .ok hashes ∧ (hashes.isObject = true → ∃ hs, parseHashes hashes.entries = .ok hs ∧
      ∀ x ∈ hs, x ∈ (sn'.roleHashes.lookup (stripExtension kj.1)).getD [])) ∧
    (∀ n, (∃ kj ∈ l, stripExtension kj.1 = n ∧ ∃ vj v, kj.2.get "version" = .ok vj ∧ vj.asInt = .ok v ∧
        sn'.roleVersion.lookup n = some v) ∨
      ((∀ kj ∈ l, stripExtension kj.1 ≠ n) ∧ sn'.roleVersion.lookup n = sn.roleVersion.lookup n)) := by
  induction l generalizing sn with
  | nil =>
    simp [snapshotLoop] at h
    subst h
    exact ⟨fun _ _ h => h, by simp, fun n => .inr ⟨by simp, rfl⟩⟩
  | cons a l ih =>
    obtain ⟨k, j⟩ := a
    simp only [snapshotLoop, exc_bind_ok] at h
    obtain ⟨hashes, hhs, _, _, ver, hver, _, _, role, hrole, v, hv, sz, hsz, hs, hhp, h⟩ := h
    have hname : role.name = stripExtension k := by
      split at hrole
      · rename_i hr
        simp at hrole
        rw [← hrole]
        exact ofName_reserved hr
      · unfold Role.delegation at hrole
        split at hrole
        · simp at hrole
        · simp at hrole; rw [← hrole]
    obtain ⟨h1, h2, h3⟩ := ih h
    simp only [hname] at h1 h3
    refine ⟨?_, ?_, ?_⟩
    · intro n x hx
      apply h1
      split
      · by_cases hn : n = stripExtension k
        · subst hn
          simp [hx]
        · have : (n == stripExtension k) = false := by simpa using hn
          simp only [List.lookup_cons, this]
          exact hx
      · exact hx
    · intro kj hkj
      rcases List.mem_cons.1 hkj with rfl | hkj
      · refine ⟨hashes, hhs, fun ho => ?_⟩
        simp only [ho, if_true] at hhp
        refine ⟨hs, hhp, fun x hx => ?_⟩
        apply h1
        have hne : hs ≠ [] := by intro h0; rw [h0] at hx; simp at hx
        simp [ho, hne, hx]
      · exact h2 kj hkj
    · intro n
      rcases h3 n with ⟨kj, hkj, hn, hx⟩ | ⟨hno, heq⟩
      · exact .inl ⟨kj, by simp [hkj], hn, hx⟩
      · by_cases hn : n = stripExtension k
        · subst hn
          refine .inl ⟨(k, j), by simp, rfl, ver, v, hver, hv, ?_⟩
          rw [heq]
          simp
        · have hb : (n == stripExtension k) = false := by simpa using hn
          refine .inr ⟨?_, ?_⟩
          · intro kj hkj
            rcases List.mem_cons.1 hkj with rfl | hkj
            · exact fun e => hn e.symm
            · exact hno kj hkj
          · rw [heq]
            simp only [List.lookup_cons, hb]

theorem snapshot_vouches {env : Env} {rawS raw : String} {signer : MetaWithKeys} {s : Snapshot} {role : Role}
    (hs : Snapshot.ofJsonSigned env (env.parseJson rawS) signer = .ok s)
    (hh : Image.roleHashLoop env (env.canon (env.parseJson raw)) (s.hashesOf role) = .ok ()) :
    SnapshotVouches env rawS role.name raw (s.versionOf role) := by
  unfold Snapshot.ofJsonSigned at hs
  simp only [exc_bind_ok] at hs
  obtain ⟨_, _, sg, hsg, ml, hml, _, _, _, _, hl⟩ := hs
  have hok := roleHashLoop_ok hh
  obtain ⟨_, h2, h3⟩ := snapshotLoop_spec hl
  refine ⟨ml, ⟨sg, hsg, ml, hml, rfl⟩, ?_, ?_⟩
  · intro kj hkj hn
    obtain ⟨hashes, hg, hx⟩ := h2 kj hkj
    refine ⟨hashes, hg, fun ho => ?_⟩
    obtain ⟨hs, hp, hm⟩ := hx ho
    refine hashesToAll_of hp (fun x hxm => hok x ?_)
    have := hm x hxm
    rw [hn] at this
    exact this
  · rcases h3 role.name with ⟨kj, hkj, hn, vj, v, hg, hv, hlk⟩ | ⟨hno, hlk⟩
    · refine .inl ⟨kj, hkj, hn, vj, hg, ?_⟩
      rw [hv]
      simp [Snapshot.versionOf, hlk]
    · refine .inr ⟨hno, ?_⟩
      simp [Snapshot.versionOf, hlk]

end Aktualizr
