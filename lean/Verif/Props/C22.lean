import Verif.Model.Download
import Verif.Lemmas.Monad

/-!
# C22, C23, C48: downloaded images

* `C22_downloaded_matches_partial`: after a successful download the bytes stored for the Target
  have its hash, whatever was stored before, however the server splits and interrupts, if the
  Target is not empty and the file system takes what is written.
* `C22_wrong_hash_removed`: when a transfer ended well but the hash is wrong, nothing is stored.
* `C22_never_longer`: a fetch leaves at most as many bytes as the Target has.
* `C22_abort_ends`: no further attempt after an abort.
* `C22_three_attempts_partial`: the same after the attempts of `downloadImage`.
* `C22_batch_partial`: the same at the end of a batch, if its Targets use different files.
* `C22_empty_not_checked`, `C22_write_error_unnoticed`, `C22_batch_loses_image`: what goes wrong
  otherwise.
* `C23_status_exact`, `C23_good_sound`: the verification status.
* `C48_space_checked_partial`, `C48_overflow`: the check of the free space.
-/

namespace Aktualizr.Spec

open Aktualizr.Download (Bytes Digest World Transfer Io)

/-- The bytes stored for a Target: the content of the file its name is mapped to. -/
def storedFor (w : World) (t : Target) : Option Bytes :=
  (w.names t.filename).bind (fun f => if f = "" then none else w.files f)

/-- The content has the digest the Target lists, in the algorithm of its first hash. -/
def HashFits (digest : Digest) (t : Target) (b : Bytes) : Prop :=
  ∃ first, t.hashes.head? = some first ∧ first.type ≠ .unknown ∧
    ∃ h ∈ t.hashes, h.type = first.type ∧ h.hash = upper (digest first.type b)

/-- The file system takes everything that is written. -/
def AllKept (script : List Transfer) : Prop :=
  ∀ tr ∈ script, ∀ c ∈ tr.chunks, c.data.length ≤ c.kept

end Aktualizr.Spec

namespace Aktualizr.Download

open Aktualizr.Spec

theorem restoreLoop_eq : ∀ (n : Nat) (hashed data : Bytes), data.length < n →
    restoreLoop n hashed data = hashed ++ data
  | 0, _, _, h => absurd h (by omega)
  | n + 1, hashed, data, h => by
    unfold restoreLoop
    cases data with
    | nil => simp
    | cons x xs =>
      simp only [List.isEmpty_cons, Bool.false_eq_true, if_false]
      rw [restoreLoop_eq n _ _ (by simp only [List.length_drop, List.length_cons] at h ⊢; omega)]
      rw [List.append_assoc, List.take_append_drop]

@[simp] theorem restore_eq (data : Bytes) : restoreHasherState [] data = data := by
  simp [restoreHasherState, restoreLoop_eq]

theorem stored_eq (w : World) (t : Target) :
    w.checkTargetFile t = (match w.names t.filename with
      | none => none
      | some f => (storedFor w t).map (fun b => (b.length, f))) := by
  unfold World.checkTargetFile storedFor
  cases h : w.names t.filename with
  | none => rfl
  | some f =>
    by_cases hf : f = ""
    · simp [hf]
    · simp only [hf, if_false, Option.bind_some]
      cases w.files f <;> rfl

theorem check_some {w : World} {t : Target} {n : Nat} {f : String} (h : w.checkTargetFile t = some (n, f)) :
    f ≠ "" ∧ w.names t.filename = some f ∧ ∃ b, w.files f = some b ∧ b.length = n ∧ storedFor w t = some b := by
  unfold World.checkTargetFile at h
  cases hn : w.names t.filename with
  | none => simp [hn] at h
  | some g =>
    rw [hn] at h
    simp only at h
    split at h
    · simp at h
    · rename_i hg
      cases hb : w.files g with
      | none => simp [hb] at h
      | some b =>
        simp only [hb, Option.some.injEq, Prod.mk.injEq] at h
        obtain ⟨h1, rfl⟩ := h
        exact ⟨hg, rfl, b, hb, h1, by simp [storedFor, hn, hg, hb]⟩

theorem check_none {w : World} {t : Target} (h : w.checkTargetFile t = none) : storedFor w t = none := by
  unfold World.checkTargetFile at h
  cases hn : w.names t.filename with
  | none => simp [storedFor, hn]
  | some g =>
    rw [hn] at h
    simp only at h
    split at h
    · rename_i hg; simp [storedFor, hn, hg]
    · rename_i hg
      cases hb : w.files g with
      | none => simp [storedFor, hn, hg, hb]
      | some b => simp [hb] at h

theorem fits_iff {digest : Digest} {t : Target} {h0 : Hash} {hs : List Hash} (ht : t.hashes = h0 :: hs)
    (hu : h0.type ≠ .unknown) (b : Bytes) :
    t.matchHash (Hash.mk' h0.type (digest h0.type b)) = true ↔ HashFits digest t b := by
  unfold Target.matchHash HashFits Hash.mk'
  simp only [ht, List.head?_cons, Option.some.injEq, List.contains_iff_mem]
  constructor
  · intro h
    exact ⟨h0, rfl, hu, _, h, rfl, rfl⟩
  · rintro ⟨_, rfl, -, h, hm, h1, h2⟩
    rw [← h2, ← h1]
    exact hm

theorem hasher_ok {ty : HashType} {u : Unit} : hasher ty = .ok u ↔ ty ≠ .unknown := by
  unfold hasher
  split <;> simp_all

theorem hashType_ok {t : Target} {ty : HashType} (h : hashType t = .ok ty) :
    ∃ h0 hs, t.hashes = h0 :: hs ∧ ty = h0.type := by
  unfold hashType at h
  cases ht : t.hashes with
  | nil => simp [ht] at h
  | cons h0 hs => rw [ht] at h; exact ⟨h0, hs, rfl, by simpa using h.symm⟩

theorem open_ok {io : Io} {t : Target} {w w' : World} {b : Bytes} (h : openTargetFile io t w = (.ok b, w')) :
    w' = w ∧ storedFor w t = some b := by
  unfold openTargetFile at h
  cases hc : w.checkTargetFile t with
  | none => simp [hc] at h
  | some p =>
    obtain ⟨n, f⟩ := p
    rw [hc] at h
    simp only at h
    obtain ⟨-, -, b', hb, -, hs⟩ := check_some hc
    split at h
    · simp only [Prod.mk.injEq, Except.ok.injEq, hb, Option.getD_some] at h
      exact ⟨h.2.symm, by rw [hs, h.1]⟩
    · simp at h

theorem open_snd {io : Io} {t : Target} {w : World} : (openTargetFile io t w).2 = w := by
  unfold openTargetFile
  split
  · rfl
  · split <;> rfl

/-- The part of `verifyTarget` for files of the right length. -/
def verifyHash (digest : Digest) (io : Io) (t : Target) : M World Status := do
  let ty ← M.lift (hashType t)
  M.lift (hasher ty)
  let data ← openTargetFile io t
  let content := restoreHasherState [] data
  if t.matchHash (Hash.mk' ty (digest ty content)) then pure .good else pure .hashMismatch

theorem verify_eq {digest : Digest} {io : Io} {t : Target} {w : World} :
    verifyTarget digest io t w = (match w.checkTargetFile t with
      | none => (.ok .notFound, w)
      | some (size, _) =>
        if size < t.length then (.ok .incomplete, w)
        else if size > t.length then (.ok .oversized, w)
        else verifyHash digest io t w) := by
  unfold verifyTarget
  rw [M.run_bind (M.gets_eq)]
  cases w.checkTargetFile t with
  | none => rfl
  | some p => simp only [M.ite_app, M.pure_eq]; rfl

theorem verifyHash_ok {digest : Digest} {io : Io} {t : Target} {w w' : World} {s : Status}
    (h : verifyHash digest io t w = (.ok s, w')) :
    w' = w ∧ ∃ b, storedFor w t = some b ∧
      ((s = .good ∧ HashFits digest t b) ∨ (s = .hashMismatch ∧ ¬ HashFits digest t b)) := by
  unfold verifyHash at h
  replace h := M.bind_ok.1 h
  obtain ⟨ty, w2, h1, h⟩ := h
  simp only [M.lift_eq, Prod.mk.injEq] at h1
  obtain ⟨h1, rfl⟩ := h1
  replace h := M.bind_ok.1 h
  obtain ⟨u, w3, h2, h⟩ := h
  simp only [M.lift_eq, Prod.mk.injEq, hasher_ok] at h2
  obtain ⟨h2, rfl⟩ := h2
  replace h := M.bind_ok.1 h
  obtain ⟨b', w4, h3, h⟩ := h
  obtain ⟨rfl, h3⟩ := open_ok h3
  obtain ⟨h0, hs, ht, rfl⟩ := hashType_ok h1
  rw [restore_eq, M.ite_app] at h
  split at h <;> rename_i hm <;> simp only [M.pure_eq, Prod.mk.injEq, Except.ok.injEq] at h <;>
    obtain ⟨rfl, rfl⟩ := h
  · exact ⟨rfl, b', h3, .inl ⟨rfl, (fits_iff ht h2 b').1 hm⟩⟩
  · exact ⟨rfl, b', h3, .inr ⟨rfl, fun hf => hm ((fits_iff ht h2 b').2 hf)⟩⟩

theorem verifyHash_snd {digest : Digest} {io : Io} {t : Target} {w w' : World} {e : Err}
    (h : verifyHash digest io t w = (.error e, w')) : w' = w := by
  unfold verifyHash at h
  rcases M.bind_err.1 h with h1 | ⟨ty, w2, h1, h⟩
  · simp only [M.lift_eq, Prod.mk.injEq] at h1; exact h1.2.symm
  · simp only [M.lift_eq, Prod.mk.injEq] at h1
    obtain ⟨-, rfl⟩ := h1
    rcases M.bind_err.1 h with h1 | ⟨u, w3, h1, h⟩
    · simp only [M.lift_eq, Prod.mk.injEq] at h1; exact h1.2.symm
    · simp only [M.lift_eq, Prod.mk.injEq] at h1
      obtain ⟨-, rfl⟩ := h1
      rcases M.bind_err.1 h with h1 | ⟨b, w4, h1, h⟩
      · have := @open_snd io t w; rw [h1] at this; exact this
      · rw [M.ite_app] at h
        split at h <;> simp at h

/-- `verifyTarget` changes nothing. -/
theorem verify_snd {digest : Digest} {io : Io} {t : Target} {w w' : World} {o : Except Err Status}
    (h : verifyTarget digest io t w = (o, w')) : w' = w := by
  rw [verify_eq] at h
  cases hc : w.checkTargetFile t with
  | none => rw [hc] at h; simp only [Prod.mk.injEq] at h; exact h.2.symm
  | some p =>
    obtain ⟨n, f⟩ := p
    rw [hc] at h
    simp only at h
    split at h
    · simp only [Prod.mk.injEq] at h; exact h.2.symm
    · split at h
      · simp only [Prod.mk.injEq] at h; exact h.2.symm
      · cases o with
        | ok s => exact (verifyHash_ok h).1
        | error e => exact verifyHash_snd h

/-- What a returned status says. -/
theorem verify_ok {digest : Digest} {io : Io} {t : Target} {w w' : World} {s : Status}
    (h : verifyTarget digest io t w = (.ok s, w')) :
    match s with
    | .notFound => storedFor w t = none
    | .incomplete => ∃ b, storedFor w t = some b ∧ b.length < t.length
    | .oversized => ∃ b, storedFor w t = some b ∧ t.length < b.length
    | .good => ∃ b, storedFor w t = some b ∧ b.length = t.length ∧ HashFits digest t b
    | .hashMismatch => ∃ b, storedFor w t = some b ∧ b.length = t.length ∧ ¬ HashFits digest t b := by
  rw [verify_eq] at h
  cases hc : w.checkTargetFile t with
  | none =>
    rw [hc] at h
    simp only [Prod.mk.injEq, Except.ok.injEq] at h
    obtain ⟨rfl, -⟩ := h
    exact check_none hc
  | some p =>
    obtain ⟨n, f⟩ := p
    rw [hc] at h
    simp only at h
    obtain ⟨-, -, b, -, hlen, hb⟩ := check_some hc
    split at h
    · simp only [Prod.mk.injEq, Except.ok.injEq] at h
      obtain ⟨rfl, -⟩ := h
      exact ⟨b, hb, by omega⟩
    · split at h
      · simp only [Prod.mk.injEq, Except.ok.injEq] at h
        obtain ⟨rfl, -⟩ := h
        exact ⟨b, hb, by omega⟩
      · obtain ⟨-, b', hb', ⟨rfl, hh⟩ | ⟨rfl, hh⟩⟩ := verifyHash_ok h <;>
        · have hbb : b' = b := by rw [hb] at hb'; simpa using hb'.symm
          subst hbb
          exact ⟨b', hb, by omega, hh⟩

/-- With a readable directory and a known hash the verification returns. -/
theorem verify_total {digest : Digest} {io : Io} {t : Target} {w : World} {h0 : Hash}
    (hr : io.read = true) (hh : t.hashes.head? = some h0) (hu : h0.type ≠ .unknown) :
    ∃ s, verifyTarget digest io t w = (.ok s, w) := by
  obtain ⟨hs, ht⟩ : ∃ hs, t.hashes = h0 :: hs := by
    cases ht : t.hashes with
    | nil => simp [ht] at hh
    | cons x xs => rw [ht] at hh; simp at hh; exact ⟨xs, by rw [hh]⟩
  rw [verify_eq]
  cases hc : w.checkTargetFile t with
  | none => exact ⟨_, rfl⟩
  | some p =>
    obtain ⟨n, f⟩ := p
    simp only
    split
    · exact ⟨_, rfl⟩
    · split
      · exact ⟨_, rfl⟩
      · unfold verifyHash
        rw [M.run_bind (a := h0.type) (w1 := w) (by simp [hashType, ht])]
        rw [M.run_bind (a := ()) (w1 := w) (by simp [hasher, hu])]
        rw [M.run_bind (a := (w.files f).getD []) (w1 := w) (by simp [openTargetFile, hc, hr])]
        rw [M.ite_app]
        split
        · exact ⟨_, rfl⟩
        · exact ⟨_, rfl⟩

/-! ### Transfers -/

/-- What a transfer does to the file being written. -/
theorem deliver_spec {length : Nat} : ∀ (cs : List Chunk) (ds : Ds) (files : String → Option Bytes) (f : String)
    (b : Bytes), ds.out = some f → files f = some b →
    (∀ g, g ≠ f → (deliver length cs ds files).2.1 g = files g) ∧
    (deliver length cs ds files).1.out = some f ∧
    ∃ b', (deliver length cs ds files).2.1 f = some b' ∧
      ((∀ c ∈ cs, c.data.length ≤ c.kept) → ds.bad = false → b = ds.hashed →
        b' = (deliver length cs ds files).1.hashed ∧ (deliver length cs ds files).1.bad = false)
  | [], ds, files, f, b, ho, hf => by
    unfold deliver
    exact ⟨fun _ _ => rfl, ho, b, hf, fun _ hb he => ⟨he, hb⟩⟩
  | c :: cs, ds, files, f, b, ho, hf => by
    unfold deliver
    split
    · exact ⟨fun _ _ => by simp, ho, b, hf, fun _ hb he => ⟨he, hb⟩⟩
    · simp only [ho]
      have ih := deliver_spec (length := length) cs
        { ds with
          len := u64 (ds.len + c.data.length)
          hashed := ds.hashed ++ c.data
          bad := ds.bad || decide (c.kept < c.data.length) }
        (fun g => if g = f then (files f).map (· ++ (if ds.bad then [] else c.data.take c.kept)) else files g)
        f (b ++ (if ds.bad then [] else c.data.take c.kept)) ho (by simp [hf])
      rw [ho] at ih
      obtain ⟨h1, h2, b', h3, h4⟩ := ih
      refine ⟨?_, h2, b', h3, ?_⟩
      · intro g hg
        rw [h1 g hg]
        simp [hg]
      · intro hk hbad he
        have hck := hk c (by simp)
        apply h4 (fun c' hc' => hk c' (by simp [hc']))
        · simp [hbad, Nat.not_lt.2 hck]
        · simp [hbad, he, List.take_of_length_le hck]

/-- The stream, the hasher and the table agree. -/
structure Sync (kept : Prop) (t : Target) (ds : Ds) (w : World) : Prop where
  out : ∃ f b, ds.out = some f ∧ f ≠ "" ∧ w.names t.filename = some f ∧ w.files f = some b ∧
    (kept → b = ds.hashed ∧ ds.bad = false)

theorem create_ok {io : Io} {t : Target} {w w' : World} {f : String} (h : createTargetFile io t w = (.ok f, w')) :
    (∃ h0, t.hashes.head? = some h0 ∧ f = h0.hash) ∧ f ≠ "" ∧
    w'.files = (fun g => if g = f then some [] else w.files g) ∧
    w'.names = (fun n => if n = t.filename then some f else w.names n) ∧ w'.log = w.log := by
  unfold createTargetFile at h
  cases ht : t.hashes with
  | nil => simp [ht] at h
  | cons h0 hs =>
    rw [ht] at h
    simp only at h
    split at h
    · rename_i hc
      simp only [Bool.and_eq_true, bne_iff_ne] at hc
      simp only [Prod.mk.injEq, Except.ok.injEq] at h
      obtain ⟨rfl, rfl⟩ := h
      exact ⟨⟨h0, rfl, rfl⟩, hc.2, rfl, rfl, rfl⟩
    · simp at h

theorem create_err {io : Io} {t : Target} {w w' : World} {e : Err} (h : createTargetFile io t w = (.error e, w')) :
    w' = w := by
  unfold createTargetFile at h
  cases ht : t.hashes with
  | nil => rw [ht] at h; simp only [Prod.mk.injEq] at h; exact h.2.symm
  | cons h0 hs =>
    rw [ht] at h
    simp only at h
    split at h
    · simp at h
    · simp only [Prod.mk.injEq] at h; exact h.2.symm

theorem append_ok {io : Io} {t : Target} {w w' : World} {f : String} (h : appendTargetFile io t w = (.ok f, w')) :
    w' = w ∧ ∃ n, w.checkTargetFile t = some (n, f) := by
  unfold appendTargetFile at h
  cases hc : w.checkTargetFile t with
  | none => simp [hc] at h
  | some p =>
    obtain ⟨n, g⟩ := p
    rw [hc] at h
    simp only at h
    split at h
    · simp only [Prod.mk.injEq, Except.ok.injEq] at h
      exact ⟨h.2.symm, n, by rw [h.1]⟩
    · simp at h

theorem append_err {io : Io} {t : Target} {w w' : World} {e : Err} (h : appendTargetFile io t w = (.error e, w')) :
    w' = w := by
  unfold appendTargetFile at h
  split at h
  · simp only [Prod.mk.injEq] at h; exact h.2.symm
  · split at h
    · simp at h
    · simp only [Prod.mk.injEq] at h; exact h.2.symm

/-- One transfer as a step of the loop. -/
theorem loop_step {io : Io} {token : Bool} {t : Target} {ty : HashType} {tr : Transfer} {rest : List Transfer}
    {ds : Ds} {w w' : World} {o : Except Err (Ds × CurlEnd × Int)}
    (h : fetchLoop io token t ty (tr :: rest) ds w = (o, w')) :
    (w' = w ∧ ∃ e, o = .error e ∧ e.isStd = false) ∨
    ∃ r w1, r = deliver t.length tr.chunks ds w.files ∧
      w1 = { w with files := r.2.1, log := w.log ++ [(ds.len, tr.code r.2.2, tr.status)] } ∧
      ((w' = w1 ∧ ∃ e, o = .error e ∧ tr.code r.2.2 ≠ .ok) ∨
       (tr.code r.2.2 = .rangeError ∧ ∃ f w2, createTargetFile io t w1 = (.ok f, w2) ∧
         fetchLoop io token t ty rest { out := some f } w2 = (o, w')) ∨
       (tr.code r.2.2 = .interrupted ∧ ∃ f, appendTargetFile io t w1 = (.ok f, w1) ∧
         fetchLoop io token t ty rest { r.1 with out := some f, bad := false } w1 = (o, w')) ∨
       (w' = w1 ∧ o = .ok (r.1, tr.code r.2.2, tr.status))) := by
  unfold fetchLoop at h
  rw [M.ite_app] at h
  split at h
  · simp only [M.throw_eq, Prod.mk.injEq] at h
    exact .inl ⟨h.2.symm, _, h.1.symm, rfl⟩
  · right
    rw [M.run_bind (a := w) (w1 := w) (by simp)] at h
    refine ⟨_, _, rfl, rfl, ?_⟩
    rw [M.run_bind (a := ()) (M.modify_eq)] at h
    generalize deliver t.length tr.chunks ds w.files = r at *
    generalize { w with files := r.2.1, log := w.log ++ [(ds.len, tr.code r.2.2, tr.status)] } = w1 at *
    rw [M.ite_app] at h
    split at h
    · rename_i hc
      rcases M.bind_cases h with ⟨f, w2, h1, h⟩ | ⟨e, h1, he⟩
      · exact .inr (.inl ⟨hc, f, w2, h1, h⟩)
      · exact .inl ⟨create_err h1, e, he, by rw [hc]; simp⟩
    · rw [M.ite_app] at h
      split at h
      · rename_i hc
        rw [M.ite_app] at h
        split at h
        · simp only [M.throw_eq, Prod.mk.injEq] at h
          exact .inl ⟨h.2.symm, _, h.1.symm, by rw [hc]; simp⟩
        · rw [M.ite_app] at h
          split at h
          · simp only [M.throw_eq, Prod.mk.injEq] at h
            exact .inl ⟨h.2.symm, _, h.1.symm, by rw [hc]; simp⟩
          · rcases M.bind_cases h with ⟨f, w2, h1, h⟩ | ⟨e, h1, he⟩
            · obtain ⟨hw, -⟩ := append_ok h1
              rw [hw] at h1 h
              exact .inr (.inr (.inl ⟨hc, f, h1, h⟩))
            · exact .inl ⟨append_err h1, e, he, by rw [hc]; simp⟩
      · simp only [M.pure_eq, Prod.mk.injEq] at h
        exact .inr (.inr (.inr ⟨h.2.symm, h.1.symm⟩))

/-- The loop keeps stream, hasher and table in agreement. -/
theorem loop_sync {io : Io} {token : Bool} {t : Target} {ty : HashType} {K : Prop} : ∀ (script : List Transfer)
    (ds : Ds) (w w' : World) (r : Ds × CurlEnd × Int), (K → AllKept script) → Sync K t ds w →
    fetchLoop io token t ty script ds w = (.ok r, w') → Sync K t r.1 w'
  | [], ds, w, w', r, _, _, h => by simp [fetchLoop] at h
  | tr :: rest, ds, w, w', r, hK, hs, h => by
    have hK' : K → AllKept rest := fun k x hx => hK k x (by simp [hx])
    rcases loop_step h with ⟨-, e, he, -⟩ | ⟨d, w1, hd, hw1, h⟩
    · simp at he
    · obtain ⟨f, b, ho, hne, hn, hf, hkept⟩ := hs.out
      obtain ⟨-, h2, b', h3, h4⟩ := deliver_spec (length := t.length) tr.chunks ds w.files f b ho hf
      rw [← hd] at h2 h3 h4
      have hs1 : Sync K t d.1 w1 :=
        ⟨⟨f, b', h2, hne, by rw [hw1]; exact hn, by rw [hw1]; exact h3,
          fun k => h4 (fun c hc => hK k tr (by simp) c hc) (hkept k).2 (hkept k).1⟩⟩
      rcases h with ⟨-, e, he, -⟩ | ⟨-, g, w2, hc, h⟩ | ⟨-, g, hc, h⟩ | ⟨hw, ho'⟩
      · simp at he
      · obtain ⟨-, hg, h5, h6, -⟩ := create_ok hc
        exact loop_sync rest _ _ _ _ hK'
          ⟨⟨g, [], rfl, hg, by simp [h6], by simp [h5], fun _ => ⟨rfl, rfl⟩⟩⟩ h
      · obtain ⟨-, n, hc⟩ := append_ok hc
        obtain ⟨hg, hgn, -⟩ := check_some hc
        obtain ⟨f1, b1, p1, p2, p3, p4, p5⟩ := hs1.out
        have hfg : f1 = g := by rw [hgn] at p3; simpa using p3.symm
        subst hfg
        exact loop_sync rest { d.1 with out := some f1, bad := false } _ _ _ hK' ⟨⟨f1, b1, rfl, p2, p3, p4, fun k => ⟨(p5 k).1, rfl⟩⟩⟩ h
      · simp only [Except.ok.injEq] at ho'
        rw [hw, ho']
        exact hs1

/-! ### One fetch -/

theorem remove_ok {t : Target} {w w' : World} {u : Unit} (h : removeTargetFile t w = (.ok u, w')) :
    storedFor w' t = none ∧ w'.log = w.log ∧ ∃ f, w.names t.filename = some f ∧
      w'.files = (fun g => if g = f then none else w.files g) ∧
      w'.names = (fun n => if n = t.filename then none else w.names n) := by
  unfold removeTargetFile at h
  cases hc : w.checkTargetFile t with
  | none => simp [hc] at h
  | some p =>
    obtain ⟨n, f⟩ := p
    rw [hc] at h
    simp only [Prod.mk.injEq, true_and] at h
    subst h
    exact ⟨by simp [storedFor], rfl, f, (check_some hc).2.1, rfl, rfl⟩

theorem remove_err {t : Target} {w w' : World} {e : Err} (h : removeTargetFile t w = (.error e, w')) :
    w' = w ∧ w.checkTargetFile t = none := by
  unfold removeTargetFile at h
  cases hc : w.checkTargetFile t with
  | none => rw [hc] at h; simp only [Prod.mk.injEq] at h; exact ⟨h.2.symm, rfl⟩
  | some p => simp [hc] at h

/-- The start of a download: what is in the file and what was found. -/
def startDs (io : Io) (found : Status) (ty : HashType) (t : Target) : M World Ds :=
  if found = .incomplete then do
    let size ← M.orThrow (← M.gets (·.checkTargetFile t)) (.ub "empty optional")
    M.lift (hasher ty)
    let data ← openTargetFile io t
    let f ← appendTargetFile io t
    pure { len := size.1, hashed := restoreHasherState [] data, out := some f : Ds }
  else do
    let f ← createTargetFile io t
    pure { out := some f : Ds }

/-- The end of a download. -/
def finish (digest : Digest) (ty : HashType) (t : Target) (r : Ds × CurlEnd × Int) : M World Bool :=
  if r.2.1 != .ok || !(decide (200 ≤ r.2.2) && decide (r.2.2 < 400)) then
    M.throw (.std "Could not download file")
  else do
    M.lift (hasher ty)
    if t.matchHash (Hash.mk' ty (digest ty r.1.hashed)) then pure true
    else do
      removeTargetFile t
      M.throw (.std "TargetHashMismatch")

theorem start_sync {io : Io} {found : Status} {ty : HashType} {t : Target} {w w' : World} {ds : Ds} {K : Prop}
    (h : startDs io found ty t w = (.ok ds, w')) : Sync K t ds w' ∧ w'.log = w.log := by
  unfold startDs at h
  rw [M.ite_app] at h
  split at h
  · rw [M.run_bind (M.gets_eq)] at h
    replace h := M.bind_ok.1 h
    obtain ⟨size, w1, h1, h⟩ := h
    rw [M.orThrow_ok] at h1
    obtain ⟨h1, rfl⟩ := h1
    replace h := M.bind_ok.1 h
    obtain ⟨u, w2, h2, h⟩ := h
    simp only [M.lift_eq, Prod.mk.injEq] at h2
    obtain ⟨-, rfl⟩ := h2
    replace h := M.bind_ok.1 h
    obtain ⟨data, w3, h3, h⟩ := h
    obtain ⟨rfl, h3⟩ := open_ok h3
    replace h := M.bind_ok.1 h
    obtain ⟨f, w4, h4, h⟩ := h
    obtain ⟨rfl, n, h4⟩ := append_ok h4
    simp only [M.pure_eq, Prod.mk.injEq, Except.ok.injEq] at h
    obtain ⟨rfl, rfl⟩ := h
    obtain ⟨q1, q2, b, q3, -, q4⟩ := check_some h4
    rw [q4] at h3
    simp only [Option.some.injEq] at h3
    subst h3
    exact ⟨⟨⟨f, b, rfl, q1, q2, q3, fun _ => ⟨by simp, rfl⟩⟩⟩, rfl⟩
  · replace h := M.bind_ok.1 h
    obtain ⟨f, w1, h1, h⟩ := h
    obtain ⟨-, q1, q2, q3, q4⟩ := create_ok h1
    simp only [M.pure_eq, Prod.mk.injEq, Except.ok.injEq] at h
    obtain ⟨rfl, rfl⟩ := h
    exact ⟨⟨⟨f, [], rfl, q1, by simp [q3], by simp [q2], fun _ => ⟨rfl, rfl⟩⟩⟩, q4⟩

/-- Ways through the body of `fetchTarget`. -/
theorem body_cases {digest : Digest} {io : Io} {token : Bool} {script : List Transfer} {t : Target} {w w' : World}
    {o : Except Err Bool} (h : fetchBody digest io token script t w = (o, w')) :
    (w' = w ∧ ∃ e, o = .error e) ∨
    (o = .ok true ∧ w' = w ∧ verifyTarget digest io t w = (.ok .good, w)) ∨
    ∃ found ty, verifyTarget digest io t w = (.ok found, w) ∧ found ≠ .good ∧ hashType t = .ok ty ∧
      ((t.length = 0 ∧ (∃ f, createTargetFile io t w = (.ok f, w')) ∧ o = .ok true) ∨
       (t.length = 0 ∧ (∃ e, createTargetFile io t w = (.error e, w') ∧ o = .error e)) ∨
       (t.length ≠ 0 ∧
        ((∃ e, startDs io found ty t w = (.error e, w') ∧ o = .error e) ∨
         ∃ ds w1, startDs io found ty t w = (.ok ds, w1) ∧
          ((checkAvailableDiskSpace io (u64 (t.length - ds.len)) = false ∧ w' = w1 ∧ ∃ e, o = .error e) ∨
           (checkAvailableDiskSpace io (u64 (t.length - ds.len)) = true ∧
            ((∃ e, fetchLoop io token t ty script ds w1 = (.error e, w') ∧ o = .error e) ∨
             ∃ r w2, fetchLoop io token t ty script ds w1 = (.ok r, w2) ∧
              finish digest ty t r w2 = (o, w'))))))) := by
  unfold fetchBody at h
  have hin := h
  clear h
  rcases M.bind_cases hin with ⟨u, w1, h1, h⟩ | ⟨e, h1, he⟩
  · rw [M.throwWhen_ok] at h1
    obtain ⟨-, rfl⟩ := h1
    clear hin
    rcases M.bind_cases h with ⟨found, w1, h1, hb⟩ | ⟨e, h1, he⟩
    · clear h
      have h := hb
      clear hb
      obtain rfl := verify_snd h1
      rw [M.ite_app] at h
      split at h
      · rename_i hg
        subst hg
        simp only [M.pure_eq, Prod.mk.injEq] at h
        exact .inr (.inl ⟨h.1.symm, h.2.symm, h1⟩)
      · rename_i hg
        rcases M.bind_cases h with ⟨ty, w2, h2, h⟩ | ⟨e, h2, he⟩
        · simp only [M.lift_eq, Prod.mk.injEq] at h2
          obtain ⟨h2, rfl⟩ := h2
          refine .inr (.inr ⟨found, ty, h1, hg, h2, ?_⟩)
          rw [M.ite_app] at h
          split at h
          · rename_i hl
            rcases M.bind_cases h with ⟨f, w2, h3, h⟩ | ⟨e, h3, he⟩
            · simp only [M.pure_eq, Prod.mk.injEq] at h
              obtain ⟨rfl, rfl⟩ := h
              exact .inl ⟨hl, ⟨f, h3⟩, rfl⟩
            · exact .inr (.inl ⟨hl, e, h3, he⟩)
          · rename_i hl
            refine .inr (.inr ⟨hl, ?_⟩)
            rcases M.bind_cases h with ⟨ds, w2, h3, h⟩ | ⟨e, h3, he⟩
            · refine .inr ⟨ds, w2, h3, ?_⟩
              rcases M.bind_cases h with ⟨u, w3, h4, h⟩ | ⟨e, h4, he⟩
              · rw [M.throwWhen_ok] at h4
                obtain ⟨h4, rfl⟩ := h4
                refine .inr ⟨by simpa using h4, ?_⟩
                rcases M.bind_cases h with ⟨r, w3, h5, h⟩ | ⟨e, h5, he⟩
                · exact .inr ⟨r, w3, h5, h⟩
                · exact .inl ⟨e, h5, he⟩
              · left
                unfold M.throwWhen at h4
                simp only [Prod.mk.injEq] at h4
                refine ⟨?_, h4.2.symm, e, he⟩
                by_cases hc : checkAvailableDiskSpace io (u64 (t.length - ds.len)) = true
                · simp [hc] at h4
                · simpa using hc
            · exact .inl ⟨e, h3, he⟩
        · simp only [M.lift_eq, Prod.mk.injEq] at h2
          exact .inl ⟨h2.2.symm, e, he⟩
    · exact .inl ⟨verify_snd h1, e, he⟩
  · unfold M.throwWhen at h1
    simp only [Prod.mk.injEq] at h1
    exact .inl ⟨h1.2.symm, e, he⟩

theorem fetch_true {digest : Digest} {io : Io} {token : Bool} {script : List Transfer} {t : Target} {w w' : World}
    (h : fetchTarget digest io token script t w = (.ok true, w')) :
    fetchBody digest io token script t w = (.ok true, w') := by
  unfold fetchTarget M.catchStd at h
  split at h
  · split at h <;> simp at h
  · exact h

theorem fetch_false {digest : Digest} {io : Io} {token : Bool} {script : List Transfer} {t : Target} {w w' : World}
    (h : fetchTarget digest io token script t w = (.ok false, w')) :
    fetchBody digest io token script t w = (.ok false, w') ∨
      ∃ e, e.isStd = true ∧ fetchBody digest io token script t w = (.error e, w') := by
  unfold fetchTarget M.catchStd at h
  split at h
  · rename_i e w1 heq
    split at h
    · rename_i hs
      simp only [M.pure_eq, Prod.mk.injEq, true_and] at h
      exact .inr ⟨e, hs, by rw [heq, h]⟩
    · simp at h
  · exact .inl h

theorem finish_true {digest : Digest} {ty : HashType} {t : Target} {r : Ds × CurlEnd × Int} {w w' : World}
    (h : finish digest ty t r w = (.ok true, w')) :
    w' = w ∧ ty ≠ .unknown ∧ t.matchHash (Hash.mk' ty (digest ty r.1.hashed)) = true := by
  unfold finish at h
  rw [M.ite_app] at h
  split at h
  · simp at h
  · replace h := M.bind_ok.1 h
    obtain ⟨u, w1, h1, h⟩ := h
    simp only [M.lift_eq, Prod.mk.injEq, hasher_ok] at h1
    obtain ⟨h1, rfl⟩ := h1
    rw [M.ite_app] at h
    split at h
    · rename_i hm
      simp only [M.pure_eq, Prod.mk.injEq] at h
      exact ⟨h.2.symm, h1, hm⟩
    · replace h := M.bind_ok.1 h
      obtain ⟨u, w1, -, h⟩ := h
      simp at h

/-! ### The log of transfers -/

/-- What the end of the log says about the outcome of the loop. -/
def LastFits (o : Except Err (Ds × CurlEnd × Int)) (new : List (Nat × CurlEnd × Int)) : Prop :=
  match o with
  | .ok r => ∃ off, new.getLast? = some (off, r.2.1, r.2.2)
  | .error _ => ∀ e ∈ new.getLast?, e.2.1 ≠ .ok

theorem loop_log {io : Io} {token : Bool} {t : Target} {ty : HashType} : ∀ (script : List Transfer)
    (ds : Ds) (w w' : World) (o : Except Err (Ds × CurlEnd × Int)),
    fetchLoop io token t ty script ds w = (o, w') →
    ∃ new, w'.log = w.log ++ new ∧ (∀ e ∈ new.head?, e.1 = ds.len) ∧ LastFits o new
  | [], ds, w, w', o, h => by
    simp only [fetchLoop, M.throw_eq, Prod.mk.injEq] at h
    obtain ⟨rfl, rfl⟩ := h
    exact ⟨[], by simp [LastFits]⟩
  | tr :: rest, ds, w, w', o, h => by
    rcases loop_step h with ⟨rfl, e, rfl, -⟩ | ⟨d, w1, hd, hw1, hc⟩
    · exact ⟨[], by simp [LastFits]⟩
    · have hl1 : w1.log = w.log ++ [(ds.len, tr.code d.2.2, tr.status)] := by rw [hw1]
      have step : ∀ ds' w2, w2.log = w1.log → tr.code d.2.2 ≠ .ok →
          fetchLoop io token t ty rest ds' w2 = (o, w') →
          ∃ new, w'.log = w.log ++ new ∧ (∀ e ∈ new.head?, e.1 = ds.len) ∧ LastFits o new := by
        intro ds' w2 hl2 hne hr
        obtain ⟨new, q1, -, q2⟩ := loop_log rest ds' w2 w' o hr
        refine ⟨(ds.len, tr.code d.2.2, tr.status) :: new, by rw [q1, hl2, hl1]; simp, by simp, ?_⟩
        cases o with
        | ok r =>
          obtain ⟨off, q2⟩ := q2
          exact ⟨off, by rw [List.getLast?_cons]; simp [q2]⟩
        | error e =>
          intro x hx
          rw [List.getLast?_cons] at hx
          simp only [Option.mem_def, Option.some.injEq] at hx
          cases hn : new.getLast? with
          | none => rw [hn] at hx; simp only [Option.getD_none] at hx; rw [← hx]; exact hne
          | some y => rw [hn] at hx; simp only [Option.getD_some] at hx; exact q2 x (by rw [hn, ← hx]; simp)
      rcases hc with ⟨rfl, e, rfl, hne⟩ | ⟨hcode, g, w2, hc, hr⟩ | ⟨hcode, g, hc, hr⟩ | ⟨rfl, rfl⟩
      · exact ⟨_, hl1, by simp, by simpa [LastFits] using hne⟩
      · exact step _ w2 (create_ok hc).2.2.2.2 (by rw [hcode]; simp) hr
      · exact step _ w1 rfl (by rw [hcode]; simp) hr
      · exact ⟨_, hl1, by simp, by simp [LastFits]⟩

theorem start_err {io : Io} {found : Status} {ty : HashType} {t : Target} {w w' : World} {e : Err}
    (h : startDs io found ty t w = (.error e, w')) : w' = w := by
  unfold startDs at h
  rw [M.ite_app] at h
  split at h
  · rw [M.run_bind (M.gets_eq)] at h
    rcases M.bind_err.1 h with h1 | ⟨size, w1, h1, h2⟩
    · have := @M.orThrow_snd World _ w (w.checkTargetFile t) (.ub "empty optional")
      rw [h1] at this; exact this
    · rw [M.orThrow_ok] at h1
      obtain ⟨-, rfl⟩ := h1
      rcases M.bind_err.1 h2 with h3 | ⟨u, w2, h3, h4⟩
      · simp only [M.lift_eq, Prod.mk.injEq] at h3; exact h3.2.symm
      · simp only [M.lift_eq, Prod.mk.injEq] at h3
        obtain ⟨-, rfl⟩ := h3
        rcases M.bind_err.1 h4 with h5 | ⟨data, w3, h5, h6⟩
        · have := @open_snd io t w; rw [h5] at this; exact this
        · obtain ⟨rfl, -⟩ := open_ok h5
          rcases M.bind_err.1 h6 with h7 | ⟨f, w4, h7, h8⟩
          · exact append_err h7
          · simp at h8
  · rcases M.bind_err.1 h with h1 | ⟨f, w1, h1, h2⟩
    · exact create_err h1
    · simp at h2

/-- Where the download starts. -/
theorem start_len {digest : Digest} {io : Io} {found : Status} {ty : HashType} {t : Target} {w w' : World} {ds : Ds}
    (hv : verifyTarget digest io t w = (.ok found, w)) (h : startDs io found ty t w = (.ok ds, w')) :
    ds.len ≤ t.length := by
  unfold startDs at h
  rw [M.ite_app] at h
  split at h
  · rename_i hf
    subst hf
    obtain ⟨b, hb, hlt⟩ := verify_ok hv
    rw [M.run_bind (M.gets_eq)] at h
    replace h := M.bind_ok.1 h
    obtain ⟨size, w1, h1, h⟩ := h
    rw [M.orThrow_ok] at h1
    obtain ⟨h1, rfl⟩ := h1
    replace h := M.bind_ok.1 h
    obtain ⟨u, w2, h2, h⟩ := h
    replace h := M.bind_ok.1 h
    obtain ⟨data, w3, h3, h⟩ := h
    replace h := M.bind_ok.1 h
    obtain ⟨f, w4, h4, h⟩ := h
    simp only [M.pure_eq, Prod.mk.injEq, Except.ok.injEq] at h
    obtain ⟨rfl, -⟩ := h
    obtain ⟨n, g⟩ := size
    obtain ⟨-, -, b', -, hl, hb'⟩ := check_some h1
    rw [hb] at hb'
    simp only [Option.some.injEq] at hb'
    subst hb'
    simp only
    omega
  · replace h := M.bind_ok.1 h
    obtain ⟨f, w1, -, h⟩ := h
    simp only [M.pure_eq, Prod.mk.injEq, Except.ok.injEq] at h
    obtain ⟨rfl, -⟩ := h
    simp

theorem finish_log {digest : Digest} {ty : HashType} {t : Target} {r : Ds × CurlEnd × Int} {w w' : World}
    {o : Except Err Bool} (h : finish digest ty t r w = (o, w')) : w'.log = w.log := by
  unfold finish at h
  rw [M.ite_app] at h
  split at h
  · simp only [M.throw_eq, Prod.mk.injEq] at h; rw [h.2]
  · rcases M.bind_cases h with ⟨u, w1, h1, h2⟩ | ⟨e, h1, -⟩
    · simp only [M.lift_eq, Prod.mk.injEq] at h1
      obtain ⟨-, rfl⟩ := h1
      rw [M.ite_app] at h2
      split at h2
      · simp only [M.pure_eq, Prod.mk.injEq] at h2; rw [h2.2]
      · rcases M.bind_cases h2 with ⟨u, w1, h3, h4⟩ | ⟨e, h3, -⟩
        · simp only [M.throw_eq, Prod.mk.injEq] at h4
          rw [← h4.2]; exact (remove_ok h3).2.1
        · rw [(remove_err h3).1]
    · simp only [M.lift_eq, Prod.mk.injEq] at h1; rw [h1.2]

/-- A transfer that ended well, and a failure: the file is removed. -/
theorem finish_removed {digest : Digest} {ty : HashType} {t : Target} {r : Ds × CurlEnd × Int} {w w' : World}
    {o : Except Err Bool} (h : finish digest ty t r w = (o, w')) (hu : ty ≠ .unknown) (hok : r.2.1 = .ok)
    (h1 : 200 ≤ r.2.2) (h2 : r.2.2 < 400) (ho : o ≠ .ok true) : storedFor w' t = none := by
  unfold finish at h
  rw [M.ite_app] at h
  split at h
  · rename_i hc
    simp [hok, h1, h2] at hc
  · rw [M.run_bind (a := ()) (w1 := w) (by simp [hasher, hu])] at h
    rw [M.ite_app] at h
    split at h
    · simp only [M.pure_eq, Prod.mk.injEq] at h; exact absurd h.1.symm ho
    · rcases M.bind_cases h with ⟨u, w1, h3, h4⟩ | ⟨e, h3, -⟩
      · simp only [M.throw_eq, Prod.mk.injEq] at h4
        rw [← h4.2]; exact (remove_ok h3).1
      · rw [(remove_err h3).1]; exact check_none (remove_err h3).2

theorem fetch_body {digest : Digest} {io : Io} {token : Bool} {script : List Transfer} {t : Target} {w w' : World}
    {o : Except Err Bool} (h : fetchTarget digest io token script t w = (o, w')) :
    ∃ o', fetchBody digest io token script t w = (o', w') ∧ (o' = o ∨ (o = .ok false ∧ ∃ e, o' = .error e)) := by
  unfold fetchTarget M.catchStd at h
  cases hb : fetchBody digest io token script t w with
  | mk o' w1 =>
    rw [hb] at h
    cases o' with
    | ok b =>
      simp only [Prod.mk.injEq] at h
      exact ⟨.ok b, by rw [h.2], .inl h.1⟩
    | error e =>
      simp only at h
      split at h
      · simp only [M.pure_eq, Prod.mk.injEq] at h
        exact ⟨.error e, by rw [h.2], .inr ⟨h.1.symm, e, rfl⟩⟩
      · simp only [Prod.mk.injEq] at h
        exact ⟨.error e, by rw [h.2], .inl h.1⟩

/-! ### What a fetch leaves alone -/

/-- Only the entry of the Target and files in `S` change. -/
structure Frame (S : String → Prop) (t : Target) (w w' : World) : Prop where
  names : ∀ n, n ≠ t.filename → w'.names n = w.names n
  files : ∀ g, ¬ S g → w'.files g = w.files g
  own : ∀ f, w'.names t.filename = some f → S f

theorem Frame.trans {S : String → Prop} {t : Target} {a b c : World} (h1 : Frame S t a b) (h2 : Frame S t b c) :
    Frame S t a c :=
  ⟨fun n hn => (h2.names n hn).trans (h1.names n hn), fun g hg => (h2.files g hg).trans (h1.files g hg), h2.own⟩

theorem create_frame {S : String → Prop} {io : Io} {t : Target} {w w' : World} {f : String}
    (h : createTargetFile io t w = (.ok f, w')) (hS : ∀ h0, t.hashes.head? = some h0 → S h0.hash) :
    Frame S t w w' := by
  obtain ⟨⟨h0, hh, rfl⟩, -, h1, h2, -⟩ := create_ok h
  refine ⟨fun n hn => by simp [h2, hn], fun g hg => ?_, ?_⟩
  · have : g ≠ h0.hash := fun he => hg (he ▸ hS h0 hh)
    simp [h1, this]
  · intro f hf
    simp only [h2, if_true, Option.some.injEq] at hf
    exact hf ▸ hS h0 hh

theorem remove_frame {S : String → Prop} {t : Target} {w w' : World} {u : Unit}
    (h : removeTargetFile t w = (.ok u, w')) (hw : ∀ f, w.names t.filename = some f → S f) : Frame S t w w' := by
  obtain ⟨-, -, f, hf, h1, h2⟩ := remove_ok h
  refine ⟨fun n hn => by simp [h2, hn], fun g hg => ?_, by simp [h2]⟩
  have : g ≠ f := fun he => hg (he ▸ hw f hf)
  simp [h1, this]

theorem start_frame {S : String → Prop} {io : Io} {found : Status} {ty : HashType} {t : Target} {w w' : World}
    {ds : Ds} (h : startDs io found ty t w = (.ok ds, w')) (hS : ∀ h0, t.hashes.head? = some h0 → S h0.hash)
    (hw : ∀ f, w.names t.filename = some f → S f) : Frame S t w w' := by
  unfold startDs at h
  rw [M.ite_app] at h
  split at h
  · rw [M.run_bind (M.gets_eq)] at h
    replace h := M.bind_ok.1 h
    obtain ⟨size, w1, h1, h⟩ := h
    rw [M.orThrow_ok] at h1
    obtain ⟨h1, rfl⟩ := h1
    replace h := M.bind_ok.1 h
    obtain ⟨u, w2, h2, h⟩ := h
    simp only [M.lift_eq, Prod.mk.injEq] at h2
    obtain ⟨-, rfl⟩ := h2
    replace h := M.bind_ok.1 h
    obtain ⟨data, w3, h3, h⟩ := h
    obtain ⟨rfl, h3⟩ := open_ok h3
    replace h := M.bind_ok.1 h
    obtain ⟨f, w4, h4, h⟩ := h
    obtain ⟨rfl, n, h4⟩ := append_ok h4
    simp only [M.pure_eq, Prod.mk.injEq, Except.ok.injEq] at h
    obtain ⟨rfl, rfl⟩ := h
    exact ⟨fun _ _ => rfl, fun _ _ => rfl, hw⟩
  · replace h := M.bind_ok.1 h
    obtain ⟨f, w1, h1, h⟩ := h
    simp only [M.pure_eq, Prod.mk.injEq, Except.ok.injEq] at h
    obtain ⟨rfl, rfl⟩ := h
    exact create_frame h1 hS

theorem loop_frame {S : String → Prop} {io : Io} {token : Bool} {t : Target} {ty : HashType}
    (hS : ∀ h0, t.hashes.head? = some h0 → S h0.hash) : ∀ (script : List Transfer)
    (ds : Ds) (w w' : World) (o : Except Err (Ds × CurlEnd × Int)), Sync False t ds w →
    (∀ f, w.names t.filename = some f → S f) →
    fetchLoop io token t ty script ds w = (o, w') → Frame S t w w'
  | [], ds, w, w', o, _, hw, h => by
    simp only [fetchLoop, M.throw_eq, Prod.mk.injEq] at h
    obtain ⟨-, rfl⟩ := h
    exact ⟨fun _ _ => rfl, fun _ _ => rfl, hw⟩
  | tr :: rest, ds, w, w', o, hs, hw, h => by
    rcases loop_step h with ⟨rfl, e, rfl, -⟩ | ⟨d, w1, hd, hw1, hc⟩
    · exact ⟨fun _ _ => rfl, fun _ _ => rfl, hw⟩
    · obtain ⟨f, b, ho, hne, hn, hf, -⟩ := hs.out
      obtain ⟨h1, h2, b', h3, -⟩ := deliver_spec (length := t.length) tr.chunks ds w.files f b ho hf
      rw [← hd] at h1 h2 h3
      have hfr : Frame S t w w1 := by
        refine ⟨fun n _ => by rw [hw1], fun g hg => ?_, fun f' hf' => hw f' (by rw [hw1] at hf'; exact hf')⟩
        rw [hw1]
        exact h1 g (fun he => hg (he ▸ hw f hn))
      have hs1 : Sync False t d.1 w1 :=
        ⟨⟨f, b', h2, hne, by rw [hw1]; exact hn, by rw [hw1]; exact h3, fun k => k.elim⟩⟩
      rcases hc with ⟨rfl, -⟩ | ⟨-, g, w2, hc, hr⟩ | ⟨-, g, hc, hr⟩ | ⟨rfl, -⟩
      · exact hfr
      · have hfr2 := create_frame hc hS
        obtain ⟨-, hg, h5, h6, -⟩ := create_ok hc
        exact hfr.trans (hfr2.trans (loop_frame hS rest _ _ _ _
          ⟨⟨g, [], rfl, hg, by simp [h6], by simp [h5], fun k => k.elim⟩⟩ hfr2.own hr))
      · obtain ⟨-, n, hc⟩ := append_ok hc
        obtain ⟨hg, hgn, b2, hb2, -⟩ := check_some hc
        exact hfr.trans (loop_frame hS rest { d.1 with out := some g, bad := false } _ _ _
          ⟨⟨g, b2, rfl, hg, hgn, hb2, fun k => k.elim⟩⟩ hfr.own hr)
      · exact hfr

theorem finish_frame {S : String → Prop} {digest : Digest} {ty : HashType} {t : Target} {r : Ds × CurlEnd × Int}
    {w w' : World} {o : Except Err Bool} (h : finish digest ty t r w = (o, w'))
    (hw : ∀ f, w.names t.filename = some f → S f) : Frame S t w w' := by
  have hr : Frame S t w w := ⟨fun _ _ => rfl, fun _ _ => rfl, hw⟩
  unfold finish at h
  rw [M.ite_app] at h
  split at h
  · simp only [M.throw_eq, Prod.mk.injEq] at h; rw [← h.2]; exact hr
  · rcases M.bind_cases h with ⟨u, w1, h1, h2⟩ | ⟨e, h1, -⟩
    · simp only [M.lift_eq, Prod.mk.injEq] at h1
      obtain ⟨-, rfl⟩ := h1
      rw [M.ite_app] at h2
      split at h2
      · simp only [M.pure_eq, Prod.mk.injEq] at h2; rw [← h2.2]; exact hr
      · rcases M.bind_cases h2 with ⟨u, w1, h3, h4⟩ | ⟨e, h3, -⟩
        · simp only [M.throw_eq, Prod.mk.injEq] at h4
          rw [← h4.2]; exact remove_frame h3 hw
        · rw [(remove_err h3).1]; exact hr
    · simp only [M.lift_eq, Prod.mk.injEq] at h1; rw [← h1.2]; exact hr

theorem fetch_frame {S : String → Prop} {digest : Digest} {io : Io} {token : Bool} {script : List Transfer}
    {t : Target} {w w' : World} {o : Except Err Bool} (h : fetchTarget digest io token script t w = (o, w'))
    (hS : ∀ h0, t.hashes.head? = some h0 → S h0.hash) (hw : ∀ f, w.names t.filename = some f → S f) :
    Frame S t w w' := by
  have hr : Frame S t w w := ⟨fun _ _ => rfl, fun _ _ => rfl, hw⟩
  obtain ⟨o', hb, -⟩ := fetch_body h
  rcases body_cases hb with ⟨rfl, -⟩ | ⟨-, rfl, -⟩ | ⟨found, ty, -, -, -, hc⟩
  · exact hr
  · exact hr
  · rcases hc with ⟨-, ⟨f, hc⟩, -⟩ | ⟨-, e, hc, -⟩ | ⟨-, ⟨e, hc, -⟩ | ⟨ds, w1, hs, hc⟩⟩
    · exact create_frame hc hS
    · rw [create_err hc]; exact hr
    · rw [start_err hc]; exact hr
    · have h1 := start_frame hs hS hw
      rcases hc with ⟨-, rfl, -⟩ | ⟨-, ⟨e, hl, -⟩ | ⟨r, w2, hl, hf⟩⟩
      · exact h1
      · exact h1.trans (loop_frame hS _ _ _ _ _ (start_sync hs).1 h1.own hl)
      · have h2 := loop_frame hS _ _ _ _ _ (start_sync hs).1 h1.own hl
        exact h1.trans (h2.trans (finish_frame hf h2.own))

theorem attempts_frame {S : String → Prop} {digest : Digest} {token : Bool} {t : Target}
    (hS : ∀ h0, t.hashes.head? = some h0 → S h0.hash) : ∀ (k : Nat) (tries : List Attempt) (w w' : World)
    (o : Except Err Bool), (∀ f, w.names t.filename = some f → S f) → attempts digest token t k tries w = (o, w') →
    Frame S t w w'
  | 0, tries, w, w', o, hw, h => by
    simp only [attempts, M.pure_eq, Prod.mk.injEq] at h
    rw [← h.2]; exact ⟨fun _ _ => rfl, fun _ _ => rfl, hw⟩
  | k + 1, [], w, w', o, hw, h => by
    simp only [attempts, M.throw_eq, Prod.mk.injEq] at h
    rw [← h.2]; exact ⟨fun _ _ => rfl, fun _ _ => rfl, hw⟩
  | k + 1, a :: rest, w, w', o, hw, h => by
    unfold attempts at h
    rcases M.bind_cases h with ⟨s, w1, h1, h2⟩ | ⟨e, h1, -⟩
    · have hf := fetch_frame h1 hS hw
      rw [M.ite_app] at h2
      split at h2
      · simp only [M.pure_eq, Prod.mk.injEq] at h2; rw [← h2.2]; exact hf
      · exact hf.trans (attempts_frame hS k rest w1 w' o hf.own h2)
    · exact fetch_frame h1 hS hw

/-- A successful download ends with a successful fetch. -/
theorem attempts_true {digest : Digest} {token : Bool} {t : Target} : ∀ (k : Nat) (tries : List Attempt)
    (w w' : World), attempts digest token t k tries w = (.ok true, w') →
    ∃ a ∈ tries, ∃ w1, fetchTarget digest a.io token a.script t w1 = (.ok true, w')
  | 0, tries, w, w', h => by simp [attempts] at h
  | k + 1, [], w, w', h => by simp [attempts] at h
  | k + 1, a :: rest, w, w', h => by
    unfold attempts at h
    replace h := M.bind_ok.1 h
    obtain ⟨s, w1, h1, h2⟩ := h
    rw [M.ite_app] at h2
    split at h2
    · simp only [M.pure_eq, Prod.mk.injEq, Except.ok.injEq] at h2
      rw [h2.1, h2.2] at h1
      exact ⟨a, by simp, w, h1⟩
    · obtain ⟨a', ha, w2, h3⟩ := attempts_true k rest w1 w' h2
      exact ⟨a', by simp [ha], w2, h3⟩

/-! ### The length of the file -/

/-- The chunks are far smaller than what `uint64_t` can hold. -/
def SmallChunks (t : Target) (script : List Transfer) : Prop :=
  ∀ tr ∈ script, ∀ c ∈ tr.chunks, t.length + c.data.length < 18446744073709551616

theorem deliver_len {length : Nat} : ∀ (cs : List Chunk) (ds : Ds) (files : String → Option Bytes) (f : String)
    (b : Bytes), ds.out = some f → files f = some b → b.length ≤ ds.len → ds.len ≤ length →
    (∀ c ∈ cs, length + c.data.length < 18446744073709551616) →
    (deliver length cs ds files).1.len ≤ length ∧
    ∃ b', (deliver length cs ds files).2.1 f = some b' ∧ b'.length ≤ (deliver length cs ds files).1.len
  | [], ds, files, f, b, ho, hf, h1, h2, _ => by
    unfold deliver
    exact ⟨h2, b, hf, h1⟩
  | c :: cs, ds, files, f, b, ho, hf, h1, h2, hc => by
    unfold deliver
    have hcc := hc c (by simp)
    have hu : u64 (ds.len + c.data.length) = ds.len + c.data.length := by
      unfold u64; omega
    rw [hu]
    split
    · exact ⟨h2, b, hf, h1⟩
    · rename_i hle
      simp only [ho]
      have ih := deliver_len (length := length) cs
        { ds with
          len := ds.len + c.data.length
          hashed := ds.hashed ++ c.data
          bad := ds.bad || decide (c.kept < c.data.length) }
        (fun g => if g = f then (files f).map (· ++ (if ds.bad then [] else c.data.take c.kept)) else files g)
        f (b ++ (if ds.bad then [] else c.data.take c.kept)) ho (by simp [hf])
        (by
          simp only [List.length_append]
          split
          · simp; omega
          · simp only [List.length_take]; omega)
        (by simp only; omega) (fun c' hc' => hc c' (by simp [hc']))
      rw [ho] at ih
      exact ih

/-- The file being written is no longer than what has been counted, and that not longer than the
Target. -/
def Short (t : Target) (ds : Ds) (w : World) : Prop :=
  ∃ f b, ds.out = some f ∧ f ≠ "" ∧ w.names t.filename = some f ∧ w.files f = some b ∧ b.length ≤ ds.len ∧
    ds.len ≤ t.length

theorem Short.stored {t : Target} {ds : Ds} {w : World} (h : Short t ds w) :
    ∀ b, storedFor w t = some b → b.length ≤ t.length := by
  obtain ⟨f, b, -, h1, h2, h3, h4, h5⟩ := h
  intro b' hb
  simp only [storedFor, h2, Option.bind_some, h1, if_false, h3, Option.some.injEq] at hb
  subst hb
  omega

theorem loop_short {io : Io} {token : Bool} {t : Target} {ty : HashType} : ∀ (script : List Transfer)
    (ds : Ds) (w w' : World) (o : Except Err (Ds × CurlEnd × Int)), SmallChunks t script → Short t ds w →
    fetchLoop io token t ty script ds w = (o, w') → ∃ ds', Short t ds' w'
  | [], ds, w, w', o, _, hs, h => by
    simp only [fetchLoop, M.throw_eq, Prod.mk.injEq] at h
    rw [← h.2]; exact ⟨ds, hs⟩
  | tr :: rest, ds, w, w', o, hsm, hs, h => by
    have hsm' : SmallChunks t rest := fun x hx => hsm x (by simp [hx])
    rcases loop_step h with ⟨rfl, -⟩ | ⟨d, w1, hd, hw1, hc⟩
    · exact ⟨ds, hs⟩
    · obtain ⟨f, b, ho, hne, hn, hf, hl1, hl2⟩ := hs
      obtain ⟨-, h2, -⟩ := deliver_spec (length := t.length) tr.chunks ds w.files f b ho hf
      obtain ⟨h3, b', h4, h5⟩ := deliver_len tr.chunks ds w.files f b ho hf hl1 hl2 (hsm tr (by simp))
      rw [← hd] at h2 h3 h4 h5
      have hs1 : Short t d.1 w1 := ⟨f, b', h2, hne, by rw [hw1]; exact hn, by rw [hw1]; exact h4, h5, h3⟩
      rcases hc with ⟨rfl, -⟩ | ⟨-, g, w2, hc, hr⟩ | ⟨-, g, hc, hr⟩ | ⟨rfl, -⟩
      · exact ⟨_, hs1⟩
      · obtain ⟨-, hg, h6, h7, -⟩ := create_ok hc
        exact loop_short rest _ _ _ _ hsm' ⟨g, [], rfl, hg, by simp [h7], by simp [h6], by simp, by simp⟩ hr
      · obtain ⟨-, n, hc⟩ := append_ok hc
        obtain ⟨hg, hgn, -⟩ := check_some hc
        obtain ⟨f1, b1, p1, p2, p3, p4, p5, p6⟩ := hs1
        have hfg : f1 = g := by rw [hgn] at p3; simpa using p3.symm
        subst hfg
        exact loop_short rest { d.1 with out := some f1, bad := false } _ _ _ hsm' ⟨f1, b1, rfl, p2, p3, p4, p5, p6⟩ hr
      · exact ⟨_, hs1⟩

theorem start_short {digest : Digest} {io : Io} {found : Status} {ty : HashType} {t : Target} {w w' : World} {ds : Ds}
    (hv : verifyTarget digest io t w = (.ok found, w)) (h : startDs io found ty t w = (.ok ds, w')) :
    Short t ds w' := by
  have hle := start_len hv h
  unfold startDs at h
  rw [M.ite_app] at h
  split at h
  · rw [M.run_bind (M.gets_eq)] at h
    replace h := M.bind_ok.1 h
    obtain ⟨size, w1, h1, h⟩ := h
    rw [M.orThrow_ok] at h1
    obtain ⟨h1, rfl⟩ := h1
    replace h := M.bind_ok.1 h
    obtain ⟨u, w2, h2, h⟩ := h
    simp only [M.lift_eq, Prod.mk.injEq] at h2
    obtain ⟨-, rfl⟩ := h2
    replace h := M.bind_ok.1 h
    obtain ⟨data, w3, h3, h⟩ := h
    obtain ⟨rfl, h3⟩ := open_ok h3
    replace h := M.bind_ok.1 h
    obtain ⟨f, w4, h4, h⟩ := h
    obtain ⟨rfl, n, h4⟩ := append_ok h4
    simp only [M.pure_eq, Prod.mk.injEq, Except.ok.injEq] at h
    obtain ⟨rfl, rfl⟩ := h
    rw [h1] at h4
    simp only [Option.some.injEq] at h4
    subst h4
    obtain ⟨q1, q2, b, q3, q4, -⟩ := check_some h1
    exact ⟨f, b, rfl, q1, q2, q3, by simp only at q4 ⊢; omega, hle⟩
  · replace h := M.bind_ok.1 h
    obtain ⟨f, w1, h1, h⟩ := h
    obtain ⟨-, q1, q2, q3, -⟩ := create_ok h1
    simp only [M.pure_eq, Prod.mk.injEq, Except.ok.injEq] at h
    obtain ⟨rfl, rfl⟩ := h
    exact ⟨f, [], rfl, q1, by simp [q3], by simp [q2], by simp, by simp⟩

theorem finish_stored {digest : Digest} {ty : HashType} {t : Target} {r : Ds × CurlEnd × Int}
    {w w' : World} {o : Except Err Bool} (h : finish digest ty t r w = (o, w')) :
    w' = w ∨ storedFor w' t = none := by
  unfold finish at h
  rw [M.ite_app] at h
  split at h
  · simp only [M.throw_eq, Prod.mk.injEq] at h; exact .inl h.2.symm
  · rcases M.bind_cases h with ⟨u, w1, h1, h2⟩ | ⟨e, h1, -⟩
    · simp only [M.lift_eq, Prod.mk.injEq] at h1
      obtain ⟨-, rfl⟩ := h1
      rw [M.ite_app] at h2
      split at h2
      · simp only [M.pure_eq, Prod.mk.injEq] at h2; exact .inl h2.2.symm
      · rcases M.bind_cases h2 with ⟨u, w1, h3, h4⟩ | ⟨e, h3, -⟩
        · simp only [M.throw_eq, Prod.mk.injEq] at h4
          rw [← h4.2]; exact .inr (remove_ok h3).1
        · exact .inl (remove_err h3).1
    · simp only [M.lift_eq, Prod.mk.injEq] at h1; exact .inl h1.2.symm

end Aktualizr.Download

namespace Aktualizr

open Aktualizr.Spec Aktualizr.Download

/-- However a fetch ends, what is stored for the Target afterwards is not longer than the Target,
unless the fetch left it as it was. -/
theorem C22_never_longer {digest : Digest} {io : Io} {token : Bool} {script : List Transfer}
    {t : Target} {w w' : Download.World} {o : Except Err Bool}
    (h : fetchTarget digest io token script t w = (o, w')) (hsm : SmallChunks t script) {b : Bytes}
    (hb : storedFor w' t = some b) : b.length ≤ t.length ∨ storedFor w t = some b := by
  obtain ⟨o', hbody, -⟩ := fetch_body h
  rcases body_cases hbody with ⟨rfl, -⟩ | ⟨-, rfl, -⟩ | ⟨found, ty, hv, -, -, hc⟩
  · exact .inr hb
  · exact .inr hb
  · rcases hc with ⟨-, ⟨f, hc⟩, -⟩ | ⟨-, e, hc, -⟩ | ⟨-, ⟨e, hc, -⟩ | ⟨ds, w1, hs, hc⟩⟩
    · obtain ⟨-, q1, q2, q3, -⟩ := create_ok hc
      simp only [storedFor, q3, if_true, Option.bind_some, q1, if_false, q2, Option.some.injEq] at hb
      subst hb
      simp
    · rw [create_err hc] at hb; exact .inr hb
    · rw [start_err hc] at hb; exact .inr hb
    · have hsh := start_short hv hs
      rcases hc with ⟨-, rfl, -⟩ | ⟨-, ⟨e, hl, -⟩ | ⟨r, w2, hl, hf⟩⟩
      · exact .inl (hsh.stored b hb)
      · obtain ⟨ds', hs'⟩ := loop_short _ _ _ _ _ hsm hsh hl
        exact .inl (hs'.stored b hb)
      · obtain ⟨ds', hs'⟩ := loop_short _ _ _ _ _ hsm hsh hl
        rcases finish_stored hf with rfl | hn
        · exact .inl (hs'.stored b hb)
        · rw [hn] at hb; simp at hb

/-- An abort ends the download: nothing is tried after the attempt during which it came. -/
theorem C22_abort_ends {digest : Digest} {a : Attempt} {rest : List Attempt} {t : Target} {w : Download.World}
    (ha : a.goOn = false) :
    downloadImage digest true (a :: rest) t w = fetchTarget digest a.io true a.script t w := by
  unfold downloadImage attempts
  cases hf : fetchTarget digest a.io true a.script t w with
  | mk o w1 =>
    cases o with
    | error e => exact M.run_bind_err hf
    | ok s =>
      rw [M.run_bind hf]
      simp [ha]

/-- After a successful fetch the bytes stored for the Target have its hash. Missing for the full
claim: Targets of length 0 (`C22_empty_not_checked`) and failing writes
(`C22_write_error_unnoticed`). -/
theorem C22_downloaded_matches_partial {digest : Digest} {io : Io} {token : Bool} {script : List Transfer}
    {t : Target} {w w' : Download.World} (h : fetchTarget digest io token script t w = (.ok true, w'))
    (hlen : t.length ≠ 0) (hk : AllKept script) : ∃ b, storedFor w' t = some b ∧ HashFits digest t b := by
  rcases body_cases (fetch_true h) with ⟨-, e, he⟩ | ⟨-, rfl, hv⟩ | ⟨found, ty, -, -, hty, h⟩
  · simp at he
  · obtain ⟨b, h1, -, h2⟩ := verify_ok hv
    exact ⟨b, h1, h2⟩
  · rcases h with ⟨hl, -⟩ | ⟨hl, -⟩ | ⟨-, ⟨e, -, he⟩ | ⟨ds, w1, hs, ⟨-, -, e, he⟩ | ⟨-, ⟨e, -, he⟩ | ⟨r, w2, hl, hf⟩⟩⟩⟩
    · exact absurd hl hlen
    · exact absurd hl hlen
    · simp at he
    · simp at he
    · simp at he
    · obtain ⟨rfl, hu, hm⟩ := finish_true hf
      obtain ⟨f, b, -, hne, hn, hb, hkb⟩ := (loop_sync (K := True) script _ _ _ _ (fun _ => hk) (start_sync hs).1 hl).out
      obtain ⟨h0, hs, ht, rfl⟩ := hashType_ok hty
      refine ⟨b, by simp [storedFor, hn, hne, hb], ?_⟩
      rw [(hkb trivial).1]
      exact (fits_iff ht hu _).1 hm

/-- When the last transfer ended well and the fetch fails nevertheless, the hash was wrong and
nothing is stored for the Target. -/
theorem C22_wrong_hash_removed {digest : Digest} {io : Io} {token : Bool} {script : List Transfer}
    {t : Target} {w w' : Download.World} (h : fetchTarget digest io token script t w = (.ok false, w'))
    (hu : ∀ h0 ∈ t.hashes.head?, h0.type ≠ .unknown) {l : List (Nat × CurlEnd × Int)} {off : Nat} {status : Int}
    (hl : w'.log = w.log ++ l ++ [(off, .ok, status)]) (h1 : 200 ≤ status) (h2 : status < 400) :
    storedFor w' t = none := by
  obtain ⟨o, hb, ho⟩ := fetch_body h
  have hne : o ≠ .ok true := by rcases ho with rfl | ⟨-, e, rfl⟩ <;> simp
  have hcontra : w'.log ≠ w.log := by
    intro he
    rw [he, List.append_assoc] at hl
    have := congrArg List.length hl
    simp at this
  rcases body_cases hb with ⟨rfl, -⟩ | ⟨-, rfl, -⟩ | ⟨found, ty, -, -, hty, hc⟩
  · exact absurd rfl hcontra
  · exact absurd rfl hcontra
  · rcases hc with ⟨-, ⟨f, hc⟩, -⟩ | ⟨-, e, hc, -⟩ | ⟨-, ⟨e, hc, -⟩ | ⟨ds, w1, hs, hc⟩⟩
    · exact absurd (create_ok hc).2.2.2.2 hcontra
    · exact absurd (by rw [create_err hc]) hcontra
    · exact absurd (by rw [start_err hc]) hcontra
    · have hlog := (start_sync (K := True) hs).2
      rcases hc with ⟨-, rfl, -⟩ | ⟨-, ⟨e, hc, -⟩ | ⟨r, w2, hc, hf⟩⟩
      · exact absurd hlog hcontra
      · obtain ⟨new, q1, -, q2⟩ := loop_log _ _ _ _ _ hc
        rw [q1, hlog, List.append_assoc, List.append_cancel_left_eq] at hl
        rw [hl] at q2
        simp [LastFits] at q2
      · obtain ⟨new, q1, -, off', q2⟩ := loop_log _ _ _ _ _ hc
        rw [finish_log hf, q1, hlog, List.append_assoc, List.append_cancel_left_eq] at hl
        rw [hl] at q2
        simp only [List.getLast?_append, List.getLast?_singleton, Option.some_or, Option.some.injEq, Prod.mk.injEq] at q2
        obtain ⟨-, q3, q4⟩ := q2
        obtain ⟨h0, hs', ht, rfl⟩ := hashType_ok hty
        exact finish_removed hf (hu h0 (by simp [ht])) q3.symm (q4 ▸ h1) (q4 ▸ h2) hne

/-- The same after up to three attempts. -/
theorem C22_three_attempts_partial {digest : Digest} {token : Bool} {tries : List Attempt} {t : Target}
    {w w' : Download.World} (h : downloadImage digest token tries t w = (.ok true, w')) (hlen : t.length ≠ 0)
    (hk : ∀ a ∈ tries, AllKept a.script) : ∃ b, storedFor w' t = some b ∧ HashFits digest t b := by
  obtain ⟨a, ha, w1, h1⟩ := attempts_true 3 tries w w' h
  exact C22_downloaded_matches_partial h1 hlen (hk a ha)

namespace Spec

/-- The file is the one to which the Target's name is mapped or the one named by its hash. -/
def UsesFile (w : Download.World) (t : Target) (f : String) : Prop :=
  w.names t.filename = some f ∨ ∃ h0, t.hashes.head? = some h0 ∧ h0.hash = f

/-- The Targets have different names and no file in common. -/
def Separate (w : Download.World) (ts : List Target) : Prop :=
  ts.Pairwise (fun t t' => t.filename ≠ t'.filename ∧ ∀ f, UsesFile w t f → ¬ UsesFile w t' f)

end Spec

/-- At the end of a batch of Targets with different files, what is reported as downloaded has the
right hash. Missing for the full claim: batches with files in common, see
`C22_batch_loses_image`. -/
theorem C22_batch_partial {digest : Digest} {token : Bool} : ∀ (batch : List (Target × List Attempt))
    (w w' : Download.World) (done : List Target), downloadLoop digest token batch w = (.ok done, w') →
    Separate w (batch.map Prod.fst) → (∀ p ∈ batch, p.1.length ≠ 0) →
    (∀ p ∈ batch, ∀ a ∈ p.2, AllKept a.script) →
    ∀ t ∈ done, ∃ b, storedFor w' t = some b ∧ HashFits digest t b := by
  suffices H : ∀ (batch : List (Target × List Attempt)) (w w' : Download.World) (done : List Target),
      downloadLoop digest token batch w = (.ok done, w') →
      Separate w (batch.map Prod.fst) → (∀ p ∈ batch, p.1.length ≠ 0) →
      (∀ p ∈ batch, ∀ a ∈ p.2, AllKept a.script) →
      (∀ t ∈ done, ∃ b, storedFor w' t = some b ∧ HashFits digest t b) ∧
      (∀ n, (∀ p ∈ batch, n ≠ p.1.filename) → w'.names n = w.names n) ∧
      (∀ g, (∀ p ∈ batch, ¬ UsesFile w p.1 g) → w'.files g = w.files g) from
    fun batch w w' done h1 h2 h3 h4 => (H batch w w' done h1 h2 h3 h4).1
  intro batch
  induction batch with
  | nil =>
    intro w w' done h _ _ _
    simp only [downloadLoop, M.pure_eq, Prod.mk.injEq, Except.ok.injEq] at h
    obtain ⟨rfl, rfl⟩ := h
    simp
  | cons p rest ih =>
    obtain ⟨t, tries⟩ := p
    intro w w' done h hsep hlen hk
    unfold downloadLoop at h
    replace h := M.bind_ok.1 h
    obtain ⟨ok, w1, h1, h⟩ := h
    replace h := M.bind_ok.1 h
    obtain ⟨done', w2, h2, h⟩ := h
    simp only [M.pure_eq, Prod.mk.injEq, Except.ok.injEq] at h
    obtain ⟨rfl, rfl⟩ := h
    simp only [Separate, List.map_cons, List.pairwise_cons] at hsep
    obtain ⟨hs1, hs2⟩ := hsep
    have hfr : Frame (UsesFile w t) t w w1 :=
      attempts_frame (fun h0 hh => .inr ⟨h0, hh, rfl⟩) 3 tries w w1 _ (fun f hf => .inl hf) h1
    have huse : ∀ q ∈ rest, ∀ f, UsesFile w1 q.1 f ↔ UsesFile w q.1 f := by
      intro q hq f
      have hne : q.1.filename ≠ t.filename := fun he => (hs1 q.1 (List.mem_map.2 ⟨q, hq, rfl⟩)).1 he.symm
      simp only [UsesFile, hfr.names _ hne]
    have hsep' : Separate w1 (rest.map Prod.fst) := by
      refine List.Pairwise.imp_of_mem ?_ hs2
      intro a b ha hb hab
      obtain ⟨qa, hqa, rfl⟩ := List.mem_map.1 ha
      obtain ⟨qb, hqb, rfl⟩ := List.mem_map.1 hb
      exact ⟨hab.1, fun f hf hf' => hab.2 f ((huse qa hqa f).1 hf) ((huse qb hqb f).1 hf')⟩
    obtain ⟨i1, i2, i3⟩ := ih w1 w2 done' h2 hsep' (fun p hp => hlen p (by simp [hp]))
      (fun p hp => hk p (by simp [hp]))
    refine ⟨?_, ?_, ?_⟩
    · intro x hx
      cases ok with
      | false => simp only [Bool.false_eq_true, if_false] at hx; exact i1 x hx
      | true =>
        simp only [if_true, List.mem_cons] at hx
        rcases hx with rfl | hx
        · obtain ⟨b, hb, hfit⟩ := C22_three_attempts_partial h1 (hlen (x, tries) (by simp))
            (hk (x, tries) (by simp))
          refine ⟨b, ?_, hfit⟩
          have hn : w2.names x.filename = w1.names x.filename :=
            i2 x.filename (fun q hq => (hs1 q.1 (List.mem_map.2 ⟨q, hq, rfl⟩)).1)
          unfold storedFor at hb ⊢
          rw [hn]
          cases hm : w1.names x.filename with
          | none => rw [hm] at hb; simp at hb
          | some f =>
            rw [hm] at hb
            simp only [Option.bind_some] at hb ⊢
            rw [i3 f (fun q hq hu => (hs1 q.1 (List.mem_map.2 ⟨q, hq, rfl⟩)).2 f (hfr.own f hm) ((huse q hq f).1 hu))]
            exact hb
        · exact i1 x hx
    · intro n hn
      rw [i2 n (fun q hq => hn q (by simp [hq])), hfr.names n (hn (t, tries) (by simp))]
    · intro g hg
      rw [i3 g (fun q hq hu => hg q (by simp [hq]) ((huse q hq g).1 hu)), hfr.files g (hg (t, tries) (by simp))]

/-- Verification returns `good` only for files with the right length and hash. -/
theorem C23_good_sound {digest : Digest} {io : Io} {t : Target} {w w' : Download.World}
    (h : verifyTarget digest io t w = (.ok .good, w')) :
    ∃ b, storedFor w t = some b ∧ b.length = t.length ∧ HashFits digest t b := verify_ok h

/-- For a Target with a known kind of hash and a readable directory, verification returns, changes
nothing, and each status is returned exactly in its case. -/
theorem C23_status_exact {digest : Digest} {io : Io} {t : Target} {w : Download.World} {h0 : Hash}
    (hr : io.read = true) (hh : t.hashes.head? = some h0) (hu : h0.type ≠ .unknown) :
    ∃ s, verifyTarget digest io t w = (.ok s, w) ∧
      (s = .notFound ↔ storedFor w t = none) ∧
      (s = .incomplete ↔ ∃ b, storedFor w t = some b ∧ b.length < t.length) ∧
      (s = .oversized ↔ ∃ b, storedFor w t = some b ∧ t.length < b.length) ∧
      (s = .good ↔ ∃ b, storedFor w t = some b ∧ b.length = t.length ∧ HashFits digest t b) ∧
      (s = .hashMismatch ↔ ∃ b, storedFor w t = some b ∧ b.length = t.length ∧ ¬ HashFits digest t b) := by
  obtain ⟨s, hs⟩ := verify_total (digest := digest) (w := w) hr hh hu
  have h := verify_ok hs
  refine ⟨s, hs, ?_⟩
  cases s <;> simp only at h
  · obtain ⟨b, h1, h2, h3⟩ := h
    simp [h1, h2, h3]
  · simp [h]
  · obtain ⟨b, h1, h2⟩ := h
    simp only [h1, reduceCtorEq, Option.some.injEq, exists_eq_left', false_iff, true_iff, not_and]
    refine ⟨?_, by omega, by omega, by omega, by omega⟩ <;> simp
  · obtain ⟨b, h1, h2⟩ := h
    simp only [h1, reduceCtorEq, Option.some.injEq, exists_eq_left', false_iff, true_iff, not_and]
    refine ⟨?_, by omega, by omega, by omega, by omega⟩ <;> simp
  · obtain ⟨b, h1, h2, h3⟩ := h
    simp [h1, h2, h3]

/-- A transfer is started only if what remains to be downloaded plus one MiB fits in the free
space, if that is known. Missing for the full claim: lengths near 2^64, see `C48_overflow`. -/
theorem C48_space_checked_partial {digest : Digest} {io : Io} {token : Bool} {script : List Transfer}
    {t : Target} {w w' : Download.World} {o : Except Err Bool}
    (h : fetchTarget digest io token script t w = (o, w')) {bsize bavail : Nat}
    (hsp : io.space = some (bsize, bavail)) (hlt : t.length + 1048576 < 18446744073709551616)
    {off : Nat} {c : CurlEnd} {status : Int} {l : List (Nat × CurlEnd × Int)}
    (hl : w'.log = w.log ++ (off, c, status) :: l) :
    off ≤ t.length ∧ t.length - off + 1048576 < bsize * bavail := by
  have hcontra : w'.log ≠ w.log := by
    intro he
    rw [he] at hl
    have := congrArg List.length hl
    simp at this
  obtain ⟨o', hb, -⟩ := fetch_body h
  rcases body_cases hb with ⟨rfl, -⟩ | ⟨-, rfl, -⟩ | ⟨found, ty, hv, -, -, hc⟩
  · exact absurd rfl hcontra
  · exact absurd rfl hcontra
  · rcases hc with ⟨-, ⟨f, hc⟩, -⟩ | ⟨-, e, hc, -⟩ | ⟨-, ⟨e, hc, -⟩ | ⟨ds, w1, hs, hc⟩⟩
    · exact absurd (create_ok hc).2.2.2.2 hcontra
    · exact absurd (by rw [create_err hc]) hcontra
    · exact absurd (by rw [start_err hc]) hcontra
    · have hlog := (start_sync (K := True) hs).2
      have hlen := start_len hv hs
      have key : checkAvailableDiskSpace io (u64 (t.length - ds.len)) = true → off = ds.len →
          off ≤ t.length ∧ t.length - off + 1048576 < bsize * bavail := by
        intro hchk rfl
        refine ⟨hlen, ?_⟩
        unfold checkAvailableDiskSpace at hchk
        rw [hsp] at hchk
        have h1 := of_decide_eq_true hchk
        unfold u64 at h1
        generalize bsize * bavail = m at h1 ⊢
        omega
      rcases hc with ⟨-, rfl, -⟩ | ⟨hchk, ⟨e, hc, -⟩ | ⟨r, w2, hc, hf⟩⟩
      · exact absurd hlog hcontra
      · obtain ⟨new, q1, q2, -⟩ := loop_log _ _ _ _ _ hc
        rw [q1, hlog, List.append_cancel_left_eq] at hl
        exact key hchk (q2 (off, c, status) (by simp [hl]))
      · obtain ⟨new, q1, q2, -⟩ := loop_log _ _ _ _ _ hc
        rw [finish_log hf, q1, hlog, List.append_cancel_left_eq] at hl
        exact key hchk (q2 (off, c, status) (by simp [hl]))

namespace Toy

/-- A digest one can read. -/
def letters : Digest := fun _ b => String.ofList (b.map (fun x => Char.ofNat (65 + x.toNat)))

/-- An image Target. -/
def image (name hash : String) (length : Nat) : Target :=
  { filename := name, hashes := [{ type := .sha256, hash := hash }], length := length }

/-- Chunks the file system takes. -/
def chunks (l : List Bytes) : List Chunk := l.map (fun b => { data := b, kept := b.length })

/-- Everything at once. -/
def whole (b : Bytes) : Transfer := { chunks := chunks [b], curl := .ok, status := 200 }

/-- The outcome of a fetch, what is stored and the transfers. -/
def fetched (r : Except Err Bool × Download.World) (t : Target) : Option Bool × Option Bytes × List (Nat × CurlEnd × Int) :=
  (r.1.toOption, storedFor r.2 t, r.2.log)

/-- The first half of an image is stored. -/
def halfStored : Download.World :=
  { files := fun f => if f = "ABCD" then some [0, 1] else none
    names := fun n => if n = "fw" then some "ABCD" else none }

end Toy

/-- Not vacuous: a resumed download, interrupted, continued after a range error, in small chunks;
and one with the wrong content. -/
example :
    let script := [{ chunks := Toy.chunks [[2]], curl := .interrupted, status := 206 },
      { chunks := [], curl := .rangeError, status := 200 },
      { chunks := Toy.chunks [[0], [1, 2], [], [3]], curl := .ok, status := 200 }]
    AllKept script ∧
    Toy.fetched (fetchTarget Toy.letters {} true script (Toy.image "fw" "ABCD" 4) Toy.halfStored) (Toy.image "fw" "ABCD" 4) =
      (some true, some [0, 1, 2, 3], [(2, .interrupted, 206), (3, .rangeError, 200), (0, .ok, 200)]) ∧
    Toy.fetched (fetchTarget Toy.letters {} true [Toy.whole [7, 7]] (Toy.image "fw" "ABCD" 4) Toy.halfStored) (Toy.image "fw" "ABCD" 4) =
      (some false, none, [(2, .ok, 200)]) := by
  refine ⟨?_, by decide +kernel, by decide +kernel⟩
  intro tr htr c hc
  simp only [List.mem_cons, List.not_mem_nil, or_false] at htr
  rcases htr with rfl | rfl | rfl <;>
    simp only [Toy.chunks, List.map_cons, List.map_nil, List.mem_cons, List.not_mem_nil, or_false] at hc
  · subst hc; simp
  · rcases hc with rfl | rfl | rfl | rfl <;> simp

/-- A Target of length 0 counts as downloaded whatever its hash. -/
theorem C22_empty_not_checked : ∃ (t : Target) (w' : Download.World),
    fetchTarget Toy.letters {} true [] t {} = (.ok true, w') ∧ storedFor w' t = some [] ∧
      ¬ HashFits Toy.letters t [] := by
  refine ⟨Toy.image "fw" "ABCD" 0, _, rfl, by decide +kernel, ?_⟩
  rintro ⟨first, h1, -, h, h2, -, h3⟩
  simp only [Toy.image, List.head?_cons, Option.some.injEq] at h1
  simp only [Toy.image, List.mem_singleton] at h2
  subst h1 h2
  revert h3
  decide +kernel

/-- A download succeeds although the disk was full and only part of it was stored. -/
theorem C22_write_error_unnoticed :
    let script := [{ chunks := [{ data := [0, 1], kept := 1 }, { data := [2, 3], kept := 2 }], curl := .ok, status := 200 }]
    Toy.fetched (fetchTarget Toy.letters {} true script (Toy.image "fw" "ABCD" 4) {}) (Toy.image "fw" "ABCD" 4) =
      (some true, some [0], [(0, .ok, 200)]) := by
  decide +kernel

/-- Content moved from one name to another: "old" used to have the content that now belongs to
"new". Both are reported as downloaded, but the fetch of the new content of "old" continued,
spoiled and then removed the file of "new". -/
theorem C22_batch_loses_image :
    let w : Download.World := { files := fun f => if f = "AB" then some [0, 1] else none
                                names := fun n => if n = "old" then some "AB" else none }
    let new := Toy.image "new" "AB" 2
    let old := Toy.image "old" "ABCD" 4
    let r := downloadLoop Toy.letters true
      [(new, [{ script := [Toy.whole [0, 1]] }]),
        (old, [{ script := [Toy.whole [7, 7]] }, { script := [Toy.whole [0, 1, 2, 3]] }])] w
    r.1.toOption.map (·.map Target.filename) = some ["new", "old"] ∧ storedFor r.2 new = none ∧
      storedFor r.2 old = some [0, 1, 2, 3] := by
  decide +kernel

/-- Batches with different files exist. -/
example : ∃ done w', downloadLoop Toy.letters true
      [(Toy.image "a" "AB" 2, [{ script := [Toy.whole [0, 1]] }]),
        (Toy.image "b" "CD" 2, [{ script := [Toy.whole [7, 7]] }, { script := [Toy.whole [2, 3]] }])] {} = (.ok done, w') ∧
    done.map Target.filename = ["a", "b"] ∧ Separate {} [Toy.image "a" "AB" 2, Toy.image "b" "CD" 2] := by
  refine ⟨_, _, rfl, by decide +kernel, ?_⟩
  simp [Separate, UsesFile, Toy.image]

/-- Not vacuous: a server that sends one byte too many, and an abort during the first of two
attempts. -/
example : SmallChunks (Toy.image "fw" "ABCD" 4) [Toy.whole [0, 1, 2]] ∧
    Toy.fetched (fetchTarget Toy.letters {} true [Toy.whole [2, 3, 4]] (Toy.image "fw" "ABCD" 4) Toy.halfStored)
      (Toy.image "fw" "ABCD" 4) = (some false, some [0, 1], [(2, .writeError, 200)]) ∧
    Toy.fetched (downloadImage Toy.letters true [{ script := [{ Toy.whole [0] with curl := .interrupted, resume := false }], goOn := false },
      { script := [Toy.whole [0, 1]] }] (Toy.image "fw" "AB" 2) {}) (Toy.image "fw" "AB" 2) =
      (some false, some [0], [(0, .interrupted, 200)]) := by
  refine ⟨?_, by decide +kernel, by decide +kernel⟩
  intro tr htr c hc
  simp only [List.mem_cons, List.not_mem_nil, or_false] at htr
  subst htr
  simp only [Toy.whole, Toy.chunks, List.map_cons, List.map_nil, List.mem_cons, List.not_mem_nil, or_false] at hc
  subst hc
  simp [Toy.image]

/-- The statuses of a stored image. -/
example : [2, 1, 3].map (fun n => (verifyTarget Toy.letters {} (Toy.image "fw" "AB" n)
      { files := fun _ => some [0, 1], names := fun _ => some "AB" }).1.toOption) =
    [some .good, some .oversized, some .incomplete] ∧
    (verifyTarget Toy.letters {} (Toy.image "fw" "AC" 2)
      { files := fun _ => some [0, 1], names := fun _ => some "AB" }).1.toOption = some .hashMismatch ∧
    (verifyTarget Toy.letters {} (Toy.image "fw" "AC" 2) {}).1.toOption = some .notFound := by
  decide +kernel

/-- A Target without hashes makes the verification read past the end of an empty vector. -/
theorem C23_no_hash_undefined : (verifyTarget Toy.letters {} { filename := "fw", length := 2 }
      { files := fun _ => some [0, 1], names := fun _ => some "AB" }).1 = .error (.ub "hashes()[0]") := by
  decide +kernel

/-- The sum with the reserve wraps around: a Target of nearly 2^64 bytes is started with 5 bytes
free. -/
theorem C48_overflow :
    (fetchTarget Toy.letters { space := some (1, 5) } true [Toy.whole [0]]
      (Toy.image "fw" "AB" (18446744073709551616 - 1048576)) {}).2.log = [(0, .ok, 200)] := by
  decide +kernel

/-- The hypotheses of the space check are met by downloads that start and one that does not. -/
example : [1048580, 1048581].map (fun n => (fetchTarget Toy.letters { space := some (1, n) } true [Toy.whole [0, 1, 2, 3]]
      (Toy.image "fw" "ABCD" 4) {}).2.log) = [[], [(0, .ok, 200)]] := by
  decide +kernel

end Aktualizr
