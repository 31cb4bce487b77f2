import Verif.Model.CApi
import Verif.Props.C22
import Verif.Props.C63

/-!
# C83 What a C program is told by the library is what happened
-/

namespace Aktualizr

open M Spec CApi

namespace Spec

/-- What a C program finds that goes through the list of updates by index. -/
def enumerated (u : Option (List Target)) : List (Option Target) := (List.range (targetsNum u)).map (nthTarget u)

/-- The stored results are the same. -/
def SameResults (d d' : Dev) : Prop := d'.cl.devResult = d.cl.devResult ∧ d'.cl.ecuResults = d.cl.ecuResults

/-- The bytes that calls of `Aktualizr_read_stored_target` with these sizes give, and the handle then. -/
def readsOf : Option Handle → List Nat → List Download.Bytes × Option Handle
  | h, [] => ([], h)
  | h, n :: ns => ((readStored h true n).1 :: (readsOf (readStored h true n).2 ns).1, (readsOf (readStored h true n).2 ns).2)

end Spec

/-! ### Manifests -/

theorem putManifestSimple_told {env : Env} {p : Peers} {d d' : Dev} {o : Except Err Bool} (h : putManifestSimple env p d = (o, d')) :
    (o = .ok true ∧ d.cl.hasPendingUpdates = false ∧ (∃ new m, d'.log = d.log ++ new ++ [.sent m true]) ∧
      d'.cl.devResult = none ∧ d'.cl.ecuResults = []) ∨
    ((o = .ok false ∨ ∃ e, o = .error e) ∧ SameResults d d' ∧ ∃ new, d'.log = d.log ++ new ∧ NoAck new) ∨
    o = .error .crash := by
  unfold putManifestSimple at h
  rcases bind_cases h with ⟨_, _, g1, h⟩ | ⟨_, g1, rfl⟩
  swap_goal
  · simp at g1
  simp only [gets_eq, Prod.mk.injEq, Except.ok.injEq, id] at g1
  obtain ⟨rfl, rfl⟩ := g1
  split at h
  · simp only [pure_eq, Prod.mk.injEq] at h
    obtain ⟨rfl, rfl⟩ := h
    exact .inr (.inl ⟨.inl rfl, ⟨rfl, rfl⟩, [], by simp, by intro m hm; cases hm⟩)
  next hp =>
  rcases bind_cases h with ⟨m, d1, g1, h⟩ | ⟨e, g1, rfl⟩
  swap_goal
  · obtain ⟨s1, s2, _, n1, s4, s5⟩ := (assembleManifest_still env p).of_eq g1
    exact .inr (.inl ⟨.inr ⟨e, rfl⟩, ⟨s1, s2⟩, n1, s4, fun m hm => s5 m true hm⟩)
  obtain ⟨s1, s2, _, n1, s4, s5⟩ := (assembleManifest_still env p).of_eq g1
  rcases bind_cases h with ⟨ok, d2, g2, h⟩ | ⟨e, g2, rfl⟩
  swap_goal
  · simp at g2
  simp only [ask_eq, Prod.mk.injEq, Except.ok.injEq] at g2
  obtain ⟨_, rfl⟩ := g2
  rcases bind_cases h with ⟨_, d3, g3, h⟩ | ⟨e, g3, rfl⟩
  swap_goal
  · rcases act_cases g3 with ⟨_, _, ho, _⟩ | ⟨ho, _⟩
    · simp at ho
    · injection ho with ho; subst ho; exact .inr (.inr rfl)
  obtain ⟨k, _, rfl⟩ := act_ok.1 g3
  cases ok with
  | true =>
    rw [if_pos rfl] at h
    rcases bind_cases h with ⟨_, d4, g4, h⟩ | ⟨e, g4, rfl⟩
    swap_goal
    · obtain ⟨cl', h5, rfl⟩ := inClient_run g4
      unfold clearInstallationResults at h5
      rcases cwrite_cases h5 with ⟨n, ho, _⟩ | ⟨ho, _⟩
      · simp at ho
      · injection ho with ho; subst ho; exact .inr (.inr rfl)
    simp only [pure_eq, Prod.mk.injEq] at h
    obtain ⟨rfl, rfl⟩ := h
    obtain ⟨cl', h5, rfl⟩ := inClient_run g4
    unfold clearInstallationResults at h5
    rcases cwrite_cases h5 with ⟨n, _, _, rfl⟩ | ⟨ho, _⟩
    · exact .inl ⟨rfl, by simpa using hp, ⟨n1, m, by show d1.log ++ _ = _; rw [s4]⟩, rfl, rfl⟩
    · simp at ho
  | false =>
    rw [if_neg (by simp)] at h
    simp only [pure_eq, Prod.mk.injEq] at h
    obtain ⟨rfl, rfl⟩ := h
    refine .inr (.inl ⟨.inl rfl, ⟨s1, s2⟩, n1 ++ [.sent m false], by show d1.log ++ _ = _; rw [s4]; simp, ?_⟩)
    intro m' hm
    rcases List.mem_append.1 hm with hm | hm
    · exact s5 m' true hm
    · simp at hm

/-- C83, manifests. `Aktualizr_send_manifest` returns 0 if a manifest has been sent and the server has acknowledged it
— then nothing was pending and what had to be reported is done with — and otherwise -1: then no manifest was acknowledged and
everything that has to be reported is kept. -/
theorem C83_manifest (env : Env) (p : Peers) (d d' : Dev) (r : Int) (h : sendManifest env p d = (.ok r, d')) :
    (r = 0 ∧ d.cl.hasPendingUpdates = false ∧ (∃ new m, d'.log = d.log ++ new ++ [.sent m true]) ∧
      d'.cl.devResult = none ∧ d'.cl.ecuResults = []) ∨
    (r = -1 ∧ SameResults d d' ∧ ∃ new, d'.log = d.log ++ new ∧ NoAck new) := by
  unfold sendManifest at h
  rcases catchStd_ok.1 h with g | ⟨e, d1, g, he, h⟩
  · obtain ⟨b, d1, g1, g⟩ := M.bind_ok.1 g
    simp only [pure_eq, Prod.mk.injEq, Except.ok.injEq] at g
    obtain ⟨rfl, rfl⟩ := g
    rcases putManifestSimple_told g1 with ⟨hb, k⟩ | ⟨hb, k⟩ | hb
    · injection hb with hb; subst hb; exact .inl ⟨rfl, k⟩
    · rcases hb with hb | ⟨_, hb⟩
      · injection hb with hb; subst hb; exact .inr ⟨rfl, k⟩
      · simp at hb
    · simp at hb
  · simp only [pure_eq, Prod.mk.injEq, Except.ok.injEq] at h
    obtain ⟨rfl, rfl⟩ := h
    rcases bind_cases g with ⟨b, d2, _, g⟩ | ⟨e', g1, he'⟩
    · simp at g
    injection he' with he'
    subst he'
    rcases putManifestSimple_told g1 with ⟨hb, k⟩ | ⟨_, k⟩ | hb
    · simp at hb
    · exact .inr ⟨rfl, k⟩
    · injection hb with hb
      subst hb
      simp [Err.isStd] at he

/-! ### Updates -/

theorem enumerated_some (l : List Target) : enumerated (some l) = l.map some := by
  apply List.ext_getElem
  · simp [enumerated, targetsNum]
  · intro n h1 h2
    have : n < l.length := by simpa using h2
    simp [enumerated, nthTarget, this]

/-- C83, checks. Going through what `Aktualizr_updates_check` returns by index gives exactly the updates the check found,
and nothing if it threw. If it gives anything, nothing is pending, and each of them was listed by the Director and by the Image repository,
in metadata signed under verified Roots. -/
theorem C83_check (c : Ctx) (p : Peers) (d d' : Dev) (u : Option (List Target)) (h : updatesCheck c p d = (.ok u, d')) :
    ((∃ r, fetchMeta c p d = (.ok r, d') ∧ enumerated u = r.updates.map some) ∨
      ((∃ e, fetchMeta c p d = (.error e, d')) ∧ enumerated u = [])) ∧
    (∀ n, targetsNum u ≤ n → nthTarget u n = none) ∧
    ∀ t, some t ∈ enumerated u → d'.cl.hasPendingUpdates = false ∧ DirectorTrusted c.env d'.cl.w.dir ∧
      ∃ x ∈ d'.cl.w.dir.targets.targets, ∃ m, Offers x m t ∧
        ImageLists c.env d'.cl.w.img (fun x => ∃ n, n < d'.cl.w.tick ∧ x = c.clock n) t m := by
  refine ⟨?_, ?_, ?_⟩
  · unfold updatesCheck at h
    rcases catchStd_ok.1 h with g | ⟨e, d1, g, he, h⟩
    · obtain ⟨r, d1, g1, g⟩ := M.bind_ok.1 g
      simp only [pure_eq, Prod.mk.injEq, Except.ok.injEq] at g
      obtain ⟨rfl, rfl⟩ := g
      refine .inl ⟨r, g1, ?_⟩
      split
      · next hr => rw [List.isEmpty_iff.1 hr]; rfl
      · exact enumerated_some _
    · simp only [pure_eq, Prod.mk.injEq, Except.ok.injEq] at h
      obtain ⟨rfl, rfl⟩ := h
      rcases bind_cases g with ⟨b, d2, _, g⟩ | ⟨e', g1, _⟩
      · simp at g
      exact .inr ⟨⟨e', g1⟩, rfl⟩
  · intro n hn
    cases u with
    | none => rfl
    | some l => exact List.getElem?_eq_none hn
  · intro t ht
    unfold updatesCheck at h
    rcases catchStd_ok.1 h with g | ⟨e, d1, g, he, h⟩
    · obtain ⟨r, d1, g1, g⟩ := M.bind_ok.1 g
      simp only [pure_eq, Prod.mk.injEq, Except.ok.injEq] at g
      obtain ⟨rfl, rfl⟩ := g
      split at ht
      · cases ht
      next hr =>
      rw [enumerated_some] at ht
      have ht : t ∈ r.updates := by simpa using ht
      obtain ⟨hp, d2, cl', k1, k2⟩ := fetchMeta_offers g1 (.inl (List.ne_nil_of_mem ht))
      have k3 := C10_approved c d2.cl cl' r t k1 ht
      rw [k2] at hp ⊢
      exact ⟨hp, k3⟩
    · simp only [pure_eq, Prod.mk.injEq, Except.ok.injEq] at h
      obtain ⟨rfl, rfl⟩ := h
      cases ht

/-! ### Downloading and installing -/

theorem status_ok {α : Type} {m : D α} {d d' : Dev} {r : Int} (h : status m d = (.ok r, d')) :
    (r = 0 ∧ ∃ a, m d = (.ok a, d')) ∨ (r = -1 ∧ ∃ e, e.isStd = true ∧ m d = (.error e, d')) := by
  unfold status at h
  rcases catchStd_ok.1 h with g | ⟨e, d1, g, he, h⟩
  · obtain ⟨a, d1, g1, g⟩ := M.bind_ok.1 g
    simp only [pure_eq, Prod.mk.injEq, Except.ok.injEq] at g
    obtain ⟨rfl, rfl⟩ := g
    exact .inl ⟨rfl, a, g1⟩
  · simp only [pure_eq, Prod.mk.injEq, Except.ok.injEq] at h
    obtain ⟨rfl, rfl⟩ := h
    rcases bind_cases g with ⟨b, d2, _, g⟩ | ⟨e', g1, he'⟩
    · simp at g
    injection he' with he'
    subst he'
    exact .inr ⟨rfl, e, he, g1⟩

/-- C83, downloads. When `Aktualizr_download_target` returns 0, the image has been obtained, or the stored metadata list nothing
new, or a failure is stored that the next manifest reports. Missing for the full claim because it is false
(`C83_download_zero`): that 0 means that the image has been obtained. -/
theorem C83_download_partial (c : Ctx) (f : Fetched) (t : Target) (d d' : Dev) (r : Int) (h : downloadTarget c f (some t) d = (.ok r, d')) :
    (r = 0 ∨ r = -1) ∧ (r = 0 → (∃ n, f n t = true) ∨ recheck c [t] d = (.ok .noUpdates, d') ∨
      ∃ res row, res.success = false ∧ d'.cl.devResult = some row ∧ StoredAs row.result res) := by
  rcases status_ok h with ⟨rfl, got, g⟩ | ⟨rfl, e, _, g⟩
  · refine ⟨.inl rfl, fun _ => ?_⟩
    rcases downloadImages_cases g with ⟨_, k⟩ | ⟨_, _, k⟩ | ⟨_, res, row, k1, k2, k3⟩
    · exact .inr (.inl k)
    · exact .inl (k t (by simp))
    · exact .inr (.inr ⟨res, row, by rcases k1 with rfl | rfl <;> rfl, k2, k3⟩)
  · exact ⟨.inr rfl, fun h => by cases h⟩

/-- C83, installations. When `Aktualizr_install_target` returns 0, how the installation went is stored for the next manifest.
Missing for the full claim because it is false (`C83_install_zero`): that 0 means that the target has been installed. -/
theorem C83_install_partial (c : Ctx) (p : Peers) (t : Target) (d d' : Dev) (r : Int) (h : installTarget c p (some t) d = (.ok r, d')) :
    (r = 0 ∨ r = -1) ∧ (r = 0 → ∃ rep row, uptaneInstall c p [t] d = (.ok rep, d') ∧ d'.cl.devResult = some row ∧ StoredAs row.result rep.device) := by
  rcases status_ok h with ⟨rfl, rep, g⟩ | ⟨rfl, e, _, g⟩
  · refine ⟨.inl rfl, fun _ => ?_⟩
    obtain ⟨row, k1, k2⟩ := uptaneInstall_stores g
    exact ⟨rep, row, g, k1, k2⟩
  · exact ⟨.inr rfl, fun h => by cases h⟩

/-! ### Stored images -/

/-- C83, opening. A handle is at the beginning of the stored image, which has the length and the hash the target lists; and if
there is such an image and the files can be read, a handle is returned. Nothing is changed. -/
theorem C83_open (digest : Download.Digest) (io1 io2 : Download.Io) (t : Target) (w : Download.World) :
    (∀ h w', openStored digest io1 io2 (some t) w = (.ok (some h), w') →
      ∃ b, storedFor w t = some b ∧ b.length = t.length ∧ HashFits digest t b ∧ h = { rest := b } ∧ w' = w) ∧
    ∀ b, io1.read = true → io2.read = true → storedFor w t = some b → b.length = t.length → HashFits digest t b →
      openStored digest io1 io2 (some t) w = (.ok (some { rest := b }), w) := by
  constructor
  · intro h w' ho
    unfold openStored at ho
    rcases catchStd_ok.1 ho with g | ⟨e, w1, g, he, ho⟩
    · obtain ⟨s, w1, g1, g0⟩ := M.bind_ok.1 g
      by_cases hs : s = .good
      · rw [if_pos hs] at g0
        subst hs
        obtain ⟨b, k1, k2, k3⟩ := Download.verify_ok g1
        obtain rfl := Download.verify_snd g1
        obtain ⟨b', w2, g2, g3⟩ := M.bind_ok.1 g0
        obtain ⟨rfl, k4⟩ := Download.open_ok g2
        simp only [pure_eq, Prod.mk.injEq, Except.ok.injEq, Option.some.injEq] at g3
        obtain ⟨rfl, rfl⟩ := g3
        rw [k1] at k4
        injection k4 with k4
        subst k4
        exact ⟨b, k1, k2, k3, rfl, rfl⟩
      · rw [if_neg hs] at g0
        simp at g0
    · simp at ho
  · intro b h1 h2 h3 h4 h5
    obtain ⟨h0, k1, k2, k3⟩ := id h5
    obtain ⟨s, ks⟩ := Download.verify_total (digest := digest) (w := w) h1 k1 k2
    have hs : s = .good := by
      have := Download.verify_ok ks
      cases s with
      | good => rfl
      | notFound => simp [h3] at this
      | incomplete => obtain ⟨b', e1, e2⟩ := this; rw [h3] at e1; injection e1 with e1; subst e1; omega
      | oversized => obtain ⟨b', e1, e2⟩ := this; rw [h3] at e1; injection e1 with e1; subst e1; omega
      | hashMismatch => obtain ⟨b', e1, _, e2⟩ := this; rw [h3] at e1; injection e1 with e1; subst e1; exact absurd h5 e2
    subst hs
    have ho : Download.openTargetFile io2 t w = (.ok b, w) := by
      unfold Download.openTargetFile
      cases hc : w.checkTargetFile t with
      | none =>
        rw [Download.stored_eq] at hc
        cases hn : w.names t.filename with
        | none => simp [storedFor, hn] at h3
        | some f => rw [hn] at hc; simp [h3] at hc
      | some x =>
        obtain ⟨n, f⟩ := x
        obtain ⟨_, _, b', hb, _, hs⟩ := Download.check_some hc
        rw [h3] at hs
        injection hs with hs
        subst hs
        simp [h2, hb]
    unfold openStored
    exact catchStd_ok.2 (.inl (M.bind_ok.2 ⟨_, _, ks, by rw [if_pos rfl]; exact M.bind_ok.2 ⟨_, _, ho, rfl⟩⟩))

theorem readStored_next {h : Handle} {n : Nat} (hn : n < 9223372036854775808) (hf : h.failed = true → h.rest = []) :
    (readStored (some h) true n).1 = h.rest.take n ∧ ∃ h', (readStored (some h) true n).2 = some h' ∧ h'.rest = h.rest.drop n ∧
      (h'.failed = true → h'.rest = []) := by
  simp only [readStored, if_pos, streamsize, if_pos hn, Handle.read]
  cases hx : h.failed with
  | true => simp [hx, hf hx]
  | false =>
    refine ⟨by simp, _, rfl, by simp, ?_⟩
    simp only [Bool.false_eq_true, if_false, Int.toNat_natCast, decide_eq_true_eq, List.length_take]
    intro hne
    apply List.drop_eq_nil_of_le
    omega

theorem readsOf_next : ∀ (sizes : List Nat) (h : Handle), (∀ n ∈ sizes, n < 9223372036854775808) → (h.failed = true → h.rest = []) →
    (readsOf (some h) sizes).1.flatten = h.rest.take sizes.sum ∧
    ∃ h', (readsOf (some h) sizes).2 = some h' ∧ h'.rest = h.rest.drop sizes.sum ∧ (h'.failed = true → h'.rest = [])
  | [], h, _, hf => ⟨by simp [readsOf], h, rfl, by simp, hf⟩
  | n :: ns, h, hs, hf => by
    obtain ⟨k1, h1, k2, k3, k4⟩ := readStored_next (n := n) (hs n (by simp)) hf
    obtain ⟨i1, h2, i2, i3, i4⟩ := readsOf_next ns h1 (fun m hm => hs m (by simp [hm])) k4
    simp only [readsOf, k2]
    refine ⟨?_, h2, i2, ?_, i4⟩
    · rw [List.flatten_cons, k1, i1, k3, List.sum_cons, ← List.take_add]
    · rw [i3, k3, List.drop_drop, List.sum_cons]

/-- C83, reading. Whatever was read before, in pieces of any size, the next read gives the bytes that follow, as many as fit. So it
gives nothing only if all has been read (or no room was given), and what the reads gave together is then the image. -/
theorem C83_read (b : Download.Bytes) (sizes : List Nat) (n : Nat) (hs : ∀ m ∈ sizes, m < 9223372036854775808) (hn : n < 9223372036854775808) :
    (readsOf (some { rest := b }) sizes).1.flatten = b.take sizes.sum ∧
    (readStored (readsOf (some { rest := b }) sizes).2 true n).1 = (b.drop sizes.sum).take n ∧
    (0 < n → (readStored (readsOf (some { rest := b }) sizes).2 true n).1 = [] → (readsOf (some { rest := b }) sizes).1.flatten = b) := by
  obtain ⟨k1, h1, k2, k3, k4⟩ := readsOf_next sizes { rest := b } hs (by simp)
  rw [k2]
  have k5 := (readStored_next hn k4).1
  rw [k5, k3, k1]
  refine ⟨rfl, rfl, fun h0 he => ?_⟩
  have hl := congrArg List.length he
  simp only [List.length_take, List.length_drop, List.length_nil] at hl
  refine List.take_of_length_le ?_
  show b.length ≤ _
  omega

/-- C83, names. The name a C program sees is that of the target, if it has no zero byte. -/
theorem C83_name (t : Target) (h : (0 : UInt8) ∉ t.filename.toUTF8.data.toList) : targetName (some t) = some t.filename.toUTF8.data.toList := by
  have key : ∀ l : List UInt8, (0 : UInt8) ∉ l → l.takeWhile (· != 0) = l := by
    intro l
    induction l with
    | nil => simp
    | cons a l ih =>
      intro hl
      simp only [List.mem_cons, not_or] at hl
      rw [List.takeWhile_cons, if_pos (by simpa using fun h => hl.1 h.symm), ih hl.2]
  show some _ = some _
  rw [key _ h]

/-! ### Cases, and where the code falls short -/

namespace Toy

/-- A call on a device: what it returns, and the device then. -/
def calledC {α : Type} (m : D α) (d : Dev) : Option α × Dev :=
  match m d with
  | (.ok a, d) => (some a, d)
  | (_, d) => (none, d)

/-- The update of `both` as a C program has it: the first of the list a check returns. -/
def firstUpdate (d : Dev) : Option Target := nthTarget ((calledC (updatesCheck (deleCtx both) helpful) d).1.join) 0

/-- The device after the check. -/
def afterCheck : Dev := (calledC (updatesCheck (deleCtx both) helpful) newDevice).2

/-- The device after the installation. -/
def afterInstall : Dev := (calledC (installTarget (deleCtx both) helpful (firstUpdate newDevice)) afterCheck).2

/-- The package manager cannot install. -/
def unableTo : Peers := { helpful with install := fun _ _ => .ok (.ofCode .installFailed "no space"), secInstall := fun _ _ _ => .ok (.ofCode .installFailed "no space") }

/-- The server does not take manifests. -/
def offline : Peers := { helpful with putManifest := fun _ _ => false }

end Toy

/-- What the theorems say of a new device with a Secondary: the check lists one update, downloading and installing it
return 0, and the manifest is sent. -/
example : (Toy.calledC (updatesCheck (Toy.deleCtx Toy.both) Toy.helpful) Toy.newDevice).1.map (fun u => (enumerated u).map (·.map (·.filename))) = some [some "fw"] ∧
    (Toy.calledC (downloadTarget (Toy.deleCtx Toy.both) (fun _ _ => true) (Toy.firstUpdate Toy.newDevice)) Toy.afterCheck).1 = some 0 ∧
    (Toy.calledC (installTarget (Toy.deleCtx Toy.both) Toy.helpful (Toy.firstUpdate Toy.newDevice)) Toy.afterCheck).1 = some 0 ∧
    (Toy.calledC (sendManifest Toy.E Toy.helpful) Toy.afterInstall).1 = some 0 := by
  decide +kernel

/-- And -1 is returned when the verification of the image throws, and when the server does not take the manifest. -/
example : (Toy.calledC (installTarget (Toy.deleCtx Toy.both) Toy.throwing (Toy.firstUpdate Toy.newDevice)) Toy.afterCheck).1 = some (-1) ∧
    (Toy.calledC (sendManifest Toy.E Toy.offline) Toy.afterInstall).1 = some (-1) := by
  decide +kernel

/-- Three reads of an image of seven bytes, with room for three each, and one more. -/
example : (readsOf (some { rest := [1, 2, 3, 4, 5, 6, 7] }) [3, 3, 3, 3]).1 = [[1, 2, 3], [4, 5, 6], [7], []] := by decide +kernel

/-- An image that is stored as it should be is opened, and one of which a byte is wrong is not. -/
example : let w : UInt8 → Download.World := fun x => { files := fun f => if f = "AB" then some [0, x] else none, names := fun n => if n = "fw" then some "AB" else none }
    ((openStored Toy.letters {} {} (some (Toy.image "fw" "AB" 2)) (w 1)).1 = .ok (some { rest := [0, 1] })) ∧
    (openStored Toy.letters {} {} (some (Toy.image "fw" "AB" 2)) (w 2)).1 = .ok none := by
  decide +kernel

/-- Finding. `Aktualizr_download_target` returns 0 although the image could not be obtained in any attempt. -/
theorem C83_download_zero : (Toy.firstUpdate Toy.newDevice).isSome = true ∧
    (Toy.calledC (downloadTarget (Toy.deleCtx Toy.both) (fun _ _ => false) (Toy.firstUpdate Toy.newDevice)) Toy.afterCheck).1 = some 0 := by
  decide +kernel

/-- Finding. `Aktualizr_install_target` returns 0 although the installation failed on both ECUs. -/
theorem C83_install_zero :
    (Toy.calledC (installTarget (Toy.deleCtx Toy.both) Toy.unableTo (Toy.firstUpdate Toy.newDevice)) Toy.afterCheck).1 = some 0 ∧
    (Toy.calledC (installTarget (Toy.deleCtx Toy.both) Toy.unableTo (Toy.firstUpdate Toy.newDevice)) Toy.afterCheck).2.cl.devResult.map
      (fun r => r.result.read.toOption.map (·.success)) = some (some false) := by
  decide +kernel

/-- Finding. `Aktualizr_updates_check` returns the same when no server can be reached and when there is no update. -/
theorem C83_check_null :
    let t := Toy.cycleWith (Toy.directing "dt3e") (Toy.peers .good)
    let gone := { Toy.outside t with net := fun _ _ _ _ => none }
    (Toy.calledC (updatesCheck gone t.peers) (Toy.ready t Toy.started)).1.map (·.isNone) = some true ∧
    (Toy.calledC (fetchMeta gone t.peers) (Toy.ready t Toy.started)).1.map (·.status) = some .error ∧
    (Toy.calledC (updatesCheck (Toy.outside t) t.peers) (Toy.ready t Toy.started)).1.map (·.isNone) = some true ∧
    (Toy.calledC (fetchMeta (Toy.outside t) t.peers) (Toy.ready t Toy.started)).1.map (·.status) = some .noUpdates := by
  decide +kernel

/-- Finding. Downloading the first update of an empty list dereferences a null pointer. -/
theorem C83_null_target : (downloadTarget (Toy.deleCtx Toy.both) (fun _ _ => true) (Toy.firstUpdate Toy.afterInstall) Toy.afterInstall).1 = .error (.ub "*t") := by
  decide +kernel

/-- Finding. A read with room for 2^63 bytes or more gives nothing, as at the end of the image, and so do all reads after it. -/
theorem C83_read_huge : (readsOf (some { rest := [1, 2, 3] }) [1, 18446744073709551615, 1]).1 = [[1], [], []] := by decide +kernel

end Aktualizr
