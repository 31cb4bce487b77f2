import Verif.Props.C62

/-! # C61, C62: an image that only a delegated role lists -/

namespace Aktualizr

open M Spec

namespace Toy

theorem isn5_lists {name raw : String} {v : Int}
    (h : (name, raw, v) ∈ [("targets", "it5", (5 : Int)), ("A", "itA", 1), ("B", "itB", 1), ("C", "itC", 1)]) : SnapshotLists E "isn5" name raw v := by
  have entry : ∀ (file id : String) (n : Int), (file, id, n) ∈ [("targets.json", "it5", (5 : Int)), ("A.json", "itA", 1), ("B.json", "itB", 1), ("C.json", "itC", 1)] →
      ∀ kj : String × Json, kj = (file, .obj [("hashes", .obj [("sha256", .str ("#" ++ id ++ "!"))]), ("version", .int n)]) → stripExtension file = name → id = raw → n = v →
      upper ("#" ++ id ++ "!") = upper (digest E "sha256" id) →
      (∃ hashes, kj.2.get "hashes" = .ok hashes ∧ HashesToAll E raw hashes) ∧ (∃ vj, kj.2.get "version" = .ok vj ∧ vj.asInt = .ok v) := by
    intro file id n hmem kj hkj _ hid hn hu
    subst hkj hid hn
    refine ⟨⟨_, rfl, ?_⟩, _, rfl, ?_⟩
    · intro kj hk _
      have hk' : kj = (_, _) := List.mem_singleton.1 hk
      subst hk'
      exact ⟨_, rfl, hu⟩
    · simp only [List.mem_cons, Prod.mk.injEq, List.not_mem_nil, or_false] at hmem
      rcases hmem with ⟨-, -, hn⟩ | ⟨-, -, hn⟩ | ⟨-, -, hn⟩ | ⟨-, -, hn⟩ <;> rw [hn] <;> rfl
  refine ⟨.obj [("targets.json", .obj [("hashes", .obj [("sha256", .str ("#" ++ "it5" ++ "!"))]), ("version", .int 5)]),
    ("A.json", .obj [("hashes", .obj [("sha256", .str ("#" ++ "itA" ++ "!"))]), ("version", .int 1)]),
    ("B.json", .obj [("hashes", .obj [("sha256", .str ("#" ++ "itB" ++ "!"))]), ("version", .int 1)]),
    ("C.json", .obj [("hashes", .obj [("sha256", .str ("#" ++ "itC" ++ "!"))]), ("version", .int 1)])], ⟨_, rfl, _, rfl, rfl⟩, ?_, ?_⟩
  · simp only [List.mem_cons, Prod.mk.injEq, List.not_mem_nil, or_false] at h
    rcases h with ⟨rfl, rfl, rfl⟩ | ⟨rfl, rfl, rfl⟩ | ⟨rfl, rfl, rfl⟩ | ⟨rfl, rfl, rfl⟩
    · exact ⟨("targets.json", _), by simp only [Json.entries, List.mem_cons, Prod.mk.injEq, true_and]; exact .inl rfl, by decide +kernel⟩
    · exact ⟨("A.json", _), by simp only [Json.entries, List.mem_cons, Prod.mk.injEq, true_and]; exact .inr (.inl rfl), by decide +kernel⟩
    · exact ⟨("B.json", _), by simp only [Json.entries, List.mem_cons, Prod.mk.injEq, true_and]; exact .inr (.inr (.inl rfl)), by decide +kernel⟩
    · exact ⟨("C.json", _), by simp only [Json.entries, List.mem_cons, Prod.mk.injEq, true_and]; exact .inr (.inr (.inr (.inl rfl))), by decide +kernel⟩
  · intro kj hk hn
    simp only [List.mem_cons, Prod.mk.injEq, List.not_mem_nil, or_false] at h
    simp only [Json.entries, List.mem_cons, List.not_mem_nil, or_false] at hk
    have e1 : stripExtension "targets.json" = "targets" := by decide +kernel
    have e2 : stripExtension "A.json" = "A" := by decide +kernel
    have e3 : stripExtension "B.json" = "B" := by decide +kernel
    have e4 : stripExtension "C.json" = "C" := by decide +kernel
    rcases hk with hk | hk | hk | hk <;> rcases h with ⟨ha, hb, hc⟩ | ⟨ha, hb, hc⟩ | ⟨ha, hb, hc⟩ | ⟨ha, hb, hc⟩ <;>
      first
      | (exfalso; rw [hk, ha] at hn; revert hn; simp only [e1, e2, e3, e4]; decide)
      | exact entry _ _ _ (by simp) kj hk (by rw [hk] at hn; exact hn) hb.symm hc.symm (by decide +kernel)

/-- The Director assigns `fw3`. -/
def fw3 : Targets := targetsOf "dt5" (rootOf "dr1")
/-- The top-level Targets, which list nothing. -/
def top5 : Targets := targetsOf "it5" (rootOf "ir1")
/-- The content of a delegated role. -/
def roleOf (parent : Targets) (name raw : String) : Targets := val (Targets.ofJsonSigned E ⟨.delegation, name⟩ (E.parseJson raw) parent.base) {}
def roleA : Targets := roleOf top5 "A" "itA"
def roleB : Targets := roleOf top5 "B" "itB"
def roleC : Targets := roleOf roleB "C" "itC"

theorem honestRole {parent : Targets} {name raw : String} {v : Int} {b : Bool} {body : List (String × Json)} {signers : List (String × String)}
    (hs : ∀ n, net delegating n .image name (-1) = some raw) (hsize : (raw.utf8ByteSize : Int) ≤ 8 * 1024 * 1024)
    (hdoc : E.parseJson raw = doc raw body signers) (hn : (signers.map Prod.fst).Nodup) (hne : raw ≠ "")
    (hr : (Targets.ofJsonSigned E ⟨.delegation, name⟩ (E.parseJson raw) parent.base).toBool = true)
    (hl : (name, raw, v) ∈ [("targets", "it5", (5 : Int)), ("A", "itA", 1), ("B", "itB", 1), ("C", "itC", 1)])
    (hv : StatesVersion E raw v) (hx : (roleOf parent name raw).base.expiry.isExpiredAt ⟨"2026-01-01T00:00:00Z"⟩ = false)
    (hk : parent.terminatingRole.lookup name = some b) :
    HonestRole (deleCtx delegating) [] "isn5" parent name raw (roleOf parent name raw) b := by
  have hok := Targets.ofJsonSigned_ok (role := ⟨.delegation, name⟩) (.inr rfl) (val_eq (d := ({} : Targets)) hr)
  have hver : (roleOf parent name raw).base.version = v := by
    have := hok.2.2.version hv
    first | exact this | exact this.symm
  exact {
    served := ⟨hs, hsize⟩
    signed := hok.1
    type := hok.2.1
    format := by show WellFormedSignatures (E.parseJson raw); rw [hdoc]; exact wellFormed _ _ _ hn
    nonempty := hne
    reads := hok.2.2
    version := by rw [hver]; exact hv
    listed := by rw [hver]; exact isn5_lists hl
    fresh := fun _ => hx
    kind := hk
    newer := fun _ h => by cases h }

theorem honestA : HonestRole (deleCtx delegating) [] "isn5" top5 "A" "itA" roleA true :=
  honestRole (v := 1) (signers := [("ak", "apub")]) (fun _ => rfl) (by decide) rfl (by decide) (by decide) (by decide +kernel) (by simp)
    ⟨_, _, rfl, rfl, rfl, rfl⟩ (by decide +kernel) (by decide +kernel)

theorem honestB : HonestRole (deleCtx delegating) [] "isn5" top5 "B" "itB" roleB false :=
  honestRole (v := 1) (signers := [("bk", "bpub")]) (fun _ => rfl) (by decide) rfl (by decide) (by decide) (by decide +kernel) (by simp)
    ⟨_, _, rfl, rfl, rfl, rfl⟩ (by decide +kernel) (by decide +kernel)

theorem honestC : HonestRole (deleCtx delegating) [] "isn5" roleB "C" "itC" roleC false :=
  honestRole (v := 1) (signers := [("ck", "cpub")]) (fun _ => rfl) (by decide) rfl (by decide) (by decide) (by decide +kernel) (by simp)
    ⟨_, _, rfl, rfl, rfl, rfl⟩ (by decide +kernel) (by decide +kernel)

theorem fw3_mem {t : Target} (h : t ∈ fw3.targets) : t.filename = "fw3" ∧ t.ecus = [("e1", "h1")] ∧
    t.hashes = [Hash.mk' .sha256 "abe"] ∧ t.length = 3 ∧ t.hwids = [] ∧ t.sha256Hash = "abe" := by
  have h1 : fw3.targets.map (fun t => (t.filename, t.ecus, t.hashes, t.length, t.hwids)) =
    [("fw3", [("e1", "h1")], [Hash.mk' .sha256 "abe"], 3, [])] := by decide +kernel
  have h2 : fw3.targets.map (fun t => t.sha256Hash) = ["abe"] := by decide +kernel
  have h1 := map_mem h1 h
  have h2 := map_mem h2 h
  simp only [List.mem_singleton, Prod.mk.injEq] at h1 h2
  exact ⟨h1.1, h1.2.1, h1.2.2.1, h1.2.2.2.1, h1.2.2.2.2, h2⟩

theorem roleC_lists {t : Target} (ht : t ∈ fw3.targets) : ∃ m, ListedBy roleC t m := by
  obtain ⟨h1, h2, h3, h4, h5, -⟩ := fw3_mem ht
  have hm : roleC.targets.map (fun t => (t.filename, t.ecus, t.hashes, t.length, t.hwids)) =
    [("fw3", [], [Hash.mk' .sha256 "abe"], 3, ["h1"])] := by decide +kernel
  cases hl : roleC.targets with
  | nil => rw [hl] at hm; cases hm
  | cons m l =>
    rw [hl] at hm
    simp only [List.map_cons, List.cons.injEq, Prod.mk.injEq, List.map_eq_nil_iff] at hm
    obtain ⟨⟨a1, a2, a3, a4, a5⟩, -⟩ := hm
    refine ⟨m, by rw [hl]; simp, ⟨by rw [a1, h1], by rw [a4, h4], ?_, ?_⟩, .inr (.inr ?_)⟩
    · rw [a3, h3]; exact ⟨_, List.mem_singleton.2 rfl, List.mem_singleton.2 rfl⟩
    · rw [a3, h3]
      intro h hh h' hh' _
      rw [List.mem_singleton.1 hh, List.mem_singleton.1 hh']
    · unfold HardwareAllowed
      rw [h2, h5, a2, a5]
      simp

theorem unlisted_of {ts : Targets} (h : ts.targets.length = 0) (t m : Target) : ¬ ListedBy ts t m := by
  rintro ⟨hm, -⟩
  rw [List.eq_nil_of_length_eq_zero h] at hm
  cases hm

/-- `fw3` is found two delegations down. -/
theorem fw3_attainable : ∀ t ∈ fw3.targets, Attainable (deleCtx delegating) [] "isn5" top5 3 t := by
  intro t ht
  obtain ⟨m, hm⟩ := roleC_lists ht
  have hname := (fw3_mem ht).1
  have hB : DelegatedFor E top5 "B" t.filename := by
    rw [hname]
    exact ⟨["*"], by decide +kernel, "*", by simp, by decide +kernel⟩
  have hC : DelegatedFor E roleB "C" t.filename := by
    rw [hname]
    exact ⟨["*"], by decide +kernel, "*", by simp, by decide +kernel⟩
  have hnames : top5.delegatedRoleNames = ["A", "B"] := by decide +kernel
  have hnamesB : roleB.delegatedRoleNames = ["C"] := by decide +kernel
  constructor
  · refine .inr (.inr ⟨fun x => if x = "B" then 1 else 0, by rw [hnames]; decide, fun name hn => ?_⟩)
    rw [hnames] at hn
    simp only [List.mem_cons, List.not_mem_nil, or_false] at hn
    rcases hn with rfl | rfl
    · exact ⟨by decide +kernel, fun _ => ⟨_, _, _, honestA, .inr (.inl rfl)⟩⟩
    · refine ⟨by decide +kernel, fun _ => ⟨_, _, _, honestB, .inr (.inr ⟨fun _ => 0, by rw [hnamesB]; decide, fun name hn => ?_⟩)⟩⟩
      rw [hnamesB] at hn
      simp only [List.mem_cons, List.not_mem_nil, or_false] at hn
      subst hn
      exact ⟨by decide +kernel, fun _ => ⟨_, _, _, honestC, .inl ⟨m, hm⟩⟩⟩
  · refine ⟨m, .inr ⟨unlisted_of (by decide +kernel) t, rfl, "B", by rw [hnames]; simp, hB, _, _, _, honestB, ?_⟩⟩
    exact .inr ⟨unlisted_of (by decide +kernel) t, rfl, "C", by rw [hnamesB]; simp, hC, _, _, _, honestC, .inl hm⟩

theorem fw3Director : HonestDirector (deleCtx delegating) newDevice.cl.w.db "dr1" [] (rootOf "dr1") "dt5" fw3 where
  roots := {
    start := .inr ⟨rfl, fun _ => rfl, by decide⟩
    offered := ⟨rootOf "dr1", dr1_genuine, by decide +kernel, by
      have hv : (rootOf "dr1").base.version + 1 = 2 := by decide +kernel
      rw [hv]
      exact fun _ => rfl, by decide +kernel⟩
    chain := trivial
    ends := dr1_genuine.reads
    fresh := fun _ => by
      show TimeStamp.isExpiredAt _ ⟨"2026-01-01T00:00:00Z"⟩ = _
      decide +kernel }
  served := ⟨fun _ => rfl, by decide⟩
  genuine := genuine (id := "dt5") (signers := dk) rfl (by decide) (.inl (by simp)) (by decide) (by decide +kernel)
  reads := readsTargets (by decide +kernel)
  newer := ⟨5, ⟨_, _, rfl, rfl, rfl, rfl⟩, by decide, fun old ho => (none_stored ho).elim⟩
  fresh := fun _ => by
    show TimeStamp.isExpiredAt _ ⟨"2026-01-01T00:00:00Z"⟩ = _
    decide +kernel
  some := by
    intro h
    have : fw3.targets.map (·.filename) = ["fw3"] := by decide +kernel
    rw [h] at this
    cases this
  plain := by decide +kernel
  once := by unfold EcusOnce; decide +kernel

theorem image5 : HonestImage (deleCtx delegating) newDevice.cl.w.db "ir1" [] (rootOf "ir1") "its5" "isn5" "it5"
    (timestampOf "its5" (rootOf "ir1")) (snapshotOf "isn5" (rootOf "ir1")) top5 where
  roots := {
    start := .inr ⟨rfl, fun _ => rfl, by decide⟩
    offered := ⟨rootOf "ir1", ir1_genuine, by decide +kernel, by
      have hv : (rootOf "ir1").base.version + 1 = 2 := by decide +kernel
      rw [hv]
      exact fun _ => rfl, by decide +kernel⟩
    chain := trivial
    ends := ir1_genuine.reads
    fresh := fun _ => by
      show TimeStamp.isExpiredAt _ ⟨"2026-01-01T00:00:00Z"⟩ = _
      decide +kernel }
  servedT := ⟨fun _ => rfl, by decide⟩
  genuineT := genuine (id := "its5") (signers := ik) rfl (by decide) (.inl (by simp)) (by decide) (by decide +kernel)
  readsT := ⟨(rootOf "ir1").base, val_eq (by decide +kernel)⟩
  newerT := ⟨5, ⟨_, _, rfl, rfl, rfl, rfl⟩, by decide, fun old ho => (none_stored ho).elim⟩
  freshT := fun _ => by
    show TimeStamp.isExpiredAt _ ⟨"2026-01-01T00:00:00Z"⟩ = _
    decide +kernel
  servedS := ⟨fun _ => rfl, by decide +kernel⟩
  genuineS := genuine (id := "isn5") (signers := ik) rfl (by decide) (.inl (by simp)) (by decide) (by decide +kernel)
  readsS := ⟨(rootOf "ir1").base, val_eq (by decide +kernel)⟩
  vouched := by
    have hv : (snapshotOf "isn5" (rootOf "ir1")).version = 5 := by decide +kernel
    rw [hv]
    refine ⟨_, _, _, ⟨_, rfl, _, rfl, _, rfl, rfl⟩, rfl, ?_, ⟨("sha256", .str "#isn5!"), by simp [Json.entries], .inl rfl⟩, rfl, rfl⟩
    intro kj hk _
    have hk' : kj = (_, _) := List.mem_singleton.1 hk
    subst hk'
    exact ⟨_, rfl, by decide +kernel⟩
  versionS := by
    have hv : (snapshotOf "isn5" (rootOf "ir1")).version = 5 := by decide +kernel
    rw [hv]
    exact ⟨⟨_, _, rfl, rfl, rfl, rfl⟩, by decide⟩
  knownS := fun old ho => (none_stored ho).elim
  freshS := fun _ => by
    show TimeStamp.isExpiredAt _ ⟨"2026-01-01T00:00:00Z"⟩ = _
    decide +kernel
  served := ⟨fun _ => rfl, by decide⟩
  genuine := genuine (id := "it5") (signers := ik) rfl (by decide) (.inl (by simp)) (by decide) (by decide +kernel)
  reads := readsTargets (by decide +kernel)
  listed := by
    have hv : top5.base.version = 5 := by decide +kernel
    rw [hv]
    exact isn5_lists (by simp)
  newer := ⟨5, ⟨_, _, rfl, rfl, rfl, rfl⟩, by decide, fun old ho => (none_stored ho).elim⟩
  fresh := fun _ => by
    show TimeStamp.isExpiredAt _ ⟨"2026-01-01T00:00:00Z"⟩ = _
    decide +kernel

theorem helpful_is5 : Helpful (deleCtx delegating) helpful (rootOf "dr1") (rootOf "ir1") where
  verify := fun _ _ => rfl
  install := fun _ _ => ⟨_, rfl⟩
  reachable := fun _ => rfl
  dRoots := fun _ _ => ⟨1, rfl, .inr (.inl (by decide +kernel))⟩
  iRoots := fun _ _ => ⟨1, rfl, .inr (.inl (by decide +kernel))⟩
  putRoot := fun _ _ _ _ => ⟨_, rfl, rfl⟩
  putMetadata := fun _ _ _ => ⟨_, rfl, rfl⟩
  sendFirmware := fun _ _ _ => ⟨_, rfl, rfl⟩
  secInstall := fun _ _ _ => ⟨_, rfl⟩
  secManifest := fun _ _ e h => by cases h; rfl
  secKey := fun _ _ e h => by cases h; rfl
  putManifest := fun _ _ => rfl

end Toy

/-- The hypotheses of `C61_offered` and `C62_installed` are met by a new device and an image that only
a role two delegations down lists: it is installed, recorded and reported. -/
example : ∃ d' m r raw items, uptaneCycle (Toy.deleCtx Toy.delegating) Toy.helpful (fun _ _ => true) false Toy.newDevice = (.ok true, d') ∧
    (∃ row ∈ d'.cl.v.rows, row.ecu = "e1" ∧ row.isCurrent = true ∧ row.name = "fw3" ∧ row.sha256 = "abe") ∧
    .sent m true ∈ d'.log ∧ m.report = some (r, raw, Toy.fw3.correlationId, items) ∧ r.success = true := by
  obtain ⟨t, ht⟩ : ∃ t, t ∈ Toy.fw3.targets := by
    cases hl : Toy.fw3.targets with
    | nil => exact absurd hl Toy.fw3Director.some
    | cons t l => exact ⟨t, by simp⟩
  have hout : ∀ t ∈ Toy.fw3.targets, Outdated Toy.E Toy.newDevice.cl t := fun t ht => ⟨("e1", "h1"), by simp [(Toy.fw3_mem ht).2.1], by
    intro x hx
    cases hx⟩
  have hecu : ∀ t ∈ Toy.fw3.targets, ∀ e ∈ t.ecus, e = ("e1", "h1") := by
    intro t ht e he
    rw [(Toy.fw3_mem ht).2.1] at he
    simpa using he
  obtain ⟨d', mid, m, r, raw, items, h1, h2, h3, -, h4, h5, -⟩ := C62_installed (p := Toy.helpful) (f := fun _ _ => true) (force := false) (d := Toy.newDevice)
    (k := 3) Toy.fw3Director Toy.image5
    (by
      intro t ht e he
      rcases hecu t ht e he with rfl
      exact ⟨.inl ⟨rfl, rfl, by decide⟩, ⟨none, rfl, fun _ h => by cases h⟩, fun _ h => by cases h⟩)
    ⟨t, ht, hout t ht⟩ (fun t ht _ => Toy.fw3_attainable t ht)
    (by
      intro t ht h hh h' hh' _
      rw [(Toy.fw3_mem ht).2.2.1] at hh hh'
      rw [List.mem_singleton.1 hh, List.mem_singleton.1 hh'])
    (by
      intro t ht e he
      rcases hecu t ht e he with rfl
      exact ⟨⟨"e1", "h1", true⟩, by decide, rfl⟩)
    Toy.newDevice_kept Toy.helpful_is5 (fun _ _ => rfl) (by decide +kernel)
  refine ⟨d', m, r, raw, items, h1, ?_, by rw [h3]; simp, h4, h5⟩
  obtain ⟨a1, a2, -, -, -, a6⟩ := Toy.fw3_mem ht
  obtain ⟨⟨row, b1, b2, b3, b4, b5⟩, -⟩ := h2 t ht (hout t ht) ("e1", "h1") (by rw [a2]; simp)
  exact ⟨row, b1, b2, b3, by rw [b4, a1], by rw [b5, a6]⟩

end Aktualizr
