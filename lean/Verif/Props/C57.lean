import Verif.Props.C42

/-!
# C57 A success reported for an IP Secondary is one the Secondary reported
-/

namespace Aktualizr.Spec

open Ip

/-- The documents of the bundle, as a fetcher would ask for them. -/
def document (b : Bundle) : Repo → String → Option String
  | .director, "root" => some b.directorRoot
  | .director, "targets" => some b.directorTargets
  | .image, "root" => some b.imageRoot
  | .image, "timestamp" => some b.imageTimestamp
  | .image, "snapshot" => some b.imageSnapshot
  | .image, "targets" => some b.imageTargets
  | _, _ => none

/-- The request carries exactly the documents of the bundle. -/
def Carries (r : Req) (b : Bundle) : Prop :=
  r = .putMeta b ∨ ∃ d i, r = .putMeta2 d i ∧
    ∀ role, d.lookup role = document b .director role ∧ i.lookup role = document b .image role

/-- Codes that mean success: `kOk` and `kAlreadyProcessed`. -/
def Fine (code : Int) : Prop := code = 0 ∨ code = 1

/-- The answer says that metadata were accepted. -/
def MetaAccepted (a : Resp) : Prop := a = .putMeta true ∨ ∃ code desc, a = .putMeta2 code desc ∧ Fine code

/-- The answer says that something was installed. -/
def InstallDone (a : Resp) : Prop := (∃ code, a = .install code ∧ Fine code) ∨ ∃ code desc, a = .install2 code desc ∧ Fine code

end Aktualizr.Spec

namespace Aktualizr.Ip

open Aktualizr.Spec
open Sec (Bytes)

theorem remote_success (code : Int) (desc : String) : (remote code desc).success = true ↔ Fine code := by
  simp [remote, InstResult.ofCode, Fine]

theorem rpc_bind {α : Type} (peer : Peer) (r : Req) (s : St) (f : Resp → P α) :
    (rpc peer r >>= f) s = f (peer (s.asked ++ [r])) { s with asked := s.asked ++ [r] } :=
  M.run_bind (show rpc peer r s = (.ok (peer (s.asked ++ [r])), _) from rfl)

theorem putMetadata1_success {peer : Peer} {b : Bundle} {s s' : St} {r : InstResult}
    (h : putMetadata1 peer b s = (.ok r, s')) : r.success = true ↔ peer (s.asked ++ [.putMeta b]) = .putMeta true := by
  unfold putMetadata1 at h
  rw [rpc_bind] at h
  cases ha : peer (s.asked ++ [.putMeta b]) with
  | putMeta ok =>
    rw [ha] at h
    cases ok <;> (simp only [M.pure_eq, Prod.mk.injEq, Except.ok.injEq] at h; obtain ⟨rfl, _⟩ := h; decide)
  | _ =>
    rw [ha] at h
    simp only [M.pure_eq, Prod.mk.injEq, Except.ok.injEq] at h
    obtain ⟨rfl, _⟩ := h
    simp [InstResult.ofCode]
    try decide

/-- The request of the newer protocol. -/
def newPutMeta (b : Bundle) : Req :=
  .putMeta2 [("root", b.directorRoot), ("targets", b.directorTargets)]
    [("root", b.imageRoot), ("timestamp", b.imageTimestamp), ("snapshot", b.imageSnapshot), ("targets", b.imageTargets)]

theorem newPutMeta_carries (b : Bundle) : Carries (newPutMeta b) b := by
  refine .inr ⟨_, _, rfl, fun role => ?_⟩
  constructor
  · by_cases h1 : role = "root"
    · subst h1; rfl
    · by_cases h2 : role = "targets"
      · subst h2; rfl
      · have e1 : (role == "root") = false := by simpa using h1
        have e2 : (role == "targets") = false := by simpa using h2
        simp only [List.lookup_cons, e1, e2, List.lookup_nil]
        unfold document; split <;> simp_all
  · by_cases h1 : role = "root"
    · subst h1; rfl
    · by_cases h2 : role = "targets"
      · subst h2; rfl
      · by_cases h3 : role = "timestamp"
        · subst h3; rfl
        · by_cases h4 : role = "snapshot"
          · subst h4; rfl
          · have e1 : (role == "root") = false := by simpa using h1
            have e2 : (role == "targets") = false := by simpa using h2
            have e3 : (role == "timestamp") = false := by simpa using h3
            have e4 : (role == "snapshot") = false := by simpa using h4
            simp only [List.lookup_cons, e1, e2, e3, e4, List.lookup_nil]
            unfold document; split <;> simp_all

theorem putMetadata2_eq {peer : Peer} {b : Bundle} {s s' : St} {r : InstResult}
    (h : putMetadata2 peer b s = (.ok r, s')) :
    s' = { s with asked := s.asked ++ [newPutMeta b] } ∧
    (r.success = true ↔ ∃ code desc, peer (s.asked ++ [newPutMeta b]) = .putMeta2 code desc ∧ Fine code) := by
  unfold putMetadata2 at h
  rw [rpc_bind] at h
  change (match peer (s.asked ++ [newPutMeta b]) with | .putMeta2 code desc => _ | _ => _ : P InstResult) _ = _ at h
  cases ha : peer (s.asked ++ [newPutMeta b]) with
  | putMeta2 code desc =>
    rw [ha] at h
    simp only [M.pure_eq, Prod.mk.injEq, Except.ok.injEq] at h
    obtain ⟨rfl, rfl⟩ := h
    refine ⟨rfl, ?_⟩
    rw [remote_success]
    exact ⟨fun h => ⟨code, desc, rfl, h⟩, fun ⟨_, _, e, h⟩ => by cases e; exact h⟩
  | _ =>
    rw [ha] at h
    simp only [M.pure_eq, Prod.mk.injEq, Except.ok.injEq] at h
    obtain ⟨rfl, rfl⟩ := h
    refine ⟨rfl, ?_⟩
    simp [InstResult.ofCode]
    try decide

/-- **C57** Sending metadata is reported as successful only if the last request carried exactly the documents of
the bundle and the Secondary answered that it accepted them. -/
theorem C57_metadata {peer : Peer} {b : Option Bundle} {s s' : St} {r : InstResult}
    (h : putMetadata peer b s = (.ok r, s')) (hr : r.success = true) :
    ∃ bundle l req, b = some bundle ∧ s'.asked = s.asked ++ l ++ [req] ∧ Carries req bundle ∧ MetaAccepted (peer s'.asked) := by
  cases b with
  | none =>
    simp only [putMetadata, M.pure_eq, Prod.mk.injEq, Except.ok.injEq] at h
    rw [← h.1] at hr
    exact absurd hr (by decide)
  | some b =>
    obtain ⟨s1, e1, _, l, e2, _⟩ := negotiate_polite peer s
    simp only [putMetadata] at h
    rw [M.run_bind e1, M.run_bind (M.gets_eq)] at h
    simp only [id] at h
    by_cases h2 : s1.version = 2
    · rw [if_pos h2] at h
      obtain ⟨rfl, h3⟩ := putMetadata2_eq h
      exact ⟨b, l, newPutMeta b, rfl, by simp [e2], newPutMeta_carries b, .inr (h3.mp hr)⟩
    · rw [if_neg h2] at h
      by_cases h1 : s1.version = 1
      · rw [if_pos h1] at h
        have h3 := (putMetadata1_success h).mp hr
        have h4 := putMetadata1_snd peer b s1
        rw [h] at h4
        simp only at h4
        subst h4
        exact ⟨b, l, .putMeta b, rfl, by simp [e2], .inl rfl, .inl h3⟩
      · rw [if_neg h1] at h
        simp only [M.pure_eq, Prod.mk.injEq, Except.ok.injEq] at h
        rw [← h.1] at hr
        exact absurd hr (by decide)

/-- The other direction: what the Secondary accepts, in the form of its protocol version, is reported as accepted. -/
theorem C57_metadata_accepted {peer : Peer} {b : Bundle} {s s' : St} {r : InstResult}
    (h : putMetadata peer (some b) s = (.ok r, s'))
    (ha : (s'.version = 2 ∧ ∃ code desc, peer s'.asked = .putMeta2 code desc ∧ Fine code) ∨
      (s'.version = 1 ∧ peer s'.asked = .putMeta true)) : r.success = true := by
  obtain ⟨s1, e1, _, l, e2, _⟩ := negotiate_polite peer s
  simp only [putMetadata] at h
  rw [M.run_bind e1, M.run_bind (M.gets_eq)] at h
  simp only [id] at h
  by_cases h2 : s1.version = 2
  · rw [if_pos h2] at h
    obtain ⟨rfl, h3⟩ := putMetadata2_eq h
    rcases ha with ⟨_, ha⟩ | ⟨ha, _⟩
    · exact h3.mpr ha
    · simp only at ha; omega
  · rw [if_neg h2] at h
    by_cases h1 : s1.version = 1
    · rw [if_pos h1] at h
      have h4 := putMetadata1_snd peer b s1
      have h3 := putMetadata1_success h
      rw [h] at h4
      simp only at h4
      subst h4
      rcases ha with ⟨ha, _⟩ | ⟨_, ha⟩
      · simp only at ha; omega
      · exact h3.mpr ha
    · rw [if_neg h1] at h
      simp only [M.pure_eq, Prod.mk.injEq, Except.ok.injEq] at h
      obtain ⟨_, rfl⟩ := h
      rcases ha with ⟨ha, _⟩ | ⟨ha, _⟩ <;> omega

/-- **C57** An installation is reported as successful exactly if the protocol version is known, the last request
asked to install the Target, and the Secondary answered, in the form of that version, that it did. -/
theorem C57_install {peer : Peer} {t : Target} {s s' : St} {r : InstResult} (h : install peer t s = (.ok r, s')) :
    r.success = true ↔ s'.asked = s.asked ++ [.install t.filename] ∧
      ((s.version = 2 ∧ ∃ code desc, peer s'.asked = .install2 code desc ∧ Fine code) ∨
       (s.version = 1 ∧ ∃ code, peer s'.asked = .install code ∧ Fine code)) := by
  have hs := install_snd peer t s
  rw [h] at hs
  simp only at hs
  unfold install at h
  rw [M.run_bind M.gets_eq] at h
  simp only [id] at h
  by_cases h2 : s.version = 2
  · rw [if_pos h2] at h
    rw [if_pos (.inl h2)] at hs
    subst hs
    unfold install2 at h
    rw [rpc_bind] at h
    cases ha : peer (s.asked ++ [.install t.filename]) with
    | install2 code desc =>
      rw [ha] at h
      simp only [M.pure_eq, Prod.mk.injEq, Except.ok.injEq] at h
      obtain ⟨rfl, _⟩ := h
      simp [remote_success, h2, ha]
    | _ =>
      rw [ha] at h
      simp only [M.pure_eq, Prod.mk.injEq, Except.ok.injEq] at h
      obtain ⟨rfl, _⟩ := h
      simp [InstResult.ofCode, h2, ha]
      try decide
  · rw [if_neg h2] at h
    by_cases h1 : s.version = 1
    · rw [if_pos h1] at h
      rw [if_pos (.inr h1)] at hs
      subst hs
      unfold install1 at h
      rw [rpc_bind] at h
      cases ha : peer (s.asked ++ [.install t.filename]) with
      | install code =>
        rw [ha] at h
        simp only [M.pure_eq, Prod.mk.injEq, Except.ok.injEq] at h
        obtain ⟨rfl, _⟩ := h
        simp [remote_success, h1, ha]
      | _ =>
        rw [ha] at h
        simp only [M.pure_eq, Prod.mk.injEq, Except.ok.injEq] at h
        obtain ⟨rfl, _⟩ := h
        simp [InstResult.ofCode, h1, ha]
        try decide
    · rw [if_neg h1] at h
      simp only [M.pure_eq, Prod.mk.injEq, Except.ok.injEq] at h
      obtain ⟨rfl, _⟩ := h
      simp [unexpected, InstResult.ofCode, h1, h2]
      decide

theorem sendFirmware1_eq {peer : Peer} {d : Bytes} {s s' : St} {r : InstResult} (h : sendFirmware1 peer d s = (.ok r, s')) :
    s' = { s with asked := s.asked ++ [.sendFirmware d] } ∧
    (r.success = true ↔ peer (s.asked ++ [.sendFirmware d]) = .sendFirmware true) := by
  have hs := sendFirmware1_snd peer d s
  rw [h] at hs
  refine ⟨hs, ?_⟩
  unfold sendFirmware1 at h
  rw [rpc_bind] at h
  cases ha : peer (s.asked ++ [.sendFirmware d]) with
  | sendFirmware ok =>
    rw [ha] at h
    cases ok <;> (simp only [M.pure_eq, Prod.mk.injEq, Except.ok.injEq] at h; obtain ⟨rfl, _⟩ := h; decide)
  | _ =>
    rw [ha] at h
    simp only [M.pure_eq, Prod.mk.injEq, Except.ok.injEq] at h
    obtain ⟨rfl, _⟩ := h
    simp [InstResult.ofCode]
    try decide

theorem ostree_eq {peer : Peer} {d : Bytes} {s s' : St} {r : InstResult} (h : downloadOstreeRev peer d s = (.ok r, s')) :
    s' = { s with asked := s.asked ++ [.downloadOstreeRev d] } ∧
    (r.success = true ↔ ∃ code desc, peer (s.asked ++ [.downloadOstreeRev d]) = .downloadOstreeRev code desc ∧ Fine code) := by
  have hs := ostree_snd peer d s
  rw [h] at hs
  refine ⟨hs, ?_⟩
  unfold downloadOstreeRev at h
  rw [rpc_bind] at h
  cases ha : peer (s.asked ++ [.downloadOstreeRev d]) with
  | downloadOstreeRev code desc =>
    rw [ha] at h
    simp only [M.pure_eq, Prod.mk.injEq, Except.ok.injEq] at h
    obtain ⟨rfl, _⟩ := h
    simp [remote_success]
  | _ =>
    rw [ha] at h
    simp only [M.pure_eq, Prod.mk.injEq, Except.ok.injEq] at h
    obtain ⟨rfl, _⟩ := h
    simp [InstResult.ofCode]
    try decide

/-- What a Secondary must have been sent and have answered for its firmware to count as sent. -/
def _root_.Aktualizr.Spec.FirmwareSent (peer : Peer) (p : Provider) (t : Target) (s s' : St) : Prop :=
  (s.version = 2 ∧ t.isOstree = true ∧ s'.asked = s.asked ++ [.downloadOstreeRev p.cred] ∧
    ∃ code desc, peer s'.asked = .downloadOstreeRev code desc ∧ Fine code) ∨
  (s.version = 2 ∧ t.isOstree = false ∧ ∃ image chunks, p.file = some image ∧
    s'.asked = s.asked ++ chunks.map .uploadData ∧ chunks.flatten = image.take t.length ∧ t.length ≤ image.length ∧
    ∀ pre c post, chunks = pre ++ c :: post → Accepts peer (s.asked ++ (pre ++ [c]).map .uploadData)) ∨
  (s.version = 1 ∧ ∃ data, (if t.isOstree then some p.cred else p.file) = some data ∧
    s'.asked = s.asked ++ [.sendFirmware data] ∧ peer s'.asked = .sendFirmware true)

/-- **C57** Sending firmware is reported as successful only if the Secondary was sent what it needs (the image; for
OSTree the credentials) by the messages of its protocol version and accepted every one of them. -/
theorem C57_firmware {peer : Peer} {n : Nat} {p : Provider} {t : Target} {s s' : St} {r : InstResult}
    (h : sendFirmware peer n p t s = some (.ok r, s')) (hr : r.success = true) : FirmwareSent peer p t s s' := by
  unfold sendFirmware at h
  by_cases h2 : s.version = 2
  · rw [if_pos h2] at h
    cases ho : t.isOstree with
    | true =>
      rw [if_pos ho] at h
      simp only [Option.some.injEq] at h
      obtain ⟨rfl, h3⟩ := ostree_eq h
      exact .inl ⟨h2, ho, rfl, h3.mp hr⟩
    | false =>
      rw [if_neg (by simp [ho])] at h
      cases hf : p.file with
      | none => rw [hf] at h; simp at h
      | some image =>
        rw [hf] at h
        simp only at h
        cases hu : uploadFirmware peer n t.length image s with
        | none => rw [hu] at h; simp at h
        | some y =>
          obtain ⟨r', s1⟩ := y
          rw [hu] at h
          simp only [Option.map_some, Option.some.injEq, Prod.mk.injEq, Except.ok.injEq] at h
          obtain ⟨rfl, rfl⟩ := h
          obtain ⟨chunks, c1, c2, c3, _, c5⟩ := C42_success hu hr
          exact .inr (.inl ⟨h2, ho, image, chunks, hf, c1, c2, c3, c5⟩)
  · rw [if_neg h2] at h
    by_cases h1 : s.version = 1
    · rw [if_pos h1] at h
      cases ho : t.isOstree with
      | true =>
        rw [if_pos ho] at h
        simp only [Option.some.injEq] at h
        obtain ⟨rfl, h3⟩ := sendFirmware1_eq h
        exact .inr (.inr ⟨h1, p.cred, by simp [ho], rfl, h3.mp hr⟩)
      | false =>
        rw [if_neg (by simp [ho])] at h
        cases hf : p.file with
        | none => rw [hf] at h; simp at h
        | some image =>
          rw [hf] at h
          simp only [Option.some.injEq] at h
          obtain ⟨rfl, h3⟩ := sendFirmware1_eq h
          exact .inr (.inr ⟨h1, image, by simp [ho, hf], rfl, h3.mp hr⟩)
    · rw [if_neg h1] at h
      simp only [Option.some.injEq, Prod.mk.injEq, Except.ok.injEq] at h
      rw [← h.1] at hr
      exact absurd hr (by decide)

/-- **C57** The manifest taken for the Secondary's is the text it sent. -/
theorem C57_manifest {peer : Peer} {s s' : St} {j : String} (h : getManifest peer s = (.ok (some j), s')) :
    ∃ l, s'.asked = s.asked ++ l ++ [.manifest] ∧ peer s'.asked = .manifest (some j) := by
  obtain ⟨s1, e1, _, l, e2, _⟩ := negotiate_polite peer s
  have hs := manifest_snd peer s s1 e1
  rw [h] at hs
  simp only at hs
  refine ⟨l, by rw [hs]; simp [e2], ?_⟩
  unfold getManifest at h
  rw [M.run_bind e1, rpc_bind] at h
  rw [hs]
  simp only
  cases ha : peer (s1.asked ++ [.manifest]) with
  | manifest j' =>
    rw [ha] at h
    simp only [M.pure_eq, Prod.mk.injEq, Except.ok.injEq] at h
    rw [h.1]
  | _ =>
    rw [ha] at h
    simp only [M.pure_eq, Prod.mk.injEq, Except.ok.injEq] at h
    cases h.1

/-! ### Concrete cases -/

/-- A Secondary of version 2 that accepts everything. -/
def yes : Peer := fun asked => match asked.getLast? with
  | some (.version _) => .version 2
  | some .info => .info
  | some (.putMeta2 _ _) => .putMeta2 0 ""
  | some (.uploadData _) => .uploadData 0 ""
  | some (.install _) => .install2 0 ""
  | some .manifest => .manifest (some "m")
  | _ => .nothing

/-- A Secondary of version 1 that refuses metadata and firmware and cannot install. -/
def no : Peer := fun asked => match asked.getLast? with
  | some .info => .info
  | some (.putMeta _) => .putMeta false
  | some (.sendFirmware _) => .sendFirmware false
  | some (.install _) => .install 19
  | _ => .nothing

def someBundle : Bundle := ⟨"dr", "dt", "ir", "its", "isn", "it"⟩

/-- Not vacuous: metadata, firmware, installation and manifest with a Secondary that says yes. -/
example :
    let r1 := putMetadata yes (some someBundle) {}
    let r2 := sendFirmware yes 5 ⟨[], some [1, 2, 3]⟩ { filename := "f", length := 3 } r1.2
    let s2 := match r2 with | some (_, s) => s | none => {}
    let r3 := install yes { filename := "f" } s2
    let r4 := getManifest yes r3.2
    (r1.1.toOption.map (·.success)) = some true ∧ (r2.bind (·.1.toOption)).map (·.success) = some true ∧
    (r3.1.toOption.map (·.success)) = some true ∧ r4.1.toOption = some (some "m") ∧
    r4.2.asked = [.version 2, newPutMeta someBundle, .uploadData [1, 2, 3], .install "f", .version 2, .manifest] := by
  decide +kernel

/-- … and with one that says no. -/
example :
    let r1 := putMetadata no (some someBundle) {}
    let r2 := sendFirmware no 5 ⟨[], some [1, 2, 3]⟩ { filename := "f", length := 3 } r1.2
    let s2 := match r2 with | some (_, s) => s | none => {}
    let r3 := install no { filename := "f" } s2
    (r1.1.toOption.map (·.success)) = some false ∧ (r2.bind (·.1.toOption)).map (·.success) = some false ∧
    (r3.1.toOption.map (·.success)) = some false ∧ r3.2.asked = [.version 2, .info, .putMeta someBundle, .sendFirmware [1, 2, 3], .install "f"] := by
  decide +kernel

end Aktualizr.Ip
