import Verif.Props.C77

/-! # C77: without disturbance an update goes through -/

namespace Aktualizr

open M Spec

/-! ### Specification -/

namespace Pair

/-- Nothing else happens to the Secondary, the request and its answer get through, writes do not fail. -/
structure Calm (f : Fate) : Prop where
  before : f.before = []
  arrives : f.arrives = true
  returns : f.returns = true
  io : ∀ d, f.io d = { kept := d.length }
  renames : f.renames = true
  fuel : 2 ≤ f.fuel

end Pair

namespace Pair

open Ip (Req Resp)
open Sec (Bytes whole Hasher)
open SecId (Around Says New)

variable {a : Around} {fates : Nat → Fate}

theorem peer_calm {s0 s s' : SecId.State} {l : List Req} {r : Req} {o : SecId.Op} {y : SecId.Reply} (hl : after a fates s0 0 l = .ok s)
    (hc : Calm (fates l.length)) (ho : operation (fates l.length) r = some o) (hs : SecId.step a s o = .ok (some y, s')) :
    peer a fates s0 (l ++ [r]) = response a.g.env r y ∧ after a fates s0 0 (l ++ [r]) = .ok s' := by
  have hd : deliver a (fates l.length) s r = .ok (response a.g.env r y, s') := by
    unfold deliver
    rw [hc.before, hc.arrives, hc.returns, ho]
    show (SecId.step a s o >>= fun q => _) = _
    rw [hs]
    rfl
  constructor
  · unfold peer
    rw [List.getLast?_concat, List.dropLast_concat, List.length_append]
    show (match after a fates s0 0 l >>= fun s => deliver a (fates l.length) s r with | .ok q => q.1 | .error _ => _) = _
    rw [hl, exc_bind_of_ok, hd]
  · rw [after_append, hl, exc_bind_of_ok, Nat.zero_add]
    show (deliver a (fates l.length) s r >>= fun q => after a fates q.2 _ []) = _
    rw [hd]
    rfl

theorem other_step {o : Sec.Op} {s : SecId.State} {c : Sec.State} {x : Sec.Answer} (h : Sec.step a.g.env a.hashing s.core o = .ok (some x, c)) :
    SecId.other a o s = .ok (some (.answer x), { s with core := c }) := by
  unfold SecId.other
  rw [h]
  rfl

/-- Part of an image has been received. -/
structure Has (t : Target) (x : Hash) (b : Bytes) (c : Sec.State) : Prop where
  up : c.up = true
  pending : c.pending = some t
  none : b = [] → c.newtarget.getD [] = []
  some : b ≠ [] → c.newtarget = some b ∧ ∃ h, c.hasher = some h ∧ h.type = x.type ∧ h.past.all (·.isSome) = true ∧ h.data = b

theorem chunk {env : Env} {hs : Sec.Hashing} {t : Target} {x : Hash} {l : List Hash} {b d : Bytes} {c : Sec.State} (h : Has t x b c)
    (hx : t.hashes = x :: l) (hk : x.type ≠ .unknown) (hl : b.length < t.length) (hd : d ≠ []) :
    ∃ c', Sec.step env hs c (whole d) = .ok (some .ok, c') ∧ Has t x (b ++ d) c' ∧ c'.firmware = c.firmware ∧ c'.versions = c.versions ∧
      c'.serial = c.serial ∧ c'.hwid = c.hwid := by
  by_cases hb : b = []
  · subst hb
    refine ⟨_, Sec.step_first h.up h.pending (h.none rfl) hx hk (by simpa using hl), ⟨h.up, h.pending, ?_, ?_⟩, rfl, rfl, rfl, rfl⟩
    · intro e
      exact absurd e (by simpa using hd)
    · intro _
      exact ⟨rfl, _, rfl, rfl, rfl, by simp [Hasher.data]⟩
  · obtain ⟨h1, hh, h2, h3, h4, h5⟩ := h.some hb
    refine ⟨_, Sec.step_whole h.up h.pending h1 hb h2 hl, ⟨h.up, h.pending, ?_, ?_⟩, rfl, rfl, rfl, rfl⟩
    · intro e
      exact absurd e (by simp [hb])
    · intro _
      refine ⟨rfl, _, rfl, h3, by simpa using h4, ?_⟩
      unfold Hasher.data at h5 ⊢
      simp [List.flatMap_append, h5]

theorem complete {env : Env} {hs : Sec.Hashing} {t : Target} {x : Hash} {l : List Hash} {b : Bytes} {c : Sec.State} (h : Has t x b c)
    (hx : t.hashes = x :: l) (hb : b ≠ []) (hl : b.length = t.length) (hd : x.hash = upper (hs.digest x.type b)) (fuel : Nat) :
    ∃ c', Sec.step env hs c (.install true (fuel + 2)) = .ok (some .ok, c') ∧ c'.firmware = some b ∧ c'.name = t.filename ∧ c'.pending = none ∧
      c'.newtarget = none ∧ c'.up = true ∧ c'.versions = c.versions.saveInstalledVersion env c.serial t .current ∧ c'.serial = c.serial ∧ c'.hwid = c.hwid := by
  obtain ⟨h1, hh, h2, h3, h4, h5⟩ := h.some hb
  have hm : t.matchHash (hh.getHash hs) = true := by
    unfold Target.matchHash Hasher.getHash Hash.mk'
    rw [if_pos h4, h5, h3, ← hd, List.contains_iff_mem, hx]
    simp
  have hl' : ¬ b.length ≠ t.length := by omega
  refine ⟨{ c with w := { c.w with fuel := fuel }, newtarget := none, hasher := none, firmware := some b, name := t.filename, pending := none,
                    versions := c.versions.saveInstalledVersion env c.serial t .current }, ?_, rfl, rfl, rfl, rfl, h.up, rfl, rfl, rfl⟩
  simp only [Sec.step, Sec.request, h.up, if_true, Sec.observe, Sec.install, Sec.bind_apply, gets_eq, id, h.pending, Sec.agentInstall, h1, hl', if_false, h2, hm,
    Bool.not_true, Bool.false_eq_true, Sec.effect, modify_eq, pure_eq]

theorem history_calm (n : Nat) (l : List Req) (hc : ∀ k, n ≤ k → Calm (fates k)) : ∀ o ∈ history fates n l, ∀ cfg c f, o ≠ .start cfg c f := by
  induction l generalizing n with
  | nil => intro o ho; cases ho
  | cons r l ih =>
    intro o ho cfg c f
    simp only [history, List.mem_append] at ho
    rcases ho with (ho | ho) | ho
    · rw [(hc n (Nat.le_refl _)).before] at ho; cases ho
    · rw [(hc n (Nat.le_refl _)).arrives, if_pos rfl] at ho
      rintro rfl
      cases r <;> simp [operation] at ho
    · exact ih (n + 1) (fun k hk => hc k (by omega)) o ho cfg c f

/-- The loop of an upload. -/
theorem loop_live {s0 : SecId.State} {t : Target} {x : Hash} {l : List Hash} (hx : t.hashes = x :: l) (hk : x.type ≠ .unknown) :
    ∀ (n : Nat) (b rest : Bytes) (last : InstResult) (st : Ip.St) (s : SecId.State), last.success = true → b.length + rest.length = t.length →
      rest.length ≤ Ip.chunkSize * n → (∀ k, st.asked.length ≤ k → Calm (fates k)) → after a fates s0 0 st.asked = .ok s → Has t x b s.core →
      ∃ r st' s', Ip.uploadLoop (peer a fates s0) t.length (n + 1) rest b.length last st = some (r, t.length, st') ∧ r.success = true ∧
        st'.version = st.version ∧ st.asked.length ≤ st'.asked.length ∧ after a fates s0 0 st'.asked = .ok s' ∧ Has t x (b ++ rest) s'.core ∧ s'.core.versions = s.core.versions ∧
        s'.core.serial = s.core.serial ∧ s'.core.hwid = s.core.hwid ∧ s'.keys = s.keys ∧ s'.type = s.type ∧
        ∃ m, st'.asked = st.asked ++ m := by
  intro n
  induction n with
  | zero =>
    intro b rest last st s hl hlen hn hc hs hh
    have e : rest = [] := List.eq_nil_of_length_eq_zero (by omega)
    subst e
    simp only [List.length_nil, Nat.add_zero] at hlen
    refine ⟨last, st, s, ?_, hl, rfl, Nat.le_refl _, hs, by simpa using hh, rfl, rfl, rfl, rfl, rfl, [], by simp⟩
    rw [Ip.uploadLoop, if_neg (by simp [hlen]), hlen]
  | succ n ih =>
    intro b rest last st s hl hlen hn hc hs hh
    by_cases hr : rest = []
    · subst hr
      simp only [List.length_nil, Nat.add_zero] at hlen
      refine ⟨last, st, s, ?_, hl, rfl, Nat.le_refl _, hs, by simpa using hh, rfl, rfl, rfl, rfl, rfl, [], by simp⟩
      rw [Ip.uploadLoop, if_neg (by simp [hlen]), hlen]
    · have hpos : 0 < rest.length := List.length_pos_iff.2 hr
      have hd : rest.take Ip.chunkSize ≠ [] := by
        intro e
        have := congrArg List.length e
        simp only [List.length_take, List.length_nil, Ip.chunkSize] at this
        omega
      obtain ⟨c', g1, g2, -, g4, g5, g6⟩ := chunk (env := a.g.env) (hs := a.hashing) (d := rest.take Ip.chunkSize) hh hx hk (by omega) hd
      have hcalm := hc st.asked.length (Nat.le_refl _)
      have hstep : SecId.step a s (.upload ((fates st.asked.length).io (rest.take Ip.chunkSize)) (rest.take Ip.chunkSize)) = .ok (some (.answer .ok), { s with core := c' }) := by
        rw [hcalm.io]
        exact other_step g1
      obtain ⟨p1, p2⟩ := peer_calm (r := .uploadData (rest.take Ip.chunkSize)) hs hcalm rfl hstep
      obtain ⟨r1, e1, a1⟩ := Ip.uploadData_eq (peer a fates s0) (rest.take Ip.chunkSize) st
      have hr1 : r1.success = true := a1.2 (by unfold Accepts; rw [p1]; exact ⟨_, _, rfl, .inl rfl⟩)
      have e3 : (b ++ rest.take Ip.chunkSize).length = b.length + (rest.take Ip.chunkSize).length := List.length_append
      obtain ⟨r, st', s', q1, q2, q3, q4, q5, q6, q7, q8, q9, q10, q11, m, q12⟩ := ih (b ++ rest.take Ip.chunkSize) (rest.drop Ip.chunkSize) r1 { st with asked := st.asked ++ [.uploadData (rest.take Ip.chunkSize)] }
        { s with core := c' } hr1 (by rw [e3]; simp only [List.length_take, List.length_drop]; omega)
        (by simp only [List.length_drop, Ip.chunkSize] at *; omega) (fun k hk => hc k (by simp only [List.length_append] at hk; omega)) p2 g2
      refine ⟨r, st', s', ?_, q2, q3, ?_, q5, ?_, q7.trans g4, q8.trans g5, q9.trans g6, q10, q11, .uploadData (rest.take Ip.chunkSize) :: m, by rw [q12]; simp⟩
      · rw [Ip.uploadLoop, if_pos (by simp only [Bool.and_eq_true, decide_eq_true_eq]; exact ⟨by omega, hl⟩), e1]
        simp only
        rw [e3] at q1
        exact q1
      · simp only [List.length_append] at q4
        omega
      · rw [List.append_assoc, List.take_append_drop] at q6
        exact q6

/-- Which version the Primary uses when metadata was accepted. -/
theorem version_two {s0 : SecId.State} {b : Ip.Bundle} {st st' : Ip.St} {r : InstResult} (h : Ip.putMetadata (peer a fates s0) (some b) st = (.ok r, st'))
    (hr : r.success = true) : st'.version = 2 := by
  obtain ⟨s1, e1, _, l, e2, _⟩ := Ip.negotiate_polite (peer a fates s0) st
  simp only [Ip.putMetadata] at h
  rw [M.run_bind e1, M.run_bind (M.gets_eq)] at h
  simp only [id] at h
  by_cases h2 : s1.version = 2
  · rw [if_pos h2] at h
    obtain ⟨rfl, -⟩ := Ip.putMetadata2_eq h
    exact h2
  · rw [if_neg h2] at h
    by_cases h1 : s1.version = 1
    · rw [if_pos h1] at h
      have h3 := (Ip.putMetadata1_success h).1 hr
      obtain ⟨_, _, -, -, hc⟩ := peer_ok (a := a) (fates := fates) (s0 := s0) (l := s1.asked) (r := .putMeta b) (by rw [h3]; simp)
      rcases hc with ⟨_, hv, -⟩ | ⟨_, _, ho, -⟩
      · cases hv
      · cases ho
    · rw [if_neg h1] at h
      simp only [M.pure_eq, Prod.mk.injEq, Except.ok.injEq] at h
      rw [← h.1] at hr
      exact absurd hr (by decide)

/-- **An update goes through**: after metadata were reported as accepted, when nothing disturbs the rest, no part of an earlier image is
left, and the Primary has an image with the length and the first hash of the target the Secondary got, then sending it and
installing it are both reported as successful, and it is what the Secondary has and records. -/
theorem C77_update {s0 s1 : SecId.State} {b : Ip.Bundle} {st st1 : Ip.St} {r : InstResult} {tgt t : Target} {cred image : Bytes} {x : Hash} {l : List Hash}
    (h : Ip.putMetadata (peer a fates s0) (some b) st = (.ok r, st1)) (hr : r.success = true) (hs : after a fates s0 0 st1.asked = .ok s1)
    (hp : s1.core.pending = some tgt) (hn : s1.core.newtarget.getD [] = []) (hc : ∀ k, st1.asked.length ≤ k → Calm (fates k))
    (ho : t.isOstree = false) (ht : t.length = tgt.length) (hi : image ≠ []) (hlen : image.length = tgt.length)
    (hx : tgt.hashes = x :: l) (hk : x.type ≠ .unknown) (hd : x.hash = upper (a.hashing.digest x.type image)) :
    ∃ n r1 st2 r2 st3 s3, Ip.sendFirmware (peer a fates s0) n ⟨cred, some image⟩ t st1 = some (.ok r1, st2) ∧ r1.success = true ∧
      Ip.install (peer a fates s0) t st2 = (.ok r2, st3) ∧ r2.success = true ∧ after a fates s0 0 st3.asked = .ok s3 ∧
      s3.core.up = true ∧ s3.core.firmware = some image ∧ s3.core.name = tgt.filename ∧ s3.core.pending = none ∧ s3.core.newtarget = none ∧
      s3.core.versions = s1.core.versions.saveInstalledVersion a.g.env s1.core.serial tgt .current ∧ s3.keys = s1.keys ∧ s3.type = s1.type ∧
      st1.asked.length ≤ st3.asked.length ∧
      ∃ more, history fates 0 st3.asked = history fates 0 st1.asked ++ more ∧ ∀ o ∈ more, ∀ cfg c f, o ≠ .start cfg c f := by
  have hv := version_two h hr
  have hup : s1.core.up = true := by
    obtain ⟨_, s', _, _, _, _, _, -, h2, h3, -⟩ := C77_metadata h hr
    rw [hs] at h2
    cases h2
    exact h3
  have hh : Has tgt x [] s1.core := ⟨hup, hp, fun _ => hn, fun e => absurd rfl e⟩
  obtain ⟨r1, st2, s2, q1, q2, q3, q4, q5, q6, q7, q8, q9, q10, q11, q12⟩ := loop_live (a := a) (fates := fates) (s0 := s0) hx hk ((image.length + 1023) / 1024) [] image
    (.ofCode .ok "") st1 s1 (by decide) (by simpa using hlen) (by simp only [Ip.chunkSize]; omega) hc hs hh
  rw [List.nil_append] at q6
  have hcalm := hc st2.asked.length q4
  obtain ⟨f, hf⟩ : ∃ f, (fates st2.asked.length).fuel = f + 2 := ⟨(fates st2.asked.length).fuel - 2, by have := hcalm.fuel; omega⟩
  obtain ⟨c', g1, g2, g3, g4, g5, g6, g7, -, -⟩ := complete (env := a.g.env) (hs := a.hashing) q6 hx hi hlen hd f
  have hstep : SecId.step a s2 (.install (fates st2.asked.length).renames (fates st2.asked.length).fuel) = .ok (some (.answer .ok), { s2 with core := c' }) := by
    rw [hcalm.renames, hf]
    exact other_step g1
  obtain ⟨p1, p2⟩ := peer_calm (r := .install t.filename) q5 hcalm rfl hstep
  obtain ⟨r2, st3, e3⟩ : ∃ r2 st3, Ip.install (peer a fates s0) t st2 = (.ok r2, st3) := by
    unfold Ip.install
    rw [M.run_bind M.gets_eq]
    simp only [id, q3, hv, if_true]
    unfold Ip.install2
    rw [Ip.rpc_bind, p1]
    exact ⟨_, _, rfl⟩
  have e4 := Ip.install_snd (peer a fates s0) t st2
  rw [e3, if_pos (.inl (q3.trans hv))] at e4
  simp only at e4
  subst e4
  refine ⟨(image.length + 1023) / 1024 + 1, .ofCode .ok "", st2, r2, _, _, ?_, by decide, e3, (Ip.C57_install e3).2 ⟨rfl, .inl ⟨q3.trans hv, _, _, p1, .inl rfl⟩⟩, p2, g6, g2, g3, g4, g5,
    by rw [g7, q7, q8], q10, q11, ?_, ?_⟩
  · unfold Ip.sendFirmware
    rw [if_pos hv, ho]
    simp only [Bool.false_eq_true, if_false]
    unfold Ip.uploadFirmware
    rw [ht]
    have q1 : Ip.uploadLoop (peer a fates s0) tgt.length ((image.length + 1023) / 1024 + 1) image 0 (.ofCode .ok "") st1 = some (r1, tgt.length, st2) := q1
    rw [q1]
    simp [q2]
  · simp only [List.length_append]
    omega
  · obtain ⟨m, hm⟩ := q12
    refine ⟨history fates st1.asked.length (m ++ [.install t.filename]), ?_, history_calm _ _ (fun k hk => hc k hk)⟩
    rw [hm, List.append_assoc, history_append, Nat.zero_add]

theorem version_calm {s0 s : SecId.State} {l : List Req} {v : Nat} (hl : after a fates s0 0 l = .ok s) (hc : Calm (fates l.length)) (hu : s.core.up = true) :
    peer a fates s0 (l ++ [.version v]) = .version 2 ∧ after a fates s0 0 (l ++ [.version v]) = .ok s := by
  have hd : deliver a (fates l.length) s (.version v) = .ok (.version 2, s) := by
    unfold deliver
    rw [hc.before, hc.arrives, hc.returns]
    show Except.ok (if true = true then (if s.core.up = true then Ip.versionHdlr v else .nothing) else .nothing, s) = _
    rw [if_pos rfl, if_pos hu]
    rfl
  constructor
  · unfold peer
    rw [List.getLast?_concat, List.dropLast_concat, List.length_append]
    show (match after a fates s0 0 l >>= fun s => deliver a (fates l.length) s (.version v) with | .ok q => q.1 | .error _ => _) = _
    rw [hl, exc_bind_of_ok, hd]
  · rw [after_append, hl, exc_bind_of_ok, Nat.zero_add]
    show (deliver a (fates l.length) s (.version v) >>= fun q => after a fates q.2 _ []) = _
    rw [hd]
    rfl

theorem history_snoc (l : List Req) (r : Req) (hc : Calm (fates l.length)) :
    history fates 0 (l ++ [r]) = history fates 0 l ++ (operation (fates l.length) r).toList := by
  rw [history_append, Nat.zero_add]
  show _ ++ (_ ++ _ ++ []) = _
  rw [hc.before, hc.arrives]
  simp

/-- **A Secondary that runs is heard**: without disturbance, and with a key of the configured type, the Primary gets a manifest. -/
theorem C77_heard {s0 s : SecId.State} {st : Ip.St} (hn : New s0) (hs : after a fates s0 0 st.asked = .ok s) (hu : s.core.up = true)
    (hc : ∀ k, st.asked.length ≤ k → Calm (fates k))
    (ht : ∀ k ty, s.keys = some k → SecId.configured (history fates 0 st.asked) = some ty → SecId.Suits a ty k.1) :
    ∃ text st', Ip.getManifest (peer a fates s0) st = (.ok (some text), st') ∧ history fates 0 st'.asked = history fates 0 st.asked ++ [.getManifest] := by
  obtain ⟨-, j, z, z', h1, h2⟩ := SecId.C76_answers hn _ (C77_life _ _ _ hs) hu ht
  rw [C77_life _ _ _ hs] at h1
  cases h1
  have c1 := hc _ (Nat.le_refl _)
  obtain ⟨p1, p2⟩ := version_calm (v := 2) hs c1 hu
  have c2 : Calm (fates (st.asked ++ [Req.version 2]).length) := hc _ (by simp)
  obtain ⟨p3, -⟩ := peer_calm (r := .manifest) p2 c2 rfl h2
  have e1 := Ip.negotiate_eq (peer a fates s0) st
  rw [p1] at e1
  simp only at e1
  refine ⟨a.g.env.canon j, { st with version := 2, asked := st.asked ++ [.version 2] ++ [.manifest] }, ?_, ?_⟩
  · unfold Ip.getManifest
    rw [run_bind e1, Ip.rpc_bind]
    simp only
    rw [p3]
    rfl
  · show history fates 0 (st.asked ++ [.version 2] ++ [.manifest]) = _
    rw [history_snoc _ _ c2, history_snoc _ _ c1]
    simp [operation]

/-- **… and the Primary is told about it**: the manifest it gets after such an update is about the new image, under the name and signed by
the key the Secondary told at any time before. -/
theorem C77_round {s0 s1 : SecId.State} {b : Ip.Bundle} {st st1 : Ip.St} {r : InstResult} {tgt t : Target} {cred image : Bytes} {x : Hash} {l : List Hash}
    (h : Ip.putMetadata (peer a fates s0) (some b) st = (.ok r, st1)) (hr : r.success = true) (hs : after a fates s0 0 st1.asked = .ok s1)
    (hp : s1.core.pending = some tgt) (hn : s1.core.newtarget.getD [] = []) (hc : ∀ k, st1.asked.length ≤ k → Calm (fates k))
    (ho : t.isOstree = false) (ht : t.length = tgt.length) (hi : image ≠ []) (hlen : image.length = tgt.length)
    (hx : tgt.hashes = x :: l) (hk : x.type ≠ .unknown) (hd : x.hash = upper (a.hashing.digest x.type image))
    {ty : KeyType} (h0 : New s0) (hg : Gen.Sound a.g) (hw : SecId.KeysWork a ty) (hty : SecId.OneType (history fates 0 st1.asked) ty)
    (hsuit : ∀ n k, a.newKey ty n = some k → SecId.Suits a ty k.1) (hsmall : image.length ≤ 18446744073709551615)
    {ops more : List SecId.Op} {name hwid : String} {key : PublicKey} (hsay : Says a s0 ops name hwid key) (hpre : history fates 0 st1.asked = ops ++ more) :
    ∃ n r1 st2 r2 st3 text st4, Ip.sendFirmware (peer a fates s0) n ⟨cred, some image⟩ t st1 = some (.ok r1, st2) ∧ r1.success = true ∧
      Ip.install (peer a fates s0) t st2 = (.ok r2, st3) ∧ r2.success = true ∧ Ip.getManifest (peer a fates s0) st3 = (.ok (some text), st4) ∧
      EcuManifest a.g.env (a.g.env.parseJson text) key name ⟨tgt.filename, image.length, a.hashing.digest .sha256 image⟩ none := by
  obtain ⟨n, r1, st2, r2, st3, s3, q1, q2, q3, q4, q5, q6, q7, q8, -, -, -, -, -, q9, more', q10, q11⟩ := C77_update (cred := cred) h hr hs hp hn hc ho ht hi hlen hx hk hd
  have hty' : SecId.OneType (history fates 0 st3.asked) ty := by
    intro cfg c f hm
    rw [q10] at hm
    rcases List.mem_append.1 hm with hm | hm
    · exact hty cfg c f hm
    · exact absurd rfl (q11 _ hm cfg c f)
  have L := SecId.life h0 _ (C77_life _ _ _ q5)
  obtain ⟨text, st4, g1, g2⟩ := C77_heard h0 q5 q6 (fun k hk => hc k (by omega)) (by
    intro k ty' hk hcf
    rw [SecId.configured_type hty' hcf]
    obtain ⟨cfg, c, f, m, m1, m2⟩ := L.keys k hk
    rw [hty' cfg c f m1] at m2
    exact hsuit m k m2)
  have hty4 : SecId.OneType (history fates 0 st4.asked) ty := by
    intro cfg c f hm
    rw [g2] at hm
    rcases List.mem_append.1 hm with hm | hm
    · exact hty' cfg c f hm
    · simp at hm
  have hsame : ∀ s, after a fates s0 0 st4.asked = .ok s → s.core = s3.core := by
    intro s hs4
    have e := C77_life _ _ _ hs4
    rw [g2] at e
    obtain ⟨z, q, e1, e2⟩ := SecId.run_snoc e
    rw [C77_life _ _ _ q5] at e1
    cases e1
    obtain ⟨_, z1, z2, j, k1, k2, k3, k4, -⟩ := manifest_arrived g1
    rw [g2] at k2
    obtain ⟨rfl, -⟩ := List.append_inj' k2 rfl
    rw [C77_life _ _ _ q5] at k3
    cases k3
    rw [k4] at e2
    cases e2
    rw [getManifest_state k4]
  have hb4 : ∀ s b, after a fates s0 0 st4.asked = .ok s → s.core.firmware = some b → b.length ≤ 18446744073709551615 := by
    intro s b hs4 hb
    rw [hsame s hs4, q7] at hb
    cases hb
    exact hsmall
  obtain ⟨s', i, k1, k2, k3⟩ := C77_told h0 hg hw hty4 g1 hb4 (more := more ++ more') hsay (by rw [g2, q10, hpre]; simp)
  rw [hsame s' k1, q7] at k3
  simp only at k3
  rw [q8] at k3
  subst k3
  exact ⟨n, r1, st2, r2, st3, text, st4, q1, q2, q3, q4, g1, k2⟩

end Pair

end Aktualizr
