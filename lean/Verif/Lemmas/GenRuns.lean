import Verif.Lemmas.GenRun

/-! # Lemmas on the generator: runs of commands -/

namespace Aktualizr.Gen

open Spec

/-! ### Entries -/

theorem lookup_isSome {k : String} {l : List (String × Json)} (h : (l.lookup k).isSome = true) : ∃ x, (k, x) ∈ l ∧ (l.lookup k).getD .null = x := by
  cases hl : l.lookup k with
  | none => rw [hl] at h; cases h
  | some x => exact ⟨x, lookup_mem hl, rfl⟩

/-- An entry found in a readable role. -/
theorem entry_found {s ts t : Json} {v : Int} {e name : String} (hb : TargetsBody s v e) (h1 : s.get "targets" = .ok ts)
    (h2 : ts.isMember name = .ok true) (h3 : ts.get name = .ok t) : EntryOk t ∧ Canonical t := by
  obtain ⟨ts', k1, k2, k3⟩ := hb.targets
  rw [h1] at k1
  cases k1
  have hc := get_canonical (get_canonical hb.canonical h1) h3
  refine ⟨?_, hc⟩
  rcases k2 with rfl | ⟨l, rfl⟩
  · cases h2
  · have hs : (l.lookup name).isSome = true := by simpa [Json.isMember] using h2
    obtain ⟨x, hm, hx⟩ := lookup_isSome hs
    have : x = t := by
      rw [← hx]; simpa [Json.get] using h3
    subst this
    exact ofJson_iff.1 (k3 (name, x) hm)

/-- Where an entry is found: in a role that has a file. -/
def FoundIn (g : GenEnv) (d : Dir) (name : String) (t : Json) : Prop :=
  ∃ p s ts, (p = .targets ∨ ∃ n, p = .delegation n) ∧ d.signed g p = .ok s ∧ s.get "targets" = .ok ts ∧ ts.isMember name = .ok true ∧ ts.get name = .ok t

theorem inDelegations_found {g : GenEnv} {d : Dir} {name : String} {t : Json} : ∀ (fs : List (Path × String)),
    getTarget.inDelegations g d name fs = .ok t → t = .null ∨ FoundIn g d name t
  | [], h => by cases h; exact .inl rfl
  | (p, x) :: fs, h => by
    have ih := inDelegations_found (g := g) (d := d) (name := name) (t := t) fs
    cases p with
    | delegation n =>
      change (if Role.isReserved n = true then getTarget.inDelegations g d name fs else _) = _ at h
      by_cases hr : Role.isReserved n = true
      · rw [if_pos hr] at h; exact ih h
      · rw [if_neg hr] at h
        obtain ⟨s, h1, h⟩ := exc_bind_ok.1 h
        obtain ⟨ts, h2, h⟩ := exc_bind_ok.1 h
        obtain ⟨b, h3, h⟩ := exc_bind_ok.1 h
        cases b with
        | true => exact .inr ⟨_, s, ts, .inr ⟨n, rfl⟩, h1, h2, h3, h⟩
        | false => exact ih h
    | root => exact ih h
    | numbered v => exact ih h
    | timestamp => exact ih h
    | snapshot => exact ih h
    | targets => exact ih h
    | staging => exact ih h

theorem getTarget_found {g : GenEnv} {d : Dir} {name : String} {t : Json} (h : getTarget g d name = .ok t) : t = .null ∨ FoundIn g d name t := by
  unfold getTarget at h
  obtain ⟨s, h1, h⟩ := exc_bind_ok.1 h
  obtain ⟨ts, h2, h⟩ := exc_bind_ok.1 h
  obtain ⟨b, h3, h⟩ := exc_bind_ok.1 h
  cases b with
  | true => exact .inr ⟨_, s, ts, .inl rfl, h1, h2, h3, h⟩
  | false => exact inDelegations_found _ h

theorem getTarget_ok {g : GenEnv} (hg : Sound g) {d : Dir} (hb : Base g d) {name : String} {t : Json} (h : getTarget g d name = .ok t) :
    EntryOk t ∧ Canonical t := by
  rcases getTarget_found h with rfl | ⟨p, s, ts, hp, h1, h2, h3, h4⟩
  · exact ⟨⟨⟨.null, rfl, customOk_null⟩, ⟨.null, 0, rfl, rfl⟩, ⟨.null, rfl, by simp [Json.entries]⟩⟩, .null⟩
  · rcases hp with rfl | ⟨n, rfl⟩
    · obtain ⟨text, j, v, e, k1, k2, hbody⟩ := hb.targets
      rw [Dir.signed_of hg k1 k2] at h1
      cases h1
      exact entry_found hbody h2 h3 h4
    · cases hl : d.files.lookup (.delegation n) with
      | none =>
        have : s = .null := by
          unfold Dir.signed Dir.json at h1
          rw [hl] at h1
          cases h1; rfl
        subst this
        cases h2
        cases h3
      | some text =>
        obtain ⟨-, j, v, e, k2, hbody⟩ := hb.delegated n text hl
        rw [Dir.signed_of hg hl k2] at h1
        cases h1
        exact entry_found hbody h2 h3 h4

theorem binaryTarget_ok (g : GenEnv) {content : String} (url : String) (hc : content.utf8ByteSize ≤ 18446744073709551615) :
    EntryOk (binaryTarget g content url) ∧ Canonical (binaryTarget g content url) := by
  unfold binaryTarget
  refine ⟨⟨⟨_, rfl, ?_⟩, ⟨_, content.utf8ByteSize, rfl, ?_⟩, ⟨_, rfl, ?_⟩⟩, ?_⟩
  · split
    · exact ⟨⟨.null, rfl, by simp [Json.elems, Json.entries]⟩, ⟨.null, rfl, by simp [Json.entries]⟩, ⟨_, _, rfl, rfl⟩, ⟨.null, "", rfl, rfl⟩⟩
    · exact ⟨⟨.null, rfl, by simp [Json.elems, Json.entries]⟩, ⟨.null, rfl, by simp [Json.entries]⟩, ⟨_, _, rfl, rfl⟩, ⟨_, _, rfl, rfl⟩⟩
  · show Json.asUInt64 (.int _) = _
    unfold Json.asUInt64 Json.asIntIn
    simp
    omega
  · intro kv hkv
    have hkv : kv ∈ [("sha256", Json.str (lower (g.env.sha256 content))), ("sha512", Json.str (lower (g.env.sha512 content)))] := hkv
    simp at hkv
    rcases hkv with rfl | rfl <;> exact ⟨_, rfl⟩
  · refine .obj (by simp; decide) ?_
    intro kv hkv
    simp at hkv
    rcases hkv with rfl | rfl | rfl
    · split
      · refine .obj (by simp) ?_
        intro kv hkv
        simp at hkv
        subst hkv
        exact .str _
      · refine .obj (by simp; decide) ?_
        intro kv hkv
        simp at hkv
        rcases hkv with rfl | rfl <;> exact .str _
    · exact hashesOf_canonical _ _
    · exact .int (by omega) (by omega)

theorem customTarget_ok {hash : Hash} {length : Nat} {url : String} {custom t : Json} (hc : CustomOk custom) (hcan : Canonical custom)
    (h : customTarget hash length url custom = .ok t) : EntryOk t ∧ Canonical t := by
  unfold customTarget at h
  obtain ⟨t1, h1, h⟩ := exc_bind_ok.1 h
  have c0 : Canonical (.obj [("custom", custom), ("length", .int ((length : Int) % 4294967296))]) := by
    refine .obj (by simp; decide) ?_
    intro kv hkv
    simp at hkv
    rcases hkv with rfl | rfl
    · exact hcan
    · exact .int (by omega) (by omega)
  have e0 : ∀ hs, (∀ kv ∈ hs, ∃ s, (kv : String × Json).2.asString = .ok s) →
      ∀ t', setKey (.obj [("custom", custom), ("length", .int ((length : Int) % 4294967296))]) "hashes" (.obj hs) = .ok t' → EntryOk t' := by
    intro hs hhs t' hk
    obtain ⟨a, b, -, -⟩ := setKey_ok hk
    refine ⟨⟨custom, ?_, hc⟩, ⟨_, (length : Int) % 4294967296, b "length" (by decide), ?_⟩, ⟨_, a, hhs⟩⟩
    · rw [b "custom" (by decide)]; rfl
    · show (if _ then _ else _) = _
      rw [if_pos (by omega)]
  have key : EntryOk t1 ∧ Canonical t1 := by
    obtain ⟨type, text⟩ := hash
    cases type with
    | sha256 =>
      obtain ⟨d, d', hd, hp, hk⟩ := setPath_cons h1
      cases hd
      cases hp
      exact ⟨e0 _ (by simp [Json.asString]) _ hk, setPath_canonical h1 c0 (.str _)⟩
    | sha512 =>
      obtain ⟨d, d', hd, hp, hk⟩ := setPath_cons h1
      cases hd
      cases hp
      exact ⟨e0 _ (by simp [Json.asString]) _ hk, setPath_canonical h1 c0 (.str _)⟩
    | unknown =>
      cases h1
      refine ⟨⟨⟨custom, rfl, hc⟩, ⟨_, (length : Int) % 4294967296, rfl, ?_⟩, ⟨.null, rfl, by simp [Json.entries]⟩⟩, c0⟩
      show (if _ then _ else _) = _
      rw [if_pos (by omega)]
  split at h
  · cases h; exact key
  · obtain ⟨d, d', hd, hp, hk⟩ := setPath_cons h
    obtain ⟨c, hcg, hcok⟩ := key.1.custom
    rw [hd] at hcg
    cases hcg
    obtain ⟨y, y', hy, hp2, hk2⟩ := setPath_cons hp
    cases hp2
    exact ⟨key.1.withCustom (hcok.uri' hk2) hk, setPath_canonical h key.2 (.str _)⟩

/-! ### Commands -/

/-- What is expected of a command's arguments: identifiers of the length the client allows, a `custom`
part that it can read, a working pair of keys, times in the usual format. -/
def Cmd.Sensible (g : GenEnv) : Cmd → Prop
  | .image content _ hw _ _ => hw.utf8ByteSize ≤ 200 ∧ content.utf8ByteSize ≤ 18446744073709551615
  | .customImage name _ _ hw _ _ custom => hw.utf8ByteSize ≤ 200 ∧ Canonical custom ∧ ∃ t, Target.ofJson name (.obj [("custom", custom)]) = .ok t
  | .addTarget _ hw serial _ _ => hw.utf8ByteSize ≤ 200 ∧ 1 ≤ serial.utf8ByteSize ∧ serial.utf8ByteSize ≤ 64
  | .addDelegation _ _ _ _ type pub priv _ later => Works g ⟨⟨pub, type⟩, priv⟩ ∧ IsTime later
  | .revokeDelegation _ => True
  | .signTargets => True
  | .emptyTargets _ later _ => IsTime later
  | .oldTargets => True
  | .refresh _ _ _ soon => IsTime soon

theorem hwid_ok {hw : String} (h : hw.utf8ByteSize ≤ 200) : ∃ x, mkHwId hw = .ok x := ⟨hw, by unfold mkHwId; rw [if_neg (by omega)]⟩

theorem serial_ok {s : String} (h1 : 1 ≤ s.utf8ByteSize) (h2 : s.utf8ByteSize ≤ 64) : ∃ x, mkEcuSerial s = .ok x :=
  ⟨s, by unfold mkEcuSerial; rw [if_neg (by omega), if_neg (by omega)]⟩

/-- Both repositories in order. -/
structure Sane (g : GenEnv) (r : Repos) : Prop where
  director : Fine g r.director
  plain : Plain g r.director
  image : Fine g r.image

/-- How a run may change them. -/
structure Step (g : GenEnv) (r r' : Repos) : Prop where
  sane : Sane g r'
  director : Good g r.director r'.director
  image : Good g r.image r'.image
  targets : Later g .targets r.image r'.image

/-- Commands after which what is staged for the Director is newer than what is published. -/
def Cmd.stages : Cmd → Bool
  | .addTarget .. => true
  | .emptyTargets .. => true
  | _ => false

/-- Commands that leave the Director's Targets, published and staged, alone. -/
def Cmd.bystander : Cmd → Bool
  | .image .. => true
  | .customImage .. => true
  | .addDelegation .. => true
  | .refresh .image .. => true
  | .refresh .director role _ _ => Role.ofName role != Role.targets
  | _ => false

theorem Fine.refl {g : GenEnv} {d : Dir} (h : Fine g d) : Good g d d := Good.refl h.base h.keyed

theorem run_ok {g : GenEnv} (hg : Sound g) {r r' : Repos} {c : Cmd} (hs : Sane g r) (hc : c.Sensible g) (h : run g r c = .ok r') :
    Step g r r' ∧ ((c = .signTargets → Ahead g r.director) → Later g .targets r.director r'.director) ∧
      (c.stages = true → Ahead g r'.director) ∧ (c.bystander = true → Ahead g r.director → Ahead g r'.director) := by
  obtain ⟨hd, hp, hi⟩ := hs
  have imageStep : ∀ d', Good g r.image d' ∧ Synced g d' ∧ Later g .targets r.image d' → Step g r { r with image := d' } :=
    fun d' h => ⟨⟨hd, hp, ⟨h.1.base, h.1.keyed, h.2.1⟩⟩, hd.refl, h.1, h.2.2⟩
  have directorStep : ∀ d', Good g r.director d' ∧ Synced g d' ∧ Plain g d' → Step g r { r with director := d' } :=
    fun d' h => ⟨⟨⟨h.1.base, h.1.keyed, h.2.1⟩, h.2.2, hi⟩, h.1, hi.refl, .inl rfl⟩
  cases c with
  | image content name hw url deleg =>
    obtain ⟨_, h1, h⟩ := exc_bind_ok.1 h
    obtain ⟨d', h2, h⟩ := exc_bind_ok.1 h
    cases h
    obtain ⟨b1, b2⟩ := binaryTarget_ok g url hc.2
    exact ⟨imageStep _ (addImage_ok hg hi.base hi.keyed b1 b2 (hwid_ok hc.1) h2), fun _ => .inl rfl, (fun hx => by cases hx), fun _ a => a⟩
  | customImage name hash length hw url deleg custom =>
    obtain ⟨_, h1, h⟩ := exc_bind_ok.1 h
    obtain ⟨t, h2, h⟩ := exc_bind_ok.1 h
    obtain ⟨d', h3, h⟩ := exc_bind_ok.1 h
    cases h
    obtain ⟨c0, k1, k2⟩ := (ofJson_iff.1 hc.2.2).custom
    cases k1
    obtain ⟨b1, b2⟩ := customTarget_ok k2 hc.2.1 h2
    exact ⟨imageStep _ (addImage_ok hg hi.base hi.keyed b1 b2 (hwid_ok hc.1) h3), fun _ => .inl rfl, (fun hx => by cases hx), fun _ a => a⟩
  | addTarget name hw serial url expires =>
    obtain ⟨x, h1, h⟩ := exc_bind_ok.1 h
    obtain ⟨t, h2, h⟩ := exc_bind_ok.1 h
    obtain ⟨_, h3, h⟩ := exc_bind_ok.1 h
    obtain ⟨d', h4, h⟩ := exc_bind_ok.1 h
    cases h
    obtain ⟨b1, b2⟩ := getTarget_ok hg hi.base h2
    have he : expires ≠ "" → IsTime expires := by
      intro hne
      unfold expirationTime at h1
      rw [if_neg hne] at h1
      split at h1
      · rename_i ht; exact isTime_ok ht
      · cases h1
    obtain ⟨a1, a2, a3, a4, a5⟩ := addTarget_ok hg hd.base hd.keyed hp b1 b2 (serial_ok hc.2.1 hc.2.2) (hwid_ok hc.1) he h4
    exact ⟨directorStep _ ⟨a1, a2, a3⟩, fun _ => .inl a4, fun _ => a5, (fun hx => by cases hx)⟩
  | addDelegation name parent pattern terminating type pub priv expires later =>
    obtain ⟨e, h1, h⟩ := exc_bind_ok.1 h
    obtain ⟨d', h2, h⟩ := exc_bind_ok.1 h
    cases h
    exact ⟨imageStep _ (addDelegation_ok hg hi.base hi.keyed hc.1 (expirationTime_ok hc.2 h1) h2), fun _ => .inl rfl, (fun hx => by cases hx), fun _ a => a⟩
  | revokeDelegation name =>
    obtain ⟨ns, h1, h⟩ := exc_bind_ok.1 h
    obtain ⟨d', h2, h⟩ := exc_bind_ok.1 h
    obtain ⟨i', h3, h⟩ := exc_bind_ok.1 h
    cases h
    obtain ⟨a1, a2, a3, a4⟩ := revokeTargets_ok hg hd.base hd.keyed hp h2
    obtain ⟨b1, b2, b3⟩ := revokeDelegation_ok hg hi.base hi.keyed h3
    exact ⟨⟨⟨⟨a1.base, a1.keyed, a2⟩, a3, ⟨b1.base, b1.keyed, b2⟩⟩, a1, b1, b3⟩, fun _ => a4, (fun hx => by cases hx), (fun hx => by cases hx)⟩
  | signTargets =>
    obtain ⟨d', h1, h⟩ := exc_bind_ok.1 h
    cases h
    obtain ⟨a1, a2, a3, a4⟩ := signTargets_ok hg hd.base hd.keyed hp h1
    exact ⟨directorStep _ ⟨a1, a2, a3⟩, fun hx => a4 (hx rfl), (fun hx => by cases hx), (fun hx => by cases hx)⟩
  | emptyTargets expires later correlation =>
    obtain ⟨e, h1, h⟩ := exc_bind_ok.1 h
    obtain ⟨d', h2, h⟩ := exc_bind_ok.1 h
    cases h
    obtain ⟨a1, a2, a3, a4, a5⟩ := emptyTargets_ok hg hd.base hd.keyed hp hd.synced (expirationTime_ok hc h1) h2
    exact ⟨directorStep _ ⟨a1, a2, a3⟩, fun _ => .inl a4, fun _ => a5, (fun hx => by cases hx)⟩
  | oldTargets =>
    obtain ⟨d', h1, h⟩ := exc_bind_ok.1 h
    cases h
    obtain ⟨a1, a2, a3, a4⟩ := oldTargets_ok hg hd.base hd.keyed hp hd.synced h1
    exact ⟨directorStep _ ⟨a1, a2, a3⟩, fun _ => .inl a4, (fun hx => by cases hx), (fun hx => by cases hx)⟩
  | refresh repo role now soon =>
    cases repo with
    | director =>
      obtain ⟨d', h1, h⟩ := exc_bind_ok.1 h
      cases h
      obtain ⟨a1, a2, a3, a4, a5⟩ := refresh_ok hg hd.base hd.keyed hc h1
      refine ⟨directorStep _ ⟨a1, a2, a3 hp⟩, fun _ => a4, (fun hx => by cases hx), fun hx ha => ?_⟩
      have hne : Role.ofName role ≠ Role.targets := by simpa [Cmd.bystander] using hx
      exact ha.congr (a5 hne).1 (a5 hne).2
    | image =>
      obtain ⟨d', h1, h⟩ := exc_bind_ok.1 h
      cases h
      obtain ⟨a1, a2, a3, a4, a5⟩ := refresh_ok hg hi.base hi.keyed hc h1
      exact ⟨imageStep _ ⟨a1, a2, a4⟩, fun _ => .inl rfl, (fun hx => by cases hx), fun _ a => a⟩

theorem generate_ok {g : GenEnv} (hg : Sound g) {r : Repos} {kd ki : NewKeys} {expires later cor : String} (hd : kd.Ok g) (hi : ki.Ok g) (hl : IsTime later)
    (h : generate g kd ki expires later cor = .ok r) : Sane g r := by
  unfold generate at h
  obtain ⟨e, h1, h⟩ := exc_bind_ok.1 h
  obtain ⟨d, h2, h⟩ := exc_bind_ok.1 h
  obtain ⟨i, h3, h⟩ := exc_bind_ok.1 h
  cases h
  have he := expirationTime_ok hl h1
  obtain ⟨a1, a2⟩ := generateRepo_ok hg hd he h2
  obtain ⟨b1, _⟩ := generateRepo_ok hg hi he h3
  exact ⟨a1, a2, b1⟩

theorem Sane.refl {g : GenEnv} {r : Repos} (h : Sane g r) : Step g r r := ⟨h, h.director.refl, h.image.refl, .inl rfl⟩

theorem Step.trans {g : GenEnv} {a b c : Repos} (h1 : Step g a b) (h2 : Step g b c) : Step g a c :=
  ⟨h2.sane, h1.director.trans h2.director, h1.image.trans h2.image, h1.targets.trans h2.targets⟩

/-- A run of commands. -/
theorem runAll_ok {g : GenEnv} (hg : Sound g) : ∀ (cs : List Cmd) {r r' : Repos}, Sane g r → (∀ c ∈ cs, c.Sensible g) → runAll g r cs = .ok r' → Step g r r'
  | [], r, r', hs, _, h => by cases h; exact hs.refl
  | c :: cs, r, r', hs, hc, h => by
    obtain ⟨r1, h1, h⟩ := exc_bind_ok.1 h
    have := (run_ok hg hs (hc c List.mem_cons_self) h1).1
    exact this.trans (runAll_ok hg cs this.sane (fun c hc' => hc c (List.mem_cons_of_mem _ hc')) h)

/-- Every `signtargets` publishes something that was staged after what is published. -/
def Orderly : Bool → List Cmd → Bool
  | _, [] => true
  | b, .signTargets :: cs => b && Orderly false cs
  | b, c :: cs => Orderly (c.stages || (b && c.bystander)) cs

theorem orderly_cons {b : Bool} {c : Cmd} {cs : List Cmd} (h : Orderly b (c :: cs) = true) :
    (c = .signTargets → b = true) ∧ Orderly (c.stages || (b && c.bystander)) cs = true := by
  by_cases hc : c = .signTargets
  · subst hc
    have h' : (b && Orderly false cs) = true := h
    rw [Bool.and_eq_true] at h'
    exact ⟨fun _ => h'.1, by simpa [Cmd.stages, Cmd.bystander] using h'.2⟩
  · refine ⟨fun h => absurd h hc, ?_⟩
    cases c <;> first | exact h | exact absurd rfl hc

theorem runAll_later {g : GenEnv} (hg : Sound g) : ∀ (cs : List Cmd) {b : Bool} {r r' : Repos}, Sane g r → (∀ c ∈ cs, c.Sensible g) → Orderly b cs = true →
    (b = true → Ahead g r.director) → runAll g r cs = .ok r' → Later g .targets r.director r'.director
  | [], _, r, r', hs, _, _, _, h => by cases h; exact .inl rfl
  | c :: cs, b, r, r', hs, hc, ho, hb, h => by
    obtain ⟨r1, h1, h⟩ := exc_bind_ok.1 h
    obtain ⟨o1, o2⟩ := orderly_cons ho
    obtain ⟨s1, s2, s3, s4⟩ := run_ok hg hs (hc c List.mem_cons_self) h1
    refine (s2 (fun he => hb (o1 he))).trans (runAll_later hg cs s1.sane (fun c hc' => hc c (List.mem_cons_of_mem _ hc')) o2 ?_ h)
    intro hor
    rw [Bool.or_eq_true, Bool.and_eq_true] at hor
    rcases hor with hst | ⟨hb', hby⟩
    · exact s3 hst
    · exact s4 hby (hb hb')

end Aktualizr.Gen
