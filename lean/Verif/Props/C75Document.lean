import Verif.Props.C75Kept
import Verif.Props.C73Deleg
import Verif.Props.C41
import Verif.Props.C15

/-! # C75, continued: the document that is sent -/

namespace Aktualizr

open Spec

namespace Spec

/-- The first signature of the document names the method that belongs to the type of the key. -/
def NamesMethod (j : Json) (k : PublicKey) : Prop :=
  ∃ s rest, At j ["signatures"] (.arr (s :: rest)) ∧ (k.type = .ed25519 → At s ["method"] (.str "ed25519")) ∧
    (k.type ≠ .ed25519 → At s ["method"] (.str "rsassa-pss"))

/-- `j` is the manifest of an ECU, signed: which image it has. -/
structure EcuManifest (env : Env) (j : Json) (key : PublicKey) (serial : String) (i : Man.Image) (counter : Option Int) : Prop where
  signed : SignedBy env j key
  serial : At j ["signed", "ecu_serial"] (.str serial)
  name : At j ["signed", "installed_image", "filepath"] (.str i.name)
  hash : At j ["signed", "installed_image", "fileinfo", "hashes", "sha256"] (.str i.hash)
  length : At j ["signed", "installed_image", "fileinfo", "length"] (.int i.length)
  counter : At j ["signed", "report_counter"] (match counter with | some c => .str (toString c) | none => .null)
  method : NamesMethod j key

/-- An installation result as it is written. -/
def ResultIs (j : Json) (r : InstResult) : Prop :=
  ∃ c, r.code.toText = .ok c ∧ At j ["code"] (.str c) ∧ At j ["description"] (.str r.desc) ∧ At j ["success"] (.bool r.success)

/-- The installation report as it is written. -/
structure ReportIs (j : Json) (r : InstResult) (raw cid : String) (items : List (String × InstResult)) : Prop where
  cid : At j ["report", "correlation_id"] (.str cid)
  raw : At j ["report", "raw_report"] (.str raw)
  result : ∃ x, At j ["report", "result"] x ∧ ResultIs x r
  items : ∃ xs : List Json, At j ["report", "items"] (.arr xs) ∧ xs.length = items.length ∧
    ∀ (n : Nat) (x : Json) (s : String) (r : InstResult), xs[n]? = some x → items[n]? = some (s, r) → At x ["ecu"] (.str s) ∧ ∃ y, At x ["result"] y ∧ ResultIs y r

/-- The document tells everything in `m`, and nothing else. -/
structure TellsAll (env : Env) (doc : Json) (key : PublicKey) (i : Man.Image) (custom : Json) (m : Manifest) : Prop where
  signed : SignedBy env doc key
  primary : At doc ["signed", "primary_ecu_serial"] (.str m.primary)
  own : ∃ j, At doc ["signed", "ecu_version_manifests", m.primary] j ∧ EcuManifest env j key m.primary i m.counter
  secondaries : ∀ s j, (s, j) ∈ m.secondaries → At doc ["signed", "ecu_version_manifests", s] j
  others : ∀ s j, At doc ["signed", "ecu_version_manifests", s] j → j = .null ∨ s = m.primary ∨ (s, j) ∈ m.secondaries
  report : match m.report with
    | none => At doc ["signed", "installation_report"] .null
    | some (r, raw, cid, items) => ∃ j, At doc ["signed", "installation_report"] j ∧ ReportIs j r raw cid items
  custom : custom.isEmpty = false → At doc ["signed", "custom"] custom
  method : NamesMethod doc key

end Spec

namespace Man

open Gen (GenEnv KeyPair insertKey Canonical Works lookup_insertKey_same lookup_insertKey_other insertKey_sorted insertKey_mem)

variable {g : GenEnv} {k : Keys}

theorem get_obj (l : List (String × Json)) (key : String) : (Json.obj l).get key = .ok ((l.lookup key).getD .null) := rfl

theorem at_obj {l : List (String × Json)} {key : String} {ks : List String} {x : Json} :
    At (.obj l) (key :: ks) x ↔ At ((l.lookup key).getD .null) ks x := by
  constructor
  · rintro ⟨y, h1, h2⟩
    rw [get_obj] at h1
    injection h1 with h1
    rw [h1]
    exact h2
  · intro h
    exact ⟨_, get_obj _ _, h⟩

theorem at_nil {j x : Json} : At j [] x ↔ j = x := Iff.rfl

/-- What `signTuf` makes. -/
theorem signTuf_ok {n : Nat} {b doc : Json} (h : signTuf g k n b = .ok doc) :
    ∃ pub priv m, k.stored = some (pub, priv) ∧ Gen.method k.type = .ok m ∧
      doc = .obj [("signatures", .arr [.obj [("keyid", .str (g.keyId ⟨pub, k.type⟩)), ("method", .str m),
        ("sig", .str (g.sign n ⟨pub, k.type⟩ priv (g.env.canon b)))]]), ("signed", b)] := by
  unfold signTuf at h
  obtain ⟨m, h1, h⟩ := exc_bind_ok.1 h
  obtain ⟨p, h2, h⟩ := exc_bind_ok.1 h
  cases hs : k.stored with
  | none =>
    unfold Keys.public at h2
    rw [hs] at h2
    cases h2
  | some q =>
    obtain ⟨pub, priv⟩ := q
    have hp : p = ⟨pub, k.type⟩ := by
      unfold Keys.public at h2
      rw [hs] at h2
      simp only at h2
      split at h2
      · cases h2
      · cases h2; rfl
    rw [hs] at h
    subst hp
    refine ⟨pub, priv, m, rfl, h1, ?_⟩
    injection h with h
    exact h.symm

theorem signTuf_signed {n : Nat} {b doc : Json} {pub priv : String} (hk : k.stored = some (pub, priv))
    (hw : Works g ⟨⟨pub, k.type⟩, priv⟩) (h : signTuf g k n b = .ok doc) :
    SignedBy g.env doc ⟨pub, k.type⟩ ∧ ∀ ks x, At doc ("signed" :: ks) x ↔ At b ks x := by
  obtain ⟨pub', priv', m, h1, h2, rfl⟩ := signTuf_ok h
  rw [hk] at h1
  injection h1 with h1
  cases h1
  refine ⟨⟨_, _, [], _, _, b, rfl, rfl, ⟨_, rfl, rfl⟩, rfl, rfl, hw n _⟩, fun ks x => ?_⟩
  rw [at_obj]
  exact Iff.rfl

theorem signTuf_method {n : Nat} {b doc : Json} {pub : String} (h : signTuf g k n b = .ok doc) :
    NamesMethod doc ⟨pub, k.type⟩ := by
  obtain ⟨pub', priv', m, -, h2, rfl⟩ := signTuf_ok h
  refine ⟨_, [], ⟨_, rfl, rfl⟩, fun ht => ?_, fun ht => ?_⟩ <;> refine ⟨_, rfl, ?_⟩
  · simp only at ht
    rw [ht] at h2
    cases h2
    rfl
  · simp only [ne_eq] at ht
    cases hty : k.type <;> rw [hty] at h2 ht <;> first | exact absurd rfl ht | (cases h2; rfl) | cases h2

/-! ### The Primary's part -/

theorem own_manifest {n : Nat} {i : Image} {serial : String} {c : Option Int} {doc : Json} {pub priv : String} (hk : k.stored = some (pub, priv))
    (hw : Works g ⟨⟨pub, k.type⟩, priv⟩) (h : sign g k n (ecuPart i serial) c = .ok doc) : EcuManifest g.env doc ⟨pub, k.type⟩ serial i c := by
  unfold sign at h
  obtain ⟨h1, h2⟩ := signTuf_signed hk hw h
  have other : ∀ key ks x, key ≠ "report_counter" → (At doc ("signed" :: key :: ks) x ↔ At (((ecuPart i serial).lookup key).getD .null) ks x) := by
    intro key ks x hkey
    rw [h2, at_obj]
    cases c with
    | none => exact Iff.rfl
    | some c => simp only [lookup_insertKey_other hkey]
  refine ⟨h1, (other _ _ _ (by decide)).2 rfl, (other _ _ _ (by decide)).2 ⟨_, rfl, rfl⟩, (other _ _ _ (by decide)).2 ⟨_, rfl, _, rfl, _, rfl, rfl⟩,
    (other _ _ _ (by decide)).2 ⟨_, rfl, _, rfl, rfl⟩, ?_, signTuf_method h⟩
  rw [h2, at_obj]
  cases c with
  | none => exact at_nil.2 rfl
  | some c => simp only [lookup_insertKey_same]; exact at_nil.2 rfl

/-! ### The report -/

theorem resultJson_ok {r : InstResult} {j : Json} (h : resultJson r = .ok j) : ResultIs j r := by
  unfold resultJson at h
  obtain ⟨c, h1, h⟩ := exc_bind_ok.1 h
  cases h
  exact ⟨c, h1, ⟨_, rfl, rfl⟩, ⟨_, rfl, rfl⟩, ⟨_, rfl, rfl⟩⟩

theorem items_ok : ∀ {l : List (String × InstResult)} {xs : List Json}, items l = .ok xs →
    xs.length = l.length ∧ ∀ (n : Nat) (x : Json) (s : String) (r : InstResult), xs[n]? = some x → l[n]? = some (s, r) → At x ["ecu"] (.str s) ∧ ∃ y, At x ["result"] y ∧ ResultIs y r
  | [], xs, h => by
    cases h
    exact ⟨rfl, fun n x s r hx => by simp at hx⟩
  | (serial, r0) :: rest, xs, h => by
    unfold items at h
    obtain ⟨j, h1, h⟩ := exc_bind_ok.1 h
    obtain ⟨ys, h2, h⟩ := exc_bind_ok.1 h
    cases h
    obtain ⟨k1, k2⟩ := items_ok h2
    refine ⟨by simp [k1], fun n x s r hx hl => ?_⟩
    cases n with
    | zero =>
      simp only [List.getElem?_cons_zero, Option.some.injEq, Prod.mk.injEq] at hx hl
      obtain ⟨rfl, rfl⟩ := hl
      subst hx
      exact ⟨⟨_, rfl, rfl⟩, j, ⟨_, rfl, rfl⟩, resultJson_ok h1⟩
    | succ n => exact k2 n x s r (by simpa using hx) (by simpa using hl)

theorem report_ok {r : InstResult} {raw cid : String} {l : List (String × InstResult)} {j : Json} (h : report r raw cid l = .ok j) : ReportIs j r raw cid l := by
  unfold report at h
  obtain ⟨res, h1, h⟩ := exc_bind_ok.1 h
  obtain ⟨its, h2, h⟩ := exc_bind_ok.1 h
  cases h
  exact ⟨⟨_, rfl, _, rfl, rfl⟩, ⟨_, rfl, _, rfl, rfl⟩, ⟨res, ⟨_, rfl, _, rfl, rfl⟩, resultJson_ok h1⟩, ⟨its, ⟨_, rfl, _, rfl, rfl⟩, items_ok h2⟩⟩

/-! ### The list of manifests -/

theorem foldl_lookup : ∀ (secs : List (String × Json)) (l : List (String × Json)) (s : String), (secs.map Prod.fst).Nodup →
    (secs.foldl (fun l s => insertKey s.1 s.2 l) l).lookup s = match secs.lookup s with
      | some j => some j
      | none => l.lookup s
  | [], l, s, _ => rfl
  | (a, j) :: secs, l, s, hn => by
    simp only [List.map_cons, List.nodup_cons] at hn
    rw [List.foldl_cons, foldl_lookup secs _ s hn.2]
    by_cases ha : s = a
    · subst ha
      have : secs.lookup s = none := by
        cases hl : secs.lookup s with
        | none => rfl
        | some v =>
          have hin : s ∈ secs.map Prod.fst := List.mem_map.2 ⟨(s, v), Aktualizr.lookup_mem' hl, rfl⟩
          exact absurd hin hn.1
      rw [this]
      simp only [lookup_insertKey_same]
      simp [List.lookup]
    · have hb : (s == a) = false := by simpa using ha
      rw [lookup_insertKey_other ha]
      simp only [List.lookup, hb]

theorem lookup_of_mem : ∀ {l : List (String × Json)} {s : String} {j : Json}, (l.map Prod.fst).Nodup → (s, j) ∈ l → l.lookup s = some j
  | (a, b) :: l, s, j, hn, hm => by
    simp only [List.map_cons, List.nodup_cons] at hn
    rcases List.mem_cons.1 hm with hx | hx
    · cases hx
      simp [List.lookup]
    · have : s ≠ a := by
        rintro rfl
        have hin : s ∈ l.map Prod.fst := List.mem_map.2 ⟨(s, j), hx, rfl⟩
        exact hn.1 hin
      have hb : (s == a) = false := by simpa using this
      simp only [List.lookup, hb]
      exact lookup_of_mem hn.2 hx

/-! ### Everything -/

theorem assemble_parts {n : Nat} {i : Image} {m : Manifest} {l : List (String × Json)} (h : assemble g k n i m = .ok l) :
    ∃ own, sign g k n (ecuPart i m.primary) m.counter = .ok own ∧
      l.lookup "ecu_version_manifests" = some (.obj (versions m.primary own m.secondaries)) ∧
      l.lookup "primary_ecu_serial" = some (.str m.primary) ∧
      (match m.report with
        | none => l.lookup "installation_report" = none
        | some (r, raw, cid, its) => ∃ j, report r raw cid its = .ok j ∧ l.lookup "installation_report" = some j) := by
  unfold assemble at h
  obtain ⟨own, h1, h⟩ := exc_bind_ok.1 h
  refine ⟨own, h1, ?_⟩
  cases hr : m.report with
  | none =>
    rw [hr] at h
    simp only at h
    obtain ⟨base, h2, h⟩ := exc_bind_ok.1 h
    cases h2
    cases h
    refine ⟨?_, lookup_insertKey_same, ?_⟩
    · rw [lookup_insertKey_other (by decide)]
      rfl
    · simp only
      rw [lookup_insertKey_other (by decide)]
      rfl
  | some q =>
    obtain ⟨r, raw, cid, its⟩ := q
    rw [hr] at h
    simp only at h
    obtain ⟨j, h3, h⟩ := exc_bind_ok.1 h
    cases h
    refine ⟨?_, lookup_insertKey_same, j, h3, ?_⟩
    · rw [lookup_insertKey_other (by decide), lookup_insertKey_other (by decide)]
      rfl
    · rw [lookup_insertKey_other (by decide), lookup_insertKey_same]

/-- **The document.** It is signed with the key of the storage, and it tells what was collected: the Primary's
own part, signed, with the image; the Secondaries' manifests as they are; the report. -/
theorem C75_document {n : Nat} {i : Image} {custom : Json} {m : Manifest} {doc : Json} {pub priv : String} (hk : k.stored = some (pub, priv))
    (hw : Works g ⟨⟨pub, k.type⟩, priv⟩) (hn : (m.primary :: m.secondaries.map Prod.fst).Nodup) (h : document g k n i custom m = .ok doc) :
    TellsAll g.env doc ⟨pub, k.type⟩ i custom m := by
  unfold document at h
  obtain ⟨l, h1, h⟩ := exc_bind_ok.1 h
  unfold sign at h
  obtain ⟨s1, s2⟩ := signTuf_signed hk hw h
  simp only at s2
  obtain ⟨own, p1, p2, p3, p4⟩ := assemble_parts h1
  have other : ∀ key, key ≠ "custom" → (if custom.isEmpty then l else insertKey "custom" custom l).lookup key = l.lookup key := by
    intro key hkey
    split
    · rfl
    · exact lookup_insertKey_other hkey
  rw [List.nodup_cons] at hn
  have hv : ∀ s j, At doc ["signed", "ecu_version_manifests", s] j ↔ ((versions m.primary own m.secondaries).lookup s).getD .null = j := by
    intro s j
    rw [s2, at_obj, other _ (by decide), p2]
    exact at_obj
  have hl : ∀ s, (versions m.primary own m.secondaries).lookup s = match m.secondaries.lookup s with
      | some j => some j
      | none => if s = m.primary then some own else none := by
    intro s
    unfold versions
    rw [foldl_lookup _ _ _ hn.2]
    cases m.secondaries.lookup s with
    | some j => rfl
    | none =>
      by_cases hs : s = m.primary
      · simp [List.lookup, hs]
      · have hb : (s == m.primary) = false := by simpa using hs
        simp [List.lookup, hb, hs]
  refine ⟨s1, ?_, ⟨own, (hv _ _).2 ?_, own_manifest hk hw p1⟩, fun s j hm => (hv _ _).2 ?_, fun s j ha => ?_, ?_, fun hc => ?_, signTuf_method h⟩
  · rw [s2, at_obj, other _ (by decide), p3]
    exact at_nil.2 rfl
  · rw [hl]
    have : m.secondaries.lookup m.primary = none := by
      cases hx : m.secondaries.lookup m.primary with
      | none => rfl
      | some v => exact absurd (List.mem_map.2 ⟨_, Aktualizr.lookup_mem' hx, rfl⟩) hn.1
    rw [this]
    simp
  · rw [hl, lookup_of_mem hn.2 hm]
    rfl
  · rw [hv, hl] at ha
    cases hx : m.secondaries.lookup s with
    | some v =>
      rw [hx] at ha
      cases ha
      exact .inr (.inr (Aktualizr.lookup_mem' hx))
    | none =>
      rw [hx] at ha
      by_cases hs : s = m.primary
      · exact .inr (.inl hs)
      · simp only [hs, if_false, Option.getD] at ha
        exact .inl ha.symm
  · cases hr : m.report with
    | none =>
      rw [hr] at p4
      simp only at p4 ⊢
      rw [s2, at_obj, other _ (by decide), p4]
      exact at_nil.2 rfl
    | some q =>
      obtain ⟨r, raw, cid, its⟩ := q
      rw [hr] at p4
      obtain ⟨j, q1, q2⟩ := p4
      refine ⟨j, ?_, report_ok q1⟩
      rw [s2, at_obj, other _ (by decide), q2]
      exact at_nil.2 rfl
  · rw [s2, at_obj, hc, if_neg (by simp), lookup_insertKey_same]
    exact at_nil.2 rfl

/-- The document is made whenever there are keys of the configured type and the results have codes that can be written. -/
theorem C75_document_made {n : Nat} {i : Image} {custom : Json} {m : Manifest} {pub priv : String} (hk : k.stored = some (pub, priv))
    (ht : k.type ≠ .unknown) (hr : k.type = .ed25519 ∨ k.type = g.env.rsaType pub)
    (hc : ∀ r raw cid its, m.report = some (r, raw, cid, its) → (∃ c, r.code.toText = .ok c) ∧ ∀ q ∈ its, ∃ c, q.2.code.toText = .ok c) :
    ∃ doc, document g k n i custom m = .ok doc := by
  have hm : ∃ mt, Gen.method k.type = .ok mt := by
    cases hx : k.type <;> first | exact absurd hx ht | exact ⟨_, rfl⟩
  have hpub : k.public g.env = .ok ⟨pub, k.type⟩ := by
    unfold Keys.public
    rw [hk]
    simp only
    rw [if_neg]
    rcases hr with hr | hr
    · rw [hr]; simp
    · rw [hr]; simp
  obtain ⟨mt, hm⟩ := hm
  have hsign : ∀ n b, ∃ doc, signTuf g k n b = .ok doc := by
    intro n b
    unfold signTuf
    rw [hm, exc_bind_of_ok, hpub, exc_bind_of_ok]
    exact ⟨_, rfl⟩
  have hres : ∀ r : InstResult, (∃ c, r.code.toText = .ok c) → ∃ j, resultJson r = .ok j := by
    rintro r ⟨c, hr⟩
    unfold resultJson
    rw [hr, exc_bind_of_ok]
    exact ⟨_, rfl⟩
  have hits : ∀ its : List (String × InstResult), (∀ q ∈ its, ∃ c, q.2.code.toText = .ok c) → ∃ xs, items its = .ok xs := by
    intro its
    induction its with
    | nil => exact fun _ => ⟨_, rfl⟩
    | cons q its ih =>
      intro hq
      obtain ⟨s, r⟩ := q
      obtain ⟨j, hj⟩ := hres r (hq _ (.head _))
      obtain ⟨xs, hx⟩ := ih (fun q hm => hq q (.tail _ hm))
      unfold items
      rw [hj, exc_bind_of_ok, hx, exc_bind_of_ok]
      exact ⟨_, rfl⟩
  have hass : ∃ l, assemble g k n i m = .ok l := by
    unfold assemble
    obtain ⟨own, ho⟩ := hsign n (.obj (match m.counter with
      | some c => insertKey "report_counter" (.str (toString c)) (ecuPart i m.primary)
      | none => ecuPart i m.primary))
    rw [show sign g k n (ecuPart i m.primary) m.counter = .ok own from ho, exc_bind_of_ok]
    cases hrep : m.report with
    | none => exact ⟨_, rfl⟩
    | some q =>
      obtain ⟨r, raw, cid, its⟩ := q
      obtain ⟨c1, c2⟩ := hc r raw cid its hrep
      obtain ⟨j, hj⟩ := hres r c1
      obtain ⟨xs, hx⟩ := hits its c2
      simp only
      have : ∃ x, report r raw cid its = .ok x := by
        unfold report
        rw [hj, exc_bind_of_ok, hx, exc_bind_of_ok]
        exact ⟨_, rfl⟩
      obtain ⟨x, hx⟩ := this
      rw [hx]
      exact ⟨_, rfl⟩
  obtain ⟨l, hl⟩ := hass
  unfold document
  rw [hl, exc_bind_of_ok]
  exact hsign _ _

/-! ### What the server reads -/

theorem versions_canonical {primary : String} {own : Json} {secs : List (String × Json)} (ho : Canonical own) (hs : ∀ q ∈ secs, Canonical q.2) :
    Canonical (.obj (versions primary own secs)) := by
  have : ∀ (secs l : List (String × Json)), (∀ q ∈ secs, Canonical q.2) → Canonical (.obj l) →
      Canonical (.obj (secs.foldl (fun l s => insertKey s.1 s.2 l) l)) := by
    intro secs
    induction secs with
    | nil => exact fun l _ h => h
    | cons q secs ih =>
      intro l hs hl
      refine ih _ (fun q hm => hs q (.tail _ hm)) (.obj (insertKey_sorted hl.sorted) ?_)
      intro kv hkv
      rcases insertKey_mem hkv with rfl | h
      · exact hs q (.head _)
      · exact hl.members kv h
  refine this secs _ hs (.obj (by simp) ?_)
  intro kv hkv
  rw [List.mem_singleton] at hkv
  subst hkv
  exact ho

theorem insert_canonical {l : List (String × Json)} {key : String} {v : Json} (hl : Canonical (.obj l)) (hv : Canonical v) : Canonical (.obj (insertKey key v l)) := by
  refine .obj (insertKey_sorted hl.sorted) ?_
  intro kv hkv
  rcases insertKey_mem hkv with rfl | h
  · exact hv
  · exact hl.members kv h

theorem signTuf_canonical {n : Nat} {b doc : Json} (hb : Canonical b) (h : signTuf g k n b = .ok doc) : Canonical doc := by
  obtain ⟨pub, priv, m, -, -, rfl⟩ := signTuf_ok h
  refine .obj (by simp; decide) ?_
  simp only [List.mem_cons, List.not_mem_nil, or_false]
  rintro kv (rfl | rfl)
  · refine .arr ?_
    simp only [List.mem_cons, List.not_mem_nil, or_false]
    rintro x rfl
    refine .obj (by simp; decide) ?_
    simp only [List.mem_cons, List.not_mem_nil, or_false]
    rintro kv (rfl | rfl | rfl) <;> exact .str _
  · exact hb

theorem ecuPart_canonical {i : Image} {serial : String} (hi : i.length ≤ 18446744073709551615) : Canonical (.obj (ecuPart i serial)) := by
  unfold ecuPart
  refine .obj (by simp; decide) ?_
  simp only [List.mem_cons, List.not_mem_nil, or_false]
  rintro kv (rfl | rfl | rfl | rfl | rfl)
  · exact .str _
  · exact .str _
  · refine .obj (by simp; decide) ?_
    simp only [List.mem_cons, List.not_mem_nil, or_false]
    rintro kv (rfl | rfl)
    · refine .obj (by simp; decide) ?_
      simp only [List.mem_cons, List.not_mem_nil, or_false]
      rintro kv (rfl | rfl)
      · refine .obj (by simp) ?_
        simp only [List.mem_cons, List.not_mem_nil, or_false]
        rintro kv rfl
        exact .str _
      · exact .int (by omega) (by omega)
    · exact .str _
  · exact .str _
  · exact .str _

theorem resultJson_canonical {r : InstResult} {j : Json} (h : resultJson r = .ok j) : Canonical j := by
  unfold resultJson at h
  obtain ⟨c, _, h⟩ := exc_bind_ok.1 h
  cases h
  refine .obj (by simp; decide) ?_
  simp only [List.mem_cons, List.not_mem_nil, or_false]
  rintro kv (rfl | rfl | rfl)
  · exact .str _
  · exact .str _
  · exact .bool _

theorem items_canonical : ∀ {l : List (String × InstResult)} {xs : List Json}, items l = .ok xs → ∀ x ∈ xs, Canonical x
  | [], xs, h => by
    cases h
    simp
  | (serial, r0) :: rest, xs, h => by
    unfold items at h
    obtain ⟨j, h1, h⟩ := exc_bind_ok.1 h
    obtain ⟨ys, h2, h⟩ := exc_bind_ok.1 h
    cases h
    intro x hx
    rcases List.mem_cons.1 hx with rfl | hx
    · refine .obj (by simp; decide) ?_
      simp only [List.mem_cons, List.not_mem_nil, or_false]
      rintro kv (rfl | rfl)
      · exact .str _
      · exact resultJson_canonical h1
    · exact items_canonical h2 x hx

theorem report_canonical {r : InstResult} {raw cid : String} {l : List (String × InstResult)} {j : Json} (h : report r raw cid l = .ok j) : Canonical j := by
  unfold report at h
  obtain ⟨res, h1, h⟩ := exc_bind_ok.1 h
  obtain ⟨its, h2, h⟩ := exc_bind_ok.1 h
  cases h
  refine .obj (by simp; decide) ?_
  simp only [List.mem_cons, List.not_mem_nil, or_false]
  rintro kv (rfl | rfl)
  · exact .str _
  · refine .obj (by simp; decide) ?_
    simp only [List.mem_cons, List.not_mem_nil, or_false]
    rintro kv (rfl | rfl | rfl | rfl)
    · exact .str _
    · exact .arr (items_canonical h2)
    · exact .str _
    · exact resultJson_canonical h1

theorem sign_canonical {n : Nat} {l : List (String × Json)} {c : Option Int} {doc : Json} (hl : Canonical (.obj l)) (h : sign g k n l c = .ok doc) : Canonical doc := by
  unfold sign at h
  refine signTuf_canonical ?_ h
  cases c with
  | none => exact hl
  | some c => exact insert_canonical hl (.str _)

/-- **The server reads what was written.** The body of the request, parsed, is the document. -/
theorem C75_read_back (hg : Gen.Sound g) {n : Nat} {i : Image} {custom : Json} {m : Manifest} {doc : Json} (h : document g k n i custom m = .ok doc)
    (hi : i.length ≤ 18446744073709551615) (hs : ∀ q ∈ m.secondaries, Canonical q.2) (hcust : Canonical custom) : g.env.parseJson (body g doc) = doc := by
  refine hg.reads _ ?_
  unfold document at h
  obtain ⟨l, h1, h⟩ := exc_bind_ok.1 h
  have hl : Canonical (.obj l) := by
    unfold assemble at h1
    obtain ⟨own, h2, h1⟩ := exc_bind_ok.1 h1
    have hown := sign_canonical (ecuPart_canonical hi) h2
    have hbase : Canonical (.obj [("ecu_version_manifests", .obj (versions m.primary own m.secondaries))]) := by
      refine .obj (by simp) ?_
      simp only [List.mem_cons, List.not_mem_nil, or_false]
      rintro kv rfl
      exact versions_canonical hown hs
    cases hr : m.report with
    | none =>
      rw [hr] at h1
      cases h1
      exact insert_canonical hbase (.str _)
    | some q =>
      obtain ⟨r, raw, cid, its⟩ := q
      rw [hr] at h1
      simp only at h1
      obtain ⟨j, h3, h1⟩ := exc_bind_ok.1 h1
      cases h1
      exact insert_canonical (insert_canonical hbase (report_canonical h3)) (.str _)
  refine sign_canonical ?_ h
  split
  · exact hl
  · exact insert_canonical hl hcust

/-! ### The image -/

/-- What OSTree has booted is what is reported, or nothing is known. -/
theorem C75_image_booted {env : Env} {v : VersionDb} {h : String} {i : Image} (hc : PackMan.current env v (.ostree (some h)) = .ok i) :
    i = .unknown env ∨ i.hash = h := by
  have key : ∀ t, SecOst.getCurrent env v h = .ok (some t) → t.sha256Hash = h := by
    intro t ht
    unfold SecOst.getCurrent at ht
    obtain ⟨o, h1, ht⟩ := exc_bind_ok.1 ht
    have log : (do
        let l ← v.loadInstallationLog env "" false
        pure (l.reverse.find? (fun t => t.sha256Hash == h)) : Except Err (Option Target)) = .ok (some t) → t.sha256Hash = h := by
      intro hx
      obtain ⟨l, _, hx⟩ := exc_bind_ok.1 hx
      injection hx with hx
      simpa using List.find?_some hx
    cases o with
    | none => exact log ht
    | some t0 =>
      simp only at ht
      split at ht
      · next hh =>
        injection ht with ht
        injection ht with ht
        rw [← ht]
        exact hh
      · exact log ht
  unfold PackMan.current at hc
  obtain ⟨o, h1, hc⟩ := exc_bind_ok.1 hc
  cases o with
  | none => cases hc; exact .inl rfl
  | some t => cases hc; exact .inr (key t h1)

/-- What was recorded last as current for the Primary is what is reported. -/
theorem C75_image_recorded (env : Env) (ecus : List EcuRow) (l : List Recording) (t : Target) {i : Image} {pend : Option Target}
    (hc : PackMan.current env (recordAll env { ecus := ecus } (l ++ [⟨"", t, .current⟩])) .fake = .ok i)
    (hp : (recordAll env { ecus := ecus } (l ++ [⟨"", t, .current⟩])).loadPending env "" = .ok pend)
    (hstore : ∀ x ∈ t.hashes, Storable x) (hsha : ∃ x ∈ t.hashes, x.type = .sha256) (hone : ∀ x ∈ t.hashes, ∀ y ∈ t.hashes, x.type = y.type → x = y)
    (hid : ∀ r ∈ l, r.target.filename = t.filename → r.target.sha256Hash = t.sha256Hash →
      r.target.length = t.length ∧ r.target.hashes = t.hashes) :
    i = ⟨t.filename, t.length, t.sha256Hash⟩ := by
  unfold PackMan.current at hc
  obtain ⟨cur, h1, hc⟩ := exc_bind_ok.1 hc
  obtain ⟨-, t', h2, h3, -, h4, h5⟩ := C15_recorded_is_current env ecus l "" t cur pend _ rfl h1 hp hstore hsha hid
  subst h2
  cases hc
  have : t'.sha256Hash = t.sha256Hash := by
    obtain ⟨x, hx, ht⟩ := hsha
    have all : ∀ (l : List Hash), (∀ y, y ∈ l ↔ y ∈ t.hashes) → l.find? (fun h => h.type == .sha256) = some x := by
      intro l hl
      cases hf : l.find? (fun h => h.type == .sha256) with
      | none =>
        have := List.find?_eq_none.1 hf x ((hl x).2 hx)
        simp [ht] at this
      | some y =>
        have h6 := List.find?_some hf
        have h7 := List.mem_of_find?_eq_some hf
        simp only [beq_iff_eq] at h6
        rw [hone y ((hl y).1 h7) x hx (h6.trans ht.symm)]
    unfold Target.sha256Hash Target.hashString
    rw [all _ h5, all _ (fun _ => Iff.rfl)]
  unfold Image.ofTarget
  rw [h3, h4, this]

end Man

/-! ### The key the server knows -/

namespace Prov

open Gen (Works)

variable {σ : Type} {env : Env} {server : Server σ}

/-- **The key.** Whatever the server answers and whenever the device stops: the public key it was given for the Primary is
kept with its private part in the storage from then on. So the documents made in any later start, with the same type
of key in the configuration, are signed by the key the server knows. -/
theorem C75_registered_key (x : Start) (t : Store) (srv : σ) {c : Creds} {p : String} {l : List Ecu} {r : Resp}
    (h : (c, Req.ecus p l, r) ∈ (run env server x t srv).2.log) :
    ∃ e rest k, l = e :: rest ∧ e.serial = p ∧ e.key = ⟨k.1, x.cfg.keyType⟩ ∧
      ∀ xs srv', (runs env server xs ((run env server x t srv).2.store, srv')).1.keys = some k := by
  obtain ⟨t1, n, hi, htr⟩ := run_tr (env := env) (server := server) x t srv
  have key := htr.inv (I := fun s => ∀ c p l r, (c, Req.ecus p l, r) ∈ s.log →
    ∃ e rest k, l = e :: rest ∧ e.serial = p ∧ e.key = ⟨k.1, x.cfg.keyType⟩ ∧ s.store.keys = some k) ?_ (by simp)
  · obtain ⟨e, rest, k, h1, h2, h3, h4⟩ := key c p l r h
    exact ⟨e, rest, k, h1, h2, h3, fun xs srv' => C41_keys xs _ srv' k h4⟩
  · intro a b hc ha c p l r hm
    cases hc with
    | register k l' n g1 g2 g3 g4 g5 g6 =>
      rcases List.mem_append.1 hm with hm | hm
      · exact ha c p l r hm
      · simp only [List.mem_singleton, Prod.mk.injEq, Req.ecus.injEq] at hm
        obtain ⟨_, ⟨rfl, rfl⟩, _⟩ := hm
        cases l with
        | nil => simp at g5
        | cons e rest =>
          simp only [List.head?_cons, Option.map_some, Option.some.injEq, Prod.mk.injEq] at g5
          refine ⟨e, rest, k, rfl, ?_, g5.2, g3⟩
          simp only [configured, List.map_cons, List.cons.injEq] at g4
          exact g4.1
    | key k m n g1 g2 =>
      obtain ⟨e, rest, k', h1, h2, h3, h4⟩ := ha c p l r hm
      rw [g1] at h4
      cases h4
    | _ =>
      first
        | exact ha c p l r hm
        | (refine ha c p l r ?_
           rcases List.mem_append.1 hm with hm | hm
           · exact hm
           · simp at hm)

/-- Put together: every later document verifies under the key the server was given. -/
theorem C75_verifiable (g : Gen.GenEnv) (x : Start) (t : Store) (srv : σ) {c : Creds} {p : String} {l : List Ecu} {r : Resp}
    (h : (c, Req.ecus p l, r) ∈ (run env server x t srv).2.log) (xs : List Start) (srv' : σ)
    (hw : ∀ pub priv, (runs env server xs ((run env server x t srv).2.store, srv')).1.keys = some (pub, priv) → Works g ⟨⟨pub, x.cfg.keyType⟩, priv⟩)
    {n : Nat} {i : Man.Image} {custom : Json} {m : Manifest} {doc : Json} (hn : (m.primary :: m.secondaries.map Prod.fst).Nodup)
    (hd : Man.document g ⟨(runs env server xs ((run env server x t srv).2.store, srv')).1.keys, x.cfg.keyType⟩ n i custom m = .ok doc) :
    ∃ e rest, l = e :: rest ∧ e.serial = p ∧ TellsAll g.env doc e.key i custom m := by
  obtain ⟨e, rest, k, h1, h2, h3, h4⟩ := C75_registered_key x t srv h
  refine ⟨e, rest, h1, h2, ?_⟩
  rw [h3]
  exact Man.C75_document (h4 xs srv') (hw _ _ (h4 xs srv')) hn hd

end Prov

end Aktualizr
