import Verif.Props.C76Life
import Verif.Props.C75Case

/-! # C76: a concrete Secondary, and what is not promised -/

namespace Aktualizr

open Spec

namespace SecId

namespace Case

/-- A Secondary in the environment of `ToyMan`: Ed25519 keys only; each key made is another one. -/
def toy : Around where
  g := ToyMan.gen
  newKey ty n := if ty = .ed25519 then some ("key" ++ String.ofList (List.replicate n '\''), "private") else none
  hashing := Sec.toyHashing

/-- The same in an environment with metadata (`Toy.E`). -/
def withMeta : Around := { toy with g := { env := Toy.E, sign := fun _ _ _ _ => "", keyId := fun k => k.value } }

def clock := Toy.clock "2026-01-01T00:00:00Z"
def cfg : Config := { keyType := .ed25519, hostname := "host" }
def go (cfg : Config) (fuel : Nat) : Op := .start cfg clock fuel

/-- A Secondary with an image from the factory. -/
def factory : State := { core := { serial := "Unknown", hwid := "Unknown", firmware := some [97, 98, 99] } }

theorem factory_new : New factory := ⟨rfl, rfl, rfl⟩

/-- Name and hash of the image in a manifest. -/
def said (j : Json) : Except Err (String × String) := do
  let i ← (← j.get "signed").get "installed_image"
  return (← (← i.get "filepath").asString, ← (← (← (← i.get "fileinfo").get "hashes").get "sha256").asString)

inductive Seen where
  | nothing
  | started
  | info (serial hwid key : String) (type : KeyType)
  | manifest (name hash : String)
  | answer (a : Sec.Answer)
  deriving DecidableEq

def seen : Option Reply → Seen
  | none => .nothing
  | some .started => .started
  | some (.info x h k) => .info x h k.value k.type
  | some (.manifest j) => match said j with
    | .ok q => .manifest q.1 q.2
    | .error _ => .nothing
  | some (.answer a) => .answer a

def history (a : Around) (s : State) : List Op → Option (List Seen × State)
  | [] => some ([], s)
  | o :: os => match step a s o with
    | .error _ => none
    | .ok q => (history a q.2 os).map (fun r => (seen q.1 :: r.1, r.2))

/-- The replies, and what remains: names of the version recorded and of the file for import, the image. -/
def replies (a : Around) (ops : List Op) : Option (List Seen) := (history a factory ops).map (·.1)

theorem works : KeysWork toy .ed25519 := fun _ _ _ => ToyMan.works _ _

/-- The process dies after storing the key, is started again, asked, and started with other names. -/
def early : List Op := [go cfg 1, .getInfo, go cfg 100]
def late : List Op := [.getManifest, go { cfg with serial := "other", hwid := "board" } 100]

theorem oneType : OneType (early ++ late) .ed25519 := by
  intro c _ _ h
  simp only [early, late, go, List.cons_append, List.nil_append, List.mem_cons, Op.start.injEq, List.not_mem_nil, or_false, reduceCtorEq, false_or] at h
  rcases h with ⟨rfl, -⟩ | ⟨rfl, -⟩ | ⟨rfl, -⟩ <;> rfl

theorem allSuit : AllSuit toy (early ++ late) := by
  intro c1 c f c2 _ _ n k h _ _
  rw [oneType c1 c f h]
  exact ⟨by decide, by simp⟩

/-- A file that names `base` as the version it came with. -/
def file : String := ToyMan.env.canon (.obj [("base", .obj [("hashes", .obj [("sha256", .str "abc")]), ("is_current", .bool true), ("length", .int 3)])])

end Case

open Case

/-- The replies in that life: the names chosen first stay; the image has no name as no file was there to import. -/
example : replies toy (early ++ [.getInfo] ++ late ++ [.getInfo, .getManifest]) =
    some [.nothing, .nothing, .started, .info "key" "host" "key" .ed25519, .manifest "unknown" "abc", .started,
      .info "key" "host" "key" .ed25519, .manifest "unknown" "abc"] := by decide +kernel

/-- With a file to import. -/
example : replies toy [.place (some file), go cfg 100, .getManifest] = some [.nothing, .started, .manifest "base" "abc"] := by decide +kernel

theorem of_history {a : Around} {s : State} {ops : List Op} {l : List Seen} {t : State} (h : history a s ops = some (l, t)) : run a s ops = .ok t := by
  induction ops generalizing s l with
  | nil => cases h; rfl
  | cons o ops ih =>
    unfold history at h
    show (step a s o >>= fun q => run a q.2 ops) = _
    cases hs : step a s o with
    | error e => rw [hs] at h; cases h
    | ok q =>
      rw [hs] at h
      simp only at h
      cases hh : history a q.2 ops with
      | none => rw [hh] at h; cases h
      | some r =>
        rw [hh] at h
        cases h
        exact ih hh

/-- The reply to one more request. -/
def ask (a : Around) (ops : List Op) (o : Op) : Option Seen :=
  match history a factory ops with
  | none => none
  | some q => match step a q.2 o with
    | .ok r => some (seen r.1)
    | .error _ => none

theorem ask_ok {a : Around} {ops : List Op} {o : Op} {x : Seen} (h : ask a ops o = some x) :
    ∃ s r s', run a factory ops = .ok s ∧ step a s o = .ok (r, s') ∧ seen r = x := by
  unfold ask at h
  cases hh : history a factory ops with
  | none => rw [hh] at h; cases h
  | some q =>
    rw [hh] at h
    simp only at h
    cases hs : step a q.2 o with
    | error e => rw [hs] at h; cases h
    | ok r =>
      rw [hs] at h
      injection h with h
      exact ⟨q.2, r.1, r.2, of_history (l := q.1) hh, hs, h⟩

theorem says_of {a : Around} {ops : List Op} {x hw k : String} {ty : KeyType} (h : ask a ops .getInfo = some (.info x hw k ty)) :
    Says a factory ops x hw ⟨k, ty⟩ := by
  obtain ⟨s, r, s', h1, h2, h3⟩ := ask_ok h
  cases r with
  | none => cases h3
  | some r =>
    cases r with
    | info x' h' k' => cases h3; exact ⟨s, s', h1, h2⟩
    | manifest j =>
      unfold seen at h3
      simp only at h3
      split at h3 <;> cases h3
    | _ => cases h3

theorem reports_of {a : Around} {ops : List Op} {x y : String} (h : ask a ops .getManifest = some (.manifest x y)) :
    ∃ j, Reports a factory ops j ∧ said j = .ok (x, y) := by
  obtain ⟨s, r, s', h1, h2, h3⟩ := ask_ok h
  cases r with
  | none => cases h3
  | some r =>
    cases r with
    | manifest j =>
      refine ⟨j, ⟨s, s', h1, h2⟩, ?_⟩
      unfold seen at h3
      simp only at h3
      cases hj : said j with
      | error e => rw [hj] at h3; cases h3
      | ok q => rw [hj] at h3; cases h3; rfl
    | _ => cases h3

/-- The hypotheses of `C76_same_identity`, `C76_chosen`, `C76_manifest` are met, with a changed configuration and a crash. -/
example : New factory ∧ Says toy factory early "key" "host" ⟨"key", .ed25519⟩ ∧ Says toy factory (early ++ late) "key" "host" ⟨"key", .ed25519⟩ ∧
    KeysWork toy .ed25519 ∧ OneType (early ++ late) .ed25519 ∧ ∃ j, Reports toy factory (early ++ late) j :=
  ⟨factory_new, says_of (by decide +kernel), says_of (by decide +kernel), works, oneType,
    let ⟨j, h, _⟩ := reports_of (a := toy) (ops := early ++ late) (x := "unknown") (y := "abc") (by decide +kernel)
    ⟨j, h⟩⟩

/-- The manifest at the end of that life. -/
def now : Json :=
  match history toy factory (early ++ late) with
  | none => .null
  | some q => match step toy q.2 .getManifest with
    | .ok (some (.manifest j), _) => j
    | _ => .null

theorem reports_now : Reports toy factory (early ++ late) now := by
  obtain ⟨j, ⟨s, s', h1, h2⟩, -⟩ := reports_of (a := toy) (ops := early ++ late) (x := "unknown") (y := "abc") (by decide +kernel)
  refine ⟨s, s', h1, ?_⟩
  cases hh : history toy factory (early ++ late) with
  | none =>
    have : (history toy factory (early ++ late)).isSome = true := by decide +kernel
    rw [hh] at this
    cases this
  | some q =>
    have e := of_history (l := q.1) (t := q.2) hh
    rw [h1] at e
    injection e with e
    have : now = j := by
      unfold now
      rw [hh]
      simp only
      rw [← e, h2]
    rw [this]
    exact h2

/-- The hypotheses of `C76_reported`: a Primary that knows this Secondary and gets its manifest now sends it. -/
example : ∃ m ok new, (runDevice ToyMan.env Dev.fresh [ToyMan.event (.init (Toy.cfg "p" ["key"]) true) ToyMan.away "key", ToyMan.event .putManifest (.ok now) "key"]).log =
      (runDevice ToyMan.env Dev.fresh [ToyMan.event (.init (Toy.cfg "p" ["key"]) true) ToyMan.away "key"]).log ++ new ∧
    Action.sent m ok ∈ new ∧ ("key", now) ∈ m.secondaries := by
  obtain ⟨new, h1, h2⟩ := C76_reported (a := toy) factory_new works early late oneType (x := "key") (hwid := "host") (key := ⟨"key", .ed25519⟩)
    (says_of (by decide +kernel)) reports_now [ToyMan.event (.init (Toy.cfg "p" ["key"]) true) ToyMan.away "key"]
    (ToyMan.event .putManifest (.ok now) "key") rfl (by decide +kernel) ⟨fun _ => rfl, fun _ => rfl⟩
  have hne : ToyMan.entries new ≠ [] := by
    intro h0
    have : ToyMan.entries (runDevice ToyMan.env Dev.fresh ([ToyMan.event (.init (Toy.cfg "p" ["key"]) true) ToyMan.away "key"] ++ [ToyMan.event .putManifest (.ok now) "key"])).log =
        ToyMan.entries (runDevice ToyMan.env Dev.fresh [ToyMan.event (.init (Toy.cfg "p" ["key"]) true) ToyMan.away "key"]).log := by
      have h1 : (runDevice ToyMan.env Dev.fresh ([ToyMan.event (.init (Toy.cfg "p" ["key"]) true) ToyMan.away "key"] ++ [ToyMan.event .putManifest (.ok now) "key"])).log =
        (runDevice ToyMan.env Dev.fresh [ToyMan.event (.init (Toy.cfg "p" ["key"]) true) ToyMan.away "key"]).log ++ new := h1
      rw [h1]
      unfold ToyMan.entries at h0 ⊢
      rw [List.filterMap_append, h0, List.append_nil]
    revert this
    decide +kernel
  obtain ⟨x, hx⟩ := List.exists_mem_of_ne_nil _ hne
  obtain ⟨a, ha, hax⟩ := List.mem_filterMap.1 hx
  cases a with
  | sent m ok => exact ⟨m, ok, new, h1, ha, (h2 m ok ha).1⟩
  | _ => cases hax

/-- The hypotheses of `C76_first_start`: the file names a version. -/
example : factory.keys = none ∧ factory.core.versions = {} ∧ toy.newKey cfg.keyType factory.drawn = some ("key", "private") ∧
    Chosen toy cfg "key" "key" "host" ∧ (named toy.g.env (some file)).map (·.filename) = some "base" :=
  ⟨rfl, rfl, rfl, by refine ⟨rfl, rfl, ?_, ?_, ?_, ?_⟩ <;> decide, by decide +kernel⟩

/-- Metadata, upload and installation under the name it chose; the hypotheses of `C76_installs`. -/
def installing : List Op := [go { cfg with serial := "e1", hwid := "h1" } 100, .putMeta Sec.agreed clock 100, .upload { kept := 3 } [97, 98, 99]]

example : replies withMeta (installing ++ [.install true 10, .getInfo]) =
    some [.started, .answer .ok, .answer .ok, .answer .ok, .info "e1" "h1" "key" .ed25519] ∧ AllSuit withMeta installing := by
  refine ⟨by decide +kernel, ?_⟩
  intro c1 _ _ c2 _ _ n k h _ _
  simp only [installing, go, List.mem_cons, Op.start.injEq, List.not_mem_nil, or_false, reduceCtorEq] at h
  obtain ⟨rfl, -⟩ := h
  exact ⟨by decide, by simp [cfg]⟩

/-! ### What is not promised -/

/-- **The import happens once or never**: when the process dies after storing its names and before recording the version the file
names, the version is never recorded, and the file stays. -/
theorem C76_import_lost : replies toy [.place (some file), go cfg 2, go cfg 100, .getManifest] = some [.nothing, .nothing, .started, .manifest "unknown" "abc"] ∧
    (history toy factory [.place (some file), go cfg 2, go cfg 100]).map (fun q => q.2.file) = some (some file) := by decide +kernel

/-- **The name of the image can be an old one**: when the process dies after replacing the image and before recording it, its manifest
has the hash of the new image and the name recorded before it, here none. -/
theorem C76_stale_name : replies withMeta (installing ++ [.install true 1, go cfg 100, .getManifest]) =
    some [.started, .answer .ok, .answer .ok, .nothing, .started, .manifest "unknown" "abc"] := by decide +kernel

/-- **A changed key type silences it**: configured with an RSA key type after an Ed25519 key was made, the process starts but dies at
each request for information or for the manifest. -/
theorem C76_type_changed : replies toy [go cfg 100, go { cfg with keyType := .rsa2048 } 100, .getInfo, go { cfg with keyType := .rsa2048 } 100, .getManifest] =
    some [.started, .started, .nothing, .started, .nothing] := by decide +kernel

end SecId

end Aktualizr
