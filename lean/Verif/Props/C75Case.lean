import Verif.Props.C75Document
import Verif.Props.C70Toy

/-!
# C75: a concrete device

A Primary with one Secondary, in an environment with computable signatures; and what the theorems of C75 do not
promise, shown on it.
-/

namespace Aktualizr

open Spec

namespace ToyMan

/-- As `ToyGen.env`, with signatures that are never empty. -/
def env : Env := { ToyGen.env with ed25519Verify := fun k sig m => sig == "x" ++ ToyGen.mark k m }

def gen : Gen.GenEnv := { env := env, sign := fun _ pub _ msg => "x" ++ ToyGen.mark pub.value msg, keyId := fun k => k.value }

theorem sound : Gen.Sound gen := ⟨fun _ h => ToyText.parse_canon h, ToyText.canon_ne⟩

theorem works (pub priv : String) : Gen.Works gen ⟨⟨pub, .ed25519⟩, priv⟩ := fun _ _ => .inl ⟨rfl, by show (_ == _) = true; simp [gen]⟩

theorem noEmpty : NoEmptySignature env := by
  intro k msg h
  rcases h with ⟨-, h⟩ | ⟨-, h⟩
  · have h : ("" == "x" ++ ToyGen.mark k.value msg) = true := h
    rw [beq_iff_eq] at h
    have := congrArg String.length h
    have h1 : "x".length = 1 := rfl
    simp [h1] at this
    omega
  · cases h

def keysOf (k : String) : Man.Keys := ⟨some (k, k), .ed25519⟩
def keyOf (k : String) : PublicKey := ⟨k, .ed25519⟩
def fw (name : String) : Man.Image := ⟨name, 10, "AB"⟩

/-- The manifest of an ECU with the given key and image. -/
def doc (key serial img : String) : Json := Toy.val (Man.sign gen (keysOf key) 0 (Man.ecuPart (fw img) serial) none) .null

theorem doc_signed (key serial img : String) : SignedBy env (doc key serial img) (keyOf key) :=
  (Man.own_manifest (g := gen) (k := keysOf key) (n := 0) (i := fw img) (serial := serial) (c := none) rfl (works key key) rfl).signed

theorem doc_canonical (key serial img : String) : Gen.Canonical (doc key serial img) :=
  Man.sign_canonical (g := gen) (k := keysOf key) (n := 0) (c := none) (Man.ecuPart_canonical (i := fw img) (serial := serial) (by simp [fw])) rfl

theorem doc_serial (key serial img : String) : At (doc key serial img) ["signed", "ecu_serial"] (.str serial) :=
  (Man.own_manifest (g := gen) (k := keysOf key) (n := 0) (i := fw img) (serial := serial) (c := none) rfl (works key key) rfl).serial

attribute [irreducible] doc

/-- An event during which the Secondaries give this manifest and this key. -/
def event (call : DevCall) (man : Except Err Json) (key : String) : DevEvent :=
  { Toy.event call with peers := { (Toy.event call).peers with secManifest := fun _ _ => man, secKey := fun _ _ => .ok (keyOf key) } }

def away : Except Err Json := .error (.std "unreachable")

/-- The Secondaries' entries in the manifests sent, as texts. -/
def entries (log : List Action) : List (List (String × String)) :=
  log.filterMap (fun a => match a with | .sent m _ => some (m.secondaries.map (fun q => (q.1, env.canon q.2))) | _ => none)

def text (key serial img : String) : String := env.canon (doc key serial img)

def start : DevEvent := event (.init (Toy.cfg "p" ["s"]) true) away "k"

/-- The Secondary tells about `app`, is not heard of for a while in which the Primary restarts, and comes back with `app2`. -/
def life : List DevEvent := [start, event .putManifest (.ok (doc "k" "s" "app")) "k", event .putManifest away "k", start, event .putManifest away "k",
  event .putManifest (.ok (doc "k" "s" "app2")) "k"]

end ToyMan

open ToyMan

/-- The hypotheses of `C75_secondary_entries` are met and it speaks about something: the manifests sent have what the Secondary
said last. -/
example : NoEmptySignature env ∧ entries (runDevice env Dev.fresh life).log =
    [[("s", text "k" "s" "app")], [("s", text "k" "s" "app")], [("s", text "k" "s" "app")], [("s", text "k" "s" "app2")]] :=
  ⟨noEmpty, by decide +kernel⟩

/-- All hypotheses of `C75_last_known` hold for a life with a restart in between, and of `C75_passed_on` before it. -/
example : ∃ new, (runDevice env Dev.fresh ([start] ++ [event .putManifest (.ok (doc "k" "s" "app")) "k"] ++ [event .putManifest away "k", start] ++
      [event .putManifest away "k"])).log = (runDevice env Dev.fresh ([start] ++ [event .putManifest (.ok (doc "k" "s" "app")) "k"] ++
        [event .putManifest away "k", start])).log ++ new ∧
    ∀ m ok, Action.sent m ok ∈ new → ("s", doc "k" "s" "app") ∈ m.secondaries := by
  have hread : env.parseJson (env.canon (doc "k" "s" "app")) = doc "k" "s" "app" := sound.reads _ (doc_canonical _ _ _)
  have h := C75_last_known (env := env) [start] [event .putManifest away "k", start] (event .putManifest (.ok (doc "k" "s" "app")) "k")
    (event .putManifest away "k") rfl rfl (s := "s") (j := doc "k" "s" "app") (k := keyOf "k") (by decide +kernel) ⟨fun _ => rfl, fun _ => rfl⟩
    (doc_signed _ _ _) ?_ ?_ (by decide +kernel) (ToyText.canon_ne _) (fun _ => rfl) (by rw [hread]; exact doc_signed _ _ _)
  · rw [hread] at h
    exact h
  · obtain ⟨new, h1, h2⟩ := C75_passed_on (env := env) [start] (event .putManifest (.ok (doc "k" "s" "app")) "k") rfl
    have hne : entries new ≠ [] := by
      intro h0
      have : entries (runDevice env Dev.fresh ([start] ++ [event .putManifest (.ok (doc "k" "s" "app")) "k"])).log =
          entries (runDevice env Dev.fresh [start]).log := by
        rw [h1]
        unfold entries at h0 ⊢
        rw [List.filterMap_append, h0, List.append_nil]
      revert this
      decide +kernel
    obtain ⟨x, hx⟩ := List.exists_mem_of_ne_nil _ hne
    obtain ⟨a, ha, hax⟩ := List.mem_filterMap.1 hx
    cases a with
    | sent m ok => exact ⟨m, ok, new, h1, ha⟩
    | _ => cases hax
  · intro x hx
    simp only [List.mem_append, List.mem_cons, List.not_mem_nil, or_false] at hx
    rcases hx with (rfl | rfl) | rfl <;> exact fun _ => rfl

/-- The document that is sent then: it can be made, and `C75_document` and `C75_read_back` apply to it. -/
example : ∃ d, Man.document gen (keysOf "kp") 0 (fw "base") (.obj [("note", .str "x")])
      { primary := "p", counter := some 7, secondaries := [("s", doc "k" "s" "app")],
        report := some (⟨true, .ok, "fine"⟩, "raw", "id", [("p", ⟨true, .ok, ""⟩), ("s", ⟨false, .installFailed, "no"⟩)]) } = .ok d ∧
    TellsAll env d (keyOf "kp") (fw "base") (.obj [("note", .str "x")])
      { primary := "p", counter := some 7, secondaries := [("s", doc "k" "s" "app")],
        report := some (⟨true, .ok, "fine"⟩, "raw", "id", [("p", ⟨true, .ok, ""⟩), ("s", ⟨false, .installFailed, "no"⟩)]) } ∧
    env.parseJson (Man.body gen d) = d := by
  obtain ⟨d, hd⟩ := Man.C75_document_made (g := gen) (k := keysOf "kp") (n := 0) (i := fw "base") (custom := .obj [("note", .str "x")])
    (m := { primary := "p", counter := some 7, secondaries := [("s", doc "k" "s" "app")],
            report := some (⟨true, .ok, "fine"⟩, "raw", "id", [("p", ⟨true, .ok, ""⟩), ("s", ⟨false, .installFailed, "no"⟩)]) })
    (pub := "kp") (priv := "kp") rfl (by decide) (.inl rfl) (by
      intro r raw cid its h
      cases h
      refine ⟨⟨_, rfl⟩, ?_⟩
      intro q hq
      simp only [List.mem_cons, List.not_mem_nil, or_false] at hq
      rcases hq with rfl | rfl <;> exact ⟨_, rfl⟩)
  refine ⟨d, hd, Man.C75_document (g := gen) (k := keysOf "kp") rfl (works _ _) (by decide) hd, Man.C75_read_back sound hd (by decide) ?_ ?_⟩
  · intro q hq
    simp only [List.mem_singleton] at hq
    subst hq
    exact doc_canonical _ _ _
  · refine .obj (by simp) ?_
    simp only [List.mem_cons, List.not_mem_nil, or_false]
    rintro kv rfl
    exact .str _

/-- Registration of the ECUs happens in the runs `C75_registered_key` and `C75_verifiable` speak about. -/
example : ((Prov.run Prov.Case.toy Prov.Case.easy (Prov.Case.go 30) {} ()).2.log.any
    (fun q => match q.2.1 with | .ecus p l => p == "prim" && l.map (·.serial) == ["prim", "sec"] | _ => false)) = true := by decide +kernel

/-! ### What is not promised -/

/-- **The serial inside a Secondary's manifest is not looked at**: a Secondary can sign a manifest in the name of another ECU,
here of the Primary, and it is passed on under the Secondary's own name. -/
theorem C75_serial_unchecked : ∃ j, entries (runDevice env Dev.fresh [start, event .putManifest (.ok j) "k"]).log = [[("s", env.canon j)]] ∧
    At j ["signed", "ecu_serial"] (.str "p") :=
  ⟨doc "k" "p" "app", by decide +kernel, doc_serial _ _ _⟩

/-- **A manifest that does not verify is not replaced** by the last one that did: the server is told nothing about that
Secondary, although its last known manifest is stored and would still verify. -/
theorem C75_invalid_left_out : ∃ j, ¬ SignedBy env j (keyOf "k") ∧
    entries (runDevice env Dev.fresh [start, event .putManifest (.ok (doc "k" "s" "app")) "k", event .putManifest (.ok j) "k",
      event .putManifest away "k"]).log = [[("s", text "k" "s" "app")], [], [("s", text "k" "s" "app")]] := by
  refine ⟨doc "other" "s" "app", fun h => ?_, by decide +kernel⟩
  have : manifestVerifies env (doc "other" "s" "app") (keyOf "k") = .ok true := manifestVerifies_of h
  revert this
  decide +kernel

/-- **The last known manifest is checked with the key of today**: a silent Secondary with a new key is left out. -/
theorem C75_new_key_drops : entries (runDevice env Dev.fresh [start, event .putManifest (.ok (doc "k" "s" "app")) "k",
    event .putManifest away "k2"]).log = [[("s", text "k" "s" "app")], []] := by decide +kernel

end Aktualizr
