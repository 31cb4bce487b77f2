import Verif.Props.C70
import Verif.Spec.ToyText

/-!
# A computable environment for the repository generator, and runs of it
-/

namespace Aktualizr

open Spec Gen

namespace ToyGen

open ToyText (text bytes)

/-- The bytes of a decimal number, the lowest digit first. -/
def digits : Nat → Nat → List Nat
  | 0, _ => []
  | k + 1, n => (48 + n % 10) :: digits k (n / 10)

/-- A checksum in place of a digest. -/
def checksum (s : String) : Nat := (bytes s).foldl (fun a b => (a * 257 + b + 1) % 1000003) 7

/-- The mark a key leaves on a text, in place of a signature. -/
def mark (key msg : String) : String := text (bytes key ++ digits 6 (checksum msg))

def env : Env where
  parseJson := ToyText.parse
  canon := ToyText.canon
  rsaType _ := .unknown
  ed25519Verify k sig m := sig == mark k m
  rsaVerify _ _ _ := false
  sha256 m := text (digits 6 (checksum m))
  sha512 m := text (digits 8 (checksum m))
  fnmatch pattern name := pattern == name

def gen : GenEnv := { env := env, sign := fun _ pub _ msg => mark pub.value msg, keyId := fun k => k.value }

theorem sound : Sound gen := ⟨fun _ h => ToyText.parse_canon h, ToyText.canon_ne⟩

theorem works (pub priv : String) : Works gen ⟨⟨pub, .ed25519⟩, priv⟩ :=
  fun _ _ => .inl ⟨rfl, by show (_ == _) = true; simp [gen]⟩

def keysFor (a b c d : String) : NewKeys := ⟨.ed25519, (a, a), (b, b), (c, c), (d, d)⟩

theorem keysFor_ok (a b c d : String) : (keysFor a b c d).Ok gen :=
  ⟨works _ _, works _ _, works _ _, works _ _, fun _ _ _ _ h => h⟩

def kd := keysFor "dr" "ds" "dt" "dm"
def ki := keysFor "ir" "is" "it" "im"

def year : String := "2030-01-01T00:00:00Z"
def now : TimeStamp := ⟨"2026-01-01T00:00:00Z"⟩

/-- The first firmware is assigned. -/
def first : List Cmd := [.image "firmware" "app" "h1" "" none, .addTarget "app" "h1" "e1" "" "", .signTargets]

/-- Later the Root of the Image repository is renewed, and other firmware is assigned. -/
def second : List Cmd := [.refresh .image "root" now year, .image "new firmware" "app2" "h1" "" none, .emptyTargets "" year "",
  .addTarget "app2" "h1" "e1" "" "", .signTargets]

def start : Repos := Toy.val (generate gen kd ki "" year "") {}
theorem start_ok : generate gen kd ki "" year "" = .ok start := Toy.val_eq (by decide +kernel)

def then1 : Repos := Toy.val (runAll gen start first) {}
theorem then1_ok : runAll gen start first = .ok then1 := Toy.val_eq (by decide +kernel)

def then2 : Repos := Toy.val (runAll gen start (first ++ second)) {}
theorem then2_ok : runAll gen start (first ++ second) = .ok then2 := Toy.val_eq (by decide +kernel)

attribute [irreducible] start then1 then2

/-- A server with the files of `r`. -/
def ctx (r : Repos) : Ctx where
  env := env
  net _ repo role v := (dirOf r repo).files.lookup
    (if role = "root" then .numbered v else if role = "timestamp" then .timestamp else if role = "snapshot" then .snapshot else .targets)
  clock _ := now

theorem publishes (r : Repos) (repo : Repo) : Publishes (ctx r) repo (dirOf r repo) :=
  ⟨fun _ _ _ => rfl, fun _ => rfl, fun _ => rfl, fun _ => rfl⟩

/-- The limits, as something that can be computed. -/
def within (d : Dir) : Bool :=
  d.files.all (fun f => f.2.utf8ByteSize ≤ 64 * 1024 &&
    (match f.1 with
      | .numbered v => decide (v < 1000)
      | _ => true) &&
    (match (do (← (env.parseJson f.2).get "signed").get "version" : Except Err Json) with
      | .ok (.int v) => decide (v ≤ 2147483647)
      | _ => true) &&
    (match (do (← (env.parseJson f.2).get "signed").get "expires" : Except Err Json) with
      | .ok (.str e) => !(TimeStamp.mk e).isExpiredAt now
      | _ => true))

theorem mem_files {d : Dir} {p : Gen.Path} {t : String} (h : d.files.lookup p = some t) : (p, t) ∈ d.files := by
  generalize d.files = l at h
  induction l with
  | nil => cases h
  | cons a l ih =>
    obtain ⟨k, x⟩ := a
    rw [List.lookup_cons] at h
    split at h
    · rename_i heq
      cases h
      rw [beq_iff_eq] at heq
      subst heq
      simp
    · exact List.mem_cons_of_mem _ (ih h)

theorem within_ok {d : Dir} (r : Repos) (repo : Repo) (h : within d = true) : WithinLimits (ctx r) gen repo d := by
  have key : ∀ {p t}, d.files.lookup p = some t → _ := fun hp => List.all_eq_true.1 h _ (mem_files hp)
  simp only [Bool.and_eq_true, decide_eq_true_eq] at key
  have size : ∀ {p t}, d.files.lookup p = some t → t.utf8ByteSize ≤ 64 * 1024 := fun hp => (key hp).1.1.1
  refine ⟨fun v t hp => ⟨?_, by have := size hp; omega⟩, fun p j v hj hv => ?_, fun p _ j e hj he => ?_, fun t hp => size hp, fun t hp => ?_, fun t hp => ?_⟩
  · simpa using (key hp).1.1.2
  · unfold Dir.signed Dir.json at hj
    split at hj
    · cases hj; cases hv
    · rename_i hp
      have := (key hp).1.2
      rw [show (do (← (env.parseJson _).get "signed").get "version" : Except Err Json) = .ok (.int v) from exc_bind_ok.2 ⟨j, hj, hv⟩] at this
      simpa using this
  · unfold Dir.signed Dir.json at hj
    split at hj
    · cases hj; cases he
    · rename_i hp
      have := (key hp).2
      rw [show (do (← (env.parseJson _).get "signed").get "expires" : Except Err Json) = .ok (.str e) from exc_bind_ok.2 ⟨j, hj, he⟩] at this
      intro n
      show (TimeStamp.mk e).isExpiredAt now = false
      simpa using this
  · have := size hp; omega
  · have := size hp
    cases repo <;> simp only <;> omega

end ToyGen
end Aktualizr
