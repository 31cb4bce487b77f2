import Verif.Props.C77Live
import Verif.Props.C77Stuck
import Verif.Props.C76Case
import Verif.Props.C70Toy

/-! # C77: a concrete Primary and Secondary, and what is not promised -/

namespace Aktualizr

open Spec

namespace Pair

open Ip (Req Resp)
open Sec (Bytes)

namespace Case

/-! ### A whole update, with metadata made by the repository generator -/

def letters (b : Bytes) : String := String.ofList (b.map (fun x => Char.ofNat x.toNat))

def around : SecId.Around where
  g := ToyGen.gen
  newKey := SecId.Case.toy.newKey
  hashing := { digest := fun ty b => if ty = .sha512 then ToyGen.env.sha512 (letters b) else ToyGen.env.sha256 (letters b), spent := fun _ _ => "?" }

def cfg : SecId.Config := { serial := "e1", hwid := "h1", keyType := .ed25519 }
def power : SecId.Op := .start cfg (fun _ => ToyGen.now) 100

/-- The Secondary is started before the first request; then nothing disturbs. -/
def fates (n : Nat) : Fate := { before := if n = 0 then [power] else [], clock := fun _ => ToyGen.now, fuel := 1000 }

def doc (repo : Repo) (p : Gen.Path) : String := ((match repo with | .director => ToyGen.then1.director | .image => ToyGen.then1.image).files.lookup p).getD ""

def bundle : Ip.Bundle := ⟨doc .director .root, doc .director .targets, doc .image .root, doc .image .timestamp, doc .image .snapshot, doc .image .targets⟩

def image : Bytes := [102, 105, 114, 109, 119, 97, 114, 101]

def s0 : SecId.State := SecId.Case.factory

def sent : Except Err InstResult × Ip.St := Ip.putMetadata (peer around fates s0) (some bundle) {}
def st1 : Ip.St := sent.2
def r1 : InstResult := match sent.1 with | .ok r => r | .error _ => .ofCode .unknown ""
def s1 : SecId.State := match after around fates s0 0 st1.asked with | .ok s => s | .error _ => {}
def tgt : Target := s1.core.pending.getD { filename := "" }

/-- What is computed: metadata were accepted, the Secondary has a target for which the image is right. -/
def facts : Bool :=
  (match sent.1 with | .ok _ => true | .error _ => false) && r1.success && (match after around fates s0 0 st1.asked with | .ok _ => true | .error _ => false) &&
  s1.core.pending.isSome && decide (s1.core.newtarget.getD [] = [] ∧ st1.asked.length = 2 ∧ tgt.length = image.length) &&
  match tgt.hashes with
  | x :: _ => decide (x.type ≠ .unknown ∧ x.hash = upper (around.hashing.digest x.type image) ∧ tgt.filename = "app")
  | [] => false

theorem facts_ok : facts = true := by decide +kernel

theorem facts_all : (∃ r, sent.1 = .ok r) ∧ r1.success = true ∧ (∃ s, after around fates s0 0 st1.asked = .ok s) ∧ s1.core.pending = some tgt ∧
    s1.core.newtarget.getD [] = [] ∧ st1.asked.length = 2 ∧ tgt.length = image.length ∧
    ∃ x l, tgt.hashes = x :: l ∧ x.type ≠ .unknown ∧ x.hash = upper (around.hashing.digest x.type image) ∧ tgt.filename = "app" := by
  have h := facts_ok
  simp only [facts, Bool.and_eq_true, decide_eq_true_eq] at h
  obtain ⟨⟨⟨⟨⟨h1, h2⟩, h3⟩, h4⟩, h5, h6, h7⟩, h8⟩ := h
  refine ⟨?_, h2, ?_, ?_, h5, h6, h7, ?_⟩
  · cases hs : sent.1 with
    | ok r => exact ⟨r, rfl⟩
    | error e => rw [hs] at h1; cases h1
  · cases hs : after around fates s0 0 st1.asked with
    | ok s => exact ⟨s, rfl⟩
    | error e => rw [hs] at h3; cases h3
  · unfold tgt
    cases hs : s1.core.pending with
    | none => rw [hs] at h4; cases h4
    | some t => rfl
  · cases hs : tgt.hashes with
    | nil => rw [hs] at h8; cases h8
    | cons x l =>
      rw [hs] at h8
      simp only [decide_eq_true_eq] at h8
      exact ⟨x, l, rfl, h8⟩

theorem calm (k : Nat) (h : 1 ≤ k) : Calm (fates k) :=
  ⟨if_neg (by omega), rfl, rfl, fun _ => rfl, rfl, by simp [fates]⟩

theorem history_power (r : Req) (rs : List Req) : ∃ more, history fates 0 (r :: rs) = [power] ++ more ∧ ∀ o ∈ more, ∀ c k f, o ≠ .start c k f := by
  refine ⟨(operation (fates 0) r).toList ++ history fates 1 rs, rfl, fun o ho c k f => ?_⟩
  rcases List.mem_append.1 ho with ho | ho
  · rintro rfl
    cases r <;> simp [operation] at ho
  · exact history_calm 1 rs calm o ho c k f

end Case

open Case

/-- The hypotheses of `C77_round` (and of `C77_metadata`, `C77_update`, `C77_heard`, `C77_told`) are met: the Secondary is started, told metadata of the
repository generator, sent the image, and asked. -/
example : ∃ n q1 st2 q2 st3 text st4, Ip.sendFirmware (peer around fates s0) n ⟨[], some image⟩ { filename := "app", length := 8 } st1 = some (.ok q1, st2) ∧ q1.success = true ∧
    Ip.install (peer around fates s0) { filename := "app", length := 8 } st2 = (.ok q2, st3) ∧ q2.success = true ∧
    Ip.getManifest (peer around fates s0) st3 = (.ok (some text), st4) ∧
    EcuManifest ToyGen.env (ToyGen.env.parseJson text) ⟨"key", .ed25519⟩ "e1" ⟨"app", 8, around.hashing.digest .sha256 image⟩ none := by
  obtain ⟨⟨r, h1⟩, h2, ⟨s, h3⟩, h4, h5, h6, h7, x, l, h8, h9, h10, h11⟩ := facts_all
  have hr : r1 = r := by unfold r1; rw [h1]
  have hs : s1 = s := by unfold s1; rw [h3]
  have e : Ip.putMetadata (peer around fates s0) (some bundle) {} = (.ok r1, st1) := by
    rw [hr, ← h1]
    rfl
  obtain ⟨more, hh, hm⟩ : ∃ more, history fates 0 st1.asked = [power] ++ more ∧ ∀ o ∈ more, ∀ c k f, o ≠ SecId.Op.start c k f := by
    cases ha : st1.asked with
    | nil => rw [ha] at h6; cases h6
    | cons r rs => exact history_power r rs
  have hty : SecId.OneType (history fates 0 st1.asked) .ed25519 := by
    intro c k f hmem
    rw [hh] at hmem
    rcases List.mem_append.1 hmem with hmem | hmem
    · simp only [power, List.mem_singleton, SecId.Op.start.injEq] at hmem
      rw [hmem.1]
      rfl
    · exact absurd rfl (hm _ hmem c k f)
  have := C77_round (a := around) (cred := []) (t := { filename := "app", length := 8 }) e h2 (by rw [hs]; exact h3) h4 h5 (fun k hk => calm k (by omega)) rfl (by rw [h7]; rfl) (by decide)
    h7.symm h8 h9 h10 SecId.Case.factory_new ToyGen.sound (ty := .ed25519) (fun _ _ _ => ToyGen.works _ _) hty (fun _ _ _ => ⟨by decide, by simp⟩) (by decide)
    (ops := [power]) (more := more) (name := "e1") (hwid := "h1") (key := ⟨"key", .ed25519⟩) (SecId.says_of (by decide +kernel)) hh
  rw [h11] at this
  exact this

/-! ### Another world, with the toy metadata -/

namespace Case

def other : SecId.Around := SecId.Case.withMeta

/-- Metadata in which both repositories agree on `fw`, content "abc". -/
def agreed : Ip.Bundle := ⟨"dr1", "dt1", "ir1", "its1", "isn1", "it1"⟩

def fw : Target := { filename := "fw", length := 3 }

/-- The Secondary is started before request 0 and before those in `starts`; the answers in `lost` are lost. -/
def world (starts lost : List Nat) (n : Nat) : Fate :=
  { before := if n = 0 ∨ n ∈ starts then [.start cfg SecId.Case.clock 100] else [], returns := !lost.contains n, clock := SecId.Case.clock, fuel := 100 }

/-- What a Primary does, and what it is told: whether it was a success. -/
inductive Do where
  | tell | send | install
  deriving DecidableEq

def act (p : Ip.Peer) (st : Ip.St) : Do → Option Bool × Ip.St
  | .tell => match Ip.putMetadata p (some agreed) st with
    | (.ok r, st) => (some r.success, st)
    | (.error _, st) => (none, st)
  | .send => match Ip.sendFirmware p 2 ⟨[], some [97, 98, 99]⟩ fw st with
    | some (.ok r, st) => (some r.success, st)
    | some (.error _, st) => (none, st)
    | none => (none, st)
  | .install => match Ip.install p fw st with
    | (.ok r, st) => (some r.success, st)
    | (.error _, st) => (none, st)

def acts (p : Ip.Peer) (st : Ip.St) : List Do → List (Option Bool) × Ip.St
  | [] => ([], st)
  | d :: ds => let q := act p st d; let r := acts p q.2 ds; (q.1 :: r.1, r.2)

/-- The outcomes, and the image and the upload the Secondary has in the end. -/
def tried (starts lost : List Nat) (ds : List Do) : Option (List (Option Bool) × Option Bytes × Option Bytes) :=
  let q := acts (peer other (world starts lost) {}) {} ds
  match after other (world starts lost) {} 0 q.2.asked with
  | .ok s => some (q.1, s.core.firmware, s.core.newtarget)
  | .error _ => none

end Case

/-- An update goes through here too. -/
example : tried [] [] [.tell, .send, .install] = some ([some true, some true, some true], some [97, 98, 99], none) := by decide +kernel

namespace Case

def life : List SecId.Op := [.start cfg SecId.Case.clock 100, .putMeta Sec.agreed SecId.Case.clock 100, .upload { kept := 3 } [97, 98, 99], .install true 100]

/-- Length and hashes of the target the Secondary has. -/
def pending (ops : List SecId.Op) : Option (Nat × List Hash) :=
  match SecId.run other {} ops with
  | .ok s => s.core.pending.map (fun t => (t.length, t.hashes))
  | .error _ => none

theorem pendings : ∀ k ≤ 4, pending (life.take k) = none ∨ pending (life.take k) = some (3, [⟨.sha256, "ABC"⟩]) := by decide +kernel

theorem binding {t : Target} (h1 : t.length = 3) (h2 : t.hashes = [⟨.sha256, "ABC"⟩]) : Sec.Binding other.hashing t := by
  constructor
  · intro x h hm he
    rw [h2, List.mem_singleton] at hm
    subst hm
    have := congrArg (fun s => s.toList.length) he
    simp only [upper, other, SecId.Case.withMeta, SecId.Case.toy, Sec.toyHashing, String.toList_ofList, List.length_map] at this
    rw [h1]
    exact this.symm
  · intro p h hm he
    rw [h2, List.mem_singleton] at hm
    subst hm
    revert he
    simp only [other, SecId.Case.withMeta, SecId.Case.toy, Sec.toyHashing]
    decide

end Case

/-- The hypotheses of `C77_installed` are met: in this life of the Secondary, no target has a bad hash, no upload loses data. -/
example : SecId.New {} ∧ Bound other {} life ∧ (∀ o ∈ life, ¬ Loses o) ∧ SecId.AllSuit other life := by
  refine ⟨⟨rfl, rfl, rfl⟩, ?_, ?_, ?_⟩
  · intro pre s t hp hr ht
    have e : pre = life.take pre.length := List.prefix_iff_eq_take.1 hp
    have hk : pre.length ≤ 4 := hp.length_le
    have := pendings pre.length hk
    rw [← e] at this
    unfold pending at this
    rw [hr] at this
    simp only [ht, Option.map_some, reduceCtorEq, false_or, Option.some.injEq, Prod.mk.injEq] at this
    exact binding this.1 this.2
  · simp [life, Loses]
  · intro c1 _ _ c2 _ _ n k h _ _
    simp only [life, List.mem_cons, SecId.Op.start.injEq, List.not_mem_nil, or_false, reduceCtorEq] at h
    obtain ⟨rfl, -⟩ := h
    exact ⟨by decide, by simp [cfg]⟩

/-- … and this is that life: the one of the update above. -/
example : history (world [] []) 0 (acts (peer other (world [] []) {}) {} [.tell, .send, .install]).2.asked = life := by
  have : (acts (peer other (world [] []) {}) {} [.tell, .send, .install]).2.asked =
      [.version 2, .putMeta2 Sec.agreed.director Sec.agreed.image, .uploadData [97, 98, 99], .install "fw"] := by decide +kernel
  rw [this]
  rfl

/-- **A failure that is reported need not be one**: the answer to the request to install is lost. The Primary reports a failed
installation, but the image is installed. -/
theorem C77_lost_answer : tried [] [3] [.tell, .send, .install] = some ([some true, some true, some false], some [97, 98, 99], none) := by decide +kernel

/-- **One lost answer ends all updates**: the answer to the last chunk of an upload is lost. From then on the Primary cannot send this
image, though nothing is lost any more and the Secondary is started again (before request 5): see `C77_stuck`. -/
theorem C77_lost_chunk : tried [5] [2] [.tell, .send, .tell, .send, .tell, .send] =
    some ([some true, some false, some true, some false, some true, some false], none, some [97, 98, 99]) := by decide +kernel

end Pair

end Aktualizr
