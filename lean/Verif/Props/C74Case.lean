import Verif.Props.C74Done
import Verif.Spec.ToyRepo

/-!
# C74: concrete OSTree Secondaries
-/

namespace Aktualizr.SecOst

open M Spec

/-- The documents of the toy repositories, and one Director that gives its target no SHA-256 hash. -/
def toyEnv : Env := Toy.env (
  [("dt7", Toy.doc "dt7" (Toy.targetsBody 7 [("os", .obj [("custom", .obj (Toy.forEcus [("e2", "h1")])), ("length", .int 0),
      ("hashes", .obj [("sha512", .str "abf")])])]) Toy.dk),
   ("its10", Toy.doc "its10" (Toy.timestampBody 10 "isn10" 10) Toy.ik),
   ("isn10", Toy.doc "isn10" (Toy.snapshotBody 10 [("targets.json", "it10", 10)]) Toy.ik),
   ("it10", Toy.doc "it10" (Toy.targetsBody 10 [("os", .obj [("custom", .obj (Toy.forHw ["h1"])), ("length", .int 0),
      ("hashes", .obj [("sha512", .str "abf")])])]) Toy.ik)] ++ Toy.docs)

/-- A Secondary just out of the factory, running the commit "OLD". -/
def toyState : State where
  core := { serial := "e2", hwid := "h1" }
  board := { v := { ecus := [⟨"e2", "h1", true⟩] }, primary := "e2", booted := some "OLD", next := some "OLD" }
  repo := ["OLD"]

def boot (fuel : Nat := 100) : Op := .start true (Toy.clock "2026-01-01T00:00:00Z") fuel
def send (m : Sec.PutMeta) : Op := .putMeta m (Toy.clock "2026-01-01T00:00:00Z") 100

/-- Metadata in which both repositories agree on the commit "ABF". -/
def agreed : Sec.PutMeta where
  director := [("root", "dr1"), ("targets", "dt6")]
  image := [("root", "ir1"), ("timestamp", "its9"), ("snapshot", "isn9"), ("targets", "it9")]

/-- … on a target without a SHA-256 hash. -/
def without256 : Sec.PutMeta where
  director := [("root", "dr1"), ("targets", "dt7")]
  image := [("root", "ir1"), ("timestamp", "its10"), ("snapshot", "isn10"), ("targets", "it10")]

/-- Metadata in which only the Director knows the commit. -/
def onlyDirector : Sec.PutMeta where
  director := [("root", "dr1"), ("targets", "dt6")]
  image := [("root", "ir1"), ("timestamp", "its1"), ("snapshot", "isn1"), ("targets", "it1")]

/-- The archive of a Primary. -/
def archive (pkey : String := "K") : Option (List Entry) :=
  some [⟨"ca.pem", "CA", true⟩, ⟨"client.pem", "C", true⟩, ⟨"pkey.pem", pkey, true⟩, ⟨"server.url", " https://t\n", true⟩]

inductive Shown where
  | metadata (a : Sec.Answer)
  | result (code : Nat)
  | started
  | nothing
  deriving DecidableEq

def show1 : Option Reply → Shown
  | some (.metadata a) => .metadata a
  | some (.result r) => .result r.code.num.toNat
  | some .started => .started
  | none => .nothing

/-- Replies and the final state. -/
def history (s : State) : List Op → Except String (List Shown × State)
  | [] => .ok ([], s)
  | o :: os => do
    let r ← step toyEnv s o
    let q ← history r.2 os
    pure (show1 r.1 :: q.1, q.2)

/-- What an observer sees at the end. -/
structure Seen where
  answers : List Shown
  /-- What boots next. -/
  next : Option String
  repo : List String
  pulls : List Pull
  /-- Name, hash, current, pending. -/
  rows : List (String × String × Bool × Bool)
  manifest : Option (String × String)
  deriving DecidableEq

def seen (ops : List Op) : Option Seen :=
  match history toyState ops with
  | .ok (as, s) => some ⟨as, s.board.next, s.repo, s.pulls,
      s.board.v.rows.map (fun r => (r.name, r.sha256, r.isCurrent, r.isPending)), installedImage toyEnv "h1" s⟩
  | .error _ => none

/-- The pull of the commit from the server, with the credentials, in the archive. -/
def pulled (pkey : String := "K") : Pull := ⟨"https://t", some ⟨"CA", "C", pkey⟩, "abf"⟩

/-- Not vacuous: `C74_deploys_authorised`, `C74_fetches_authorised`, `C74_completes`, `C74_manifest`: metadata, download,
installation, restart of the machine, start. -/
example : seen [boot, send agreed, .download {} archive, .install true {} 10] =
      some ⟨[.started, .metadata .ok, .result 0, .result 21], some "abf", ["OLD", "abf"], [pulled], [("os", "abf", false, true)],
        some ("h1-OLD", "OLD")⟩ ∧
    seen [boot, send agreed, .download {} archive, .install true {} 10, .reboot (some "abf"), boot] =
      some ⟨[.started, .metadata .ok, .result 0, .result 21, .nothing, .started], some "abf", ["OLD", "abf"], [pulled],
        [("os", "abf", true, false)], some ("os", "abf")⟩ := by decide +kernel

/-- Not vacuous: `C74_rolled_back`. -/
example : seen [boot, send agreed, .download {} archive, .install true {} 10, .reboot (some "OLD"), boot] =
      some ⟨[.started, .metadata .ok, .result 0, .result 21, .nothing, .started], some "abf", ["OLD", "abf"], [pulled],
        [("os", "abf", false, false)], some ("h1-OLD", "OLD")⟩ := by decide +kernel

/-- A check of the pending targets along a history. -/
def checkAlong (f : Target → Bool) (s : State) : List Op → Bool
  | [] => s.core.pending.all f
  | o :: os => s.core.pending.all f && (match step toyEnv s o with
    | .ok r => checkAlong f r.2 os
    | .error _ => true)

theorem checkAlong_hashed {f : Target → Bool} (hf : ∀ t, f t = true → WellHashed t) :
    ∀ (ops : List Op) {s : State}, checkAlong f s ops = true → PendingHashed toyEnv s ops
  | ops, s, h, [], after, s1, t, e, hr, hp => by
    simp only [run, Except.ok.injEq] at hr
    subst hr
    have : s.core.pending.all f = true := by
      cases ops with
      | nil => exact h
      | cons o os => simp only [checkAlong, Bool.and_eq_true] at h; exact h.1
    rw [hp] at this
    exact hf t this
  | [], s, h, o :: os, after, s1, t, e, hr, hp => by simp at e
  | o' :: ops, s, h, o :: os, after, s1, t, e, hr, hp => by
    simp only [List.cons_append, List.cons.injEq] at e
    obtain ⟨rfl, rfl⟩ := e
    simp only [checkAlong, Bool.and_eq_true] at h
    simp only [run, bind, Except.bind] at hr
    cases hs : step toyEnv s o' with
    | error e => rw [hs] at hr; cases hr
    | ok r =>
      rw [hs] at h hr
      exact checkAlong_hashed hf _ h.2 os after s1 t rfl hr hp

/-- Not vacuous: the hypotheses about the device, the starts and the hashes. -/
example : FactoryBoard toyState.board ∧ toyState.board.v.realSerial "" = toyState.board.primary ∧
    StartsSupported [boot, send agreed, .download {} archive, .install true {} 10, .reboot (some "abf"), boot] ∧
    PendingHashed toyEnv toyState [boot, send agreed, .download {} archive, .install true {} 10, .reboot (some "abf"), boot] := by
  refine ⟨⟨rfl, rfl, by decide, rfl⟩, by decide, ?_, ?_⟩
  · intro b c f hm
    simp only [boot, send, List.mem_cons, List.not_mem_nil, or_false] at hm
    rcases hm with hm | hm | hm | hm | hm | hm <;> cases hm <;> rfl
  · refine checkAlong_hashed (f := fun t => t.hashes == [⟨.sha256, "ABF"⟩]) (fun t ht => ?_) _ (by decide +kernel)
    simp only [beq_iff_eq] at ht
    unfold WellHashed
    rw [ht]
    exact ⟨fun x hx => by rw [List.mem_singleton.1 hx]; unfold Storable; decide, ⟨_, List.mem_singleton.2 rfl, rfl⟩, by decide⟩

/-- A version that was rolled back is deployed again on request, without new metadata: the start takes the pending
target from the stored metadata before it decides about the version, and keeps it when it drops that metadata. -/
theorem C74_deployed_again :
    seen [boot, send agreed, .download {} archive, .install true {} 10, .reboot (some "OLD"), boot, .install true {} 10] =
      some ⟨[.started, .metadata .ok, .result 0, .result 21, .nothing, .started, .result 21], some "abf", ["OLD", "abf"], [pulled],
        [("os", "abf", false, true)], some ("h1-OLD", "OLD")⟩ := by decide +kernel

/-- A process that dies between the deployment and the record: the new version boots, is reported under a made-up
name, and is never recorded. -/
theorem C74_crash_unrecorded :
    seen [boot, send agreed, .download {} archive, .install true {} 3, .reboot (some "abf"), boot] =
      some ⟨[.started, .metadata .ok, .result 0, .nothing, .nothing, .started], some "abf", ["OLD", "abf"], [pulled],
        [], some ("h1-abf", "abf")⟩ := by decide +kernel

/-- A target without a SHA-256 hash: the download is answered with success and nothing is fetched; the installation
fails. -/
theorem C74_without_sha256 :
    seen [boot, send without256, .download {} archive, .install true {} 10] =
      some ⟨[.started, .metadata .ok, .result 1, .result 4], some "OLD", ["OLD"], [], [], some ("h1-OLD", "OLD")⟩ := by decide +kernel

/-- An archive with an empty key: the commit is fetched with the key of an earlier archive … -/
theorem C74_mixed_keys :
    (seen [boot, send agreed, .download { pulls := false } archive, send agreed, .download {} (archive "")]).map (·.pulls) =
      some [pulled, pulled] := by decide +kernel

/-- … and if there was none, without any credentials. -/
theorem C74_without_keys :
    (seen [boot, send agreed, .download {} (archive "")]).map (fun x => (x.answers, x.pulls)) =
      some ([.started, .metadata .ok, .result 0], [⟨"https://t", none, "abf"⟩]) := by decide +kernel

/-- As with the file Secondary, a restart takes the target from Director metadata that was refused. -/
theorem C74_restart_skips_image_repository :
    (seen [boot, send onlyDirector, boot, .download {} archive, .install true {} 10]).map (fun x => (x.answers, x.next)) =
      some ([.started, .metadata .verificationFailed, .started, .result 0, .result 21], some "abf") := by decide +kernel

end Aktualizr.SecOst
