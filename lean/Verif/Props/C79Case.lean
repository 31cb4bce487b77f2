import Verif.Props.C79Prov
import Verif.Props.C79Secrets
import Verif.Props.C15

/-! # C79: cases, and where the program falls short -/

namespace Aktualizr.Info

open M

namespace Case

def t1 : Target := { filename := "fw-1", length := 1, hashes := [Hash.mk' .sha256 "aa"] }
def t2 : Target := { filename := "fw-2", length := 2, hashes := [Hash.mk' .sha256 "cc"] }
def lamp : Target := { filename := "lamp-1", length := 1, hashes := [Hash.mk' .sha256 "bb"] }

/-- A Primary with a Secondary; an update of the Primary is waiting for a reboot. -/
def versions : VersionDb := Aktualizr.Spec.recordAll (Toy.env []) { ecus := [⟨"p", "board", true⟩, ⟨"s", "lamp", false⟩] }
  [⟨"p", t1, .current⟩, ⟨"s", lamp, .current⟩, ⟨"p", t2, .pending⟩]

def device : Db where
  device := some ("blue-fox", true)
  ca := some "ca"
  cert := some "cert"
  pkey := some "tls secret"
  keys := some ("pub", "ecu secret")
  versions := versions
  metadata := { rows := [⟨.director, .root, 1, "root 1"⟩, ⟨.director, .root, 2, "root 2"⟩, ⟨.director, .targets, -1, "targets"⟩] }
  misconfigured := [("old", "lamp", true)]

def quiet (d : Db) : Around := { env := Toy.env [], db := fun _ => d, opens := fun _ => true }

def before : Db := { device with device := some ("blue-fox", false), versions := {}, metadata := {} }

/-- Aktualizr provisions the device while the program runs. -/
def moving (n : Nat) : Around := { quiet device with db := fun t => if t < n then before else device, opens := fun t => decide (2 ≤ t) }

/-- The whole report (C79_report, C79_true). -/
theorem report : (main (quiet device) {} 0 {}).1 = .ok () ∧ (main (quiet device) {} 0 {}).2.out =
    ["Device ID: blue-fox", "Primary ECU serial ID: p", "Primary ECU hardware ID: board", "Secondaries:", "1) serial ID: s",
     "   hardware ID: lamp", "   installed image hash: bb", "   installed image filename: lamp-1",
     "Removed or unregistered ECUs (deprecated):", "   'old' with hardware_id 'lamp' has been removed from config",
     "Provisioned on server: yes", "Fetched metadata: yes", "Current Primary ECU running version: aa", "Pending Primary ECU version: cc"] := by
  decide +kernel

theorem paired {α β : Type} {x : α × β} {a : α} (h : x.1 = a) : x = (a, x.2) := by
  rw [← h]

example : Spec.Report (quiet device) device "blue-fox" true (main (quiet device) {} 0 {}).2.out :=
  C79_report (quiet device) device {} 0 "blue-fox" true _ (fun _ => rfl) rfl rfl (fun _ _ => rfl) (paired report.1)

/-- Several options at once (C79_answers). -/
example : (main (quiet device) ⟨["director-root", "tls-creds", "image-root"]⟩ 0 {}).2.out =
    ["Root CA certificate:", "ca", "Client certificate:", "cert", "Client private key:", "tls secret", "", "root 2"] := by
  decide +kernel

example : ∃ answers t, (∀ g ∈ Spec.groups.zip answers, ∀ n ∈ g.1, Spec.Answer device n g.2) ∧ answers.length = Spec.groups.length ∧
    main (quiet device) ⟨["director-root", "tls-creds", "image-root"]⟩ 0 {} = (.ok (), ⟨(Spec.groups.zip answers).flatMap
      (fun g => if g.1.any (Options.has ⟨["director-root", "tls-creds", "image-root"]⟩) = true then g.2 else []), t⟩) :=
  C79_answers (quiet device) device _ 0 (fun _ => rfl) rfl (by decide +kernel) (by decide +kernel) (by decide +kernel) (by decide +kernel)
    ⟨["director-root"], by decide +kernel, "director-root", by decide +kernel, by decide +kernel⟩

/-- The same output for other private keys (C79_secrets). -/
example : main (quiet device) ⟨["ecu-pub-key", "tls-cert"]⟩ 0 = main { quiet device with
    db := fun _ => { device with pkey := some "other", keys := some ("pub", "another") } } ⟨["ecu-pub-key", "tls-cert"]⟩ 0 :=
  C79_secrets (quiet device) _ ⟨["ecu-pub-key", "tls-cert"]⟩ 0 (fun _ => ⟨rfl, rfl, rfl, rfl, rfl, rfl, by show device.pkey.map _ = _; decide +kernel, by show device.keys.map _ = _; decide +kernel⟩)
    (by decide +kernel)

/-- It waits until the storage can be opened and the device is provisioned, at moment 9 (C79_wait, C79_wait_ends). -/
example : main (moving 9) ⟨["name-only", "wait-until-provisioned"]⟩ 99 {} = (.ok (), ⟨["blue-fox"], 12⟩) := by decide +kernel

example : ∃ i t, ((moving 9).db t).device = some (i, true) ∧
    main (moving 9) ⟨["name-only", "wait-until-provisioned"]⟩ 11 {} = (.ok (), ⟨[i], t + 1⟩) := by
  have hb : ∀ t, t < 9 → (moving 9).db t = before := fun t ht => if_pos ht
  have ha : ∀ t, ¬t < 9 → (moving 9).db t = device := fun t ht => if_neg ht
  refine C79_wait_ends (moving 9) _ 9 11 (by decide +kernel) (by decide +kernel) (fun t r hr => ?_) (fun t ht => ?_) (fun t i hi t' ht => ?_) (by omega)
  · by_cases h : t < 9
    · rw [hb t h] at hr
      cases hr
    · rw [ha t h] at hr
      exact (show ∀ r ∈ device.metadata.rows, r.data ≠ "" by decide +kernel) r hr
  · rw [ha t (by omega)]
    exact ⟨decide_eq_true (by omega), ⟨"blue-fox", rfl⟩, "root 2", ⟨.director, .root, 2, "root 2"⟩, by decide +kernel, rfl, rfl, rfl, by decide +kernel⟩
  · by_cases h : t < 9
    · rw [hb t h] at hi
      exact absurd hi (by simp [before])
    · rw [ha t h] at hi
      rw [ha t' (by omega)]
      exact hi

/-- A start of aktualizr that succeeds, on an empty storage (C79_provisioned). -/
example : (Prov.run Prov.Case.toy Prov.Case.easy (Prov.Case.go 99) {} ()).1 = .ok () ∧
    (Prov.run Prov.Case.toy Prov.Case.easy (Prov.Case.go 99) {} ()).2.store.device = some ("blue-fox", true) := by decide +kernel

/-- What one that dies just before the registration is noted leaves. -/
def died : Prov.Store := (Prov.run Prov.Case.toy Prov.Case.easy (Prov.Case.go 9) {} ()).2.store

theorem died_left : died.keys = some ("pub", "priv") ∧ died.ecus ≠ [] ∧
    died.ecus = Prov.configured Prov.Case.toy Prov.Case.cfg [Prov.Case.sec] "pub" ∧ died.device = some ("blue-fox", false) := by decide +kernel

/-- Then the program waits in vain (C79_never_provisioned). -/
example : ∀ (a : Around) (attempts : Nat), (∀ m, (a.db m).device = some ("blue-fox", false)) →
    (main a ⟨["wait-until-provisioned"]⟩ attempts {}).2.out = [] ∧ (main a ⟨["wait-until-provisioned"]⟩ attempts {}).1 ≠ .ok () := by
  intro a attempts h
  have hd := died_left
  generalize died = t at hd
  obtain ⟨h1, h2, h3, h4⟩ := hd
  exact C79_never_provisioned Prov.Case.toy Prov.Case.easy Prov.Case.cfg [Prov.Case.sec] t () ("pub", "priv") "blue-fox" h1 h2
    (fun e => by rw [h3]) h4 a _ attempts (by decide +kernel) (fun m => ⟨[], by simp, (h m).trans h4.symm⟩)

end Case

/-- C79 fails here: `--name-only` on a device without an identity prints the report, and that is a success. -/
theorem C79_name_only_misled : ∃ (a : Around), (∀ t, (a.db t).device = none) ∧ (main a ⟨["name-only"]⟩ 0 {}).1 = .ok () ∧
    (main a ⟨["name-only"]⟩ 0 {}).2.out = ["Couldn't load device ID", "Couldn't load ECU serials", "Provisioned on server: no",
      "Fetched metadata: no", "No currently running version on Primary ECU"] :=
  ⟨Case.quiet {}, fun _ => rfl, by decide +kernel, by decide +kernel⟩

/-- C79 fails here: `--ecu-pub-key` is answered alone, the options after it are dropped. -/
theorem C79_pub_key_alone : ∃ (a : Around) (d : Db), (∀ t, a.db t = d) ∧ Spec.Newest d .director .root "root 2" ∧
    (main a ⟨["ecu-pub-key", "director-root"]⟩ 0 {}).1 = .ok () ∧
    (main a ⟨["ecu-pub-key", "director-root"]⟩ 0 {}).2.out = ["pub"] :=
  ⟨Case.quiet Case.device, Case.device, fun _ => rfl, ⟨⟨.director, .root, 2, "root 2"⟩, by decide +kernel, rfl, rfl, rfl, by decide +kernel⟩,
    by decide +kernel, by decide +kernel⟩

/-- C79 fails here: what the report is made of is read at different moments. The lines printed are true together at no moment: the
device has ECUs only after it is registered. -/
theorem C79_torn : ∃ (a : Around), (∀ t, (a.db t).versions.ecus ≠ [] → ∃ i, (a.db t).device = some (i, true)) ∧ (main a {} 0 {}).1 = .ok () ∧
    "Primary ECU serial ID: p" ∈ (main a {} 0 {}).2.out ∧ "Provisioned on server: no" ∈ (main a {} 0 {}).2.out := by
  refine ⟨{ Case.moving 4 with opens := fun _ => true }, fun t h => ?_, by decide +kernel, by decide +kernel, by decide +kernel⟩
  by_cases ht : t < 4
  · exfalso
    apply h
    show (if t < 4 then Case.before else Case.device).versions.ecus = []
    rw [if_pos ht]
    rfl
  · refine ⟨"blue-fox", ?_⟩
    show (if t < 4 then Case.before else Case.device).device = _
    rw [if_neg ht]
    rfl

/-- C79 fails here: a delegation that cannot be read hides all the others, and the exit status does not tell. -/
theorem C79_delegations_hidden : ∃ (a : Around) (d : Db), (∀ t, a.db t = d) ∧ ("mine", "doc") ∈ d.metadata.delegations ∧
    (main a ⟨["delegation"]⟩ 0 {}).1 = .ok () ∧ (main a ⟨["delegation"]⟩ 0 {}).2.out = ["Failed to load delegations"] :=
  ⟨Case.quiet { Case.device with metadata := { Case.device.metadata with delegations := [("mine", "doc"), ("root", "doc")] } }, _,
    fun _ => rfl, by decide +kernel, by decide +kernel, by decide +kernel⟩

/-- C79 fails here: without a booted OSTree deployment the program fails, in the middle of a report that does not say why. -/
theorem C79_not_booted : ∃ (a : Around), (main a {} 0 {}).1 = .error (.std "Could not get booted deployment") ∧
    (main a {} 0 {}).2.out.getLast? = some "Fetched metadata: yes" ∧ (∀ t, ∃ v, (a.db t).versions.loadPending a.env "" = .ok (some v)) := by
  refine ⟨{ Case.quiet Case.device with pacman := .ostree (some none) }, by decide +kernel, by decide +kernel, fun t => ?_⟩
  have : ((Case.device.versions.loadPending (Toy.env []) "").map (·.isSome)) = .ok true := by decide +kernel
  show ∃ v, Case.device.versions.loadPending (Toy.env []) "" = .ok (some v)
  cases h : Case.device.versions.loadPending (Toy.env []) "" with
  | error e => rw [h] at this; cases this
  | ok v =>
    cases v with
    | none => rw [h] at this; cases this
    | some v => exact ⟨v, rfl⟩

end Aktualizr.Info
