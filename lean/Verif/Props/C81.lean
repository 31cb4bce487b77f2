import Verif.Lemmas.Monad
import Verif.Model.Get
import Verif.Props.C44

/-!
# C81: aktualizr-get prints the answer of the server to a request with the credentials of the device, and does no harm

For every storage, files to import, server and point at which the program is killed.
-/

namespace Aktualizr.Get

open M Http

/-! ## Specification -/

namespace Spec

/-- Attempt number `k`, the last one made, ended as `t`: every earlier one broke off or was answered with an error of the server. -/
structure Decides (ts : List Transfer) (k : Nat) (t : Transfer) : Prop where
  within : k ≤ 2
  is : ts[k]? = some t
  failed : ∀ j u, j < k → ts[j]? = some u → u.curlOk = false ∨ 500 ≤ u.status

/-- The credentials a device has: all three parts, or none. -/
def Own (t : Prov.Store) (c : Prov.Creds) : Prop :=
  (∃ a b k, a ≠ "" ∧ b ≠ "" ∧ k ≠ "" ∧ t.ca = some a ∧ t.cert = some b ∧ t.pkey = some k ∧ c = .device a b k) ∨
  (c = .none ∧ (t.ca.getD "" = "" ∨ t.cert.getD "" = "" ∨ t.pkey.getD "" = ""))

end Spec

/-! ## The transfer -/

theorem attempt_unlimited (t : Transfer) : attempt kNoLimit t = ⟨t.chunks.flatten, t.curlOk, t.status⟩ := by
  obtain ⟨-, h2, -, h4⟩ := writeString_spec (limit := kNoLimit) t.chunks []
  have h := h4 (.inl (by decide))
  have hb := h2 h
  unfold attempt
  dsimp only
  rw [h, hb]
  simp

theorem perform_decides : ∀ (n : Nat) (ts : List Transfer) (r : Response), perform kNoLimit n ts = some r →
    ∃ k t, k ≤ n ∧ ts[k]? = some t ∧ r = ⟨t.chunks.flatten, t.curlOk, t.status⟩ ∧
      (∀ j u, j < k → ts[j]? = some u → u.curlOk = false ∨ 500 ≤ u.status) ∧ (k < n → t.curlOk = true ∧ t.status < 500)
  | _, [], r, h => by simp [perform] at h
  | n, t :: ts, r, h => by
    unfold perform at h
    simp only [attempt_unlimited] at h
    split at h
    · rename_i hf
      cases n with
      | zero =>
        simp only [Option.some.injEq] at h
        exact ⟨0, t, Nat.le_refl _, rfl, h.symm, fun _ _ hj => absurd hj (Nat.not_lt_zero _), fun h => absurd h (Nat.lt_irrefl _)⟩
      | succ n =>
        obtain ⟨k, u, hk, hu, hr, hj, hn⟩ := perform_decides n ts r h
        refine ⟨k + 1, u, by omega, by simpa using hu, hr, ?_, fun h => hn (by omega)⟩
        intro j v hjk hv
        cases j with
        | zero =>
          simp only [List.getElem?_cons_zero, Option.some.injEq] at hv
          subst hv
          simpa using hf
        | succ j => exact hj j v (by omega) (by simpa using hv)
    · rename_i hf
      simp only [Option.some.injEq] at h
      refine ⟨0, t, Nat.zero_le _, rfl, h.symm, fun _ _ hj => absurd hj (Nat.not_lt_zero _), fun _ => ?_⟩
      simpa using hf

theorem perform_done : ∀ (n : Nat) (ts : List Transfer) (k : Nat) (t : Transfer), k ≤ n → ts[k]? = some t →
    (∀ j u, j < k → ts[j]? = some u → u.curlOk = false ∨ 500 ≤ u.status) → t.curlOk = true → t.status < 500 →
    perform kNoLimit n ts = some ⟨t.chunks.flatten, t.curlOk, t.status⟩
  | _, [], k, t, _, h, _, _, _ => by simp at h
  | n, v :: ts, k, t, hk, h, hf, ho, hs => by
    unfold perform
    simp only [attempt_unlimited]
    cases k with
    | zero =>
      simp only [List.getElem?_cons_zero, Option.some.injEq] at h
      subst h
      have : ¬ (v.status ≥ 500) := by omega
      simp [ho, this]
    | succ k =>
      have h0 := hf 0 v (by omega) rfl
      have : (!v.curlOk || decide (v.status ≥ 500)) = true := by simpa using h0
      rw [if_pos this]
      cases n with
      | zero => omega
      | succ n =>
        exact perform_done n ts k t (by omega) (by simpa using h)
          (fun j u hj hu => hf (j + 1) u (by omega) (by simpa using hu)) ho hs

/-! ## Importing -/

/-- A step of the import: it has nothing to do, throws, or writes once. -/
abbrev Step := Prov.Store → Option (Except Err Prov.Store)

def Step.run {σ : Type} (a : Step) : Prov.P σ Unit := fun s =>
  match a s.store with
  | none => (.ok (), s)
  | some (.error e) => (.error e, s)
  | some (.ok t) => Prov.write (fun _ => t) s

def Step.all {σ : Type} : List Step → Prov.P σ Unit
  | [] => pure ()
  | a :: l => do a.run; Step.all l

def keysStep (f : Prov.Files) : Step := fun t =>
  match f.pub, f.priv with
  | some (some a), some (some b) => if t.keys.isSome then none else some (.ok { t with keys := some (a, b) })
  | _, _ => none

def certStep (env : Prov.Env) (f : Prov.Files) : Step := fun t =>
  match Prov.newContent t.cert f.cert with
  | none => none
  | some c => match env.cn c with
    | none => some (.error (.std "Could not parse certificate"))
    | some _ => some (.ok { t with cert := some c })

def caStep (f : Prov.Files) : Step := fun t =>
  match Prov.newContent t.ca f.ca with
  | none => none
  | some c => some (.ok { t with ca := some c })

def pkeyStep (f : Prov.Files) : Step := fun t =>
  match Prov.newContent t.pkey f.pkey with
  | none => none
  | some c => some (.ok { t with pkey := some c })

theorem write_const {σ : Type} {g : Prov.Store → Prov.Store} {s : Prov.St σ} : Prov.write (fun _ => g s.store) s = Prov.write g s := rfl

theorem keys_run {σ : Type} (f : Prov.Files) : (Prov.importPrimaryKeys f : Prov.P σ Unit) = (keysStep f).run := by
  funext s
  show (match f.pub, f.priv with
    | some (some a), some (some b) =>
      if s.store.keys.isSome then pure () else Prov.write (fun t => { t with keys := some (a, b) })
    | _, _ => pure () : Prov.P σ Unit) s = _
  unfold Step.run keysStep
  split
  · rename_i h1 h2
    simp only [h1, h2]
    by_cases h : s.store.keys.isSome = true
    · rw [if_pos h, if_pos h]
      rfl
    · rw [if_neg h, if_neg h]
      rfl
  · rfl

theorem cert_run {σ : Type} (env : Prov.Env) (f : Prov.Files) : (Prov.importCert env f : Prov.P σ Unit) = (certStep env f).run := by
  funext s
  show (match Prov.newContent s.store.cert f.cert with
    | none => pure ()
    | some c => do
      let _ ← orThrow (env.cn c) (.std "Could not parse certificate")
      Prov.write (fun t => { t with cert := some c }) : Prov.P σ Unit) s = _
  unfold Step.run certStep
  cases Prov.newContent s.store.cert f.cert with
  | none => rfl
  | some c =>
    dsimp only
    cases h : env.cn c with
    | none => exact run_bind_err (by rfl)
    | some n => exact run_bind (a := n) (w1 := s) (by rfl)

theorem ca_run {σ : Type} (f : Prov.Files) : (Prov.importCa f : Prov.P σ Unit) = (caStep f).run := by
  funext s
  show (match Prov.newContent s.store.ca f.ca with
    | none => pure ()
    | some c => Prov.write (fun t => { t with ca := some c }) : Prov.P σ Unit) s = _
  unfold Step.run caStep
  cases Prov.newContent s.store.ca f.ca <;> rfl

theorem pkey_run {σ : Type} (f : Prov.Files) : (Prov.importPkey f : Prov.P σ Unit) = (pkeyStep f).run := by
  funext s
  show (match Prov.newContent s.store.pkey f.pkey with
    | none => pure ()
    | some c => Prov.write (fun t => { t with pkey := some c }) : Prov.P σ Unit) s = _
  unfold Step.run pkeyStep
  cases Prov.newContent s.store.pkey f.pkey <;> rfl

def steps (env : Prov.Env) (f : Prov.Files) : List Step := [keysStep f, certStep env f, caStep f, pkeyStep f]

theorem import_run {σ : Type} (env : Prov.Env) (f : Prov.Files) : (Prov.importData env f : Prov.P σ Unit) = Step.all (steps env f) := by
  unfold Prov.importData steps
  rw [keys_run, cert_run, ca_run, pkey_run]
  funext s
  simp only [Step.all]
  cases h1 : (keysStep f).run s with | mk o1 s1 => cases o1 with
  | error e => rw [run_bind_err h1, run_bind_err h1]
  | ok _ =>
    rw [run_bind h1, run_bind h1]
    cases h2 : (certStep env f).run s1 with | mk o2 s2 => cases o2 with
    | error e => rw [run_bind_err h2, run_bind_err h2]
    | ok _ =>
      rw [run_bind h2, run_bind h2]
      cases h3 : (caStep f).run s2 with | mk o3 s3 => cases o3 with
      | error e => rw [run_bind_err h3, run_bind_err h3]
      | ok _ =>
        rw [run_bind h3, run_bind h3]
        cases h4 : (pkeyStep f).run s3 with | mk o4 s4 => cases o4 with
        | error e => rw [run_bind_err h4]
        | ok _ => rw [run_bind h4]; rfl

/-- Nothing is undone: what a step did, and what it had no need to do, stays so. -/
structure Apart (a b : Step) : Prop where
  keeps : ∀ t u, b t = some (.ok u) → a t = none → a u = none

def Once (a : Step) : Prop := ∀ t u, a t = some (.ok u) → a u = none

theorem Step.run_cases {σ : Type} (a : Step) (s : Prov.St σ) :
    (a.run s).2.store = s.store ∨ a s.store = some (.ok (a.run s).2.store) := by
  unfold Step.run
  cases a s.store with
  | none => exact .inl rfl
  | some x =>
    cases x with
    | error e => exact .inl rfl
    | ok t =>
      dsimp only
      unfold Prov.write
      cases s.fuel with
      | zero => exact .inl rfl
      | succ k => exact .inr rfl

theorem Step.all_keeps {σ : Type} {a : Step} : ∀ {l : List Step}, (∀ b ∈ l, Apart a b) → ∀ (s : Prov.St σ), a s.store = none →
    a (Step.all l s).2.store = none
  | [], _, _, h => h
  | b :: l, hl, s, h => by
    have h1 : a (b.run s).2.store = none := by
      rcases b.run_cases s with e | e
      · rw [e]; exact h
      · exact (hl b (by simp)).keeps _ _ e h
    unfold Step.all
    cases hb : b.run s with | mk o s1 =>
      rw [hb] at h1
      cases o with
      | error e => rw [run_bind_err hb]; exact h1
      | ok _ => rw [run_bind hb]; exact all_keeps (fun c hc => hl c (by simp [hc])) s1 h1

/-- The import after a part of it is the import as a whole. -/
theorem Step.all_again {σ τ : Type} : ∀ (l : List Step), l.Pairwise Apart → (∀ a ∈ l, Once a) → ∀ (s : Prov.St σ),
    ∃ j ≤ l.length, ∀ (s2 : Prov.St τ), Step.all l { s2 with store := (Step.all l s).2.store } =
      Step.all l { s2 with store := s.store, fuel := s2.fuel + j }
  | [], _, _, _ => ⟨0, Nat.le_refl _, fun _ => rfl⟩
  | a :: l, hp, ho, s => by
    rw [List.pairwise_cons] at hp
    have ih := Step.all_again (σ := σ) (τ := τ) l hp.2 (fun b hb => ho b (by simp [hb]))
    have hcons : ∀ {ρ : Type} (s : Prov.St ρ), Step.all (a :: l) s = (a.run >>= fun _ => Step.all l) s := fun _ => rfl
    simp only [hcons]
    cases ha : a s.store with
    | none =>
      have hr : a.run s = (.ok (), s) := by unfold Step.run; rw [ha]
      rw [run_bind hr]
      obtain ⟨j, hj, he⟩ := ih s
      refine ⟨j, by simp; omega, fun s2 => ?_⟩
      have hk := Step.all_keeps hp.1 s ha
      have e1 : a.run { s2 with store := (Step.all l s).2.store } = (.ok (), { s2 with store := (Step.all l s).2.store }) := by
        unfold Step.run; dsimp only; rw [hk]
      have e2 : a.run { s2 with store := s.store, fuel := s2.fuel + j } = (.ok (), { s2 with store := s.store, fuel := s2.fuel + j }) := by
        unfold Step.run; dsimp only; rw [ha]
      rw [run_bind e1, run_bind e2]
      exact he s2
    | some x =>
      cases x with
      | error e =>
        have hr : a.run s = (.error e, s) := by unfold Step.run; rw [ha]
        rw [run_bind_err hr]
        exact ⟨0, Nat.zero_le _, fun _ => rfl⟩
      | ok u =>
        cases hf : s.fuel with
        | zero =>
          have hr : a.run s = (.error .crash, s) := by unfold Step.run Prov.write; rw [ha]; dsimp only; rw [hf]
          rw [run_bind_err hr]
          exact ⟨0, Nat.zero_le _, fun _ => rfl⟩
        | succ k =>
          have hr : a.run s = (.ok (), { s with store := u, fuel := k }) := by unfold Step.run Prov.write; rw [ha]; dsimp only; rw [hf]
          rw [run_bind hr]
          obtain ⟨j, hj, he⟩ := ih { s with store := u, fuel := k }
          refine ⟨j + 1, by simp; omega, fun s2 => ?_⟩
          have hk := Step.all_keeps hp.1 { s with store := u, fuel := k } (ho a (by simp) _ _ ha)
          have e1 : a.run { s2 with store := (Step.all l { s with store := u, fuel := k }).2.store } =
              (.ok (), { s2 with store := (Step.all l { s with store := u, fuel := k }).2.store }) := by
            unfold Step.run; dsimp only; rw [hk]
          have e2 : a.run { s2 with store := s.store, fuel := s2.fuel + (j + 1) } =
              (.ok (), { s2 with store := u, fuel := s2.fuel + j }) := by
            unfold Step.run Prov.write; dsimp only; rw [ha]; rfl
          rw [run_bind e1, run_bind e2]
          exact he s2

theorem newContent_self {o : Option String} {c : String} {x : Option (Option String)} (h : Prov.newContent o x = some c) :
    Prov.newContent (some c) x = none := by
  unfold Prov.newContent at h ⊢
  split at h
  · split at h
    · cases h
    · cases h; simp
  · cases h

theorem keysStep_some {f : Prov.Files} {t u : Prov.Store} (h : keysStep f t = some (.ok u)) : ∃ k, u = { t with keys := some k } := by
  unfold keysStep at h
  split at h
  · split at h
    · cases h
    · cases h; exact ⟨_, rfl⟩
  · cases h

theorem certStep_some {env : Prov.Env} {f : Prov.Files} {t u : Prov.Store} (h : certStep env f t = some (.ok u)) :
    ∃ c, Prov.newContent t.cert f.cert = some c ∧ u = { t with cert := some c } := by
  unfold certStep at h
  split at h
  · cases h
  · split at h
    · cases h
    · cases h; exact ⟨_, ‹_›, rfl⟩

theorem caStep_some {f : Prov.Files} {t u : Prov.Store} (h : caStep f t = some (.ok u)) :
    ∃ c, Prov.newContent t.ca f.ca = some c ∧ u = { t with ca := some c } := by
  unfold caStep at h
  split at h
  · cases h
  · cases h; exact ⟨_, ‹_›, rfl⟩

theorem pkeyStep_some {f : Prov.Files} {t u : Prov.Store} (h : pkeyStep f t = some (.ok u)) :
    ∃ c, Prov.newContent t.pkey f.pkey = some c ∧ u = { t with pkey := some c } := by
  unfold pkeyStep at h
  split at h
  · cases h
  · cases h; exact ⟨_, ‹_›, rfl⟩

theorem steps_once (env : Prov.Env) (f : Prov.Files) : ∀ a ∈ steps env f, Once a := by
  intro a ha t u h
  simp only [steps, List.mem_cons, List.not_mem_nil, or_false] at ha
  rcases ha with rfl | rfl | rfl | rfl
  · obtain ⟨k, rfl⟩ := keysStep_some h
    unfold keysStep
    split <;> rfl
  · obtain ⟨c, hc, rfl⟩ := certStep_some h
    unfold certStep
    dsimp only
    rw [newContent_self hc]
  · obtain ⟨c, hc, rfl⟩ := caStep_some h
    unfold caStep
    dsimp only
    rw [newContent_self hc]
  · obtain ⟨c, hc, rfl⟩ := pkeyStep_some h
    unfold pkeyStep
    dsimp only
    rw [newContent_self hc]

theorem steps_apart (env : Prov.Env) (f : Prov.Files) : (steps env f).Pairwise Apart := by
  refine List.Pairwise.cons ?_ (List.Pairwise.cons ?_ (List.Pairwise.cons ?_ (List.Pairwise.cons ?_ List.Pairwise.nil)))
  · intro b hb
    simp only [List.mem_cons, List.not_mem_nil, or_false] at hb
    have key : ∀ t u : Prov.Store, u.keys = t.keys → keysStep f t = none → keysStep f u = none := by
      intro t u e h
      unfold keysStep at h ⊢
      rw [e]
      split at h
      · split at h
        · rename_i hk; rw [if_pos hk]
        · cases h
      · rfl
    rcases hb with rfl | rfl | rfl
    · exact ⟨fun t u h h0 => by obtain ⟨c, -, rfl⟩ := certStep_some h; exact key _ _ (by rfl) h0⟩
    · exact ⟨fun t u h h0 => by obtain ⟨c, -, rfl⟩ := caStep_some h; exact key _ _ (by rfl) h0⟩
    · exact ⟨fun t u h h0 => by obtain ⟨c, -, rfl⟩ := pkeyStep_some h; exact key _ _ (by rfl) h0⟩
  · intro b hb
    simp only [List.mem_cons, List.not_mem_nil, or_false] at hb
    have key : ∀ t u : Prov.Store, u.cert = t.cert → certStep env f t = none → certStep env f u = none := by
      intro t u e h
      unfold certStep at h ⊢
      rw [e]
      split at h
      · rfl
      · split at h <;> cases h
    rcases hb with rfl | rfl
    · exact ⟨fun t u h h0 => by obtain ⟨c, -, rfl⟩ := caStep_some h; exact key _ _ (by rfl) h0⟩
    · exact ⟨fun t u h h0 => by obtain ⟨c, -, rfl⟩ := pkeyStep_some h; exact key _ _ (by rfl) h0⟩
  · intro b hb
    simp only [List.mem_cons, List.not_mem_nil, or_false] at hb
    subst hb
    refine ⟨fun t u h h0 => ?_⟩
    obtain ⟨c, -, rfl⟩ := pkeyStep_some h
    unfold caStep at h0 ⊢
    dsimp only
    split at h0
    · rfl
    · cases h0
  · intro b hb; cases hb

/-- Importing again after an import that was perhaps cut short, for a program with other effects. -/
theorem import_again {σ τ : Type} (env : Prov.Env) (f : Prov.Files) (s : Prov.St σ) :
    ∃ j ≤ 4, ∀ (s2 : Prov.St τ), (Prov.importData env f : Prov.P τ Unit) { s2 with store := (Prov.importData env f s).2.store } =
      Prov.importData env f { s2 with store := s.store, fuel := s2.fuel + j } := by
  rw [import_run, import_run]
  exact Step.all_again (steps env f) (steps_apart env f) (steps_once env f) s

/-! ## The program -/

theorem Step.run_rest {σ : Type} (a : Step) (s : Prov.St σ) : (a.run s).2.srv = s.srv ∧ (a.run s).2.http = s.http := by
  unfold Step.run
  split
  · exact ⟨rfl, rfl⟩
  · exact ⟨rfl, rfl⟩
  · unfold Prov.write; split <;> exact ⟨rfl, rfl⟩

theorem Step.all_rest {σ : Type} : ∀ (l : List Step) (s : Prov.St σ), (Step.all l s).2.srv = s.srv ∧ (Step.all l s).2.http = s.http
  | [], _ => ⟨rfl, rfl⟩
  | a :: l, s => by
    have h := a.run_rest s
    unfold Step.all
    cases ha : a.run s with | mk o s1 =>
      rw [ha] at h
      cases o with
      | error e => rw [run_bind_err ha]; exact h
      | ok _ =>
        rw [run_bind ha]
        have h2 := Step.all_rest l s1
        exact ⟨h2.1.trans h.1, h2.2.trans h.2⟩

theorem loadSet_run {σ : Type} (s : Prov.St σ) (h : s.http = .none) : ∃ b s1, (Prov.loadSetTlsCreds : Prov.P σ Bool) s = (.ok b, s1) ∧
    s1.store = s.store ∧ s1.srv = s.srv ∧ s1.fuel = s.fuel ∧ Spec.Own s.store s1.http := by
  unfold Prov.loadSetTlsCreds
  rw [run_bind (gets_eq)]
  by_cases ho : Prov.isOk s.store = true
  · rw [if_pos ho]
    refine ⟨true, _, rfl, rfl, rfl, rfl, .inl ?_⟩
    unfold Prov.isOk Prov.tls at ho
    simp only [Bool.and_eq_true, bne_iff_ne, ne_eq] at ho
    obtain ⟨⟨h1, h2⟩, h3⟩ := ho
    have get : ∀ o : Option String, ¬ o.getD "" = "" → o = some (o.getD "") := by
      intro o h; cases o with
      | none => exact absurd rfl h
      | some x => rfl
    exact ⟨_, _, _, h3, h2, h1, get _ h3, get _ h2, get _ h1, rfl⟩
  · rw [if_neg ho]
    refine ⟨false, s, rfl, rfl, rfl, rfl, .inr ⟨h, ?_⟩⟩
    unfold Prov.isOk Prov.tls at ho
    simp only [Bool.and_eq_true, bne_iff_ne, ne_eq] at ho
    exact Classical.byContradiction fun hc => by
      simp only [not_or] at hc
      exact ho ⟨⟨hc.2.2, hc.2.1⟩, hc.1⟩

theorem request_run (net : Asked → List Transfer) (url : String) (headers : List String) (s : Prov.St Web) :
    (∃ r, Http.get kNoLimit (net ⟨s.http, url, headers⟩) = some r ∧ request net url headers s =
      (.ok r, { s with srv := { s.srv with asked := s.srv.asked ++ [⟨s.http, url, headers⟩] } })) ∨
    request net url headers s = (.error .crash, { s with srv := { s.srv with asked := s.srv.asked ++ [⟨s.http, url, headers⟩] } }) := by
  unfold request
  dsimp only
  cases h : Http.get kNoLimit (net ⟨s.http, url, headers⟩) with
  | none => exact .inr rfl
  | some r => exact .inl ⟨r, rfl, rfl⟩

/-- What a run of the program may have done. -/
structure Did (net : Asked → List Transfer) (url : String) (headers : List String) (o : Except Err Bool) (s : Prov.St Web) : Prop where
  asked : s.srv.asked = [] ∨ (∃ c, Spec.Own s.store c ∧ s.srv.asked = [⟨c, url, headers⟩])
  silent : o ≠ .ok true → s.srv.out = []
  printed : o = .ok true → ∃ c k t, Spec.Own s.store c ∧ s.srv.asked = [⟨c, url, headers⟩] ∧
    Spec.Decides (net ⟨c, url, headers⟩) k t ∧ t.status = 200 ∧ s.srv.out = t.chunks.flatten ∧ (k < 2 → t.curlOk = true)

theorem run_did (env : Prov.Env) (opens : Bool) (f : Prov.Files) (net : Asked → List Transfer) (url : String) (headers : List String)
    (fuel : Nat) (t : Prov.Store) : Did net url headers (run env opens f net url headers fuel t).1 (run env opens f net url headers fuel t).2 := by
  have caught : ∀ {m : G Bool} {s s1 : Prov.St Web} {e : Err}, m s = (.error e, s1) →
      (∃ o, catchStd m (fun _ => pure false) s = (o, s1) ∧ o ≠ .ok true) := by
    intro m s s1 e h
    unfold catchStd
    rw [h]
    dsimp only
    split
    · exact ⟨.ok false, rfl, by intro h; cases h⟩
    · exact ⟨.error e, rfl, by intro h; cases h⟩
  have failed : ∀ {m : G Bool} {s s1 : Prov.St Web} {e : Err}, m s = (.error e, s1) → s1.srv.out = [] →
      (s1.srv.asked = [] ∨ (∃ c, Spec.Own s1.store c ∧ s1.srv.asked = [⟨c, url, headers⟩])) →
      Did net url headers (catchStd m (fun _ => pure false) s).1 (catchStd m (fun _ => pure false) s).2 := by
    intro m s s1 e h ho ha
    obtain ⟨o, he, hne⟩ := caught h
    rw [he]
    exact ⟨ha, fun _ => ho, fun h => absurd h hne⟩
  unfold run main
  generalize hs : ({ store := t, srv := {}, fuel := fuel } : Prov.St Web) = s
  have h0 : s.srv = {} ∧ s.http = .none := by subst hs; exact ⟨rfl, rfl⟩
  clear hs
  have hi : ((Prov.importData env f : G Unit) s).2.srv = s.srv ∧ ((Prov.importData env f : G Unit) s).2.http = s.http := by
    rw [import_run]; exact Step.all_rest _ _
  cases opens with
  | false =>
    refine failed (s1 := s) (e := .std "storage") ?_ (by rw [h0.1]) (.inl (by rw [h0.1]))
    refine run_bind_err ?_
    exact run_bind_err rfl
  | true =>
    cases hm : (Prov.importData env f : G Unit) s with | mk o s1 =>
      rw [hm] at hi
      cases o with
      | error e =>
        refine failed (s1 := s1) (e := e) ?_ (by rw [hi.1, h0.1]) (.inl (by rw [hi.1, h0.1]))
        refine run_bind_err ?_
        refine (run_bind (w1 := s) (a := ()) rfl).trans ?_
        exact run_bind_err hm
      | ok _ =>
        obtain ⟨b, s2, hl, e1, e2, -, hown⟩ := loadSet_run s1 (hi.2.trans h0.2)
        have hsrv : s2.srv = {} := by rw [e2, hi.1, h0.1]
        rcases request_run net url headers s2 with ⟨r, hr, hq⟩ | hq
        · obtain ⟨k, u, hk, hu, hru, hfl, hdone⟩ := perform_decides _ _ _ hr
          by_cases h200 : r.status = 200
          · have hfin : (do
                let b ← aktualizrGet env true f net url headers
                print b
                pure true : G Bool) s = (.ok true, { s2 with srv := { asked := [⟨s2.http, url, headers⟩], out := r.body } }) := by
              refine (run_bind (a := r.body) (w1 := { s2 with srv := { asked := [⟨s2.http, url, headers⟩], out := [] } }) ?_).trans ?_
              · refine (run_bind (w1 := s) (a := ()) rfl).trans ?_
                refine (run_bind hm).trans ?_
                refine (run_bind hl).trans ?_
                refine (run_bind hq).trans ?_
                rw [hsrv]
                refine (run_bind (a := ()) (throwWhen_ok.2 ⟨?_, rfl⟩)).trans ?_
                · simp [h200]
                · rfl
              · rfl
            have hc : catchStd (do
                let b ← aktualizrGet env true f net url headers
                print b
                pure true : G Bool) (fun _ => pure false) s =
                (.ok true, { s2 with srv := { asked := [⟨s2.http, url, headers⟩], out := r.body } }) := by
              unfold catchStd
              rw [hfin]
            rw [hc]
            have hown' : Spec.Own s2.store s2.http := by rw [e1]; exact hown
            refine ⟨.inr ⟨_, hown', rfl⟩, fun h => absurd rfl h, fun _ => ⟨_, k, u, hown', rfl, ⟨hk, hu, hfl⟩, ?_, ?_, fun h => (hdone h).1⟩⟩
            · rw [hru] at h200; exact h200
            · dsimp only; rw [hru]
          · refine failed (s1 := { s2 with srv := { asked := [⟨s2.http, url, headers⟩], out := [] } }) (e := .std "Unable to get") ?_ rfl
              (.inr ⟨s2.http, by dsimp only; rw [e1]; exact hown, rfl⟩)
            refine run_bind_err ?_
            refine (run_bind (w1 := s) (a := ()) rfl).trans ?_
            refine (run_bind hm).trans ?_
            refine (run_bind hl).trans ?_
            refine (run_bind hq).trans ?_
            rw [hsrv]
            refine run_bind_err ?_
            unfold throwWhen
            simp [h200]
        · refine failed (s1 := { s2 with srv := { asked := [⟨s2.http, url, headers⟩], out := [] } }) (e := .crash) ?_ rfl
            (.inr ⟨s2.http, by dsimp only; rw [e1]; exact hown, rfl⟩)
          refine run_bind_err ?_
          refine (run_bind (w1 := s) (a := ()) rfl).trans ?_
          refine (run_bind hm).trans ?_
          refine (run_bind hl).trans ?_
          refine run_bind_err ?_
          rw [hq, hsrv]
          rfl

theorem Step.run_free {σ : Type} (a : Step) (s : Prov.St σ) (he : ∀ t e, a t ≠ some (.error e)) (n : Nat) (hf : n + 1 ≤ s.fuel) :
    ∃ s1, a.run s = (.ok (), s1) ∧ n ≤ s1.fuel := by
  unfold Step.run
  cases h : a s.store with
  | none => exact ⟨s, rfl, by omega⟩
  | some x =>
    cases x with
    | error e => exact absurd h (he _ _)
    | ok t =>
      dsimp only
      unfold Prov.write
      cases hs : s.fuel with
      | zero => omega
      | succ k => exact ⟨_, rfl, by show n ≤ k; omega⟩

theorem Step.all_free {σ : Type} : ∀ (l : List Step), (∀ a ∈ l, ∀ t e, a t ≠ some (.error e)) → ∀ (s : Prov.St σ), l.length ≤ s.fuel →
    ∃ s1, Step.all l s = (.ok (), s1)
  | [], _, s, _ => ⟨s, rfl⟩
  | a :: l, h, s, hf => by
    obtain ⟨s1, h1, h2⟩ := a.run_free s (h a (by simp)) l.length (by simpa using hf)
    unfold Step.all
    rw [run_bind h1]
    exact Step.all_free l (fun b hb => h b (by simp [hb])) s1 h2

theorem steps_free (env : Prov.Env) (f : Prov.Files) (hc : ∀ c, f.cert = some (some c) → (env.cn c).isSome) :
    ∀ a ∈ steps env f, ∀ t e, a t ≠ some (.error e) := by
  intro a ha t e h
  simp only [steps, List.mem_cons, List.not_mem_nil, or_false] at ha
  rcases ha with rfl | rfl | rfl | rfl
  · unfold keysStep at h
    split at h
    · split at h <;> cases h
    · cases h
  · unfold certStep at h
    split at h
    · cases h
    · rename_i c hn
      have : f.cert = some (some c) := by
        unfold Prov.newContent at hn
        split at hn
        · rename_i hx
          split at hn
          · cases hn
          · cases hn; exact hx
        · cases hn
      obtain ⟨n, hn⟩ := Option.isSome_iff_exists.1 (hc c this)
      rw [hn] at h
      cases h
  · unfold caStep at h
    split at h <;> cases h
  · unfold pkeyStep at h
    split at h <;> cases h

/-- What is stored afterwards: what the import left, if the storage could be opened. -/
theorem run_store (env : Prov.Env) (opens : Bool) (f : Prov.Files) (net : Asked → List Transfer) (url : String) (headers : List String)
    (fuel : Nat) (t : Prov.Store) : (opens = false ∧ (run env opens f net url headers fuel t).2.store = t) ∨
      (opens = true ∧ (run env opens f net url headers fuel t).2.store =
        ((Prov.importData env f : G Unit) { store := t, srv := {}, fuel := fuel }).2.store) := by
  unfold run main
  generalize hs : ({ store := t, srv := {}, fuel := fuel } : Prov.St Web) = s
  have hst : s.store = t := by subst hs; rfl
  have caught : ∀ (m : G Bool) (s : Prov.St Web), (M.catchStd m (fun _ => pure false) s).2 = (m s).2 := by
    intro m s
    unfold M.catchStd
    cases m s with | mk o s1 => cases o with
    | ok _ => rfl
    | error e => dsimp only; split <;> rfl
  rw [caught]
  cases opens with
  | false =>
    refine .inl ⟨rfl, ?_⟩
    rw [show (do
      let b ← aktualizrGet env false f net url headers
      print b
      pure true : G Bool) s = (.error (.std "storage"), s) from M.run_bind_err (M.run_bind_err rfl)]
    exact hst
  | true =>
    refine .inr ⟨rfl, ?_⟩
    cases hm : (Prov.importData env f : G Unit) s with | mk o s1 => cases o with
    | error e =>
      rw [show (do
        let b ← aktualizrGet env true f net url headers
        print b
        pure true : G Bool) s = (.error e, s1) from
          M.run_bind_err ((M.run_bind (w1 := s) (a := ()) rfl).trans (M.run_bind_err hm))]
    | ok _ =>
      cases hr : (do
        let b ← aktualizrGet env true f net url headers
        print b
        pure true : G Bool) s with | mk o3 s3 =>
        show s3.store = s1.store
        have hstep : ∀ {α β : Type} {m : G α} {g : α → G β} {w : Prov.St Web}, (m w).2.store = w.store →
            (∀ a w1, w1.store = w.store → ((g a) w1).2.store = w1.store) → ((m >>= g) w).2.store = w.store := by
          intro α β m g w h1 h2
          cases hmw : m w with | mk o w1 =>
            rw [hmw] at h1
            cases o with
            | error e => rw [M.run_bind_err hmw]; exact h1
            | ok a => rw [M.run_bind hmw]; exact (h2 a w1 h1).trans h1
        have hrest : ∀ w : Prov.St Web, ((do
            let _ ← Prov.loadSetTlsCreds
            let r ← request net url headers
            M.throwWhen (r.status != 200) (.std "Unable to get")
            pure r.body : G (List UInt8)) w).2.store = w.store := by
          intro w
          refine hstep ?_ (fun _ w1 _ => hstep ?_ (fun _ w2 _ => hstep ?_ (fun _ w3 _ => rfl)))
          · unfold Prov.loadSetTlsCreds
            rw [M.run_bind M.gets_eq]
            split <;> rfl
          · unfold request
            dsimp only
            split <;> rfl
          · rfl
        have hget : (aktualizrGet env true f net url headers s).2.store = s1.store := by
          have e : aktualizrGet env true f net url headers s = _ := (M.run_bind (w1 := s) (a := ()) rfl).trans (M.run_bind hm)
          rw [e]
          exact hrest s1
        cases hg : aktualizrGet env true f net url headers s with | mk o2 s2 =>
          rw [hg] at hget
          cases o2 with
          | error e =>
            rw [M.run_bind_err hg] at hr
            cases hr
            exact hget
          | ok a =>
            rw [M.run_bind hg] at hr
            cases hr
            exact hget

end Aktualizr.Get

namespace Aktualizr

open Get

/-- Whatever happens, at most one request is made, to the URL given and with the headers given, with the credentials of the device or, if
these are not complete, with none. -/
theorem C81_asked (env : Prov.Env) (opens : Bool) (f : Prov.Files) (net : Asked → List Http.Transfer) (url : String)
    (headers : List String) (fuel : Nat) (t : Prov.Store) {o : Except Err Bool} {s : Prov.St Web}
    (h : Get.run env opens f net url headers fuel t = (o, s)) :
    s.srv.asked = [] ∨ ∃ c, Get.Spec.Own s.store c ∧ s.srv.asked = [⟨c, url, headers⟩] := by
  have := (run_did env opens f net url headers fuel t).asked
  rw [h] at this
  exact this

/-- What is printed is what the last attempt brought, all of it and nothing else, that attempt was answered with 200, and success is
reported; otherwise nothing is printed. Partial: the transfer may have broken off if it was the third attempt (`C81_broken`). -/
theorem C81_printed_partial (env : Prov.Env) (opens : Bool) (f : Prov.Files) (net : Asked → List Http.Transfer) (url : String)
    (headers : List String) (fuel : Nat) (t : Prov.Store) {o : Except Err Bool} {s : Prov.St Web}
    (h : Get.run env opens f net url headers fuel t = (o, s)) :
    (o ≠ .ok true ∧ s.srv.out = []) ∨
    (o = .ok true ∧ ∃ c k u, Get.Spec.Own s.store c ∧ Get.Spec.Decides (net ⟨c, url, headers⟩) k u ∧ u.status = 200 ∧
      s.srv.out = u.chunks.flatten ∧ (k < 2 → u.curlOk = true)) := by
  have hd := run_did env opens f net url headers fuel t
  rw [h] at hd
  by_cases ho : o = .ok true
  · obtain ⟨c, k, u, h1, -, h3, h4, h5, h6⟩ := hd.printed ho
    exact .inr ⟨ho, c, k, u, h1, h3, h4, h5, h6⟩
  · exact .inl ⟨ho, hd.silent ho⟩

/-- If the server answers within three attempts, its answer is printed and success reported. -/
theorem C81_answered (env : Prov.Env) (f : Prov.Files) (net : Asked → List Http.Transfer) (url : String) (headers : List String)
    (fuel : Nat) (t : Prov.Store) (u : Http.Transfer) (hc : ∀ c, f.cert = some (some c) → (env.cn c).isSome) (hf : 4 ≤ fuel)
    
    (hn : ∀ c, Get.Spec.Own (Get.run env true f net url headers fuel t).2.store c → ∃ k, Get.Spec.Decides (net ⟨c, url, headers⟩) k u)
    (hok : u.curlOk = true) (h200 : u.status = 200) :
    (Get.run env true f net url headers fuel t).1 = .ok true ∧
      (Get.run env true f net url headers fuel t).2.srv.out = u.chunks.flatten := by
  rcases run_store env true f net url headers fuel t with ⟨h, -⟩ | ⟨-, hst⟩
  · cases h
  rw [hst] at hn
  clear hst
  unfold Get.run Get.main
  generalize hs : ({ store := t, srv := {}, fuel := fuel } : Prov.St Web) = s at hn
  have h0 : s.srv = {} ∧ s.http = .none ∧ s.fuel = fuel := by subst hs; exact ⟨rfl, rfl, rfl⟩
  clear hs
  obtain ⟨s1, hm⟩ := Step.all_free (steps env f) (steps_free env f hc) s (by rw [h0.2.2]; exact hf)
  rw [← import_run] at hm
  have hi : ((Prov.importData env f : G Unit) s).2.srv = s.srv ∧ ((Prov.importData env f : G Unit) s).2.http = s.http := by
    rw [import_run]; exact Step.all_rest _ _
  rw [hm] at hi
  rw [hm] at hn
  obtain ⟨b, s2, hl, e1, e2, -, hown⟩ := loadSet_run s1 (hi.2.trans h0.2.1)
  have hsrv : s2.srv = {} := by rw [e2, hi.1, h0.1]
  obtain ⟨k, hk⟩ := hn s2.http hown
  have hg := perform_done 2 _ k u hk.within hk.is hk.failed hok (by omega)
  have hq : request net url headers s2 = (.ok ⟨u.chunks.flatten, u.curlOk, u.status⟩,
      { s2 with srv := { asked := [⟨s2.http, url, headers⟩], out := [] } }) := by
    unfold request
    dsimp only
    rw [show Http.get kNoLimit (net ⟨s2.http, url, headers⟩) = _ from hg, hsrv]
    rfl
  have hfin : (do
      let b ← aktualizrGet env true f net url headers
      print b
      pure true : G Bool) s = (.ok true, { s2 with srv := { asked := [⟨s2.http, url, headers⟩], out := u.chunks.flatten } }) := by
    refine (M.run_bind (a := u.chunks.flatten) (w1 := { s2 with srv := { asked := [⟨s2.http, url, headers⟩], out := [] } }) ?_).trans ?_
    · refine (M.run_bind (w1 := s) (a := ()) rfl).trans ?_
      refine (M.run_bind hm).trans ?_
      refine (M.run_bind hl).trans ?_
      refine (M.run_bind hq).trans ?_
      refine (M.run_bind (a := ()) (M.throwWhen_ok.2 ⟨?_, rfl⟩)).trans ?_
      · simp [h200]
      · rfl
    · rfl
  unfold M.catchStd
  rw [hfin]
  exact ⟨rfl, rfl⟩

/-- Running aktualizr-get, whatever becomes of it, makes no difference to the next start of aktualizr with the same files to import: it
does what it would have done, having up to four writes less to do. -/
theorem C81_harmless {σ : Type} (env : Prov.Env) (server : Prov.Server σ) (x : Prov.Start) (opens : Bool)
    (net : Asked → List Http.Transfer) (url : String) (headers : List String) (fuel : Nat) (t : Prov.Store) (srv : σ) :
    ∃ j ≤ 4, Prov.run env server x (Get.run env opens x.files net url headers fuel t).2.store srv =
      Prov.run env server { x with fuel := x.fuel + j } t srv := by
  have hstore := run_store env opens x.files net url headers fuel t
  rcases hstore with ⟨-, e⟩ | ⟨-, e⟩
  · exact ⟨0, Nat.zero_le _, by rw [e]; rfl⟩
  · obtain ⟨j, hj, ha⟩ := import_again (τ := σ) env x.files ({ store := t, srv := {}, fuel := fuel } : Prov.St Web)
    refine ⟨j, hj, ?_⟩
    rw [e]
    unfold Prov.run Prov.start
    have h := ha { store := t, srv := srv, fuel := x.fuel, drawn := x.seed }
    dsimp only at h
    generalize hA : (Prov.importData env x.files : Prov.P σ Unit) { store := t, srv := srv, fuel := x.fuel + j, drawn := x.seed } = r at h
    dsimp only
    cases r with | mk o s2 => cases o with
    | error e => exact (M.run_bind_err h).trans (M.run_bind_err hA).symm
    | ok _ => exact (M.run_bind h).trans (M.run_bind (f := fun _ => Prov.initialize' env server x.cfg x.secondaries) hA).symm

/-! ## Cases -/

namespace Toy

def getEnv : Prov.Env := ⟨fun _ => some "device", id, fun _ => .rsa2048, fun _ => some ("pub", "priv"), fun _ => "name", fun _ => none⟩

def getFiles : Prov.Files := { cert := some (some "cert"), ca := some (some "ca"), pkey := some (some "key") }

/-- A first attempt that breaks off, then an answer in two parts, for the device only. -/
def getNet : Asked → List Http.Transfer := fun q =>
  if q.creds = .device "ca" "cert" "key" then [⟨[[9]], false, 200⟩, ⟨[[1, 2], [3]], true, 200⟩] else [⟨[], true, 403⟩]

/-- An answer that always breaks off. -/
def brokenNet : Asked → List Http.Transfer := fun _ => List.replicate 3 ⟨[[1]], false, 200⟩

end Toy

/-- A device whose credentials are in files: they are imported and used, and what was received before is not printed. -/
example : (Get.run Toy.getEnv true Toy.getFiles Toy.getNet "url" ["X: y"] 9 {}).1 = .ok true ∧
    (Get.run Toy.getEnv true Toy.getFiles Toy.getNet "url" ["X: y"] 9 {}).2.srv =
      ⟨[⟨.device "ca" "cert" "key", "url", ["X: y"]⟩], [1, 2, 3]⟩ := by decide +kernel

example : Get.Spec.Decides (Toy.getNet ⟨.device "ca" "cert" "key", "url", []⟩) 1 ⟨[[1, 2], [3]], true, 200⟩ :=
  ⟨by decide, by rfl, fun j u hj hu => by
    have : j = 0 := by omega
    subst this
    have e : Toy.getNet ⟨.device "ca" "cert" "key", "url", []⟩ = [⟨[[9]], false, 200⟩, ⟨[[1, 2], [3]], true, 200⟩] := by rfl
    rw [e] at hu
    simp only [List.getElem?_cons_zero, Option.some.injEq] at hu
    subst hu
    exact .inl rfl⟩

/-- Killed before its third write, the program leaves an import that the next start completes: two writes less. -/
example : (Get.run Toy.getEnv true Toy.getFiles Toy.getNet "url" [] 2 {}).1 = .error .crash ∧
    (Get.run Toy.getEnv true Toy.getFiles Toy.getNet "url" [] 2 {}).2.store = { cert := some "cert", ca := some "ca" } := by
  decide +kernel

/-- The code violates the full claim: a document that was cut off is printed, and success reported, when the third attempt breaks off
after a status of 200 (get.cc:17 looks at the status only). -/
theorem C81_broken : ∃ (net : Asked → List Http.Transfer), (∀ q, ∀ t ∈ net q, t.curlOk = false) ∧
    (Get.run Toy.getEnv true {} net "url" [] 9 {}).1 = .ok true ∧ (Get.run Toy.getEnv true {} net "url" [] 9 {}).2.srv.out = [1] :=
  ⟨Toy.brokenNet, fun q t ht => by rw [List.eq_of_mem_replicate ht], by decide +kernel, by decide +kernel⟩

end Aktualizr
