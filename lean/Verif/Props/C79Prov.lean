import Verif.Props.C79Wait
import Verif.Props.C41

/-! # C79: what aktualizr-info says of a device aktualizr has provisioned -/

namespace Aktualizr.Prov

open M

section Registered

variable {σ : Type} {env : Env} {server : Server σ} {cfg : Config} {secondaries : List (String × Secondary)}

theorem tls_ecus {s s' : St σ} {u : Unit} (h : initTlsCreds env server cfg s = (.ok u, s')) : s'.store.ecus = s.store.ecus := by
  unfold initTlsCreds at h
  obtain ⟨b, s1, h1, h2⟩ := M.bind_ok.1 h
  obtain ⟨hb, hs1⟩ := loadSet_ok h1
  cases b with
  | true =>
    simp at h2
    subst h2
    rw [← hb] at hs1
    subst hs1
    rfl
  | false =>
    rw [← hb] at hs1
    simp at hs1
    subst hs1
    simp only [Bool.false_eq_true, if_false] at h2
    obtain ⟨_, s2, e2, h3⟩ := M.bind_ok.1 h2
    obtain ⟨_, rfl⟩ := throwWhen_run e2
    obtain ⟨_, s3, e3, h4⟩ := M.bind_ok.1 h3
    simp at e3
    obtain ⟨rfl, rfl⟩ := e3
    obtain ⟨_, s4, e4, h5⟩ := M.bind_ok.1 h4
    obtain ⟨_, rfl⟩ := throwWhen_run e4
    obtain ⟨_, s5, e5, h6⟩ := M.bind_ok.1 h5
    simp at e5
    subst e5
    obtain ⟨_, s6, e6, h7⟩ := M.bind_ok.1 h6
    simp at e6
    obtain ⟨rfl, rfl⟩ := e6
    obtain ⟨_, s7, e7, h8⟩ := M.bind_ok.1 h7
    obtain ⟨_, rfl⟩ := M.orThrow_ok.1 e7
    obtain ⟨r, s8, e8, h9⟩ := M.bind_ok.1 h8
    obtain ⟨_, _, rfl⟩ := post_ok e8
    cases r with
    | odd => simp at h9
    | refused code => simp at h9
    | ok body =>
      dsimp only at h9
      obtain ⟨_, s9, e9, h10⟩ := M.bind_ok.1 h9
      obtain ⟨_, rfl⟩ := M.orThrow_ok.1 e9
      obtain ⟨_, s10, e10, h11⟩ := M.bind_ok.1 h10
      obtain ⟨_, _, rfl⟩ := write_ok e10
      obtain ⟨_, s11, e11, h12⟩ := M.bind_ok.1 h11
      obtain ⟨_, _, rfl⟩ := write_ok e11
      obtain ⟨_, s12, e12, h13⟩ := M.bind_ok.1 h12
      obtain ⟨_, _, rfl⟩ := write_ok e12
      obtain ⟨b2, s13, h14, h15⟩ := M.bind_ok.1 h13
      obtain ⟨_, s14, h16, h17⟩ := M.bind_ok.1 h15
      obtain ⟨hb2, rfl⟩ := throwWhen_run h16
      obtain ⟨hb3, hs13⟩ := loadSet_ok h14
      split at hs13 <;> subst hs13 <;> split at h17
      all_goals first
        | (obtain ⟨_, _, rfl⟩ := write_ok h17
           rfl)
        | (simp at h17
           subst h17
           rfl)

theorem attempts_ecus {n : Nat} {s s' : St σ} {u : Unit} (h : attempts env server cfg secondaries n s = (.ok u, s')) :
    ∃ s1, s1.store.ecus = s.store.ecus ∧ rest env server cfg secondaries s1 = (.ok u, s') := by
  induction n generalizing s with
  | zero => simp [attempts] at h
  | succ n ih =>
    unfold attempts at h
    obtain ⟨u1, s1, h1, h2⟩ := M.bind_ok.1 h
    have hk : s1.store.ecus = s.store.ecus := by
      obtain ⟨d, m, f, rfl⟩ := initDeviceId_frame h1
      rfl
    obtain ⟨b, s2, h3, h4⟩ := M.bind_ok.1 h2
    cases b with
    | false =>
      simp only [Bool.false_eq_true, if_false] at h4
      obtain ⟨u2, h5⟩ := isOccupied_false h3
      exact ⟨s2, by rw [tls_ecus h5, hk], h4⟩
    | true =>
      simp only [if_true] at h4
      obtain ⟨_, s3, h5, h6⟩ := M.bind_ok.1 h4
      obtain ⟨_, _, rfl⟩ := write_ok h5
      obtain ⟨a, g1, g2⟩ := ih h6
      have hst := (tls_occupied (isOccupied_true h3)).2.1
      refine ⟨a, ?_, g2⟩
      rw [g1, ← hk, ← hst]

theorem register_flag {new : List (String × String)} {is : List Info} {s s' : St σ} {u : Unit}
    (h : initEcuRegister env server cfg new true is s = (.ok u, s')) : ∃ i, s'.store.device = some (i, true) := by
  unfold initEcuRegister at h
  simp only [Bool.not_true, Bool.false_eq_true, if_false] at h
  obtain ⟨p, s1, e1, h2⟩ := M.bind_ok.1 h
  obtain ⟨_, s2, e2, h4⟩ := M.bind_ok.1 h2
  obtain ⟨r, s3, e3, h6⟩ := M.bind_ok.1 h4
  cases r with
  | odd => simp at h6
  | refused code => simp at h6
  | ok body =>
    dsimp only at h6
    obtain ⟨_, s4, h7, h8⟩ := M.bind_ok.1 h6
    obtain ⟨_, s5, h9, h10⟩ := M.bind_ok.1 h8
    unfold storeEcuRegistered at h10
    obtain ⟨d, s6, h11, h12⟩ := M.bind_ok.1 h10
    simp at h11
    obtain ⟨rfl, rfl⟩ := h11
    obtain ⟨_, s7, h13, h14⟩ := M.bind_ok.1 h12
    obtain ⟨hsome, rfl⟩ := throwWhen_run h13
    obtain ⟨_, _, rfl⟩ := write_ok h14
    show ∃ i, s7.store.device.map _ = some (i, true)
    cases hd : s7.store.device with
    | none => rw [hd] at hsome; simp at hsome
    | some d => exact ⟨d.1, rfl⟩

theorem counter_device {s s' : St σ} {u : Unit} (h : initEcuReportCounter s = (.ok u, s')) : s'.store.device = s.store.device := by
  unfold initEcuReportCounter at h
  obtain ⟨t, s1, h1, h2⟩ := M.bind_ok.1 h
  simp at h1
  obtain ⟨rfl, rfl⟩ := h1
  split at h2
  · simp at h2
    subst h2
    rfl
  · cases he : s.store.ecus with
    | nil => rw [he] at h2; simp at h2
    | cons e r =>
      rw [he] at h2
      obtain ⟨_, _, rfl⟩ := write_ok h2
      rfl

theorem rest_flag {s s' : St σ} {u : Unit} (h : rest env server cfg secondaries s = (.ok u, s')) (he : s.store.ecus = []) :
    ∃ i, s'.store.device = some (i, true) := by
  unfold rest at h
  obtain ⟨_, s1, h1, g1⟩ := M.bind_ok.1 h
  obtain ⟨k, hk, hk2, _, hecus⟩ := initKeys_ok h1
  obtain ⟨n, s2, h2, g2⟩ := M.bind_ok.1 g1
  obtain ⟨hn, hreg, -⟩ := initEcuSerials_ok hk h2
  have hb : n.2 = true := hreg.2 (.inl (by rw [hecus, he]))
  obtain ⟨is, s3, h3, g3⟩ := M.bind_ok.1 g2
  obtain ⟨_, s4, h4, h5⟩ := M.bind_ok.1 g3
  rw [hb] at h4
  rw [counter_device h5]
  exact register_flag h4

theorem run_flag (x : Start) (t : Store) (srv : σ) (h : (run env server x t srv).1 = .ok ()) (he : t.ecus = []) :
    ∃ i, (run env server x t srv).2.store.device = some (i, true) := by
  unfold run start at h ⊢
  cases hm : importData env x.files { store := t, srv := srv, fuel := x.fuel, drawn := x.seed : St σ } with
  | mk o s1 =>
    have himp := import_imp (env := env) (f := x.files) (s := { store := t, srv := srv, fuel := x.fuel, drawn := x.seed : St σ })
    rw [hm] at himp
    rw [bind_app, hm] at h ⊢
    cases o with
    | error e => simp at h
    | ok u =>
      dsimp only at h ⊢
      cases hr : initialize' env server x.cfg x.secondaries s1 with
      | mk o s' =>
        rw [hr] at h
        simp only at h
        subst h
        obtain ⟨s2, h2, h3⟩ := attempts_ecus hr
        obtain ⟨t1, n, hs, hi⟩ := himp
        have hi : Imported x.files t t1 := hi
        refine rest_flag h3 ?_
        rw [h2]
        show s1.store.ecus = []
        rw [show s1 = _ from hs]
        show t1.ecus = []
        rw [hi.rest]
        exact he

/-- The configured ECUs are stored, their registration is not noted. -/
structure Unnoted (env : Env) (cfg : Config) (secondaries : List (String × Secondary)) (k : String × String) (t : Store) : Prop where
  keys : t.keys = some k
  some : t.ecus ≠ []
  same : ∀ e, e ∈ t.ecus ↔ e ∈ configured env cfg secondaries k.1
  flag : ∀ i, t.device ≠ Option.some (i, true)

theorem Unnoted.run {x : Start} {t : Store} {srv : σ} {k : String × String} (h : Unnoted env x.cfg x.secondaries k t) :
    Unnoted env x.cfg x.secondaries k (Prov.run env server x t srv).2.store := by
  obtain ⟨t1, n, hi, htr⟩ := run_tr (env := env) (server := server) x t srv
  have := htr.inv (I := fun s => s.store.keys = Option.some k ∧ s.store.ecus = t.ecus ∧ (∀ d, s.store.device ≠ Option.some (d, true)) ∧
    ∀ c p l r, (c, Req.ecus p l, r) ∉ s.log) ?_ ⟨?_, ?_, ?_, by simp⟩
  · exact ⟨this.1, by rw [this.2.1]; exact h.some, by rw [this.2.1]; exact h.same, this.2.2.1⟩
  · intro a b hc ⟨h1, h2, h3, h4⟩
    cases hc with
    | register k' l n _ _ g3 _ _ g6 =>
      rw [h1] at g3
      obtain rfl := Option.some.inj g3
      rw [h2] at g6
      exact absurd (g6 (fun e he => (h.same e).1 he) (fun e he => (h.same e).2 he)) h.some
    | ecus k' l b n g1 _ _ _ g6 =>
      rw [h1] at g1
      obtain rfl := Option.some.inj g1
      rw [h2] at g6
      exact absurd (g6 (fun e he => (h.same e).1 he) (fun e he => (h.same e).2 he)) h.some
    | key k' m n g1 => rw [h1] at g1; simp at g1
    | ask d r n =>
      refine ⟨h1, h2, h3, ?_⟩
      intro c p l r hm
      simp at hm
      exact h4 c p l r hm
    | registered p l b n g => exact absurd g (h4 _ _ _ _)
    | name id n => exact ⟨h1, h2, by intro d; simp, h4⟩
    | reset d r n => exact ⟨h1, h2, by intro d; simp, h4⟩
    | _ => exact ⟨h1, h2, h3, h4⟩
  · rcases hi.keys with h1 | ⟨h1, _⟩
    · exact h1.trans h.keys
    · rw [h.keys] at h1; simp at h1
  · show t1.ecus = _
    rw [hi.rest]
  · intro d
    show t1.device ≠ _
    rw [hi.rest]
    exact h.flag d

theorem Unnoted.runs {cfg : Config} {secondaries : List (String × Secondary)} {k : String × String} :
    ∀ (xs : List Start) (w : Store × σ), (∀ x ∈ xs, x.cfg = cfg ∧ x.secondaries = secondaries) → Unnoted env cfg secondaries k w.1 →
      Unnoted env cfg secondaries k (Prov.runs env server xs w).1
  | [], _, _, h => h
  | x :: xs, w, hx, h => by
    obtain ⟨h1, h2⟩ := hx x (by simp)
    refine Unnoted.runs xs _ (fun y hy => hx y (by simp [hy])) ?_
    subst h1 h2
    exact h.run

end Registered

end Aktualizr.Prov

namespace Aktualizr.Info

open M

/-- C79. After a start of aktualizr that registered the ECUs (none were stored) and succeeded, aktualizr-info prints the identity of
the device if asked for the name, and a report has the line that it is provisioned. -/
theorem C79_provisioned {σ : Type} (env : Prov.Env) (server : Prov.Server σ) (x : Prov.Start) (t : Prov.Store) (srv : σ)
    (h : (Prov.run env server x t srv).1 = .ok ()) (he : t.ecus = []) (a : Around) (d : Db) (o : Options) (attempts : Nat)
    (hd : ∀ t, a.db t = d) (hdev : d.device = (Prov.run env server x t srv).2.store.device) (hw : o.has "wait-until-provisioned" = false) :
    ∃ i, (Prov.run env server x t srv).2.store.device = some (i, true) ∧
      (a.opens 0 = true → o.has "name-only" = true → main a o attempts {} = (.ok (), ⟨[i], 2⟩)) ∧
      ((∀ n ∈ ["name-only", "ecu-pub-key"] ++ Spec.groups.flatten, o.has n = false) → ∀ s', main a o attempts {} = (.ok (), s') →
        "Device ID: " ++ i ∈ s'.out ∧ "Provisioned on server: yes" ∈ s'.out) := by
  obtain ⟨i, hi⟩ := Prov.run_flag x t srv h he
  have hdi : d.device = some (i, true) := by rw [hdev, hi]
  refine ⟨i, hi, fun hop hn => C79_name a o attempts i true (by rw [hd, hdi]) hop hn hw, fun ho s' hs => ?_⟩
  obtain ⟨ecus, fetched, running, pending, -, -, -, -, hl⟩ := C79_report a d o attempts i true s' hd hdi hw ho hs
  rw [hl]
  constructor <;> simp

/-- C79 fails here: a start of aktualizr that dies after storing the ECUs and before noting that they are registered leaves a device
that works, and for which `--wait-until-provisioned` never ends and never prints anything, whatever starts follow. -/
theorem C79_never_provisioned {σ : Type} (env : Prov.Env) (server : Prov.Server σ) (cfg : Prov.Config)
    (secs : List (String × Prov.Secondary)) (t : Prov.Store) (srv : σ) (k : String × String) (i : String)
    (hk : t.keys = some k) (hne : t.ecus ≠ []) (h : ∀ e, e ∈ t.ecus ↔ e ∈ Prov.configured env cfg secs k.1)
    (hi : t.device = some (i, false)) (a : Around) (o : Options) (attempts : Nat) (hw : o.has "wait-until-provisioned" = true)
    (hdb : ∀ m, ∃ xs : List Prov.Start, (∀ x ∈ xs, x.cfg = cfg ∧ x.secondaries = secs) ∧
      (a.db m).device = (Prov.runs env server xs (t, srv)).1.device) :
    (main a o attempts {}).2.out = [] ∧ (main a o attempts {}).1 ≠ .ok () := by
  have key : ¬((main a o attempts {}).2.out ≠ [] ∨ (main a o attempts {}).1 = .ok ()) := by
    intro hc
    obtain ⟨⟨m, -, j, hj⟩, -⟩ := C79_wait a o attempts hw hc
    obtain ⟨xs, hx, he⟩ := hdb m
    refine (Prov.Unnoted.runs (env := env) (server := server) (k := k) xs (t, srv) hx ⟨hk, hne, h, ?_⟩).flag j (by rw [← he]; exact hj)
    intro j hj
    have : some (i, false) = some (j, true) := hi.symm.trans hj
    simp at this
  constructor
  · exact Classical.byContradiction (fun hc => key (.inl hc))
  · exact fun hc => key (.inr hc)

end Aktualizr.Info
