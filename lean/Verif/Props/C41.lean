import Verif.Lemmas.Provision

/-!
# C41, C54: provisioning

`run` is one start of aktualizr (import of files, then the initialiser), ended by success, an
exception or a crash after any number of effects; `runs` is a sequence of starts. Everything is for
every server, i.e. for every way of answering requests.
-/

namespace Aktualizr.Prov

variable {σ : Type} {env : Env} {server : Server σ}

/-! ## What an import does -/

/-- Only keys and credentials can change, keys only if there are none, credentials only to what is
in a file. -/
structure Imported (f : Files) (t t' : Store) : Prop where
  rest : t' = { t with keys := t'.keys, ca := t'.ca, cert := t'.cert, pkey := t'.pkey }
  keys : t'.keys = t.keys ∨
    (t.keys = none ∧ ∃ a b, f.pub = some (some a) ∧ f.priv = some (some b) ∧ t'.keys = some (a, b))
  ca : t'.ca = t.ca ∨ ∃ c, f.ca = some (some c) ∧ t'.ca = some c
  cert : t'.cert = t.cert ∨ ∃ c, f.cert = some (some c) ∧ t'.cert = some c
  pkey : t'.pkey = t.pkey ∨ ∃ c, f.pkey = some (some c) ∧ t'.pkey = some c

theorem Imported.refl (f : Files) (t : Store) : Imported f t t :=
  ⟨rfl, .inl rfl, .inl rfl, .inl rfl, .inl rfl⟩

theorem newContent_some {old : Option String} {file : Option (Option String)} {c : String}
    (h : newContent old file = some c) : file = some (some c) := by
  unfold newContent at h
  split at h
  · split at h
    · simp at h
    · simp at h; rw [h]
  · simp at h

/-- The state after a part of an import. -/
def ImpSt (f : Files) (s s' : St σ) : Prop :=
  ∃ t n, s' = { s with store := t, fuel := n } ∧ Imported f s.store t

theorem ImpSt.refl (f : Files) (s : St σ) : ImpSt f s s := ⟨s.store, s.fuel, rfl, Imported.refl f _⟩

theorem imp_bind {α β : Type} {f : Files} {s0 s : St σ} {m : P σ α} {g : α → P σ β}
    (hm : ImpSt f s0 (m s).2) (hg : ∀ a s', m s = (.ok a, s') → ImpSt f s0 (g a s').2) :
    ImpSt f s0 ((m >>= g) s).2 := by
  rw [bind_app]
  cases h : m s with
  | mk o s' =>
    rw [h] at hm
    cases o with
    | ok a => exact hg a s' h
    | error e => exact hm

theorem imp_write {f : Files} {s0 s : St σ} {g : Store → Store} (h : ImpSt f s0 s)
    (hg : Imported f s0.store s.store → Imported f s0.store (g s.store)) : ImpSt f s0 (write g s).2 := by
  unfold write
  obtain ⟨t, n, rfl, hi⟩ := h
  split
  · exact ⟨t, n, rfl, hi⟩
  · exact ⟨g t, _, rfl, hg hi⟩

theorem importKeys_imp {f : Files} {s0 s : St σ} (h : ImpSt f s0 s) : ImpSt f s0 (importPrimaryKeys f s).2 := by
  unfold importPrimaryKeys
  apply imp_bind h
  intro t s' ht
  simp at ht
  obtain ⟨rfl, rfl⟩ := ht
  cases hpub : f.pub with
  | none => exact h
  | some a => cases a with
    | none => exact h
    | some a => cases hpriv : f.priv with
      | none => exact h
      | some b => cases b with
        | none => exact h
        | some b =>
          dsimp only
          by_cases hk : s.store.keys.isSome = true
          · rw [if_pos hk]; exact h
          · rw [if_neg hk]
            refine imp_write h (fun hi => ⟨by rw [hi.rest], ?_, hi.ca, hi.cert, hi.pkey⟩)
            have hn : s.store.keys = none := by simpa using hk
            refine .inr ⟨?_, a, b, hpub, hpriv, rfl⟩
            rcases hi.keys with h1 | ⟨h1, _⟩
            · exact h1 ▸ hn
            · exact h1

theorem importCert_imp {f : Files} {s0 s : St σ} (h : ImpSt f s0 s) : ImpSt f s0 (importCert env f s).2 := by
  unfold importCert
  apply imp_bind h
  intro t s' ht
  simp at ht
  obtain ⟨rfl, rfl⟩ := ht
  cases hn : newContent s.store.cert f.cert with
  | none => exact h
  | some c =>
    dsimp only
    apply imp_bind
    · rw [M.orThrow_snd]; exact h
    intro _ s2 h2
    obtain ⟨_, rfl⟩ := M.orThrow_ok.1 h2
    exact imp_write h (fun hi => ⟨by rw [hi.rest], hi.keys, hi.ca, .inr ⟨c, newContent_some hn, rfl⟩, hi.pkey⟩)

theorem importCa_imp {f : Files} {s0 s : St σ} (h : ImpSt f s0 s) : ImpSt f s0 (importCa f s).2 := by
  unfold importCa
  apply imp_bind h
  intro t s' ht
  simp at ht
  obtain ⟨rfl, rfl⟩ := ht
  cases hn : newContent s.store.ca f.ca with
  | none => exact h
  | some c =>
    exact imp_write h (fun hi => ⟨by rw [hi.rest], hi.keys, .inr ⟨c, newContent_some hn, rfl⟩, hi.cert, hi.pkey⟩)

theorem importPkey_imp {f : Files} {s0 s : St σ} (h : ImpSt f s0 s) : ImpSt f s0 (importPkey f s).2 := by
  unfold importPkey
  apply imp_bind h
  intro t s' ht
  simp at ht
  obtain ⟨rfl, rfl⟩ := ht
  cases hn : newContent s.store.pkey f.pkey with
  | none => exact h
  | some c =>
    exact imp_write h (fun hi => ⟨by rw [hi.rest], hi.keys, hi.ca, hi.cert, .inr ⟨c, newContent_some hn, rfl⟩⟩)

theorem import_imp {f : Files} {s : St σ} : ImpSt f s (importData env f s).2 := by
  unfold importData
  have h1 := importKeys_imp (ImpSt.refl f s)
  apply imp_bind h1
  intro _ s1 e1
  rw [e1] at h1
  have h2 := importCert_imp (env := env) h1
  apply imp_bind h2
  intro _ s2 e2
  rw [e2] at h2
  have h3 := importCa_imp h2
  apply imp_bind h3
  intro _ s3 e3
  rw [e3] at h3
  exact importPkey_imp h3

/-- A start is an import and a sequence of changes. -/
theorem run_tr (x : Start) (t : Store) (srv : σ) : ∃ t1 n, Imported x.files t t1 ∧
    Tr env server x.cfg x.secondaries { store := t1, srv := srv, fuel := n, drawn := x.seed }
      (run env server x t srv).2 := by
  unfold run start
  have h := import_imp (env := env) (f := x.files)
    (s := { store := t, srv := srv, fuel := x.fuel, drawn := x.seed : St σ })
  obtain ⟨t1, n, h1, h2⟩ := h
  refine ⟨t1, n, h2, ?_⟩
  rw [bind_app]
  cases hm : importData env x.files { store := t, srv := srv, fuel := x.fuel, drawn := x.seed : St σ } with
  | mk o s' =>
    rw [hm] at h1
    simp only at h1
    subst h1
    cases o with
    | ok u => exact initialize_tr
    | error e => exact .refl _

/-- What every start keeps, a number of starts keep. -/
theorem runs_inv {I : Store → Prop} {xs : List Start} {t : Store} {srv : σ}
    (h : ∀ x ∈ xs, ∀ t srv, I t → I (run env server x t srv).2.store) (h0 : I t) :
    I (runs env server xs (t, srv)).1 := by
  induction xs generalizing t srv with
  | nil => exact h0
  | cons x r ih => exact ih (fun y hy => h y (by simp [hy])) (h x (by simp) t srv h0)

/-! ## What is stored stays -/

/-- The Uptane keys never change once they are stored, whatever the server answers, whatever is
imported and wherever the process dies. -/
theorem C41_keys (xs : List Start) (t : Store) (srv : σ) (k : String × String) (h : t.keys = some k) :
    (runs env server xs (t, srv)).1.keys = some k := by
  refine runs_inv (I := fun t => t.keys = some k) ?_ h
  intro x _ t srv ht
  obtain ⟨t1, n, hi, htr⟩ := run_tr (env := env) (server := server) x t srv
  refine htr.inv (I := fun s => s.store.keys = some k) ?_ ?_
  · intro a b hc ha
    cases hc <;> first | exact ha | simp_all
  · rcases hi.keys with h1 | ⟨h1, _⟩
    · exact h1.trans ht
    · rw [h1] at ht; simp at ht

/-- A stored device id is given up only if the server said, in this very start, that a device of
that name is already registered. -/
theorem C41_device_id (x : Start) (t : Store) (srv : σ) (d : String) (r : Bool) (h : t.device = some (d, r)) :
    (∃ r', (run env server x t srv).2.store.device = some (d, r')) ∨
      (Creds.shared, Req.device d, Resp.refused (some "device_already_registered")) ∈ (run env server x t srv).2.log := by
  obtain ⟨t1, n, hi, htr⟩ := run_tr (env := env) (server := server) x t srv
  refine htr.inv (I := fun s => (∃ r', s.store.device = some (d, r')) ∨
    (Creds.shared, Req.device d, Resp.refused (some "device_already_registered")) ∈ s.log) ?_ ?_
  · intro a b hc ha
    cases hc <;> first
      | exact ha
      | (rcases ha with ⟨r', ha⟩ | ha
         · simp_all
         · exact .inr (by simp_all))
  · left
    rw [hi.rest]
    exact ⟨r, h⟩

/-- No imported file is empty. -/
def NonEmpty (f : Files) : Prop :=
  f.ca ≠ some (some "") ∧ f.cert ≠ some (some "") ∧ f.pkey ≠ some (some "")

theorem isOk_iff {t : Store} : isOk t = true ↔
    (∃ c, t.ca = some c ∧ c ≠ "") ∧ (∃ c, t.cert = some c ∧ c ≠ "") ∧ ∃ c, t.pkey = some c ∧ c ≠ "" := by
  unfold isOk tls
  cases t.ca <;> cases t.cert <;> cases t.pkey <;> simp
  exact ⟨fun ⟨⟨a, b⟩, c⟩ => ⟨c, b, a⟩, fun ⟨a, b, c⟩ => ⟨⟨c, b⟩, a⟩⟩

theorem Imported.isOk {f : Files} {t t' : Store} (h : Imported f t t') (hf : NonEmpty f) (ht : Prov.isOk t = true) :
    Prov.isOk t' = true := by
  rw [isOk_iff] at ht ⊢
  obtain ⟨h1, h2, h3⟩ := hf
  refine ⟨?_, ?_, ?_⟩
  · rcases h.ca with h | ⟨c, hc, h⟩
    · rw [h]; exact ht.1
    · exact ⟨c, h, fun e => h1 (by rw [hc, e])⟩
  · rcases h.cert with h | ⟨c, hc, h⟩
    · rw [h]; exact ht.2.1
    · exact ⟨c, h, fun e => h2 (by rw [hc, e])⟩
  · rcases h.pkey with h | ⟨c, hc, h⟩
    · rw [h]; exact ht.2.2
    · exact ⟨c, h, fun e => h3 (by rw [hc, e])⟩

/-- Once the device has complete credentials its id never changes, as long as no empty file is
imported over them. -/
theorem C41_provisioned (xs : List Start) (t : Store) (srv : σ) (d : String) (r : Bool) (h : t.device = some (d, r))
    (hk : isOk t = true) (hf : ∀ x ∈ xs, NonEmpty x.files) :
    (∃ r', (runs env server xs (t, srv)).1.device = some (d, r')) ∧ isOk (runs env server xs (t, srv)).1 = true := by
  refine runs_inv (I := fun t => (∃ r', t.device = some (d, r')) ∧ isOk t = true) ?_ ⟨⟨r, h⟩, hk⟩
  intro x hx t srv ⟨⟨r', ht⟩, hk⟩
  obtain ⟨t1, n, hi, htr⟩ := run_tr (env := env) (server := server) x t srv
  obtain ⟨h1, _, _, h4, _⟩ := tr_isOk htr (hi.isOk (hf x hx) hk) (by simp)
  refine ⟨h4 d r' ?_, h1⟩
  show t1.device = _
  rw [hi.rest]
  exact ht

/-- With device credentials instead of shared ones the id is never given up either. -/
theorem C41_device_cred (xs : List Start) (t : Store) (srv : σ) (d : String) (r : Bool) (h : t.device = some (d, r))
    (hm : ∀ x ∈ xs, x.cfg.mode = .deviceCred) :
    ∃ r', (runs env server xs (t, srv)).1.device = some (d, r') := by
  refine runs_inv (I := fun t => ∃ r', t.device = some (d, r')) ?_ ⟨r, h⟩
  intro x hx t srv ⟨r', ht⟩
  obtain ⟨t1, n, hi, htr⟩ := run_tr (env := env) (server := server) x t srv
  refine (htr.inv (I := fun s => (∃ r', s.store.device = some (d, r')) ∧ s.http ≠ .shared) ?_ ⟨?_, by simp⟩).1
  · intro a b hc ⟨⟨r', ha⟩, hs⟩
    have hm := hm x hx
    cases hc <;> first
      | exact ⟨⟨r', ha⟩, hs⟩
      | exact ⟨⟨r', ha⟩, own_ne _⟩
      | exact absurd ‹a.http = .shared› hs
      | exact absurd hm ‹x.cfg.mode ≠ .deviceCred›
      | simp_all
  · refine ⟨r', ?_⟩
    show t1.device = _
    rw [hi.rest]
    exact ht

/-! ## ECUs -/

/-- If the configuration asks for the ECUs already stored, nothing changes and nothing is
registered again. -/
theorem C41_same_config (x : Start) (t : Store) (srv : σ) (k : String × String) (hk : t.keys = some k)
    (hne : t.ecus ≠ []) (h : ∀ e, e ∈ t.ecus ↔ e ∈ configured env x.cfg x.secondaries k.1) :
    (run env server x t srv).2.store.ecus = t.ecus ∧
      ∀ c p l r, (c, Req.ecus p l, r) ∉ (run env server x t srv).2.log := by
  obtain ⟨t1, n, hi, htr⟩ := run_tr (env := env) (server := server) x t srv
  refine (htr.inv (I := fun s => s.store.keys = some k ∧ s.store.ecus = t.ecus ∧
    ∀ c p l r, (c, Req.ecus p l, r) ∉ s.log) ?_ ⟨?_, ?_, by simp⟩).2
  · intro a b hc ⟨h1, h2, h3⟩
    cases hc with
    | register k' l n _ _ g3 _ _ g6 =>
      rw [h1] at g3
      obtain rfl := Option.some.inj g3
      rw [h2] at g6
      exact absurd (g6 (fun e he => (h e).1 he) (fun e he => (h e).2 he)) hne
    | ecus k' l b n g1 _ _ _ g6 =>
      rw [h1] at g1
      obtain rfl := Option.some.inj g1
      rw [h2] at g6
      exact absurd (g6 (fun e he => (h e).1 he) (fun e he => (h e).2 he)) hne
    | key k' m n g1 => rw [h1] at g1; simp at g1
    | ask d r n =>
      refine ⟨h1, h2, ?_⟩
      intro c p l r hm
      simp at hm
      exact h3 c p l r hm
    | _ => exact ⟨h1, h2, h3⟩
  · rcases hi.keys with h1 | ⟨h1, _⟩
    · exact h1.trans hk
    · rw [h1] at hk; simp at hk
  · show t1.ecus = _
    rw [hi.rest]

/-- The requests of an initialisation. -/
theorem C54_requests (x : Start) (t : Store) (srv : σ) (c : Creds) (q : Req) (r : Resp)
    (h : (c, q, r) ∈ (run env server x t srv).2.log) :
    match q with
    | .device _ => c = .shared ∧ x.cfg.mode ≠ .deviceCred
    | .ecus p l =>
      let f := (run env server x t srv).2.store
      isOk f = true ∧ c = .device (f.ca.getD "") (f.cert.getD "") (f.pkey.getD "") ∧
      ∃ k e m, f.keys = some k ∧ l = e :: m ∧ e.serial = p ∧ e.key = ⟨k.1, x.cfg.keyType⟩ ∧
        (e.serial, e.hwId) :: x.secondaries.map (fun y => (y.1, y.2.hwId)) = configured env x.cfg x.secondaries k.1 ∧
        m.map (fun e => e.serial) = x.secondaries.map Prod.fst := by
  obtain ⟨t1, n, hi, htr⟩ := run_tr (env := env) (server := server) x t srv
  have hI := htr.inv (I := fun s => ∀ c q r, (c, q, r) ∈ s.log → match q with
    | .device _ => c = .shared ∧ x.cfg.mode ≠ .deviceCred
    | .ecus p l => Ready s ∧ c = own s.store ∧
      ∃ k e m, s.store.keys = some k ∧ l = e :: m ∧ e.serial = p ∧ e.key = ⟨k.1, x.cfg.keyType⟩ ∧
        (e.serial, e.hwId) :: x.secondaries.map (fun y => (y.1, y.2.hwId)) = configured env x.cfg x.secondaries k.1 ∧
        m.map (fun e => e.serial) = x.secondaries.map Prod.fst) ?_ (by simp) c q r h
  · cases q with
    | device d => exact hI
    | ecus p l => exact ⟨hI.1.1, hI.2.1, hI.2.2⟩
  · intro a b hc ha c q r hm
    have hold : ∀ c q r, (c, q, r) ∈ a.log → match q with
      | .device _ => c = .shared ∧ x.cfg.mode ≠ .deviceCred
      | .ecus p l => Ready b ∧ c = own b.store ∧
        ∃ k e m, b.store.keys = some k ∧ l = e :: m ∧ e.serial = p ∧ e.key = ⟨k.1, x.cfg.keyType⟩ ∧
          (e.serial, e.hwId) :: x.secondaries.map (fun y => (y.1, y.2.hwId)) = configured env x.cfg x.secondaries k.1 ∧
          m.map (fun e => e.serial) = x.secondaries.map Prod.fst := by
      intro c q r hm
      have := ha c q r hm
      cases q with
      | device d => exact this
      | ecus p l =>
        obtain ⟨h1, h2, k, e, m, h3, h4⟩ := this
        obtain ⟨g1, g2⟩ := ready_chg hc ⟨h1, h2.symm⟩
        refine ⟨g1, g2.symm, k, e, m, ?_, h4⟩
        cases hc <;> first | exact h3 | simp_all
    cases hc with
    | ask d r' n g1 g2 g3 =>
      simp only [List.mem_append, List.mem_singleton, Prod.mk.injEq] at hm
      rcases hm with hm | ⟨rfl, rfl, rfl⟩
      · exact hold c q r hm
      · exact ⟨rfl, g3⟩
    | register k l n g1 g2 g3 g4 g5 g6 =>
      simp only [List.mem_append, List.mem_singleton, Prod.mk.injEq] at hm
      rcases hm with hm | ⟨rfl, rfl, rfl⟩
      · exact hold c q r hm
      · refine ⟨⟨g1, g2⟩, rfl, k, ?_⟩
        cases l with
        | nil => simp at g5
        | cons e m =>
          simp [configured] at g4 g5
          refine ⟨e, m, g3, rfl, ?_, ?_, ?_, ?_⟩
          · simp [configured]; exact g4.1
          · exact g5.2
          · simp [configured]; exact ⟨g4.1, g5.1⟩
          · rw [g4.2]; exact List.map_congr_left (fun _ _ => rfl)
    | _ => exact hold c q r hm

/-- The stored list of ECUs changes only to the configured one, and only if the server accepted in
this start the registration of exactly these serials. -/
theorem C41_ecus_accepted (x : Start) (t : Store) (srv : σ) :
    (run env server x t srv).2.store.ecus = t.ecus ∨
      ∃ k c p l b, (run env server x t srv).2.store.keys = some k ∧
        (run env server x t srv).2.store.ecus = configured env x.cfg x.secondaries k.1 ∧
        (c, Req.ecus p l, Resp.ok b) ∈ (run env server x t srv).2.log ∧
        l.map (fun e => e.serial) = (run env server x t srv).2.store.ecus.map Prod.fst ∧
        (l.map (fun e => e.serial)).Nodup := by
  obtain ⟨t1, n, hi, htr⟩ := run_tr (env := env) (server := server) x t srv
  refine htr.inv (I := fun s => s.store.ecus = t.ecus ∨
      ∃ k c p l b, s.store.keys = some k ∧ s.store.ecus = configured env x.cfg x.secondaries k.1 ∧
        (c, Req.ecus p l, Resp.ok b) ∈ s.log ∧ l.map (fun e => e.serial) = s.store.ecus.map Prod.fst ∧
        (l.map (fun e => e.serial)).Nodup) ?_ ?_
  · intro a b hc ha
    cases hc with
    | ecus k l b n g1 g2 g3 g4 _ => exact .inr ⟨k, _, _, l, b, g1, rfl, g2, g3, g3 ▸ g4⟩
    | key k m n g1 =>
      rcases ha with ha | ⟨k', _, _, _, _, h, _⟩
      · exact .inl ha
      · rw [g1] at h; simp at h
    | ask d r n =>
      rcases ha with ha | ⟨k, c, p, l, b, h1, h2, h3, h4⟩
      · exact .inl ha
      · exact .inr ⟨k, c, p, l, b, h1, h2, by simp [h3], h4⟩
    | register k l n =>
      rcases ha with ha | ⟨k, c, p, l, b, h1, h2, h3, h4⟩
      · exact .inl ha
      · exact .inr ⟨k, c, p, l, b, h1, h2, by simp [h3], h4⟩
    | _ => exact ha
  · left
    show t1.ecus = _
    rw [hi.rest]

theorem runs_append (xs ys : List Start) (w : Store × σ) :
    runs env server (xs ++ ys) w = runs env server ys (runs env server xs w) := by
  induction xs generalizing w with
  | nil => rfl
  | cons x r ih => exact ih _

/-- With a fixed configuration of ECUs the list stored first is there for good. -/
theorem C41_first (c : String → List (String × String)) (xs ys : List Start) (t : Store) (srv : σ)
    (hc : ∀ x ∈ xs ++ ys, ∀ p, configured env x.cfg x.secondaries p = c p) (h0 : t.ecus = [])
    (h : (runs env server xs (t, srv)).1.ecus ≠ []) :
    (runs env server (xs ++ ys) (t, srv)).1.ecus = (runs env server xs (t, srv)).1.ecus := by
  have h1 : (runs env server xs (t, srv)).1.ecus = [] ∨
      ∃ k, (runs env server xs (t, srv)).1.keys = some k ∧ (runs env server xs (t, srv)).1.ecus = c k.1 := by
    refine runs_inv (I := fun t => t.ecus = [] ∨ ∃ k, t.keys = some k ∧ t.ecus = c k.1) ?_ (.inl h0)
    intro x hx t srv ht
    rcases C41_ecus_accepted (env := env) (server := server) x t srv with h | ⟨k, _, _, _, _, g1, g2, _⟩
    · rw [h]
      rcases ht with ht | ⟨k, hk, ht⟩
      · exact .inl ht
      · exact .inr ⟨k, C41_keys [x] t srv k hk, ht⟩
    · exact .inr ⟨k, g1, by rw [g2, hc x (by simp [hx])]⟩
  rcases h1 with h1 | ⟨k, hk, he⟩
  · exact absurd h1 h
  rw [runs_append]
  generalize runs env server xs (t, srv) = w at h hk he ⊢
  obtain ⟨t', srv'⟩ := w
  refine (runs_inv (env := env) (server := server) (xs := ys) (srv := srv')
    (I := fun t => t.keys = some k ∧ t.ecus = t'.ecus) ?_ ⟨hk, rfl⟩).2
  intro x hx u srv ⟨hu, hu'⟩
  refine ⟨C41_keys [x] u srv k hu, ?_⟩
  rw [← hu']
  exact (C41_same_config x u srv k hu (hu' ▸ h)
    (by intro e; rw [hu', he, hc x (by simp [hx])])).1

/-! ## Counters -/

theorem lookup_map_of_ne {α : Type} {k x : String} {v : α} {t : List (String × α)} (h : x ≠ k) :
    (t.map (fun r => if r.1 == k then (k, v) else r)).lookup x = t.lookup x := by
  induction t with
  | nil => rfl
  | cons r l ih =>
    obtain ⟨a, b⟩ := r
    rw [List.map_cons]
    by_cases ha : a = k
    · subst ha
      have hx : (x == a) = false := by simpa using h
      simp only [beq_self_eq_true, if_true, List.lookup_cons, hx, ih]
    · have hak : (a == k) = false := by simpa using ha
      simp only [hak, Bool.false_eq_true, if_false, List.lookup_cons, ih]

theorem lookup_put_of_ne {α : Type} {k x : String} {v : α} {t : List (String × α)} (h : x ≠ k) :
    (put k v t).lookup x = t.lookup x := by
  have hx : (x == k) = false := by simpa using h
  unfold put
  split
  · exact lookup_map_of_ne h
  · rw [List.lookup_append]
    simp [List.lookup_cons, hx]

/-- A report counter is never set back by an initialisation. -/
theorem C41_counter (xs : List Start) (t : Store) (srv : σ) (e : String) (n : Int) (h : t.counters.lookup e = some n) :
    (runs env server xs (t, srv)).1.counters.lookup e = some n := by
  refine runs_inv (I := fun t => t.counters.lookup e = some n) ?_ h
  intro x _ t srv ht
  obtain ⟨t1, m, hi, htr⟩ := run_tr (env := env) (server := server) x t srv
  refine htr.inv (I := fun s => s.store.counters.lookup e = some n) ?_ ?_
  · intro a b hc ha
    cases hc with
    | counter x r _ g1 g2 =>
      have hne : e ≠ x.1 := by
        intro he
        have hm : (e, n) ∈ a.store.counters := by
          have := List.lookup_eq_some_iff.1 ha
          obtain ⟨l1, l2, h, _⟩ := this
          rw [h]; simp
        exact g2 (e, n) hm x (by rw [g1]; simp) he.symm
      exact (lookup_put_of_ne hne).trans ha
    | _ => exact ha
  · show t1.counters.lookup e = _
    rw [hi.rest]
    exact ht

/-! ## Success -/

/-- An initialisation that succeeds leaves the device with complete credentials, an id, the keys of
the Primary, exactly the configured ECUs (if no two have the same serial), a report counter, and
without shared credentials if new ones had to be asked for and the shared ones are not to be used
again. -/
theorem C41_success (x : Start) (t : Store) (srv : σ) (h : (run env server x t srv).1 = .ok ())
    (hnd : ∀ p, ((configured env x.cfg x.secondaries p).map Prod.fst).Nodup) :
    let f := (run env server x t srv).2.store
    isOk f = true ∧ f.device.isSome = true ∧
      (∃ k, f.keys = some k ∧ k.1 ≠ "" ∧ ∀ e, e ∈ f.ecus ↔ e ∈ configured env x.cfg x.secondaries k.1) ∧
      (∃ c ∈ f.counters, ∃ e ∈ f.ecus, e.1 = c.1) ∧
      (x.cfg.mode = .sharedCred → f.shared = true → ∃ t1, Imported x.files t t1 ∧ isOk t1 = true) := by
  intro f
  have hf : f = (run env server x t srv).2.store := rfl
  unfold run start at h hf
  cases hm : importData env x.files { store := t, srv := srv, fuel := x.fuel, drawn := x.seed : St σ } with
  | mk o s1 =>
    have himp := import_imp (env := env) (f := x.files) (s := { store := t, srv := srv, fuel := x.fuel, drawn := x.seed : St σ })
    rw [hm] at himp
    rw [bind_app, hm] at h hf
    cases o with
    | error e => simp at h
    | ok u =>
      dsimp only at h hf
      cases hr : initialize' env server x.cfg x.secondaries s1 with
      | mk o s' =>
        rw [hr] at h hf
        simp only at h hf
        subst h
        clear_value f
        subst hf
        obtain ⟨s2, s3, u3, hk2, hd2, h3, h4⟩ := attempts_ok hr
        have hr3 := tls_post h3
        obtain ⟨hd3, hsh⟩ := tls_frame h3
        have t4 := rest_tr (env := env) (server := server) (cfg := x.cfg) (secondaries := x.secondaries) hr3
        rw [h4] at t4
        obtain ⟨g1, _, _, g4, _⟩ := tr_isOk t4 hr3.1 (hr3.2 ▸ own_ne _)
        obtain ⟨k, r1, r2, r3, r4⟩ := rest_ok h4 hnd
        refine ⟨g1, ?_, ⟨k, r1, r2, r3⟩, r4, ?_⟩
        · rw [← hd3] at hd2
          obtain ⟨d, hd⟩ := Option.isSome_iff_exists.1 hd2
          obtain ⟨r', h⟩ := g4 d.1 d.2 hd
          rw [h]; rfl
        · intro hmode hshared
          obtain ⟨t1, n, rfl, hi⟩ := himp
          refine ⟨t1, hi, ?_⟩
          cases hk : isOk t1 with
          | true => rfl
          | false =>
            rw [hk] at hk2
            have hs3 := hsh hk2 hmode
            have : s'.store.shared = false := by
              refine t4.inv (I := fun s => s.store.shared = false) ?_ hs3
              intro a b hc ha
              cases hc <;> first | exact ha | rfl
            rw [this] at hshared
            simp at hshared

/-! ## Completion -/

/-- Files that can be imported. -/
structure FilesOk (env : Env) (cfg : Config) (f : Files) : Prop where
  nonEmpty : NonEmpty f
  cert : ∀ c, f.cert = some (some c) → (env.cn c).isSome = true
  key : ∀ p, f.pub = some (some p) → KeyOk env cfg.keyType p

theorem import_goes {cfg : Config} {f : Files} {s : St σ} (h : FilesOk env cfg f) : Goes (importData env f) 4 s := by
  unfold importData
  refine Goes.mono (n := 1 + (1 + (1 + 1))) ?_ (by omega)
  refine Goes.bind ?_ (fun _ _ _ => Goes.bind ?_ (fun _ _ _ => Goes.bind ?_ (fun _ _ _ => ?_)))
  · unfold importPrimaryKeys
    refine Goes.mono (n := 0 + 1) (Goes.bind .gets ?_) (by omega)
    intro t s1 h1
    cases f.pub with
    | none => exact (Goes.pure _ _).mono (by omega)
    | some a => cases a with
      | none => exact (Goes.pure _ _).mono (by omega)
      | some a => cases f.priv with
        | none => exact (Goes.pure _ _).mono (by omega)
        | some b => cases b with
          | none => exact (Goes.pure _ _).mono (by omega)
          | some b =>
            dsimp only
            split
            · exact (Goes.pure _ _).mono (by omega)
            · exact .write
  · unfold importCert
    refine Goes.mono (n := 0 + 1) (Goes.bind .gets ?_) (by omega)
    intro t s1 h1
    cases hn : newContent t.cert f.cert with
    | none => exact (Goes.pure _ _).mono (by omega)
    | some c =>
      dsimp only
      exact Goes.mono (n := 0 + 1) (Goes.bind (.orThrow (h.cert c (newContent_some hn))) (fun _ _ _ => .write)) (by omega)
  · unfold importCa
    refine Goes.mono (n := 0 + 1) (Goes.bind .gets ?_) (by omega)
    intro t s1 h1
    cases hn : newContent t.ca f.ca with
    | none => exact (Goes.pure _ _).mono (by omega)
    | some c => exact .write
  · unfold importPkey
    refine Goes.mono (n := 0 + 1) (Goes.bind .gets ?_) (by omega)
    intro t s1 h1
    cases hn : newContent t.pkey f.pkey with
    | none => exact (Goes.pure _ _).mono (by omega)
    | some c => exact .write

/-- What every run keeps, so that a later one can get to its end. -/
structure Base (env : Env) (type : KeyType) (t : Store) : Prop where
  keys : ∀ k, t.keys = some k → KeyOk env type k.1
  secs : SecsOk env t
  creds : isOk t = true ∨ t.shared = true

theorem run_base {type : KeyType} (x : Start) (t : Store) (srv : σ) (hs : Sound env x.cfg x.secondaries)
    (hf : FilesOk env x.cfg x.files) (ht : x.cfg.keyType = type) (h : Base env type t) :
    Base env type (run env server x t srv).2.store := by
  subst ht
  obtain ⟨t1, n, hi, htr⟩ := run_tr (env := env) (server := server) x t srv
  have h1 : Base env x.cfg.keyType t1 := by
    refine ⟨?_, ?_, ?_⟩
    · intro k hk
      rcases hi.keys with g | ⟨_, a, b, g2, _, g4⟩
      · exact h.keys k (g ▸ hk)
      · rw [hk] at g4
        obtain rfl := Option.some.inj g4
        exact hf.key a g2
    · have : t1.secs = t.secs := by rw [hi.rest]
      unfold SecsOk
      rw [this]
      exact h.secs
    · rcases h.creds with g | g
      · exact .inl (hi.isOk hf.nonEmpty g)
      · exact .inr (by rw [hi.rest]; exact g)
  have hinv := htr.inv (I := fun s => (∀ k, s.store.keys = some k → KeyOk env x.cfg.keyType k.1) ∧
    (isOk s.store = true ∨ s.store.shared = true) ∧ (s.http = .shared → s.store.shared = true)) ?_
    ⟨h1.keys, h1.creds, by simp⟩
  · exact ⟨hinv.1, secsOk_tr htr hs.secs h1.secs, hinv.2.1⟩
  · intro a b hc ⟨g1, g2, g3⟩
    cases hc with
    | key k m n e1 e2 =>
      refine ⟨?_, g2, g3⟩
      intro k' hk'
      obtain rfl := Option.some.inj hk'
      obtain ⟨k'', e3, e4⟩ := hs.key m
      rw [e2] at e3
      obtain rfl := Option.some.inj e3
      exact e4
    | useShared _ _ e => exact ⟨g1, g2, fun _ => e⟩
    | useOwn e => exact ⟨g1, g2, fun h => absurd h (own_ne _)⟩
    | clean n e1 _ e3 => exact ⟨g1, .inl e1, fun h => absurd h (e3 ▸ own_ne _)⟩
    | ca d r b c n _ e2 => exact ⟨g1, .inr (g3 e2), g3⟩
    | cert d r b c n _ e2 => exact ⟨g1, .inr (g3 e2), g3⟩
    | pkey d r b c n _ e2 => exact ⟨g1, .inr (g3 e2), g3⟩
    | _ => exact ⟨g1, g2, g3⟩

/-- The serial of the Primary. -/
def primary (env : Env) (cfg : Config) (pub : String) : String :=
  if cfg.primarySerial = "" then env.keyId pub else cfg.primarySerial

/-- A configuration one can provision with. -/
structure Usable (env : Env) (type : KeyType) (x : Start) : Prop where
  sound : Sound env x.cfg x.secondaries
  files : FilesOk env x.cfg x.files
  mode : x.cfg.mode ≠ .deviceCred
  type : x.cfg.keyType = type

/-- From a storage as previous starts leave it, a start gets to its end: the server accepts
ECUs, and it accepts the device or takes it for one already registered, where in the latter case random
names are accepted and there is no certificate that tells a name. -/
theorem C41_completes_from_partial (x : Start) (t : Store) (srv : σ) (hx : Usable env x.cfg.keyType x)
    (ht : Base env x.cfg.keyType t)
    (hp : ∀ e, t.ecus.head? = some e → e.1 ∉ x.secondaries.map Prod.fst)
    (hfuel : 18 + t.ecus.length + 2 * x.secondaries.length ≤ x.fuel)
    (ha : ∀ srv c p l, ∃ body, (server srv c (.ecus p l)).1 = .ok body)
    (hdev : ∀ srv d, Accepts env (server srv .shared (.device d)).1 ∨
      ((server srv .shared (.device d)).1 = .refused (some "device_already_registered") ∧
        x.cfg.deviceId = "" ∧ t.cert = none ∧ x.files.cert = none ∧
        ∀ srv n, Accepts env (server srv .shared (.device (env.newName n))).1)) :
    (run env server x t srv).1 = .ok () := by
  unfold run start
  obtain ⟨u1, s1, h1, hf1⟩ := import_goes (env := env) hx.files
    (s := { store := t, srv := srv, fuel := x.fuel, drawn := x.seed : St σ }) (by simp; omega)
  have himp := import_imp (env := env) (f := x.files)
    (s := { store := t, srv := srv, fuel := x.fuel, drawn := x.seed : St σ })
  rw [h1] at himp
  obtain ⟨t1, n, hs1, hi⟩ := himp
  simp only at hs1
  subst hs1
  have hsane : Sane env x.cfg x.secondaries t1 := by
    refine ⟨?_, ?_, ?_, ?_⟩
    · intro k hk
      rcases hi.keys with g | ⟨_, a, b, g2, _, g4⟩
      · exact ht.keys k (g ▸ hk)
      · rw [hk] at g4
        obtain rfl := Option.some.inj g4
        exact hx.files.key a g2
    · have : t1.secs = t.secs := by rw [hi.rest]
      unfold SecsOk
      rw [this]
      exact ht.secs
    · rcases ht.creds with g | g
      · exact .inl (hi.isOk hx.files.nonEmpty g)
      · exact .inr (by rw [hi.rest]; exact g)
    · have : t1.ecus = t.ecus := by rw [hi.rest]
      rw [this]
      exact hp
  have hec : t1.ecus.length = t.ecus.length := by rw [hi.rest]
  rw [M.run_bind h1]
  obtain ⟨u2, s2, h2, _⟩ := initialize_goes (env := env) (server := server) (cfg := x.cfg) (secondaries := x.secondaries)
    (s := { store := t1, srv := srv, fuel := n, drawn := x.seed : St σ }) t.ecus.length hx.sound hx.mode hsane
    (Nat.le_of_eq hec) ha
    (by
      intro srv d
      rcases hdev srv d with h | ⟨h, h2, h3, h4, h5⟩
      · exact .inl h
      · refine .inr ⟨h, h2, ?_, h5⟩
        rcases hi.cert with g | ⟨c, g, _⟩
        · rw [← h3]; exact g
        · rw [h4] at g; simp at g)
    (by simp at hf1 ⊢; omega)
  rw [h2]

/-- However often initialisation was interrupted, and wherever, with a server that accepts what it is
asked for it gets to its end once it is not interrupted. -/
theorem C41_completes_partial (type : KeyType) (xs : List Start) (x : Start) (srv srv' : σ) (L : Nat)
    (hx : ∀ y ∈ x :: xs, Usable env type y)
    (hp : ∀ y ∈ xs, ∀ p, primary env y.cfg p ∉ x.secondaries.map Prod.fst)
    (hL : ∀ y ∈ xs, 1 + y.secondaries.length ≤ L) (hfuel : 18 + L + 2 * x.secondaries.length ≤ x.fuel)
    (ha : ∀ srv c p l, ∃ body, (server srv c (.ecus p l)).1 = .ok body)
    (hdev : ∀ srv d, Accepts env (server srv .shared (.device d)).1) :
    (run env server x (runs env server xs ({}, srv)).1 srv').1 = .ok () := by
  have hb : Base env type (runs env server xs ({}, srv)).1 := by
    refine runs_inv (I := fun t => Base env type t) ?_ ⟨by simp, by intro _ _ h; simp at h, .inr rfl⟩
    intro y hy t srv h
    have hu := hx y (by simp [hy])
    exact run_base y t srv hu.sound hu.files hu.type h
  have he : (runs env server xs ({}, srv)).1.ecus.length ≤ L ∧
      ∀ e, (runs env server xs ({}, srv)).1.ecus.head? = some e → e.1 ∉ x.secondaries.map Prod.fst := by
    refine runs_inv (I := fun t => t.ecus.length ≤ L ∧ ∀ e, t.ecus.head? = some e → e.1 ∉ x.secondaries.map Prod.fst)
      ?_ ⟨by simp, by simp⟩
    intro y hy t srv h
    rcases C41_ecus_accepted (env := env) (server := server) y t srv with g | ⟨k, _, _, _, _, _, g, _⟩
    · rw [g]; exact h
    · rw [g]
      constructor
      · have := hL y hy
        simp [configured]
        omega
      · intro e hm
        simp [configured] at hm
        rw [← hm]
        exact hp y hy k.1
  have hu := hx x (by simp)
  have ht := hu.type
  subst ht
  exact C41_completes_from_partial x _ srv' hu hb he.2 (by omega) ha (fun srv d => .inl (hdev srv d))

/-! ## Cases -/

namespace Case

/-- Certificates are the names they are for. -/
def toy : Env where
  cn := fun c => if c = "" then none else some c
  keyId := fun k => k
  rsaType := fun _ => .rsa2048
  newKey := fun _ => some ("pub", "priv")
  newName := fun n => if n < 5 then "blue-fox" else "red-fox"
  p12 := fun b => some ("ca", if b = "" then "x" else b, "key")

def cfg : Config := { primarySerial := "prim", primaryHwId := "board" }

def sec : String × Secondary := ("sec", { hwId := "lamp", type := "IP", key := ⟨"sk", .ed25519⟩ })

/-- A server that takes everything. -/
def easy : Server Unit := fun _ _ q => match q with
  | .device d => (.ok d, ())
  | .ecus _ _ => (.ok "", ())

/-- A server that takes every device and every ECU once. -/
def strict : Server (List String × List String) := fun w _ q => match q with
  | .device d => if w.1.contains d then (.refused (some "device_already_registered"), w) else (.ok d, (d :: w.1, w.2))
  | .ecus _ l =>
    if l.any (fun e => w.2.contains e.serial) then (.refused (some "ecu_already_registered"), w)
    else (.ok "", (w.1, l.map (fun e => e.serial) ++ w.2))

def go (fuel : Nat) (seed : Nat := 0) : Start := { cfg := cfg, secondaries := [sec], fuel := fuel, seed := seed }

theorem sound : Sound toy cfg [sec] where
  serial := by intro p; simp [cfg]; decide
  hw := by decide
  nodup := by intro p; simp [configured, cfg, sec]
  type := by decide
  key := by intro n; exact ⟨("pub", "priv"), rfl, by decide, by intro _; rfl⟩
  secs := by simp [sec]; intro h; simp at h

theorem usable (fuel seed : Nat) : Usable toy .rsa2048 (go fuel seed) where
  sound := sound
  files := ⟨by simp [go, NonEmpty], by simp [go], by simp [go]⟩
  mode := by simp [go, cfg]
  type := rfl

/-- Interrupted twice, then completed. -/
example : (run toy easy (go 24) (runs toy easy [go 3, go 8] ({}, ())).1 ()).1 = .ok () := by
  refine C41_completes_partial .rsa2048 _ _ () () 2 ?_ ?_ ?_ (by decide) ?_ ?_
  · intro y hy
    simp at hy
    rcases hy with rfl | rfl | rfl <;> exact usable _ _
  · intro y hy p
    simp at hy
    rcases hy with rfl | rfl <;> simp [primary, go, cfg, sec]
  · intro y hy
    simp at hy
    rcases hy with rfl | rfl <;> simp [go]
  · intro _ _ _ _; exact ⟨"", rfl⟩
  · intro srv d
    refine ⟨d, ("ca", if d = "" then "x" else d, "key"), rfl, rfl, by simp, ?_, by simp⟩
    by_cases h : d = "" <;> simp [h]

/-- What such starts leave. -/
example : (runs toy easy [go 3, go 6, go 24] ({}, ())).1 =
    { device := some ("blue-fox", true), ca := some "ca", cert := some "blue-fox", pkey := some "key",
      keys := some ("pub", "priv"), ecus := [("prim", "board"), ("sec", "lamp")],
      secs := [("sec", ⟨"IP", "ED25519", "sk"⟩)], counters := [("prim", 0)], shared := false } := by decide +kernel

/-- The hypotheses of the theorems on what stays hold there, also for other configurations. -/
example : (runs toy easy [go 30, { go 30 with secondaries := [] }, go 9] ({}, ())).1.keys = some ("pub", "priv") ∧
    (runs toy easy [go 30, { go 30 with secondaries := [] }] ({}, ())).1.ecus = [("prim", "board")] ∧
    (runs toy easy [go 30, { go 30 with secondaries := [] }] ({}, ())).1.misconfigured = [("sec", "lamp")] ∧
    (runs toy easy [go 30, { go 30 with secondaries := [] }, go 30] ({}, ())).1.device = some ("blue-fox", true) := by
  decide +kernel

/-- With the strict server all goes well if nothing is interrupted, also with a name already taken. -/
example : (run toy strict (go 30) {} (["green-fox"], [])).1 = .ok () ∧
    (run toy strict (go 30 4) {} (["blue-fox"], [])).1 = .ok () ∧
    (run toy strict (go 30 4) {} (["blue-fox"], [])).2.store.device = some ("red-fox", true) := by decide +kernel

end Case

/-! ## What goes wrong

The answer to a registration of ECUs can get lost: the process dies after the request. -/

/-- From then on no start succeeds with a server that does not register an ECU twice. -/
theorem C41_lost_answer (env : Env) (p : String) (hp : p ≠ "") (xs : List Start) (x : Start) (t : Store)
    (srv : List String × List String) (hx : ∀ y ∈ x :: xs, y.cfg.primarySerial = p)
    (hnd : ∀ q, ((configured env x.cfg x.secondaries q).map Prod.fst).Nodup)
    (ht : t.ecus = []) (hs : p ∈ srv.2) :
    (run env Case.strict x (runs env Case.strict xs (t, srv)).1 (runs env Case.strict xs (t, srv)).2).1 ≠ .ok () := by
  have one : ∀ y ∈ x :: xs, ∀ (t : Store) (srv : List String × List String), t.ecus = [] → p ∈ srv.2 →
      (run env Case.strict y t srv).2.store.ecus = [] ∧ p ∈ (run env Case.strict y t srv).2.srv.2 := by
    intro y hy t srv ht hs
    obtain ⟨t1, n, hi, htr⟩ := run_tr (env := env) (server := Case.strict) y t srv
    refine (htr.inv (I := fun s => (s.store.ecus = [] ∧ p ∈ s.srv.2) ∧
      ∀ c q l b, (c, Req.ecus q l, Resp.ok b) ∈ s.log → False) ?_ ⟨⟨?_, hs⟩, by simp⟩).1
    · intro a b hc ⟨⟨h1, h2⟩, h3⟩
      cases hc with
      | ecus k l b n _ g => exact (h3 _ _ _ _ g).elim
      | ask d r n =>
        refine ⟨⟨h1, ?_⟩, ?_⟩
        · simp only [Case.strict]
          split <;> exact h2
        · intro c q l b hm
          simp at hm
          exact h3 _ _ _ _ hm
      | register k l n g1 g2 g3 g4 =>
        have hany : l.any (fun e => a.srv.2.contains e.serial) = true := by
          have hm : p ∈ l.map (fun e => e.serial) := by
            rw [g4]
            simp [configured, hx y hy, hp]
          obtain ⟨e, he, hep⟩ := List.mem_map.1 hm
          exact List.any_eq_true.2 ⟨e, he, by simpa [hep] using h2⟩
        refine ⟨⟨h1, ?_⟩, ?_⟩
        · simp only [Case.strict, hany, if_true]
          exact h2
        · intro c q l' b hm
          simp only [Case.strict, hany, if_true, List.mem_append, List.mem_singleton, Prod.mk.injEq] at hm
          rcases hm with hm | ⟨_, _, hm⟩
          · exact h3 _ _ _ _ hm
          · simp at hm
      | _ => exact ⟨⟨h1, h2⟩, h3⟩
    · show t1.ecus = []
      rw [hi.rest]
      exact ht
  have all : ∀ (ys : List Start) (t : Store) (srv : List String × List String), (∀ y ∈ ys, y ∈ x :: xs) → t.ecus = [] → p ∈ srv.2 →
      (runs env Case.strict ys (t, srv)).1.ecus = [] ∧ p ∈ (runs env Case.strict ys (t, srv)).2.2 := by
    intro ys
    induction ys with
    | nil => intro t srv _ h1 h2; exact ⟨h1, h2⟩
    | cons y r ih =>
      intro t srv hy h1 h2
      obtain ⟨g1, g2⟩ := one y (hy y (by simp)) t srv h1 h2
      exact ih _ _ (fun z hz => hy z (by simp [hz])) g1 g2
  obtain ⟨h1, h2⟩ := all xs t srv (fun y hy => by simp [hy]) ht hs
  intro hok
  obtain ⟨_, _, ⟨k, _, _, he⟩, _⟩ := C41_success x _ _ hok hnd
  have h3 := (one x (by simp) _ _ h1 h2).1
  have := (he ((configured env x.cfg x.secondaries k.1).headD ("", ""))).2 (by simp [configured])
  rw [h3] at this
  simp at this

namespace Case

/-- Such an interruption. -/
example : (run toy strict (go 8) {} ([], [])).2.store.ecus = [] ∧
    (run toy strict (go 8) {} ([], [])).2.srv = (["blue-fox"], ["prim", "sec"]) := by decide +kernel

/-- The process dies after the registration of the device, before its certificate is stored: the
next start gives it another name. -/
theorem C41_id_changes : (run toy strict (go 2) {} ([], [])).2.store.device = some ("blue-fox", false) ∧
    (runs toy strict [go 2, go 30 7] ({}, ([], []))).1.device = some ("red-fox", true) ∧
    (runs toy strict [go 2, go 30 7] ({}, ([], []))).2.1 = ["red-fox", "blue-fox"] := by decide +kernel

/-- It dies after the certificate and before the private key is stored: the name is found in the
certificate again and again, and the server has it already. -/
theorem C41_half_credentials : (run toy strict (go 4) {} ([], [])).2.store.cert = some "blue-fox" ∧
    (run toy strict (go 4) {} ([], [])).2.store.pkey = none ∧
    (run toy strict (go 99 7) (run toy strict (go 4) {} ([], [])).2.store (["blue-fox"], [])).1 =
      .error (.std "Initialization failed") ∧
    (runs toy strict [go 4, go 99 7, go 99 8] ({}, ([], []))) = (runs toy strict [go 4, go 99 7] ({}, ([], []))) := by
  decide +kernel

/-- It dies before the shared credentials are removed: they stay on the device. -/
theorem C54_shared_stay : (runs toy strict [go 5, go 99] ({}, ([], []))).1.shared = true ∧
    (runs toy strict [go 99] ({}, ([], []))).1.shared = false ∧
    (run toy strict (go 99) (runs toy strict [go 5] ({}, ([], []))).1 (["blue-fox"], [])).1 = .ok () := by decide +kernel

/-- The hardware identifier of a Secondary changes: the server is told the old one, the new one is
stored. -/
theorem C41_old_hardware_id :
    (run toy easy { go 99 with secondaries := [("sec", { sec.2 with hwId := "lamp2" })] }
      (runs toy easy [go 99] ({}, ())).1 ()).2.store.ecus = [("prim", "board"), ("sec", "lamp2")] ∧
    (run toy easy { go 99 with secondaries := [("sec", { sec.2 with hwId := "lamp2" })] }
      (runs toy easy [go 99] ({}, ())).1 ()).2.log.map (fun r => match r.2.1 with
        | .ecus _ l => l.map (fun e => (e.serial, e.hwId))
        | _ => []) = [[("prim", "board"), ("sec", "lamp")]] := by decide +kernel

/-- Primary and Secondary swap their serials: initialisation fails. -/
theorem C41_swap :
    (run toy easy { go 99 with cfg := { cfg with primarySerial := "sec" }, secondaries := [("prim", { sec.2 with hwId := "board" })] }
      (run toy easy { go 99 with secondaries := [("sec", { sec.2 with hwId := "board" })] } {} ()).2.store ()).1 =
        .error (.std "Failed to set Secondary key") := by decide +kernel

/-- An empty file is imported in place of the private key, and the shared credentials are gone. -/
theorem C41_empty_import :
    (run toy easy { go 99 with files := { pkey := some (some "") } } (runs toy easy [go 99] ({}, ())).1 ()).1 =
      .error (.std "Unable to parse bootstrap (shared) credentials") ∧
    (run toy easy (go 99) (runs toy easy [go 99, { go 99 with files := { pkey := some (some "") } }] ({}, ())).1 ()).1 =
      .error (.std "Unable to parse bootstrap (shared) credentials") := by decide +kernel

/-- A Secondary with the serial of the Primary: the server registers them, nothing is stored. -/
theorem C41_equal_serials :
    (run toy easy { go 99 with secondaries := [("prim", sec.2)] } {} ()).1 = .error (.std "Failed to set Secondary key") ∧
    (run toy easy { go 99 with secondaries := [("prim", sec.2)] } {} ()).2.store.ecus = [] ∧
    (run toy easy { go 99 with secondaries := [("prim", sec.2)] } {} ()).2.log.length = 2 := by decide +kernel

end Case

/-- If the process dies after the ECUs are stored and before this is noted with the device, it is
never noted. -/
theorem C41_flag_lost (x : Start) (t : Store) (srv : σ) (k : String × String) (d : String) (hk : t.keys = some k)
    (hne : t.ecus ≠ []) (h : ∀ e, e ∈ t.ecus ↔ e ∈ configured env x.cfg x.secondaries k.1)
    (hd : t.device = some (d, false)) (d' : String) : (run env server x t srv).2.store.device ≠ some (d', true) := by
  obtain ⟨t1, n, hi, htr⟩ := run_tr (env := env) (server := server) x t srv
  have hno := (C41_same_config (server := server) x t srv k hk hne h).2
  have hinv := htr.inv (I := fun s => (∀ d, s.store.device ≠ some (d, true)) ∨ ∃ c p l r, (c, Req.ecus p l, r) ∈ s.log)
    ?_ ?_
  · rcases hinv with h | ⟨c, p, l, r, h⟩
    · exact h d'
    · exact absurd h (hno c p l r)
  · intro a b hc ha
    cases hc with
    | registered p l b n g => exact .inr ⟨_, _, _, _, g⟩
    | name id n => exact ha.imp (fun _ d => by simp) (fun h => h)
    | reset d r n => exact ha.imp (fun _ d => by simp) (fun h => h)
    | ask d r n => exact ha.imp (fun h => h) (fun ⟨c, p, l, r, h⟩ => ⟨c, p, l, r, by simp [h]⟩)
    | register k l n => exact .inr ⟨_, _, l, _, by simp; exact .inr ⟨rfl, rfl, rfl⟩⟩
    | _ => exact ha
  · left
    intro d'
    show t1.device ≠ _
    rw [hi.rest]
    simp [hd]

/-- Such a storage. -/
example : (run Case.toy Case.easy (Case.go 9) {} ()).2.store.device = some ("blue-fox", false) ∧
    (run Case.toy Case.easy (Case.go 9) {} ()).2.store.ecus = [("prim", "board"), ("sec", "lamp")] ∧
    (run Case.toy Case.easy (Case.go 9) {} ()).2.store.keys = some ("pub", "priv") := by decide +kernel

end Aktualizr.Prov
