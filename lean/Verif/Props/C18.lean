import Verif.Lemmas.Device
import Verif.Lemmas.Versions
import Verif.Props.C24

/-!
# C18 Manifest report counters strictly increase
-/

namespace Aktualizr

open M

/-! ### Specification -/

namespace Spec

/-- Report counters of the version manifests ECU `s` has signed, in order (`none`: no counter). -/
def signedBy (s : String) (log : List Action) : List (Option Int) :=
  log.filterMap (fun a => match a with
    | .signed s' k => if s' = s then some k else none
    | _ => none)

/-- Report counters of the Primary `s` in the manifests that were sent, acknowledged or not. -/
def sentBy (s : String) (log : List Action) : List (Option Int) :=
  log.filterMap (fun a => match a with
    | .sent m _ => if m.primary = s then some m.counter else none
    | _ => none)

/-- All counters are present, and each is larger than the ones before. -/
def StrictlyIncreasing (l : List (Option Int)) : Prop := ∃ ks : List Int, l = ks.map some ∧ ks.Pairwise (· < ·)

end Spec

open Spec

/-! ### Lemmas -/

theorem lookup_upsert {α : Type} (k k' : String) (a : α) (l : List (String × α)) :
    (upsert k a l).lookup k' = if k' = k then some a else l.lookup k' := by
  unfold upsert
  induction l with
  | nil =>
    by_cases h : k' = k
    · subst h; simp
    · have : (k' == k) = false := by simpa using h
      simp [List.lookup, this, h]
  | cons x l ih =>
    obtain ⟨y, v⟩ := x
    by_cases hy : y = k
    · subst hy
      simp only [List.filter_cons, bne_self_eq_false, Bool.false_eq_true, if_false]
      rw [ih]
      by_cases h : k' = y
      · simp [h]
      · have : (k' == y) = false := by simpa using h
        simp [h, List.lookup, this]
    · have hb : (y != k) = true := by simpa using hy
      simp only [List.filter_cons, hb, if_true, List.cons_append]
      by_cases hk : k' = y
      · subst hk
        simp [List.lookup, hy]
      · have : (k' == y) = false := by simpa using hk
        simp only [List.lookup, this]
        exact ih

theorem mem_upsert {α : Type} {k : String} {a : α} {l : List (String × α)} {q : String × α} (h : q ∈ upsert k a l) :
    q = (k, a) ∨ q ∈ l := by
  unfold upsert at h
  rcases List.mem_append.1 h with h | h
  · exact .inr (List.mem_filter.1 h).1
  · exact .inl (by simpa using h)

/-- Counters so far and the stored one. -/
def Counted (l : List (Option Int)) (v : Option Int) : Prop :=
  ∃ ks : List Int, l = ks.map some ∧ ks.Pairwise (· < ·) ∧ ∀ k ∈ ks, ∃ n, v = some n ∧ k ≤ n

theorem Counted.nil (v : Option Int) : Counted [] v := ⟨[], rfl, .nil, by simp⟩

theorem Counted.raise {l : List (Option Int)} {n m : Int} (h : Counted l (some n)) (hm : n ≤ m) : Counted l (some m) := by
  obtain ⟨ks, h1, h2, h3⟩ := h
  refine ⟨ks, h1, h2, fun k hk => ⟨m, rfl, ?_⟩⟩
  obtain ⟨n', hn, hk⟩ := h3 k hk
  cases hn
  omega

theorem Counted.fresh {l : List (Option Int)} {v : Option Int} (h : Counted l none) : Counted l v := by
  obtain ⟨ks, h1, h2, h3⟩ := h
  refine ⟨ks, h1, h2, fun k hk => ?_⟩
  obtain ⟨n', hn, hk⟩ := h3 k hk
  cases hn

theorem Counted.snoc {l : List (Option Int)} {n m : Int} (h : Counted l (some n)) (hm : n < m) : Counted (l ++ [some m]) (some m) := by
  obtain ⟨ks, rfl, h2, h3⟩ := h
  refine ⟨ks ++ [m], by simp, ?_, ?_⟩
  · rw [List.pairwise_append]
    refine ⟨h2, by simp, ?_⟩
    intro k hk b hb
    obtain ⟨n', hn, hk⟩ := h3 k hk
    cases hn
    simp only [List.mem_cons, List.not_mem_nil, or_false] at hb
    omega
  · intro k hk
    refine ⟨m, rfl, ?_⟩
    rcases List.mem_append.1 hk with hk | hk
    · obtain ⟨n', hn, hk⟩ := h3 k hk
      cases hn
      omega
    · simp at hk; omega

theorem Counted.increasing {l : List (Option Int)} {v : Option Int} (h : Counted l v) : StrictlyIncreasing l := by
  obtain ⟨ks, h1, h2, _⟩ := h
  exact ⟨ks, h1, h2⟩

/-- The Primary comes first and has been a Primary only, the others never. -/
def Ordered (Good : String → Prop) (ecus : List EcuRow) : Prop :=
  ∀ e rest, ecus = e :: rest → Good e.serial ∧ ∀ r ∈ rest, ¬ Good r.serial

/-- Invariant of a device's life. -/
structure CounterInv (Good : String → Prop) (d : Dev) : Prop where
  ecus : Ordered Good d.cl.v.ecus
  keys : ∀ q ∈ d.cl.counters, Good q.1
  signed : ∀ s, Counted (signedBy s d.log) (d.cl.counters.lookup s)
  sent : ∀ s, Counted (sentBy s d.log) (d.cl.counters.lookup s)
  live : d.cl.primary ≠ "" → ∃ e rest k, d.cl.v.ecus = e :: rest ∧ d.cl.primary = e.serial ∧ d.cl.counters.lookup e.serial = some k

/-- Nothing that matters to counters has changed. -/
def QuietCl (a b : Client) : Prop := b.counters = a.counters ∧ b.v.ecus = a.v.ecus ∧ b.primary = a.primary

def Quiet (a b : Dev) : Prop :=
  QuietCl a.cl b.cl ∧ (∀ s, signedBy s b.log = signedBy s a.log) ∧ (∀ s, sentBy s b.log = sentBy s a.log)

theorem quietCl_pre : ClPre QuietCl :=
  ⟨⟨fun _ => ⟨rfl, rfl, rfl⟩, fun _ _ _ h1 h2 => ⟨h2.1.trans h1.1, h2.2.1.trans h1.2.1, h2.2.2.trans h1.2.2⟩⟩, fun _ _ => ⟨rfl, rfl, rfl⟩⟩

/-- Neither signing nor sending. -/
def Plain (a : Action) : Prop := (∀ s k, a ≠ .signed s k) ∧ ∀ m ok, a ≠ .sent m ok

theorem signedBy_append (s : String) (l l' : List Action) : signedBy s (l ++ l') = signedBy s l ++ signedBy s l' :=
  List.filterMap_append ..

theorem sentBy_append (s : String) (l l' : List Action) : sentBy s (l ++ l') = sentBy s l ++ sentBy s l' :=
  List.filterMap_append ..

theorem quiet_frame : DevFrame QuietCl Plain Quiet where
  cl := quietCl_pre
  versions := fun cl env s t m => ⟨rfl, VersionDb.save_ecus env cl.v s t m, rfl⟩
  ecuResult := fun _ _ _ => ⟨rfl, rfl, rfl⟩
  devResult := fun _ _ => ⟨rfl, rfl, rfl⟩
  pre := ⟨fun _ => ⟨quietCl_pre.pre.refl _, fun _ => rfl, fun _ => rfl⟩,
    fun _ _ _ h1 h2 => ⟨quietCl_pre.pre.trans _ _ _ h1.1 h2.1, fun s => (h2.2.1 s).trans (h1.2.1 s), fun s => (h2.2.2 s).trans (h1.2.2 s)⟩⟩
  client := fun _ _ h => ⟨h, fun _ => rfl, fun _ => rfl⟩
  log := by
    intro d a ha
    refine ⟨quietCl_pre.pre.refl _, fun s => ?_, fun s => ?_⟩
    · show signedBy s (d.log ++ [a]) = _
      rw [signedBy_append]
      cases a <;> first | exact absurd rfl (ha.1 _ _) | simp [signedBy]
    · show sentBy s (d.log ++ [a]) = _
      rw [sentBy_append]
      cases a <;> first | exact absurd rfl (ha.2 _ _) | simp [sentBy]
  asked := fun _ _ => ⟨quietCl_pre.pre.refl _, fun _ => rfl, fun _ => rfl⟩
  cache := fun _ _ => ⟨quietCl_pre.pre.refl _, fun _ => rfl, fun _ => rfl⟩

theorem plain_all : ∀ a, (∀ s k, a ≠ Action.signed s k) → (∀ m ok, a ≠ .sent m ok) → Plain a := fun _ h1 h2 => ⟨h1, h2⟩

variable {Good : String → Prop}

theorem CounterInv.quiet {d d' : Dev} (h : CounterInv Good d) (hq : Quiet d d') : CounterInv Good d' := by
  obtain ⟨⟨h1, h2, h3⟩, h4, h5⟩ := hq
  refine ⟨by rw [h2]; exact h.ecus, by rw [h1]; exact h.keys, fun s => by rw [h4, h1]; exact h.signed s, fun s => by rw [h5, h1]; exact h.sent s, ?_⟩
  intro hp
  rw [h3] at hp
  rw [h1, h2, h3]
  exact h.live hp

theorem loadCounters_live {cl : Client} {e : EcuRow} {rest : List EcuRow} {k : Int} (h1 : cl.v.ecus = e :: rest)
    (h2 : cl.counters.lookup e.serial = some k) : ∃ tail, cl.loadCounters = (e.serial, k) :: tail := by
  unfold Client.loadCounters joinEcus
  rw [h1, List.filterMap_cons]
  simp [h2]

/-- Reading, incrementing and storing the counter, then signing with it. -/
theorem countAndSign {d d' : Dev} {o : Except Err Unit} (h : CounterInv Good d) (hp : d.cl.primary ≠ "") {r : Except Err (Option Int)} {d1 : Dev}
    (h1 : nextCounter d = (r, d1)) :
    CounterInv Good d1 ∧ d1.cl.primary = d.cl.primary ∧ ∀ kk, r = .ok kk → ∃ k : Int, kk = some k ∧
      d1.cl.counters.lookup d.cl.primary = some k ∧ (∀ s, s = d.cl.primary → Counted (sentBy s d1.log) (some (k - 1))) ∧
      (act (.signed d.cl.primary kk) d1 = (o, d') → CounterInv Good d' ∧ d'.cl = { d1.cl with w := d'.cl.w } ∧ ∀ s, sentBy s d'.log = sentBy s d1.log) := by
  obtain ⟨e, rest, k, he, hpe, hk⟩ := h.live hp
  obtain ⟨tail, hl⟩ := loadCounters_live he hk
  unfold nextCounter at h1
  rcases bind_cases h1 with ⟨_, _, g1, h1⟩ | ⟨_, g1, rfl⟩
  swap_goal
  · simp at g1
  simp only [gets_eq, Prod.mk.injEq, Except.ok.injEq, id] at g1
  obtain ⟨rfl, rfl⟩ := g1
  simp only [hl] at h1
  rcases bind_cases h1 with ⟨_, d2, g2, h1⟩ | ⟨e', g2, rfl⟩
  swap_goal
  · have : d1 = d := by
      have := congrArg Prod.snd g2
      simpa using this.symm
    subst this
    exact ⟨h, rfl, by simp⟩
  simp only [throwWhen_ok] at g2
  obtain ⟨_, rfl⟩ := g2
  rcases bind_cases h1 with ⟨_, d3, g3, h1⟩ | ⟨e', g3, rfl⟩
  swap_goal
  · obtain ⟨cl3, g4, rfl⟩ := inClient_run g3
    rcases cwrite_cases g4 with ⟨_, ho, _⟩ | ⟨_, rfl⟩
    · simp at ho
    · exact ⟨h, rfl, by simp⟩
  simp only [pure_eq, Prod.mk.injEq] at h1
  obtain ⟨rfl, rfl⟩ := h1
  obtain ⟨cl3, g4, rfl⟩ := inClient_ok.1 g3
  obtain ⟨n, _, rfl⟩ := cwrite_ok.1 g4
  have lk : ∀ s, (upsert e.serial (k + 1) d.cl.counters).lookup s = if s = e.serial then some (k + 1) else d.cl.counters.lookup s :=
    fun s => lookup_upsert _ _ _ _
  have hG : Good e.serial := (h.ecus e rest he).1
  have inv1 : CounterInv Good { d with cl := { d.cl with counters := upsert e.serial (k + 1) d.cl.counters, w := { d.cl.w with fuel := n } } } := by
    refine ⟨h.ecus, ?_, ?_, ?_, ?_⟩
    · intro q hq
      rcases mem_upsert hq with rfl | hq
      · exact hG
      · exact h.keys q hq
    · intro s
      show Counted (signedBy s d.log) ((upsert e.serial (k + 1) d.cl.counters).lookup s)
      have := h.signed s
      rw [lk]
      split
      · next hs => subst hs; rw [hk] at this; exact this.raise (by omega)
      · exact this
    · intro s
      show Counted (sentBy s d.log) ((upsert e.serial (k + 1) d.cl.counters).lookup s)
      have := h.sent s
      rw [lk]
      split
      · next hs => subst hs; rw [hk] at this; exact this.raise (by omega)
      · exact this
    · intro _
      exact ⟨e, rest, k + 1, he, hpe, by show (upsert e.serial (k + 1) d.cl.counters).lookup _ = _; rw [lk]; simp⟩
  refine ⟨inv1, rfl, ?_⟩
  rintro kk ⟨⟩
  refine ⟨k + 1, rfl, ?_, ?_, ?_⟩
  · show (upsert e.serial (k + 1) d.cl.counters).lookup d.cl.primary = _
    rw [lk, hpe]; simp
  · intro s hs
    have := h.sent s
    rw [hs, hpe, hk] at this
    rw [hs, hpe, show k + 1 - 1 = k by omega]
    exact this
  · intro ha
    rcases act_cases ha with ⟨n', _, rfl, rfl⟩ | ⟨rfl, rfl⟩
    · refine ⟨⟨inv1.ecus, inv1.keys, ?_, ?_, inv1.live⟩, rfl, ?_⟩
      · intro s
        show Counted (signedBy s (d.log ++ [_])) ((upsert e.serial (k + 1) d.cl.counters).lookup s)
        rw [signedBy_append, lk]
        have h0 := h.signed s
        split
        · next hs =>
          subst hs
          rw [hk] at h0
          have : signedBy e.serial [Action.signed d.cl.primary (some (k + 1))] = [some (k + 1)] := by simp [signedBy, hpe]
          rw [this]
          exact h0.snoc (by omega)
        · next hs =>
          have : signedBy s [Action.signed d.cl.primary (some (k + 1))] = [] := by
            simp only [signedBy, List.filterMap_cons, List.filterMap_nil, hpe]
            rw [if_neg (fun hc => hs hc.symm)]
          rw [this, List.append_nil]
          exact h0
      · intro s
        have h0 := inv1.sent s
        show Counted (sentBy s (d.log ++ [_])) _
        rw [sentBy_append]
        simpa [sentBy] using h0
      · intro s
        show sentBy s (d.log ++ [_]) = sentBy s d.log
        rw [sentBy_append]
        simp [sentBy]
    · exact ⟨inv1, rfl, fun _ => rfl⟩

/-- The invariant is kept on a running device. -/
def Keeps (Good : String → Prop) (d d' : Dev) : Prop :=
  CounterInv Good d → d.cl.primary ≠ "" → CounterInv Good d' ∧ d'.cl.primary = d.cl.primary

theorem keeps_pre (Good : String → Prop) : IsPre (Keeps Good) := by
  refine ⟨fun _ h _ => ⟨h, rfl⟩, fun a b c h1 h2 h hp => ?_⟩
  obtain ⟨g1, g2⟩ := h1 h hp
  obtain ⟨g3, g4⟩ := h2 g1 (by rw [g2]; exact hp)
  exact ⟨g3, g4.trans g2⟩

theorem Quiet.keeps {d d' : Dev} (h : Quiet d d') : Keeps Good d d' := fun hi _ => ⟨hi.quiet h, h.1.2.2⟩

theorem quiet_keeps {α : Type} {m : D α} (h : Preserves Quiet m) : Preserves (Keeps Good) m := fun d => (h d).keeps

theorem putManifestSimple_keeps (env : Env) (p : Peers) : Preserves (Keeps Good) (putManifestSimple env p) := by
  intro d hi hp
  cases hx : putManifestSimple env p d with
  | mk o d' =>
  show CounterInv Good d' ∧ d'.cl.primary = d.cl.primary
  unfold putManifestSimple at hx
  rcases bind_cases hx with ⟨_, _, g1, hx⟩ | ⟨_, g1, rfl⟩
  swap_goal
  · simp at g1
  simp only [gets_eq, Prod.mk.injEq, Except.ok.injEq, id] at g1
  obtain ⟨rfl, rfl⟩ := g1
  split at hx
  · simp only [pure_eq, Prod.mk.injEq] at hx
    obtain ⟨_, rfl⟩ := hx
    exact ⟨hi, rfl⟩
  -- the manifest
  have key : ∀ o1 d1, assembleManifest env p d = (o1, d1) → CounterInv Good d1 ∧ d1.cl.primary = d.cl.primary ∧
      ∀ m, o1 = .ok m → ∃ k : Int, m.counter = some k ∧ m.primary = d.cl.primary ∧ d1.cl.counters.lookup d.cl.primary = some k ∧
        Counted (sentBy d.cl.primary d1.log) (some (k - 1)) := by
    intro o1 d1 h1
    unfold assembleManifest at h1
    rcases bind_cases h1 with ⟨_, _, g1, h1⟩ | ⟨_, g1, rfl⟩
    swap_goal
    · simp at g1
    simp only [gets_eq, Prod.mk.injEq, Except.ok.injEq, id] at g1
    obtain ⟨rfl, rfl⟩ := g1
    rcases bind_cases h1 with ⟨kk, d2, g2, h1⟩ | ⟨e, g2, rfl⟩
    swap_goal
    · obtain ⟨k1, k2, _⟩ := countAndSign (o := .ok ()) (d' := d1) hi hp g2
      exact ⟨k1, k2, by simp⟩
    rcases bind_cases h1 with ⟨_, d3, g3, h1⟩ | ⟨e, g3, rfl⟩
    swap_goal
    · obtain ⟨k1, k2, k3⟩ := countAndSign hi hp g2 (o := .error e) (d' := d1)
      obtain ⟨k, rfl, k4, k5, k6⟩ := k3 kk rfl
      obtain ⟨k7, k8, _⟩ := k6 g3
      exact ⟨k7, by rw [k8]; exact k2, by simp⟩
    obtain ⟨k1, k2, k3⟩ := countAndSign hi hp g2 (o := .ok _) (d' := d3)
    obtain ⟨k, rfl, k4, k5, k6⟩ := k3 kk rfl
    obtain ⟨k7, k8, k9⟩ := k6 g3
    have hq : Preserves Quiet (do
        let secs ← secondaryManifests env p d.cl.secondaries
        let report ← assembleReport
        pure ⟨d.cl.primary, some k, secs, report⟩ : D Manifest) := by
      wpres quiet_frame.pre
      · exact quiet_frame.secondaryManifests _ _ _
      · exact quiet_frame.assembleReport
    have q := hq.of_eq h1
    refine ⟨k7.quiet q, by rw [q.1.2.2, k8]; exact k2, ?_⟩
    rintro m rfl
    refine ⟨k, ?_, ?_, ?_, ?_⟩
    · obtain ⟨_, _, _, h1⟩ := M.bind_ok.1 h1
      obtain ⟨_, _, _, h1⟩ := M.bind_ok.1 h1
      simp only [pure_eq, Prod.mk.injEq, Except.ok.injEq] at h1
      rw [← h1.1]
    · obtain ⟨_, _, _, h1⟩ := M.bind_ok.1 h1
      obtain ⟨_, _, _, h1⟩ := M.bind_ok.1 h1
      simp only [pure_eq, Prod.mk.injEq, Except.ok.injEq] at h1
      rw [← h1.1]
    · rw [q.1.1, k8]; exact k4
    · rw [q.2.2, k9]; exact k5 _ rfl
  rcases bind_cases hx with ⟨m, d1, g1, hx⟩ | ⟨e, g1, rfl⟩
  swap_goal
  · obtain ⟨k1, k2, _⟩ := key _ _ g1
    exact ⟨k1, k2⟩
  obtain ⟨k1, k2, k3⟩ := key _ _ g1
  obtain ⟨k, k4, k5, k6, k7⟩ := k3 m rfl
  rcases bind_cases hx with ⟨ok, d2, g2, hx⟩ | ⟨e, g2, rfl⟩
  swap_goal
  · simp at g2
  simp only [ask_eq, Prod.mk.injEq, Except.ok.injEq] at g2
  obtain ⟨_, rfl⟩ := g2
  have sentInv : ∀ o3 d3, act (.sent m ok) { d1 with n := d1.n + 1 } = (o3, d3) → CounterInv Good d3 ∧ d3.cl.primary = d.cl.primary := by
    intro o3 d3 h3
    rcases act_cases h3 with ⟨n', _, rfl, rfl⟩ | ⟨rfl, rfl⟩
    · refine ⟨⟨k1.ecus, k1.keys, ?_, ?_, k1.live⟩, k2⟩
      · intro s
        show Counted (signedBy s (d1.log ++ [_])) _
        rw [signedBy_append]
        simpa [signedBy] using k1.signed s
      · intro s
        show Counted (sentBy s (d1.log ++ [_])) (d1.cl.counters.lookup s)
        rw [sentBy_append]
        by_cases hs : s = d.cl.primary
        · subst hs
          have : sentBy d.cl.primary [Action.sent m ok] = [some k] := by simp [sentBy, k5, k4]
          rw [this, k6]
          exact k7.snoc (by omega)
        · have : sentBy s [Action.sent m ok] = [] := by
            simp only [sentBy, List.filterMap_cons, List.filterMap_nil, k5]
            rw [if_neg (fun hc => hs hc.symm)]
          rw [this, List.append_nil]
          exact k1.sent s
    · exact ⟨k1.quiet ⟨quietCl_pre.pre.refl _, fun _ => rfl, fun _ => rfl⟩, k2⟩
  rcases bind_cases hx with ⟨_, d3, g3, hx⟩ | ⟨e, g3, rfl⟩
  swap_goal
  · exact sentInv _ _ g3
  obtain ⟨i1, i2⟩ := sentInv _ _ g3
  have hq : Preserves Quiet (if ok = true then do
      inClient clearInstallationResults
      pure true
    else pure false : D Bool) := by
    wpres quiet_frame.pre
    exact quiet_frame.inClient (quietCl_pre.cwrite (fun _ => ⟨rfl, rfl, rfl⟩))
  have q := hq.of_eq hx
  exact ⟨i1.quiet q, by rw [q.1.2.2]; exact i2⟩

theorem finalizeAfterReboot_keeps (env : Env) (p : Peers) : Preserves (Keeps Good) (finalizeAfterReboot env p) := by
  have hf := quiet_frame
  unfold finalizeAfterReboot
  wpres (keeps_pre Good)
  all_goals first
    | exact putManifestSimple_keeps env p
    | exact quiet_keeps (hf.ask _)
    | exact quiet_keeps (hf.saveVersion _ _ _ _)
    | exact quiet_keeps (hf.saveEcuResult _ _)
    | exact quiet_keeps (hf.storeDeviceResult _ _ _)
    | exact quiet_keeps (hf.inWorld _)
    | exact quiet_keeps (hf.act (plain_all _ (by intros; simp) (by intros; simp)))

theorem fetchMeta_keeps (c : Ctx) (p : Peers) : Preserves (Keeps Good) (fetchMeta c p) := by
  have hf := quiet_frame
  unfold fetchMeta
  wpres (keeps_pre Good)
  all_goals first
    | exact putManifestSimple_keeps _ p
    | exact quiet_keeps (hf.checkPending _ _)
    | exact quiet_keeps (hf.inClient (hf.cl.checkUpdates hf.devResult _))

/-! ### Start-up -/

theorem loadSerials_head {ecus : List EcuRow} {p : String × String} {l : List (String × String)}
    (h : VersionDb.loadSerialsLoop ecus = .ok (p :: l)) : ∃ e rest, ecus = e :: rest ∧ p.1 = e.serial ∧ p.1 ≠ "" := by
  cases ecus with
  | nil => cases h
  | cons e rest =>
    simp only [VersionDb.loadSerialsLoop] at h
    obtain ⟨s, hs, h⟩ := exc_bind_ok.1 h
    obtain ⟨hw, hh, h⟩ := exc_bind_ok.1 h
    obtain ⟨t, ht, h⟩ := exc_bind_ok.1 h
    rw [exc_pure_ok] at h
    simp only [List.cons.injEq] at h
    obtain ⟨rfl, rfl⟩ := h
    refine ⟨e, rest, rfl, ?_⟩
    unfold mkEcuSerial at hs
    split at hs
    · cases hs
    · next hb =>
      split at hs
      · cases hs
      · cases hs
        refine ⟨rfl, ?_⟩
        intro he
        rw [show (e.serial, hw).1 = e.serial from rfl] at he
        rw [he] at hb
        exact hb (by decide)

theorem loadEcuSerials_head {v : VersionDb} {p : String × String} {l : List (String × String)}
    (h : v.loadEcuSerials = .ok (some (p :: l))) : ∃ e rest, v.ecus = e :: rest ∧ p.1 = e.serial ∧ p.1 ≠ "" := by
  unfold VersionDb.loadEcuSerials at h
  obtain ⟨x, hx, h⟩ := exc_bind_ok.1 h
  rw [exc_pure_ok] at h
  split at h
  · cases h
  · simp only [Option.some.injEq] at h
    subst h
    exact loadSerials_head hx

/-- The device is registered and has a counter. -/
def HasCounter (cl : Client) : Prop := ∃ e rest k, cl.v.ecus = e :: rest ∧ cl.counters.lookup e.serial = some k

theorem joinEcus_mem {α : Type} {ecus : List EcuRow} {l : List (String × α)} {q : String × α} (h : q ∈ joinEcus ecus l) :
    ∃ e ∈ ecus, e.serial = q.1 ∧ l.lookup e.serial = some q.2 := by
  unfold joinEcus at h
  obtain ⟨e, he, hq⟩ := List.mem_filterMap.1 h
  obtain ⟨a, ha, rfl⟩ := option_map_some' hq
  exact ⟨e, he, rfl, ha⟩
where
  option_map_some' {α β : Type} {o : Option α} {f : α → β} {b : β} (h : o.map f = some b) : ∃ a, o = some a ∧ f a = b := by
    cases o with
    | none => cases h
    | some a => exact ⟨a, rfl, by simpa using h⟩

theorem mem_of_lookup {α : Type} {k : String} {v : α} : ∀ {l : List (String × α)}, l.lookup k = some v → (k, v) ∈ l
  | [], h => by cases h
  | (a, b) :: l, h => by
    rw [List.lookup_cons] at h
    split at h
    · next he => simp only [beq_iff_eq] at he; cases h; subst he; exact .head _
    · exact .tail _ (mem_of_lookup h)

theorem initReportCounter_inv {d : Dev} {cl' : Client} {o : Except Err Unit} (hi : CounterInv Good d) (hp : d.cl.primary = "")
    (h : initReportCounter d.cl = (o, cl')) :
    CounterInv Good { d with cl := cl' } ∧ cl'.primary = "" ∧ (o = .ok () → HasCounter cl') := by
  unfold initReportCounter at h
  rcases bind_cases h with ⟨_, _, g1, h⟩ | ⟨_, g1, rfl⟩
  swap_goal
  · simp at g1
  simp only [gets_eq, Prod.mk.injEq, Except.ok.injEq, id] at g1
  obtain ⟨rfl, rfl⟩ := g1
  rcases bind_cases h with ⟨_, _, g2, h⟩ | ⟨_, g2, rfl⟩
  swap_goal
  · simp only [lift_eq, Prod.mk.injEq] at g2
    obtain ⟨_, rfl⟩ := g2
    exact ⟨hi, hp, by simp⟩
  simp only [lift_eq, Prod.mk.injEq] at g2
  obtain ⟨_, rfl⟩ := g2
  split at h
  · next hne =>
    simp only [pure_eq, Prod.mk.injEq] at h
    obtain ⟨_, rfl⟩ := h
    refine ⟨hi, hp, fun _ => ?_⟩
    cases hl : d.cl.loadCounters with
    | nil => rw [hl] at hne; simp at hne
    | cons q l =>
      obtain ⟨e, he, h1, h2⟩ := joinEcus_mem (q := q) (ecus := d.cl.v.ecus) (l := d.cl.counters) (by
        show q ∈ d.cl.loadCounters; rw [hl]; exact .head _)
      have hg : Good e.serial := hi.keys _ (mem_of_lookup h2)
      cases hec : d.cl.v.ecus with
      | nil => rw [hec] at he; cases he
      | cons e0 rest =>
        rw [hec] at he
        rcases List.mem_cons.1 he with rfl | he
        · exact ⟨_, _, _, hec, h2⟩
        · exact absurd hg ((hi.ecus _ _ hec).2 e he)
  · next hne =>
    rcases bind_cases h with ⟨x, _, g3, h⟩ | ⟨_, g3, rfl⟩
    swap_goal
    · simp only [lift_eq, Prod.mk.injEq] at g3
      obtain ⟨_, rfl⟩ := g3
      exact ⟨hi, hp, by simp⟩
    simp only [lift_eq, Prod.mk.injEq] at g3
    obtain ⟨g3, rfl⟩ := g3
    split at h
    · rename_i p l
      obtain ⟨e, rest, he, hpe, _⟩ := loadEcuSerials_head g3
      rcases cwrite_cases h with ⟨n, rfl, _, rfl⟩ | ⟨rfl, rfl⟩
      · have hnone : d.cl.counters.lookup e.serial = none := by
          cases hlk : d.cl.counters.lookup e.serial with
          | none => rfl
          | some k =>
            obtain ⟨tail, ht⟩ := loadCounters_live he hlk
            rw [ht] at hne
            simp at hne
        refine ⟨⟨hi.ecus, ?_, ?_, ?_, ?_⟩, hp, fun _ => ⟨e, rest, 0, he, ?_⟩⟩
        · intro q hq
          rcases mem_upsert hq with rfl | hq
          · show Good p.1; rw [hpe]; exact (hi.ecus e rest he).1
          · exact hi.keys q hq
        · intro s
          show Counted (signedBy s d.log) ((upsert p.1 0 d.cl.counters).lookup s)
          rw [lookup_upsert, hpe]
          have h0 := hi.signed s
          split
          · next hs => rw [hs, hnone] at h0; rw [hs]; exact h0.fresh
          · exact h0
        · intro s
          show Counted (sentBy s d.log) ((upsert p.1 0 d.cl.counters).lookup s)
          rw [lookup_upsert, hpe]
          have h0 := hi.sent s
          split
          · next hs => rw [hs, hnone] at h0; rw [hs]; exact h0.fresh
          · exact h0
        · intro hc; exact absurd hp hc
        · show (upsert p.1 0 d.cl.counters).lookup _ = _
          rw [lookup_upsert, hpe]; simp
      · exact ⟨hi, hp, by simp⟩
    · simp only [throw_eq, Prod.mk.injEq] at h
      obtain ⟨rfl, rfl⟩ := h
      exact ⟨hi, hp, by simp⟩

theorem initEcus_inv {cfg : EcuConfig} {ok : Bool} {d : Dev} {cl' : Client} {o : Except Err Unit} (hi : CounterInv Good d)
    (hp : d.cl.primary = "") (hg : Good cfg.primary.1) (hb : ∀ s ∈ cfg.secondaries, ¬ Good s.1) (h : initEcus cfg ok d.cl = (o, cl')) :
    CounterInv Good { d with cl := cl' } ∧ cl'.primary = "" ∧ (o = .ok () → HasCounter cl') := by
  unfold initEcus at h
  rcases bind_cases h with ⟨_, _, g1, h⟩ | ⟨_, g1, rfl⟩
  swap_goal
  · simp at g1
  simp only [gets_eq, Prod.mk.injEq, Except.ok.injEq, id] at g1
  obtain ⟨rfl, rfl⟩ := g1
  rcases bind_cases h with ⟨_, _, g2, h⟩ | ⟨_, g2, rfl⟩
  swap_goal
  · simp only [lift_eq, Prod.mk.injEq] at g2
    obtain ⟨_, rfl⟩ := g2
    exact ⟨hi, hp, by simp⟩
  simp only [lift_eq, Prod.mk.injEq] at g2
  obtain ⟨_, rfl⟩ := g2
  rcases bind_cases h with ⟨_, _, g3, h⟩ | ⟨_, g3, rfl⟩
  swap_goal
  · simp only [lift_eq, Prod.mk.injEq] at g3
    obtain ⟨_, rfl⟩ := g3
    exact ⟨hi, hp, by simp⟩
  simp only [lift_eq, Prod.mk.injEq] at g3
  obtain ⟨_, rfl⟩ := g3
  rcases bind_cases h with ⟨_, _, g4, h⟩ | ⟨_, g4, rfl⟩
  swap_goal
  · simp only [lift_eq, Prod.mk.injEq] at g4
    obtain ⟨_, rfl⟩ := g4
    exact ⟨hi, hp, by simp⟩
  simp only [lift_eq, Prod.mk.injEq] at g4
  obtain ⟨_, rfl⟩ := g4
  split at h
  swap_goal
  · exact initReportCounter_inv hi hp h
  rcases bind_cases h with ⟨_, cl1, g5, h⟩ | ⟨_, g5, rfl⟩
  swap_goal
  · have : cl' = d.cl := by
      have := congrArg Prod.snd g5
      simpa using this.symm
    subst this
    exact ⟨hi, hp, by simp⟩
  simp only [throwWhen_ok] at g5
  obtain ⟨_, rfl⟩ := g5
  have reg : ∀ n, CounterInv Good { d with cl := { d.cl with v := d.cl.v.storeEcuSerials cfg.serials, w := { d.cl.w with fuel := n } } } := by
    intro n
    refine ⟨?_, hi.keys, hi.signed, hi.sent, fun hc => absurd hp hc⟩
    show Ordered Good (d.cl.v.storeEcuSerials (cfg.primary :: cfg.secondaries)).ecus
    simp only [VersionDb.storeEcuSerials]
    split
    · intro e rest he
      simp only [List.cons.injEq] at he
      obtain ⟨rfl, rfl⟩ := he
      refine ⟨hg, fun r hr => ?_⟩
      unfold VersionDb.secondaryRows at hr
      obtain ⟨s, hs, rfl⟩ := List.mem_map.1 hr
      exact hb s hs
    · exact hi.ecus
  rcases bind_cases h with ⟨_, cl2, g6, h⟩ | ⟨_, g6, rfl⟩
  swap_goal
  · rcases cwrite_cases g6 with ⟨n, ho, _⟩ | ⟨_, rfl⟩
    · simp at ho
    · exact ⟨hi, hp, by simp⟩
  obtain ⟨n, _, rfl⟩ := cwrite_ok.1 g6
  rcases bind_cases h with ⟨_, cl3, g7, h⟩ | ⟨_, g7, rfl⟩
  swap_goal
  · rcases cwrite_cases g7 with ⟨n, ho, _⟩ | ⟨_, rfl⟩
    · simp at ho
    · exact ⟨reg n, hp, by simp⟩
  obtain ⟨n', _, rfl⟩ := cwrite_ok.1 g7
  exact initReportCounter_inv (d := { d with cl := { d.cl with v := d.cl.v.storeEcuSerials cfg.serials, w := { d.cl.w with fuel := n' } } })
    (reg n') hp h

theorem startUp_inv {env : Env} {p : Peers} {cfg : EcuConfig} {ok : Bool} {d d' : Dev} {o : Except Err Unit} (hi : CounterInv Good d)
    (hp : d.cl.primary = "") (hg : Good cfg.primary.1) (hb : ∀ s ∈ cfg.secondaries, ¬ Good s.1) (h : startUp env p cfg ok d = (o, d')) :
    CounterInv Good d' := by
  unfold startUp at h
  rcases bind_cases h with ⟨_, d1, g1, h⟩ | ⟨_, g1, rfl⟩
  swap_goal
  · obtain ⟨_, g2, _⟩ := inClient_run g1
    simp at g2
  obtain ⟨cl1, g2, rfl⟩ := inClient_ok.1 g1
  simp only [modify_eq, Prod.mk.injEq, true_and] at g2
  subst g2
  have i1 : CounterInv Good { d with cl := { d.cl with secondaries := cfg.secondaries } } :=
    hi.quiet ⟨⟨rfl, rfl, rfl⟩, fun _ => rfl, fun _ => rfl⟩
  rcases bind_cases h with ⟨_, d2, g3, h⟩ | ⟨_, g3, rfl⟩
  swap_goal
  · obtain ⟨cl2, g4, rfl⟩ := inClient_run g3
    exact (initEcus_inv i1 hp hg hb g4).1
  obtain ⟨cl2, g4, rfl⟩ := inClient_ok.1 g3
  obtain ⟨i2, p2, hc⟩ := initEcus_inv i1 hp hg hb g4
  rcases bind_cases h with ⟨_, _, g5, h⟩ | ⟨_, g5, rfl⟩
  swap_goal
  · simp at g5
  simp only [modify_eq, Prod.mk.injEq, true_and] at g5
  subst g5
  replace i2 : CounterInv Good { d with cl := cl2, cache := addSecondaryRows cfg.secondaries d.cache } :=
    i2.quiet ⟨⟨rfl, rfl, rfl⟩, fun _ => rfl, fun _ => rfl⟩
  rcases bind_cases h with ⟨_, _, g5, h⟩ | ⟨_, g5, rfl⟩
  swap_goal
  · simp at g5
  simp only [gets_eq, Prod.mk.injEq, Except.ok.injEq, id] at g5
  obtain ⟨rfl, rfl⟩ := g5
  rcases bind_cases h with ⟨x, _, g6, h⟩ | ⟨_, g6, rfl⟩
  swap_goal
  · simp only [lift_eq, Prod.mk.injEq] at g6
    obtain ⟨_, rfl⟩ := g6
    exact i2
  simp only [lift_eq, Prod.mk.injEq] at g6
  obtain ⟨g6, rfl⟩ := g6
  split at h
  swap_goal
  · simp only [throw_eq, Prod.mk.injEq] at h
    obtain ⟨_, rfl⟩ := h
    exact i2
  next q l =>
  obtain ⟨e, rest, he, hqe, hne⟩ := loadEcuSerials_head g6
  obtain ⟨e', rest', k, he', hk⟩ := hc rfl
  rw [he] at he'
  simp only [List.cons.injEq] at he'
  obtain ⟨rfl, rfl⟩ := he'
  rcases bind_cases h with ⟨_, d4, g7, h⟩ | ⟨_, g7, rfl⟩
  swap_goal
  · obtain ⟨_, g8, _⟩ := inClient_run g7
    simp at g8
  obtain ⟨cl4, g8, rfl⟩ := inClient_ok.1 g7
  simp only [modify_eq, Prod.mk.injEq, true_and] at g8
  subst g8
  refine ((finalizeAfterReboot_keeps env p).of_eq h ⟨i2.ecus, i2.keys, i2.signed, i2.sent, fun _ => ⟨e, rest, k, he, hqe, hk⟩⟩ ?_).1
  exact hne

/-! ### Histories -/

theorem CounterInv.off {d : Dev} (h : CounterInv Good d) : CounterInv Good d.off :=
  ⟨h.ecus, h.keys, h.signed, h.sent, fun hc => absurd rfl hc⟩

theorem CounterInv.start {d : Dev} (h : CounterInv Good d) (e : DevEvent) : CounterInv Good (e.start d) := by
  unfold DevEvent.start
  split
  · have := h.off
    exact ⟨this.ecus, this.keys, this.signed, this.sent, this.live⟩
  · exact ⟨h.ecus, h.keys, h.signed, h.sent, h.live⟩

/-- Every configuration in the history has a Primary among `Good` and no Secondary there. -/
def Spec.KeepsRoles (Good : String → Prop) (es : List DevEvent) : Prop :=
  ∀ e ∈ es, ∀ cfg ok, e.call = .init cfg ok → Good cfg.primary.1 ∧ ∀ s ∈ cfg.secondaries, ¬ Good s.1

theorem run_inv {c : Ctx} {p : Peers} {call : DevCall} {d d' : Dev} {o : Except Err Unit} (hi : CounterInv Good d)
    (hp : if call.isInit then d.cl.primary = "" else d.cl.primary ≠ "")
    (hc : ∀ cfg ok, call = .init cfg ok → Good cfg.primary.1 ∧ ∀ s ∈ cfg.secondaries, ¬ Good s.1)
    (h : call.run c p d = (o, d')) : CounterInv Good d' := by
  have hf := quiet_frame
  have hk := keeps_pre Good
  cases call with
  | init cfg ok => exact startUp_inv hi hp (hc _ _ rfl).1 (hc _ _ rfl).2 h
  | install ts => exact ((Preserves.bind hk (quiet_keeps (hf.uptaneInstall plain_all _ _ _)) (fun _ => .pure hk)).of_eq h hi hp).1
  | putManifest => exact ((Preserves.bind hk (putManifestSimple_keeps _ _) (fun _ => .pure hk)).of_eq h hi hp).1
  | fetchMeta => exact ((Preserves.bind hk (fetchMeta_keeps _ _) (fun _ => .pure hk)).of_eq h hi hp).1
  | checkUpdates =>
    exact ((Preserves.bind hk (quiet_keeps (hf.inClient (hf.cl.checkUpdates hf.devResult _))) (fun _ => .pure hk)).of_eq h hi hp).1
  | checkPending => exact ((quiet_keeps (hf.checkPending _ _)).of_eq h hi hp).1
  | storeFailure r => exact ((quiet_keeps (hf.inClient (hf.storeInstallationFailure r))).of_eq h hi hp).1
  | setRaw raw =>
    have hs : Preserves QuietCl (setRawReport raw) := by
      unfold setRawReport
      exact hf.cl.cwrite (fun _ => ⟨rfl, rfl, rfl⟩)
    exact ((quiet_keeps (hf.inClient hs)).of_eq h hi hp).1

theorem step_inv {env : Env} {d : Dev} {e : DevEvent} (hi : CounterInv Good d)
    (hc : ∀ cfg ok, e.call = .init cfg ok → Good cfg.primary.1 ∧ ∀ s ∈ cfg.secondaries, ¬ Good s.1) :
    CounterInv Good (e.step env d) := by
  unfold DevEvent.step
  split
  · next hu =>
    have hp : if e.call.isInit then (e.start d).cl.primary = "" else (e.start d).cl.primary ≠ "" := by
      unfold DevEvent.start
      by_cases hini : e.call.isInit
      · simp [hini, Dev.off]
      · simp only [hini, Bool.false_eq_true, if_false]
        simpa [hini, Dev.up] using hu
    split
    · next d' hx => exact (run_inv (hi.start e) hp hc hx).off
    · next d' hx => exact (run_inv (hi.start e) hp hc hx).off
    · next d' _ _ hx => exact run_inv (hi.start e) hp hc hx
  · exact hi

/-- C18. Over every history of a device, with any server and Secondary behaviour and crashes
anywhere: the report counters in the version manifests signed by an ECU as Primary, and those in
the manifests it sent, are all present and strictly increase.

Missing: histories in which an ECU is Primary at one time and Secondary at another; there
counters can repeat, see `C18_role_change_repeats`. -/
theorem C18_counters_increase_partial (env : Env) (Good : String → Prop) (es : List DevEvent) (h : KeepsRoles Good es) (s : String) :
    StrictlyIncreasing (signedBy s (runDevice env Dev.fresh es).log) ∧
    StrictlyIncreasing (sentBy s (runDevice env Dev.fresh es).log) := by
  have base : CounterInv Good Dev.fresh := by
    refine ⟨?_, ?_, fun s => Counted.nil _, fun s => Counted.nil _, fun hc => absurd rfl hc⟩
    · intro e rest he; cases he
    · intro q hq; cases hq
  have : ∀ (es : List DevEvent) d, CounterInv Good d → KeepsRoles Good es → CounterInv Good (runDevice env d es) := by
    intro es
    induction es with
    | nil => exact fun d h _ => h
    | cons e es ih =>
      intro d hd he
      exact ih _ (step_inv hd (he e (.head _))) (fun e' h' => he e' (.tail _ h'))
  have inv := this es _ base h
  exact ⟨(inv.signed s).increasing, (inv.sent s).increasing⟩

/-! ### Cases -/

namespace Toy

/-- An event with everything outside answering well. -/
def event (call : DevCall) (fuel : Nat := 1000) (ack : Bool := true) : DevEvent where
  call := call
  net := fun _ _ _ _ => none
  clock := clock "2026-01-01T00:00:00Z"
  peers := { peers .good with putManifest := fun _ _ => ack }
  fuel := fuel

/-- Serials of `cfg` as in `Toy.device`. -/
def cfg (primary : String) (secondaries : List String) : EcuConfig := ⟨(primary, "h1"), secondaries.map (fun s => (s, "h1"))⟩

end Toy

/-- A history as in the theorem: the device registers, a manifest is refused, then the process
dies between storing the counter and signing, then between signing and sending; after the next
start a manifest is accepted. No number is used twice although some are skipped. -/
example :
    let es : List DevEvent := [Toy.event (.init (Toy.cfg "e1" ["e2"]) true), Toy.event .putManifest (ack := false),
      Toy.event .putManifest (fuel := 1), Toy.event (.init (Toy.cfg "e1" ["e2"]) true), Toy.event .putManifest (fuel := 2),
      Toy.event (.init (Toy.cfg "e1" ["e2"]) true), Toy.event .putManifest]
    KeepsRoles (· = "e1") es ∧ signedBy "e1" (runDevice Toy.E Dev.fresh es).log = [some 1, some 3, some 4] ∧
      sentBy "e1" (runDevice Toy.E Dev.fresh es).log = [some 1, some 4] := by
  refine ⟨?_, ?_⟩
  · intro e he cfg ok hc
    simp only [List.mem_cons, List.not_mem_nil, or_false] at he
    rcases he with rfl | rfl | rfl | rfl | rfl | rfl | rfl <;> first
      | (simp only [Toy.event, DevCall.init.injEq] at hc
         obtain ⟨rfl, _⟩ := hc
         simp [Toy.cfg])
      | (simp [Toy.event] at hc)
  · decide +kernel

/-- Why C18 is partial: `a` is first Primary, then Secondary of `b`, then removed. While `a` is a
Secondary, its counter is the only one found and is used for `b`; when `a` is removed, `b` starts
again from zero. -/
theorem C18_role_change_repeats :
    ∃ es, sentBy "b" (runDevice Toy.E Dev.fresh es).log = [some 2, some 3, some 1, some 2] :=
  ⟨[Toy.event (.init (Toy.cfg "a" []) true), Toy.event .putManifest, Toy.event (.init (Toy.cfg "b" ["a"]) true), Toy.event .putManifest,
    Toy.event .putManifest, Toy.event (.init (Toy.cfg "b" []) true), Toy.event .putManifest, Toy.event .putManifest], by decide +kernel⟩

end Aktualizr
