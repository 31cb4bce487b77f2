import Verif.Props.C41

/-!
# C41: what is on record about the Secondaries after a start

`C41_secondaries`: after a successful start every Secondary is in the table of Secondaries, with what
was completely on record before or else with what it told.
-/

namespace Aktualizr.Prov

open M (gets modify throwWhen orThrow)

variable {σ : Type} {env : Env} {server : Server σ} {cfg : Config} {secondaries : List (String × Secondary)}

/-- A Secondary of which type and key are on record. -/
def Complete (t : Store) (serial : String) (row : SecRow) : Prop :=
  (t.ecus.tail.lookup serial).isSome = true ∧ t.secs.lookup serial = some row ∧ row.type ≠ "" ∧ row.keyType ≠ "" ∧
    keyTypeOf row.keyType ≠ .unknown

/-- What is to be on record about a Secondary after a start on `t`: what was complete stays, otherwise it
is what the Secondary says. -/
def RecordOf (t : Store) (x : String × Secondary) (row : SecRow) : Prop :=
  (∀ old, Complete t x.1 old → row.type = old.type ∧ row.key = old.key ∧ keyTypeOf row.keyType = keyTypeOf old.keyType) ∧
  ((∀ old, ¬ Complete t x.1 old) → row.type = x.2.type ∧
    (x.2.key.type ≠ .unknown → row.key = x.2.key.value ∧ keyTypeOf row.keyType = x.2.key.type))

theorem lookup_put_self {α : Type} {k : String} {v : α} {t : List (String × α)} : (put k v t).lookup k = some v := by
  unfold put
  by_cases ha : t.any (fun r => r.1 == k) = true
  · rw [if_pos ha]
    induction t with
    | nil => simp at ha
    | cons r l ih =>
      obtain ⟨a, b⟩ := r
      by_cases hk : a = k
      · subst hk
        simp only [List.map_cons, beq_self_eq_true, if_true, List.lookup_cons]
      · have e : (a == k) = false := by simpa using hk
        have e' : (k == a) = false := by simpa using fun h => hk h.symm
        simp only [List.any_cons, e, Bool.false_or] at ha
        simp only [List.map_cons, e, Bool.false_eq_true, if_false, List.lookup_cons, e']
        exact ih ha
  · rw [if_neg ha, List.lookup_append]
    have hn : t.lookup k = none := by
      rw [List.lookup_eq_none_iff]
      intro p hp
      simp only [List.any_eq_true, not_exists, not_and] at ha
      have := ha p hp
      rw [bne_iff_ne]
      exact fun e => this (beq_iff_eq.2 e.symm)
    simp [hn]

/-- What is loaded. -/
theorem loadInfo_eq {x : String} {s s' : St σ} {i : Option Info} (h : loadSecondaryInfo env x s = (.ok i, s')) :
    s' = s ∧ ∀ j, i.filter (fun i => i.type != "" && i.key.type != .unknown) = some j ↔
      ∃ hw row, s.store.ecus.tail.lookup x = some hw ∧ Complete s.store x row ∧
        j = ⟨x, hw, row.type, ⟨row.key, keyTypeOf row.keyType⟩⟩ := by
  refine ⟨(loadInfo_run h).1, ?_⟩
  intro j
  unfold loadSecondaryInfo at h
  change (match s.store.ecus.tail.lookup x with | none => _ | some hw => _ : P σ (Option Info)) s = _ at h
  cases h2 : s.store.ecus.tail.lookup x with
  | none =>
    rw [h2] at h
    simp at h
    rw [← h.1]
    simp
  | some hw =>
    rw [h2] at h
    obtain ⟨k, s1, h3, h4⟩ := M.bind_ok.1 h
    simp at h4
    rw [← h4.1]
    simp only [Option.filter_eq_some_iff, Option.some.injEq, Bool.and_eq_true, bne_iff_ne, ne_eq]
    by_cases hk : ((s.store.secs.lookup x).getD {}).keyType = ""
    · rw [if_pos hk] at h3
      simp at h3
      rw [← h3.1]
      constructor
      · rintro ⟨rfl, -, h⟩
        exact (h rfl).elim
      · rintro ⟨_, row, _, ⟨_, hr, _, hne, _⟩, _⟩
        rw [hr] at hk
        exact (hne hk).elim
    · rw [if_neg hk] at h3
      obtain ⟨hk3, -⟩ := publicKey_run h3
      cases hr : s.store.secs.lookup x with
      | none => rw [hr] at hk; exact (hk rfl).elim
      | some row =>
        rw [hr] at hk hk3
        simp only [Option.getD_some] at hk hk3 ⊢
        subst hk3
        constructor
        · rintro ⟨rfl, a, b⟩
          exact ⟨hw, row, rfl, ⟨by rw [h2]; rfl, hr, a, hk, b⟩, rfl⟩
        · rintro ⟨hw', row', rfl, ⟨_, hr', a, _, b⟩, rfl⟩
          rw [hr] at hr'
          obtain rfl := Option.some.inj hr'
          exact ⟨rfl, a, b⟩

theorem saveInfo_secs {i : Info} {s s' : St σ} {u : Unit} (h : saveSecondaryInfo i s = (.ok u, s')) :
    s'.store.secs = put i.serial ⟨i.type, keyTypeName i.key.type, i.key.value⟩ s.store.secs := by
  unfold saveSecondaryInfo at h
  obtain ⟨_, s1, h1, h2⟩ := M.bind_ok.1 h
  simp at h1
  obtain ⟨rfl, rfl⟩ := h1
  obtain ⟨_, s2, h3, h4⟩ := M.bind_ok.1 h2
  obtain ⟨_, rfl⟩ := throwWhen_run h3
  obtain ⟨_, _, rfl⟩ := write_ok h4
  rfl

/-- The row made of an information is what is to be on record. -/
def InfoOf (t : Store) (x : String × Secondary) (i : Info) : Prop :=
  i.serial = x.1 ∧ RecordOf t x ⟨i.type, keyTypeName i.key.type, i.key.value⟩

theorem secInfo_rec {b : Bool} {x : String × Secondary} {i : Info} {s s' : St σ}
    (h : secondaryInfo env b x s = (.ok i, s')) : InfoOf s.store x i ∧
      (b = false → (∃ row, s'.store.secs.lookup x.1 = some row ∧ RecordOf s.store x row) ∧
        ∀ y, y ≠ x.1 → s'.store.secs.lookup y = s.store.secs.lookup y) := by
  unfold secondaryInfo at h
  obtain ⟨j, s1, h1, h2⟩ := M.bind_ok.1 h
  obtain ⟨rfl, hj⟩ := loadInfo_eq h1
  cases hk : j.filter (fun i => i.type != "" && i.key.type != .unknown) with
  | some k =>
    rw [hk] at h2
    simp at h2
    obtain ⟨rfl, rfl⟩ := h2
    obtain ⟨hw, row, e1, hc, rfl⟩ := (hj k).1 hk
    have hrow : ∀ old, Complete s1.store x.1 old → old = row := by
      intro old ho
      have := ho.2.1
      rw [hc.2.1] at this
      exact (Option.some.inj this).symm
    refine ⟨⟨rfl, ?_, fun h => (h row hc).elim⟩, fun _ => ⟨⟨row, hc.2.1, ?_, fun h => (h row hc).elim⟩, fun _ _ => rfl⟩⟩
    · intro old ho
      rw [hrow old ho]
      exact ⟨rfl, rfl, keyTypeOf_name _⟩
    · intro old ho
      rw [hrow old ho]
      exact ⟨rfl, rfl, rfl⟩
  | none =>
    rw [hk] at h2
    dsimp only at h2
    have hno : ∀ old, ¬ Complete s1.store x.1 old := by
      intro old ho
      obtain ⟨hw, e⟩ := Option.isSome_iff_exists.1 ho.1
      have := (hj _).2 ⟨hw, old, e, ho, rfl⟩
      rw [hk] at this
      simp at this
    have hrec : RecordOf s1.store x ⟨x.2.type, keyTypeName (if x.2.key.type ≠ .unknown then x.2.key else (j.map (fun i => i.key)).getD ⟨"", .unknown⟩).type,
        (if x.2.key.type ≠ .unknown then x.2.key else (j.map (fun i => i.key)).getD ⟨"", .unknown⟩).value⟩ := by
      refine ⟨fun old ho => (hno old ho).elim, fun _ => ⟨rfl, fun hne => ?_⟩⟩
      simp only [if_pos hne]
      exact ⟨trivial, keyTypeOf_name _⟩
    cases b with
    | true =>
      simp only [Bool.not_true, Bool.false_eq_true, if_false, M.pure_eq, Prod.mk.injEq, Except.ok.injEq] at h2
      obtain ⟨rfl, rfl⟩ := h2
      exact ⟨⟨rfl, hrec⟩, by simp⟩
    | false =>
      simp only [Bool.not_false, if_true] at h2
      obtain ⟨_, s2, h3, h4⟩ := M.bind_ok.1 h2
      simp only [M.pure_eq, Prod.mk.injEq, Except.ok.injEq] at h4
      obtain ⟨rfl, rfl⟩ := h4
      have e := saveInfo_secs h3
      refine ⟨⟨rfl, hrec⟩, fun _ => ⟨⟨_, ?_, hrec⟩, ?_⟩⟩
      · rw [e]; exact lookup_put_self
      · intro y hy
        rw [e]; exact lookup_put_of_ne hy

theorem RecordOf.congr {t t' : Store} {x : String × Secondary} {row : SecRow} (he : t'.ecus = t.ecus)
    (hs : t'.secs.lookup x.1 = t.secs.lookup x.1) (h : RecordOf t' x row) : RecordOf t x row := by
  have hc : ∀ old, Complete t' x.1 old ↔ Complete t x.1 old := by
    intro old; unfold Complete; rw [he, hs]
  exact ⟨fun old ho => h.1 old ((hc old).2 ho), fun hn => h.2 (fun old ho => hn old ((hc old).1 ho))⟩

theorem initSecInfo_rec {b : Bool} {l : List (String × Secondary)} {is : List Info} {s s' : St σ}
    (h : initSecondaryInfo env b l s = (.ok is, s')) (hnd : (l.map Prod.fst).Nodup) :
    (∀ x ∈ l, ∃ i ∈ is, InfoOf s.store x i) ∧
      (b = false → (∀ x ∈ l, ∃ row, s'.store.secs.lookup x.1 = some row ∧ RecordOf s.store x row) ∧
        ∀ y, y ∉ l.map Prod.fst → s'.store.secs.lookup y = s.store.secs.lookup y) := by
  induction l generalizing s is with
  | nil =>
    simp [initSecondaryInfo] at h
    obtain ⟨rfl, rfl⟩ := h
    exact ⟨by simp, fun _ => ⟨by simp, fun _ _ => rfl⟩⟩
  | cons x r ih =>
    unfold initSecondaryInfo at h
    obtain ⟨i, s1, h1, h2⟩ := M.bind_ok.1 h
    obtain ⟨is', s2, h3, h4⟩ := M.bind_ok.1 h2
    simp at h4
    obtain ⟨rfl, rfl⟩ := h4
    rw [List.map_cons, List.nodup_cons] at hnd
    obtain ⟨hx, hnd⟩ := hnd
    have a := secInfo_rec h1
    obtain ⟨b1, b2⟩ := ih h3 hnd
    obtain ⟨-, ⟨m, n, e⟩, hb, -⟩ := secInfo_ok h1
    have hecus : s1.store.ecus = s.store.ecus := by rw [e]
    have hne : ∀ y ∈ r, y.1 ≠ x.1 := fun y hy he => hx (he ▸ List.mem_map_of_mem hy)
    have hsame : ∀ y ∈ r, s1.store.secs.lookup y.1 = s.store.secs.lookup y.1 := by
      intro y hy
      cases b with
      | true => rw [hb rfl]
      | false => exact (a.2 rfl).2 _ (hne y hy)
    refine ⟨?_, ?_⟩
    · intro y hy
      rcases List.mem_cons.1 hy with rfl | hy
      · exact ⟨i, by simp, a.1⟩
      · obtain ⟨j, hj, hj1, hj2⟩ := b1 y hy
        exact ⟨j, by simp [hj], hj1, hj2.congr hecus (hsame y hy)⟩
    · intro hf
      obtain ⟨c1, c2⟩ := b2 hf
      refine ⟨?_, ?_⟩
      · intro y hy
        rcases List.mem_cons.1 hy with rfl | hy
        · rw [c2 _ hx]
          exact (a.2 hf).1
        · obtain ⟨row, hr1, hr2⟩ := c1 y hy
          exact ⟨row, hr1, hr2.congr hecus (hsame y hy)⟩
      · intro y hy
        simp only [List.map_cons, List.mem_cons, not_or] at hy
        rw [c2 y hy.2]
        exact (a.2 hf).2 y hy.1

theorem saveAll_secs {l : List Info} {s s' : St σ} {u : Unit} (h : saveAll l s = (.ok u, s'))
    (hnd : (l.map (fun i => i.serial)).Nodup) :
    (∀ i ∈ l, s'.store.secs.lookup i.serial = some ⟨i.type, keyTypeName i.key.type, i.key.value⟩) ∧
      ∀ y, y ∉ l.map (fun i => i.serial) → s'.store.secs.lookup y = s.store.secs.lookup y := by
  induction l generalizing s with
  | nil => simp [saveAll] at h; rw [← h]; exact ⟨by simp, fun _ _ => rfl⟩
  | cons x r ih =>
    unfold saveAll at h
    obtain ⟨_, s1, h1, h2⟩ := M.bind_ok.1 h
    rw [List.map_cons, List.nodup_cons] at hnd
    obtain ⟨a, b⟩ := ih h2 hnd.2
    have e := saveInfo_secs h1
    refine ⟨?_, ?_⟩
    · intro i hi
      rcases List.mem_cons.1 hi with rfl | hi
      · rw [b _ hnd.1, e]; exact lookup_put_self
      · exact a i hi
    · intro y hy
      simp only [List.map_cons, List.mem_cons, not_or] at hy
      rw [b y hy.2, e]
      exact lookup_put_of_ne hy.1

theorem register_secs {b : Bool} {new : List (String × String)} {is : List Info} {s s' : St σ} {u : Unit}
    (h : initEcuRegister env server cfg new b is s = (.ok u, s')) (hnd : (is.map (fun i => i.serial)).Nodup) :
    (b = false → s'.store.secs = s.store.secs) ∧
    (b = true → ∀ i ∈ is, s'.store.secs.lookup i.serial = some ⟨i.type, keyTypeName i.key.type, i.key.value⟩) := by
  unfold initEcuRegister at h
  cases b with
  | false => simp at h; rw [← h]; simp
  | true =>
    simp only [Bool.not_true, Bool.false_eq_true, if_false] at h
    obtain ⟨p, s1, e1, h2⟩ := M.bind_ok.1 h
    obtain ⟨_, s2, e2, h4⟩ := M.bind_ok.1 h2
    obtain ⟨r, s3, e3, h6⟩ := M.bind_ok.1 h4
    cases r with
    | odd => simp at h6
    | refused code => simp at h6
    | ok body =>
      dsimp only at h6
      obtain ⟨_, s4, h7, h8⟩ := M.bind_ok.1 h6
      obtain ⟨_, s5, h9, h10⟩ := M.bind_ok.1 h8
      have hs := (saveAll_secs h9 hnd).1
      unfold storeEcuRegistered at h10
      obtain ⟨d, s6, h11, h12⟩ := M.bind_ok.1 h10
      simp at h11
      obtain ⟨rfl, rfl⟩ := h11
      obtain ⟨_, s7, h13, h14⟩ := M.bind_ok.1 h12
      obtain ⟨_, rfl⟩ := throwWhen_run h13
      obtain ⟨_, _, rfl⟩ := write_ok h14
      exact ⟨by simp, fun _ => hs⟩

theorem counter_secs {s s' : St σ} {u : Unit} (h : initEcuReportCounter s = (.ok u, s')) : s'.store.secs = s.store.secs := by
  unfold initEcuReportCounter at h
  obtain ⟨t, s1, h1, h2⟩ := M.bind_ok.1 h
  simp at h1
  obtain ⟨rfl, rfl⟩ := h1
  split at h2
  · simp at h2
    rw [h2]
  · cases he : s.store.ecus with
    | nil => rw [he] at h2; simp at h2
    | cons e r =>
      rw [he] at h2
      obtain ⟨_, _, rfl⟩ := write_ok h2
      rfl

theorem initKeys_secs {s s' : St σ} {u : Unit} (h : initPrimaryEcuKeys env s = (.ok u, s')) : s'.store.secs = s.store.secs := by
  unfold initPrimaryEcuKeys at h
  obtain ⟨p, s1, h1, h2⟩ := M.bind_ok.1 h
  obtain ⟨hp, rfl⟩ := throwWhen_run h2
  unfold generateUptaneKeyPair at h1
  obtain ⟨k, s2, h3, h4⟩ := M.bind_ok.1 h1
  simp at h3
  obtain ⟨rfl, rfl⟩ := h3
  obtain ⟨k, s3, h5, h6⟩ := M.bind_ok.1 h4
  obtain ⟨_, s4, h7, h8⟩ := M.bind_ok.1 h6
  obtain ⟨_, rfl⟩ := throwWhen_run h7
  simp at h8
  obtain ⟨rfl, rfl⟩ := h8
  cases hk : s.store.keys with
  | some v => rw [hk] at h5; simp at h5; rw [h5.2]
  | none =>
    rw [hk] at h5
    obtain ⟨n, s5, h9, h10⟩ := M.bind_ok.1 h5
    simp [draw] at h9
    obtain ⟨rfl, rfl⟩ := h9
    cases hn : env.newKey s.drawn with
    | none => rw [hn] at h10; simp at h10; rw [← h10.2]
    | some v =>
      rw [hn] at h10
      obtain ⟨_, s6, h11, h12⟩ := M.bind_ok.1 h10
      obtain ⟨_, _, rfl⟩ := write_ok h11
      simp at h12
      rw [← h12.2]

/-- What the steps after the credentials leave about the Secondaries. -/
theorem rest_secs {s s' : St σ} {u : Unit} (h : rest env server cfg secondaries s = (.ok u, s'))
    (hnd : ∀ p, ((configured env cfg secondaries p).map Prod.fst).Nodup) :
    (∀ x ∈ secondaries, ∃ row, s'.store.secs.lookup x.1 = some row ∧ RecordOf s.store x row) ∧
    ∃ k, (s'.store.ecus = configured env cfg secondaries k ∨
      (s'.store.ecus = s.store.ecus ∧ s.store.ecus ≠ [] ∧ SameEcus s.store.ecus (configured env cfg secondaries k))) := by
  have hnd' : (secondaries.map Prod.fst).Nodup := by
    have := hnd ""
    simp only [configured, List.map_cons, List.nodup_cons, List.map_map] at this
    exact this.2
  unfold rest at h
  obtain ⟨_, s1, h1, g1⟩ := M.bind_ok.1 h
  obtain ⟨k, hk, hk2, _, hec⟩ := initKeys_ok h1
  have hsec := initKeys_secs h1
  obtain ⟨n, s2, h2, g2⟩ := M.bind_ok.1 g1
  obtain ⟨hn, hreg, m2, f2, rfl⟩ := initEcuSerials_ok hk h2
  obtain ⟨is, s3, h3, g3⟩ := M.bind_ok.1 g2
  obtain ⟨hi, ⟨m3, f3, hs3⟩, hb, _⟩ := initSecInfo_ok h3
  obtain ⟨r1, r2⟩ := initSecInfo_rec h3 hnd'
  obtain ⟨_, s4, h4, h5⟩ := M.bind_ok.1 g3
  rw [hn] at h4
  obtain ⟨he, -, -⟩ := register_ok h4 (by simp [configured]) (hnd k.1)
  obtain ⟨p1, p2⟩ := register_secs h4 (by rw [hi]; exact hnd')
  obtain ⟨hc1, -, -⟩ := counter_ok h5
  have hc2 := counter_secs h5
  have he3 : s3.store.ecus = s.store.ecus := by rw [hs3]; exact hec
  refine ⟨?_, k.1, ?_⟩
  · intro x hx
    cases hb2 : n.2 with
    | false =>
      obtain ⟨row, q1, q2⟩ := (r2 hb2).1 x hx
      exact ⟨row, by rw [hc2, p1 hb2]; exact q1, q2.congr (by exact hec) (by show s1.store.secs.lookup _ = _; rw [hsec])⟩
    | true =>
      obtain ⟨i, hi, q1, q2⟩ := r1 x hx
      exact ⟨_, by rw [hc2, ← q1]; exact p2 hb2 i hi, q2.congr (by exact hec) (by show s1.store.secs.lookup _ = _; rw [hsec])⟩
  · rw [hc1, he]
    by_cases hb2 : n.2 = true
    · rw [if_pos hb2]; exact .inl rfl
    · rw [if_neg hb2]
      have hb' : ¬ (s1.store.ecus = [] ∨ ¬ SameEcus s1.store.ecus (configured env cfg secondaries k.1)) := by
        rw [← hreg]; exact hb2
      simp only [not_or, Classical.not_not] at hb'
      rw [hec] at hb'
      exact .inr ⟨he3, hb'⟩

theorem tls_secs {s s' : St σ} {u : Unit} (h : initTlsCreds env server cfg s = (.ok u, s')) :
    s'.store.secs = s.store.secs ∧ s'.store.ecus = s.store.ecus := by
  unfold initTlsCreds at h
  obtain ⟨b, s1, h1, h2⟩ := M.bind_ok.1 h
  obtain ⟨hb, hs1⟩ := loadSet_ok h1
  cases b with
  | true =>
    simp at h2
    subst h2
    rw [← hb] at hs1
    subst hs1
    exact ⟨rfl, rfl⟩
  | false =>
    rw [← hb] at hs1
    simp at hs1
    subst hs1
    simp only [Bool.false_eq_true, if_false] at h2
    obtain ⟨_, s2, e2, h3⟩ := M.bind_ok.1 h2
    obtain ⟨_, rfl⟩ := throwWhen_run e2
    obtain ⟨_, s3, e3, h4⟩ := M.bind_ok.1 h3
    simp at e3
    obtain ⟨rfl, rfl⟩ := e3
    obtain ⟨_, s4, e4, h5⟩ := M.bind_ok.1 h4
    obtain ⟨_, rfl⟩ := throwWhen_run e4
    obtain ⟨_, s5, e5, h6⟩ := M.bind_ok.1 h5
    simp at e5
    subst e5
    obtain ⟨_, s6, e6, h7⟩ := M.bind_ok.1 h6
    simp at e6
    obtain ⟨rfl, rfl⟩ := e6
    obtain ⟨_, s7, e7, h8⟩ := M.bind_ok.1 h7
    obtain ⟨_, rfl⟩ := M.orThrow_ok.1 e7
    obtain ⟨r, s8, e8, h9⟩ := M.bind_ok.1 h8
    obtain ⟨_, _, rfl⟩ := post_ok e8
    cases r with
    | odd => simp at h9
    | refused code => simp at h9
    | ok body =>
      dsimp only at h9
      obtain ⟨_, s9, e9, h10⟩ := M.bind_ok.1 h9
      obtain ⟨_, rfl⟩ := M.orThrow_ok.1 e9
      obtain ⟨_, s10, e10, h11⟩ := M.bind_ok.1 h10
      obtain ⟨_, _, rfl⟩ := write_ok e10
      obtain ⟨_, s11, e11, h12⟩ := M.bind_ok.1 h11
      obtain ⟨_, _, rfl⟩ := write_ok e11
      obtain ⟨_, s12, e12, h13⟩ := M.bind_ok.1 h12
      obtain ⟨_, _, rfl⟩ := write_ok e12
      obtain ⟨b2, s13, h14, h15⟩ := M.bind_ok.1 h13
      obtain ⟨_, s14, h16, h17⟩ := M.bind_ok.1 h15
      obtain ⟨hb2, rfl⟩ := throwWhen_run h16
      obtain ⟨hb3, hs13⟩ := loadSet_ok h14
      split at hs13 <;> subst hs13 <;> split at h17
      all_goals first
        | (obtain ⟨_, _, rfl⟩ := write_ok h17
           exact ⟨rfl, rfl⟩)
        | (simp at h17
           subst h17
           exact ⟨rfl, rfl⟩)

theorem attempts_secs {n : Nat} {s s' : St σ} {u : Unit} (h : attempts env server cfg secondaries n s = (.ok u, s')) :
    ∃ s2, s2.store.secs = s.store.secs ∧ s2.store.ecus = s.store.ecus ∧ rest env server cfg secondaries s2 = (.ok u, s') := by
  induction n generalizing s with
  | zero => simp [attempts] at h
  | succ n ih =>
    unfold attempts at h
    obtain ⟨u1, s1, h1, h2⟩ := M.bind_ok.1 h
    obtain ⟨d, m, f, rfl⟩ := initDeviceId_frame h1
    obtain ⟨b, s2, h3, h4⟩ := M.bind_ok.1 h2
    cases b with
    | false =>
      simp only [Bool.false_eq_true, if_false] at h4
      obtain ⟨u2, h5⟩ := isOccupied_false h3
      obtain ⟨a1, a2⟩ := tls_secs h5
      exact ⟨s2, a1, a2, h4⟩
    | true =>
      simp only [if_true] at h4
      obtain ⟨_, s3, h5, h6⟩ := M.bind_ok.1 h4
      obtain ⟨_, _, rfl⟩ := write_ok h5
      obtain ⟨a, g1, g2, g3⟩ := ih h6
      have hst := (tls_occupied (isOccupied_true h3)).2.1
      refine ⟨a, ?_, ?_, g3⟩
      · rw [g1]; show s2.store.secs = _; rw [hst]
      · rw [g2]; show s2.store.ecus = _; rw [hst]

/-- After a successful start every Secondary is on record, with what was completely on record before or
else with what it told; and the table of ECUs is the configured list, or what it was before if that has
the same ECUs. -/
theorem C41_secondaries (x : Start) (t : Store) (srv : σ) (h : (run env server x t srv).1 = .ok ())
    (hnd : ∀ p, ((configured env x.cfg x.secondaries p).map Prod.fst).Nodup) :
    (∀ y ∈ x.secondaries, ∃ row, (run env server x t srv).2.store.secs.lookup y.1 = some row ∧ RecordOf t y row) ∧
    ∃ k, (run env server x t srv).2.store.ecus = configured env x.cfg x.secondaries k ∨
      ((run env server x t srv).2.store.ecus = t.ecus ∧ t.ecus ≠ [] ∧ ∀ e, e ∈ t.ecus ↔ e ∈ configured env x.cfg x.secondaries k) := by
  generalize hf : run env server x t srv = f at h
  obtain ⟨o, s'⟩ := f
  simp only at h
  subst h
  unfold run start at hf
  obtain ⟨_, s1, h1, h2⟩ := M.bind_ok.1 hf
  have himp := import_imp (env := env) (f := x.files) (s := { store := t, srv := srv, fuel := x.fuel, drawn := x.seed : St σ })
  rw [h1] at himp
  obtain ⟨t1, n, rfl, hi⟩ := himp
  obtain ⟨s2, g1, g2, g3⟩ := attempts_secs h2
  have e1 : s2.store.secs = t.secs := by rw [g1]; show t1.secs = _; rw [hi.rest]
  have e2 : s2.store.ecus = t.ecus := by rw [g2]; show t1.ecus = _; rw [hi.rest]
  obtain ⟨r1, k, r2⟩ := rest_secs g3 hnd
  refine ⟨?_, k, ?_⟩
  · intro y hy
    obtain ⟨row, q1, q2⟩ := r1 y hy
    exact ⟨row, q1, q2.congr e2 (by rw [e1])⟩
  · rw [e2] at r2
    exact r2

/-- The first start of the device of `C41` has the Secondary on record, a second one with another key of it
leaves the record as it is. -/
example : (run Case.toy Case.easy (Case.go 99) {} ()).1 = .ok () ∧
    (run Case.toy Case.easy (Case.go 99) {} ()).2.store.secs = [("sec", ⟨"IP", "ED25519", "sk"⟩)] ∧
    (run Case.toy Case.easy { cfg := Case.cfg, secondaries := [("sec", { hwId := "lamp", type := "IP", key := ⟨"other", .ed25519⟩ })], fuel := 99 }
      (run Case.toy Case.easy (Case.go 99) {} ()).2.store ()).2.store.secs = [("sec", ⟨"IP", "ED25519", "sk"⟩)] := by decide +kernel

end Aktualizr.Prov
