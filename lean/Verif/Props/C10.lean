import Verif.Lemmas.Client
import Verif.Props.C05
import Verif.Props.C08
import Verif.Props.C11
import Verif.Props.C15

/-!
# C10 Every update offered is approved by both repositories,
# C14 Only known ECUs with matching hardware receive updates
-/

namespace Aktualizr

open M Spec

namespace Spec

/-- The Director's Targets in use come from a document signed under a verified Root. -/
def DirectorTrusted (env : Env) (d : DirectorRepo) : Prop :=
  RootInUse env d.root ∧ ∃ raw, ReadsAsTargets env raw d.targets ∧ SignedFor env d.root Role.targets raw

/-- `rawTop`, `top`: the Image repository's top-level Targets, signed under a verified Root;
`rawS`: its Snapshot, signed likewise. -/
def ImageTrusted (env : Env) (i : ImageRepo) (rawTop : String) (top : Targets) (rawS : String) : Prop :=
  RootInUse env i.root ∧ i.targets = some top ∧ ReadsAsTargets env rawTop top ∧ SignedFor env i.root Role.targets rawTop ∧
    ReadsAsSnapshot env rawS i.snapshot ∧ SignedFor env i.root Role.snapshot rawS ∧
    SnapshotVouches env rawS "targets" rawTop top.base.version

/-- `t` is listed by the Image repository: by its top-level Targets or by a delegation reached
through trusted delegations; `m` is the entry. -/
def ImageLists (env : Env) (i : ImageRepo) (times : TimeStamp → Prop) (t m : Target) : Prop :=
  ∃ rawTop top rawS n terminating leaf, ImageTrusted env i rawTop top rawS ∧ n ≤ 5 ∧
    Chain env rawS t.filename times ⟨rawTop, top⟩ n terminating leaf ∧
    m ∈ leaf.content.targets ∧ SameContent m t ∧ SameAssignment m t

/-- `u` is the Director's target `d`, with the URI taken from `m` if the Director gives none. -/
def Offers (d m u : Target) : Prop := u = { d with uri := if d.uri = "" then m.uri else d.uri }

/-- ECU `ecu` is registered on the device with hardware id `hw`. -/
def Registered (cl : Client) (ecu hw : String) : Prop :=
  (ecu = cl.primary ∧ hw = cl.primaryHw) ∨ (ecu, hw) ∈ cl.secondaries

end Spec

/-! ### The matching loop -/

theorem offers_of (t m : Target) : Offers t m (if t.uri = "" ∧ m.uri ≠ "" then { t with uri := m.uri } else t) := by
  unfold Offers
  by_cases h1 : t.uri = ""
  · by_cases h2 : m.uri = ""
    · cases t; simp_all
    · cases t; simp_all
  · cases t; simp_all

/-- The `i`-th offered update comes from the `i`-th new target. -/
theorem matchLoop_ok {c : Ctx} {top : Targets} {rawTop rawS : String} (hr : ReadsAsTargets c.env rawTop top)
    {ts us : List Target} {cl cl' : Client}
    (hi : cl.w.img.targets = some top) (hs : ReadsAsSnapshot c.env rawS cl.w.img.snapshot)
    (h : matchLoop c ts cl = (.ok us, cl')) :
    Steady cl.w cl'.w ∧ (∃ w, cl' = { cl with w := w }) ∧ us.length = ts.length ∧
    ∀ p ∈ ts.zip us, ∃ m n terminating leaf, Offers p.1 m p.2 ∧ n ≤ 5 ∧
      Chain c.env rawS p.1.filename (fun x => ∃ t, cl.w.tick ≤ t ∧ t < cl'.w.tick ∧ x = c.clock t) ⟨rawTop, top⟩ n terminating leaf ∧
      m ∈ leaf.content.targets ∧ SameContent m p.1 ∧ SameAssignment m p.1 := by
  induction ts generalizing us cl with
  | nil =>
    simp only [matchLoop, pure_eq, Prod.mk.injEq, Except.ok.injEq] at h
    obtain ⟨rfl, rfl⟩ := h
    exact ⟨steady_pre.refl _, ⟨_, rfl⟩, rfl, by simp⟩
  | cons t ts ih =>
    unfold matchLoop at h
    replace h := M.bind_ok.1 h
    obtain ⟨found, cl1, h1, h⟩ := h
    obtain ⟨w1, hf, rfl⟩ := inWorld_ok.1 h1
    have st := (Delegation.findInTree_steady c t false).of_eq hf
    cases found with
    | none => simp at h
    | some m =>
      replace h := M.bind_ok.1 h
      obtain ⟨l, cl2, h2, h⟩ := h
      simp only [pure_eq, Prod.mk.injEq, Except.ok.injEq] at h
      obtain ⟨rfl, rfl⟩ := h
      obtain ⟨st2, ⟨w2, hw2⟩, hlen, hall⟩ := ih (cl := { cl with w := w1 }) (by show w1.img.targets = _; rw [st.1]; exact hi)
        (by show ReadsAsSnapshot _ _ w1.img.snapshot; rw [st.1]; exact hs) h2
      refine ⟨steady_pre.trans _ _ _ st st2, ⟨w2, hw2⟩, by simp [hlen], ?_⟩
      intro p hp
      have t1 : cl.w.tick ≤ w1.tick := st.2.2
      have t2 : w1.tick ≤ cl2.w.tick := st2.2.2
      rw [List.zip_cons_cons, List.mem_cons] at hp
      rcases hp with rfl | hp
      · obtain ⟨n, term, leaf, h1, h2, h3, h4, h5⟩ := C12_found_partial c t m false _ _ top rawTop rawS hr hi hs hf
        refine ⟨m, n, term, leaf, offers_of t m, h1, ?_, h3, h4, h5⟩
        exact h2.mono (fun x ⟨k, k1, k2, k3⟩ => ⟨k, k1, Nat.lt_of_lt_of_le k2 t2, k3⟩)
      · obtain ⟨m', n, term, leaf, h0, h1, h2, h3, h4, h5⟩ := hall p hp
        refine ⟨m', n, term, leaf, h0, h1, ?_, h3, h4, h5⟩
        exact h2.mono (fun x ⟨k, k1, k2, k3⟩ => ⟨k, Nat.le_trans t1 k1, k2, k3⟩)

/-! ### What a check that does not report an error went through -/

theorem checkUpdates_ok {c : Ctx} {cl cl' : Client} {r : UpdateCheck} (h : checkUpdates c cl = (.ok r, cl')) (hne : r.status ≠ .error) :
    ∃ w1 news n, Director.updateMeta c cl.w = (.ok (), w1) ∧
      Client.getNewTargets { cl with w := w1 } c.env = .ok (news, n) ∧
      ((news = [] ∧ r.updates = [] ∧ r.status = .noUpdates ∧ cl' = { cl with w := w1 }) ∨
       (news ≠ [] ∧ r.status = .available ∧ r.ecusCount = n ∧ ∃ w2, Image.updateMeta c w1 = (.ok (), w2) ∧
         matchLoop c news { cl with w := w2 } = (.ok r.updates, cl'))) := by
  unfold checkUpdates at h
  replace h := M.bind_ok.1 h
  obtain ⟨o, cl1, h1, h⟩ := h
  have h1' := catchStd_ok.1 h1
  clear h1
  rcases h1' with h1 | ⟨_, _, _, _, h1⟩
  swap_goal
  · simp only [pure_eq, Prod.mk.injEq, Except.ok.injEq] at h1
    obtain ⟨rfl, rfl⟩ := h1
    simp only [pure_eq, Prod.mk.injEq, Except.ok.injEq] at h
    obtain ⟨rfl, _⟩ := h
    exact (hne rfl).elim
  obtain ⟨rn, cl2, hI, h2⟩ := M.bind_ok.1 h1
  clear h1
  simp only [pure_eq, Prod.mk.injEq, Except.ok.injEq] at h2
  obtain ⟨rfl, rfl⟩ := h2
  obtain ⟨news, n⟩ := rn
  replace h : checkMatches c (news, n) cl2 = (.ok r, cl') := h
  -- the iteration
  unfold uptaneIteration at hI
  have h1 := M.bind_ok.1 hI
  clear hI
  obtain ⟨_, cl3, h3, h1⟩ := h1
  obtain ⟨w1, hd, rfl⟩ := inWorld_ok.1 h3
  replace h1 := M.bind_ok.1 h1
  obtain ⟨cl4, cl4', h4, h1⟩ := h1
  simp only [gets_eq, Prod.mk.injEq, Except.ok.injEq, id] at h4
  obtain ⟨rfl, rfl⟩ := h4
  replace h1 := M.bind_ok.1 h1
  obtain ⟨x, cl5, h5, h1⟩ := h1
  simp only [lift_eq, Prod.mk.injEq] at h5
  obtain ⟨hn, rfl⟩ := h5
  -- the rest
  unfold checkMatches at h
  replace h := M.bind_ok.1 h
  obtain ⟨raw?, cl6, h6, h⟩ := h
  obtain ⟨w6, hl, rfl⟩ := inWorld_ok.1 h6
  have he := (loadNonRoot_same .director .targets).of_eq hl
  subst he
  cases raw? with
  | none =>
    simp only [pure_eq, Prod.mk.injEq, Except.ok.injEq] at h
    obtain ⟨rfl, _⟩ := h
    exact (hne rfl).elim
  | some raw =>
    refine ⟨w1, news, n, hd, ?_⟩
    by_cases hx : x.1.isEmpty = true
    · rw [if_pos hx] at h1
      simp only [pure_eq, Prod.mk.injEq, Except.ok.injEq] at h1
      obtain ⟨rfl, rfl⟩ := h1
      replace hx : news = [] := by simpa using hx
      subst hx
      simp only [List.isEmpty_nil, if_true, pure_eq, Prod.mk.injEq, Except.ok.injEq] at h
      obtain ⟨rfl, rfl⟩ := h
      exact ⟨hn, .inl ⟨rfl, rfl, rfl, rfl⟩⟩
    · rw [if_neg hx] at h1
      replace h1 := M.bind_ok.1 h1
      obtain ⟨_, cl7, h7, h1⟩ := h1
      obtain ⟨w2, hi, rfl⟩ := inWorld_ok.1 h7
      simp only [pure_eq, Prod.mk.injEq, Except.ok.injEq] at h1
      obtain ⟨rfl, rfl⟩ := h1
      replace hx : ¬ news.isEmpty = true := hx
      simp only [hx, Bool.false_eq_true, if_false] at h
      refine ⟨hn, .inr ⟨by simpa using hx, ?_⟩⟩
      rcases catchStd_ok.1 h with h | ⟨_, _, _, _, h⟩
      · replace h := M.bind_ok.1 h
        obtain ⟨us, cl8, h8, h⟩ := h
        simp only [pure_eq, Prod.mk.injEq, Except.ok.injEq] at h
        obtain ⟨rfl, rfl⟩ := h
        exact ⟨rfl, rfl, w2, hi, h8⟩
      · replace h := M.bind_ok.1 h
        obtain ⟨_, cl8, h8, h⟩ := h
        simp only [pure_eq, Prod.mk.injEq, Except.ok.injEq] at h
        obtain ⟨rfl, _⟩ := h
        exact (hne rfl).elim

theorem checkUpdates_status {c : Ctx} {cl cl' : Client} {r : UpdateCheck} (h : checkUpdates c cl = (.ok r, cl'))
    (hu : r.updates ≠ []) : r.status ≠ .error := by
  unfold checkUpdates at h
  replace h := M.bind_ok.1 h
  obtain ⟨o, cl1, _, h⟩ := h
  cases o with
  | none =>
    simp only [pure_eq, Prod.mk.injEq, Except.ok.injEq] at h
    obtain ⟨rfl, _⟩ := h
    exact (hu rfl).elim
  | some rn =>
    replace h : checkMatches c rn cl1 = (.ok r, cl') := h
    unfold checkMatches at h
    replace h := M.bind_ok.1 h
    obtain ⟨o, cl2, _, h⟩ := h
    cases o with
    | none =>
      simp only [pure_eq, Prod.mk.injEq, Except.ok.injEq] at h
      obtain ⟨rfl, _⟩ := h
      exact (hu rfl).elim
    | some raw =>
      simp only at h
      split at h
      · simp only [pure_eq, Prod.mk.injEq, Except.ok.injEq] at h
        obtain ⟨rfl, _⟩ := h
        exact (hu rfl).elim
      · rcases catchStd_ok.1 h with h | ⟨_, _, _, _, h⟩
        · obtain ⟨us, cl3, _, h⟩ := M.bind_ok.1 h
          simp only [pure_eq, Prod.mk.injEq, Except.ok.injEq] at h
          obtain ⟨rfl, _⟩ := h
          simp
        · obtain ⟨us, cl3, _, h⟩ := M.bind_ok.1 h
          simp only [pure_eq, Prod.mk.injEq, Except.ok.injEq] at h
          obtain ⟨rfl, _⟩ := h
          exact (hu rfl).elim

/-! ### Which targets are new -/

theorem ecuLoop_ok {env : Env} {cl : Client} {t : Target} {l : List (String × String)} {b b' : Bool} {n n' : Nat}
    (h : ecuLoop env cl t l b n = .ok (b', n')) :
    (∀ p ∈ l, cl.getEcuHwId p.1 = some p.2 ∧ (∃ cur, cl.v.loadCurrent env p.1 = .ok cur ∧
        ∀ x, cur = some x → x.filename = t.filename → x.matchTarget t = true) ∧
        (cl.primary = p.1 → cl.ostree = true → t.isOstree = true)) ∧
    (b' = true ↔ b = true ∨ ∃ p ∈ l, ∀ x, cl.v.loadCurrent env p.1 = .ok (some x) → x.matchTarget t = false) := by
  induction l generalizing b n with
  | nil =>
    simp only [ecuLoop, Except.ok.injEq, Prod.mk.injEq] at h
    obtain ⟨rfl, rfl⟩ := h
    simp
  | cons p l ih =>
    obtain ⟨serial, hw⟩ := p
    unfold ecuLoop at h
    cases hk : cl.getEcuHwId serial with
    | none => rw [hk] at h; simp at h
    | some known =>
      rw [hk] at h
      simp only [exc_bind_ok, throwIf_ok] at h
      obtain ⟨_, hhw, cur, hcur, b1, hb1, _, hos, h⟩ := h
      replace hhw : known = hw := by simpa using hhw
      obtain ⟨i1, i2⟩ := ih h
      have hfile : ∀ x, cur = some x → x.filename = t.filename → x.matchTarget t = true := by
        rintro x rfl hf
        unfold compareInstalled at hb1
        simp only at hb1
        by_cases hm : x.matchTarget t = true
        · exact hm
        · simp [hm, hf] at hb1
      have hnew : b1 = true ↔ b = true ∨ ∀ x, cur = some x → x.matchTarget t = false := by
        unfold compareInstalled at hb1
        cases cur with
        | none => simp at hb1; subst hb1; simp
        | some x =>
          simp only at hb1
          split at hb1
          · next hm => simp at hb1; subst hb1; simp [hm]
          · next hm =>
            split at hb1
            · simp at hb1
            · simp at hb1; subst hb1; simp at hm; simp [hm]
      constructor
      · intro p hp
        rcases List.mem_cons.1 hp with rfl | hp
        · refine ⟨by rw [hk, hhw], ⟨cur, hcur, hfile⟩, fun hp ho => ?_⟩
          replace hp : cl.primary = serial := hp
          simp only [hp, ho, BEq.rfl, Bool.true_and, Bool.and_true, Bool.not_eq_false'] at hos
          exact hos
        · exact i1 p hp
      · rw [i2, hnew]
        simp only [List.mem_cons, exists_eq_or_imp, or_assoc, hcur, Except.ok.injEq]

theorem targetLoop_ok {env : Env} {cl : Client} {ts news : List Target} {n n' : Nat}
    (h : targetLoop env cl ts n = .ok (news, n')) :
    (∀ t ∈ ts, ∀ p ∈ t.ecus, cl.getEcuHwId p.1 = some p.2 ∧ (∃ cur, cl.v.loadCurrent env p.1 = .ok cur ∧
        ∀ x, cur = some x → x.filename = t.filename → x.matchTarget t = true) ∧
        (cl.primary = p.1 → cl.ostree = true → t.isOstree = true)) ∧
    (∀ t, t ∈ news ↔ t ∈ ts ∧ ∃ p ∈ t.ecus, ∀ x, cl.v.loadCurrent env p.1 = .ok (some x) → x.matchTarget t = false) := by
  induction ts generalizing news n with
  | nil =>
    simp only [targetLoop, Except.ok.injEq, Prod.mk.injEq] at h
    obtain ⟨rfl, rfl⟩ := h
    simp
  | cons t ts ih =>
    unfold targetLoop at h
    simp only [exc_bind_ok] at h
    obtain ⟨⟨b, n1⟩, h1, ⟨l, n2⟩, h2, h⟩ := h
    simp only [exc_pure_ok, Prod.mk.injEq] at h
    obtain ⟨rfl, rfl⟩ := h
    obtain ⟨i1, i2⟩ := ih h2
    obtain ⟨j1, j2⟩ := ecuLoop_ok h1
    simp only [Bool.false_eq_true, false_or] at j2
    constructor
    · intro x hx
      rcases List.mem_cons.1 hx with rfl | hx
      · exact j1
      · exact i1 x hx
    · intro x
      cases b with
      | true =>
        simp only [if_true, List.mem_cons, i2]
        constructor
        · rintro (rfl | ⟨h3, h4⟩)
          · exact ⟨.inl rfl, j2.1 rfl⟩
          · exact ⟨.inr h3, h4⟩
        · rintro ⟨rfl | h3, h4⟩
          · exact .inl rfl
          · exact .inr ⟨h3, h4⟩
      | false =>
        simp only [Bool.false_eq_true, if_false, List.mem_cons, i2]
        constructor
        · rintro ⟨h3, h4⟩; exact ⟨.inr h3, h4⟩
        · rintro ⟨rfl | h3, h4⟩
          · simpa using j2.2 h4
          · exact ⟨h3, h4⟩

/-- The world, seen at the end of a check that offered updates. -/
theorem check_trusted {c : Ctx} {w w1 w2 w3 : World} (hd : Director.updateMeta c w = (.ok (), w1))
    (hi : Image.updateMeta c w1 = (.ok (), w2)) (hs : Steady w2 w3) :
    DirectorTrusted c.env w3.dir ∧ ∃ rawTop top rawS, ImageTrusted c.env w3.img rawTop top rawS := by
  have hk := (Image.updateMeta_keepsDir c).of_eq hi
  have hdir : w3.dir = w1.dir := hs.2.1.trans hk.1
  obtain ⟨d1, _, ⟨raw, _, d2, d3⟩, _, d4⟩ := C06_director_partial c w w1 hd
  refine ⟨?_, ?_⟩
  · rw [hdir]
    refine ⟨d1, ?_⟩
    rcases d4 with d4 | ⟨_, raw', _, h1, h2⟩
    · exact ⟨raw, by rw [d4]; exact d2, d3⟩
    · exact ⟨raw', h1, h2⟩
  · rw [hs.1]
    obtain ⟨v1, v2, v3, rawT, rawS, raw, t, s, ts, hs⟩ := Image.updateMeta_success hi
    obtain ⟨hu, _, _⟩ := updateRoot_inUse hs.rootOk
    have k2 := Snapshot.ofJsonSigned_ok hs.snapshot.verified.parsed
    have k3 := Targets.ofJsonSigned_ok properTargets hs.targets.verified.parsed
    have r2 : v2.img.root = v1.img.root := by rw [hs.timestamp.img]
    have r3 : v3.img.root = v1.img.root := by rw [hs.snapshot.img, hs.timestamp.img]
    rw [r2] at k2
    rw [r3] at k3
    refine ⟨raw, ts, rawS, ?_⟩
    rw [hs.img]
    refine ⟨hu, rfl, k3.2.2, ⟨k3.1, k3.2.1⟩, k2.2.2.1, ⟨k2.1, k2.2.1⟩, ?_⟩
    have hv := hs.targets.verified.version
    have hh := hs.targets.verified.hashes
    rw [hs.snapshot.img] at hv hh
    rw [hv]
    exact snapshot_vouches hs.snapshot.verified.parsed hh

/-! ### ECU serials in Targets are not empty -/

theorem mem_insertEcu {p e : String × String} {l : List (String × String)} (h : p ∈ insertEcu e l) : p = e ∨ p ∈ l := by
  induction l with
  | nil => simpa [insertEcu] using h
  | cons x xs ih =>
    unfold insertEcu at h
    split at h
    · exact .inr h
    · split at h
      · exact List.mem_cons.1 h
      · rcases List.mem_cons.1 h with rfl | h
        · exact .inr (by simp)
        · rcases ih h with h | h
          · exact .inl h
          · exact .inr (List.mem_cons_of_mem _ h)

theorem mem_foldl_insertEcu {p : String × String} {es l : List (String × String)}
    (h : p ∈ es.foldl (fun m e => insertEcu e m) l) : p ∈ es ∨ p ∈ l := by
  induction es generalizing l with
  | nil => exact .inr h
  | cons e es ih =>
    rcases ih h with h | h
    · exact .inl (List.mem_cons_of_mem _ h)
    · rcases mem_insertEcu h with rfl | h
      · exact .inl (by simp)
      · exact .inr h

theorem parseEcus_nonempty {l : List (String × Json)} {es : List (String × String)} (h : parseEcus l = .ok es) :
    ∀ p ∈ es, p.1 ≠ "" := by
  induction l generalizing es with
  | nil => simp [parseEcus] at h; subst h; simp
  | cons a l ih =>
    obtain ⟨k, j⟩ := a
    unfold parseEcus at h
    simp only [exc_bind_ok] at h
    obtain ⟨e, he, _, _, _, _, hw, _, es', hes, h⟩ := h
    rw [exc_pure_ok] at h
    subst h
    intro p hp
    rcases List.mem_cons.1 hp with rfl | hp
    · unfold mkEcuSerial at he
      split at he
      · simp at he
      · next hn =>
        split at he
        · simp at he
        · simp at he
          subst he
          rintro rfl
          exact hn (by decide)
    · exact ih hes p hp

theorem targetOfJson_nonempty {name : String} {j : Json} {t : Target} (h : Target.ofJson name j = .ok t) : ∀ p ∈ t.ecus, p.1 ≠ "" := by
  unfold Target.ofJson at h
  simp only [exc_bind_ok] at h
  obtain ⟨b, _, t1, ht1, _, _, _, _, _, _, _, _, h⟩ := h
  rw [exc_pure_ok] at h
  subst h
  show ∀ p ∈ t1.ecus, _
  split at ht1
  · simp only [exc_bind_ok] at ht1
    obtain ⟨cj, _, ht1⟩ := ht1
    unfold Target.updateCustom at ht1
    simp only [exc_bind_ok] at ht1
    obtain ⟨_, _, _, _, _, _, es, hes, _, _, _, _, _, _, _, _, ht1⟩ := ht1
    rw [exc_pure_ok] at ht1
    subst ht1
    intro p hp
    rcases mem_foldl_insertEcu hp with hp | hp
    · exact parseEcus_nonempty hes p hp
    · cases hp
  · rw [exc_pure_ok] at ht1
    subst ht1
    simp

theorem parseTargetList_nonempty {l : List (String × Json)} {ts : List Target} (h : parseTargetList l = .ok ts) :
    ∀ t ∈ ts, ∀ p ∈ t.ecus, p.1 ≠ "" := by
  induction l generalizing ts with
  | nil => simp [parseTargetList] at h; subst h; simp
  | cons a l ih =>
    obtain ⟨k, j⟩ := a
    unfold parseTargetList at h
    simp only [exc_bind_ok] at h
    obtain ⟨t, ht, ts', hts, h⟩ := h
    rw [exc_pure_ok] at h
    subst h
    intro x hx
    rcases List.mem_cons.1 hx with rfl | hx
    · exact targetOfJson_nonempty ht
    · exact ih hts x hx

theorem ReadsAsTargets.ecus_nonempty {env : Env} {raw : String} {ts : Targets} (h : ReadsAsTargets env raw ts) :
    ∀ t ∈ ts.targets, ∀ p ∈ t.ecus, p.1 ≠ "" := by
  obtain ⟨v, e, _, h⟩ := h
  unfold targetsInit at h
  simp only [exc_bind_ok] at h
  obtain ⟨_, _, s, hs, _, _, _, _, _, _, tl, htl, d, hd, ts1, hts, _, _, _, _, h⟩ := h
  rw [exc_pure_ok] at h
  subst h
  show ∀ t ∈ ts1.targets, _
  have : ts1.targets = tl := by
    split at hts
    · simp only [exc_bind_ok] at hts
      obtain ⟨_, _, _, _, _, _, hts⟩ := hts
      exact (parseDelegRoles_base hts).2.2
    · rw [exc_pure_ok] at hts; subst hts; rfl
  rw [this]
  exact parseTargetList_nonempty htl

theorem lookup_mem {k v : String} : ∀ {l : List (String × String)}, l.lookup k = some v → (k, v) ∈ l
  | [], h => by cases h
  | (a, b) :: l, h => by
    rw [List.lookup_cons] at h
    by_cases hk : k = a
    · subst hk; simp at h; simp [h]
    · have : (k == a) = false := by simpa using hk
      rw [this] at h
      exact .tail _ (lookup_mem h)

theorem mem_zip_get {α β : Type} {l : List α} {l' : List β} {i : Nat} (h1 : i < l.length) (h2 : i < l'.length) :
    (l[i], l'[i]) ∈ l.zip l' := by
  rw [List.mem_iff_getElem]
  exact ⟨i, by rw [List.length_zip]; omega, by simp⟩

theorem registered_of {cl : Client} {ecu hw : String} (hne : ecu ≠ "") (h : cl.getEcuHwId ecu = some hw) : Registered cl ecu hw := by
  unfold Client.getEcuHwId at h
  split at h
  · next hp =>
    rcases hp with hp | hp
    · split at h
      · simp at h
      · simp at h; exact .inl ⟨hp, h.symm⟩
    · exact absurd hp hne
  · exact .inr (lookup_mem h)

/-! ### C10 -/

/-- C10. Every target in the list of updates returned by an online check was listed by the
Director's Targets, which are signed under a verified Root, for the same ECUs; and it is
matched — same name and length, agreeing hashes with at least one in common, allowed hardware —
by a target listed in the Image repository's signed Targets, or in a delegation reached
through at most five signed, trusted, unexpired delegations. The expiry checks of the
delegations happened during this check. (C06 says the documents in use are unexpired.) -/
theorem C10_approved (c : Ctx) (cl cl' : Client) (r : UpdateCheck) (u : Target)
    (h : checkUpdates c cl = (.ok r, cl')) (hu : u ∈ r.updates) :
    DirectorTrusted c.env cl'.w.dir ∧
    ∃ d ∈ cl'.w.dir.targets.targets, ∃ m, Offers d m u ∧
      ImageLists c.env cl'.w.img (fun x => ∃ t, t < cl'.w.tick ∧ x = c.clock t) u m := by
  have hne : r.status ≠ .error := checkUpdates_status h (List.ne_nil_of_mem hu)
  obtain ⟨w1, news, n, hd, hn, ⟨_, hr, _⟩ | ⟨_, _, _, w2, hi, hm⟩⟩ := checkUpdates_ok h hne
  · rw [hr] at hu; cases hu
  obtain ⟨v1, v2, v3, rawT, rawS0, raw0, t, s, ts, hsucc⟩ := Image.updateMeta_success hi
  obtain ⟨_, rawTop, top, rawS, hT⟩ := check_trusted hd hi (steady_pre.refl _)
  obtain ⟨st, ⟨w3, hw3⟩, hlen, hall⟩ := matchLoop_ok hT.2.2.1 (cl := { cl with w := w2 }) hT.2.1 hT.2.2.2.2.1 hm
  subst hw3
  replace st : Steady w2 w3 := st
  have hk := (Image.updateMeta_keepsDir c).of_eq hi
  have hdir : w3.dir = w1.dir := st.2.1.trans hk.1
  refine ⟨(check_trusted hd hi st).1, ?_⟩
  obtain ⟨i, hi', rfl⟩ := List.getElem_of_mem hu
  have hin : i < news.length := by rw [← hlen]; exact hi'
  have hmem : (news[i], r.updates[i]) ∈ news.zip r.updates := mem_zip_get hin hi'
  obtain ⟨m, k, term, leaf, hoff, h5, hch, hml, hsc, hsa⟩ := hall _ hmem
  refine ⟨news[i], ?_, m, hoff, rawTop, top, rawS, k, term, leaf, ?_, h5, ?_, hml, ?_, ?_⟩
  · show _ ∈ w3.dir.targets.targets
    rw [hdir]
    exact (((targetLoop_ok hn).2 _).1 (List.getElem_mem hin)).1
  · show ImageTrusted c.env w3.img _ _ _
    rw [st.1]; exact hT
  · unfold Offers at hoff
    simp only at hoff hch
    rw [hoff]
    exact hch.mono (fun x ⟨t, _, h2, h3⟩ => ⟨t, h2, h3⟩)
  · unfold Offers at hoff
    simp only at hoff hsc
    rw [hoff]; exact hsc
  · unfold Offers at hoff
    simp only at hoff hsa
    rw [hoff]; exact hsa

/-- C10, converse. A check that offers updates offers every target of the Director's Targets
which is not what is recorded as installed on each of its ECUs — none is left out — and every
one offered is of that kind. -/
theorem C10_exactly_the_new (c : Ctx) (cl cl' : Client) (r : UpdateCheck) (h : checkUpdates c cl = (.ok r, cl'))
    (hne : r.status ≠ .error) :
    (∀ d ∈ cl'.w.dir.targets.targets, (∃ p ∈ d.ecus, ∀ x, cl.v.loadCurrent c.env p.1 = .ok (some x) → ¬ (SameContent x d ∧ SameAssignment x d)) →
      ∃ u ∈ r.updates, ∃ m, Offers d m u) ∧
    (∀ u ∈ r.updates, ∃ p ∈ u.ecus, ∀ x, cl.v.loadCurrent c.env p.1 = .ok (some x) → ¬ (SameContent x u ∧ SameAssignment x u)) := by
  obtain ⟨w1, news, n, hd, hn, ⟨rfl, hr, _, rfl⟩ | ⟨_, _, _, w2, hi, hm⟩⟩ := checkUpdates_ok h hne
  · rw [hr]
    refine ⟨fun d hd ⟨p, hp, hx⟩ => ?_, by simp⟩
    have := ((targetLoop_ok hn).2 d).2 ⟨hd, p, hp, fun x hx' => ?_⟩
    · cases this
    · have := hx x hx'
      rw [← matchTarget_iff] at this
      simpa using this
  · obtain ⟨_, rawTop, top, rawS, hT⟩ := check_trusted hd hi (steady_pre.refl _)
    obtain ⟨st, ⟨w3, hw3⟩, hlen, hall⟩ := matchLoop_ok hT.2.2.1 (cl := { cl with w := w2 }) hT.2.1 hT.2.2.2.2.1 hm
    subst hw3
    replace st : Steady w2 w3 := st
    have hk := (Image.updateMeta_keepsDir c).of_eq hi
    have hdir : w3.dir = w1.dir := st.2.1.trans hk.1
    constructor
    · intro d hd ⟨p, hp, hx⟩
      replace hd : d ∈ w1.dir.targets.targets := by rw [← hdir]; exact hd
      have hnew := ((targetLoop_ok hn).2 d).2 ⟨hd, p, hp, fun x hx' => by
        have := hx x hx'
        rw [← matchTarget_iff] at this
        simpa using this⟩
      obtain ⟨i, hi', rfl⟩ := List.getElem_of_mem hnew
      have hin : i < r.updates.length := by rw [hlen]; exact hi'
      obtain ⟨m, _, _, _, hoff, _⟩ := hall (news[i], r.updates[i]) (mem_zip_get hi' hin)
      exact ⟨_, List.getElem_mem hin, m, hoff⟩
    · intro u hu
      obtain ⟨i, hi', rfl⟩ := List.getElem_of_mem hu
      have hin : i < news.length := by rw [← hlen]; exact hi'
      obtain ⟨m, _, _, _, hoff, _⟩ := hall (news[i], r.updates[i]) (mem_zip_get hin hi')
      obtain ⟨_, p, hp, hx⟩ := ((targetLoop_ok hn).2 _).1 (List.getElem_mem hin)
      unfold Offers at hoff
      simp only at hoff
      rw [hoff]
      refine ⟨p, hp, fun x hx' => ?_⟩
      intro hcon
      have h1 : x.matchTarget news[i] = true := matchTarget_iff.2 hcon
      rw [hx x hx'] at h1
      cases h1

/-! ### C14 -/

/-- C14. If an online check does not report an error, every ECU named by a target of the
Director's Targets in use is registered on this device with exactly the hardware id named, and
if the version recorded as installed on that ECU has the target's file name, it has the
target's content and is for the same ECUs. -/
theorem C14_known_ecus (c : Ctx) (cl cl' : Client) (r : UpdateCheck) (h : checkUpdates c cl = (.ok r, cl')) (hne : r.status ≠ .error)
    (d : Target) (hd : d ∈ cl'.w.dir.targets.targets) (ecu hw : String) (hp : (ecu, hw) ∈ d.ecus) :
    Registered cl ecu hw ∧
    ∃ cur, cl.v.loadCurrent c.env ecu = .ok cur ∧
      ∀ x, cur = some x → x.filename = d.filename → SameContent x d ∧ SameAssignment x d := by
  have key : ∃ w1 news n, Director.updateMeta c cl.w = (.ok (), w1) ∧
      Client.getNewTargets { cl with w := w1 } c.env = .ok (news, n) ∧ cl'.w.dir = w1.dir := by
    obtain ⟨w1, news, n, hdm, hn, ⟨rfl, hr, _, rfl⟩ | ⟨_, _, _, w2, hi, hm⟩⟩ := checkUpdates_ok h hne
    · exact ⟨w1, _, n, hdm, hn, rfl⟩
    · obtain ⟨_, rawTop, top, rawS, hT⟩ := check_trusted hdm hi (steady_pre.refl _)
      obtain ⟨st, ⟨w3, hw3⟩, hlen, hall⟩ := matchLoop_ok hT.2.2.1 (cl := { cl with w := w2 }) hT.2.1 hT.2.2.2.2.1 hm
      subst hw3
      exact ⟨w1, news, n, hdm, hn, st.2.1.trans ((Image.updateMeta_keepsDir c).of_eq hi).1⟩
  obtain ⟨w1, news, n, hdm, hn, hdir⟩ := key
  rw [hdir] at hd
  obtain ⟨h1, ⟨cur, h2, h3⟩, _⟩ := (targetLoop_ok hn).1 d hd (ecu, hw) hp
  obtain ⟨_, _, ⟨raw, _, e2, _⟩, _, e4⟩ := C06_director_partial c _ _ hdm
  have hread : ∃ raw, ReadsAsTargets c.env raw w1.dir.targets := by
    rcases e4 with e4 | ⟨_, raw', _, e5, _⟩
    · exact ⟨raw, by rw [e4]; exact e2⟩
    · exact ⟨raw', e5⟩
  obtain ⟨raw', hread⟩ := hread
  have hreg := registered_of (ReadsAsTargets.ecus_nonempty hread d hd _ hp) h1
  exact ⟨hreg, cur, h2, fun x hx hf => matchTarget_iff.1 (h3 x hx hf)⟩

/-- C14, second part, in terms of what was installed: if target `x` was the last thing recorded
as installed on ECU `ecu` (with a storable hash list including sha256, which identifies a
version), then no accepted Director target for that ECU has the file name of `x` and different
content. -/
theorem C14_never_different_content (c : Ctx) (cl cl' : Client) (r : UpdateCheck) (h : checkUpdates c cl = (.ok r, cl'))
    (hne : r.status ≠ .error) (d : Target) (hd : d ∈ cl'.w.dir.targets.targets) (ecu hw : String) (hp : (ecu, hw) ∈ d.ecus)
    (ecus : List EcuRow) (l : List Recording) (x : Target)
    (hdb : cl.v = recordAll c.env { ecus := ecus } (l ++ [⟨ecu, x, .current⟩]))
    (hstore : ∀ y ∈ x.hashes, Storable y) (hsha : ∃ y ∈ x.hashes, y.type = .sha256)
    (hid : ∀ r ∈ l, r.target.filename = x.filename → r.target.sha256Hash = x.sha256Hash →
      r.target.length = x.length ∧ r.target.hashes = x.hashes)
    (pend : Option Target) (hpend : cl.v.loadPending c.env ecu = .ok pend)
    (hname : x.filename = d.filename) : SameContent x d := by
  obtain ⟨_, cur, hcur, hmatch⟩ := C14_known_ecus c cl cl' r h hne d hd ecu hw hp
  obtain ⟨_, t', rfl, h1, _, h2, h3⟩ := C15_recorded_is_current c.env ecus l ecu x cur pend cl.v hdb hcur hpend hstore hsha hid
  obtain ⟨⟨e1, e2, ⟨y, hy, hy'⟩, e4⟩, _⟩ := hmatch t' rfl (h1.trans hname)
  exact ⟨hname, h2.symm.trans e2, ⟨y, (h3 y).1 hy, hy'⟩, fun a ha b hb hab => e4 a ((h3 a).2 ha) b hb hab⟩

/-! ### Concrete cases -/

namespace Toy

/-- A device with Primary `e1` and Secondary `e2`, nothing known installed. -/
def device (v : VersionDb := {}) : Client :=
  { w := { fuel := 100 }, v := { v with ecus := [⟨"e1", "h1", true⟩, ⟨"e2", "h1", false⟩] }, primary := "e1", primaryHw := "h1", secondaries := [("e2", "h1")] }

/-- The result of an online check. -/
def checked (t : List ((Repo × String × Int) × String)) (cl : Client) : Option UpdateCheck :=
  match (checkUpdates (deleCtx t) cl).1 with
  | .ok r => some r
  | .error _ => none

/-- A target with file name, hash and ECUs. -/
def targetFor (name hash : String) (ecus : List (String × String)) : Target :=
  { filename := name, length := 3, hashes := [Hash.mk' .sha256 hash], ecus := ecus }

/-- `fw` with content `hash` has been installed on `e1`. -/
def withFw (hash : String) : Client :=
  device (recordAll E { ecus := [⟨"e1", "h1", true⟩, ⟨"e2", "h1", false⟩] } [⟨"e1", targetFor "fw" hash [("e1", "h1")], .current⟩])

/-- A Director assigning `fw` to both `e1` and `e2`. -/
def both : List ((Repo × String × Int) × String) := ((.director, "targets", -1), "dt4two") :: good

end Toy

theorem checked_some {t : List ((Repo × String × Int) × String)} {cl : Client} {P : UpdateCheck → Prop}
    (h : ∃ r, Toy.checked t cl = some r ∧ P r) : ∃ r cl', checkUpdates (Toy.deleCtx t) cl = (.ok r, cl') ∧ P r := by
  obtain ⟨r, hr, hp⟩ := h
  unfold Toy.checked at hr
  cases hx : checkUpdates (Toy.deleCtx t) cl with
  | mk a cl' =>
    rw [hx] at hr
    cases a with
    | ok r' => simp at hr; subst hr; exact ⟨_, cl', rfl, hp⟩
    | error e => cases hr

theorem option_map_some {α β : Type} {o : Option α} {f : α → β} {b : β} (h : o.map f = some b) : ∃ a, o = some a ∧ f a = b := by
  cases o with
  | none => cases h
  | some a => exact ⟨a, rfl, by simpa using h⟩

/-- Not vacuous: `C10_approved`, `C10_exactly_the_new`, `C14_known_ecus`: an update found two
delegations down is offered. -/
example : ∃ r cl', checkUpdates (Toy.deleCtx Toy.delegating) Toy.device = (.ok r, cl') ∧
    r.updates.map (fun t => (t.filename, t.ecus)) = [("fw3", [("e1", "h1")])] ∧ r.status = .available ∧ r.ecusCount = 1 := by
  apply checked_some
  have : (Toy.checked Toy.delegating Toy.device).map (fun r => (r.updates.map (fun t => (t.filename, t.ecus)), r.status, r.ecusCount)) =
    some ([("fw3", [("e1", "h1")])], .available, 1) := by decide +kernel
  obtain ⟨r, hr, hf⟩ := option_map_some this
  simp only [Prod.mk.injEq] at hf
  exact ⟨r, hr, hf⟩

/-- Not vacuous: `C14_never_different_content`: the installed file is accepted again and there
is nothing to update; the same file with another content recorded is an error. -/
example : (∃ r cl', checkUpdates (Toy.deleCtx Toy.good) (Toy.withFw "abc") = (.ok r, cl') ∧ r.status = .noUpdates) ∧
    (∃ r cl', checkUpdates (Toy.deleCtx Toy.good) (Toy.withFw "abd") = (.ok r, cl') ∧ r.status = .error) := by
  constructor
  · apply checked_some
    exact option_map_some (f := UpdateCheck.status) (by decide +kernel)
  · apply checked_some
    exact option_map_some (f := UpdateCheck.status) (by decide +kernel)

/-- The error of a computation, if any. -/
def Toy.errOf {α : Type} : Except Err α → Option Err
  | .ok _ => none
  | .error e => some e

theorem Toy.errOf_some {α : Type} {x : Except Err α} {e : Err} (h : Toy.errOf x = some e) : x = .error e := by
  cases x with
  | ok a => cases h
  | error e' => simp [Toy.errOf] at h; rw [h]

/-- Found while proving C14: the client rejects a Director target that keeps a file already
installed on one ECU and assigns it to a second ECU as well. The stored version of an ECU lists
only that ECU, so it never matches a target for two ECUs, and since the file name is the same
the whole Director metadata is rejected with "content differs", although it does not. -/
theorem C14_same_file_second_ecu_rejected :
    ∃ (cl : Client) (t : List ((Repo × String × Int) × String)),
      (∃ cur, cl.v.loadCurrent Toy.E "e1" = .ok (some cur) ∧ SameContent cur (Toy.targetFor "fw" "abc" [("e1", "h1"), ("e2", "h1")])) ∧
      (∃ w, Director.updateMeta (Toy.deleCtx t) cl.w = (.ok (), w) ∧
        w.dir.targets.targets.map (fun t => (t.filename, t.length, t.hashes, t.ecus)) =
          [("fw", 3, [Hash.mk' .sha256 "abc"], [("e1", "h1"), ("e2", "h1")])] ∧
        { cl with w := w }.getNewTargets Toy.E = .error (.upt .targetContentMismatch)) := by
  refine ⟨Toy.withFw "abc", Toy.both, ?_, (Director.updateMeta (Toy.deleCtx Toy.both) (Toy.withFw "abc").w).2, ?_, ?_, ?_⟩
  · have : ((Toy.withFw "abc").v.loadCurrent Toy.E "e1").toOption.map (·.map (fun t => (t.filename, t.length, t.hashes))) =
        some (some ("fw", 3, [Hash.mk' .sha256 "abc"])) := by decide +kernel
    cases hx : (Toy.withFw "abc").v.loadCurrent Toy.E "e1" with
    | error e => rw [hx] at this; cases this
    | ok o =>
      rw [hx] at this
      simp only [Except.toOption, Option.map_some, Option.some.injEq] at this
      obtain ⟨cur, rfl, hf⟩ := option_map_some this
      simp only [Prod.mk.injEq] at hf
      obtain ⟨h1, h2, h3⟩ := hf
      refine ⟨_, rfl, h1, h2, ⟨Hash.mk' .sha256 "abc", ?_, .head _⟩, ?_⟩
      · rw [h3]; exact .head _
      · intro a ha b hb _
        rw [h3] at ha
        simp [Toy.targetFor] at ha hb
        rw [ha, hb]
  · have : (Director.updateMeta (Toy.deleCtx Toy.both) (Toy.withFw "abc").w).1.toOption = some () := by decide +kernel
    cases hx : Director.updateMeta (Toy.deleCtx Toy.both) (Toy.withFw "abc").w with
    | mk a w => rw [hx] at this; cases a with
      | ok _ => rfl
      | error _ => cases this
  · decide +kernel
  · exact Toy.errOf_some (by decide +kernel)

end Aktualizr
