import Verif.Props.C10

/-!
# C20 Device installation result aggregates ECU results correctly
-/

namespace Aktualizr

open M Spec

namespace Spec

/-- A result code reads as text `s`: its own text, or the name of its number. -/
def CodeText (c : ResultCode) (s : String) : Prop :=
  (c.text ≠ "" ∧ s = c.text) ∨ (c.text = "" ∧ (c.num, s) ∈ ResultCode.table)

/-- The ECU installed the image but has to finish, typically by a reboot. -/
def NeedsCompletion (r : InstResult) : Prop :=
  r.code.num = 21 ∧ (r.code.text = "" ∨ r.code.text = "NEED_COMPLETION")

/-- The ECU is one of those the client manages. (The Primary with hardware id `Unknown` counts
as not configured.) -/
def Managed (cl : Client) (serial : String) : Prop :=
  (serial = cl.primary ∧ cl.primaryHw ≠ "Unknown") ∨ (serial ≠ cl.primary ∧ ∃ hw, (serial, hw) ∈ cl.secondaries)

/-- Texts joined with a bar. -/
def joinBar : List String → String
  | [] => ""
  | [a] => a
  | a :: b :: l => a ++ "|" ++ joinBar (b :: l)

/-- `names` describes the failed ECUs one by one: hardware id, colon, result code. -/
def Describes (cl : Client) (failed : List (String × InstResult)) (names : List String) : Prop :=
  failed.length = names.length ∧ ∀ p ∈ failed.zip names, ∃ hw code, Registered cl p.1.1 hw ∧ CodeText p.1.2.code code ∧ p.2 = hw ++ ":" ++ code

end Spec

theorem toText_ok {c : ResultCode} {s : String} (h : c.toText = .ok s) : CodeText c s := by
  unfold ResultCode.toText at h
  split at h
  · next ht => simp at h; exact .inl ⟨ht, h.symm⟩
  · next ht =>
    split at h
    · next s' hs =>
      simp at h; subst h
      refine .inr ⟨by simpa using ht, ?_⟩
      clear ht
      revert hs
      generalize ResultCode.table = l
      induction l with
      | nil => intro hs; cases hs
      | cons p l ih =>
        intro hs
        rw [List.lookup_cons] at hs
        by_cases hk : c.num = p.1
        · rw [hk] at hs ⊢; simp at hs; rw [← hs]; exact .head _
        · have : (c.num == p.1) = false := by simpa using hk
          rw [this] at hs
          exact .tail _ (ih hs)
    · cases h

theorem needCompletion_ok {r : InstResult} {b : Bool} (h : r.needCompletion = .ok b) : b = true ↔ NeedsCompletion r := by
  unfold InstResult.needCompletion ResultCode.same at h
  split at h
  · next hn =>
    simp at h; subst h
    simp only [Bool.false_eq_true, false_iff]
    exact fun hc => hn hc.1
  · next hn =>
    have hn : r.code.num = 21 := by simpa [ResultCode.needCompletion] using hn
    simp only [exc_bind_ok] at h
    obtain ⟨s, hs, s', hs', h⟩ := h
    have : s' = "NEED_COMPLETION" := by
      have : ResultCode.toText .needCompletion = .ok "NEED_COMPLETION" := by decide
      rw [this] at hs'; simpa using hs'.symm
    subst this
    rw [exc_pure_ok] at h
    subst h
    unfold ResultCode.toText at hs
    unfold NeedsCompletion
    by_cases ht : r.code.text = ""
    · rw [if_neg (by simpa using ht), hn] at hs
      have : s = "NEED_COMPLETION" := by
        have : (Except.ok "NEED_COMPLETION" : Except Err String) = .ok s := hs
        simpa using this.symm
      simp [hn, ht, this]
    · simp [ht] at hs
      simp [hn, ht, ← hs]

/-- Appending descriptions the way the loop does. -/
def appendAll (f : String) : List String → String
  | [] => f
  | n :: ns => appendAll (f ++ ((if f = "" then "" else "|") ++ n)) ns

theorem joinBar_append (f n : String) (ns : List String) : joinBar ((f ++ ("|" ++ n)) :: ns) = f ++ "|" ++ joinBar (n :: ns) := by
  cases ns <;> simp [joinBar, String.append_assoc]

theorem str_append_ne {a b : String} (h : a ≠ "") : a ++ b ≠ "" := by
  intro hc
  apply h
  have : (a ++ b).toList = [] := by rw [hc]; rfl
  simp at this
  exact this.1

theorem appendAll_ne : ∀ (ns : List String) (f : String), f ≠ "" → appendAll f ns = joinBar (f :: ns)
  | [], f, _ => rfl
  | n :: ns, f, hf => by
    rw [appendAll, if_neg hf, appendAll_ne ns _ (str_append_ne hf), joinBar_append]
    simp [joinBar]

theorem appendAll_empty : ∀ {ns : List String}, (∀ n ∈ ns, n ≠ "") → appendAll "" ns = joinBar ns
  | [], _ => rfl
  | n :: ns, h => by
    rw [appendAll, if_pos rfl]
    simp only [String.empty_append]
    exact appendAll_ne ns n (h n (.head _))

theorem managed_iff {cl : Client} {s : String} (hne : s ≠ "") : (∃ hw, cl.getEcuHwId s = some hw) ↔ Managed cl s := by
  unfold Client.getEcuHwId Managed
  by_cases hs : s = cl.primary
  · by_cases hu : cl.primaryHw = "Unknown" <;> simp [hs, hu]
  · simp only [hs, hne, or_self, if_false, false_and, false_or, ne_eq, not_false_eq_true, true_and]
    constructor
    · rintro ⟨hw, h⟩; exact ⟨hw, lookup_mem h⟩
    · rintro ⟨hw, h⟩
      cases hx : cl.secondaries.lookup s with
      | some hw' => exact ⟨hw', rfl⟩
      | none =>
        rw [List.lookup_eq_none_iff] at hx
        have := hx _ h
        simp at this

/-- What the aggregation loop does. -/
theorem aggregateLoop_ok {cl : Client} : ∀ {l : List (String × InstResult)} {a b : Aggregate}, (∀ p ∈ l, p.1 ≠ "") →
    aggregateLoop cl l a = .ok b →
    ∃ done rest names, l = done ++ rest ∧ (∀ p ∈ done, Managed cl p.1 ∧ ¬ NeedsCompletion p.2) ∧
      Describes cl (done.filter (fun p => !p.2.success)) names ∧ (∀ n ∈ names, n ≠ "") ∧ b.failed = appendAll a.failed names ∧
      ((rest = [] ∧ b.result = a.result ∧ b.raw = a.raw) ∨
       (∃ q tl, rest = q :: tl ∧ ¬ Managed cl q.1 ∧ b.result = .ofCode .internalError "Unable to get installation results from ECUs") ∨
       (∃ q tl, rest = q :: tl ∧ Managed cl q.1 ∧ NeedsCompletion q.2 ∧
          b.result = .ofCode .needCompletion ("ECU needs completion/finalization to be installed: " ++ q.1)))
  | [], a, b, _, h => by
    simp [aggregateLoop] at h; subst h
    exact ⟨[], [], [], rfl, by simp, ⟨rfl, by simp⟩, by simp, rfl, .inl ⟨rfl, rfl, rfl⟩⟩
  | (s, r) :: l, a, b, hne, h => by
    have hs : s ≠ "" := hne (s, r) (.head _)
    have hne' : ∀ p ∈ l, p.1 ≠ "" := fun p hp => hne p (.tail _ hp)
    simp only [aggregateLoop] at h
    cases hw : cl.getEcuHwId s with
    | none =>
      simp only [hw, Except.ok.injEq] at h
      subst h
      refine ⟨[], _, [], rfl, by simp, ⟨rfl, by simp⟩, by simp, rfl, .inr (.inl ⟨_, _, rfl, ?_, rfl⟩)⟩
      rw [← managed_iff hs]
      simp [hw]
    | some hwid =>
      have hk : Managed cl s := (managed_iff hs).1 ⟨_, hw⟩
      simp only [hw, exc_bind_ok] at h
      obtain ⟨nc, hnc, h⟩ := h
      have hnc := needCompletion_ok hnc
      cases nc with
      | true =>
        simp only [if_true] at h
        rw [exc_pure_ok] at h
        subst h
        exact ⟨[], _, [], rfl, by simp, ⟨rfl, by simp⟩, by simp, rfl, .inr (.inr ⟨_, _, rfl, hk, hnc.1 rfl, rfl⟩)⟩
      | false =>
        have hn : ¬ NeedsCompletion r := by rw [← hnc]; simp
        simp only [Bool.false_eq_true, if_false] at h
        cases hsu : r.success with
        | true =>
          simp only [hsu, if_true] at h
          obtain ⟨done, rest, names, h1, h2, h3, h4, h5, h6⟩ := aggregateLoop_ok hne' h
          refine ⟨(s, r) :: done, rest, names, by simp [h1], ?_, ?_, h4, h5, h6⟩
          · rintro p hp
            cases hp with
            | head => exact ⟨hk, hn⟩
            | tail _ hp => exact h2 p hp
          · simpa [List.filter_cons, hsu] using h3
        | false =>
          simp only [hsu, Bool.false_eq_true, if_false, exc_bind_ok] at h
          obtain ⟨txt, htxt, h⟩ := h
          obtain ⟨done, rest, names, h1, h2, h3, h4, h5, h6⟩ := aggregateLoop_ok hne' h
          refine ⟨(s, r) :: done, rest, (hwid ++ ":" ++ txt) :: names, by simp [h1], ?_, ⟨?_, ?_⟩, ?_, h5, h6⟩
          · rintro p hp
            cases hp with
            | head => exact ⟨hk, hn⟩
            | tail _ hp => exact h2 p hp
          · simp [List.filter_cons, hsu, h3.1]
          · simp only [List.filter_cons, hsu, Bool.not_false, if_true, List.zip_cons_cons, List.mem_cons]
            rintro p (rfl | hp)
            · exact ⟨hwid, txt, registered_of hs hw, toText_ok htxt, rfl⟩
            · exact h3.2 p hp
          · rintro n (_ | ⟨_, hn'⟩)
            · intro hc
              have : (hwid ++ ":" ++ txt).toList = [] := by rw [hc]; rfl
              simp at this
            · exact h4 n hn'

theorem readResults_nonempty : ∀ {l : List (String × ResultRow)} {r : List (String × InstResult)}, readResults l = .ok r → ∀ p ∈ r, p.1 ≠ ""
  | [], r, h => by simp [readResults] at h; subst h; simp
  | (s, row) :: l, r, h => by
    simp only [readResults, exc_bind_ok] at h
    obtain ⟨x, _, s', hs', rest, hr, h⟩ := h
    rw [exc_pure_ok] at h
    subst h
    rintro p (_ | ⟨_, hp⟩)
    · unfold mkEcuSerial at hs'
      split at hs'
      · simp at hs'
      · split at hs'
        · simp at hs'
        · next h1 h2 => simp at hs'; subst hs'; simpa using h1
    · exact readResults_nonempty hr p hp

/-- What `computeDeviceInstallationResult` does with the stored results `l`. -/
theorem computeDeviceResult_ok {cl : Client} {res : InstResult} {raw : String} (h : cl.computeDeviceResult = .ok (res, raw)) :
    (cl.loadEcuResults = .ok none ∧ res = .ofCode .internalError "Unable to get installation results from ECUs") ∨
    ∃ l done rest names, cl.loadEcuResults = .ok (some l) ∧ l ≠ [] ∧ l = done ++ rest ∧
      (∀ p ∈ done, Managed cl p.1 ∧ ¬ NeedsCompletion p.2) ∧
      Describes cl (done.filter (fun p => !p.2.success)) names ∧
      (rest = [] ∨ ∃ q tl, rest = q :: tl ∧ (¬ Managed cl q.1 ∨ NeedsCompletion q.2)) ∧
      ((names ≠ [] ∧ res = .ofCode ⟨4, joinBar names⟩ "Installation failed on one or more ECUs") ∨
       (names = [] ∧ rest = [] ∧ res = .ofCode .ok "Device has been successfully installed") ∨
       (names = [] ∧ ∃ q tl, rest = q :: tl ∧ ¬ Managed cl q.1 ∧ res = .ofCode .internalError "Unable to get installation results from ECUs") ∨
       (names = [] ∧ ∃ q tl, rest = q :: tl ∧ Managed cl q.1 ∧ NeedsCompletion q.2 ∧
          res = .ofCode .needCompletion ("ECU needs completion/finalization to be installed: " ++ q.1))) := by
  unfold Client.computeDeviceResult at h
  rw [exc_bind_ok] at h
  obtain ⟨o, ho, h⟩ := h
  cases o with
  | none =>
    simp only [exc_pure_ok, Prod.mk.injEq] at h
    exact .inl ⟨ho, h.1.symm⟩
  | some l =>
    right
    simp only [exc_bind_ok] at h
    obtain ⟨a, ha, h⟩ := h
    have hl : (∀ p ∈ l, p.1 ≠ "") ∧ l ≠ [] := by
      unfold Client.loadEcuResults at ho
      simp only [exc_bind_ok] at ho
      obtain ⟨x, hx, ho⟩ := ho
      rw [exc_pure_ok] at ho
      split at ho
      · cases ho
      · next hem =>
        simp at ho; subst ho
        exact ⟨readResults_nonempty hx, by simpa using hem⟩
    obtain ⟨done, rest, names, h1, h2, h3, h4, h5, h6⟩ := aggregateLoop_ok hl.1 ha
    refine ⟨l, done, rest, names, ho, hl.2, h1, h2, h3, ?_, ?_⟩
    · rcases h6 with ⟨h6, _⟩ | ⟨q, tl, h6, h7, _⟩ | ⟨q, tl, h6, _, h7, _⟩
      · exact .inl h6
      · exact .inr ⟨q, tl, h6, .inl h7⟩
      · exact .inr ⟨q, tl, h6, .inr h7⟩
    rw [appendAll_empty h4] at h5
    have hnil : a.failed = "" ↔ names = [] := by
      rw [h5]
      cases names with
      | nil => simp [joinBar]
      | cons n ns =>
        simp only [reduceCtorEq, iff_false]
        have hn := h4 n (.head _)
        cases ns with
        | nil => simpa [joinBar] using hn
        | cons m ms => rw [joinBar]; exact str_append_ne (str_append_ne hn)
    split at h
    · next hf =>
      simp only [exc_pure_ok, Prod.mk.injEq] at h
      obtain ⟨rfl, _⟩ := h
      have hn := hnil.1 hf
      rcases h6 with ⟨h6, h7, _⟩ | ⟨q, tl, h6, h7, h8⟩ | ⟨q, tl, h6, h7, h8, h9⟩
      · exact .inr (.inl ⟨hn, h6, h7⟩)
      · exact .inr (.inr (.inl ⟨hn, q, tl, h6, h7, h8⟩))
      · exact .inr (.inr (.inr ⟨hn, q, tl, h6, h7, h8, h9⟩))
    · next hf =>
      simp only [exc_pure_ok, Prod.mk.injEq] at h
      obtain ⟨rfl, _⟩ := h
      exact .inl ⟨fun hc => hf (hnil.2 hc), by rw [h5]⟩

/-- C20, success. The device result is a success exactly when there are stored ECU results and
all of them are successes, of managed ECUs, none needing completion. -/
theorem C20_success_iff (cl : Client) (res : InstResult) (raw : String) (h : cl.computeDeviceResult = .ok (res, raw)) :
    res.success = true ↔ ∃ l, cl.loadEcuResults = .ok (some l) ∧ ∀ p ∈ l, Managed cl p.1 ∧ p.2.success = true ∧ ¬ NeedsCompletion p.2 := by
  have hf : ∀ (done : List (String × InstResult)) names, Describes cl (done.filter (fun p => !p.2.success)) names →
      (names = [] ↔ ∀ p ∈ done, p.2.success = true) := by
    intro done names hd
    rw [← List.length_eq_zero_iff, ← hd.1, List.length_eq_zero_iff, List.filter_eq_nil_iff]
    simp
  rcases computeDeviceResult_ok h with ⟨h1, rfl⟩ | ⟨l, done, rest, names, h1, h2, h3, h4, h5, _, h6⟩
  · rw [h1]
    constructor
    · intro hc; cases hc
    · rintro ⟨l, hc, _⟩; cases hc
  · have hf := hf done names h5
    have key : (∃ l', cl.loadEcuResults = .ok (some l') ∧ ∀ p ∈ l', Managed cl p.1 ∧ p.2.success = true ∧ ¬ NeedsCompletion p.2) ↔
        ∀ p ∈ done ++ rest, Managed cl p.1 ∧ p.2.success = true ∧ ¬ NeedsCompletion p.2 := by
      rw [h1, ← h3]
      constructor
      · rintro ⟨l', hl', hp⟩; simp at hl'; subst hl'; exact hp
      · intro hp; exact ⟨l, rfl, hp⟩
    rw [key]
    rcases h6 with ⟨hn, rfl⟩ | ⟨hn, hr, rfl⟩ | ⟨hn, q, tl, hr, hq, rfl⟩ | ⟨hn, q, tl, hr, _, hq, rfl⟩
    · refine ⟨fun hc => (by cases hc), fun hc => ?_⟩
      exact absurd (hf.2 (fun p hp => (hc p (List.mem_append_left _ hp)).2.1)) hn
    · refine ⟨fun _ p hp => ?_, fun _ => rfl⟩
      rw [hr, List.append_nil] at hp
      exact ⟨(h4 p hp).1, hf.1 hn p hp, (h4 p hp).2⟩
    · refine ⟨fun hc => (by cases hc), fun hc => ?_⟩
      exact absurd (hc q (by rw [hr]; simp)).1 hq
    · refine ⟨fun hc => (by cases hc), fun hc => ?_⟩
      exact absurd hq (hc q (by rw [hr]; simp)).2.2

/-- C20, failure. If no managed ECU needs completion and some failed, the device result is the
failure `INSTALL_FAILED` naming every failed ECU (hardware id and code) in the order of the
stored results. -/
theorem C20_failure_names (cl : Client) (res : InstResult) (raw : String) (h : cl.computeDeviceResult = .ok (res, raw))
    (l : List (String × InstResult)) (hl : cl.loadEcuResults = .ok (some l)) (hk : ∀ p ∈ l, Managed cl p.1 ∧ ¬ NeedsCompletion p.2)
    (hfail : ∃ p ∈ l, p.2.success = false) :
    res.success = false ∧ res.code.num = 4 ∧
    ∃ names, Describes cl (l.filter (fun p => !p.2.success)) names ∧ res.code.text = joinBar names := by
  rcases computeDeviceResult_ok h with ⟨h1, _⟩ | ⟨l', done, rest, names, h1, h2, h3, h4, h5, hb, h6⟩
  · rw [hl] at h1; cases h1
  · rw [hl] at h1; simp at h1; subst h1
    have hrest : rest = [] := by
      rcases hb with hb | ⟨q, tl, hb, hq⟩
      · exact hb
      · have := hk q (by rw [h3, hb]; simp)
        rcases hq with hq | hq
        · exact absurd this.1 hq
        · exact absurd hq this.2
    rw [hrest, List.append_nil] at h3
    rw [← h3] at h5
    have hne : names ≠ [] := by
      intro hc
      obtain ⟨p, hp, hs⟩ := hfail
      have : p ∈ l.filter (fun p => !p.2.success) := by simp [hp, hs]
      have h0 := h5.1
      rw [hc] at h0
      rw [List.length_eq_zero_iff.1 h0] at this
      cases this
    rcases h6 with ⟨_, rfl⟩ | ⟨hn, _⟩ | ⟨hn, _⟩ | ⟨hn, _⟩
    · exact ⟨rfl, rfl, names, h5, rfl⟩
    · exact absurd hn hne
    · exact absurd hn hne
    · exact absurd hn hne

/-- C20, completion. If some ECU needs completion, and no result stored before it (in the order
of the ECU table) is a failure or of an unmanaged ECU, the device result is "needs completion".

Partial: the claim says "if some ECU still needs completion", without looking at other ECUs;
see `C20_failure_hides_completion`. -/
theorem C20_needs_completion_partial (cl : Client) (res : InstResult) (raw : String) (h : cl.computeDeviceResult = .ok (res, raw))
    (before after : List (String × InstResult)) (p : String × InstResult)
    (hl : cl.loadEcuResults = .ok (some (before ++ p :: after))) (hm : Managed cl p.1) (hp : NeedsCompletion p.2)
    (hb : ∀ q ∈ before, Managed cl q.1 ∧ q.2.success = true) :
    NeedsCompletion res ∧ res.success = false := by
  rcases computeDeviceResult_ok h with ⟨h1, _⟩ | ⟨l', done, rest, names, h1, h2, h3, h4, h5, hbl, h6⟩
  · rw [hl] at h1; cases h1
  · rw [hl] at h1; simp only [Except.ok.injEq, Option.some.injEq] at h1; subst h1
    -- the loop stopped before reaching `p` or at it
    have hlen : done.length ≤ before.length := by
      rcases Nat.lt_or_ge before.length done.length with hlt | hge
      · have hmem : p ∈ done := by
          have h7 := congrArg (fun x => x[before.length]?) h3
          simp only [List.getElem?_append_right (Nat.le_refl before.length), Nat.sub_self, List.getElem?_cons_zero] at h7
          rw [List.getElem?_append_left hlt] at h7
          exact List.mem_of_getElem? h7.symm
        exact absurd hp (h4 p hmem).2
      · exact hge
    have hpre : ∃ k, before = done ++ k := by
      refine ⟨before.drop done.length, ?_⟩
      have h7 := congrArg (List.take done.length) h3
      rw [List.take_append_of_le_length hlen, List.take_left] at h7
      have h8 := (List.take_append_drop done.length before).symm
      rw [h7] at h8
      exact h8
    obtain ⟨k, hk⟩ := hpre
    have hn : names = [] := by
      rw [← List.length_eq_zero_iff, ← h5.1, List.length_eq_zero_iff, List.filter_eq_nil_iff]
      intro q hq
      have := (hb q (by rw [hk]; simp [hq])).2
      simp [this]
    have hrest : rest = k ++ p :: after := by
      have h7 := h3
      rw [hk, List.append_assoc] at h7
      exact (List.append_cancel_left h7).symm
    have hq : ∀ q tl, rest = q :: tl → Managed cl q.1 := by
      intro q tl hr
      rw [hrest] at hr
      cases k with
      | nil => simp at hr; rw [← hr.1]; exact hm
      | cons a k => simp at hr; rw [← hr.1]; exact (hb a (by rw [hk]; simp)).1
    rcases h6 with ⟨hn', _⟩ | ⟨_, hr, _⟩ | ⟨_, q, tl, hr, hq', _⟩ | ⟨_, q, tl, hr, _, _, rfl⟩
    · exact absurd hn hn'
    · rw [hrest] at hr; simp at hr
    · exact absurd (hq q tl hr) hq'
    · exact ⟨⟨rfl, .inl rfl⟩, rfl⟩

/-! ### Concrete cases -/

namespace Toy

/-- The device with stored results for `e1` and `e2`. -/
def withResults (l : List (String × InstResult)) : Client :=
  { device with ecuResults := l.filterMap (fun p => match p.2.toRow with | .ok r => some (p.1, r) | .error _ => none) }

def okResult : InstResult := .ofCode .ok "done"
def failResult : InstResult := .ofCode .installFailed "no"
def rebootResult : InstResult := .ofCode .needCompletion "reboot"

/-- The computed device result. -/
def devResultOf (cl : Client) : Option InstResult := cl.computeDeviceResult.toOption.map Prod.fst

end Toy

/-- Not vacuous: each of the four outcomes occurs. -/
example :
    Toy.devResultOf (Toy.withResults [("e1", Toy.okResult), ("e2", Toy.okResult)]) = some (.ofCode .ok "Device has been successfully installed") ∧
    Toy.devResultOf (Toy.withResults [("e1", Toy.failResult), ("e2", Toy.failResult)]) =
      some (.ofCode ⟨4, "h1:INSTALL_FAILED|h1:INSTALL_FAILED"⟩ "Installation failed on one or more ECUs") ∧
    Toy.devResultOf (Toy.withResults [("e1", Toy.okResult), ("e2", Toy.rebootResult)]) =
      some (.ofCode .needCompletion "ECU needs completion/finalization to be installed: e2") ∧
    (Toy.devResultOf Toy.device).map (·.code) = some .internalError := by decide +kernel

/-- Why C20 is partial: the Primary failed, the Secondary still needs completion; the device
result is a failure, which makes the client drop the Director's targets while the Secondary is
still pending. A failed Secondary after the Primary that needs completion is not named. -/
theorem C20_failure_hides_completion :
    Toy.devResultOf (Toy.withResults [("e1", Toy.failResult), ("e2", Toy.rebootResult)]) =
      some (.ofCode ⟨4, "h1:INSTALL_FAILED"⟩ "Installation failed on one or more ECUs") ∧
    NeedsCompletion Toy.rebootResult ∧
    Toy.devResultOf (Toy.withResults [("e1", Toy.rebootResult), ("e2", Toy.failResult)]) =
      some (.ofCode .needCompletion "ECU needs completion/finalization to be installed: e1") := by
  refine ⟨by decide +kernel, ⟨rfl, .inl rfl⟩, by decide +kernel⟩

end Aktualizr
