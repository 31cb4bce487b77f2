import Verif.Lemmas.Events
import Verif.Props.C62

/-!
# C63: what the server and the API user are told of an update

Reports queued for the server and events sent to the API user say what happened: every operation
does the same with them as without; what is told of an ECU is what the package manager or the
Secondary answered; an end is told only after a beginning, under the correlation id the Director
gave; and when an operation comes to an end, each ECU's reports are complete.
-/

namespace Aktualizr

namespace Spec

/-- With its notes, `m` does what `m0` does. When the process dies while telling something, it has
told the first part of the same notes. -/
def Tells {α : Type} (m : T α) (m0 : D α) (d : Dev) (l : List Note) : Prop :=
  ∀ s : Tel, s.d = d →
    (l.length ≤ s.left → m s = ((m0 d).1, ⟨(m0 d).2, s.notes ++ l, s.left - l.length⟩)) ∧
    (s.left < l.length → (m s).1 = .error .crash ∧ (m s).2.notes = s.notes ++ l.take s.left)

/-- A failure that is not an answer. -/
def Failure (r : InstResult) : Prop := r.success = false ∧ r.code.num ≠ 0 ∧ r.code.num ≠ 21

/-- `r` is how an ECU answered to the request to install one of `ts` assigned to it, or a failure
after an exception. -/
def Answered (p : Peers) (ts : List Target) (primary cid e : String) (r : InstResult) : Prop :=
  ∃ t ∈ ts, (∃ hw, (e, hw) ∈ t.ecus) ∧ ∃ n,
    if e = primary then p.install n { t with correlationId := cid } = .ok r ∨ (∃ x, p.install n { t with correlationId := cid } = .error x) ∧ Failure r
    else p.secInstall n e t = .ok r ∨ p.sendFirmware n e t = .ok r ∧ r.success = false ∨
      (∃ x, p.secInstall n e t = .error x ∨ p.sendFirmware n e t = .error x) ∧ Failure r

/-- The ECU's update waits for a reboot. -/
def waits (primary e : String) (r : InstResult) : Bool :=
  if e = primary then r.code.num == 21 else match r.needCompletion with | .ok b => b | .error _ => false

/-- The ECU's update is done. -/
def done (primary e : String) (r : InstResult) : Bool :=
  if e = primary then r.code.num == 0 else r.success

/-- The reports due for an ECU with the result `r`. -/
def dueReports (primary cid e : String) (r : InstResult) : List Note :=
  [.installStarted e cid, if waits primary e r then .installApplied e cid else .installCompleted e cid (done primary e r)]

/-- The events due for an ECU with the result `r`. The Primary's event is positive when it waits for a reboot. -/
def dueEvents (primary e : String) (r : InstResult) : List Note :=
  [.started e, .targetInstalled e (if e = primary then waits primary e r || done primary e r else r.success)]

/-- Reports on installations on `e`. -/
def reportOn (e : String) : Note → Bool
  | .installStarted s _ => s == e
  | .installApplied s _ => s == e
  | .installCompleted s _ _ => s == e
  | _ => false

/-- Events on installations on `e`. -/
def eventOn (e : String) : Note → Bool
  | .started s => s == e
  | .targetInstalled s _ => s == e
  | _ => false

/-- What a note of an installation says is so. -/
def Warranted (p : Peers) (ts : List Target) (primary cid : String) : Note → Prop
  | .started _ => True
  | .installStarted _ c => c = cid
  | .installApplied e c => c = cid ∧ ∃ r, Answered p ts primary cid e r ∧ r.code.num = 21
  | .installCompleted e c ok => c = cid ∧ ∃ r, Answered p ts primary cid e r ∧ waits primary e r = false ∧ ok = done primary e r
  | .targetInstalled e ok => ∃ r, Answered p ts primary cid e r ∧ ok = if e = primary then waits primary e r || done primary e r else r.success
  | .installsComplete _ => True
  | _ => False

/-- An end is told only after a beginning. -/
def BeginsFirst (before : List Note) : Note → Prop
  | .installApplied e c => .installStarted e c ∈ before
  | .installCompleted e c _ => .installStarted e c ∈ before
  | .targetInstalled e _ => .started e ∈ before
  | _ => True

/-- What is told of the download of one target. -/
def download (cid : String) (x : Target × Bool) : List Note :=
  x.1.ecus.map (fun e => .downloadStarted e.1 cid) ++ x.1.ecus.map (fun e => .downloadCompleted e.1 cid x.2) ++ [.targetDownloaded x.1 x.2]

/-- A Secondary's pending update is confirmed: it gave a manifest, signed with its key, naming the image. -/
def Confirms (env : Env) (p : Peers) (e : String) : Prop :=
  ∃ n m j k, p.secManifest n e = .ok j ∧ p.secKey m e = .ok k ∧ manifestVerifies env j k = .ok true

/-- What a note of a cycle says is so. -/
def CycleWarranted (env : Env) (p : Peers) (f : Fetched) : Note → Prop
  | .downloadCompleted e _ ok => ∃ t n, ok = f n t ∧ ∃ hw, (e, hw) ∈ t.ecus
  | .targetDownloaded t ok => ∃ n, ok = f n t
  | .installCompleted e cid ok => ok = true ∧ Confirms env p e ∨ ∃ ts primary, Warranted p ts primary cid (.installCompleted e cid ok)
  | .installApplied e cid => ∃ ts primary, Warranted p ts primary cid (.installApplied e cid)
  | .targetInstalled e ok => ∃ ts primary cid, Warranted p ts primary cid (.targetInstalled e ok)
  | _ => True

/-- What is told of a download that ended with the result `got`. -/
def DownloadStory (f : Fetched) (ts : List Target) (got : Downloaded) (l : List Note) : Prop :=
  ∃ cid oks, l = (ts.zip oks).flatMap (download cid) ++ [.downloadsComplete got] ∧ ∀ x ∈ ts.zip oks, ∃ n, x.2 = f n x.1

/-- What is told of an installation that ended with the report `rep`. -/
def InstallStory (p : Peers) (ts : List Target) (rep : InstallReport) (l : List Note) : Prop :=
  ∃ primary cid notes, l = notes ++ [.installsComplete rep] ∧ ∀ x ∈ notes, Warranted p ts primary cid x

/-- A cycle tells the result of its check, unless updates are still pending; of the download if
something was found; of the installation if everything was downloaded; and that the manifest was
sent after a failed check or download. -/
inductive CycleStory (p : Peers) (f : Fetched) : List Note → Prop
  | pending (ok : Bool) : CycleStory p f [.manifestComplete ok]
  | nothing (r : UpdateCheck) : r.updates = [] → r.status ≠ .error → CycleStory p f [.checkComplete r]
  | failed (r : UpdateCheck) (ok : Bool) : r.updates = [] → r.status = .error → CycleStory p f [.checkComplete r, .manifestComplete ok]
  | refused (r : UpdateCheck) (got : Downloaded) (dl : List Note) : r.updates ≠ [] → DownloadStory f r.updates got dl → got.status = .nothing →
      CycleStory p f (.checkComplete r :: dl)
  | missing (r : UpdateCheck) (got : Downloaded) (dl : List Note) (ok : Bool) : r.updates ≠ [] → DownloadStory f r.updates got dl →
      got.status ≠ .success ∨ got.updates = [] → got.status ≠ .nothing → CycleStory p f (.checkComplete r :: dl ++ [.manifestComplete ok])
  | installed (r : UpdateCheck) (got : Downloaded) (dl : List Note) (rep : InstallReport) (ins man : List Note) : r.updates ≠ [] →
      DownloadStory f r.updates got dl → got.status = .success → got.updates ≠ [] → InstallStory p got.updates rep ins →
      (man = [] ∨ ∃ ok, man = [.manifestComplete ok]) → CycleStory p f (.checkComplete r :: dl ++ ins ++ man)

end Spec

open Spec

/-! ### The general part -/

theorem Says.tells {α : Type} {m : T α} {m0 : D α} {d : Dev} {l : List Note} (h : Says m m0 d l) : Tells m m0 d l := by
  rintro ⟨d', notes, k⟩ rfl
  refine ⟨fun hk => (h notes k).1 hk, fun hk => ?_⟩
  obtain ⟨d1, e⟩ := (h notes k).2 hk
  have e' : m ⟨d', notes, k⟩ = (.error .crash, ⟨d1, notes ++ l.take k, 0⟩) := e
  rw [e']
  exact ⟨rfl, rfl⟩

theorem Says.prefix {α : Type} {m : T α} {m0 : D α} {l : List Note} {s s' : Tel} {o : Except Err α} (h : Says m m0 s.d l)
    (e : m s = (o, s')) : ∃ told rest, s'.notes = s.notes ++ told ∧ l = told ++ rest ∧ (∀ a, o = .ok a → rest = [] ∧ m0 s.d = (.ok a, s'.d)) := by
  rcases h.unique rfl e with ⟨h1, h2, h3⟩ | ⟨rfl, h3⟩
  · exact ⟨l, [], h3, by simp, fun a ha => ⟨rfl, by rw [← ha, h1, h2]⟩⟩
  · exact ⟨_, l.drop s.left, h3, (List.take_append_drop ..).symm, fun a ha => by cases ha⟩

/-! ### Order -/

/-- As `BeginsFirst` all along the list. -/
def orderedFrom (seen : List Note) : List Note → Prop
  | [] => True
  | x :: xs => BeginsFirst seen x ∧ orderedFrom (seen ++ [x]) xs

theorem beginsFirst_mono {a b : List Note} {x : Note} (h : BeginsFirst a x) (hs : ∀ y ∈ a, y ∈ b) : BeginsFirst b x := by
  cases x <;> simp only [BeginsFirst] at h ⊢ <;> exact hs _ h

theorem orderedFrom_mono : ∀ {l a b : List Note}, orderedFrom a l → (∀ y ∈ a, y ∈ b) → orderedFrom b l
  | [], _, _, _, _ => trivial
  | x :: l, a, b, h, hs => ⟨beginsFirst_mono h.1 hs, orderedFrom_mono h.2 (by
      intro y hy
      rcases List.mem_append.1 hy with hy | hy
      · exact List.mem_append.2 (.inl (hs y hy))
      · exact List.mem_append.2 (.inr hy))⟩

theorem orderedFrom_append : ∀ {l m a : List Note}, orderedFrom a l → orderedFrom [] m → orderedFrom a (l ++ m)
  | [], _, _, _, h => orderedFrom_mono h (by simp)
  | _ :: _, _, _, h, h' => ⟨h.1, orderedFrom_append h.2 h'⟩

theorem orderedFrom_flatMap {α : Type} {f : α → List Note} : ∀ {l : List α}, (∀ x ∈ l, orderedFrom [] (f x)) → orderedFrom [] (l.flatMap f)
  | [], _ => trivial
  | x :: l, h => by
    rw [List.flatMap_cons]
    exact orderedFrom_append (h x (by simp)) (orderedFrom_flatMap (fun y hy => h y (by simp [hy])))

theorem orderedFrom_at : ∀ {l a before : List Note} {x : Note} {rest : List Note}, orderedFrom a l → l = before ++ x :: rest → BeginsFirst (a ++ before) x
  | l, a, [], x, rest, h, e => by
    subst e
    simpa using h.1
  | l, a, y :: before, x, rest, h, e => by
    subst e
    have := orderedFrom_at (before := before) (x := x) (rest := rest) h.2 rfl
    simpa using this

theorem orderedFrom_inst {p : Peers} {ts : List Target} {prim cid : String} {ps : List (Target × InstResult)} {rs : List (Target × String × InstResult)}
    {tail : List Note} (h : InstTold p ts prim cid ps rs tail) : orderedFrom [] (instNotes prim cid ps rs tail) := by
  unfold instNotes
  refine orderedFrom_append (orderedFrom_flatMap ?_) (orderedFrom_append (orderedFrom_flatMap ?_) ?_)
  · intro x _
    unfold primStory
    split <;> simp [orderedFrom, BeginsFirst]
  · intro x _
    unfold secStory secEnd
    cases x.2.2.needCompletion with
    | error _ => simp [orderedFrom, BeginsFirst]
    | ok nc => cases nc <;> simp [orderedFrom, BeginsFirst]
  · rcases h.tail with h | ⟨e, h | h⟩ <;> subst h <;> simp [orderedFrom, BeginsFirst]

/-! ### Truth -/

theorem primAnswer_answered {p : Peers} {ts : List Target} {prim cid : String} {t : Target} {r : InstResult} (ht : t ∈ ts)
    (hp : t.isForEcu prim = true) (h : PrimAnswer p { t with correlationId := cid } r) : Answered p ts prim cid prim r := by
  have he : ∃ hw, (prim, hw) ∈ t.ecus := by
    unfold Target.isForEcu at hp
    obtain ⟨x, hx, hb⟩ := List.any_eq_true.1 hp
    exact ⟨x.2, by rw [← (beq_iff_eq.1 hb)]; exact hx⟩
  rcases h with ⟨n, h⟩ | ⟨n, x, h, rfl⟩
  · exact ⟨t, ht, he, n, by rw [if_pos rfl]; exact .inl h⟩
  · exact ⟨t, ht, he, n, by rw [if_pos rfl]; exact .inr ⟨⟨x, h⟩, by unfold Failure; decide⟩⟩

theorem secAnswer_answered {p : Peers} {ts : List Target} {prim cid e : String} {t : Target} {r : InstResult} (ht : t ∈ ts)
    (hp : ∃ hw, (e, hw) ∈ t.ecus) (hne : e ≠ prim) (h : SecAnswer p e t r) : Answered p ts prim cid e r := by
  rcases h with ⟨n, h⟩ | ⟨n, h, hf⟩ | ⟨n, x, h, rfl⟩
  · exact ⟨t, ht, hp, n, by rw [if_neg hne]; exact .inl h⟩
  · exact ⟨t, ht, hp, n, by rw [if_neg hne]; exact .inr (.inl ⟨h, hf⟩)⟩
  · exact ⟨t, ht, hp, n, by rw [if_neg hne]; exact .inr (.inr ⟨⟨x, h⟩, by unfold Failure; decide⟩)⟩

theorem needCompletion_num {r : InstResult} (h : r.needCompletion = .ok true) : r.code.num = 21 := by
  unfold InstResult.needCompletion ResultCode.same at h
  split at h
  · cases h
  · rename_i hn
    exact Classical.not_not.1 hn

theorem inst_warranted {p : Peers} {ts : List Target} {prim cid : String} {ps : List (Target × InstResult)} {rs : List (Target × String × InstResult)}
    {tail : List Note} (h : InstTold p ts prim cid ps rs tail) : ∀ x ∈ instNotes prim cid ps rs tail, Warranted p ts prim cid x := by
  intro x hx
  unfold instNotes at hx
  simp only [List.mem_append, List.mem_flatMap] at hx
  rcases hx with ⟨y, hy, hx⟩ | ⟨y, hy, hx⟩ | hx
  · obtain ⟨h1, h2, h3⟩ := h.primary y hy
    have ha := primAnswer_answered h1 h2 h3
    unfold primStory at hx
    by_cases hn : y.2.code.num = 21
    · rw [if_pos hn] at hx
      simp only [List.cons_append, List.nil_append, List.mem_cons, List.not_mem_nil, or_false] at hx
      rcases hx with rfl | rfl | rfl | rfl
      · rfl
      · trivial
      · exact ⟨rfl, _, ha, hn⟩
      · exact ⟨_, ha, by simp [waits, hn]⟩
    · rw [if_neg hn] at hx
      simp only [List.cons_append, List.nil_append, List.mem_cons, List.not_mem_nil, or_false] at hx
      rcases hx with rfl | rfl | rfl | rfl
      · rfl
      · trivial
      · exact ⟨rfl, _, ha, by simp [waits, hn], by simp [done]⟩
      · exact ⟨_, ha, by simp [waits, done, hn]⟩
  · obtain ⟨h1, h2, h3, h4⟩ := h.secondary y hy
    have ha := secAnswer_answered (cid := cid) h3 h4 h2 h1
    unfold secStory secEnd at hx
    cases hc : y.2.2.needCompletion with
    | error e =>
      rw [hc] at hx
      simp only [List.mem_cons, List.not_mem_nil, or_false] at hx
      rcases hx with rfl | rfl
      · trivial
      · rfl
    | ok nc =>
      rw [hc] at hx
      simp only [List.mem_cons, List.not_mem_nil, or_false] at hx
      rcases hx with rfl | rfl | rfl | rfl
      · trivial
      · rfl
      · cases nc with
        | true => exact ⟨rfl, _, ha, needCompletion_num hc⟩
        | false => exact ⟨rfl, _, ha, by simp [waits, h2, hc], by simp [done, h2]⟩
      · exact ⟨_, ha, by simp [h2]⟩
  · rcases h.tail with h | ⟨e, h | h⟩ <;> subst h <;> simp only [List.mem_cons, List.not_mem_nil, or_false] at hx
    · rcases hx with rfl | rfl
      · trivial
      · rfl
    · rcases hx with rfl | rfl
      · rfl
      · trivial

/-! ### Completeness -/

theorem filter_flatMap' {α β : Type} {q : β → Bool} {f : α → List β} : ∀ (l : List α), (l.flatMap f).filter q = l.flatMap (fun x => (f x).filter q)
  | [] => rfl
  | x :: l => by rw [List.flatMap_cons, List.filter_append, filter_flatMap' l, List.flatMap_cons]

theorem flatMap_filter' {α β : Type} {q : α → Bool} {f : α → List β} : ∀ (l : List α), (l.filter q).flatMap f = l.flatMap (fun x => if q x then f x else [])
  | [] => rfl
  | x :: l => by
    rw [List.filter_cons, List.flatMap_cons]
    cases h : q x
    · simp only [Bool.false_eq_true, if_false, List.nil_append]
      exact flatMap_filter' l
    · simp only [if_true, List.flatMap_cons]
      rw [flatMap_filter' l]

theorem flatMap_congr' {α β : Type} {f g : α → List β} : ∀ {l : List α}, (∀ x ∈ l, f x = g x) → l.flatMap f = l.flatMap g
  | [], _ => rfl
  | x :: l, h => by rw [List.flatMap_cons, List.flatMap_cons, h x (by simp), flatMap_congr' (fun y hy => h y (by simp [hy]))]

/-- The notes of one kind about one ECU. -/
theorem inst_about {p : Peers} {ts : List Target} {prim cid : String} {ps : List (Target × InstResult)} {rs : List (Target × String × InstResult)}
    {tail : List Note} (h : InstTold p ts prim cid ps rs tail) {r : InstallReport} (ha : Agrees prim ps rs tail r) {e : String} {q : Note → Bool}
    {due : String → InstResult → List Note} (h1 : ∀ x, (primStory cid prim x).filter q = if prim == e then due prim x else [])
    (h2 : ∀ s x nc, s ≠ prim → x.needCompletion = .ok nc → (secStory cid s x).filter q = if s == e then due s x else []) :
    (instNotes prim cid ps rs tail).filter q = (r.ecus.filter (fun x => x.serial == e)).flatMap (fun x => due x.serial x.result) := by
  obtain ⟨rfl, he, hn⟩ := ha
  have hr : (r.ecus.filter (fun x => x.serial == e)).flatMap (fun x => due x.serial x.result) =
      (r.ecus.map (fun e => (e.serial, e.result))).flatMap (fun y => if y.1 == e then due y.1 y.2 else []) := by
    rw [flatMap_filter', List.flatMap_map]
  rw [hr, he]
  unfold instNotes
  rw [List.append_nil, List.filter_append, List.flatMap_append, filter_flatMap', filter_flatMap', List.flatMap_map, List.flatMap_map]
  congr 1
  · exact flatMap_congr' (fun x _ => h1 x.2)
  · refine flatMap_congr' (fun x hx => ?_)
    obtain ⟨nc, hc⟩ := hn x hx
    exact h2 _ _ nc (h.secondary x hx).2.1 hc

theorem reports_prim {prim cid e : String} {x : InstResult} :
    (primStory cid prim x).filter (reportOn e) = if prim == e then dueReports prim cid prim x else [] := by
  unfold primStory dueReports waits done
  by_cases hn : x.code.num = 21
  · by_cases h : prim = e <;> simp [hn, h, reportOn]
  · by_cases h : prim = e <;> simp [hn, h, reportOn]

theorem events_prim {prim cid e : String} {x : InstResult} :
    (primStory cid prim x).filter (eventOn e) = if prim == e then dueEvents prim prim x else [] := by
  unfold primStory dueEvents waits done
  by_cases hn : x.code.num = 21
  · by_cases h : prim = e <;> simp [hn, h, eventOn]
  · by_cases h : prim = e <;> simp [hn, h, eventOn]

theorem reports_sec {prim cid e s : String} {x : InstResult} {nc : Bool} (hs : s ≠ prim) (hc : x.needCompletion = .ok nc) :
    (secStory cid s x).filter (reportOn e) = if s == e then dueReports prim cid s x else [] := by
  unfold secStory secEnd dueReports waits done
  simp only [hc, if_neg hs]
  cases nc <;> by_cases h : s = e <;> simp [h, reportOn]

theorem events_sec {prim cid e s : String} {x : InstResult} {nc : Bool} (hs : s ≠ prim) (hc : x.needCompletion = .ok nc) :
    (secStory cid s x).filter (eventOn e) = if s == e then dueEvents prim s x else [] := by
  unfold secStory secEnd dueEvents waits done
  simp only [hc, if_neg hs]
  cases nc <;> by_cases h : s = e <;> simp [h, eventOn]

theorem inst_no_complete {prim cid : String} {ps : List (Target × InstResult)} {rs : List (Target × String × InstResult)} {tail : List Note}
    {p : Peers} {ts : List Target} (h : InstTold p ts prim cid ps rs tail) (q : InstallReport) : .installsComplete q ∉ instNotes prim cid ps rs tail := by
  intro hx
  unfold instNotes at hx
  simp only [List.mem_append, List.mem_flatMap] at hx
  rcases hx with ⟨y, _, hx⟩ | ⟨y, _, hx⟩ | hx
  · unfold primStory at hx
    split at hx <;> simp at hx
  · unfold secStory secEnd at hx
    cases hc : y.2.2.needCompletion with
    | error _ => rw [hc] at hx; simp at hx
    | ok nc => rw [hc] at hx; cases nc <;> simp at hx
  · rcases h.tail with h | ⟨e, h | h⟩ <;> subst h <;> simp at hx

/-! ### The theorems -/

/-- Telling changes nothing: with their notes, the operations of the API do what they do without,
for every device, all peers and all servers. -/
theorem C63_same (c : Ctx) (p : Peers) (f : Fetched) (ts : List Target) (force : Bool) (d : Dev) :
    (∃ l, Tells (fetchMetaT c p) (fetchMeta c p) d l) ∧ (∃ l, Tells (downloadImagesT c f ts) (downloadImages c f ts) d l) ∧
    (∃ l, Tells (uptaneInstallT c p ts) (uptaneInstall c p ts) d l) ∧ (∃ l, Tells (putManifestT c.env p) (putManifestSimple c.env p) d l) ∧
    (∃ l, Tells (finalizeAfterRebootT c.env p) (finalizeAfterReboot c.env p) d l) ∧
    ∃ l, Tells (uptaneCycleT c p f force) (uptaneCycle c p f force) d l := by
  obtain ⟨conf, last, h1, _⟩ := fetchMetaT_says c p d
  obtain ⟨_, _, _, h2, _⟩ := downloadImagesT_says c f ts d
  obtain ⟨_, _, _, _, _, _, h3, _⟩ := uptaneInstallT_says c p ts d
  obtain ⟨l5, h5, _⟩ := finalizeT_says c.env p d
  obtain ⟨_, _, _, _, _, h6, _⟩ := uptaneCycleT_says c p f force d
  exact ⟨⟨_, h1.tells⟩, ⟨_, h2.tells⟩, ⟨_, h3.tells⟩, ⟨_, (putManifestT_says c.env p d).tells⟩, ⟨_, h5.tells⟩, ⟨_, h6.tells⟩⟩

/-- However an installation ends, also in a crash: whatever it told is so, and no end was told
without a beginning. -/
theorem C63_install_true (c : Ctx) (p : Peers) (ts : List Target) (s s' : Tel) (o : Except Err InstallReport)
    (h : uptaneInstallT c p ts s = (o, s')) : ∃ cid told, s'.notes = s.notes ++ told ∧
      (∀ x ∈ told, Warranted p ts s.d.cl.primary cid x) ∧
      ∀ before x rest, told = before ++ x :: rest → BeginsFirst before x := by
  obtain ⟨prim, cid, ps, rs, tail, last, h1, rfl, h2, h3, -⟩ := uptaneInstallT_says c p ts s.d
  obtain ⟨told, more, e1, e2, -⟩ := h1.prefix h
  refine ⟨cid, told, e1, ?_, ?_⟩
  · intro x hx
    have hx : x ∈ instNotes s.d.cl.primary cid ps rs tail ++ last := by rw [e2]; exact List.mem_append.2 (.inl hx)
    rcases List.mem_append.1 hx with hx | hx
    · exact inst_warranted h2 x hx
    · rcases h3 with rfl | ⟨r, rfl⟩
      · cases hx
      · rw [List.mem_singleton.1 hx]; trivial
  · intro before x rest he
    have ho : orderedFrom [] (instNotes s.d.cl.primary cid ps rs tail ++ last) := orderedFrom_append (orderedFrom_inst h2) (by
      rcases h3 with rfl | ⟨r, rfl⟩ <;> simp [orderedFrom, BeginsFirst])
    have := orderedFrom_at (before := before) (x := x) (rest := rest ++ more) ho (by rw [e2, he]; simp)
    simpa using this

/-- When an installation returns its report: of each ECU exactly the reports and events due for its
results in that report were told, then the report itself, once; and the report's device result is
stored under the same correlation id. -/
theorem C63_install_partial (c : Ctx) (p : Peers) (ts : List Target) (s s' : Tel) (r : InstallReport)
    (h : uptaneInstallT c p ts s = (.ok r, s')) :
    uptaneInstall c p ts s.d = (.ok r, s'.d) ∧
    ∃ told, s'.notes = s.notes ++ (told ++ [.installsComplete r]) ∧ (∀ q, .installsComplete q ∉ told) ∧
      (∀ e, told.filter (reportOn e) = (r.ecus.filter (fun x => x.serial == e)).flatMap
        (fun x => dueReports s.d.cl.primary s'.d.cl.w.dir.targets.correlationId x.serial x.result)) ∧
      (∀ e, told.filter (eventOn e) = (r.ecus.filter (fun x => x.serial == e)).flatMap (fun x => dueEvents s.d.cl.primary x.serial x.result)) ∧
      ∃ row raw, r.device.toRow = .ok row ∧ s'.d.cl.devResult = some ⟨row, raw, s'.d.cl.w.dir.targets.correlationId⟩ := by
  obtain ⟨prim, cid, ps, rs, tail, last, h1, rfl, h2, h3, h4⟩ := uptaneInstallT_says c p ts s.d
  obtain ⟨told, more, e1, e2, e3⟩ := h1.prefix h
  obtain ⟨rfl, e4⟩ := e3 _ rfl
  obtain ⟨ha, rfl, -, hcid, hd⟩ := h4 _ _ e4
  rw [List.append_nil] at e2
  refine ⟨e4, _, by rw [e1, ← e2], inst_no_complete h2, ?_, ?_, ?_⟩
  · intro e
    rw [hcid]
    exact inst_about h2 ha (fun _ => reports_prim) (fun _ _ _ hs hc => reports_sec hs hc)
  · intro e
    exact inst_about (due := fun s x => dueEvents _ s x) h2 ha (fun _ => events_prim) (fun _ _ _ hs hc => events_sec hs hc)
  · rw [hcid]; exact hd

/-- However a download ends: of each target, what was fetched; then the result, if there is one. -/
theorem C63_download_true (c : Ctx) (f : Fetched) (ts : List Target) (s s' : Tel) (o : Except Err Downloaded)
    (h : downloadImagesT c f ts s = (o, s')) : ∃ cid oks last told rest, s'.notes = s.notes ++ told ∧
      (ts.zip oks).flatMap (download cid) ++ last = told ++ rest ∧ (∀ x ∈ ts.zip oks, ∃ n, x.2 = f n x.1) ∧
      (last = [] ∨ ∃ r, last = [.downloadsComplete r]) := by
  obtain ⟨cid, oks, last, h1, h2, h3, -, -⟩ := downloadImagesT_says c f ts s.d
  obtain ⟨told, more, e1, e2, -⟩ := h1.prefix h
  refine ⟨cid, oks, last, told, more, e1, ?_, h2, h3⟩
  rw [← e2]
  congr 1
  exact flatMap_congr' (fun x _ => by simp [download, dlStory])

/-- When a download returns its result: either the stored metadata did not allow it and nothing but
the result was told, or each target was told, in order, with whether it was fetched; the result,
told last, names those that were. -/
theorem C63_download (c : Ctx) (f : Fetched) (ts : List Target) (s s' : Tel) (r : Downloaded)
    (h : downloadImagesT c f ts s = (.ok r, s')) :
    downloadImages c f ts s.d = (.ok r, s'.d) ∧
    ∃ cid oks, s'.notes = s.notes ++ ((ts.zip oks).flatMap (download cid) ++ [.downloadsComplete r]) ∧
      (∀ x ∈ ts.zip oks, ∃ n, x.2 = f n x.1) ∧ r.updates = ((ts.zip oks).filter (·.2)).map (·.1) ∧
      (oks = [] ∧ (r.status = .nothing ∨ r.status = .error) ∨ oks.length = ts.length ∧ (r.status = .success ↔ r.updates.length = ts.length)) := by
  obtain ⟨cid, oks, last, h1, h2, -, -, h3⟩ := downloadImagesT_says c f ts s.d
  obtain ⟨told, more, e1, e2, e3⟩ := h1.prefix h
  obtain ⟨rfl, e4⟩ := e3 _ rfl
  obtain ⟨rfl, h4, h5⟩ := h3 _ _ e4
  rw [List.append_nil] at e2
  refine ⟨e4, cid, oks, ?_, h2, h4, h5⟩
  rw [e1, ← e2]
  congr 2
  exact flatMap_congr' (fun x _ => by simp [download, dlStory])

/-- Finishing after a reboot tells nothing, or how the package manager says the pending update of
the Primary ended. -/
theorem C63_finalize (env : Env) (p : Peers) (s s' : Tel) (o : Except Err Unit) (h : finalizeAfterRebootT env p s = (o, s')) :
    s'.notes = s.notes ∨ ∃ t n r, s.d.cl.v.loadPending env s.d.cl.primary = .ok (some t) ∧ p.finalize n t = .ok r ∧
      r.code.same .needCompletion = .ok false ∧ s'.notes = s.notes ++ [.installCompleted s.d.cl.primary t.correlationId r.success] := by
  obtain ⟨l, h1, h2⟩ := finalizeT_says env p s.d
  obtain ⟨told, more, e1, e2, -⟩ := h1.prefix h
  rcases h2 with rfl | ⟨t, n, r, a, b, e, rfl⟩
  · have := List.append_eq_nil_iff.1 e2.symm
    rw [this.1, List.append_nil] at e1
    exact .inl e1
  · cases told with
    | nil => rw [List.append_nil] at e1; exact .inl e1
    | cons x told =>
      simp only [List.cons_append, List.cons.injEq] at e2
      obtain ⟨rfl, e2⟩ := e2
      have := List.append_eq_nil_iff.1 e2.symm
      rw [this.1] at e1
      exact .inr ⟨t, n, r, a, b, e, e1⟩

theorem dlTold_warranted {env : Env} {p : Peers} {f : Fetched} {ts : List Target} {l : List Note} {last : Option Downloaded} (h : DlTold f ts l last) :
    ∀ x ∈ l, CycleWarranted env p f x := by
  obtain ⟨cid, oks, h1, rfl⟩ := h
  intro x hx
  simp only [List.mem_append, List.mem_flatMap, dlStory, List.mem_map, List.mem_singleton] at hx
  rcases hx with ⟨y, hy, ⟨e, _, rfl⟩ | ⟨e, he, rfl⟩ | rfl⟩ | hx
  · trivial
  · obtain ⟨n, hn⟩ := h1 y hy
    exact ⟨y.1, n, hn, e.2, he⟩
  · exact h1 y hy
  · cases last with
    | none => cases hx
    | some g =>
      have : x = .downloadsComplete g := by simpa using hx
      subst this
      trivial

theorem warranted_cycle {env : Env} {p : Peers} {f : Fetched} {ts : List Target} {primary cid : String} {x : Note} (h : Warranted p ts primary cid x) :
    CycleWarranted env p f x := by
  cases x with
  | installApplied e c => obtain ⟨rfl, h⟩ := h; exact ⟨ts, primary, rfl, h⟩
  | installCompleted e c ok => obtain ⟨rfl, h⟩ := h; exact .inr ⟨ts, primary, rfl, h⟩
  | targetInstalled e ok => exact ⟨ts, primary, cid, h⟩
  | downloadCompleted => exact h.elim
  | targetDownloaded => exact h.elim
  | _ => trivial

theorem insTold_warranted {p : Peers} {ts : List Target} {l : List Note} {last : Option InstallReport} (h : InsTold p ts l last) :
    ∃ primary cid notes, l = notes ++ (last.map Note.installsComplete).toList ∧ ∀ x ∈ notes, Warranted p ts primary cid x := by
  obtain ⟨prim, cid, ps, rs, tail, h, rfl⟩ := h
  exact ⟨prim, cid, _, rfl, inst_warranted h⟩

/-- However a cycle ends, also in a crash: whatever it told is so. -/
theorem C63_cycle_true (c : Ctx) (p : Peers) (f : Fetched) (force : Bool) (s s' : Tel) (o : Except Err Bool)
    (h : uptaneCycleT c p f force s = (o, s')) : ∃ told, s'.notes = s.notes ++ told ∧ ∀ x ∈ told, CycleWarranted c.env p f x := by
  obtain ⟨conf, chk, dl, ins, man, h1, h2, h3, h4, h5, h6, -⟩ := uptaneCycleT_says c p f force s.d
  obtain ⟨told, more, e1, e2, -⟩ := h1.prefix h
  refine ⟨told, e1, fun x hx => ?_⟩
  have hx : x ∈ conf ++ (chk ++ (dl ++ (ins ++ man))) := by rw [e2]; exact List.mem_append.2 (.inl hx)
  simp only [List.mem_append] at hx
  rcases hx with hx | hx | hx | hx | hx
  · obtain ⟨e, hh, cid, rfl, n, m, j, k, a, b, d, -⟩ := h2 x hx
    exact .inl ⟨rfl, n, m, j, k, a, b, d⟩
  · rcases h3 with rfl | ⟨r, rfl⟩
    · cases hx
    · rw [List.mem_singleton.1 hx]; trivial
  · rcases h4 with rfl | ⟨ts, last, h4⟩
    · cases hx
    · exact dlTold_warranted h4 x hx
  · rcases h5 with rfl | ⟨ts, last, h5⟩
    · cases hx
    · obtain ⟨prim, cid, notes, rfl, hw⟩ := insTold_warranted h5
      rcases List.mem_append.1 hx with hx | hx
      · exact warranted_cycle (hw x hx)
      · cases last with
        | none => cases hx
        | some g =>
          have : x = .installsComplete g := by simpa using hx
          subst this
          trivial
  · rcases h6 with rfl | ⟨b, rfl⟩
    · cases hx
    · rw [List.mem_singleton.1 hx]; trivial

theorem dlTold_story {f : Fetched} {ts : List Target} {l : List Note} {got : Downloaded} (h : DlTold f ts l (some got)) : DownloadStory f ts got l := by
  obtain ⟨cid, oks, h1, rfl⟩ := h
  refine ⟨cid, oks, ?_, h1⟩
  show _ ++ [Note.downloadsComplete got] = _
  congr 1
  exact flatMap_congr' (fun x _ => by simp [download, dlStory])

/-- A cycle that comes to an end tells confirmed updates of Secondaries, then one of the stories
of `CycleStory`. -/
theorem C63_cycle_partial (c : Ctx) (p : Peers) (f : Fetched) (force : Bool) (s s' : Tel) (b : Bool)
    (h : uptaneCycleT c p f force s = (.ok b, s')) :
    uptaneCycle c p f force s.d = (.ok b, s'.d) ∧ ∃ confirmed story, s'.notes = s.notes ++ (confirmed ++ story) ∧
      (∀ x ∈ confirmed, ∃ e cid, x = .installCompleted e cid true ∧ Confirms c.env p e) ∧ CycleStory p f story := by
  obtain ⟨conf, chk, dl, ins, man, h1, h2, -, -, -, h6, h7⟩ := uptaneCycleT_says c p f force s.d
  obtain ⟨told, more, e1, e2, e3⟩ := h1.prefix h
  obtain ⟨rfl, e4⟩ := e3 _ rfl
  rw [List.append_nil] at e2
  refine ⟨e4, conf, _, by rw [e1, ← e2], ?_, ?_⟩
  · intro x hx
    obtain ⟨e, hh, cid, rfl, n, m, j, k, a, b, d, -⟩ := h2 x hx
    exact ⟨e, cid, rfl, n, m, j, k, a, b, d⟩
  · rcases h7 _ _ e4 with ⟨rfl, rfl, rfl, x, rfl⟩ | ⟨r, rfl, ⟨hu, rfl, rfl, ha, hb⟩ | ⟨hu, got, hdl, ⟨hg, rfl, ha, hb⟩ | ⟨hs, hne, rep, hin⟩⟩⟩
    · exact .pending x
    · by_cases hs : r.status = .error
      · obtain ⟨x, rfl⟩ := ha hs
        exact .failed r x hu hs
      · rw [hb hs]
        exact .nothing r hu hs
    · by_cases hs : got.status = .nothing
      · rw [hb hs]
        have := CycleStory.refused (p := p) r got dl hu (dlTold_story hdl) hs
        simpa using this
      · obtain ⟨x, rfl⟩ := ha hs
        have := CycleStory.missing (p := p) r got dl x hu (dlTold_story hdl) hg hs
        simpa using this
    · obtain ⟨prim, cid, notes, e, hw⟩ := insTold_warranted hin
      have := CycleStory.installed (p := p) r got dl rep ins man hu (dlTold_story hdl) hs hne ⟨prim, cid, notes, e, hw⟩ h6
      simpa using this

/-! ### Cases, and where the code falls short -/

namespace Toy

/-- The notes in short. -/
def short : Note → String × String × Bool
  | .downloadStarted e _ => ("download started", e, true)
  | .downloadCompleted e _ ok => ("download completed", e, ok)
  | .installStarted e _ => ("installation started", e, true)
  | .installApplied e _ => ("installation applied", e, true)
  | .installCompleted e _ ok => ("installation completed", e, ok)
  | .checkComplete r => ("event: check", "", !r.updates.isEmpty)
  | .targetDownloaded t ok => ("event: downloaded", t.filename, ok)
  | .downloadsComplete r => ("event: downloads", "", r.status == .success)
  | .started e => ("event: started", e, true)
  | .targetInstalled e ok => ("event: installed", e, ok)
  | .installsComplete r => ("event: installations", "", r.device.success)
  | .manifestComplete ok => ("event: manifest", "", ok)

/-- Both ECUs need a reboot to complete. -/
def bothReboot : Peers := { helpful with
  install := fun _ _ => .ok (.ofCode .needCompletion "")
  secInstall := fun _ _ _ => .ok (.ofCode .needCompletion "") }

/-- The package manager's verification of an image throws. -/
def throwing : Peers := { helpful with verify := fun _ _ => .error (.std "cannot open image") }

/-- A cycle on a new device. -/
def toldBy (p : Peers) (left : Nat) : Except Err Bool × Tel :=
  uptaneCycleT (deleCtx both) p (fun _ _ => true) false { d := newDevice, left := left }

/-- One more cycle. -/
def toldNext (p : Peers) (s : Tel) : Except Err Bool × Tel :=
  uptaneCycleT (deleCtx both) p (fun _ _ => true) false { s with notes := [] }

end Toy

/-- The theorems speak of runs like this one: a new device with a Secondary installs its first
update, and tells so. -/
example : (Toy.toldBy Toy.helpful 100).2.notes.map Toy.short =
    [("event: check", "", true),
     ("download started", "e1", true), ("download started", "e2", true), ("download completed", "e1", true), ("download completed", "e2", true),
     ("event: downloaded", "fw", true), ("event: downloads", "", true),
     ("installation started", "e1", true), ("event: started", "e1", true), ("installation completed", "e1", true), ("event: installed", "e1", true),
     ("event: started", "e2", true), ("installation started", "e2", true), ("installation completed", "e2", true), ("event: installed", "e2", true),
     ("event: installations", "", true), ("event: manifest", "", true)] := by
  decide +kernel

/-- And like this one, where the process dies in the middle of the installation. -/
example : (Toy.toldBy Toy.helpful 9).1 = .error .crash ∧ ((Toy.toldBy Toy.helpful 9).2.notes.drop 7).map Toy.short =
    [("installation started", "e1", true), ("event: started", "e1", true)] := by
  decide +kernel

/-- Both ECUs applied the update and wait for a reboot; the API user hears of success on the
Primary and of failure on the Secondary. -/
theorem C63_secondary_waiting_event_negative : ((Toy.toldBy Toy.bothReboot 100).2.notes.drop 7).map Toy.short =
    [("installation started", "e1", true), ("event: started", "e1", true), ("installation applied", "e1", true), ("event: installed", "e1", true),
     ("event: started", "e2", true), ("installation started", "e2", true), ("installation applied", "e2", true), ("event: installed", "e2", false),
     ("event: installations", "", false)] := by
  decide +kernel

/-- A device on which an update of the Primary waits for a reboot. -/
def Toy.waitingDevice : Dev := (saveVersion (Toy.deleCtx Toy.both).env "e1" (Toy.forBoth.targets.headD { filename := "fw" }) .pending Toy.newDevice).2

/-- While an update is pending, a check returns a result without telling it. -/
theorem C63_pending_check_silent : Toy.waitingDevice.cl.hasPendingUpdates = true ∧ (Toy.toldNext Toy.bothReboot { d := Toy.waitingDevice, left := 100 }).2.notes.map Toy.short =
    [("event: manifest", "", false)] := by
  decide +kernel

/-- When the verification of an image throws, the installation ends without an event. -/
theorem C63_throwing_install_silent : (Toy.toldBy Toy.throwing 100).1 = .error (.std "cannot open image") ∧
    ((Toy.toldBy Toy.throwing 100).2.notes.drop 6).map Toy.short = [("event: downloads", "", true)] := by
  decide +kernel


end Aktualizr
