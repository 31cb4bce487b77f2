import Verif.Lemmas.GenRuns
import Verif.Lemmas.GenHonest
import Verif.Props.C61

/-!
# C70 What the repository generator publishes is accepted by devices
-/

namespace Aktualizr

open Spec

namespace Spec

open Gen

/-- The directory of one repository. -/
def dirOf (r : Repos) : Repo → Dir
  | .director => r.director
  | .image => r.image

/-- At some point of the run `cs` the file was `text`. -/
def WasPublished (g : GenEnv) (r0 : Repos) (cs : List Cmd) (repo : Repo) (p : Gen.Path) (text : String) : Prop :=
  ∃ before after r, cs = before ++ after ∧ runAll g r0 before = .ok r ∧ (dirOf r repo).files.lookup p = some text

/-- What a device holds was published at some point, each document possibly at another one. -/
structure HoldsPublished (g : GenEnv) (r0 : Repos) (cs : List Cmd) (db : MetaDb) : Prop where
  dRoot : ∀ row, db.latestOf .director .root = some row → ∃ v, WasPublished g r0 cs .director (.numbered v) row.data ∧ row.version ≤ v + 1
  dTargets : ∀ raw, Stored db .director .targets raw → WasPublished g r0 cs .director .targets raw
  iRoot : ∀ row, db.latestOf .image .root = some row → ∃ v, WasPublished g r0 cs .image (.numbered v) row.data ∧ row.version ≤ v + 1
  iTimestamp : ∀ raw, Stored db .image .timestamp raw → WasPublished g r0 cs .image .timestamp raw
  iSnapshot : ∀ raw, Stored db .image .snapshot raw → WasPublished g r0 cs .image .snapshot raw
  iTargets : ∀ raw, Stored db .image .targets raw → WasPublished g r0 cs .image .targets raw

end Spec

namespace Gen

theorem runAll_append {g : GenEnv} : ∀ (a : List Cmd) {b : List Cmd} {r r' : Repos}, runAll g r (a ++ b) = .ok r' → ∃ m, runAll g r a = .ok m ∧ runAll g m b = .ok r'
  | [], b, r, r', h => ⟨r, rfl, h⟩
  | c :: a, b, r, r', h => by
    obtain ⟨r1, h1, h⟩ := exc_bind_ok.1 h
    obtain ⟨m, h2, h3⟩ := runAll_append a h
    exact ⟨m, exc_bind_ok.2 ⟨r1, h1, h2⟩, h3⟩

theorem runAll_unique {g : GenEnv} {a : List Cmd} {r m m' : Repos} (h : runAll g r a = .ok m) (h' : runAll g r a = .ok m') : m = m' := by
  rw [h] at h'
  cases h'
  rfl

theorem orderly_split {g : GenEnv} (hg : Sound g) : ∀ (a : List Cmd) {b : List Cmd} {f : Bool} {r m : Repos}, Sane g r → (∀ c ∈ a ++ b, c.Sensible g) →
    Orderly f (a ++ b) = true → (f = true → Ahead g r.director) → runAll g r a = .ok m → ∃ f', Orderly f' b = true ∧ (f' = true → Ahead g m.director)
  | [], b, f, r, m, _, _, ho, hf, h => by cases h; exact ⟨f, ho, hf⟩
  | c :: a, b, f, r, m, hs, hc, ho, hf, h => by
    obtain ⟨r1, h1, h⟩ := exc_bind_ok.1 h
    obtain ⟨-, o2⟩ := orderly_cons ho
    obtain ⟨s1, -, s3, s4⟩ := run_ok hg hs (hc c List.mem_cons_self) h1
    refine orderly_split hg a s1.sane (fun c hc' => hc c (List.mem_cons_of_mem _ hc')) o2 ?_ h
    intro hor
    rw [Bool.or_eq_true, Bool.and_eq_true] at hor
    rcases hor with hst | ⟨hb', hby⟩
    · exact s3 hst
    · exact s4 hby (hf hb')

/-- A state of a run and a later one. -/
theorem between {g : GenEnv} (hg : Sound g) {r0 r m : Repos} {a b : List Cmd} (hs : Sane g r0) (hc : ∀ c ∈ a ++ b, c.Sensible g) (h : runAll g r0 (a ++ b) = .ok r)
    (hm : runAll g r0 a = .ok m) : Sane g m ∧ Step g m r ∧ (Orderly false (a ++ b) = true → Later g .targets m.director r.director) := by
  obtain ⟨m', h1, h2⟩ := runAll_append a h
  cases runAll_unique h1 hm
  have hsm := (runAll_ok hg a hs (fun c hc' => hc c (List.mem_append_left _ hc')) hm).sane
  refine ⟨hsm, runAll_ok hg b hsm (fun c hc' => hc c (List.mem_append_right _ hc')) h2, fun ho => ?_⟩
  obtain ⟨f, o1, o2⟩ := orderly_split hg a hs hc ho (fun hf => by cases hf) hm
  exact runAll_later hg b hsm (fun c hc' => hc c (List.mem_append_right _ hc')) o1 o2 h2

theorem Sane.fine {g : GenEnv} {r : Repos} (h : Sane g r) (repo : Repo) : Fine g (dirOf r repo) :=
  match repo with
  | .director => h.director
  | .image => h.image

theorem Step.good {g : GenEnv} {r r' : Repos} (h : Step g r r') (repo : Repo) : Good g (dirOf r repo) (dirOf r' repo) :=
  match repo with
  | .director => h.director
  | .image => h.image

theorem holdsRoot_of {g : GenEnv} (hg : Sound g) {r0 r : Repos} {cs : List Cmd} {repo : Repo} {db : MetaDb} (hs : Sane g r0) (hc : ∀ c ∈ cs, c.Sensible g)
    (h : runAll g r0 cs = .ok r)
    (hh : ∀ row, db.latestOf repo .root = some row → ∃ v, WasPublished g r0 cs repo (.numbered v) row.data ∧ row.version ≤ v + 1) :
    HoldsRoot db repo (dirOf r repo) := by
  cases hrow : db.latestOf repo .root with
  | none => exact .inl hrow
  | some row =>
    obtain ⟨v, ⟨a, b, m, rfl, hm, hl⟩, hv⟩ := hh row hrow
    refine .inr ⟨row, v, hrow, ?_, hv⟩
    obtain ⟨s1, s2, -⟩ := between hg hs hc h hm
    obtain ⟨tab, top, hr⟩ := (s1.fine repo).base.roots
    obtain ⟨top', h1, h2, h3⟩ := (s2.good repo).roots tab top hr
    have hk : ¬ (v < 1 ∨ top < v) := by
      intro hk
      rw [hr.none _ hk] at hl
      cases hl
    rw [h3 _ (by omega)]
    exact hl

theorem nonempty_of {g : GenEnv} (hg : Sound g) {d : Dir} (hd : Fine g d) {p : Path} (hp : p = .timestamp ∨ p = .snapshot ∨ p = .targets) {text : String}
    (h : d.files.lookup p = some text) : text ≠ "" := by
  have : ∃ keys role j, Wrote g keys role j text := by
    rcases hp with rfl | rfl | rfl
    · obtain ⟨t, _, _, _, _, _, _, a1, a2, -⟩ := hd.base.timestamp
      rw [h] at a1; cases a1; exact ⟨_, _, _, a2⟩
    · obtain ⟨t, _, _, _, a1, a2, -⟩ := hd.base.snapshot
      rw [h] at a1; cases a1; exact ⟨_, _, _, a2⟩
    · obtain ⟨t, _, _, _, a1, a2, -⟩ := hd.base.targets
      rw [h] at a1; cases a1; exact ⟨_, _, _, a2⟩
  obtain ⟨_, _, _, -, _, _, _, -, -, rfl⟩ := this
  exact hg.nonempty _

end Gen

namespace Gen

theorem behind_of {g : GenEnv} (hg : Sound g) {r0 r : Repos} {cs : List Cmd} {repo : Repo} {p : Path} (hp : p = .timestamp ∨ p = .snapshot ∨ p = .targets)
    (hs : Sane g r0) (hc : ∀ c ∈ cs, c.Sensible g) (h : runAll g r0 cs = .ok r) (hord : repo = .director → p = .targets → Orderly false cs = true) {old : String}
    (hw : WasPublished g r0 cs repo p old) : Behind g p (dirOf r repo) old := by
  obtain ⟨a, b, m, rfl, hm, hl⟩ := hw
  obtain ⟨s1, s2, s3⟩ := between hg hs hc h hm
  refine Behind.of_later ?_ hl (nonempty_of hg (s1.fine repo) hp hl)
  have hgood := s2.good repo
  rcases hp with rfl | rfl | rfl
  · exact hgood.laterT
  · exact hgood.laterS
  · match repo with
    | .director => exact s3 (hord rfl rfl)
    | .image => exact s2.targets

theorem now_published {g : GenEnv} {r0 r : Repos} {cs : List Cmd} (h : runAll g r0 cs = .ok r) {repo : Repo} {p : Path} {text : String}
    (hf : (dirOf r repo).files.lookup p = some text) : WasPublished g r0 cs repo p text := ⟨cs, [], r, by simp, h, hf⟩

theorem stored_unique {db : MetaDb} {repo : Repo} {t : RoleKind} {a b : String} (h1 : Stored db repo t a) (h2 : Stored db repo t b) : a = b := by
  obtain ⟨x, hx, rfl⟩ := h1
  obtain ⟨y, hy, rfl⟩ := h2
  rw [hx] at hy
  cases hy
  rfl

theorem root_published {g : GenEnv} {r0 r : Repos} {cs : List Cmd} (h : runAll g r0 cs = .ok r) {repo : Repo} {db : MetaDb} {top : Int} {text : String}
    (hn : ∃ row, db.latestOf repo .root = some row ∧ row.data = text ∧ row.version ≤ top + 1) (hf : (dirOf r repo).files.lookup (.numbered top) = some text) :
    ∀ row, db.latestOf repo .root = some row → ∃ v, WasPublished g r0 cs repo (.numbered v) row.data ∧ row.version ≤ v + 1 := by
  intro row hrow
  obtain ⟨row', h1, rfl, h3⟩ := hn
  rw [hrow] at h1
  cases h1
  exact ⟨top, now_published h hf, h3⟩

end Gen

open Gen

/-- **C70** A device that holds nothing, or documents published earlier in the same run of the
generator, accepts what both repositories offer after the run: the check succeeds and offers exactly
the targets not installed yet. -/
theorem C70_accepted_partial {g : GenEnv} {c : Ctx} {cl : Client} {kd ki : NewKeys} {expires later cor : String} {r0 r : Repos} {cs : List Cmd} {dRaw iRaw : String} {ts its : Targets}
    (hg : Sound g) (hce : c.env = g.env) (hkd : kd.Ok g) (hki : ki.Ok g) (hlater : IsTime later) (hgen : generate g kd ki expires later cor = .ok r0)
    (hsens : ∀ x ∈ cs, x.Sensible g) (hrun : runAll g r0 cs = .ok r)
    (hpd : Publishes c .director r.director) (hpi : Publishes c .image r.image) (hld : WithinLimits c g .director r.director) (hli : WithinLimits c g .image r.image)
    (hh : HoldsPublished g r0 cs cl.w.db)
    (horder : Orderly false cs = true ∨ ∀ raw, ¬ Stored cl.w.db .director .targets raw)
    (hapart : ∀ old rawS, Stored cl.w.db .image .snapshot old → r.image.files.lookup .snapshot = some rawS → old ≠ rawS →
      ∀ alg, upper (digest g.env alg old) ≠ upper (digest g.env alg rawS))
    (hdraw : r.director.files.lookup .targets = some dRaw) (hts : ReadsAsTargets c.env dRaw ts)
    (hiraw : r.image.files.lookup .targets = some iRaw) (hits : ReadsAsTargets c.env iRaw its)
    (honce : EcusOnce ts) (hfit : ∀ t ∈ ts.targets, FitsDevice c.env cl t) (hsome : ∃ t ∈ ts.targets, Outdated c.env cl t)
    (hlist : ∀ t ∈ ts.targets, Outdated c.env cl t → ∃ m, ListedBy its t m) (hf : 4002 ≤ cl.w.fuel) :
    ∃ res cl', checkUpdates c cl = (.ok res, cl') ∧ res.status = .available ∧ res.targetsMeta = c.env.parseJson dRaw ∧
      (∀ u ∈ res.updates, ∃ d m, d ∈ ts.targets ∧ Outdated c.env cl d ∧ ListedBy its d m ∧ Offers d m u) ∧
      (∀ d ∈ ts.targets, Outdated c.env cl d → ∃ u m, u ∈ res.updates ∧ ListedBy its d m ∧ Offers d m u) ∧
      HoldsPublished g r0 cs cl'.w.db := by
  have hs0 := generate_ok hg hkd hki hlater hgen
  have hs := (runAll_ok hg cs hs0 hsens hrun).sane
  have hne : ts.targets ≠ [] := by
    obtain ⟨t, ht, -⟩ := hsome
    exact List.ne_nil_of_mem ht
  obtain ⟨dFirst, dRaws, dLast, dTop, hd, d1, d2, d3⟩ := honest_director hg hce hs.director hs.plain hld hpd (holdsRoot_of hg hs0 hsens hrun hh.dRoot)
    (fun old ho => by
      rcases horder with h | h
      · exact behind_of hg (by simp) hs0 hsens hrun (fun _ _ => h) (hh.dTargets old ho)
      · exact absurd ho (h old)) hdraw hts hne honce
  obtain ⟨iFirst, iRaws, iLast, rawT, rawS, tm, sn, iTop, hi, i1, i2, i3, i4, i5⟩ := honest_image hg hce hs.image hli hpi (holdsRoot_of hg hs0 hsens hrun hh.iRoot)
    (fun old ho => behind_of hg (by simp) hs0 hsens hrun (fun h => by cases h) (hh.iTimestamp old ho))
    (fun old rawS ho hS => by
      by_cases he : old = rawS
      · exact .inl he
      · obtain ⟨a, b, m, rfl, hm, hl⟩ := hh.iSnapshot old ho
        obtain ⟨s1, -, -⟩ := between hg hs0 hsens hrun hm
        exact .inr ⟨nonempty_of hg s1.image (by simp) hl, hapart old rawS ho hS he⟩)
    (fun old ho => behind_of hg (by simp) hs0 hsens hrun (fun h => by cases h) (hh.iTargets old ho)) hiraw hits
  obtain ⟨res, cl', h1, h2, h3, h4, h5, -, h6⟩ := checkUpdates_run (k := 0) hd hi hfit hsome
    (fun t ht ho => let ⟨_, hm⟩ := hlist t ht ho; attainable_listed hm) (by omega)
  refine ⟨res, cl', h1, h2, h3, fun u hu => ?_, fun d hd' ho => ?_, ?_⟩
  · obtain ⟨d, m, a1, a2, a3, a4, -⟩ := h4 u hu
    obtain ⟨m', hm'⟩ := hlist d a1 a2
    exact ⟨d, m, a1, a2, listedUnder_top a3 hm', a4⟩
  · obtain ⟨u, m, a1, a2, a3⟩ := h5 d hd' ho
    obtain ⟨m', hm'⟩ := hlist d hd' ho
    exact ⟨u, m, a1, listedUnder_top a2 hm', a3⟩
  exact {
    dRoot := root_published hrun (repo := .director) (d2 ▸ h6.dNewest) d1
    dTargets := fun raw hr => by rw [stored_unique hr h6.dStored]; exact now_published hrun (repo := .director) hdraw
    iRoot := root_published hrun (repo := .image) (i2 ▸ h6.iNewest) i1
    iTimestamp := fun raw hr => by rw [stored_unique hr h6.iStoredT]; exact now_published hrun (repo := .image) i3
    iSnapshot := fun raw hr => by rw [stored_unique hr h6.iStoredS]; exact now_published hrun (repo := .image) i4
    iTargets := fun raw hr => by rw [stored_unique hr h6.iStored]; exact now_published hrun (repo := .image) hiraw }

/-- **C70** The same device, when everything the Director names is installed: the check says so. -/
theorem C70_nothing_new_partial {g : GenEnv} {c : Ctx} {cl : Client} {kd ki : NewKeys} {expires later cor : String} {r0 r : Repos} {cs : List Cmd} {dRaw : String} {ts : Targets}
    (hg : Sound g) (hce : c.env = g.env) (hkd : kd.Ok g) (hki : ki.Ok g) (hlater : IsTime later) (hgen : generate g kd ki expires later cor = .ok r0)
    (hsens : ∀ x ∈ cs, x.Sensible g) (hrun : runAll g r0 cs = .ok r) (hpd : Publishes c .director r.director) (hld : WithinLimits c g .director r.director)
    (hh : HoldsPublished g r0 cs cl.w.db) (horder : Orderly false cs = true ∨ ∀ raw, ¬ Stored cl.w.db .director .targets raw)
    (hdraw : r.director.files.lookup .targets = some dRaw) (hts : ReadsAsTargets c.env dRaw ts) (hsome : ts.targets ≠ []) (honce : EcusOnce ts)
    (hfit : ∀ t ∈ ts.targets, FitsDevice c.env cl t) (hnone : ∀ t ∈ ts.targets, ¬ Outdated c.env cl t) (hf : 4002 ≤ cl.w.fuel) :
    ∃ res cl', checkUpdates c cl = (.ok res, cl') ∧ res.status = .noUpdates ∧ res.updates = [] ∧ HoldsPublished g r0 cs cl'.w.db := by
  have hs0 := generate_ok hg hkd hki hlater hgen
  have hs := (runAll_ok hg cs hs0 hsens hrun).sane
  obtain ⟨dFirst, dRaws, dLast, dTop, hd, d1, d2, d3⟩ := honest_director hg hce hs.director hs.plain hld hpd (holdsRoot_of hg hs0 hsens hrun hh.dRoot)
    (fun old ho => by
      rcases horder with h | h
      · exact behind_of hg (by simp) hs0 hsens hrun (fun _ _ => h) (hh.dTargets old ho)
      · exact absurd ho (h old)) hdraw hts hsome honce
  obtain ⟨res, cl', h1, h2, h3, -, h6⟩ := checkUpdates_none hd hfit hnone (by omega)
  refine ⟨res, cl', h1, h2, h3, ?_⟩
  exact {
    dRoot := root_published hrun (repo := .director) (d2 ▸ h6.newest) d1
    dTargets := fun raw hr => by rw [stored_unique hr h6.stored]; exact now_published hrun (repo := .director) hdraw
    iRoot := fun row hrow => hh.iRoot row (by rw [MetaDb.latestOf_only, ← h6.other, ← MetaDb.latestOf_only]; exact hrow)
    iTimestamp := fun raw hr => hh.iTimestamp raw ((Image.stored_only (h6.other _)).1 hr)
    iSnapshot := fun raw hr => hh.iSnapshot raw ((Image.stored_only (h6.other _)).1 hr)
    iTargets := fun raw hr => hh.iTargets raw ((Image.stored_only (h6.other _)).1 hr) }

/-- **C70** Later commands do not matter for what a device holds. -/
theorem C70_holds_on {g : GenEnv} {r0 : Repos} {cs more : List Cmd} {db : MetaDb} (h : HoldsPublished g r0 cs db) : HoldsPublished g r0 (cs ++ more) db := by
  have key : ∀ {repo p text}, WasPublished g r0 cs repo p text → WasPublished g r0 (cs ++ more) repo p text := by
    rintro repo p text ⟨a, b, r, rfl, h1, h2⟩
    exact ⟨a, b ++ more, r, by simp, h1, h2⟩
  exact {
    dRoot := fun row hr => let ⟨v, h1, h2⟩ := h.dRoot row hr; ⟨v, key h1, h2⟩
    dTargets := fun raw hr => key (h.dTargets raw hr)
    iRoot := fun row hr => let ⟨v, h1, h2⟩ := h.iRoot row hr; ⟨v, key h1, h2⟩
    iTimestamp := fun raw hr => key (h.iTimestamp raw hr)
    iSnapshot := fun raw hr => key (h.iSnapshot raw hr)
    iTargets := fun raw hr => key (h.iTargets raw hr) }

/-- **C70** In the course of a run a published document is replaced only by one of a higher version;
for the Director's Targets, if whatever is signed was staged after what was published. -/
theorem C70_versions_partial {g : GenEnv} {kd ki : NewKeys} {expires later cor : String} {r0 r : Repos} {cs : List Cmd} {repo : Repo} {p : Gen.Path} {old : String}
    (hg : Sound g) (hkd : kd.Ok g) (hki : ki.Ok g) (hlater : IsTime later) (hgen : generate g kd ki expires later cor = .ok r0)
    (hsens : ∀ x ∈ cs, x.Sensible g) (hrun : runAll g r0 cs = .ok r) (hp : p = .timestamp ∨ p = .snapshot ∨ p = .targets)
    (horder : repo = .director → p = .targets → Orderly false cs = true) (hold : WasPublished g r0 cs repo p old) :
    ∃ new, (dirOf r repo).files.lookup p = some new ∧ (old = new ∨ ∃ v v', At (g.env.parseJson old) ["signed", "version"] (.int v) ∧
      At (g.env.parseJson new) ["signed", "version"] (.int v') ∧ v < v') := by
  have hs0 := generate_ok hg hkd hki hlater hgen
  rcases behind_of hg hp hs0 hsens hrun horder hold with h | ⟨-, v, v', j, h1, h2, -, ⟨j', h3, h4, -⟩, h5⟩
  · exact ⟨old, h, .inl rfl⟩
  · unfold Dir.signed Dir.json at h3
    cases hl : (dirOf r repo).files.lookup p with
    | none =>
      rw [hl] at h3
      cases h3
      cases h4
    | some new =>
      rw [hl] at h3
      exact ⟨new, rfl, .inr ⟨v, v', ⟨j, h1, _, h2, rfl⟩, ⟨j', h3, _, h4, rfl⟩, h5⟩⟩

/-- **C70** Published Roots are never changed, and each follows the one before it. -/
theorem C70_roots {g : GenEnv} {kd ki : NewKeys} {expires later cor : String} {r0 r : Repos} {cs : List Cmd} {repo : Repo} {v : Int} {old : String}
    (hg : Sound g) (hkd : kd.Ok g) (hki : ki.Ok g) (hlater : IsTime later) (hgen : generate g kd ki expires later cor = .ok r0)
    (hsens : ∀ x ∈ cs, x.Sensible g) (hrun : runAll g r0 cs = .ok r) (hold : WasPublished g r0 cs repo (.numbered v) old) :
    (dirOf r repo).files.lookup (.numbered v) = some old ∧
    (∀ new, (dirOf r repo).files.lookup (.numbered (v + 1)) = some new → v < 2147483647 → RootSuccessor g.env old new) := by
  have hs0 := generate_ok hg hkd hki hlater hgen
  obtain ⟨a, b, m, rfl, hm, hl⟩ := hold
  obtain ⟨s1, s2, -⟩ := between hg hs0 hsens hrun hm
  obtain ⟨tab, top, hr⟩ := (s1.fine repo).base.roots
  obtain ⟨top', h1, h2, h3⟩ := (s2.good repo).roots tab top hr
  have hk : ¬ (v < 1 ∨ top < v) := by
    intro hk
    rw [hr.none _ hk] at hl
    cases hl
  have hold : (dirOf r repo).files.lookup (.numbered v) = some old := by rw [h3 _ (by omega)]; exact hl
  refine ⟨hold, fun new hnew hv => ?_⟩
  have hk' : ¬ (v + 1 < 1 ∨ top' < v + 1) := by
    intro hk
    rw [h2.none _ hk] at hnew
    cases hnew
  have hb := (s2.sane.fine repo).base
  obtain ⟨e, text, b1, b2, b3⟩ := h2.all v (by omega) (by omega)
  obtain ⟨e', text', c1, c2, c3⟩ := h2.all (v + 1) (by omega) (by omega)
  rw [hold] at b1
  cases b1
  rw [hnew] at c1
  cases c1
  obtain ⟨ks, k1, k2⟩ := root_reads hg h2.table (by omega) (by omega) b3 b2
  obtain ⟨ks', k1', k2'⟩ := root_reads hg h2.table (by omega) (by omega) c3 c2
  exact ⟨_, _, k1, k1', rfl, (root_genuine hg hb h2.table (w := v) (f := e) k2 c2).signed.1, (root_genuine hg hb h2.table (w := v + 1) (f := e') k2' c2).signed.1⟩

namespace Gen

theorem opt_val {α : Type} {c : Json} {k : String} {b : Bool} {f : Json → Except Err α} {d r : α} (hm : c.isMember k = .ok b)
    (h : (if b then (do let x ← c.get k; f x) else pure d : Except Err α) = .ok r) (hnull : f .null = .ok d) : ∃ x, c.get k = .ok x ∧ f x = .ok r := by
  cases b with
  | true =>
    obtain ⟨x, h1, h2⟩ := exc_bind_ok.1 h
    exact ⟨x, h1, h2⟩
  | false =>
    cases h
    cases c <;> first | (cases hm; done) | skip
    · exact ⟨.null, rfl, hnull⟩
    · rename_i kvs
      have hl : kvs.lookup k = none := by
        cases hl : kvs.lookup k with
        | none => rfl
        | some y => simp [Json.isMember, hl] at hm
      exact ⟨.null, by simp [Json.get, hl], hnull⟩

/-- The parts of an entry that matter for matching, as read. -/
structure ReadsEntry (t : Json) (x : Target) : Prop where
  parts : ∃ c h e es, t.get "custom" = .ok c ∧ c.get "hardwareIds" = .ok h ∧ parseHwids h.elems = .ok x.hwids ∧ c.get "ecuIdentifiers" = .ok e ∧
    parseEcus e.entries = .ok es ∧ x.ecus = es.foldl (fun m e => insertEcu e m) []
  length : ∃ l i, t.get "length" = .ok l ∧ l.asUInt64 = .ok i ∧ x.length = i.toNat
  hashes : ∃ h r, t.get "hashes" = .ok h ∧ parseHashes h.entries = .ok r ∧ x.hashes = sortHashes (r.filter Hash.haveAlgorithm)

theorem readsEntry {name : String} {t : Json} {x : Target} (h : Target.ofJson name t = .ok x) : ReadsEntry t x ∧ x.filename = name := by
  unfold Target.ofJson at h
  obtain ⟨b, m, h⟩ := exc_bind_ok.1 h
  obtain ⟨t1, h1, h⟩ := exc_bind_ok.1 h
  obtain ⟨l, hl, h⟩ := exc_bind_ok.1 h
  obtain ⟨i, hi, h⟩ := exc_bind_ok.1 h
  obtain ⟨hs, hhs, h⟩ := exc_bind_ok.1 h
  obtain ⟨r, hr, h⟩ := exc_bind_ok.1 h
  cases h
  obtain ⟨c, hc, hy⟩ := opt_val (f := fun c => Target.updateCustom { filename := name } c) m h1 rfl
  unfold Target.updateCustom at hy
  obtain ⟨b1, m1, hy⟩ := exc_bind_ok.1 hy
  obtain ⟨hw, hh1, hy⟩ := exc_bind_ok.1 hy
  obtain ⟨e, he, hy⟩ := exc_bind_ok.1 hy
  obtain ⟨es, hes, hy⟩ := exc_bind_ok.1 hy
  obtain ⟨b2, m2, hy⟩ := exc_bind_ok.1 hy
  obtain ⟨ty, h2, hy⟩ := exc_bind_ok.1 hy
  obtain ⟨b3, m3, hy⟩ := exc_bind_ok.1 hy
  obtain ⟨u, h3, hy⟩ := exc_bind_ok.1 hy
  cases hy
  obtain ⟨x, g1, g2⟩ := opt_val (f := fun j => parseHwids j.elems) m1 hh1 rfl
  exact ⟨⟨⟨c, x, e, es, hc, g1, by simpa using g2, he, hes, rfl⟩, ⟨l, i, hl, hi, rfl⟩, ⟨hs, r, hhs, hr, rfl⟩⟩, rfl⟩

theorem foldl_insertEcu_ne : ∀ (l m : List (String × String)), m ≠ [] → l.foldl (fun m e => insertEcu e m) m ≠ []
  | [], m, h => h
  | e :: l, m, h => by
    refine foldl_insertEcu_ne l _ ?_
    cases m with
    | nil => exact absurd rfl h
    | cons a m =>
      simp only [insertEcu]
      split
      · simp
      · split <;> simp

theorem parseEcus_nil {l : List (String × Json)} {es : List (String × String)} (h : parseEcus l = .ok es) (he : es = []) : l = [] := by
  cases l with
  | nil => rfl
  | cons a l =>
    obtain ⟨k, j⟩ := a
    unfold parseEcus at h
    obtain ⟨_, _, h⟩ := exc_bind_ok.1 h
    obtain ⟨_, _, h⟩ := exc_bind_ok.1 h
    obtain ⟨_, _, h⟩ := exc_bind_ok.1 h
    obtain ⟨_, _, h⟩ := exc_bind_ok.1 h
    obtain ⟨_, _, h⟩ := exc_bind_ok.1 h
    cases h
    cases he

theorem mkEcuSerial_val {s e : String} (h : mkEcuSerial s = .ok e) : e = s := by
  unfold mkEcuSerial at h
  split at h
  · cases h
  · split at h
    · cases h
    · cases h; rfl

theorem mkHwId_val {s e : String} (h : mkHwId s = .ok e) : e = s := by
  unfold mkHwId at h
  split at h
  · cases h
  · cases h; rfl

end Gen

/-- **C70** The entry the generator makes for the Director, from an entry of the Image repository that
names no ECUs, is for the one ECU given; it matches the entry it was made from if the hardware id is
one of those listed there. -/
theorem C70_director_entry {name : String} {entry made : Json} {m : Target} {hw serial url : String} (hm : Target.ofJson name entry = .ok m)
    (hsame : SameContent m m) (hecus : m.ecus = []) (hhw : hw ∈ m.hwids) (h1 : 1 ≤ serial.utf8ByteSize) (h2 : serial.utf8ByteSize ≤ 64) (h3 : hw.utf8ByteSize ≤ 200)
    (hc : Canonical entry) (h : directorTarget entry hw serial url = .ok made) :
    ∃ x, Target.ofJson name made = .ok x ∧ x.ecus = [(serial, hw)] ∧ x.hwids = [] ∧ SameContent m x ∧ SameAssignment m x := by
  obtain ⟨x, hx⟩ := (ofJson_iff (name := name)).2 (directorTarget_ok (ofJson_iff.1 ⟨m, hm⟩) hc (serial_ok h1 h2) (hwid_ok h3) h).1
  obtain ⟨⟨⟨c, hj, e, es, c1, c2, c3, c4, c5, c6⟩, ⟨l, i, l1, l2, l3⟩, ⟨hs, r, s1, s2, s3⟩⟩, hn⟩ := readsEntry hm
  obtain ⟨⟨⟨c', hj', e', es', c1', c2', c3', c4', c5', c6'⟩, ⟨l', i', l1', l2', l3'⟩, ⟨hs', r', s1', s2', s3'⟩⟩, hn'⟩ := readsEntry hx
  unfold directorTarget at h
  obtain ⟨d, k1, h⟩ := exc_bind_ok.1 h
  obtain ⟨d1, k2, h⟩ := exc_bind_ok.1 h
  obtain ⟨d2, k3, h⟩ := exc_bind_ok.1 h
  obtain ⟨d3, k4, h⟩ := exc_bind_ok.1 h
  obtain ⟨w1, w2, -, -⟩ := setKey_ok h
  rw [c1] at k1
  cases k1
  rw [w1] at c1'
  cases c1'
  have g4 : ∀ k, k ≠ "uri" → c'.get k = d2.get k := by
    intro k hk
    split at k4
    · exact (removeMember_ok k4).2.1 k hk
    · exact (setKey_ok k4).2.1 k hk
  rw [g4 _ (by decide), setPath_other k3 (by decide), (removeMember_ok k2).2.2] at c2'
  cases c2'
  have hx0 : x.hwids = [] := by
    have c3' : (.ok [] : Except Err (List String)) = .ok x.hwids := c3'
    injection c3' with c3'
    exact c3'.symm
  obtain ⟨y, y', p1, p2, p3⟩ := setPath_cons k3
  rw [(removeMember_ok k2).2.1 _ (by decide), c4] at p1
  cases p1
  have hes : es = [] := by
    cases es with
    | nil => rfl
    | cons a es =>
      exfalso
      rw [hecus] at c6
      exact foldl_insertEcu_ne es _ (by simp [insertEcu]) c6.symm
  have hent := parseEcus_nil c5 hes
  obtain ⟨z, z', q1, q2, q3⟩ := setPath_cons p2
  have hz : y' = .obj [(serial, .obj [("hardwareId", .str hw)])] := by
    cases e <;> first | (cases q1; done) | skip
    · cases q1
      cases q2
      cases q3
      rfl
    · rename_i kvs
      have hk : kvs = [] := hent
      subst hk
      cases q1
      cases q2
      cases q3
      rfl
  rw [g4 _ (by decide), (setKey_ok p3).1, hz] at c4'
  cases c4'
  have hxe : x.ecus = [(serial, hw)] := by
    obtain ⟨ser, hser⟩ := serial_ok h1 h2
    obtain ⟨hh, hhh⟩ := hwid_ok h3
    have e1 := mkEcuSerial_val hser
    have e2 := mkHwId_val hhh
    subst e1 e2
    have : parseEcus [(ser, Json.obj [("hardwareId", .str hh)])] = .ok [(ser, hh)] :=
      exc_bind_ok.2 ⟨_, hser, exc_bind_ok.2 ⟨_, rfl, exc_bind_ok.2 ⟨_, rfl, exc_bind_ok.2 ⟨_, hhh, exc_bind_ok.2 ⟨[], rfl, rfl⟩⟩⟩⟩⟩
    have c5' : parseEcus [(ser, Json.obj [("hardwareId", .str hh)])] = .ok es' := c5'
    rw [this] at c5'
    cases c5'
    exact c6'
  have hlen : m.length = x.length := by
    rw [w2 _ (by decide), l1] at l1'
    cases l1'
    rw [l2] at l2'
    cases l2'
    rw [l3, l3']
  have hhash : m.hashes = x.hashes := by
    rw [w2 _ (by decide), s1] at s1'
    cases s1'
    rw [s2] at s2'
    cases s2'
    rw [s3, s3']
  refine ⟨x, hx, hxe, hx0, ⟨hn.trans hn'.symm, hlen, ?_, ?_⟩, .inr (.inr ⟨hx0, by rw [hxe]; simp, hecus, List.ne_nil_of_mem hhw, ?_⟩)⟩
  · rw [← hhash]; exact hsame.2.2.1
  · rw [← hhash]; exact hsame.2.2.2
  · intro ecu hw' hmem
    rw [hxe] at hmem
    simp at hmem
    rw [hmem.2]
    exact hhw

end Aktualizr
