import Verif.Spec.GenTree
import Verif.Lemmas.GenLinked
import Verif.Props.C70

/-!
# C70 What the repository generator publishes is accepted by devices: images of delegated roles
-/

namespace Aktualizr

open Spec

namespace Spec

open Gen

/-- What a device holds of delegated roles was published at some point. -/
def HoldsRoles (g : GenEnv) (r0 : Repos) (cs : List Cmd) (db : MetaDb) : Prop :=
  ∀ name raw, Role.isReserved (lower name) = false → db.loadDelegation name = some raw → WasPublished g r0 cs .image (.delegation name) raw

end Spec

namespace Gen

theorem generate_linked {g : GenEnv} {U : PublicKey → Prop} (hg : Sound g) {r : Repos} {kd ki : NewKeys} {expires later cor : String} (hi : ki.Ok g) (hl : IsTime later)
    (h : generate g kd ki expires later cor = .ok r) : Linked g U r.image := by
  unfold generate at h
  obtain ⟨e, h1, h⟩ := exc_bind_ok.1 h
  obtain ⟨d, h2, h⟩ := exc_bind_ok.1 h
  obtain ⟨i, h3, h⟩ := exc_bind_ok.1 h
  cases h
  exact (generateRepo_linked hg hi (expirationTime_ok hl h1) h3).1

theorem Under.snoc {g : GenEnv} {d : Dir} {p q role : Role} (h : Under g d p q) (hl : Lists g d q role) : Under g d p role := by
  induction h with
  | refl p => exact .step hl (.refl _)
  | step h1 _ ih => exact .step h1 (ih hl)

/-- `cur` is what the file of the role says. -/
structure AtRole (g : GenEnv) (U : PublicKey → Prop) (d : Dir) (p : Role) (cur : Targets) : Prop where
  reads : ∃ j, d.signed g (pathOf p) = .ok j ∧ ReadRole g U d.keys j cur
  under : Under g d Role.targets p

/-- What is known of the Image repository when a device looks at it. -/
structure TreeOk (c : Ctx) (g : GenEnv) (U : PublicKey → Prop) (d : Dir) (stored : List (String × String)) (rawS : String) : Prop where
  sound : Sound g
  env : c.env = g.env
  fine : Fine g d
  linked : Linked g U d
  limits : WithinLimits c g .image d
  offers : PublishesRoles c g d
  behind : ∀ name old, Role.isReserved (lower name) = false → stored.lookup name = some old → Behind g (.delegation name) d old
  snap : d.files.lookup .snapshot = some rawS

theorem notTop {name : String} (h : Role.isReserved (lower name) = false) : name ∉ topRoles := by
  intro hm
  have : name = "root" ∨ name = "snapshot" ∨ name = "targets" ∨ name = "timestamp" := by
    simp [topRoles] at hm
    rcases hm with h | h | h | h <;> simp [h]
  rcases this with rfl | rfl | rfl | rfl <;> exact absurd h (by decide)

theorem pathOf_delegation (name : String) : pathOf ⟨.delegation, name⟩ = .delegation name := rfl

/-- A role delegated by a role in force is genuine. -/
theorem TreeOk.role {c : Ctx} {g : GenEnv} {U : PublicKey → Prop} {d : Dir} {stored : List (String × String)} {rawS : String} (h : TreeOk c g U d stored rawS)
    {p : Role} {cur : Targets} (hp : AtRole g U d p cur) {name : String} (hn : name ∈ cur.delegatedRoleNames) :
    Role.isReserved (lower name) = false ∧ ∃ raw r b, d.files.lookup (.delegation name) = some raw ∧ ReadsAsTargets c.env raw r ∧ cur.terminatingRole.lookup name = some b ∧
      HonestRole c stored rawS cur name raw r b ∧ AtRole g U d ⟨.delegation, name⟩ r := by
  obtain ⟨j, hj, hr⟩ := hp.reads
  obtain ⟨kp, k1, k2, k3, -, -, b, k6⟩ := hr.knows name hn
  obtain ⟨raw, hraw⟩ := h.fine.keyed name kp k1 (notTop k3) (by simp)
  obtain ⟨-, j', v, e, w1, w2⟩ := h.fine.base.delegated name raw hraw
  have hj' := Dir.signed_of h.sound hraw w1
  have hv := h.limits.versions _ _ _ hj' w2.version
  obtain ⟨r, x1, x2, x3, -⟩ := targets_read h.sound w1 w2 hv
  have hlists : Lists g d p ⟨.delegation, name⟩ := by
    obtain ⟨dl, rs, ri, a1, a2, a3, a4⟩ := hr.named name hn
    refine ⟨j, dl, rs, ri, _, name, hj, a1, a2, a3, a4, rfl, ?_⟩
    unfold Role.delegation
    rw [if_neg (by rw [k3]; decide)]
  have hunder := hp.under.snoc hlists
  obtain ⟨g1, g2, g3, g4⟩ := role_genuine h.sound h.fine.base.good hr hn w1 w2
  refine ⟨k3, raw, r, b, hraw, by rw [h.env]; exact x1, k6, ?_, ⟨j', hj', role_read h.sound w1 w2 (fun dl hdl => h.linked _ (.inr ⟨name, rfl⟩) j' dl hj' hdl) x1⟩, hunder⟩
  obtain ⟨textS, m, vs, es, _, _, _, s1, s2, s3, s4, -⟩ := h.fine.synced
  rw [h.snap] at s1
  cases s1
  exact {
    served := ⟨fun n => (h.offers.net n name k3).trans hraw, by have := h.offers.size name raw hraw; omega⟩
    signed := by rw [h.env]; exact g1
    type := by rw [h.env]; exact g2
    format := by rw [h.env]; exact g3
    nonempty := g4
    reads := by rw [h.env]; exact x1
    version := by rw [h.env, x2]; exact states h.sound w1 w2.version w2.range.1 hv
    listed := by rw [h.env, x2]; exact snapshot_lists_role h.sound s2 s3 (s4 _ hunder) k3 hj' w2.version w2.range.1 hv
    fresh := by rw [x3]; exact h.offers.fresh name j' e hj' w2.expires
    kind := k6
    newer := by
      intro old ho
      rw [h.env, x2]
      rcases h.behind name old k3 ho with hb | ⟨hne, v0, v', j0, a1, a2, a3, ⟨j2, b1, b2, -⟩, hlt⟩
      · rw [hraw] at hb
        cases hb
        exact .inl rfl
      · rw [hj'] at b1
        cases b1
        rw [w2.version] at b2
        cases b2
        exact .inr ⟨hne, v0, ⟨j0, _, a1, a2, rfl, asInt_of a3 (by omega)⟩, hlt⟩ }

theorem TreeOk.honest {c : Ctx} {g : GenEnv} {U : PublicKey → Prop} {d : Dir} {stored : List (String × String)} {rawS : String} (h : TreeOk c g U d stored rawS)
    {q : Target} : ∀ (n : Nat) {p : Role} {cur : Targets} {b : Bool} {k : Nat}, AtRole g U d p cur → Below c.env d n cur k → HonestTree c stored rawS q n cur b k
  | 0, _, _, _, _, _, _ => trivial
  | n + 1, p, cur, b, k, hp, hk => by
    obtain ⟨ks, hsum, hks⟩ := hk
    refine .inr (.inr ⟨ks, hsum, fun name hn => ?_⟩)
    obtain ⟨hres, raw, r, b', h1, h2, h3, h4, h5⟩ := h.role hp hn
    exact ⟨hres, fun _ => ⟨raw, r, b', h4, TreeOk.honest h n h5 (hks name hn raw r h1 h2)⟩⟩

theorem TreeOk.listed {c : Ctx} {g : GenEnv} {U : PublicKey → Prop} {d : Dir} {stored : List (String × String)} {rawS : String} (h : TreeOk c g U d stored rawS)
    {q m : Target} : ∀ (n : Nat) {p : Role} {cur : Targets} {b : Bool}, AtRole g U d p cur →
    (PublishedUnder c.env d q m n cur b ↔ ListedUnder c stored rawS q m n cur b)
  | 0, _, _, _, _ => Iff.rfl
  | n + 1, p, cur, b, hp => by
    constructor
    · rintro (hl | ⟨h1, h2, name, hn, hf, raw, r, b', k1, k2, k3, k4⟩)
      · exact .inl hl
      · obtain ⟨-, raw', r', b'', a1, a2, a3, a4, a5⟩ := h.role hp hn
        rw [k1] at a1
        cases a1
        rw [k3] at a3
        cases a3
        have := readsAsTargets_unique k2 a2
        subst this
        exact .inr ⟨h1, h2, name, hn, hf, raw, r, b', a4, (TreeOk.listed h n a5).1 k4⟩
    · rintro (hl | ⟨h1, h2, name, hn, hf, raw, r, b', k1, k4⟩)
      · exact .inl hl
      · obtain ⟨hres, raw', r', b'', a1, a2, a3, a4, a5⟩ := h.role hp hn
        have hraw : raw' = raw := served_unique a4.served k1.served
        subst hraw
        have := readsAsTargets_unique k1.reads a2
        subst this
        exact .inr ⟨h1, h2, name, hn, hf, raw', r, b', a1, k1.reads, k1.kind, (TreeOk.listed h n a5).2 k4⟩

theorem nonempty_role {g : GenEnv} (hg : Sound g) {d : Dir} (hd : Fine g d) {name text : String} (h : d.files.lookup (.delegation name) = some text) : text ≠ "" := by
  obtain ⟨-, _, _, _, ⟨-, _, _, _, -, -, rfl⟩, -⟩ := hd.base.delegated name text h
  exact hg.nonempty _

end Gen

open Gen

/-- **C70** However the delegations are, there are only so many. -/
theorem C70_below (env : Env) (d : Gen.Dir) : ∀ (n : Nat) (cur : Targets), ∃ k, Below env d n cur k
  | 0, _ => ⟨0, trivial⟩
  | n + 1, cur => by
    have hk : ∀ name, ∃ k, ∀ raw r, d.files.lookup (.delegation name) = some raw → ReadsAsTargets env raw r → Below env d n r k := by
      intro name
      by_cases h : ∃ raw r, d.files.lookup (.delegation name) = some raw ∧ ReadsAsTargets env raw r
      · obtain ⟨raw, r, h1, h2⟩ := h
        obtain ⟨k, hk⟩ := C70_below env d n r
        refine ⟨k, fun raw' r' h1' h2' => ?_⟩
        rw [h1] at h1'
        cases h1'
        rw [readsAsTargets_unique h2' h2]
        exact hk
      · exact ⟨0, fun raw r h1 h2 => absurd ⟨raw, r, h1, h2⟩ h⟩
    exact ⟨_, fun name => (hk name).choose, Nat.le_refl _, fun name _ => (hk name).choose_spec⟩

/-- **C70** Images of delegated roles: the device of `C70_accepted_partial` also accepts delegated roles, at
most five deep, and is offered the images listed there, provided no delegation was ever revoked, no role is
called `invalidrole`, and the keys of delegated roles have different identifiers. -/
theorem C70_delegated_partial {g : GenEnv} {c : Ctx} {cl : Client} {kd ki : NewKeys} {expires later cor : String} {r0 r : Repos} {cs : List Cmd} {dRaw iRaw : String} {ts its : Targets}
    {U : PublicKey → Prop} {k : Nat}
    (hg : Sound g) (hce : c.env = g.env) (hkd : kd.Ok g) (hki : ki.Ok g) (hlater : IsTime later) (hgen : generate g kd ki expires later cor = .ok r0)
    (hsens : ∀ x ∈ cs, x.Sensible g) (hrun : runAll g r0 cs = .ok r)
    (hlast : ∀ x ∈ cs, x.Lasting) (hU : ∀ a b, U a → U b → g.keyId a = g.keyId b → a = b) (hkeys : ∀ x ∈ cs, ∀ a, x.key = some a → U a)
    (hpd : Publishes c .director r.director) (hpi : Publishes c .image r.image) (hpr : PublishesRoles c g r.image)
    (hld : WithinLimits c g .director r.director) (hli : WithinLimits c g .image r.image)
    (hh : HoldsPublished g r0 cs cl.w.db) (hhr : HoldsRoles g r0 cs cl.w.db)
    (horder : Orderly false cs = true ∨ ∀ raw, ¬ Stored cl.w.db .director .targets raw)
    (hapart : ∀ old rawS, Stored cl.w.db .image .snapshot old → r.image.files.lookup .snapshot = some rawS → old ≠ rawS →
      ∀ alg, upper (digest g.env alg old) ≠ upper (digest g.env alg rawS))
    (hdraw : r.director.files.lookup .targets = some dRaw) (hts : ReadsAsTargets c.env dRaw ts)
    (hiraw : r.image.files.lookup .targets = some iRaw) (hits : ReadsAsTargets c.env iRaw its)
    (honce : EcusOnce ts) (hfit : ∀ t ∈ ts.targets, FitsDevice c.env cl t) (hsome : ∃ t ∈ ts.targets, Outdated c.env cl t)
    (hlist : ∀ t ∈ ts.targets, Outdated c.env cl t → ∃ m, PublishedUnder c.env r.image t m 5 its false)
    (hk : Below c.env r.image 5 its k) (hf : 4002 + 2 * k * ts.targets.length ≤ cl.w.fuel) :
    ∃ res cl', checkUpdates c cl = (.ok res, cl') ∧ res.status = .available ∧ res.targetsMeta = c.env.parseJson dRaw ∧
      (∀ u ∈ res.updates, ∃ d m, d ∈ ts.targets ∧ Outdated c.env cl d ∧ PublishedUnder c.env r.image d m 5 its false ∧ Offers d m u) ∧
      (∀ d ∈ ts.targets, Outdated c.env cl d → ∃ u m, u ∈ res.updates ∧ PublishedUnder c.env r.image d m 5 its false ∧ Offers d m u) ∧
      HoldsPublished g r0 cs cl'.w.db ∧ HoldsRoles g r0 cs cl'.w.db := by
  have hs0 := generate_ok hg hkd hki hlater hgen
  have hs := (runAll_ok hg cs hs0 hsens hrun).sane
  have hne : ts.targets ≠ [] := by
    obtain ⟨t, ht, -⟩ := hsome
    exact List.ne_nil_of_mem ht
  obtain ⟨dFirst, dRaws, dLast, dTop, hd, d1, d2, d3⟩ := honest_director hg hce hs.director hs.plain hld hpd (holdsRoot_of hg hs0 hsens hrun hh.dRoot)
    (fun old ho => by
      rcases horder with h | h
      · exact behind_of hg (by simp) hs0 hsens hrun (fun _ _ => h) (hh.dTargets old ho)
      · exact absurd ho (h old)) hdraw hts hne honce
  obtain ⟨iFirst, iRaws, iLast, rawT, rawS, tm, sn, iTop, hi, i1, i2, i3, i4, i5⟩ := honest_image hg hce hs.image hli hpi (holdsRoot_of hg hs0 hsens hrun hh.iRoot)
    (fun old ho => behind_of hg (by simp) hs0 hsens hrun (fun h => by cases h) (hh.iTimestamp old ho))
    (fun old rawS ho hS => by
      by_cases he : old = rawS
      · exact .inl he
      · obtain ⟨a, b, m, rfl, hm, hl⟩ := hh.iSnapshot old ho
        obtain ⟨s1, -, -⟩ := between hg hs0 hsens hrun hm
        exact .inr ⟨nonempty_of hg s1.image (by simp) hl, hapart old rawS ho hS he⟩)
    (fun old ho => behind_of hg (by simp) hs0 hsens hrun (fun h => by cases h) (hh.iTargets old ho)) hiraw hits
  have hlink0 := generate_linked (U := U) hg hki hlater hgen
  have hlink : Linked g U r.image := (runAll_kept hU hg cs hs0 hsens hlast hkeys hrun).linked hlink0
  have htree : TreeOk c g U r.image cl.w.db.delegations rawS := {
    sound := hg
    env := hce
    fine := hs.image
    linked := hlink
    limits := hli
    offers := hpr
    behind := by
      intro name old hres ho
      obtain ⟨a, b, m, rfl, hm, hl⟩ := hhr name old hres ho
      obtain ⟨m', h1, h2⟩ := runAll_append a hrun
      cases runAll_unique h1 hm
      obtain ⟨s1, -, -⟩ := between hg hs0 hsens hrun hm
      have hkept := runAll_kept hU hg b s1 (fun x hx => hsens x (List.mem_append_right _ hx)) (fun x hx => hlast x (List.mem_append_right _ hx))
        (fun x hx => hkeys x (List.mem_append_right _ hx)) h2
      exact Behind.of_later (hkept.later name old hl) hl (nonempty_role hg s1.image hl)
    snap := i4 }
  have htop : AtRole g U r.image Role.targets its := by
    obtain ⟨text, j, v, e, t1, t2, t3⟩ := hs.image.base.targets
    rw [hiraw] at t1
    cases t1
    have hj := Dir.signed_of hg hiraw t2
    exact ⟨⟨j, hj, role_read hg t2 t3 (fun dl hdl => hlink _ (.inl rfl) j dl hj hdl) (by rw [← hce]; exact hits)⟩, .refl _⟩
  obtain ⟨res, cl', h1, h2, h3, h4, h5, -, h6, h7⟩ := checkUpdates_roles (k := k) hd hi hfit hsome
    (fun t ht ho => let ⟨m, hm⟩ := hlist t ht ho; ⟨htree.honest 5 htop hk, m, (htree.listed 5 htop).1 hm⟩) (by omega)
  refine ⟨res, cl', h1, h2, h3, fun u hu => ?_, fun d hd' ho => ?_, ?_, ?_⟩
  · obtain ⟨d, m, a1, a2, a3, a4, -⟩ := h4 u hu
    exact ⟨d, m, a1, a2, (htree.listed 5 htop).2 a3, a4⟩
  · obtain ⟨u, m, a1, a2, a3⟩ := h5 d hd' ho
    exact ⟨u, m, a1, (htree.listed 5 htop).2 a2, a3⟩
  · exact {
      dRoot := root_published hrun (repo := .director) (d2 ▸ h6.dNewest) d1
      dTargets := fun raw hr => by rw [stored_unique hr h6.dStored]; exact now_published hrun (repo := .director) hdraw
      iRoot := root_published hrun (repo := .image) (i2 ▸ h6.iNewest) i1
      iTimestamp := fun raw hr => by rw [stored_unique hr h6.iStoredT]; exact now_published hrun (repo := .image) i3
      iSnapshot := fun raw hr => by rw [stored_unique hr h6.iStoredS]; exact now_published hrun (repo := .image) i4
      iTargets := fun raw hr => by rw [stored_unique hr h6.iStored]; exact now_published hrun (repo := .image) hiraw }
  · intro name raw hres hraw
    rcases h7 name with hx | ⟨raw', hx, hy⟩
    · exact hhr name raw hres (by rw [← hraw, hx]; rfl)
    · rw [hy] at hraw
      cases hraw
      exact now_published hrun (repo := .image) ((hpr.net 0 name hres).symm.trans (hx.answer 0))

end Aktualizr
