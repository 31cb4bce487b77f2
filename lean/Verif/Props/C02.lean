import Verif.Lemmas.Frame
import Verif.Lemmas.UpdateRoot
import Verif.Spec.ToyRepo

/-!
# C02, C03, C04 — the root of trust
-/

namespace Aktualizr

open Spec M

theorem rootsEvolve_closed (env : Env) (repo : Repo) :
    Closed env (fun d d' => RootsEvolve env repo (rootRows repo d) (rootRows repo d')) where
  pre := ⟨fun _ => rootsEvolve_refl _ _ _, fun _ _ _ h1 h2 => h1.trans h2⟩
  root := by
    intro c hc repo'
    by_cases h : repo' = repo
    · subst h
      subst hc
      intro w
      exact updateRoot_evolve (c := c) (o := (updateRoot c repo' w).1) rfl
    · apply updateRoot_pres ⟨fun _ => rootsEvolve_refl _ _ _, fun _ _ _ h1 h2 => h1.trans h2⟩
      · intro d raw v
        have e : rootRows repo (d.storeRoot raw repo' v) = rootRows repo d :=
          MetaDb.only_storeRoot_other d raw v (by intro h2; exact h h2.1.symm)
        rw [e]; exact rootsEvolve_refl _ _ _
      · intro d
        have e : rootRows repo (d.clearNonRoot repo') = rootRows repo d := MetaDb.only_clearNonRoot_root _ _ _
        rw [e]; exact rootsEvolve_refl _ _ _
  directorTargets := by
    intro d raw
    have e : rootRows repo (d.storeNonRoot raw .director .targets) = rootRows repo d :=
      MetaDb.only_storeNonRoot_other _ _ (by simp)
    rw [e]; exact rootsEvolve_refl _ _ _
  image := by
    intro d raw t ht
    have e : rootRows repo (d.storeNonRoot raw .image t) = rootRows repo d :=
      MetaDb.only_storeNonRoot_other _ _ (fun h => ht h.2.symm)
    rw [e]; exact rootsEvolve_refl _ _ _
  drop := by
    intro d
    have e : rootRows repo (d.clearNonRoot .director) = rootRows repo d := MetaDb.only_clearNonRoot_root _ _ _
    rw [e]; exact rootsEvolve_refl _ _ _
  storeDelegation := fun _ _ _ => rootsEvolve_refl _ _ _
  deleteDelegation := fun _ _ => rootsEvolve_refl _ _ _

/-- C02. Over any history of calls (any servers, clocks, crash points, restarts), the Roots
stored for a repository change only along one chain `raws` that starts at the Root that was
newest at the beginning: each element has exactly the next version and is signed to threshold
by its predecessor's keys and by its own (`RootChain`), is filed under its own version, and
the newest stored Root is always the end of that chain. -/
theorem C02_chain (env : Env) (repo : Repo) (w : World) (es : List Event) (row : MetaRow)
    (hrow : NewestRoot (rootRows repo w.db) row) (hfiled : FiledSanely env row) :
    ∃ raws row', RootChain env row.data raws ∧
      NewestRoot (rootRows repo (runHistory env w es).db) row' ∧ row'.data = lastOf row.data raws ∧
      ∀ x ∈ rootRows repo (runHistory env w es).db,
        x ∈ rootRows repo w.db ∨ (x.data ∈ raws ∧ ∃ r, ReadsAsRoot env x.data r ∧ x.version = r.base.version) := by
  obtain ⟨raws, row', h1, h2, h3, _, _, _, h4, _⟩ := ((rootsEvolve_closed env repo).history w es).1 row hrow hfiled
  exact ⟨raws, row', h1, h2, h3, h4⟩

/-- C02 for a device that starts without any Root: the first Root it ever stores is signed by
its own keys, and (if its version number is not negative) everything after it is one chain
from there. -/
theorem C02_first (env : Env) (repo : Repo) (w : World) (es : List Event) (hnone : rootRows repo w.db = []) :
    rootRows repo (runHistory env w es).db = [] ∨
    ∃ first, SelfSigned env first ∧
      ((∀ r, ReadsAsRoot env first r → 0 ≤ r.base.version) →
        ∃ raws row', RootChain env first raws ∧
          NewestRoot (rootRows repo (runHistory env w es).db) row' ∧ row'.data = lastOf first raws ∧
          ∀ x ∈ rootRows repo (runHistory env w es).db, x.data = first ∨ x.data ∈ raws) := by
  rcases ((rootsEvolve_closed env repo).history w es).2 hnone with h | ⟨raw, hs, hg⟩
  · exact .inl h
  · refine .inr ⟨raw, hs, fun hv => ?_⟩
    obtain ⟨raws, row', h1, h2, h3, _, _, _, h4, _⟩ := hg ⟨repo, .root, 1, raw⟩ rfl (by
      intro r hr
      have := hv r hr
      show (1 : Int) ≤ _
      omega)
    refine ⟨raws, row', h1, h2, h3, fun x hx => ?_⟩
    rcases h4 x hx with h | h
    · simp at h; exact .inl (by rw [h])
    · exact .inr h.1

/-- C03. The version of the newest stored Root never decreases. -/
theorem C03_newest_version_monotone (env : Env) (repo : Repo) (w : World) (es : List Event) (row : MetaRow)
    (hrow : NewestRoot (rootRows repo w.db) row) (hfiled : FiledSanely env row) :
    ∃ row', NewestRoot (rootRows repo (runHistory env w es).db) row' ∧ row.version ≤ row'.version := by
  obtain ⟨raws, row', _, h2, _, _, h5, _, _, _⟩ := ((rootsEvolve_closed env repo).history w es).1 row hrow hfiled
  exact ⟨row', h2, h5⟩

/-- C03. No stored Root is ever removed or overwritten, as long as the newest stored Root is
not filed above its own version. -/
theorem C03_stored_roots_kept (env : Env) (repo : Repo) (w : World) (es : List Event) (row : MetaRow) (r : Root)
    (hrow : NewestRoot (rootRows repo w.db) row) (hreads : ReadsAsRoot env row.data r) (hfiled : row.version ≤ r.base.version) :
    ∀ x ∈ rootRows repo w.db, x ∈ rootRows repo (runHistory env w es).db := by
  intro x hx
  have hf : FiledSanely env row := by
    intro r' hr'
    have : r' = r := by
      have := hr'.symm.trans hreads
      simpa using this
    subst this
    omega
  obtain ⟨raws, row', h1, h2, _, _, h5, _, h6, h7⟩ := ((rootsEvolve_closed env repo).history w es).1 row hrow hf
  rcases h7 x hx with h | ⟨y, hy, hyv, hyd, ry, hry, hyv2⟩
  · exact h
  · have hxv := (MetaDb.latest_some hrow).2 x hx
    have := h1.version_gt hreads hyd hry
    omega

/-- C03 for a device that starts without any Root: once a first Root (with a positive version
number) is stored, it stays, and so does every later one: the stored Roots only grow. -/
theorem C03_from_empty (env : Env) (repo : Repo) (w : World) (es es' : List Event) (row : MetaRow) (r : Root)
    (hrow : NewestRoot (rootRows repo (runHistory env w es).db) row)
    (hreads : ReadsAsRoot env row.data r) (hfiled : row.version ≤ r.base.version) :
    ∀ x ∈ rootRows repo (runHistory env w es).db, x ∈ rootRows repo (runHistory env w (es ++ es')).db := by
  have e : runHistory env w (es ++ es') = runHistory env (runHistory env w es) es' := by
    simp [runHistory, List.foldl_append]
  rw [e]
  exact C03_stored_roots_kept env repo _ es' row r hrow hreads hfiled

/-- The Root documents an update attempt for `repo` can start from: the newest stored one, or
whatever the server sends as version 1. -/
def StartingRoot (c : Ctx) (repo : Repo) (db : MetaDb) (raw : String) : Prop :=
  (∃ row, NewestRoot (rootRows repo db) row ∧ row.data = raw) ∨
  (rootRows repo db = [] ∧ ∃ t, c.net t repo "root" 1 = some raw)

theorem loadOrFetchRoot_starting {c : Ctx} {repo : Repo} {w w1 : World}
    (h : loadOrFetchRoot c repo w = (.ok (), w1)) :
    ∃ raw, StartingRoot c repo w.db raw ∧ ReadsAsRoot c.env raw (getRoot repo w1) := by
  unfold loadOrFetchRoot at h
  simp only [M.bind_ok] at h
  obtain ⟨ans, w2, h1, h2⟩ := h
  cases ans with
  | some raw =>
    obtain ⟨rfl, _, row, hrow, rfl⟩ := loadLatestRoot_some h1
    obtain ⟨r, hr, _, rfl⟩ := (initRoot_cases h2).2 rfl
    exact ⟨row.data, .inl ⟨row, hrow, rfl⟩, by rw [getRoot_setRoot]; exact hr⟩
  | none =>
    obtain ⟨rfl, hnone⟩ := loadLatestRoot_none h1
    simp only [M.bind_ok] at h2
    obtain ⟨raw, w3, h3, _, w4, h4, h5⟩ := h2
    obtain ⟨r, hr, _, rfl⟩ := (initRoot_cases h4).2 rfl
    have hroot : getRoot repo w1 = r := by
      rcases write_cases h5 with ⟨_, _, hd, hi⟩ | ⟨h5, _⟩
      · cases repo
        · show w1.img.root = r; rw [hi]; rfl
        · show w1.dir.root = r; rw [hd]; rfl
      · simp at h5
    refine ⟨raw, .inr ⟨MetaDb.latest_none.1 hnone, w2.tick, ?_⟩, by rw [hroot]; exact hr⟩
    simp only [fetchRole] at h3
    split at h3
    · rename_i b hb
      split at h3
      · simp at h3; rw [← h3.1]; exact hb
      · simp at h3
    · simp at h3

/-- C04, bound. One update attempt interacts with the outside at most 1000 times for Root
metadata — at most 999 fetches and one look at the clock — when the Root it starts from has a
positive version number, whatever the server serves. -/
theorem C04_bounded (c : Ctx) (repo : Repo) (w w' : World) (o : Except Err Unit)
    (h : updateRoot c repo w = (o, w'))
    (hpos : ∀ raw r, StartingRoot c repo w.db raw → ReadsAsRoot c.env raw r → 1 ≤ r.base.version) :
    w'.tick ≤ w.tick + 1000 := by
  unfold updateRoot at h
  rcases bind_cases h with ⟨_, w1, h1, h⟩ | ⟨e, h1, rfl⟩
  · obtain ⟨_, _, ht⟩ := loadOrFetchRoot_spec h1
    obtain ⟨raw, hs, hr⟩ := loadOrFetchRoot_starting h1
    have := hpos raw _ hs hr
    have hl := rotate_tick h
    simp only [kMaxRotations] at hl
    omega
  · obtain ⟨_, _, ht⟩ := loadOrFetchRoot_spec h1
    omega

/-- C04, success. When an update attempt succeeds, the trusted Root is the newest stored one,
signed to threshold by its own keys, unexpired at the last clock reading, and rotation went on
until the server stopped answering for the next version (or version 1000 was reached). -/
theorem C04_success (c : Ctx) (repo : Repo) (w w' : World) (h : updateRoot c repo w = (.ok (), w'))
    (hfiled : ∀ row, NewestRoot (rootRows repo w.db) row → FiledSanely c.env row)
    (hfirst : ∀ raw r, StartingRoot c repo w.db raw → ReadsAsRoot c.env raw r → 0 ≤ r.base.version) :
    ∃ row, NewestRoot (rootRows repo w'.db) row ∧ ReadsAsRoot c.env row.data (getRoot repo w') ∧
      SignedToThreshold c.env (getRoot repo w').base "root" (c.env.parseJson row.data) ∧
      (getRoot repo w').base.expiry.isExpiredAt (c.clock (w'.tick - 1)) = false ∧
      RotationEnded c repo ((getRoot repo w').base.version + 1) w'.tick := by
  unfold updateRoot at h
  obtain ⟨_, w1, h1, h⟩ := M.bind_ok.1 h
  obtain ⟨hrows, hok, _⟩ := loadOrFetchRoot_spec h1
  obtain ⟨row, hn, hr, hss, hp⟩ := hok rfl
  have hf : FiledSanely c.env row := by
    rcases hrows with hrows | ⟨he, raw, _, hrows⟩
    · rw [hrows] at hn; exact hfiled row hn
    · rw [hrows] at hn
      simp [NewestRoot, MetaDb.latest] at hn
      subst hn
      intro r hr'
      obtain ⟨raw2, hs2, hr2⟩ := loadOrFetchRoot_starting h1
      have hv := hfirst raw2 _ hs2 hr2
      have e : r = getRoot repo w1 := by
        have := hr'.symm.trans hr
        simpa using this
      rw [e]
      show (1 : Int) ≤ _
      omega
  obtain ⟨_, _, k⟩ := rotate_spec h ⟨hn, hr, hf, hp, hss⟩
  obtain ⟨row', hs', _, _, hexp, hend⟩ := k rfl
  exact ⟨row', hs'.newest, hs'.reads, hs'.selfSigned, hexp, hend⟩

/-! ### Concrete cases -/

open Toy in
/-- Server with a chain of three Director Roots. -/
def chainServer : List ((Repo × String × Int) × String) :=
  [((.director, "root", 1), "dr1"), ((.director, "root", 2), "dr2"), ((.director, "root", 3), "dr3")]

/-- A real rotation happens: starting from stored Root 1, one (failing, for lack of Targets)
update stores Roots 2 and 3. -/
example : rootRows .director
    (runHistory Toy.E (boot { rows := [⟨.director, .root, 1, "dr1"⟩] }) [Toy.ev .updateDirector chainServer]).db =
    [⟨.director, .root, 3, "dr3"⟩, ⟨.director, .root, 2, "dr2"⟩, ⟨.director, .root, 1, "dr1"⟩] := by decide +kernel

/-- Killed between storing Root 2 and clearing the other metadata: the chain is intact. -/
example : rootRows .director
    (runHistory Toy.E (boot { rows := [⟨.director, .root, 1, "dr1"⟩] }) [Toy.ev .updateDirector chainServer 1]).db =
    [⟨.director, .root, 2, "dr2"⟩, ⟨.director, .root, 1, "dr1"⟩] := by decide +kernel

/-- A Root 2 not signed by the old key is not stored. -/
example : rootRows .director
    (runHistory Toy.E (boot { rows := [⟨.director, .root, 1, "dr1"⟩] })
      [Toy.ev .updateDirector [((.director, "root", 2), "drbad2")]]).db =
    [⟨.director, .root, 1, "dr1"⟩] := by decide +kernel

/-- The hypotheses of `C02_chain` and `C03_stored_roots_kept` hold for that stored Root. -/
example : NewestRoot (rootRows .director { rows := [⟨.director, .root, 1, "dr1"⟩] }) ⟨.director, .root, 1, "dr1"⟩ := by
  unfold NewestRoot; decide

theorem toy_dr1 : ∃ r, ReadsAsRoot Toy.E "dr1" r ∧ r.base.version = 1 := by
  have h : (match Root.ofJson Toy.E (Toy.E.parseJson "dr1") with
    | .ok r => decide (r.base.version = 1) | .error _ => false) = true := by decide +kernel
  split at h
  · rename_i r hr
    exact ⟨r, hr, by simpa using h⟩
  · simp at h

example : ∃ r, ReadsAsRoot Toy.E "dr1" r ∧ (1 : Int) ≤ r.base.version := by
  obtain ⟨r, h1, h2⟩ := toy_dr1
  exact ⟨r, h1, by omega⟩

/-- C04 is about attempts that do succeed. -/
example : (updateRoot { env := Toy.E, net := Toy.net chainServer, clock := Toy.clock "2026-01-01T00:00:00Z" } .director
    { db := {}, fuel := 10 }).1 = .ok () := by decide +kernel

/-- Why the hypotheses on version numbers are needed: a first Root that calls itself version
-5 is filed under version 1, so its successor (-4) is filed below it. The update succeeds with
Root -4 in use while the newest stored Root is still -5. -/
theorem C04_negative_version_counterexample :
    ∃ (c : Ctx) (w w' : World) (row : MetaRow) (r : Root), updateRoot c .director w = (.ok (), w') ∧
      NewestRoot (rootRows .director w'.db) row ∧ ReadsAsRoot c.env row.data r ∧
      r.base.version ≠ (getRoot .director w').base.version := by
  let c : Ctx := { env := Toy.E
                   net := Toy.net [((.director, "root", 1), "nr"), ((.director, "root", -4), "nr4")]
                   clock := Toy.clock "2026-01-01T00:00:00Z" }
  let w : World := { db := {}, fuel := 10 }
  have h1 : (updateRoot c .director w).1 = .ok () := by decide +kernel
  have h2 : rootRows .director (updateRoot c .director w).2.db =
      [⟨.director, .root, -4, "nr4"⟩, ⟨.director, .root, 1, "nr"⟩] := by decide +kernel
  have h3 : (getRoot .director (updateRoot c .director w).2).base.version = -4 := by decide +kernel
  have h4 : (match Root.ofJson Toy.E (Toy.E.parseJson "nr") with
    | .ok r => decide (r.base.version = -5) | .error _ => false) = true := by decide +kernel
  split at h4
  · rename_i r hr
    refine ⟨c, w, (updateRoot c .director w).2, ⟨.director, .root, 1, "nr"⟩, r, ?_, ?_, hr, ?_⟩
    · rw [← h1]
    · rw [h2]; unfold NewestRoot; decide
    · rw [h3]
      have : r.base.version = -5 := by simpa using h4
      omega
  · simp at h4

end Aktualizr
