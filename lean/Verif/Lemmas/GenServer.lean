import Verif.Lemmas.GenReads

/-! # Lemmas on the generator: a server that offers the files -/

namespace Aktualizr

open Spec

namespace Spec

/-- The server of `repo` offers the files of the directory. -/
structure Publishes (c : Ctx) (repo : Repo) (d : Gen.Dir) : Prop where
  roots : ∀ n v, 1 ≤ v → c.net n repo "root" v = d.files.lookup (.numbered v)
  timestamp : ∀ n, c.net n repo "timestamp" (-1) = d.files.lookup .timestamp
  snapshot : ∀ n, c.net n repo "snapshot" (-1) = d.files.lookup .snapshot
  targets : ∀ n, c.net n repo "targets" (-1) = d.files.lookup .targets

/-- The published files are within the limits of the client: fewer than 1000 Roots of at most 64 KiB,
versions below 2^31, and the four documents in force have not expired; sizes. -/
structure WithinLimits (c : Ctx) (g : Gen.GenEnv) (repo : Repo) (d : Gen.Dir) : Prop where
  roots : ∀ v text, d.files.lookup (.numbered v) = some text → v < 1000 ∧ (text.utf8ByteSize : Int) ≤ 64 * 1024
  versions : ∀ p j v, d.signed g p = .ok j → j.get "version" = .ok (.int v) → v ≤ 2147483647
  fresh : ∀ p ∈ [Gen.Path.root, .timestamp, .snapshot, .targets], ∀ j e, d.signed g p = .ok j → j.get "expires" = .ok (.str e) → Unexpired c ⟨e⟩
  timestamp : ∀ text, d.files.lookup .timestamp = some text → text.utf8ByteSize ≤ 64 * 1024
  snapshot : ∀ text, d.files.lookup .snapshot = some text → text.utf8ByteSize < 2 ^ 31
  targets : ∀ text, d.files.lookup .targets = some text → text.utf8ByteSize ≤ (match repo with | .director => 64 * 1024 | .image => 8 * 1024 * 1024)

end Spec

namespace Gen

theorem root_at {g : GenEnv} (hg : Sound g) {c : Ctx} {repo : Repo} {d : Dir} (hl : WithinLimits c g repo d) {tab : List (String × Json)} {top : Int} (hr : RootFiles g d tab top)
    {v : Int} (h1 : 1 ≤ v) (h2 : v ≤ top) : ∃ e text ks, d.files.lookup (.numbered v) = some text ∧ Wrote g d.keys "root" (rootWith g tab d.keys v e) text ∧ IsTime e ∧
      ReadsAsRoot g.env text (rootRead g d.keys ks v e) ∧ ∀ kid j, tab.lookup kid = some j → ks.lookup kid = some (PublicKey.ofJson g.env j) := by
  obtain ⟨e, text, a1, a2, a3⟩ := hr.all v h1 h2
  have := (hl.roots v text a1).1
  obtain ⟨ks, b1, b2⟩ := root_reads hg hr.table (by omega) (by omega) a3 a2
  exact ⟨e, text, ks, a1, a2, a3, b1, b2⟩

theorem root_genuine {g : GenEnv} (hg : Sound g) {d : Dir} (hb : Base g d) {tab : List (String × Json)} (ht : KeyTable g d.keys tab) {v w : Int} {e f text : String}
    {ks : List (String × PublicKey)} (hks : ∀ kid j, tab.lookup kid = some j → ks.lookup kid = some (PublicKey.ofJson g.env j))
    (hw : Wrote g d.keys "root" (rootWith g tab d.keys v e) text) : Genuine g.env (rootRead g d.keys ks w f) Role.root text :=
  genuine_of hg hb.good ht hks (by simp) (T := "Root") rfl (by decide) hw

theorem roots_offered {g : GenEnv} (hg : Sound g) {c : Ctx} (hce : c.env = g.env) {repo : Repo} {d : Dir} (hb : Base g d) (hl : WithinLimits c g repo d)
    (hp : Publishes c repo d) {tab : List (String × Json)} {top : Int} (hr : RootFiles g d tab top) : ∀ (n : Nat) (k : Int) (first : String), 1 ≤ k → k + n = top →
    d.files.lookup (.numbered k) = some first → ∃ raws : List String, raws.length = n ∧ RootsOffered c repo (k + 1) raws ∧ RootChain c.env first raws ∧
      d.files.lookup (.numbered top) = some (lastOf first raws)
  | 0, k, first, h1, h2, hf => by
    have hk : k = top := by omega
    subst hk
    refine ⟨[], rfl, fun n => ?_, trivial, hf⟩
    rw [hp.roots n _ (by omega)]
    exact hr.none _ (by omega)
  | n + 1, k, first, h1, h2, hf => by
    obtain ⟨e, text, ks, a1, a2, a3, a4, a5⟩ := root_at hg hl hr h1 (show k ≤ top by omega)
    obtain ⟨e', text', ks', b1, b2, b3, b4, b5⟩ := root_at hg hl hr (show 1 ≤ k + 1 by omega) (show k + 1 ≤ top by omega)
    rw [hf] at a1
    cases a1
    obtain ⟨raws, r1, r2, r3, r4⟩ := roots_offered hg hce hb hl hp hr n (k + 1) text' (by omega) (by omega) b1
    have hgen := root_genuine hg hb hr.table (w := k + 1) (f := e') b5 b2
    refine ⟨text' :: raws, by simp [r1], ⟨⟨fun m => ?_, (hl.roots _ _ b1).2⟩, ⟨rootRead g d.keys ks' (k + 1) e', ?_, rfl⟩, r2⟩, ⟨?_, r3⟩, r4⟩
    · exact (hp.roots m _ (by omega)).trans b1
    · rw [hce]; exact ⟨b4, hgen⟩
    · rw [hce]
      exact ⟨_, _, a4, b4, rfl, (root_genuine hg hb hr.table (w := k) (f := e) a5 b2).signed.1, hgen.signed.1⟩

/-- The Roots of the directory, from the `k`-th on. -/
theorem honest_roots {g : GenEnv} (hg : Sound g) {c : Ctx} (hce : c.env = g.env) {repo : Repo} {d : Dir} (hb : Base g d) (hl : WithinLimits c g repo d)
    (hp : Publishes c repo d) {tab : List (String × Json)} {top : Int} (hr : RootFiles g d tab top) {db : MetaDb} {k : Int} {first : String} (h1 : 1 ≤ k) (h2 : k ≤ top)
    (hf : d.files.lookup (.numbered k) = some first)
    (hstart : (∃ row, db.latestOf repo .root = some row ∧ row.data = first ∧ row.version ≤ k + 1) ∨ (db.latestOf repo .root = none ∧ k = 1)) :
    ∃ raws ks e, HonestRoots c repo db first raws (rootRead g d.keys ks top e) ∧ raws.length = (top - k).toNat ∧
      d.files.lookup .root = some (lastOf first raws) ∧
      ∀ kid j, tab.lookup kid = some j → ks.lookup kid = some (PublicKey.ofJson g.env j) := by
  obtain ⟨raws, r1, r2, r3, r4⟩ := roots_offered hg hce hb hl hp hr (top - k).toNat k first h1 (by omega) hf
  obtain ⟨e, text, ks, a1, a2, a3, a4, a5⟩ := root_at hg hl hr hr.one (Int.le_refl _)
  obtain ⟨e0, text0, ks0, b1, b2, b3, b4, b5⟩ := root_at hg hl hr h1 h2
  rw [hf] at b1
  cases b1
  have hlast := r4
  rw [a1] at r4
  have hlt : text = lastOf first raws := by injection r4
  refine ⟨raws, ks, e, ⟨?_, ⟨rootRead g d.keys ks0 k e0, ?_, by show (0 : Int) ≤ k; omega, r2, ?_⟩, r3, ?_, ?_⟩, r1, hr.last.trans hlast, a5⟩
  · rcases hstart with ⟨row, s1, s2, s3⟩ | ⟨s1, rfl⟩
    · refine .inl ⟨row, s1, s2, ?_⟩
      intro r hread
      rw [s2, hce] at hread
      unfold ReadsAsRoot at hread b4
      rw [b4] at hread
      cases hread
      exact s3
    · exact .inr ⟨s1, fun n => (hp.roots n 1 (by omega)).trans hf, (hl.roots _ _ hf).2⟩
  · rw [hce]; exact ⟨b4, root_genuine hg hb hr.table b5 b2⟩
  · have := (hl.roots _ _ a1).1
    show k + (raws.length : Int) < 1000
    omega
  · rw [hce, ← hlt]; exact a4
  · exact hl.fresh .root (by simp) (rootWith g tab d.keys top e) e (Dir.signed_of hg (hr.last.trans a1) a2) rfl

end Gen

end Aktualizr
