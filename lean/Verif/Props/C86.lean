import Verif.Model.SecondaryConfig
import Verif.Props.C68

/-!
# C86: the configuration of aktualizr-secondary and of aktualizr-info
-/

namespace Aktualizr
namespace Conf

namespace Spec

/-- The options aktualizr-secondary shares with the Primary, by section. -/
def common : List String := ["logger", "p11", "pacman", "storage", "import", "bootloader"]

/-- The options of aktualizr-secondary with their types and defaults. -/
def secondaryOptions : List Option' :=
  documented.filter (fun o => common.contains o.sect) ++
  [⟨"network", "port", .u16, .num 9030⟩, ⟨"network", "primary_ip", .text, t ""⟩, ⟨"network", "primary_port", .u16, .num 9030⟩,
   ⟨"uptane", "ecu_serial", .text, t ""⟩, ⟨"uptane", "ecu_hardware_id", .text, t ""⟩, ⟨"uptane", "key_source", source, t "file"⟩,
   ⟨"uptane", "key_type", .enum ["RSA2048", "RSA3072", "RSA4096", "ED25519"] "unknown", t "RSA2048"⟩,
   ⟨"uptane", "force_install_completion", .flag, .flag false⟩]

/-- The options aktualizr-info has. -/
def infoOptions : List Option' := documented.filter (fun o => ["logger", "pacman", "storage"].contains o.sect)

/-- What the command line of aktualizr-secondary says about an option. -/
def secondaryCmdValue (cmd : SecondaryCmd) (o : Option') : Option Val :=
  if o.sect = "logger" ∧ o.key = "loglevel" then cmd.loglevel.map .num
  else if o.sect = "network" ∧ o.key = "port" then cmd.serverPort.map .num
  else if o.sect = "uptane" ∧ o.key = "ecu_serial" then cmd.serial.map .text
  else if o.sect = "uptane" ∧ o.key = "ecu_hardware_id" then cmd.hwId.map .text
  else none

/-- What the command line of aktualizr-info says about an option. -/
def infoCmdValue (loglevel : Option Int) (o : Option') : Option Val :=
  if o.sect = "logger" ∧ o.key = "loglevel" then loglevel.map .num else none

/-- The value of an option: what the command line says; without it what the last of the files in use says, in the order of their names, that
says anything about it; without that the default. -/
def Value (fs : Txt → Entry) (configs : List Txt) (o : Option') (cmd : Option Val) (v : Val) : Prop :=
  (∀ u, cmd = some u → v = u) ∧
  (cmd = none → ∀ name content u, Active fs configs name content → Gives content o u →
    (∀ name' content' u', Active fs configs name' content' → Gives content' o u' → ¬ name < name') → v = u) ∧
  (cmd = none → (∀ name content u, Active fs configs name content → ¬ Gives content o u) → v = o.default)

end Spec

/-! ## Files -/

theorem updateRows_val {R : List Row} (hR : (R.map (fun r => (r.sect, r.member))).Nodup) {o : Spec.Option'}
    (ho : R.find? (fun r => decide ((o.sect, o.key) = (r.sect, r.member))) = some (rowOf o)) (c : Config) (tree : List Node) :
    (updateRows R c tree).val (o.sect, o.key) = (treeValue tree (rowOf o)).getD (c.val (o.sect, o.key)) := by
  unfold updateRows copyExtra
  simp only
  rw [fold_copy _ _ _ hR, ho]

theorem updateFiles_val {R : List Row} (hR : (R.map (fun r => (r.sect, r.member))).Nodup) {o : Spec.Option'}
    (ho : R.find? (fun r => decide ((o.sect, o.key) = (r.sect, r.member))) = some (rowOf o))
    (F : List (Txt × Txt)) (c0 c : Config) (h : updateFiles R F c0 = .ok c) :
    ((∀ f ∈ F, ∀ v, ¬ Spec.Gives f.2 o v) → c.val (o.sect, o.key) = c0.val (o.sect, o.key)) ∧
    (∀ pre f post v, F = pre ++ f :: post → Spec.Gives f.2 o v → (∀ g ∈ post, ∀ u, ¬ Spec.Gives g.2 o u) →
      c.val (o.sect, o.key) = v) := by
  induction F generalizing c0 with
  | nil => cases h; exact ⟨fun _ => rfl, fun pre f post v he => by simp at he⟩
  | cons f F ih =>
    rw [updateFiles] at h
    obtain ⟨tree, ht, h⟩ := exc_bind_ok.1 h
    obtain ⟨i1, i2⟩ := ih _ h
    have hs := updateRows_val hR ho c0 tree
    constructor
    · intro hno
      rw [i1 (fun g hg => hno g (by simp [hg])), hs]
      cases hv : treeValue tree (rowOf o) with
      | none => rfl
      | some v => exact absurd ((tree_gives ht o v).1 hv) (hno f (by simp) v)
    · intro pre g post v he hg hp
      cases pre with
      | nil =>
        simp only [List.nil_append, List.cons.injEq] at he
        obtain ⟨rfl, rfl⟩ := he
        rw [i1 hp, hs, (tree_gives ht o v).2 hg]; rfl
      | cons x pre =>
        simp only [List.cons_append, List.cons.injEq] at he
        exact i2 pre g post v he.2 hg hp

/-- Members that no row is about stay. -/
theorem updateFiles_other {R : List Row} (hR : (R.map (fun r => (r.sect, r.member))).Nodup) {m : String × String}
    (hm : R.find? (fun r => decide (m = (r.sect, r.member))) = none) (F : List (Txt × Txt)) (c0 c : Config)
    (h : updateFiles R F c0 = .ok c) : c.val m = c0.val m := by
  induction F generalizing c0 with
  | nil => cases h; rfl
  | cons f F ih =>
    rw [updateFiles] at h
    obtain ⟨tree, _, h⟩ := exc_bind_ok.1 h
    rw [ih _ h]
    unfold updateRows copyExtra
    simp only
    rw [fold_copy _ _ _ hR, hm]

theorem pathsOf_ok {fs : Txt → Entry} {config : Option (List Txt)} {ps : List Txt} (h : pathsOf fs config = .ok ps) :
    ps = config.getD Spec.places := by
  unfold pathsOf at h
  cases config with
  | none => cases h; rfl
  | some qs =>
    obtain ⟨_, _, h⟩ := exc_bind_ok.1 h
    cases h; rfl

/-- The files say what a value is, unless the command line does. -/
theorem files_value {fs : Txt → Entry} (hn : Spec.Names fs) {R : List Row} (hR : (R.map (fun r => (r.sect, r.member))).Nodup)
    {o : Spec.Option'} (ho : R.find? (fun r => decide ((o.sect, o.key) = (r.sect, r.member))) = some (rowOf o))
    {configs : List Txt} {c0 c : Config} (h : updateFiles R (collect fs configs) c0 = .ok c) (h0 : c0.val (o.sect, o.key) = o.default) :
    Spec.Value fs configs o none (c.val (o.sect, o.key)) := by
  refine ⟨nofun, fun _ => ?_, fun _ => ?_⟩
  · intro name content v ha hg hlast
    obtain ⟨pre, post, he⟩ := List.append_of_mem ((mem_collect hn).2 ha)
    refine (updateFiles_val hR ho _ _ _ h).2 pre _ post v he hg ?_
    intro g hgp u hgu
    have hord := collect_ordered fs configs
    unfold Ordered at hord
    rw [he, List.pairwise_append, List.pairwise_cons] at hord
    refine hlast g.1 g.2 u ((mem_collect hn).1 ?_) hgu (hord.2.1.1 g hgp)
    rw [he]; simp [hgp]
  · intro hno
    rw [(updateFiles_val hR ho _ _ _ h).1, h0]
    intro f hf v hgv
    exact hno f.1 f.2 v ((mem_collect hn).1 hf) hgv

theorem value_cmd {fs : Txt → Entry} {configs : List Txt} {o : Spec.Option'} (v : Val) : Spec.Value fs configs o (some v) v :=
  ⟨fun _ h => by cases h; rfl, nofun, nofun⟩

/-! ## Rows -/

theorem secondaryRows_nodup : (secondaryRows.map (fun r => (r.sect, r.member))).Nodup := by decide +kernel

theorem infoRows_nodup (b : Bool) : ((infoRows b).map (fun r => (r.sect, r.member))).Nodup := by
  cases b <;> decide +kernel

theorem secondary_rows : Spec.secondaryOptions.all (fun o =>
    decide (secondaryRows.find? (fun r => decide ((o.sect, o.key) = (r.sect, r.member))) = some (rowOf o)) &&
    decide (secondaryDefaults.val (o.sect, o.key) = o.default)) = true := by decide +kernel

theorem info_rows : Spec.infoOptions.all (fun o =>
    (o.sect == "logger" || decide ((infoRows true).find? (fun r => decide ((o.sect, o.key) = (r.sect, r.member))) = some (rowOf o))) &&
    decide ((infoRows false).find? (fun r => decide ((o.sect, o.key) = (r.sect, r.member))) = some (rowOf o)) &&
    (o.sect != "logger" || o.key == "loglevel") && decide (defaults.val (o.sect, o.key) = o.default)) = true := by decide +kernel

/-! ## C86 -/

/-- C86. If aktualizr-secondary starts, every option has the value that its command line gives it, or else the last of its configuration
files that has it, or else its default. Missing: the option of the command line for the port; with it the program does not start
(`C86_server_port`). -/
theorem C86_secondary_partial {fs : Txt → Entry} (hn : Spec.Names fs) {cmd : SecondaryCmd} {c : Config} (h : loadSecondary fs cmd = .ok c)
    {o : Spec.Option'} (ho : o ∈ Spec.secondaryOptions) :
    Spec.Value fs (cmd.config.getD Spec.places) o (Spec.secondaryCmdValue cmd o) (c.val (o.sect, o.key)) := by
  have hr := List.all_eq_true.1 secondary_rows o ho
  simp only [Bool.and_eq_true, decide_eq_true_eq] at hr
  obtain ⟨hrow, hdef⟩ := hr
  unfold loadSecondary at h
  obtain ⟨ps, hps, h⟩ := exc_bind_ok.1 h
  obtain ⟨c1, h1, h2⟩ := exc_bind_ok.1 h
  rw [pathsOf_ok hps] at h1
  unfold secondaryCommandLine at h2
  have hport : cmd.serverPort = none := by
    cases hp : cmd.serverPort with
    | none => rfl
    | some x => rw [hp] at h2; cases h2
  rw [hport] at h2
  simp only [Except.ok.injEq] at h2
  have hc : c.val (o.sect, o.key) = (Spec.secondaryCmdValue cmd o).getD (c1.val (o.sect, o.key)) := by
    subst h2
    simp only [setIf_val, Prod.mk.injEq, Spec.secondaryCmdValue, hport]
    repeat' split
    all_goals first
      | rfl
      | (simp_all; done)
  cases hv : Spec.secondaryCmdValue cmd o with
  | some v =>
    rw [hc, hv]
    exact value_cmd v
  | none =>
    rw [hc, hv]
    refine files_value hn secondaryRows_nodup hrow h1 ?_
    rw [setIf_val]
    by_cases hm : (o.sect, o.key) = ("logger", "loglevel")
    · rw [if_pos hm]
      simp only [Prod.mk.injEq] at hm
      unfold Spec.secondaryCmdValue at hv
      rw [if_pos hm] at hv
      rw [hv, hdef]; rfl
    · rw [if_neg hm, hdef]

theorem updateFiles_total (R : List Row) (F : List (Txt × Txt)) (c0 : Config) :
    (∃ c, updateFiles R F c0 = .ok c) ↔ ∀ f ∈ F, ¬ Spec.Unreadable f.2 := by
  induction F generalizing c0 with
  | nil => exact ⟨fun _ => by simp, fun _ => ⟨c0, rfl⟩⟩
  | cons f F ih =>
    rw [updateFiles]
    cases ht : parseIni f.2 with
    | error e =>
      constructor
      · rintro ⟨c, hc⟩; cases hc
      · intro h
        refine absurd ?_ (h f (by simp))
        intro tree hh
        rw [ht] at hh
        cases hh
    | ok tree =>
      refine (ih (updateRows R c0 tree)).trans ?_
      constructor
      · intro h g hg
        rcases List.mem_cons.1 hg with rfl | hg
        · intro hu; exact hu tree ht
        · exact h g hg
      · exact fun h g hg => h g (List.mem_cons_of_mem _ hg)

/-- C86. aktualizr-secondary gets past its configuration exactly if the paths of the command line exist, every file in use can be read, and
the port is not given on the command line. -/
theorem C86_starts {fs : Txt → Entry} (hn : Spec.Names fs) (cmd : SecondaryCmd) :
    (∃ c, loadSecondary fs cmd = .ok c) ↔
      (∀ ps, cmd.config = some ps → ∀ p ∈ ps, fs p ≠ .missing) ∧
      (∀ name content, Spec.Active fs (cmd.config.getD Spec.places) name content → ¬ Spec.Unreadable content) ∧ cmd.serverPort = none := by
  have hfiles : ∀ ps : List Txt, (∀ f ∈ collect fs ps, ¬ Spec.Unreadable f.2) ↔
      ∀ name content, Spec.Active fs ps name content → ¬ Spec.Unreadable content := fun ps =>
    ⟨fun h name content ha => h (name, content) ((mem_collect hn).2 ha), fun h f hf => h f.1 f.2 ((mem_collect hn).1 hf)⟩
  have hpath : (∃ ps, pathsOf fs cmd.config = .ok ps) ↔ ∀ ps, cmd.config = some ps → ∀ p ∈ ps, fs p ≠ .missing := by
    unfold pathsOf
    cases hc : cmd.config with
    | none => exact ⟨fun _ => nofun, fun _ => ⟨_, rfl⟩⟩
    | some qs =>
      constructor
      · rintro ⟨ps, h⟩ ps' he
        cases he
        obtain ⟨_, h1, _⟩ := exc_bind_ok.1 h
        exact (checkDirs_total fs qs).1 h1
      · intro h
        have := (checkDirs_total fs qs).2 (h qs rfl)
        exact ⟨qs, exc_bind_ok.2 ⟨(), this, rfl⟩⟩
  constructor
  · rintro ⟨c, h⟩
    unfold loadSecondary at h
    obtain ⟨ps, hps, h⟩ := exc_bind_ok.1 h
    obtain ⟨c1, h1, h2⟩ := exc_bind_ok.1 h
    refine ⟨hpath.1 ⟨ps, hps⟩, ?_, ?_⟩
    · rw [← pathsOf_ok hps]
      exact (hfiles ps).1 ((updateFiles_total _ _ _).1 ⟨c1, h1⟩)
    · cases hp : cmd.serverPort with
      | none => rfl
      | some x =>
        unfold secondaryCommandLine at h2
        rw [hp] at h2
        cases h2
  · rintro ⟨h1, h2, h3⟩
    obtain ⟨ps, hps⟩ := hpath.2 h1
    rw [← pathsOf_ok hps] at h2
    obtain ⟨c1, hc1⟩ := (updateFiles_total secondaryRows _
      (secondaryDefaults.setIf ("logger", "loglevel") (cmd.loglevel.map .num))).2 ((hfiles ps).2 h2)
    unfold loadSecondary secondaryCommandLine
    rw [h3]
    exact ⟨_, exc_bind_ok.2 ⟨ps, hps, exc_bind_ok.2 ⟨c1, hc1, rfl⟩⟩⟩

/-- Code deviation: with `--server-port` aktualizr-secondary never starts, as the value is stored with one type and asked for with
another. -/
theorem C86_server_port (fs : Txt → Entry) (cmd : SecondaryCmd) (h : cmd.serverPort ≠ none) : ¬ ∃ c, loadSecondary fs cmd = .ok c := by
  rintro ⟨c, hc⟩
  unfold loadSecondary at hc
  obtain ⟨ps, _, hc⟩ := exc_bind_ok.1 hc
  obtain ⟨c1, _, h2⟩ := exc_bind_ok.1 hc
  unfold secondaryCommandLine at h2
  cases hp : cmd.serverPort with
  | none => exact h hp
  | some x => rw [hp] at h2; cases h2

/-- C86. The same of the options of aktualizr-info, without exception. -/
theorem C86_info {fs : Txt → Entry} (hn : Spec.Names fs) {config : Option (List Txt)} {loglevel : Option Int} {c : Config}
    (h : loadInfo fs config loglevel = .ok c) {o : Spec.Option'} (ho : o ∈ Spec.infoOptions) :
    Spec.Value fs (config.getD Spec.places) o (Spec.infoCmdValue loglevel o) (c.val (o.sect, o.key)) := by
  have hr := List.all_eq_true.1 info_rows o ho
  simp only [Bool.and_eq_true, Bool.or_eq_true, decide_eq_true_eq, beq_iff_eq, bne_iff_ne] at hr
  obtain ⟨⟨⟨hr1, hr2⟩, hlog⟩, hdef⟩ := hr
  unfold loadInfo at h
  obtain ⟨ps, hps, h⟩ := exc_bind_ok.1 h
  obtain ⟨c1, h1, h2⟩ := exc_bind_ok.1 h
  rw [pathsOf_ok hps] at h1
  cases h2
  rw [setIf_val]
  unfold Spec.infoCmdValue
  by_cases hm : (o.sect, o.key) = ("logger", "loglevel")
  · rw [if_pos hm]
    simp only [Prod.mk.injEq] at hm
    rw [if_pos hm]
    cases loglevel with
    | some i => exact value_cmd _
    | none => exact files_value hn (infoRows_nodup _) hr2 h1 hdef
  · rw [if_neg hm]
    have hm' : ¬ (o.sect = "logger" ∧ o.key = "loglevel") := fun hh => hm (by rw [hh.1, hh.2])
    rw [if_neg hm']
    have hsect : o.sect ≠ "logger" := by
      intro hs
      rcases hlog with hl | hl
      · exact hl hs
      · exact hm' ⟨hs, hl⟩
    have hrow : (infoRows loglevel.isSome).find? (fun r => decide ((o.sect, o.key) = (r.sect, r.member))) = some (rowOf o) := by
      cases loglevel.isSome with
      | true => exact hr1.resolve_left hsect
      | false => exact hr2
    refine files_value hn (infoRows_nodup _) hrow h1 ?_
    rw [setIf_val, if_neg hm, hdef]

/-- Two values that are the value of an option are the same. -/
theorem value_unique {fs : Txt → Entry} (hn : Spec.Names fs) {configs : List Txt} {o : Spec.Option'} {cmd : Option Val} {v v' : Val}
    (h : Spec.Value fs configs o cmd v) (h' : Spec.Value fs configs o cmd v') : v = v' := by
  cases cmd with
  | some u => rw [h.1 u rfl, h'.1 u rfl]
  | none =>
    by_cases hex : ∃ f ∈ collect fs configs, ∃ u, Spec.Gives f.2 o u
    · -- the last file that gives a value
      have : ∀ F : List (Txt × Txt), Ordered F → (∃ f ∈ F, ∃ u, Spec.Gives f.2 o u) →
          ∃ f ∈ F, ∃ u, Spec.Gives f.2 o u ∧ ∀ g ∈ F, ∀ u', Spec.Gives g.2 o u' → ¬ f.1 < g.1 := by
        intro F
        induction F with
        | nil => rintro _ ⟨f, hf, _⟩; cases hf
        | cons x F ih =>
          intro ho hx
          unfold Ordered at ho
          rw [List.pairwise_cons] at ho
          by_cases hr : ∃ f ∈ F, ∃ u, Spec.Gives f.2 o u
          · obtain ⟨f, hf, u, hu, hlast⟩ := ih ho.2 hr
            refine ⟨f, by simp [hf], u, hu, ?_⟩
            intro g hg u' hu'
            rcases List.mem_cons.1 hg with rfl | hg
            · intro hlt
              exact absurd (List.lt_trans (ho.1 f hf) hlt) (List.lt_irrefl _)
            · exact hlast g hg u' hu'
          · obtain ⟨f, hf, u, hu⟩ := hx
            rcases List.mem_cons.1 hf with rfl | hf
            · refine ⟨f, by simp, u, hu, ?_⟩
              intro g hg u' hu'
              rcases List.mem_cons.1 hg with rfl | hg
              · exact List.lt_irrefl _
              · exact absurd ⟨g, hg, u', hu'⟩ hr
            · exact absurd ⟨f, hf, u, hu⟩ hr
      obtain ⟨f, hf, u, hu, hlast⟩ := this _ (collect_ordered fs configs) hex
      have hl : ∀ name' content' u', Spec.Active fs configs name' content' → Spec.Gives content' o u' → ¬ f.1 < name' :=
        fun name' content' u' ha hg => hlast (name', content') ((mem_collect hn).2 ha) u' hg
      rw [h.2.1 rfl f.1 f.2 u ((mem_collect hn).1 hf) hu hl, h'.2.1 rfl f.1 f.2 u ((mem_collect hn).1 hf) hu hl]
    · have hno : ∀ name content u, Spec.Active fs configs name content → ¬ Spec.Gives content o u :=
        fun name content u ha hg => hex ⟨(name, content), (mem_collect hn).2 ha, u, hg⟩
      rw [h.2.2 rfl hno, h'.2.2 rfl hno]

theorem info_sections : Spec.infoOptions.all (fun o => o.sect != "tls" && o.sect != "uptane" && o.sect != "provision" &&
    (decide ((o.sect, o.key) = ("pacman", "ostree_server")) || decide ((o.sect, o.key) ∉ Spec.derived))) = true := by decide +kernel

/-- C86. Given the same files and log level, aktualizr-info and the Primary agree on all options they share, so that it is the database and
the sysroot of the Primary that are looked at; the OSTree server apart, which the Primary may take from others (C68). -/
theorem C86_agree {w : World} (hn : Spec.Names w.fs) {cmd : Cmd} {c c' : Config} (h : load w cmd = .ok c)
    (h' : loadInfo w.fs cmd.config cmd.loglevel = .ok c') {o : Spec.Option'} (ho : o ∈ Spec.infoOptions)
    (hne : (o.sect, o.key) ≠ ("pacman", "ostree_server")) : c'.val (o.sect, o.key) = c.val (o.sect, o.key) := by
  have hs := List.all_eq_true.1 info_sections o ho
  simp only [Bool.and_eq_true, Bool.or_eq_true, decide_eq_true_eq, bne_iff_ne] at hs
  obtain ⟨⟨⟨h1, h2⟩, h3⟩, h4⟩ := hs
  have hd : o ∈ Spec.documented := (List.mem_filter.1 ho).1
  have h4 := h4.resolve_left hne
  obtain ⟨c0, hc0, hrest⟩ := C68_derived h
  have hsame := hrest.2.2.2.2.2.2.2.1 (o.sect, o.key) h4
  rw [hsame]
  have hcmd : Spec.cmdValue cmd o = Spec.infoCmdValue cmd.loglevel o := by
    simp [Spec.cmdValue, Spec.infoCmdValue, h1, h2, h3]
  have hp : Spec.Value w.fs (cmd.config.getD Spec.places) o (Spec.cmdValue cmd o) (c0.val (o.sect, o.key)) :=
    C68_precedence_partial hn hc0 hd
  rw [hcmd] at hp
  exact value_unique hn (C86_info hn h' ho) hp

/-- C86. aktualizr-info makes a package manager, and so a `Bootloader`, but does not read the section `bootloader`: whatever the files say,
it leaves the environment of the boot loader alone (bootloader.cc:27-47 with mode `none`). -/
theorem C86_info_boot {fs : Txt → Entry} {config : Option (List Txt)} {loglevel : Option Int} {c : Config}
    (h : loadInfo fs config loglevel = .ok c) : c.val ("bootloader", "rollback_mode") = t "none" := by
  unfold loadInfo at h
  obtain ⟨ps, _, h⟩ := exc_bind_ok.1 h
  obtain ⟨c1, h1, h2⟩ := exc_bind_ok.1 h
  cases h2
  have hrow : ∀ b, (infoRows b).find? (fun r => decide (("bootloader", "rollback_mode") = (r.sect, r.member))) = none := by
    decide +kernel
  rw [setIf_val, if_neg (by simp), updateFiles_other (infoRows_nodup _) (hrow _) _ _ _ h1, setIf_val, if_neg (by simp)]
  decide +kernel

/-- Reading succeeds and gives these values. -/
def Shows (r : Except Err Config) (l : List ((String × String) × Val)) : Bool :=
  match r with
  | .ok c => l.all (fun p => decide (c.val p.1 = p.2))
  | .error _ => false

theorem shows_ok {r : Except Err Config} {l : List ((String × String) × Val)} (h : Shows r l = true) :
    ∃ c, r = .ok c ∧ ∀ p ∈ l, c.val p.1 = p.2 := by
  cases r with
  | error e => cases h
  | ok c => exact ⟨c, rfl, fun p hp => by simpa using List.all_eq_true.1 h p hp⟩

namespace Case86

/-- Two files in a directory given on the command line. -/
def fs : Txt → Entry := fun p =>
  if p = "/c".toList then
    .dir [("20.toml".toList, some "[network]\nport = 9050\nprimary_ip = \"10.0.0.1\"\n".toList),
      ("10.toml".toList, some "[network]\nport = 1\nprimary_port = 9040\n[uptane]\necu_serial = \"a\"\n[storage]\npath = \"/d\"\n[bootloader]\nrollback_mode = \"uboot_generic\"".toList)]
  else .missing

theorem names : Spec.Names fs := by
  intro p files h
  unfold fs at h
  split at h
  · cases h; decide +kernel
  · cases h

/-- The port of the file last in order, the other port of the first file, the serial of the command line, the default of the key. -/
example : ∃ c, loadSecondary fs { config := some ["/c".toList], serial := some "b".toList } = .ok c ∧
    ∀ p ∈ [(("network", "port"), .num 9050), (("network", "primary_port"), .num 9040), (("network", "primary_ip"), t "10.0.0.1"),
      (("uptane", "ecu_serial"), t "b"), (("uptane", "key_type"), t "RSA2048"), (("storage", "path"), t "/d"),
      (("bootloader", "rollback_mode"), t "uboot_generic")], c.val p.1 = p.2 :=
  shows_ok (by decide +kernel)

/-- Both programs read the files, and `C86_agree` speaks of them. -/
example : (∃ c, load { fs := fs, archiveUrl := fun _ => none } { config := some ["/c".toList] } = .ok c ∧
      ∀ p ∈ [(("storage", "path"), t "/d"), (("bootloader", "rollback_mode"), t "uboot_generic")], c.val p.1 = p.2) ∧
    (∃ c', loadInfo fs (some ["/c".toList]) none = .ok c' ∧
      ∀ p ∈ [(("storage", "path"), t "/d"), (("bootloader", "rollback_mode"), t "none")], c'.val p.1 = p.2) :=
  ⟨shows_ok (by decide +kernel), shows_ok (by decide +kernel)⟩

end Case86

/-- Code deviation: the documentation of aktualizr-secondary (docs/ota-client-guide/modules/ROOT/pages/posix-secondaries.adoc:33-37) places the
port in the section `uptane`; there it is ignored. A port out of range is ignored too, and a negative one wraps around. -/
theorem C86_port :
    (∃ c, loadSecondary (fun _ => .file "[uptane]\nport = 9050".toList) { config := some ["/c".toList] } = .ok c ∧
      ∀ p ∈ [(("network", "port"), Val.num 9030)], c.val p.1 = p.2) ∧
    (∃ c, loadSecondary (fun _ => .file "[network]\nport = 70000".toList) { config := some ["/c".toList] } = .ok c ∧
      ∀ p ∈ [(("network", "port"), Val.num 9030)], c.val p.1 = p.2) ∧
    (∃ c, loadSecondary (fun _ => .file "[network]\nport = -1".toList) { config := some ["/c".toList] } = .ok c ∧
      ∀ p ∈ [(("network", "port"), Val.num 65535)], c.val p.1 = p.2) :=
  ⟨shows_ok (by decide +kernel), shows_ok (by decide +kernel), shows_ok (by decide +kernel)⟩

end Conf
end Aktualizr
