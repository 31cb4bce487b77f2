import Verif.Model.Migrate
import Verif.Lemmas.Monad

/-!
# C36: schema migrations

Spec: the statements of the scripts, executed one after the other (`execAll`), say what the
database of a newer version is.  Opening the storage, with the process dying or SQLite failing
anywhere, leaves the old database or that one.
-/

namespace Aktualizr.Spec

open Sql Mig

/-- The statements of a script. -/
def statements (l : List Cmd) : List Stmt :=
  l.filterMap (fun c => match c with | .stmt s => some s | _ => none)

/-- The statements that lead from version `v` to the version of the program. -/
def upScripts (cfg : Config) (v : Nat) : List Stmt :=
  (List.range' (v + 1) (cfg.version - v)).flatMap (fun k => statements (cfg.parse (cfg.migrations.getD k "")))

/-- The statements that store the scripts for going back, so that an older program can use them. -/
def backRows (cfg : Config) : List Stmt :=
  (List.range' 1 cfg.version).filterMap (fun k =>
    let s := cfg.rollbacks.getD k ""
    if s = "" then none else some (.replace "rollback_migrations" ["version_from", "migration"] [.int k, .text s]))

/-- `db'` is the database `db` of version `v`, brought to the version of the program. -/
def Migrated (cfg : Config) (v : Nat) (db db' : Db) : Prop := execAll db (upScripts cfg v ++ backRows cfg) = some db'

/-- `db'` is a new database. -/
def Fresh (cfg : Config) (db db' : Db) : Prop :=
  execAll db (statements (cfg.parse cfg.schema) ++ backRows cfg) = some db'

/-- The script for going back from version `v` that is stored in a database. -/
def StoredScript (db : Db) (v : Int) (s : String) : Prop :=
  ∃ t r, db.get "rollback_migrations" = some t ∧ t.rows.find? (fun r => t.value r "version_from" == some (.int v)) = some r ∧
    t.value r "migration" = some (.text s)

/-- Going back one version at a time: the stored script, then its row is deleted. -/
inductive Back (cfg : Config) : Int → Db → Int → Db → Prop
  | refl (v : Int) (db : Db) : Back cfg v db v db
  | step {v v' : Int} {db d1 d2 db' : Db} {s : String} (lt : (cfg.version : Int) < v) (stored : StoredScript db v s)
      (script : execAll db (statements (cfg.parse s)) = some d1)
      (row : execAll d1 [.delete "rollback_migrations" "version_from" (.int v)] = some d2)
      (rest : Back cfg (v - 1) d2 v' db') : Back cfg v db v' db'

/-- A script that is one savepoint, as all scripts are. -/
def Wrapped (l : List Cmd) : Prop := l = [] ∨ ∃ (n : String) (body : List Stmt), l = .savepoint n :: (body.map .stmt ++ [.release n])

/-- The database says it is of version `v`. -/
def AtVersion (db : Db) (v : Int) : Prop :=
  ∃ t r, db.get "version" = some t ∧ t.rows.head? = some r ∧ t.value r "version" = some (.int v) ∧ -2147483648 ≤ v ∧ v < 2147483648

end Aktualizr.Spec

namespace Aktualizr.Mig

open Sql Spec
open M (throwWhen throw gets modify lift)

theorem execAll_append (db : Db) : ∀ (a b : List Stmt), execAll db (a ++ b) = (execAll db a).bind (fun d => execAll d b)
  | [], b => rfl
  | s :: a, b => by
    simp only [List.cons_append, execAll]
    cases s.exec db with
    | none => rfl
    | some d => exact execAll_append d a b

/-! ### Commands -/

/-- In the transaction of a migration: the file holds `d`, the connection sees `w`. -/
def InTx (d w : Db) (c : Conn) : Prop := c.disk = d ∧ ∃ saves, c.tx = some ⟨w, true, saves⟩

/-- What can come of a command. -/
theorem command_cases (f : Db → Option Tx → Option (Db × Option Tx)) (c : Conn) :
    (∃ p fs, f c.disk c.tx = some p ∧ command f c = (.ok true, ⟨p.1, p.2, fs⟩)) ∨
    (∃ t fs, (t = c.tx ∨ t = none) ∧ command f c = (.ok false, ⟨c.disk, t, fs⟩)) ∨
    (∃ d fs, (d = c.disk ∨ ∃ p, f c.disk c.tx = some p ∧ d = p.1) ∧ command f c = (.error .crash, ⟨d, none, fs⟩)) := by
  unfold command
  split
  · rename_i after _
    refine .inr (.inr ?_)
    cases after with
    | false => exact ⟨c.disk, _, .inl rfl, rfl⟩
    | true =>
      cases h : f c.disk c.tx with
      | none => exact ⟨c.disk, _, .inl rfl, rfl⟩
      | some p => exact ⟨p.1, _, .inr ⟨p, rfl, rfl⟩, rfl⟩
  · rename_i rolls _
    refine .inr (.inl ?_)
    cases rolls with
    | false => exact ⟨c.tx, _, .inl rfl, rfl⟩
    | true => exact ⟨none, _, .inr rfl, rfl⟩
  · cases h : f c.disk c.tx with
    | none => exact .inr (.inl ⟨c.tx, _, .inl rfl, rfl⟩)
    | some p => exact .inl ⟨p, _, rfl, rfl⟩

/-- A command that, in the transaction, turns what the connection sees into `w'` (or fails): the
file stays. -/
theorem command_inTx {f : Db → Option Tx → Option (Db × Option Tx)} {d w : Db} {c : Conn} {o : Except Err Bool} {c' : Conn}
    (g : Db → Option Db) (hf : ∀ saves p, f d (some ⟨w, true, saves⟩) = some p → p.1 = d ∧ ∃ w' saves', g w = some w' ∧ p.2 = some ⟨w', true, saves'⟩)
    (hc : InTx d w c) (h : command f c = (o, c')) :
    c'.disk = d ∧ (o = .ok true → ∃ w', g w = some w' ∧ InTx d w' c') := by
  obtain ⟨rfl, saves, ht⟩ := hc
  rcases command_cases f c with ⟨p, fs, h1, h2⟩ | ⟨t, fs, _, h2⟩ | ⟨d', fs, h1, h2⟩
  · rw [h2] at h
    cases h
    rw [ht] at h1
    obtain ⟨e1, w', saves', e2, e3⟩ := hf saves p h1
    exact ⟨e1, fun _ => ⟨w', e2, e1, saves', e3⟩⟩
  · rw [h2] at h
    cases h
    exact ⟨rfl, by simp⟩
  · rw [h2] at h
    cases h
    refine ⟨?_, by simp⟩
    rcases h1 with h1 | ⟨p, h1, rfl⟩
    · exact h1
    · rw [ht] at h1
      exact (hf saves p h1).1

theorem cmd_inTx (x : Cmd) {d w : Db} {c : Conn} {o : Except Err Bool} {c' : Conn} (hc : InTx d w c) (h : command (Cmd.eff x) c = (o, c')) :
    c'.disk = d ∧ (o = .ok true → ∃ w', execAll w (statements [x]) = some w' ∧ InTx d w' c') := by
  refine command_inTx (fun w => execAll w (statements [x])) ?_ hc h
  intro saves p hp
  cases x with
  | stmt s =>
    simp only [Cmd.eff, stmtEff] at hp
    cases hs : s.exec w with
    | none => rw [hs] at hp; simp at hp
    | some w' =>
      rw [hs] at hp
      simp only [Option.map_some, Option.some.injEq] at hp
      subst hp
      exact ⟨rfl, w', saves, by simp [statements, execAll, hs], rfl⟩
  | savepoint n =>
    simp only [Cmd.eff, savepointEff, Option.some.injEq] at hp
    subst hp
    exact ⟨rfl, w, _, by simp [statements, execAll], rfl⟩
  | release n =>
    simp only [Cmd.eff, releaseEff] at hp
    split at hp
    · simp only [Bool.not_true, Bool.and_false, Bool.false_eq_true, if_false, Option.some.injEq] at hp
      subst hp
      exact ⟨rfl, w, _, by simp [statements, execAll], rfl⟩
    · simp at hp

theorem statements_cons (x : Cmd) (l : List Cmd) : statements (x :: l) = statements [x] ++ statements l := by
  unfold statements
  rw [← List.filterMap_append]
  rfl

theorem execScript_inTx : ∀ (l : List Cmd) {d w : Db} {c : Conn} {o : Except Err Bool} {c' : Conn}, InTx d w c →
    execScript l c = (o, c') → c'.disk = d ∧ (o = .ok true → ∃ w', execAll w (statements l) = some w' ∧ InTx d w' c')
  | [], d, w, c, o, c', hc, h => by
    simp only [execScript, M.pure_eq, Prod.mk.injEq] at h
    obtain ⟨rfl, rfl⟩ := h
    exact ⟨hc.1, fun _ => ⟨w, rfl, hc⟩⟩
  | x :: l, d, w, c, o, c', hc, h => by
    rw [execScript] at h
    rcases M.bind_cases h with ⟨b, c1, h1, h2⟩ | ⟨e, h1, rfl⟩
    · obtain ⟨i1, i2⟩ := cmd_inTx x hc h1
      cases b with
      | false =>
        simp only [Bool.false_eq_true, if_false, M.pure_eq, Prod.mk.injEq] at h2
        obtain ⟨rfl, rfl⟩ := h2
        exact ⟨i1, by simp⟩
      | true =>
        obtain ⟨w1, e1, hc1⟩ := i2 rfl
        obtain ⟨j1, j2⟩ := execScript_inTx l hc1 (by simpa using h2)
        refine ⟨j1, fun ho => ?_⟩
        obtain ⟨w2, e2, hc2⟩ := j2 ho
        refine ⟨w2, ?_, hc2⟩
        rw [statements_cons, execAll_append, e1]
        exact e2
    · exact ⟨(cmd_inTx x hc h1).1, by simp⟩

theorem query_inTx {α : Type} (f : Db → α) {d w : Db} {c : Conn} {o : Except Err (Option α)} {c' : Conn} (hc : InTx d w c)
    (h : query f c = (o, c')) : c'.disk = d ∧ (∀ a, o = .ok (some a) → a = f w ∧ InTx d w c') := by
  unfold query at h
  have hq : ∀ saves p, (fun d t => some (d, t) : Db → Option Tx → Option (Db × Option Tx)) d (some ⟨w, true, saves⟩) = some p →
      p.1 = d ∧ ∃ w' saves', some w = some w' ∧ p.2 = some ⟨w', true, saves'⟩ := by
    intro saves p hp
    simp only [Option.some.injEq] at hp
    subst hp
    exact ⟨rfl, w, saves, rfl, rfl⟩
  rcases M.bind_cases h with ⟨b, c1, h1, h2⟩ | ⟨e, h1, rfl⟩
  · obtain ⟨i1, i2⟩ := command_inTx some hq hc h1
    cases b with
    | false =>
      simp only [Bool.false_eq_true, if_false, M.pure_eq, Prod.mk.injEq] at h2
      obtain ⟨rfl, rfl⟩ := h2
      exact ⟨i1, by simp⟩
    | true =>
      obtain ⟨w1, e1, hc1⟩ := i2 rfl
      cases e1
      simp only [if_true] at h2
      rw [M.run_bind M.gets_eq] at h2
      simp only [M.pure_eq, Prod.mk.injEq] at h2
      obtain ⟨rfl, rfl⟩ := h2
      refine ⟨i1, fun a ha => ?_⟩
      obtain ⟨hd, saves, ht⟩ := hc1
      simp only [id, ht, Except.ok.injEq, Option.some.injEq] at ha
      exact ⟨ha.symm, hd, saves, ht⟩
  · exact ⟨(command_inTx some hq hc h1).1, by simp⟩

theorem at_ok {l : List String} {k : Nat} {c c' : Conn} {s : String} (h : at' l k c = (.ok s, c')) : l.getD k "" = s ∧ c' = c := by
  unfold at' at h
  rw [if_neg (by omega), Int.toNat_natCast] at h
  cases hs : l[k]? with
  | some s' =>
    rw [hs] at h
    simp only [M.pure_eq, Prod.mk.injEq, Except.ok.injEq] at h
    exact ⟨by rw [List.getD_eq_getElem?_getD, hs, ← h.1]; rfl, h.2.symm⟩
  | none => rw [hs] at h; simp at h

theorem at_snd (l : List String) (k : Int) (c : Conn) : (at' l k c).2 = c := by
  unfold at'
  cases (if k < 0 then none else l[k.toNat]?) <;> rfl

theorem insertBack_inTx (cfg : Config) : ∀ (n k : Nat) {d w : Db} {c : Conn} {o : Except Err Bool} {c' : Conn}, InTx d w c →
    insertBackLoop cfg n k c = (o, c') → c'.disk = d ∧ (o = .ok true → ∃ w',
      execAll w ((List.range' k n).filterMap (fun k =>
        let s := cfg.rollbacks.getD k ""
        if s = "" then none else some (.replace "rollback_migrations" ["version_from", "migration"] [.int k, .text s]))) = some w' ∧
      InTx d w' c')
  | 0, k, d, w, c, o, c', hc, h => by
    simp only [insertBackLoop, M.pure_eq, Prod.mk.injEq] at h
    obtain ⟨rfl, rfl⟩ := h
    exact ⟨hc.1, fun _ => ⟨w, rfl, hc⟩⟩
  | n + 1, k, d, w, c, o, c', hc, h => by
    rw [insertBackLoop] at h
    rcases M.bind_cases h with ⟨s, c1, h1, h2⟩ | ⟨e, h1, rfl⟩
    · obtain ⟨rfl, rfl⟩ := at_ok h1
      rw [List.range'_succ, List.filterMap_cons]
      simp only
      by_cases hs : cfg.rollbacks.getD k "" = ""
      · rw [if_pos hs] at h2
        simp only [hs, if_true]
        exact insertBack_inTx cfg n (k + 1) hc h2
      · rw [if_neg hs] at h2
        simp only [hs, if_false]
        rcases M.bind_cases h2 with ⟨b, c2, h3, h4⟩ | ⟨e, h3, rfl⟩
        · obtain ⟨i1, i2⟩ := query_inTx _ hc h3
          rcases M.bind_cases h4 with ⟨u, c3, h5, h6⟩ | ⟨e, h5, rfl⟩
          · rw [M.throwWhen_ok] at h5
            obtain ⟨h5, rfl⟩ := h5
            obtain ⟨-, hc2⟩ := i2 true (by simpa using h5)
            rcases M.bind_cases h6 with ⟨b', c4, h7, h8⟩ | ⟨e, h7, rfl⟩
            · obtain ⟨j1, j2⟩ := cmd_inTx (.stmt _) hc2 h7
              cases b' with
              | false =>
                simp only [Bool.false_eq_true, if_false, M.pure_eq, Prod.mk.injEq] at h8
                obtain ⟨rfl, rfl⟩ := h8
                exact ⟨j1, by simp⟩
              | true =>
                obtain ⟨w1, e1, hc3⟩ := j2 rfl
                obtain ⟨k1, k2⟩ := insertBack_inTx cfg n (k + 1) hc3 (by simpa using h8)
                refine ⟨k1, fun ho => ?_⟩
                obtain ⟨w2, e2, hc4⟩ := k2 ho
                refine ⟨w2, ?_, hc4⟩
                simp only [statements, List.filterMap_cons, List.filterMap_nil] at e1
                have := execAll_append w [Stmt.replace "rollback_migrations" ["version_from", "migration"] [.int k, .text (cfg.rollbacks.getD k "")]]
                  ((List.range' (k + 1) n).filterMap (fun k =>
                    let s := cfg.rollbacks.getD k ""
                    if s = "" then none else some (.replace "rollback_migrations" ["version_from", "migration"] [.int k, .text s])))
                rw [e1] at this
                exact this.trans e2
            · exact ⟨(cmd_inTx (.stmt _) hc2 h7).1, by simp⟩
          · have : c' = c2 := by
              have := congrArg Prod.snd h5
              simpa using this.symm
            subst this
            exact ⟨i1, by simp⟩
        · exact ⟨(query_inTx _ hc h3).1, by simp⟩
    · have : c' = c := by
        have := congrArg Prod.snd h1
        rw [at_snd] at this
        exact this.symm
      subst this
      exact ⟨hc.1, by simp⟩

theorem insertBackMigrations_inTx (cfg : Config) {d w : Db} {c : Conn} {o : Except Err Bool} {c' : Conn} (hc : InTx d w c)
    (h : dbInsertBackMigrations cfg c = (o, c')) :
    c'.disk = d ∧ (o = .ok true → ∃ w', execAll w (backRows cfg) = some w' ∧ InTx d w' c') := by
  unfold dbInsertBackMigrations at h
  split at h
  · rename_i he
    simp only [M.pure_eq, Prod.mk.injEq] at h
    obtain ⟨rfl, rfl⟩ := h
    refine ⟨hc.1, fun _ => ⟨w, ?_, hc⟩⟩
    have : backRows cfg = [] := by
      unfold backRows
      rw [List.isEmpty_iff.1 he]
      simp
    rw [this]
    rfl
  · split at h
    · simp only [M.pure_eq, Prod.mk.injEq] at h
      obtain ⟨rfl, rfl⟩ := h
      exact ⟨hc.1, by simp⟩
    · exact insertBack_inTx cfg _ _ hc h

theorem forwardLoop_inTx (cfg : Config) : ∀ (n k : Nat) {d w : Db} {c : Conn} {o : Except Err Bool} {c' : Conn}, InTx d w c →
    forwardLoop cfg n k c = (o, c') → c'.disk = d ∧ (o = .ok true → ∃ w',
      execAll w ((List.range' k n).flatMap (fun k => statements (cfg.parse (cfg.migrations.getD k "")))) = some w' ∧ InTx d w' c')
  | 0, k, d, w, c, o, c', hc, h => by
    simp only [forwardLoop, M.pure_eq, Prod.mk.injEq] at h
    obtain ⟨rfl, rfl⟩ := h
    exact ⟨hc.1, fun _ => ⟨w, rfl, hc⟩⟩
  | n + 1, k, d, w, c, o, c', hc, h => by
    rw [forwardLoop] at h
    rcases M.bind_cases h with ⟨s, c1, h1, h2⟩ | ⟨e, h1, rfl⟩
    · obtain ⟨rfl, rfl⟩ := at_ok h1
      rw [List.range'_succ, List.flatMap_cons]
      rcases M.bind_cases h2 with ⟨b, c2, h3, h4⟩ | ⟨e, h3, rfl⟩
      · obtain ⟨i1, i2⟩ := execScript_inTx _ hc h3
        cases b with
        | false =>
          simp only [Bool.false_eq_true, if_false, M.pure_eq, Prod.mk.injEq] at h4
          obtain ⟨rfl, rfl⟩ := h4
          exact ⟨i1, by simp⟩
        | true =>
          obtain ⟨w1, e1, hc1⟩ := i2 rfl
          obtain ⟨j1, j2⟩ := forwardLoop_inTx cfg n (k + 1) hc1 (by simpa using h4)
          refine ⟨j1, fun ho => ?_⟩
          obtain ⟨w2, e2, hc2⟩ := j2 ho
          exact ⟨w2, by rw [execAll_append, e1]; exact e2, hc2⟩
      · exact ⟨(execScript_inTx _ hc h3).1, by simp⟩
    · have : c' = c := by
        have := congrArg Prod.snd h1
        rw [at_snd] at this
        exact this.symm
      subst this
      exact ⟨hc.1, by simp⟩

/-- What a function does on a new connection. -/
theorem withConnection_cases {α : Type} (m : C α) {c c' : Conn} {o : Except Err α} (h : withConnection m c = (o, c')) :
    c'.tx = none ∧ ((c'.disk = c.disk ∧ ∃ e, o = .error e) ∨
      ∃ fs c2, m ⟨c.disk, none, fs⟩ = (o, c2) ∧ c'.disk = c2.disk) := by
  unfold withConnection at h
  rcases command_cases (fun d _ => some (d, none)) c with ⟨p, fs, h1, h2⟩ | ⟨t, fs, _, h2⟩ | ⟨d', fs, h1, h2⟩
  · rw [h2] at h
    simp only [Option.some.injEq] at h1
    subst h1
    simp only [Prod.mk.injEq] at h
    obtain ⟨rfl, rfl⟩ := h
    exact ⟨rfl, .inr ⟨fs, _, rfl, rfl⟩⟩
  · rw [h2] at h
    simp only [Prod.mk.injEq] at h
    obtain ⟨rfl, rfl⟩ := h
    exact ⟨rfl, .inl ⟨rfl, _, rfl⟩⟩
  · rw [h2] at h
    simp only [Prod.mk.injEq] at h
    obtain ⟨rfl, rfl⟩ := h
    refine ⟨rfl, .inl ⟨?_, _, rfl⟩⟩
    rcases h1 with rfl | ⟨p, h1, rfl⟩
    · rfl
    · simp only [Option.some.injEq] at h1
      subst h1
      rfl

/-- `BEGIN`, something in the transaction, the stored scripts, `COMMIT`. -/
theorem transaction (cfg : Config) (m : C Bool) (ss : List Stmt) (hm : ∀ {d w : Db} {c : Conn} {o : Except Err Bool} {c' : Conn},
      InTx d w c → m c = (o, c') → c'.disk = d ∧ (o = .ok true → ∃ w', execAll w ss = some w' ∧ InTx d w' c'))
    {d : Db} {fs : List (Option Fault)} {o : Except Err Bool} {c' : Conn}
    (h : (do
      if !(← command beginEff) then pure false
      else if !(← m) then pure false
      else if !(← dbInsertBackMigrations cfg) then pure false
      else do
        throwWhen (!(← command commitEff)) (.std "Can't begin transaction")
        pure true : C Bool) ⟨d, none, fs⟩ = (o, c')) :
    (c'.disk = d ∨ execAll d (ss ++ backRows cfg) = some c'.disk) ∧ (o = .ok true → execAll d (ss ++ backRows cfg) = some c'.disk) := by
  rcases M.bind_cases h with ⟨b, c1, h1, h2⟩ | ⟨e, h1, rfl⟩
  · rcases command_cases beginEff ⟨d, none, fs⟩ with ⟨p, fs1, e1, e2⟩ | ⟨t, fs1, _, e2⟩ | ⟨d', fs1, e1, e2⟩
    · rw [e2] at h1
      simp only [beginEff, Option.some.injEq] at e1
      subst e1
      cases h1
      have hc : InTx d d ⟨d, some ⟨d, true, []⟩, fs1⟩ := ⟨rfl, [], rfl⟩
      simp only [Bool.not_true, Bool.false_eq_true, if_false] at h2
      rcases M.bind_cases h2 with ⟨b, c2, h3, h4⟩ | ⟨e, h3, rfl⟩
      · obtain ⟨i1, i2⟩ := hm hc h3
        cases b with
        | false =>
          simp only [Bool.not_false, if_true, M.pure_eq, Prod.mk.injEq] at h4
          obtain ⟨rfl, rfl⟩ := h4
          exact ⟨.inl i1, by simp⟩
        | true =>
          obtain ⟨w1, e1, hc1⟩ := i2 rfl
          simp only [Bool.not_true, Bool.false_eq_true, if_false] at h4
          rcases M.bind_cases h4 with ⟨b, c3, h5, h6⟩ | ⟨e, h5, rfl⟩
          · obtain ⟨j1, j2⟩ := insertBackMigrations_inTx cfg hc1 h5
            cases b with
            | false =>
              simp only [Bool.not_false, if_true, M.pure_eq, Prod.mk.injEq] at h6
              obtain ⟨rfl, rfl⟩ := h6
              exact ⟨.inl j1, by simp⟩
            | true =>
              obtain ⟨w2, e3, hc2⟩ := j2 rfl
              have hall : execAll d (ss ++ backRows cfg) = some w2 := by rw [execAll_append, e1]; exact e3
              simp only [Bool.not_true, Bool.false_eq_true, if_false] at h6
              obtain ⟨hd, saves, ht⟩ := hc2
              rcases M.bind_cases h6 with ⟨b, c4, h7, h8⟩ | ⟨e, h7, rfl⟩
              · rcases command_cases commitEff c3 with ⟨p, fs2, q1, q2⟩ | ⟨t, fs2, _, q2⟩ | ⟨d', fs2, q1, q2⟩
                · rw [q2] at h7
                  rw [ht] at q1
                  simp only [commitEff, Option.some.injEq] at q1
                  subst q1
                  cases h7
                  rcases M.bind_cases h8 with ⟨u, c5, h9, h10⟩ | ⟨e, h9, rfl⟩
                  · rw [M.throwWhen_ok] at h9
                    obtain ⟨-, rfl⟩ := h9
                    simp only [M.pure_eq, Prod.mk.injEq] at h10
                    obtain ⟨rfl, rfl⟩ := h10
                    exact ⟨.inr hall, fun _ => hall⟩
                  · simp [throwWhen] at h9
                · rw [q2] at h7
                  cases h7
                  rcases M.bind_cases h8 with ⟨u, c5, h9, h10⟩ | ⟨e, h9, rfl⟩
                  · simp [M.throwWhen_ok] at h9
                  · have := congrArg Prod.snd h9
                    simp only [M.throwWhen_snd] at this
                    subst this
                    exact ⟨.inl hd, by simp⟩
                · rw [q2] at h7
                  cases h7
              · rcases command_cases commitEff c3 with ⟨p, fs2, q1, q2⟩ | ⟨t, fs2, _, q2⟩ | ⟨d', fs2, q1, q2⟩
                · rw [q2] at h7; cases h7
                · rw [q2] at h7; cases h7
                · rw [q2] at h7
                  cases h7
                  refine ⟨?_, by simp⟩
                  rcases q1 with rfl | ⟨p, q1, rfl⟩
                  · exact .inl hd
                  · rw [ht] at q1
                    simp only [commitEff, Option.some.injEq] at q1
                    subst q1
                    exact .inr hall
          · exact ⟨.inl (insertBackMigrations_inTx cfg hc1 h5).1, by simp⟩
      · exact ⟨.inl (hm hc h3).1, by simp⟩
    · rw [e2] at h1
      cases h1
      simp only [Bool.not_false, if_true, M.pure_eq, Prod.mk.injEq] at h2
      obtain ⟨rfl, rfl⟩ := h2
      exact ⟨.inl rfl, by simp⟩
    · rw [e2] at h1
      cases h1
  · rcases command_cases beginEff ⟨d, none, fs⟩ with ⟨p, fs1, e1, e2⟩ | ⟨t, fs1, _, e2⟩ | ⟨d', fs1, e1, e2⟩
    · rw [e2] at h1; cases h1
    · rw [e2] at h1; cases h1
    · rw [e2] at h1
      cases h1
      refine ⟨.inl ?_, by simp⟩
      rcases e1 with rfl | ⟨p, e1, rfl⟩
      · rfl
      · simp only [beginEff, Option.some.injEq] at e1
        subst e1
        rfl

theorem forward_atomic (cfg : Config) {v : Nat} {c c' : Conn} {o : Except Err Bool} (h : dbMigrateForward cfg v c = (o, c')) :
    (c'.disk = c.disk ∨ Migrated cfg v c.disk c'.disk) ∧ (o = .ok true → Migrated cfg v c.disk c'.disk) := by
  obtain ⟨-, ⟨h1, e, rfl⟩ | ⟨fs, c2, h1, h2⟩⟩ := withConnection_cases _ h
  · exact ⟨.inl h1, by simp⟩
  · have hn : ((cfg.version : Int) - (v : Int)).toNat = cfg.version - v := by omega
    rw [hn] at h1
    have := transaction cfg (forwardLoop cfg (cfg.version - v) ((v : Int) + 1)) (upScripts cfg v)
      (fun hc hf => forwardLoop_inTx cfg _ (v + 1) hc (by simpa using hf)) h1
    rw [h2]
    exact this

theorem bootstrap_atomic (cfg : Config) {c c' : Conn} {o : Except Err Bool} (h : bootstrap cfg c = (o, c')) :
    (c'.disk = c.disk ∨ Fresh cfg c.disk c'.disk) ∧ (o = .ok true → Fresh cfg c.disk c'.disk) := by
  obtain ⟨-, ⟨h1, e, rfl⟩ | ⟨fs, c2, h1, h2⟩⟩ := withConnection_cases _ h
  · exact ⟨.inl h1, by simp⟩
  · have := transaction cfg (execScript (cfg.parse cfg.schema)) (statements (cfg.parse cfg.schema))
      (fun hc hf => execScript_inTx _ hc hf) h1
    rw [h2]
    exact this

/-- Below version -2 (no database of aktualizr says so) nothing happens. -/
theorem forward_negative (cfg : Config) {v : Int} (hv : v < -1) {c c' : Conn} {o : Except Err Bool} (h : dbMigrateForward cfg v c = (o, c')) :
    c'.disk = c.disk := by
  obtain ⟨-, ⟨h1, e, rfl⟩ | ⟨fs, c2, h1, h2⟩⟩ := withConnection_cases _ h
  · exact h1
  · obtain ⟨n, hn⟩ : ∃ n, ((cfg.version : Int) - v).toNat = n + 1 := ⟨((cfg.version : Int) - v).toNat - 1, by omega⟩
    rw [hn] at h1
    have := transaction cfg (forwardLoop cfg (n + 1) (v + 1)) [.rename "x" "x"] (fun {d w c o c'} hc hf => by
      have hat : at' cfg.migrations (v + 1) = (M.throw (Err.std "vector::_M_range_check") : C String) := by
        unfold at'
        rw [if_pos (by omega)]
      rw [forwardLoop, hat] at hf
      rw [M.run_bind_err (M.throw_eq)] at hf
      simp only [Prod.mk.injEq] at hf
      obtain ⟨rfl, rfl⟩ := hf
      exact ⟨hc.1, by simp⟩) h1
    rw [h2]
    rcases this.1 with h3 | h3
    · exact h3
    · exfalso
      rw [execAll_append] at h3
      have : execAll c.disk [.rename "x" "x"] = none := by
        simp only [execAll, Stmt.exec]
        cases hg : c.disk.get "x" <;> simp [hg]
      rw [this] at h3
      cases h3

/-! ### Going back -/

/-- In a transaction opened by a savepoint. -/
def InSave (d w : Db) (n : String) (c : Conn) : Prop := c.disk = d ∧ c.tx = some ⟨w, false, [n]⟩

theorem stmt_inSave {x : Stmt} {d w : Db} {n : String} {c : Conn} {o : Except Err Bool} {c' : Conn} (hc : InSave d w n c)
    (h : command (Cmd.eff (.stmt x)) c = (o, c')) :
    c'.disk = d ∧ (o = .ok true → ∃ w', x.exec w = some w' ∧ InSave d w' n c') := by
  obtain ⟨rfl, ht⟩ := hc
  have hf : ∀ p, (Cmd.eff (.stmt x)) c.disk c.tx = some p → ∃ w', x.exec w = some w' ∧ p = (c.disk, some ⟨w', false, [n]⟩) := by
    intro p hp
    simp only [ht, Cmd.eff, stmtEff] at hp
    cases hx : x.exec w with
    | none => rw [hx] at hp; simp at hp
    | some w' => rw [hx] at hp; exact ⟨w', rfl, by simpa using hp.symm⟩
  rcases command_cases (Cmd.eff (.stmt x)) c with ⟨p, fs, h1, h2⟩ | ⟨t, fs, _, h2⟩ | ⟨d', fs, h1, h2⟩
  · rw [h2] at h
    cases h
    obtain ⟨w', e1, rfl⟩ := hf p h1
    exact ⟨rfl, fun _ => ⟨w', e1, rfl, rfl⟩⟩
  · rw [h2] at h
    cases h
    exact ⟨rfl, by simp⟩
  · rw [h2] at h
    cases h
    refine ⟨?_, by simp⟩
    rcases h1 with h1 | ⟨p, h1, rfl⟩
    · exact h1
    · obtain ⟨w', -, rfl⟩ := hf p h1
      rfl

theorem stmts_inSave : ∀ (body : List Stmt) {d w : Db} {n : String} {c : Conn} {o : Except Err Bool} {c' : Conn}, InSave d w n c →
    execScript (body.map .stmt ++ [.release n]) c = (o, c') →
    (c'.disk = d ∨ execAll w body = some c'.disk) ∧ (o = .ok true → execAll w body = some c'.disk ∧ c'.tx = none)
  | [], d, w, n, c, o, c', hc, h => by
    obtain ⟨rfl, ht⟩ := hc
    have hf : (Cmd.eff (.release n)) c.disk c.tx = some (w, none) := by
      simp [ht, Cmd.eff, releaseEff, List.dropWhile]
    simp only [List.map_nil, List.nil_append, execScript] at h
    rcases command_cases (Cmd.eff (.release n)) c with ⟨p, fs, h1, h2⟩ | ⟨t, fs, _, h2⟩ | ⟨d', fs, h1, h2⟩
    · rw [M.run_bind h2] at h
      rw [hf] at h1
      cases h1
      cases h
      exact ⟨.inr rfl, fun _ => ⟨rfl, rfl⟩⟩
    · rw [M.run_bind h2] at h
      cases h
      exact ⟨.inl rfl, by simp⟩
    · rw [M.run_bind_err h2] at h
      cases h
      refine ⟨?_, by simp⟩
      rcases h1 with rfl | ⟨p, h1, rfl⟩
      · exact .inl rfl
      · rw [hf] at h1
        cases h1
        exact .inr rfl
  | x :: body, d, w, n, c, o, c', hc, h => by
    simp only [List.map_cons, List.cons_append] at h
    rw [execScript] at h
    rcases M.bind_cases h with ⟨b, c1, h1, h2⟩ | ⟨e, h1, rfl⟩
    · obtain ⟨i1, i2⟩ := stmt_inSave hc h1
      cases b with
      | false =>
        simp only [Bool.false_eq_true, if_false, M.pure_eq, Prod.mk.injEq] at h2
        obtain ⟨rfl, rfl⟩ := h2
        exact ⟨.inl i1, by simp⟩
      | true =>
        obtain ⟨w1, e1, hc1⟩ := i2 rfl
        have := stmts_inSave body hc1 (by simpa using h2)
        simp only [execAll, e1]
        exact this
    · exact ⟨.inl (stmt_inSave hc h1).1, by simp⟩

theorem statements_wrapped (n : String) (body : List Stmt) : statements (.savepoint n :: (body.map .stmt ++ [.release n])) = body := by
  simp [statements, List.filterMap_append, List.filterMap_map, Function.comp_def]

/-- A script in a savepoint, outside of a transaction: all or nothing. -/
theorem wrapped_atomic {l : List Cmd} (hl : Wrapped l) {c c' : Conn} {o : Except Err Bool} (hc : c.tx = none) (h : execScript l c = (o, c')) :
    (c'.disk = c.disk ∨ execAll c.disk (statements l) = some c'.disk) ∧
    (o = .ok true → execAll c.disk (statements l) = some c'.disk ∧ c'.tx = none) := by
  rcases hl with rfl | ⟨n, body, rfl⟩
  · simp only [execScript, M.pure_eq, Prod.mk.injEq] at h
    obtain ⟨rfl, rfl⟩ := h
    exact ⟨.inl rfl, fun _ => ⟨rfl, hc⟩⟩
  · rw [statements_wrapped]
    rw [execScript] at h
    have hf : (Cmd.eff (.savepoint n)) c.disk c.tx = some (c.disk, some ⟨c.disk, false, [n]⟩) := by rw [hc]; rfl
    rcases command_cases (Cmd.eff (.savepoint n)) c with ⟨p, fs, h1, h2⟩ | ⟨t, fs, _, h2⟩ | ⟨d', fs, h1, h2⟩
    · rw [M.run_bind h2] at h
      rw [hf] at h1
      cases h1
      exact stmts_inSave body (c := ⟨c.disk, some ⟨c.disk, false, [n]⟩, fs⟩) (n := n) ⟨rfl, rfl⟩ (by simpa using h)
    · rw [M.run_bind h2] at h
      cases h
      exact ⟨.inl rfl, by simp⟩
    · rw [M.run_bind_err h2] at h
      cases h
      refine ⟨.inl ?_, by simp⟩
      rcases h1 with rfl | ⟨p, h1, rfl⟩
      · rfl
      · rw [hf] at h1
        cases h1
        rfl

/-- A query outside of a transaction. -/
theorem query_out {α : Type} (f : Db → α) {c c' : Conn} {o : Except Err (Option α)} (hc : c.tx = none) (h : query f c = (o, c')) :
    c'.disk = c.disk ∧ c'.tx = none ∧ ∀ a, o = .ok (some a) → a = f c.disk := by
  unfold query at h
  have hf : some (c.disk, c.tx) = some (c.disk, none) := by rw [hc]
  rcases command_cases (fun d t => some (d, t)) c with ⟨p, fs, h1, h2⟩ | ⟨t, fs, ht, h2⟩ | ⟨d', fs, h1, h2⟩
  · rw [M.run_bind h2] at h
    rw [hf] at h1
    cases h1
    simp only [if_true] at h
    rw [M.run_bind M.gets_eq] at h
    cases h
    exact ⟨rfl, rfl, fun a ha => by cases ha; rfl⟩
  · rw [M.run_bind h2] at h
    cases h
    refine ⟨rfl, ?_, by simp⟩
    rcases ht with rfl | rfl
    · exact hc
    · rfl
  · rw [M.run_bind_err h2] at h
    cases h
    refine ⟨?_, rfl, by simp⟩
    rcases h1 with rfl | ⟨p, h1, rfl⟩
    · rfl
    · rw [hf] at h1
      cases h1
      rfl

/-- A single statement outside of a transaction. -/
theorem stmt_out {x : Stmt} {c c' : Conn} {o : Except Err Bool} (hc : c.tx = none) (h : command (stmtEff x) c = (o, c')) :
    (c'.disk = c.disk ∨ execAll c.disk [x] = some c'.disk) ∧ (o = .ok true → execAll c.disk [x] = some c'.disk ∧ c'.tx = none) := by
  have hf : ∀ p, stmtEff x c.disk c.tx = some p → execAll c.disk [x] = some p.1 ∧ p.2 = none := by
    intro p hp
    simp only [hc, stmtEff] at hp
    cases hx : x.exec c.disk with
    | none => rw [hx] at hp; simp at hp
    | some w' => rw [hx] at hp; simp at hp; subst hp; simp [execAll, hx]
  rcases command_cases (stmtEff x) c with ⟨p, fs, h1, h2⟩ | ⟨t, fs, _, h2⟩ | ⟨d', fs, h1, h2⟩
  · rw [h2] at h
    cases h
    obtain ⟨e1, e2⟩ := hf p h1
    exact ⟨.inr e1, fun _ => ⟨e1, e2⟩⟩
  · rw [h2] at h
    cases h
    exact ⟨.inl rfl, by simp⟩
  · rw [h2] at h
    cases h
    refine ⟨?_, by simp⟩
    rcases h1 with rfl | ⟨p, h1, rfl⟩
    · exact .inl rfl
    · exact .inr (hf p h1).1

/-- Where going back can end: after some versions, or after the script of one whose row is still
there. -/
def BackEnd (cfg : Config) (v : Int) (db db' : Db) : Prop :=
  ∃ v' d, Back cfg v db v' d ∧ (db' = d ∨ ((cfg.version : Int) < v' ∧ ∃ s, StoredScript d v' s ∧ execAll d (statements (cfg.parse s)) = some db'))

theorem BackEnd.step {cfg : Config} {v : Int} {db d1 d2 db' : Db} {s : String} (lt : (cfg.version : Int) < v) (stored : StoredScript db v s)
    (script : execAll db (statements (cfg.parse s)) = some d1)
    (row : execAll d1 [.delete "rollback_migrations" "version_from" (.int v)] = some d2) (h : BackEnd cfg (v - 1) d2 db') :
    BackEnd cfg v db db' := by
  obtain ⟨v', d, h1, h2⟩ := h
  exact ⟨v', d, .step lt stored script row h1, h2⟩

theorem storedRollback_text {v : Int} {db : Db} {s : String} (h : storedRollback v db = some (some (.text s))) : StoredScript db v s := by
  unfold storedRollback at h
  cases hg : db.get "rollback_migrations" with
  | none => rw [hg] at h; simp at h
  | some t =>
    rw [hg] at h
    simp only [Option.some.injEq] at h
    cases hf : t.rows.find? (fun r => t.value r "version_from" == some (.int v)) with
    | none => rw [hf] at h; simp at h
    | some r =>
      rw [hf] at h
      exact ⟨t, r, hg, hf, h⟩

theorem backwardLoop_end (cfg : Config) : ∀ (n : Nat) (v : Int) {c c' : Conn} {o : Except Err Bool}, (cfg.version : Int) + n = v →
    c.tx = none → (∀ w d x, Back cfg v c.disk w d → storedRollback w d = some (some x) → ∃ s, x = .text s ∧ Wrapped (cfg.parse s)) → backwardLoop cfg n v c = (o, c') →
    BackEnd cfg v c.disk c'.disk ∧ (o = .ok true → Back cfg v c.disk cfg.version c'.disk)
  | 0, v, c, c', o, hv, hc, _, h => by
    simp only [backwardLoop, M.pure_eq, Prod.mk.injEq] at h
    obtain ⟨rfl, rfl⟩ := h
    simp only [Int.natCast_zero, Int.add_zero] at hv
    subst hv
    exact ⟨⟨_, _, .refl _ _, .inl rfl⟩, fun _ => .refl _ _⟩
  | n + 1, v, c, c', o, hv, hc, ht, h => by
    have hlt : (cfg.version : Int) < v := by omega
    have same : ∀ {d : Db}, d = c.disk → BackEnd cfg v c.disk d := fun hd => ⟨v, _, .refl _ _, .inl hd⟩
    rw [backwardLoop] at h
    rcases M.bind_cases h with ⟨b, c1, h1, h2⟩ | ⟨e, h1, rfl⟩
    · obtain ⟨i1, i2, i3⟩ := query_out _ hc h1
      cases b with
      | none =>
        cases h2
        exact ⟨same i1, by simp⟩
      | some b =>
        have hb := i3 b rfl
        cases b with
        | none =>
          cases h2
          exact ⟨same i1, by simp⟩
        | some b =>
          cases b with
          | none =>
            cases h2
            exact ⟨same i1, by simp⟩
          | some x =>
            obtain ⟨s, rfl, hw⟩ := ht v c.disk x (.refl _ _) hb.symm
            have hst := storedRollback_text hb.symm
            simp only at h2
            rw [M.run_bind (show throwWhen (Val.text s == Val.null) (.ub "dereferencing boost::none") c1 = (.ok (), c1) from rfl)] at h2
            rcases M.bind_cases h2 with ⟨b, c2, h3, h4⟩ | ⟨e, h3, rfl⟩
            · obtain ⟨j1, j2⟩ := wrapped_atomic hw i2 h3
              rw [i1] at j1 j2
              cases b with
              | false =>
                cases h4
                refine ⟨?_, by simp⟩
                rcases j1 with j1 | j1
                · exact same j1
                · exact ⟨v, _, .refl _ _, .inr ⟨hlt, s, hst, j1⟩⟩
              | true =>
                obtain ⟨k1, k2⟩ := j2 rfl
                simp only [Bool.not_true, Bool.false_eq_true, if_false] at h4
                rcases M.bind_cases h4 with ⟨b, c3, h5, h6⟩ | ⟨e, h5, rfl⟩
                · obtain ⟨l1, l2⟩ := stmt_out k2 h5
                  cases b with
                  | false =>
                    cases h6
                    refine ⟨?_, by simp⟩
                    rcases l1 with l1 | l1
                    · exact ⟨v, _, .refl _ _, .inr ⟨hlt, s, hst, by rw [l1]; exact k1⟩⟩
                    · exact ⟨v - 1, _, .step hlt hst k1 l1 (.refl _ _), .inl rfl⟩
                  | true =>
                    obtain ⟨m1, m2⟩ := l2 rfl
                    simp only [Bool.not_true, Bool.false_eq_true, if_false] at h6
                    obtain ⟨n1, n2⟩ := backwardLoop_end cfg n (v - 1) (by omega) m2
                      (fun w d x hb hx => ht w d x (.step hlt hst k1 m1 hb) hx) h6
                    exact ⟨n1.step hlt hst k1 m1, fun ho => .step hlt hst k1 m1 (n2 ho)⟩
                · obtain ⟨l1, -⟩ := stmt_out k2 h5
                  refine ⟨?_, by simp⟩
                  rcases l1 with l1 | l1
                  · exact ⟨v, _, .refl _ _, .inr ⟨hlt, s, hst, by rw [l1]; exact k1⟩⟩
                  · exact ⟨v - 1, _, .step hlt hst k1 l1 (.refl _ _), .inl rfl⟩
            · obtain ⟨j1, -⟩ := wrapped_atomic hw i2 h3
              rw [i1] at j1
              refine ⟨?_, by simp⟩
              rcases j1 with j1 | j1
              · exact same j1
              · exact ⟨v, _, .refl _ _, .inr ⟨hlt, s, hst, j1⟩⟩
    · obtain ⟨i1, -, -⟩ := query_out _ hc h1
      exact ⟨same i1, by simp⟩

/-! ### Reading the version -/

theorem atVersion_row {db : Db} {v : Int} (h : AtVersion db v) : versionRow db = some (some (.int v)) ∧ db.length ≠ 0 ∧ toInt32 v = v := by
  obtain ⟨t, r, h1, h2, h3, h4, h5⟩ := h
  refine ⟨?_, ?_, ?_⟩
  · unfold versionRow
    rw [h1]
    have : t.names.contains "version" = true := by
      unfold Table.value at h3
      cases hc : t.names.contains "version" with
      | true => rfl
      | false =>
        exfalso
        have hn : "version" ∉ t.names := by simpa using hc
        have : (t.names.zip r.vals).lookup "version" = none := by
          rw [List.lookup_eq_none_iff]
          intro p hp
          have := List.of_mem_zip (show (p.1, p.2) ∈ t.names.zip r.vals from hp)
          simp only [bne_iff_ne, ne_eq, beq_eq_false_iff_ne, Bool.not_eq_true]
          intro he
          exact hn (he ▸ this.1)
        rw [this] at h3
        cases h3
    simp only [this, if_true, h2, Option.bind_some, h3]
  · intro h
    have : db = [] := by cases db <;> simp_all
    subst this
    simp [Db.get, Named.get] at h1
  · unfold toInt32
    rw [Int.emod_eq_of_lt (by omega) (by omega)]
    omega

/-- Reading the version of a database. -/
theorem getVersion_cases {c c' : Conn} {o : Except Err Int} (h : getVersion c = (o, c')) :
    c'.disk = c.disk ∧ c'.tx = none ∧ ∀ v, o = .ok v → v = -2 ∨ (v = -1 ∧ c.disk = []) ∨
      (c.disk ≠ [] ∧ ∃ x, versionRow c.disk = some (some x) ∧ v = toInt32 (columnInt x)) := by
  unfold getVersion at h
  obtain ⟨h0, ⟨h1, e, rfl⟩ | ⟨fs, c2, h1, h2⟩⟩ := withConnection_cases _ h
  · exact ⟨h1, h0, by simp⟩
  · rcases M.bind_cases h1 with ⟨b, c1, h3, h4⟩ | ⟨e, h3, rfl⟩
    · obtain ⟨i1, i2, i3⟩ := query_out _ rfl h3
      simp only at i1 i3
      cases b with
      | none =>
        cases h4
        exact ⟨h2.trans i1, h0, fun v hv => by cases hv; exact .inl rfl⟩
      | some n =>
        have hn := i3 n rfl
        simp only at h4
        by_cases h5 : n = 0
        · rw [if_pos h5] at h4
          cases h4
          refine ⟨h2.trans i1, h0, fun v hv => ?_⟩
          cases hv
          exact .inr (.inl ⟨rfl, List.length_eq_zero_iff.1 (hn.symm.trans h5)⟩)
        · rw [if_neg h5] at h4
          rcases M.bind_cases h4 with ⟨b, c3, h6, h7⟩ | ⟨e, h6, rfl⟩
          · obtain ⟨j1, j2, j3⟩ := query_out _ i2 h6
            rw [i1] at j1 j3
            cases b with
            | none => cases h7; exact ⟨h2.trans j1, h0, fun v hv => by cases hv; exact .inl rfl⟩
            | some b =>
              have hb := j3 b rfl
              cases b with
              | none => cases h7; exact ⟨h2.trans j1, h0, fun v hv => by cases hv; exact .inl rfl⟩
              | some b =>
                cases b with
                | none => cases h7; exact ⟨h2.trans j1, h0, fun v hv => by cases hv; exact .inl rfl⟩
                | some x =>
                  cases h7
                  refine ⟨h2.trans j1, h0, fun v hv => .inr (.inr ⟨?_, x, hb.symm, by cases hv; rfl⟩)⟩
                  intro he
                  rw [he] at hn
                  exact h5 hn
          · obtain ⟨j1, -, -⟩ := query_out _ i2 h6
            rw [i1] at j1
            exact ⟨h2.trans j1, h0, by simp⟩
    · obtain ⟨i1, -, -⟩ := query_out _ rfl h3
      exact ⟨h2.trans i1, h0, by simp⟩

theorem getVersion_at {v : Int} {c c' : Conn} {w : Int} (hv : AtVersion c.disk v) (h : getVersion c = (.ok w, c')) : w = -2 ∨ w = v := by
  obtain ⟨r1, r2, r3⟩ := atVersion_row hv
  obtain ⟨-, -, h3⟩ := getVersion_cases h
  rcases h3 w rfl with h4 | ⟨-, h4⟩ | ⟨-, x, h4, rfl⟩
  · exact .inl h4
  · rw [h4] at r2; simp at r2
  · rw [r1] at h4
    cases h4
    exact .inr r3

/-! ### Opening -/

theorem migrate_open {cfg : Config} {ro : Bool} {c c' : Conn} {o : Except Err Unit} (h : openStorage cfg ro c = (o, c')) :
    ∃ o', dbMigrate cfg ro c = (o', c') ∧ (o = .ok () ↔ o' = .ok true) := by
  unfold openStorage at h
  rcases M.bind_cases h with ⟨b, c1, h1, h2⟩ | ⟨e, h1, rfl⟩
  · have hs := congrArg Prod.snd h2
    simp only [M.throwWhen_snd] at hs
    subst hs
    refine ⟨_, h1, ?_⟩
    cases b
    · cases o <;> simp [throwWhen] at h2 ⊢
    · simp [throwWhen] at h2
      simp [← h2]
  · exact ⟨_, h1, by simp⟩

/-- A database of an older version: whatever goes wrong and whenever, afterwards it is as it was, or
it is the complete database of the new version. -/
theorem C36_forward_atomic {cfg : Config} {ro : Bool} {v : Nat} {c c' : Conn} {o : Except Err Unit} (hv : AtVersion c.disk v)
    (hlt : v < cfg.version) (h : openStorage cfg ro c = (o, c')) : c'.disk = c.disk ∨ Migrated cfg v c.disk c'.disk := by
  obtain ⟨o', h, -⟩ := migrate_open h
  unfold dbMigrate at h
  rcases M.bind_cases h with ⟨w, c1, h1, h2⟩ | ⟨e, h1, rfl⟩
  · obtain ⟨g1, -, -⟩ := getVersion_cases h1
    rcases getVersion_at hv h1 with rfl | rfl
    · cases h2; exact .inl g1
    · rw [if_neg (by omega), if_neg (by omega)] at h2
      cases ro with
      | true => cases h2; exact .inl g1
      | false =>
        simp only [Bool.false_eq_true, if_false] at h2
        rw [if_neg (by omega), if_neg (by omega)] at h2
        rw [← g1]
        rcases M.bind_cases h2 with ⟨b, c2, h3, h4⟩ | ⟨e, h3, rfl⟩
        · cases h4
          exact (forward_atomic cfg h3).1
        · exact (forward_atomic cfg h3).1
  · exact .inl (getVersion_cases h1).1

/-- A new database: either it stays empty, or it is complete; and it is complete when opening
succeeds. -/
theorem C36_new {cfg : Config} {c c' : Conn} {o : Except Err Unit} (hv : c.disk = [])
    (h : openStorage cfg false c = (o, c')) : (c'.disk = [] ∨ Fresh cfg [] c'.disk) ∧ (o = .ok () → Fresh cfg [] c'.disk) := by
  obtain ⟨o', h, ho⟩ := migrate_open h
  rw [ho]
  unfold dbMigrate at h
  rcases M.bind_cases h with ⟨w, c1, h1, h2⟩ | ⟨e, h1, rfl⟩
  · obtain ⟨g1, -, g3⟩ := getVersion_cases h1
    rw [hv] at g1
    rcases g3 w rfl with rfl | ⟨rfl, -⟩ | ⟨hne, -⟩
    · cases h2; exact ⟨.inl g1, by simp⟩
    · rw [if_neg (by omega), if_neg (by omega)] at h2
      simp only [Bool.false_eq_true, if_false, if_true] at h2
      have := bootstrap_atomic cfg h2
      rw [g1] at this
      exact this
    · exact absurd hv hne
  · exact ⟨.inl ((getVersion_cases h1).1.trans hv), by simp⟩

/-- A database of the version of the program is not touched, nor is any in read-only mode; then
opening succeeds only if the version is right. -/
theorem C36_untouched {cfg : Config} {ro : Bool} {c c' : Conn} {o : Except Err Unit} (h : openStorage cfg ro c = (o, c'))
    (hv : ro = true ∨ AtVersion c.disk cfg.version) : c'.disk = c.disk ∧ (∀ v, AtVersion c.disk v → o = .ok () → v = cfg.version) := by
  obtain ⟨o', h, ho⟩ := migrate_open h
  rw [ho]
  unfold dbMigrate at h
  rcases M.bind_cases h with ⟨w, c1, h1, h2⟩ | ⟨e, h1, rfl⟩
  · obtain ⟨g1, -, -⟩ := getVersion_cases h1
    by_cases hw : w = -2
    · rw [if_pos hw] at h2
      cases h2
      exact ⟨g1, by simp⟩
    · rw [if_neg hw] at h2
      by_cases hc : w = (cfg.version : Int)
      · rw [if_pos hc] at h2
        cases h2
        refine ⟨g1, fun v hv' _ => ?_⟩
        rcases getVersion_at hv' h1 with h | h
        · exact absurd h hw
        · rw [← h]; exact hc
      · rw [if_neg hc] at h2
        rcases hv with rfl | hv
        · cases h2
          exact ⟨g1, by simp⟩
        · rcases getVersion_at hv h1 with h | h
          · exact absurd h hw
          · exact absurd h hc
  · exact ⟨(getVersion_cases h1).1, by simp⟩

/-- A database of a newer version, whose stored scripts are savepoints: afterwards it is at some
version on the way back, with at most the row of the last script still to be deleted. -/
theorem C36_backward {cfg : Config} {ro : Bool} {v : Int} {c c' : Conn} {o : Except Err Unit}
    (ht : ∀ w d x, Back cfg v c.disk w d → storedRollback w d = some (some x) → ∃ s, x = .text s ∧ Wrapped (cfg.parse s))
    (hv : AtVersion c.disk v) (hlt : (cfg.version : Int) < v) (h : openStorage cfg ro c = (o, c')) : BackEnd cfg v c.disk c'.disk := by
  have same : ∀ {d : Db}, d = c.disk → BackEnd cfg v c.disk d := fun hd => ⟨v, _, .refl _ _, .inl hd⟩
  obtain ⟨o', h, -⟩ := migrate_open h
  unfold dbMigrate at h
  rcases M.bind_cases h with ⟨w, c1, h1, h2⟩ | ⟨e, h1, rfl⟩
  · obtain ⟨g1, -, -⟩ := getVersion_cases h1
    rcases getVersion_at hv h1 with rfl | rfl
    · cases h2; exact same g1
    · by_cases h0 : w = -2
      · omega
      rw [if_neg h0, if_neg (by omega)] at h2
      cases ro with
      | true => cases h2; exact same g1
      | false =>
        simp only [Bool.false_eq_true, if_false] at h2
        rw [if_neg (by omega), if_pos hlt] at h2
        have key : ∀ {o c2}, dbMigrateBackward cfg w c1 = (o, c2) → BackEnd cfg w c.disk c2.disk := by
          intro o c2 hb
          obtain ⟨-, ⟨q1, e, rfl⟩ | ⟨fs, c3, q1, q2⟩⟩ := withConnection_cases _ hb
          · exact same (q1.trans g1)
          · rw [q2]
            rw [g1] at q1
            exact (backwardLoop_end cfg _ w (c := ⟨c.disk, none, fs⟩) (by omega) rfl ht q1).1
        rcases M.bind_cases h2 with ⟨b, c2, h3, h4⟩ | ⟨e, h3, rfl⟩
        · cases h4
          exact key h3
        · exact key h3
  · exact same (getVersion_cases h1).1

/-! ### Nothing goes wrong -/

theorem command_clean {f : Db → Option Tx → Option (Db × Option Tx)} {d : Db} {t : Option Tx} :
    command f ⟨d, t, []⟩ = match f d t with | none => (.ok false, ⟨d, t, []⟩) | some p => (.ok true, ⟨p.1, p.2, []⟩) := rfl

theorem stmts_clean : ∀ (body : List Stmt) (n : String) (d w : Db) (saves : List String),
    match execAll w body with
    | some w' => execScript (body.map .stmt ++ [.release n]) ⟨d, some ⟨w, true, n :: saves⟩, []⟩ = (.ok true, ⟨d, some ⟨w', true, saves⟩, []⟩)
    | none => ∃ t, execScript (body.map .stmt ++ [.release n]) ⟨d, some ⟨w, true, n :: saves⟩, []⟩ = (.ok false, ⟨d, t, []⟩)
  | [], n, d, w, saves => by
    simp only [execAll, List.map_nil, List.nil_append, execScript]
    rw [M.run_bind (show command (Cmd.eff (.release n)) ⟨d, some ⟨w, true, n :: saves⟩, []⟩ = (.ok true, ⟨d, some ⟨w, true, saves⟩, []⟩) by
      rw [command_clean]; simp [Cmd.eff, releaseEff, List.dropWhile])]
    rfl
  | x :: body, n, d, w, saves => by
    simp only [execAll, List.map_cons, List.cons_append, execScript]
    cases hx : x.exec w with
    | none =>
      simp only
      rw [M.run_bind (show command (Cmd.eff (.stmt x)) ⟨d, some ⟨w, true, n :: saves⟩, []⟩ = (.ok false, ⟨d, some ⟨w, true, n :: saves⟩, []⟩) by
        rw [command_clean]; simp [Cmd.eff, stmtEff, hx])]
      exact ⟨_, rfl⟩
    | some w1 =>
      simp only
      rw [M.run_bind (show command (Cmd.eff (.stmt x)) ⟨d, some ⟨w, true, n :: saves⟩, []⟩ = (.ok true, ⟨d, some ⟨w1, true, n :: saves⟩, []⟩) by
        rw [command_clean]; simp [Cmd.eff, stmtEff, hx])]
      exact stmts_clean body n d w1 saves

theorem script_clean {l : List Cmd} (hl : Wrapped l) (d w : Db) (saves : List String) :
    match execAll w (statements l) with
    | some w' => execScript l ⟨d, some ⟨w, true, saves⟩, []⟩ = (.ok true, ⟨d, some ⟨w', true, saves⟩, []⟩)
    | none => ∃ t, execScript l ⟨d, some ⟨w, true, saves⟩, []⟩ = (.ok false, ⟨d, t, []⟩) := by
  rcases hl with rfl | ⟨n, body, rfl⟩
  · rfl
  · rw [statements_wrapped]
    simp only [execScript]
    rw [M.run_bind (show command (Cmd.eff (.savepoint n)) ⟨d, some ⟨w, true, saves⟩, []⟩ = (.ok true, ⟨d, some ⟨w, true, n :: saves⟩, []⟩) from rfl)]
    exact stmts_clean body n d w saves

theorem forwardLoop_clean {cfg : Config} (hw : ∀ s ∈ cfg.migrations, Wrapped (cfg.parse s)) : ∀ (n k : Nat) (d w : Db) (saves : List String),
    k + n ≤ cfg.migrations.length →
    match execAll w ((List.range' k n).flatMap (fun k => statements (cfg.parse (cfg.migrations.getD k "")))) with
    | some w' => forwardLoop cfg n k ⟨d, some ⟨w, true, saves⟩, []⟩ = (.ok true, ⟨d, some ⟨w', true, saves⟩, []⟩)
    | none => ∃ t, forwardLoop cfg n k ⟨d, some ⟨w, true, saves⟩, []⟩ = (.ok false, ⟨d, t, []⟩)
  | 0, k, d, w, saves, _ => rfl
  | n + 1, k, d, w, saves, hk => by
    rw [List.range'_succ, List.flatMap_cons, execAll_append]
    simp only [forwardLoop]
    have hat : ∀ c : Conn, at' cfg.migrations k c = (.ok (cfg.migrations.getD k ""), c) := by
      intro c
      unfold at'
      rw [if_neg (by omega), Int.toNat_natCast, List.getElem?_eq_getElem (by omega)]
      simp only [M.pure_eq]
      rw [List.getD_eq_getElem?_getD, List.getElem?_eq_getElem (by omega)]
      rfl
    rw [M.run_bind (hat _)]
    have hmem : cfg.migrations.getD k "" ∈ cfg.migrations := by
      rw [List.getD_eq_getElem?_getD, List.getElem?_eq_getElem (show k < cfg.migrations.length by omega)]
      exact List.getElem_mem _
    have hs := script_clean (hw _ hmem) d w saves
    cases hx : execAll w (statements (cfg.parse (cfg.migrations.getD k ""))) with
    | none =>
      rw [hx] at hs
      obtain ⟨t, hs⟩ := hs
      simp only [Option.bind_none]
      rw [M.run_bind hs]
      exact ⟨t, rfl⟩
    | some w1 =>
      rw [hx] at hs
      simp only [Option.bind_some]
      rw [M.run_bind hs]
      exact forwardLoop_clean hw n (k + 1) d w1 saves (by omega)

theorem insertBack_clean {cfg : Config} : ∀ (n k : Nat) (d w w' : Db) (saves : List String), k + n ≤ cfg.rollbacks.length →
    execAll w ((List.range' k n).filterMap (fun k =>
        let s := cfg.rollbacks.getD k ""
        if s = "" then none else some (.replace "rollback_migrations" ["version_from", "migration"] [.int k, .text s]))) = some w' →
    insertBackLoop cfg n k ⟨d, some ⟨w, true, saves⟩, []⟩ = (.ok true, ⟨d, some ⟨w', true, saves⟩, []⟩)
  | 0, k, d, w, w', saves, _, h => by
    simp only [List.range'_zero, List.filterMap_nil, execAll, Option.some.injEq] at h
    subst h
    rfl
  | n + 1, k, d, w, w', saves, hk, h => by
    rw [insertBackLoop]
    have hat : ∀ c : Conn, at' cfg.rollbacks k c = (.ok (cfg.rollbacks.getD k ""), c) := by
      intro c
      unfold at'
      rw [if_neg (by omega), Int.toNat_natCast, List.getElem?_eq_getElem (by omega)]
      simp only [M.pure_eq]
      rw [List.getD_eq_getElem?_getD, List.getElem?_eq_getElem (by omega)]
      rfl
    rw [M.run_bind (hat _)]
    rw [List.range'_succ, List.filterMap_cons] at h
    simp only at h
    by_cases hs : cfg.rollbacks.getD k "" = ""
    · rw [if_pos hs]
      simp only [hs, if_true] at h
      exact insertBack_clean n (k + 1) d w w' saves (by omega) h
    · rw [if_neg hs]
      simp only [hs, if_false] at h
      rw [execAll] at h
      cases hx : (Stmt.replace "rollback_migrations" ["version_from", "migration"] [.int k, .text (cfg.rollbacks.getD k "")]).exec w with
      | none => rw [hx] at h; cases h
      | some w1 =>
        rw [hx] at h
        have hsome : (w.get "rollback_migrations").isSome = true := by
          cases hg : w.get "rollback_migrations" with
          | none => simp [Stmt.exec, hg] at hx
          | some t => rfl
        have hq : query (fun db => (db.get "rollback_migrations").isSome) ⟨d, some ⟨w, true, saves⟩, []⟩ =
            (.ok (some true), ⟨d, some ⟨w, true, saves⟩, []⟩) := by
          show (Except.ok (some (w.get "rollback_migrations").isSome), (⟨d, some ⟨w, true, saves⟩, []⟩ : Conn)) = _
          rw [hsome]
        rw [M.run_bind hq]
        rw [M.run_bind (show throwWhen (some true != some true) (.std "Could not prepare statement") _ = (.ok (), _) from rfl)]
        rw [M.run_bind (show command (stmtEff (.replace "rollback_migrations" ["version_from", "migration"] [.int k, .text (cfg.rollbacks.getD k "")]))
            ⟨d, some ⟨w, true, saves⟩, []⟩ = (.ok true, ⟨d, some ⟨w1, true, saves⟩, []⟩) by rw [command_clean]; simp only [stmtEff, hx, Option.map_some])]
        exact insertBack_clean n (k + 1) d w1 w' saves (by omega) h

theorem insertBackMigrations_clean {cfg : Config} {d w w' : Db} {saves : List String}
    (hr : cfg.rollbacks = [] ∨ cfg.version + 1 ≤ cfg.rollbacks.length) (h : execAll w (backRows cfg) = some w') :
    dbInsertBackMigrations cfg ⟨d, some ⟨w, true, saves⟩, []⟩ = (.ok true, ⟨d, some ⟨w', true, saves⟩, []⟩) := by
  unfold dbInsertBackMigrations
  rcases hr with hr | hr
  · have : backRows cfg = [] := by unfold backRows; rw [hr]; simp
    rw [this] at h
    simp only [execAll, Option.some.injEq] at h
    subst h
    simp [hr, M.pure_eq]
  · rw [if_neg (by cases hh : cfg.rollbacks <;> simp [hh] at hr ⊢), if_neg (by omega)]
    exact insertBack_clean cfg.version 1 d w w' saves (by omega) h

theorem getVersion_clean {d : Db} {v : Int} (hv : AtVersion d v) (t : Option Tx) : getVersion ⟨d, t, []⟩ = (.ok v, ⟨d, none, []⟩) := by
  obtain ⟨r1, r2, r3⟩ := atVersion_row hv
  have hq : ∀ {α : Type} (f : Db → α), query f ⟨d, none, []⟩ = (.ok (some (f d)), ⟨d, none, []⟩) := fun f => rfl
  unfold getVersion withConnection
  simp only [command_clean]
  rw [M.run_bind (hq _)]
  simp only
  rw [if_neg r2, M.run_bind (hq _), r1]
  simp [columnInt, r3, M.pure_eq]

/-- A migration that can be executed, is. -/
theorem C36_completes {cfg : Config} {v : Nat} {d d' : Db} (hw : ∀ s ∈ cfg.migrations, Wrapped (cfg.parse s)) (hm : cfg.version + 1 ≤ cfg.migrations.length)
    (hr : cfg.rollbacks = [] ∨ cfg.version + 1 ≤ cfg.rollbacks.length) (hv : AtVersion d v) (hlt : v < cfg.version) (h : Migrated cfg v d d') :
    openStorage cfg false ⟨d, none, []⟩ = (.ok (), ⟨d', none, []⟩) := by
  unfold Migrated at h
  rw [execAll_append] at h
  cases hx : execAll d (upScripts cfg v) with
  | none => rw [hx] at h; cases h
  | some w =>
    rw [hx] at h
    simp only [Option.bind_some] at h
    have hn : ((cfg.version : Int) - (v : Int)).toNat = cfg.version - v := by omega
    have hfwd : dbMigrateForward cfg v ⟨d, none, []⟩ = (.ok true, ⟨d', none, []⟩) := by
      unfold dbMigrateForward withConnection
      simp only [command_clean, hn]
      rw [M.run_bind (show command beginEff ⟨d, none, []⟩ = (.ok true, ⟨d, some ⟨d, true, []⟩, []⟩) from rfl)]
      have hl := forwardLoop_clean hw (cfg.version - v) (v + 1) d d [] (by omega)
      unfold upScripts at hx
      rw [hx] at hl
      simp only at hl
      simp only [Bool.not_true, Bool.false_eq_true, if_false]
      rw [M.run_bind (show forwardLoop cfg (cfg.version - v) ((v : Int) + 1) ⟨d, some ⟨d, true, []⟩, []⟩ = _ by simpa using hl)]
      simp only [Bool.not_true, Bool.false_eq_true, if_false]
      rw [M.run_bind (insertBackMigrations_clean hr h)]
      simp only [Bool.not_true, Bool.false_eq_true, if_false]
      rfl
    unfold openStorage dbMigrate
    rw [M.run_bind (show (do
      let v ← getVersion
      if v = -2 then pure false
      else if v = (cfg.version : Int) then pure true
      else if false = true then pure false
      else if v = -1 then bootstrap cfg
      else if v > (cfg.version : Int) then do
        let _ ← dbMigrateBackward cfg v
        pure true
      else do
        let _ ← dbMigrateForward cfg v
        pure true : C Bool) ⟨d, none, []⟩ = (.ok true, ⟨d', none, []⟩) by
      rw [M.run_bind (getVersion_clean hv none)]
      rw [if_neg (by omega), if_neg (by omega), if_neg (by simp), if_neg (by omega), if_neg (by omega)]
      rw [M.run_bind hfwd]
      rfl)]
    rfl

/-- A migration that cannot be executed leaves the database alone, but opening the storage succeeds
nevertheless: the result of `dbMigrateForward` is dropped. -/
theorem C36_failure_hidden {cfg : Config} {v : Nat} {d : Db} (hw : ∀ s ∈ cfg.migrations, Wrapped (cfg.parse s)) (hm : cfg.version + 1 ≤ cfg.migrations.length)
    (hv : AtVersion d v) (hlt : v < cfg.version) (h : execAll d (upScripts cfg v) = none) :
    openStorage cfg false ⟨d, none, []⟩ = (.ok (), ⟨d, none, []⟩) := by
  have hn : ((cfg.version : Int) - (v : Int)).toNat = cfg.version - v := by omega
  have hfwd : dbMigrateForward cfg v ⟨d, none, []⟩ = (.ok false, ⟨d, none, []⟩) := by
    unfold dbMigrateForward withConnection
    simp only [command_clean, hn]
    rw [M.run_bind (show command beginEff ⟨d, none, []⟩ = (.ok true, ⟨d, some ⟨d, true, []⟩, []⟩) from rfl)]
    have hl := forwardLoop_clean hw (cfg.version - v) (v + 1) d d [] (by omega)
    unfold upScripts at h
    rw [h] at hl
    obtain ⟨t, hl⟩ := hl
    simp only [Bool.not_true, Bool.false_eq_true, if_false]
    rw [M.run_bind (show forwardLoop cfg (cfg.version - v) ((v : Int) + 1) ⟨d, some ⟨d, true, []⟩, []⟩ = _ by simpa using hl)]
    rfl
  unfold openStorage dbMigrate
  rw [M.run_bind (show (do
      let v ← getVersion
      if v = -2 then pure false
      else if v = (cfg.version : Int) then pure true
      else if false = true then pure false
      else if v = -1 then bootstrap cfg
      else if v > (cfg.version : Int) then do
        let _ ← dbMigrateBackward cfg v
        pure true
      else do
        let _ ← dbMigrateForward cfg v
        pure true : C Bool) ⟨d, none, []⟩ = (.ok true, ⟨d, none, []⟩) by
      rw [M.run_bind (getVersion_clean hv none)]
      rw [if_neg (by omega), if_neg (by omega), if_neg (by simp), if_neg (by omega), if_neg (by omega)]
      rw [M.run_bind hfwd]
      rfl)]
  rfl

/-- The database after openings during which anything went wrong. -/
def afterOpenings (cfg : Config) (d : Db) (fs : List (List (Option Fault))) : Db :=
  fs.foldl (fun d f => (openStorage cfg false ⟨d, none, f⟩).2.disk) d

/-- Openings that are interrupted any number of times: the database is the old or the new one, and
one opening where nothing goes wrong completes the migration. -/
theorem C36_retry {cfg : Config} {v : Nat} {d d' : Db} (hw : ∀ s ∈ cfg.migrations, Wrapped (cfg.parse s)) (hm : cfg.version + 1 ≤ cfg.migrations.length)
    (hr : cfg.rollbacks = [] ∨ cfg.version + 1 ≤ cfg.rollbacks.length) (hv : AtVersion d v) (hlt : v < cfg.version) (h : Migrated cfg v d d')
    (hv' : AtVersion d' cfg.version) (fs : List (List (Option Fault))) :
    (afterOpenings cfg d fs = d ∨ afterOpenings cfg d fs = d') ∧
    openStorage cfg false ⟨afterOpenings cfg d fs, none, []⟩ = (.ok (), ⟨d', none, []⟩) := by
  have hnew : ∀ fs, afterOpenings cfg d' fs = d' := by
    intro fs
    induction fs with
    | nil => rfl
    | cons f fs ih =>
      simp only [afterOpenings, List.foldl_cons]
      rw [(C36_untouched (cfg := cfg) (ro := false) (c := ⟨d', none, f⟩) (o := (openStorage cfg false ⟨d', none, f⟩).1)
        (c' := (openStorage cfg false ⟨d', none, f⟩).2) rfl (.inr hv')).1]
      exact ih
  have hor : ∀ fs, afterOpenings cfg d fs = d ∨ afterOpenings cfg d fs = d' := by
    intro fs
    induction fs with
    | nil => exact .inl rfl
    | cons f fs ih =>
      simp only [afterOpenings, List.foldl_cons]
      rcases C36_forward_atomic (cfg := cfg) (ro := false) (c := ⟨d, none, f⟩) (o := (openStorage cfg false ⟨d, none, f⟩).1)
          (c' := (openStorage cfg false ⟨d, none, f⟩).2) hv hlt rfl with hd | hd
      · rw [hd]; exact ih
      · simp only [Migrated] at hd h
        rw [h] at hd
        simp only [Option.some.injEq] at hd
        rw [← hd]
        exact .inr (hnew fs)
  refine ⟨hor fs, ?_⟩
  rcases hor fs with hd | hd
  · rw [hd]
    exact C36_completes hw hm hr hv hlt h
  · rw [hd]
    unfold openStorage dbMigrate
    rw [M.run_bind (show (do
      let v ← getVersion
      if v = -2 then pure false
      else if v = (cfg.version : Int) then pure true
      else if false = true then pure false
      else if v = -1 then bootstrap cfg
      else if v > (cfg.version : Int) then do
        let _ ← dbMigrateBackward cfg v
        pure true
      else do
        let _ ← dbMigrateForward cfg v
        pure true : C Bool) ⟨d', none, []⟩ = (.ok true, ⟨d', none, []⟩) by
      rw [M.run_bind (getVersion_clean hv' none)]
      rw [if_neg (by omega), if_pos rfl]
      rfl)]
    rfl

/-! ### Going back without interruption -/

theorem stmts_single : ∀ (body : List Stmt) (n : String) (d w : Db),
    match execAll w body with
    | some w' => execScript (body.map .stmt ++ [.release n]) ⟨d, some ⟨w, false, [n]⟩, []⟩ = (.ok true, ⟨w', none, []⟩)
    | none => ∃ t, execScript (body.map .stmt ++ [.release n]) ⟨d, some ⟨w, false, [n]⟩, []⟩ = (.ok false, ⟨d, t, []⟩)
  | [], n, d, w => by
    simp only [execAll, List.map_nil, List.nil_append, execScript]
    rw [M.run_bind (show command (Cmd.eff (.release n)) ⟨d, some ⟨w, false, [n]⟩, []⟩ = (.ok true, ⟨w, none, []⟩) by
      rw [command_clean]; simp [Cmd.eff, releaseEff, List.dropWhile])]
    rfl
  | x :: body, n, d, w => by
    simp only [execAll, List.map_cons, List.cons_append, execScript]
    cases hx : x.exec w with
    | none =>
      simp only
      rw [M.run_bind (show command (Cmd.eff (.stmt x)) ⟨d, some ⟨w, false, [n]⟩, []⟩ = (.ok false, ⟨d, some ⟨w, false, [n]⟩, []⟩) by
        rw [command_clean]; simp [Cmd.eff, stmtEff, hx])]
      exact ⟨_, rfl⟩
    | some w1 =>
      simp only
      rw [M.run_bind (show command (Cmd.eff (.stmt x)) ⟨d, some ⟨w, false, [n]⟩, []⟩ = (.ok true, ⟨d, some ⟨w1, false, [n]⟩, []⟩) by
        rw [command_clean]; simp [Cmd.eff, stmtEff, hx])]
      exact stmts_single body n d w1

theorem script_single {l : List Cmd} (hl : Wrapped l) (d : Db) :
    match execAll d (statements l) with
    | some w' => execScript l ⟨d, none, []⟩ = (.ok true, ⟨w', none, []⟩)
    | none => ∃ t, execScript l ⟨d, none, []⟩ = (.ok false, ⟨d, t, []⟩) := by
  rcases hl with rfl | ⟨n, body, rfl⟩
  · rfl
  · rw [statements_wrapped]
    simp only [execScript]
    rw [M.run_bind (show command (Cmd.eff (.savepoint n)) ⟨d, none, []⟩ = (.ok true, ⟨d, some ⟨d, false, [n]⟩, []⟩) from rfl)]
    exact stmts_single body n d d

theorem stored_text {db : Db} {v : Int} {s : String} (h : StoredScript db v s) : storedRollback v db = some (some (.text s)) := by
  obtain ⟨t, r, h1, h2, h3⟩ := h
  unfold storedRollback
  simp only [h1, h2, Option.bind_some, h3]

theorem back_start {cfg : Config} (n : Nat) (v : Int) {d : Db} {s : String} (h : StoredScript d v s) (hw : Wrapped (cfg.parse s)) :
    match execAll d (statements (cfg.parse s)) with
    | none => ∃ t, backwardLoop cfg (n + 1) v ⟨d, none, []⟩ = (.ok false, ⟨d, t, []⟩)
    | some d1 => match execAll d1 [.delete "rollback_migrations" "version_from" (.int v)] with
      | none => backwardLoop cfg (n + 1) v ⟨d, none, []⟩ = (.ok false, ⟨d1, none, []⟩)
      | some d2 => backwardLoop cfg (n + 1) v ⟨d, none, []⟩ = backwardLoop cfg n (v - 1) ⟨d2, none, []⟩ := by
  have hq : query (storedRollback v) ⟨d, none, []⟩ = (.ok (some (some (some (.text s)))), ⟨d, none, []⟩) := by
    unfold query
    rw [M.run_bind (show command (fun d t => some (d, t)) ⟨d, none, []⟩ = (.ok true, ⟨d, none, []⟩) from rfl)]
    simp only [if_true]
    rw [← stored_text h]
    rfl
  have hs := script_single hw d
  rw [backwardLoop]
  have h0 : ∀ c : Conn, throwWhen (Val.text s == Val.null) (.ub "dereferencing boost::none") c = (.ok (), c) := fun _ => rfl
  cases hx : execAll d (statements (cfg.parse s)) with
  | none =>
    rw [hx] at hs
    obtain ⟨t, hs⟩ := hs
    refine ⟨t, ?_⟩
    rw [M.run_bind hq]
    simp only
    rw [M.run_bind (h0 _), M.run_bind hs]
    rfl
  | some d1 =>
    rw [hx] at hs
    simp only at hs ⊢
    have hd : command (stmtEff (.delete "rollback_migrations" "version_from" (.int v))) ⟨d1, none, []⟩ =
        match execAll d1 [.delete "rollback_migrations" "version_from" (.int v)] with
        | none => (.ok false, ⟨d1, none, []⟩)
        | some d2 => (.ok true, ⟨d2, none, []⟩) := by
      rw [command_clean]
      simp only [stmtEff, execAll]
      cases Stmt.exec d1 (.delete "rollback_migrations" "version_from" (.int v)) <;> rfl
    cases hy : execAll d1 [.delete "rollback_migrations" "version_from" (.int v)] with
    | none =>
      rw [hy] at hd
      simp only
      rw [M.run_bind hq]
      simp only
      rw [M.run_bind (h0 _), M.run_bind hs]
      simp only [Bool.not_true, Bool.false_eq_true, if_false]
      rw [M.run_bind hd]
      rfl
    | some d2 =>
      rw [hy] at hd
      simp only
      rw [M.run_bind hq]
      simp only
      rw [M.run_bind (h0 _), M.run_bind hs]
      simp only [Bool.not_true, Bool.false_eq_true, if_false]
      rw [M.run_bind hd]
      rfl

theorem back_run {cfg : Config} {v w : Int} {d d' : Db} (h : Back cfg v d w d') (hle : (cfg.version : Int) ≤ w)
    (hw : ∀ w d1 s, Back cfg v d w d1 → StoredScript d1 w s → Wrapped (cfg.parse s)) :
    backwardLoop cfg (v - cfg.version).toNat v ⟨d, none, []⟩ = backwardLoop cfg (w - cfg.version).toNat w ⟨d', none, []⟩ := by
  induction h with
  | refl => rfl
  | @step v v' db d1 d2 db' s lt stored script row rest ih =>
    have h1 := back_start (cfg := cfg) (v - 1 - cfg.version).toNat v stored (hw v db s (.refl _ _) stored)
    rw [script] at h1
    simp only [row] at h1
    rw [show (v - (cfg.version : Int)).toNat = (v - 1 - cfg.version).toNat + 1 by omega, h1]
    exact ih hle (fun w d1 s hb hst => hw w d1 s (.step lt stored script row hb) hst)

theorem open_back {cfg : Config} {v : Int} {d d' : Db} {t : Option Tx} {b : Bool} (hv : AtVersion d v) (hlt : (cfg.version : Int) < v)
    (h : backwardLoop cfg (v - cfg.version).toNat v ⟨d, none, []⟩ = (.ok b, ⟨d', t, []⟩)) :
    openStorage cfg false ⟨d, none, []⟩ = (.ok (), ⟨d', none, []⟩) := by
  have hb : dbMigrateBackward cfg v ⟨d, none, []⟩ = (.ok b, ⟨d', none, []⟩) := by
    unfold dbMigrateBackward withConnection
    simp only [command_clean]
    rw [h]
  have hg : getVersion ⟨d, none, []⟩ = (.ok v, ⟨d, none, []⟩) := getVersion_clean hv none
  have hm : dbMigrate cfg false ⟨d, none, []⟩ = (.ok true, ⟨d', none, []⟩) := by
    unfold dbMigrate
    rw [M.run_bind hg, if_neg (by omega), if_neg (by omega)]
    simp only [Bool.false_eq_true, if_false]
    rw [if_neg (by omega), if_pos (by omega), M.run_bind hb]
    rfl
  unfold openStorage
  rw [M.run_bind hm]
  rfl

/-- Without interruption an older program takes the database back to its own version, if the stored
scripts do. -/
theorem C36_backward_completes {cfg : Config} {v : Int} {d d' : Db}
    (hw : ∀ w d1 s, Back cfg v d w d1 → StoredScript d1 w s → Wrapped (cfg.parse s))
    (hv : AtVersion d v) (hlt : (cfg.version : Int) < v) (h : Back cfg v d cfg.version d') :
    openStorage cfg false ⟨d, none, []⟩ = (.ok (), ⟨d', none, []⟩) := by
  have h1 := back_run h (Int.le_refl _) hw
  simp only [Int.sub_self, Int.toNat_zero, backwardLoop] at h1
  exact open_back hv hlt h1

/-- When a stored script fails, opening the storage does not report it: the older program goes on
with a database of a version in between. -/
theorem C36_backward_failure_hidden {cfg : Config} {v w : Int} {d d' : Db} {s : String}
    (hw : ∀ w d1 s, Back cfg v d w d1 → StoredScript d1 w s → Wrapped (cfg.parse s))
    (hv : AtVersion d v) (h : Back cfg v d w d') (hlt : (cfg.version : Int) < w) (hs : StoredScript d' w s)
    (hfail : execAll d' (statements (cfg.parse s)) = none) :
    openStorage cfg false ⟨d, none, []⟩ = (.ok (), ⟨d', none, []⟩) := by
  have h1 := back_run h (Int.le_of_lt hlt) hw
  have hle : w ≤ v := by
    clear h1 hfail hs hlt hv hw
    induction h with
    | refl => omega
    | step _ _ _ _ _ ih => omega
  have h2 := back_start (cfg := cfg) (w - 1 - cfg.version).toNat w hs (hw w d' s h hs)
  rw [hfail] at h2
  obtain ⟨t, h2⟩ := h2
  rw [show (w - (cfg.version : Int)).toNat = (w - 1 - cfg.version).toNat + 1 by omega, h2] at h1
  exact open_back hv (by omega) h1

end Aktualizr.Mig
