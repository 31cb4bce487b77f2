import Verif.Model.Campaign
import Verif.Lemmas.Text
import Verif.Lemmas.Except
import Verif.Props.C17

/-!
# C67: Campaigns
-/

namespace Aktualizr
namespace Camp

/-! ## What a campaign document is -/

/-- The values of the entries of a type in the list of metadata. -/
def valuesOf (type : String) (os : List Json) : List Json :=
  os.filterMap fun o =>
    match o with
    | .obj kvs => if ((kvs.lookup "type").getD .null).isStr type then some ((kvs.lookup "value").getD .null) else none
    | _ => none

/-- `v` is the only value, if there is one, apart from earlier ones that say nothing. -/
def Single {α : Type} (d : α) (vs : List α) (v : α) : Prop :=
  (vs = [] ∧ v = d) ∨ ∃ zs, vs = zs ++ [v] ∧ ∀ z ∈ zs, z = d

/-- The texts of values. -/
def Texts (js : List Json) (ts : List String) : Prop := js.map Json.asString = ts.map .ok

/-- The numbers in the texts of values. -/
def Numbers (js : List Json) (ns : List Int) : Prop := ∃ ts, Texts js ts ∧ ts.map (fun t => stoi t.toList) = ns.map .ok

/-- The document describes the campaign. -/
structure IsCampaign (kvs : List (String × Json)) (c : Campaign) : Prop where
  id : ((kvs.lookup "id").getD .null).asString = .ok c.id
  idGiven : c.id ≠ ""
  name : ((kvs.lookup "name").getD .null).asString = .ok c.name
  nameGiven : c.name ≠ ""
  size : ((kvs.lookup "size").getD .null).asInt64 = .ok c.size
  autoAccept : ((kvs.lookup "autoAccept").getD .null).asBool = .ok c.autoAccept
  description : ∃ vs, Texts (valuesOf "DESCRIPTION" ((kvs.lookup "metadata").getD .null).elems) vs ∧ Single "" vs c.description
  install : ∃ vs, Numbers (valuesOf "ESTIMATED_INSTALLATION_DURATION" ((kvs.lookup "metadata").getD .null).elems) vs ∧ Single 0 vs c.install
  prepare : ∃ vs, Numbers (valuesOf "ESTIMATED_PREPARATION_DURATION" ((kvs.lookup "metadata").getD .null).elems) vs ∧ Single 0 vs c.prepare

/-- The value is such a document. -/
def Describes (j : Json) (c : Campaign) : Prop := ∃ kvs, j = .obj kvs ∧ IsCampaign kvs c

/-! ## Lemmas -/

/-- `Single` from a value already there. -/
def Steps {α : Type} (d : α) : α → List α → α → Prop
  | cur, [], v => v = cur
  | cur, x :: xs, v => cur = d ∧ Steps d x xs v

theorem steps_single {α : Type} (d : α) (vs : List α) (v : α) : Steps d d vs v ↔ Single d vs v := by
  have key : ∀ (vs : List α) (x : α), Steps d x vs v ↔ ∃ zs, x :: vs = zs ++ [v] ∧ ∀ z ∈ zs, z = d := by
    intro vs
    induction vs with
    | nil =>
      intro x
      constructor
      · intro h; cases h; exact ⟨[], rfl, by simp⟩
      · rintro ⟨zs, h, -⟩
        cases zs with
        | nil => simpa [Steps] using (List.cons.inj h).1.symm
        | cons z zs => simp at h
    | cons y ys ih =>
      intro x
      simp only [Steps, ih]
      constructor
      · rintro ⟨rfl, zs, h, hz⟩
        exact ⟨x :: zs, by rw [h]; rfl, by simpa using hz⟩
      · rintro ⟨zs, h, hz⟩
        cases zs with
        | nil => simp at h
        | cons z zs =>
          obtain ⟨rfl, h⟩ := List.cons.inj h
          exact ⟨hz _ (by simp), zs, by simpa using h, fun z hz' => hz z (by simp [hz'])⟩
  cases vs with
  | nil => simp [Steps, Single]
  | cons x xs =>
    simp only [Steps, key, Single]
    simp

theorem metadataStep_other {o : Json} (c : Campaign) (h : o.isObject = false) : metadataStep c o = .ok c := by
  unfold metadataStep; simp [h]

theorem valuesOf_other {o : Json} (t : String) (os : List Json) (h : o.isObject = false) : valuesOf t (o :: os) = valuesOf t os := by
  unfold valuesOf
  cases o <;> first | rfl | (simp [Json.isObject] at h)

theorem valuesOf_obj (t : String) (kvs : List (String × Json)) (os : List Json) :
    valuesOf t (.obj kvs :: os) =
      if ((kvs.lookup "type").getD .null).isStr t then ((kvs.lookup "value").getD .null) :: valuesOf t os else valuesOf t os := by
  unfold valuesOf
  rw [List.filterMap_cons]
  by_cases h : ((kvs.lookup "type").getD .null).isStr t = true
  · simp [h]
  · simp [h]

theorem isStr_iff (j : Json) (t : String) : j.isStr t = true ↔ j = .str t := by
  cases j <;> simp [Json.isStr]

theorem texts_cons (j : Json) (js : List Json) (ts : List String) :
    Texts (j :: js) ts ↔ ∃ t r, ts = t :: r ∧ j.asString = .ok t ∧ Texts js r := by
  unfold Texts
  cases ts with
  | nil => simp
  | cons t r =>
    simp only [List.map_cons, List.cons.injEq]
    constructor
    · rintro ⟨h1, h2⟩; exact ⟨t, r, ⟨rfl, rfl⟩, h1, h2⟩
    · rintro ⟨t', r', ⟨rfl, rfl⟩, h1, h2⟩; exact ⟨h1, h2⟩

theorem numbers_cons (j : Json) (js : List Json) (ns : List Int) :
    Numbers (j :: js) ns ↔ ∃ n r t, ns = n :: r ∧ j.asString = .ok t ∧ stoi t.toList = .ok n ∧ Numbers js r := by
  unfold Numbers
  constructor
  · rintro ⟨ts, h1, h2⟩
    obtain ⟨t, r, rfl, h3, h4⟩ := (texts_cons _ _ _).1 h1
    cases ns with
    | nil => simp at h2
    | cons n ns =>
      simp only [List.map_cons, List.cons.injEq] at h2
      exact ⟨n, ns, t, rfl, h3, h2.1, r, h4, h2.2⟩
  · rintro ⟨n, r, t, rfl, h1, h2, ts, h3, h4⟩
    exact ⟨t :: ts, (texts_cons _ _ _).2 ⟨t, ts, rfl, h1, h3⟩, by simp [h2, h4]⟩

/-- What the loop has read from `c0` on. -/
structure Loop (os : List Json) (c0 c : Campaign) : Prop where
  same : c = { c0 with description := c.description, install := c.install, prepare := c.prepare }
  description : ∃ vs, Texts (valuesOf "DESCRIPTION" os) vs ∧ Steps "" c0.description vs c.description
  install : ∃ vs, Numbers (valuesOf "ESTIMATED_INSTALLATION_DURATION" os) vs ∧ Steps 0 c0.install vs c.install
  prepare : ∃ vs, Numbers (valuesOf "ESTIMATED_PREPARATION_DURATION" os) vs ∧ Steps 0 c0.prepare vs c.prepare

theorem throwIf_ok_iff {b : Bool} {e : Err} : throwIf b e = .ok () ↔ b = false := by cases b <;> simp [throwIf]

theorem metadataLoop_iff (os : List Json) (c0 c : Campaign) : metadataLoop os c0 = .ok c ↔ Loop os c0 c := by
  induction os generalizing c0 with
  | nil =>
    constructor
    · intro h; cases h
      exact ⟨rfl, ⟨[], rfl, rfl⟩, ⟨[], ⟨[], rfl, rfl⟩, rfl⟩, ⟨[], ⟨[], rfl, rfl⟩, rfl⟩⟩
    · rintro ⟨h, ⟨vs, h1, h2⟩, ⟨ws, ⟨_, h3, h3'⟩, h4⟩, ⟨us, ⟨_, h5, h5'⟩, h6⟩⟩
      have e1 : vs = [] := by simpa [Texts, valuesOf] using h1
      have e2 : ws = [] := by simp [Texts, valuesOf] at h3; subst h3; simpa using h3'
      have e3 : us = [] := by simp [Texts, valuesOf] at h5; subst h5; simpa using h5'
      subst e1 e2 e3
      simp only [Steps] at h2 h4 h6
      rw [h, h2, h4, h6]
      rfl
  | cons o os ih =>
    have hloop : ∀ c0, metadataLoop (o :: os) c0 = (metadataStep c0 o).bind (metadataLoop os) := fun _ => rfl
    rw [hloop]
    cases ho : o.isObject with
    | false =>
      rw [metadataStep_other _ ho]
      simp only [Except.bind, ih]
      constructor
      · rintro ⟨h1, h2, h3, h4⟩
        exact ⟨h1, by rwa [valuesOf_other _ _ ho], by rwa [valuesOf_other _ _ ho], by rwa [valuesOf_other _ _ ho]⟩
      · rintro ⟨h1, h2, h3, h4⟩
        exact ⟨h1, by rwa [valuesOf_other _ _ ho] at h2, by rwa [valuesOf_other _ _ ho] at h3, by rwa [valuesOf_other _ _ ho] at h4⟩
    | true =>
      obtain ⟨kvs, rfl⟩ : ∃ kvs, o = .obj kvs := by cases o <;> first | exact ⟨_, rfl⟩ | (simp [Json.isObject] at ho)
      have hd := valuesOf_obj "DESCRIPTION" kvs os
      have hi := valuesOf_obj "ESTIMATED_INSTALLATION_DURATION" kvs os
      have hp := valuesOf_obj "ESTIMATED_PREPARATION_DURATION" kvs os
      have hbind : (metadataStep c0 (.obj kvs)).bind (metadataLoop os) = .ok c ↔ ∃ r, metadataStep c0 (.obj kvs) = .ok r ∧ Loop os r c := by
        cases hm : metadataStep c0 (.obj kvs) with
        | error e => simp [Except.bind]
        | ok r => simp [Except.bind, ih]
      rw [hbind]
      by_cases k0 : ((kvs.lookup "type").getD .null).isStr "DESCRIPTION" = true
      · have k' := (isStr_iff _ _).1 k0
        rw [k'] at hd hi hp
        simp [Json.isStr] at hd hi hp
        have hstep : ∀ r, metadataStep c0 (.obj kvs) = .ok r ↔ c0.description = "" ∧ ∃ t, ((kvs.lookup "value").getD .null).asString = .ok t ∧ r = { c0 with description := t } := by
          intro r
          unfold metadataStep
          simp only [Json.isObject, Json.get, k', Json.isStr]
          simp
          grind
        constructor
        · rintro ⟨r, hr, h⟩
          obtain ⟨e0, t, e1, rfl⟩ := (hstep r).1 hr
          obtain ⟨h1, h2, h3, h4⟩ := h
          refine ⟨h1, ?_, ?_, ?_⟩
          · obtain ⟨vs, g1, g2⟩ := h2
            rw [hd]
            exact ⟨t :: vs, (texts_cons _ _ _).2 ⟨t, vs, rfl, e1, g1⟩, e0, g2⟩
          · rwa [hi]
          · rwa [hp]
        · rintro ⟨h1, h2, h3, h4⟩
          rw [hd] at h2; rw [hi] at h3; rw [hp] at h4
          obtain ⟨vs, g1, g2⟩ := h2
          obtain ⟨t, r, rfl, e1, e3⟩ := (texts_cons _ _ _).1 g1
          refine ⟨_, (hstep _).2 ⟨g2.1, t, e1, rfl⟩, h1, ?_, ?_, ?_⟩
          · exact ⟨r, e3, g2.2⟩
          · exact h3
          · exact h4
      by_cases k1 : ((kvs.lookup "type").getD .null).isStr "ESTIMATED_INSTALLATION_DURATION" = true
      · have k' := (isStr_iff _ _).1 k1
        rw [k'] at hd hi hp
        simp [Json.isStr] at hd hi hp
        have hstep : ∀ r, metadataStep c0 (.obj kvs) = .ok r ↔ c0.install = 0 ∧ ∃ t n, ((kvs.lookup "value").getD .null).asString = .ok t ∧ stoi t.toList = .ok n ∧ r = { c0 with install := n } := by
          intro r
          unfold metadataStep
          simp only [Json.isObject, Json.get, k', Json.isStr]
          simp
          grind
        constructor
        · rintro ⟨r, hr, h⟩
          obtain ⟨e0, t, n, e1, e2, rfl⟩ := (hstep r).1 hr
          obtain ⟨h1, h2, h3, h4⟩ := h
          refine ⟨h1, ?_, ?_, ?_⟩
          · rwa [hd]
          · obtain ⟨vs, g1, g2⟩ := h3
            rw [hi]
            exact ⟨n :: vs, (numbers_cons _ _ _).2 ⟨n, vs, t, rfl, e1, e2, g1⟩, e0, g2⟩
          · rwa [hp]
        · rintro ⟨h1, h2, h3, h4⟩
          rw [hd] at h2; rw [hi] at h3; rw [hp] at h4
          obtain ⟨vs, g1, g2⟩ := h3
          obtain ⟨n, r, t, rfl, e1, e2, e3⟩ := (numbers_cons _ _ _).1 g1
          refine ⟨_, (hstep _).2 ⟨g2.1, t, n, e1, e2, rfl⟩, h1, ?_, ?_, ?_⟩
          · exact h2
          · exact ⟨r, e3, g2.2⟩
          · exact h4
      by_cases k2 : ((kvs.lookup "type").getD .null).isStr "ESTIMATED_PREPARATION_DURATION" = true
      · have k' := (isStr_iff _ _).1 k2
        rw [k'] at hd hi hp
        simp [Json.isStr] at hd hi hp
        have hstep : ∀ r, metadataStep c0 (.obj kvs) = .ok r ↔ c0.prepare = 0 ∧ ∃ t n, ((kvs.lookup "value").getD .null).asString = .ok t ∧ stoi t.toList = .ok n ∧ r = { c0 with prepare := n } := by
          intro r
          unfold metadataStep
          simp only [Json.isObject, Json.get, k', Json.isStr]
          simp
          grind
        constructor
        · rintro ⟨r, hr, h⟩
          obtain ⟨e0, t, n, e1, e2, rfl⟩ := (hstep r).1 hr
          obtain ⟨h1, h2, h3, h4⟩ := h
          refine ⟨h1, ?_, ?_, ?_⟩
          · rwa [hd]
          · rwa [hi]
          · obtain ⟨vs, g1, g2⟩ := h4
            rw [hp]
            exact ⟨n :: vs, (numbers_cons _ _ _).2 ⟨n, vs, t, rfl, e1, e2, g1⟩, e0, g2⟩
        · rintro ⟨h1, h2, h3, h4⟩
          rw [hd] at h2; rw [hi] at h3; rw [hp] at h4
          obtain ⟨vs, g1, g2⟩ := h4
          obtain ⟨n, r, t, rfl, e1, e2, e3⟩ := (numbers_cons _ _ _).1 g1
          refine ⟨_, (hstep _).2 ⟨g2.1, t, n, e1, e2, rfl⟩, h1, ?_, ?_, ?_⟩
          · exact h2
          · exact h3
          · exact ⟨r, e3, g2.2⟩
      have hstep : metadataStep c0 (.obj kvs) = .ok c0 := by
        unfold metadataStep
        simp only [Json.isObject, Json.get]
        simp [k0, k1, k2]
      simp [k0, k1, k2] at hd hi hp
      rw [hstep]
      constructor
      · rintro ⟨r, hr, h1, h2, h3, h4⟩
        cases hr
        exact ⟨h1, by rwa [hd], by rwa [hi], by rwa [hp]⟩
      · rintro ⟨h1, h2, h3, h4⟩
        exact ⟨c0, rfl, h1, by rwa [hd] at h2, by rwa [hi] at h3, by rwa [hp] at h4⟩

theorem construct_iff (j : Json) (c : Campaign) : construct j = .ok c ↔ Describes j c := by
  cases hj : j.isObject with
  | false =>
    constructor
    · intro h
      unfold construct at h
      rw [hj] at h
      cases h
    · rintro ⟨kvs, rfl, -⟩
      cases hj
  | true =>
    obtain ⟨kvs, rfl⟩ : ∃ kvs, j = .obj kvs := by cases j <;> first | exact ⟨_, rfl⟩ | (simp [Json.isObject] at hj)
    have hor : ∀ k d, d.asInt64 = Json.null.asInt64 → (getOr (.obj kvs) k d).bind Json.asInt64 = ((kvs.lookup k).getD .null).asInt64 := by
      intro k d hd
      unfold getOr Json.isMember Json.get
      cases hk : kvs.lookup k <;> simp [bind, Except.bind, pure, Except.pure, hk, hd]
    have horb : ∀ k d, d.asBool = Json.null.asBool → (getOr (.obj kvs) k d).bind Json.asBool = ((kvs.lookup k).getD .null).asBool := by
      intro k d hd
      unfold getOr Json.isMember Json.get
      cases hk : kvs.lookup k <;> simp [bind, Except.bind, pure, Except.pure, hk, hd]
    have e1 := hor "size" (.int 0) (by decide)
    have e2 := horb "autoAccept" (.bool false) (by decide)
    have hrun : construct (.obj kvs) = .ok c ↔ ∃ id name size auto,
        ((kvs.lookup "id").getD .null).asString = .ok id ∧ id ≠ "" ∧ ((kvs.lookup "name").getD .null).asString = .ok name ∧ name ≠ "" ∧
        ((kvs.lookup "size").getD .null).asInt64 = .ok size ∧ ((kvs.lookup "autoAccept").getD .null).asBool = .ok auto ∧
        metadataLoop ((kvs.lookup "metadata").getD .null).elems { id := id, name := name, size := size, autoAccept := auto } = .ok c := by
      rw [← e1, ← e2]
      unfold construct
      simp only [Json.isObject, Json.get, Bool.not_true, throwIf, Bool.false_eq_true, if_false, exc_bind_ok]
      have hthrow : ∀ (t : String) (u : Unit), (if (t == "") = true then Except.error parseError else Except.ok ()) = .ok u ↔ t ≠ "" := by
        intro t u
        by_cases ht : t = "" <;> simp [ht]
      have hb1 : ∀ size, (getOr (.obj kvs) "size" (.int 0)).bind Json.asInt64 = .ok size ↔ ∃ a, getOr (.obj kvs) "size" (.int 0) = .ok a ∧ a.asInt64 = .ok size :=
        fun _ => exc_bind_ok
      have hb2 : ∀ auto, (getOr (.obj kvs) "autoAccept" (.bool false)).bind Json.asBool = .ok auto ↔
          ∃ a, getOr (.obj kvs) "autoAccept" (.bool false) = .ok a ∧ a.asBool = .ok auto :=
        fun _ => exc_bind_ok
      simp only [hthrow, hb1, hb2, Except.ok.injEq]
      constructor
      · rintro ⟨-, -, _, rfl, id, h1, -, h2, _, rfl, name, h3, -, h4, a, h5, size, h6, b, h7, auto, h8, _, rfl, h9⟩
        exact ⟨id, name, size, auto, h1, h2, h3, h4, ⟨a, h5, h6⟩, ⟨b, h7, h8⟩, h9⟩
      · rintro ⟨id, name, size, auto, h1, h2, h3, h4, ⟨a, h5, h6⟩, ⟨b, h7, h8⟩, h9⟩
        exact ⟨(), trivial, _, rfl, id, h1, (), h2, _, rfl, name, h3, (), h4, a, h5, size, h6, b, h7, auto, h8, _, rfl, h9⟩
    rw [hrun]
    constructor
    · rintro ⟨id, name, size, auto, h1, h2, h3, h4, h5, h6, h⟩
      obtain ⟨hs, hd, hi, hp⟩ := (metadataLoop_iff _ _ _).1 h
      rw [hs]
      refine ⟨kvs, rfl, h1, h2, h3, h4, h5, h6, ?_, ?_, ?_⟩
      · simpa only [steps_single] using hd
      · simpa only [steps_single] using hi
      · simpa only [steps_single] using hp
    · rintro ⟨_, heq, h⟩
      cases heq
      refine ⟨c.id, c.name, c.size, c.autoAccept, h.id, h.idGiven, h.name, h.nameGiven, h.size, h.autoAccept, (metadataLoop_iff _ _ _).2 ⟨rfl, ?_, ?_, ?_⟩⟩
      · simpa only [steps_single] using h.description
      · simpa only [steps_single] using h.install
      · simpa only [steps_single] using h.prepare

/-! ## Reading -/

/-- An entry of the list is read exactly if it describes a campaign, as what it describes. -/
theorem C67_reads (j : Json) (c : Campaign) : ofJson j = .ok c ↔ Describes j c := by
  rw [← construct_iff]
  unfold ofJson
  cases construct j <;> simp

theorem parseEach_append (xs ys : List Json) : parseEach (xs ++ ys) = parseEach xs ++ parseEach ys := by
  induction xs with
  | nil => rfl
  | cons x xs ih =>
    simp only [List.cons_append, parseEach, ih]
    cases ofJson x <;> rfl

/-- The list offered: the campaigns described by the entries, in their order, whatever the others are;
and none if the document is no such list. -/
theorem C67_list (kvs : List (String × Json)) (xs : List Json) (h : kvs.lookup "campaigns" = some (.arr xs)) :
    ∃ picks : List (Option Campaign), picks.length = xs.length ∧ campaignsFromJson (.obj kvs) = picks.filterMap (fun x => x) ∧
      ∀ (i : Nat) (x : Json) (p : Option Campaign), xs[i]? = some x → picks[i]? = some p → ∀ c, p = some c ↔ Describes x c := by
  have hc : campaignsFromJson (.obj kvs) = parseEach xs := by simp [campaignsFromJson, h]
  rw [hc]
  refine ⟨xs.map (fun x => (ofJson x).toOption), by simp, ?_, ?_⟩
  · clear hc h
    induction xs with
    | nil => rfl
    | cons x xs ih =>
      simp only [parseEach, List.map_cons, List.filterMap_cons, ih]
      cases ofJson x <;> simp [Except.toOption]
  · intro i x p hx hp c
    rw [List.getElem?_map, hx] at hp
    simp only [Option.map_some, Option.some.injEq] at hp
    rw [← hp, ← C67_reads]
    cases ofJson x <;> simp [Except.toOption]

/-- What is no list of campaigns offers none. -/
theorem C67_no_list (j : Json) (h : ∀ kvs xs, j = .obj kvs → kvs.lookup "campaigns" ≠ some (.arr xs)) : campaignsFromJson j = [] := by
  unfold campaignsFromJson
  cases j <;> try rfl
  rename_i kvs
  have := h kvs
  dsimp only
  split
  · rename_i xs hx
    cases hl : kvs.lookup "campaigns" with
    | none => rw [hl] at hx; cases hx
    | some v => rw [hl] at hx; cases hx; exact absurd hl (this xs rfl)
  · rfl

/-! ## Writing -/

/-- What a generated repository can contain. -/
structure Plain (c : Campaign) : Prop where
  id : c.id ≠ ""
  name : c.name ≠ ""
  size : 0 ≤ c.size ∧ c.size < 4294967296
  install : -2147483648 ≤ c.install ∧ c.install ≤ 2147483647
  prepare : -2147483648 ≤ c.prepare ∧ c.prepare ≤ 2147483647

theorem describes_toJson {c : Campaign} (h : Plain c) : Describes (toJson c) c := by
  have hst : ∀ i : Int, -2147483648 ≤ i ∧ i ≤ 2147483647 → stoi (String.ofList (decimal i)).toList = .ok i := by
    intro i hi
    rw [String.toList_ofList]
    exact stoi_decimal hi.1 hi.2
  refine ⟨_, rfl, rfl, h.id, rfl, h.name, ?_, rfl, ⟨[c.description], rfl, .inr ⟨[], rfl, by simp⟩⟩, ⟨[c.install], ⟨[_], rfl, ?_⟩, .inr ⟨[], rfl, by simp⟩⟩,
    ⟨[c.prepare], ⟨[_], rfl, ?_⟩, .inr ⟨[], rfl, by simp⟩⟩⟩
  · have e : c.size % 4294967296 = c.size := Int.emod_eq_of_lt h.size.1 h.size.2
    simp only [List.lookup, Option.getD, Json.asInt64, Json.asIntIn, e]
    have := h.size
    simp
    omega
  · simp only [List.map_cons, List.map_nil, hst _ h.install]
  · simp only [List.map_cons, List.map_nil, hst _ h.prepare]

/-- What the generator writes is read back. Missing: sizes of 4 GiB and more, for which it is false
(`C67_size_cut`). -/
theorem C67_roundtrip_partial (cs : List Campaign) (h : ∀ c ∈ cs, Plain c) : campaignsFromJson (jsonFromCampaigns cs) = cs := by
  unfold jsonFromCampaigns
  by_cases hc : cs = []
  · rw [if_pos hc, hc]; rfl
  · rw [if_neg hc]
    show parseEach (cs.map toJson) = cs
    clear hc
    induction cs with
    | nil => rfl
    | cons c cs ih =>
      have := (C67_reads _ _).2 (describes_toJson (h c (by simp)))
      simp only [List.map_cons, parseEach, this]
      rw [ih (fun c hc => h c (by simp [hc]))]

/-! ## The API -/

/-- A check tells the API user the same list that it returns, and a server that refuses offers nothing. -/
theorem C67_check (parse : List UInt8 → Json) (ts : List Http.Transfer) (s s' : St) (cs : List Campaign)
    (h : campaignCheck parse ts s = some (cs, s')) :
    s'.events = s.events ++ [.checked cs] ∧ s'.queue = s.queue ∧
    ∃ r, Http.get 1048576 ts = some r ∧
      ((r.curlOk = true ∧ 200 ≤ r.status ∧ r.status < 400 ∧ cs = campaignsFromJson (parse r.body)) ∨
       (¬(r.curlOk = true ∧ 200 ≤ r.status ∧ r.status < 400) ∧ cs = [])) := by
  unfold campaignCheck fetchAvailableCampaigns at h
  cases hg : Http.get maxSize ts with
  | none => rw [hg] at h; cases h
  | some r =>
    rw [hg] at h
    simp only [Option.map_some, Option.some.injEq, Prod.mk.injEq] at h
    obtain ⟨h1, h2⟩ := h
    subst h2
    refine ⟨by rw [← h1], rfl, r, hg, ?_⟩
    by_cases ho : r.curlOk = true ∧ 200 ≤ r.status ∧ r.status < 400
    · left
      have : r.isOk = true := by simpa [Http.Response.isOk, and_assoc] using ho
      rw [this] at h1
      exact ⟨ho.1, ho.2.1, ho.2.2, h1.symm⟩
    · right
      have : r.isOk = false := by
        cases hr : r.isOk with
        | false => rfl
        | true => exact absurd (by simpa [Http.Response.isOk, and_assoc] using hr) ho
      rw [this] at h1
      exact ⟨ho, h1.symm⟩

/-- What the server is told about a decision. -/
structure Tells (j : Json) (type campaign : String) : Prop where
  type : ∃ kvs, j = .obj kvs ∧ ∃ ty, kvs.lookup "eventType" = some (.obj ty) ∧ ty.lookup "id" = some (.str type)
  campaign : ∃ kvs, j = .obj kvs ∧ ∃ ev, kvs.lookup "event" = some (.obj ev) ∧ ev.lookup "campaignId" = some (.str campaign)

open Spec in
/-- A decision is announced to the API user, and its report, which names the campaign and the decision,
has reached the server or is still stored, whatever happens afterwards. -/
theorem C67_decision {parses : String → Bool} (canon : Json → String) (uuid time id : String) (cmd : Cmd) (s : St)
    (before after : List Reports.Op) (hq : s.queue = Reports.run parses {} before)
    (hk : (enqueued before).length + (enqueued after).length + 1 < 9223372036854775807)
    (hp : ∀ j, parses (canon j) = true) (hb : ∀ e ∈ enqueued before ++ enqueued after, parses e = true) :
    (campaignControl canon uuid time id cmd s).events = s.events ++ [match cmd with | .accept => .accepted | .decline => .declined | .postpone => .postponed] ∧
    ∃ j, Tells j (match cmd with | .accept => "campaign_accepted" | .decline => "campaign_declined" | .postpone => "campaign_postponed") id ∧
      ((∃ b ∈ ackedBatches (Reports.run parses (campaignControl canon uuid time id cmd s).queue after).posts, canon j ∈ b) ∨
        canon j ∈ storedTexts (Reports.run parses (campaignControl canon uuid time id cmd s).queue after)) := by
  refine ⟨by cases cmd <;> rfl, report uuid time cmd.reportType id, ?_, ?_⟩
  · constructor
    · exact ⟨_, rfl, _, rfl, by cases cmd <;> rfl⟩
    · exact ⟨_, rfl, _, rfl, rfl⟩
  · have henq : ∀ a b : List Reports.Op, enqueued (a ++ b) = enqueued a ++ enqueued b := by
      intro a b
      induction a with
      | nil => rfl
      | cons x a ih => cases x <;> simp [enqueued, ih]
    generalize hj : report uuid time cmd.reportType id = j
    have hrun : Reports.run parses (campaignControl canon uuid time id cmd s).queue after =
        Reports.run parses {} (before ++ .enqueue (canon j) :: after) := by
      simp only [Reports.run, List.foldl_append, List.foldl_cons, campaignControl, hq, hj]
      rfl
    rw [hrun]
    obtain ⟨bs, h1, h2⟩ := C17_nothing_lost (parses := parses) (before ++ .enqueue (canon j) :: after)
      (by simp only [KeysSuffice, henq, enqueued, List.length_append, List.length_cons]; omega)
      (by
        intro e he
        rw [henq] at he
        simp only [enqueued, List.mem_append, List.mem_cons] at he
        rcases he with he | rfl | he
        · exact hb e (by simp [he])
        · exact hp j
        · exact hb e (by simp [he]))
    have hm : canon j ∈ enqueued (before ++ .enqueue (canon j) :: after) := by
      rw [henq]; simp [enqueued]
    rw [h2] at hm
    rcases List.mem_append.1 hm with hm | hm
    · obtain ⟨b, hb, hm⟩ := List.mem_flatten.1 hm
      exact .inl ⟨b, h1.subset hb, hm⟩
    · exact .inr hm

/-- The names of the decisions on the command line. -/
theorem C67_names (name : String) (cmd : Cmd) :
    cmdFromName name = .ok cmd ↔ (name, cmd) ∈ [("campaign_accept", .accept), ("campaign_decline", .decline), ("campaign_postpone", Cmd.postpone)] := by
  unfold cmdFromName
  by_cases h1 : name = "campaign_accept"
  · subst h1; cases cmd <;> decide
  · by_cases h2 : name = "campaign_decline"
    · subst h2; cases cmd <;> decide
    · by_cases h3 : name = "campaign_postpone"
      · subst h3; cases cmd <;> decide
      · simp [h1, h2, h3]

/-! ## Cases -/

namespace Case

/-- The campaign of the generator (uptane_generator/repo.cc:229-246). -/
def one : Campaign where
  id := "c2eb7e8d"
  name := "campaign1"
  size := 62470
  autoAccept := true
  description := "this is my message to show on the device"
  install := 10
  prepare := 20

theorem one_plain : Plain one := ⟨by decide, by decide, by decide, by decide, by decide⟩

example : campaignsFromJson (jsonFromCampaigns [one, { one with id := "2", size := 5 }]) = [one, { one with id := "2", size := 5 }] :=
  C67_roundtrip_partial _ (by
    intro c hc
    simp at hc
    rcases hc with rfl | rfl
    · exact one_plain
    · exact ⟨by decide, by decide, by decide, by decide, by decide⟩)

/-- Entries of a list of which only the second and fourth are campaigns. -/
def mixed : List Json :=
  [.obj [("id", .str "x")], toJson one, .str "x", .obj [("id", .int 7), ("name", .str "n")],
   .obj [("id", .str "y"), ("name", .str "n"), ("metadata", .arr [.obj [("type", .str "ESTIMATED_INSTALLATION_DURATION"), ("value", .str "soon")]])]]

example : campaignsFromJson (.obj [("campaigns", .arr mixed)]) = [one, { id := "7", name := "n" }] := by decide +kernel

example : (campaignCheck (fun _ => .obj [("campaigns", .arr mixed)]) [⟨[], true, 500⟩, ⟨[[1]], true, 200⟩] {}).map (fun r => (r.1, r.2.events)) =
    some ([one, { id := "7", name := "n" }], [.checked [one, { id := "7", name := "n" }]]) := by decide +kernel

/-- The size is cut to 32 bits when written. -/
theorem C67_size_cut : campaignsFromJson (jsonFromCampaigns [{ one with size := 4294967297 }]) = [{ one with size := 1 }] := by decide +kernel

/-- Of two descriptions the second one counts if the first one is empty; otherwise the campaign is not
offered at all. -/
theorem C67_two_descriptions :
    parseEach [.obj [("id", .str "x"), ("name", .str "n"), ("metadata", .arr
        [.obj [("type", .str "DESCRIPTION"), ("value", .str "")], .obj [("type", .str "DESCRIPTION"), ("value", .str "b")]])],
      .obj [("id", .str "y"), ("name", .str "n"), ("metadata", .arr
        [.obj [("type", .str "DESCRIPTION"), ("value", .str "a")], .obj [("type", .str "DESCRIPTION"), ("value", .str "b")]])]] =
      [{ id := "x", name := "n", description := "b" }] := by decide +kernel

example : (Reports.run (fun _ => true) (campaignControl (fun _ => "r") "u" "t" "c1" .decline {}).queue [.flush true ⟨true, 200⟩ 2]).posts =
    [(["r"], ⟨true, 200⟩)] := by decide +kernel

end Case

end Camp
end Aktualizr
