import Verif.Props.C18

/-!
# C50 ECU serial storage round-trips
-/

namespace Aktualizr

open M

/-! ### Specification -/

namespace Spec

/-- Identifiers `EcuSerial` and `HardwareIdentifier` can hold: 1 to 64 and 0 to 200 bytes. -/
def StorableEcu (p : String × String) : Prop := 1 ≤ p.1.utf8ByteSize ∧ p.1.utf8ByteSize ≤ 64 ∧ p.2.utf8ByteSize ≤ 200

end Spec

open Spec

/-! ### Lemmas -/

theorem mkEcuSerial_ok {p : String × String} (h : StorableEcu p) : mkEcuSerial p.1 = .ok p.1 := by
  unfold mkEcuSerial
  rw [if_neg (by have := h.1; omega), if_neg (by have := h.2.1; omega)]

theorem mkHwId_ok {p : String × String} (h : StorableEcu p) : mkHwId p.2 = .ok p.2 := by
  unfold mkHwId
  rw [if_neg (by have := h.2.2; omega)]

theorem loadSerialsLoop_rows : ∀ (l : List (String × String)), (∀ p ∈ l, StorableEcu p) →
    VersionDb.loadSerialsLoop (VersionDb.secondaryRows l) = .ok l
  | [], _ => rfl
  | p :: l, h => by
    have ih := loadSerialsLoop_rows l (fun q hq => h q (.tail _ hq))
    unfold VersionDb.secondaryRows at ih ⊢
    simp only [List.map_cons, VersionDb.loadSerialsLoop]
    rw [mkEcuSerial_ok (h p (.head _)), mkHwId_ok (h p (.head _)), ih]
    rfl

/-! ### The property -/

/-- C50. A list of ECUs with distinct serials, Primary first, is loaded back as it was stored. -/
theorem C50_round_trip (db : VersionDb) (primary : String × String) (rest : List (String × String))
    (hs : ∀ p ∈ primary :: rest, StorableEcu p) (hd : ((primary :: rest).map Prod.fst).Nodup) :
    (db.storeEcuSerials (primary :: rest)).loadEcuSerials = .ok (some (primary :: rest)) := by
  have ih := loadSerialsLoop_rows rest (fun q hq => hs q (.tail _ hq))
  unfold VersionDb.loadEcuSerials
  simp only [VersionDb.storeEcuSerials, hd, if_true, VersionDb.loadSerialsLoop]
  rw [mkEcuSerial_ok (hs primary (.head _)), mkHwId_ok (hs primary (.head _)), ih]
  rfl

/-- C50. The Primary, and nothing else, is marked as such. -/
theorem C50_primary_marked (db : VersionDb) (primary : String × String) (rest : List (String × String))
    (hd : ((primary :: rest).map Prod.fst).Nodup) :
    ((db.storeEcuSerials (primary :: rest)).ecus.filter (·.primary)).map (·.serial) = [primary.1] := by
  simp only [VersionDb.storeEcuSerials, hd, if_true]
  have : (VersionDb.secondaryRows rest).filter (·.primary) = [] := by
    unfold VersionDb.secondaryRows
    rw [List.filter_eq_nil_iff]
    intro r hr
    obtain ⟨q, _, rfl⟩ := List.mem_map.1 hr
    simp
  simp [this]

/-- C50. A list that cannot be stored (a serial occurs twice, or it is empty) leaves the database
as it was. -/
theorem C50_all_or_nothing (db : VersionDb) (l : List (String × String)) (h : l = [] ∨ ¬ (l.map Prod.fst).Nodup) :
    db.storeEcuSerials l = db := by
  rcases h with rfl | h
  · rfl
  · cases l with
    | nil => rfl
    | cons p l => simp only [VersionDb.storeEcuSerials]; rw [if_neg h]

/-- Not vacuous. -/
example :
    (({} : VersionDb).storeEcuSerials [("p", "hp"), ("b", "h"), ("a", "h")]).loadEcuSerials.toOption = some (some [("p", "hp"), ("b", "h"), ("a", "h")]) ∧
    (∀ p ∈ [("p", "hp"), ("b", "h"), ("a", "h")], StorableEcu p) ∧
    ((({} : VersionDb).storeEcuSerials [("p", "hp")]).storeEcuSerials [("q", "h"), ("a", "h"), ("a", "g")]).loadEcuSerials.toOption =
      some (some [("p", "hp")]) := by
  unfold StorableEcu
  decide +kernel

end Aktualizr
