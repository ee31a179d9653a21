import Verif.Model.UfoStems
import Verif.Spec.UfoHints
/-! Vocabulary for the statements about TrueType stems and zones in the UFO. -/
set_option autoImplicit false
namespace Verif.Spec
open Verif

/-- `table` has pairs of a width in pixels and the ppm at which it starts.  `round` has, for each ppm of the table, the
largest width that starts there. -/
def BestWidth (table : List (Int × Int)) (round : Rounds) : Prop :=
  ∀ text px, dictGet round text = some px ↔
    ∃ ppm, text = intDec ppm ∧ (px, ppm) ∈ table ∧ ∀ px', (px', ppm) ∈ table → px' ≤ px

/-- the ppms for 2 to 5 pixels, as they come from the file: stems numbered from 0 on, ascending widths -/
def PpmTable (l : List TTPpem) : Prop :=
  ∀ (i : Nat) d, l[i]? = some d → d.stem = i ∧ (d.round.map Prod.fst).Pairwise (· < ·) ∧ ∀ x ∈ d.round, 1 < x.1 ∧ x.1 < 6

/-- the ppms for 1 pixel -/
def Ppm1Table (l : List TTPpem) : Prop := ∀ (i : Nat) d, l[i]? = some d → d.stem = i ∧ ∃ ppm, d.round = [(1, ppm)]

/-- the stems, with the ppm for 6 pixels -/
def StemTable (l : List TTStem) : Prop := ∀ (i : Nat) d, l[i]? = some d → ∃ ppm, d.round = [(6, ppm)]

/-- all that the three entries say about stem number `i` of a direction -/
def widthTable (p p1 : List TTPpem) (s : List TTStem) (i : Nat) : List (Int × Int) :=
  ((p[i]?).map TTPpem.round).getD [] ++ ((p1[i]?).map TTPpem.round).getD [] ++ ((s[i]?).map TTStem.round).getD []

/-- the stems of a direction in the UFO are those of the file, in order, with their widths and names, and with the
rounding values of all three entries -/
def StemsAre (p p1 : List TTPpem) (s : List TTStem) (horizontal : Bool) (out : List (PyStr × StemData)) : Prop :=
  s.length = out.length ∧ ∀ (i : Nat) x y, s[i]? = some x → out[i]? = some y →
    y.1 = x.name ∧ y.2.horizontal = horizontal ∧ y.2.width = x.value ∧ BestWidth (widthTable p p1 s i) y.2.round

/-- the input for one direction as the file has it: not more stems than rounding tables -/
structure StemInput (p p1 : List TTPpem) (s : List TTStem) : Prop where
  ppms : PpmTable p
  ppms1 : Ppm1Table p1
  stems : StemTable s
  len1 : p1.length ≤ p.length
  len : s.length ≤ p.length

/-- the name of the stem at position `i` in the lib: its own, or the letter and its number among the unnamed stems -/
def stemKey (letter : PyStr) (names : List PyStr) (i : Nat) : PyStr :=
  match names[i]? with
  | some [] => letter ++ pad2 ((names.take i).filter (fun n => decide (n = []))).length
  | some n => n
  | none => []

/-- the names of all stems of a direction -/
def stemKeys (letter : PyStr) (names : List PyStr) : List PyStr := (List.range names.length).map (stemKey letter names)

/-- a zone of the file as it appears in the UFO, without deltas -/
def zoneData (top : Bool) (z : TTZone) : PyStr × UfoZone := (z.name, ⟨z.position, top, z.value, none⟩)

/-- all zones: bottom zones, then top zones.  The zone deltas count through this list. -/
def allZones (b t : List TTZone) : List (PyStr × UfoZone) := b.map (zoneData false) ++ t.map (zoneData true)

/-- a table of deltas with decimal text keys says the same as the table in the file -/
def SameDelta (deltas : List (Int × Int)) (out : List (PyStr × Int)) : Prop :=
  ∀ text v, dictGet out text = some v ↔ ∃ ppm, text = intDec ppm ∧ dictGet deltas ppm = some v

/-- the zone has the deltas of the file: none, or those of the table -/
def HasDelta (file : Option (List (Int × Int))) (out : Option (List (PyStr × Int))) : Prop :=
  (file = none ∧ out = none) ∨ ∃ d o, file = some d ∧ out = some o ∧ SameDelta d o

end Verif.Spec
