import Verif.Model.Tth
import Verif.Spec.UfoStems
import Verif.Spec.UfoTth
/-! Vocabulary for the statements about the export of TrueType hinting. -/
set_option autoImplicit false
namespace Verif.Spec
open Verif

/-- `out` are the `names` made unique: a name that is not yet in use is kept, the others get a number -/
def Renamed (names out : List PyStr) : Prop :=
  out.length = names.length ∧ out.Nodup ∧ ∀ (i : Nat) n m, names[i]? = some n → out[i]? = some m →
    (n ∉ out.take i → m = n) ∧ (n ∈ out.take i → ∃ k : Nat, 1 ≤ k ∧ m = n ++ lit "#" ++ natDec k)

/-- the rounding values of the export: for each ppm the largest of the widths of 2 to 5 pixels (`low`) that start there;
only if there is none, the width from the stems entry (`six`) -/
def LowFirst (six low : List (Int × Int)) (round : Rounds) : Prop :=
  ∀ text px, dictGet round text = some px ↔ ∃ ppm, text = intDec ppm ∧
    (((px, ppm) ∈ low ∧ ∀ px', (px', ppm) ∈ low → px' ≤ px) ∨ ((px, ppm) ∈ six ∧ ∀ px', (px', ppm) ∉ low))

/-- what commands can refer to: zones by number and side, stems by number and direction -/
def namesEnv (tn bn hn vn : List PyStr) : TthEnv where
  zone := fun side k =>
    if 0 ≤ k then
      match (if side = lit "ttZonesT" then tn else bn)[k.toNat]? with
      | some n => .ok n
      | none => .error .key
    else .error .key
  stemsH := hn
  stemsV := vn

/-- the entries of each kind -/
def asStems : TthEntry → Option (TTStems TTStem)
  | .stems d => some d
  | _ => none
def asPpems : TthEntry → Option (TTStems TTPpem)
  | .ppems d => some d
  | _ => none
def asZones : TthEntry → Option TTZones
  | .zones d => some d
  | _ => none
def asDeltas : TthEntry → Option TTDeltas
  | .deltas d => some d
  | _ => none
/-- glyphs with TrueType commands -/
def asGlyph : TthEntry → Option (PyStr × List Instruction)
  | .glyph (some n) (some (i :: is)) => some (n, i :: is)
  | _ => none

/-- entries that come before the glyphs; the entry for 1 pixel must be empty -/
def Plain : TthEntry → Prop
  | .glyph _ _ => False
  | .ppems1 d => d.ttStemsV = [] ∧ d.ttStemsH = []
  | _ => True

/-- a table of ppms for 2 to 5 pixels for each stem -/
def FullTable (p : List TTPpem) (s : List TTStem) : Prop :=
  PpmTable p ∧ StemTable s ∧ p.length = s.length

/-- the exported stems: names, then width, direction and rounding values (in ascending order) of the stems of the file, V then H -/
def ExportedStems (p : TTStems TTPpem) (s : TTStems TTStem) (names : List PyStr) (out : List (PyStr × StemData)) : Prop :=
  out.map Prod.fst = names ∧ ∀ (i : Nat) x y q, (s.ttStemsV ++ s.ttStemsH)[i]? = some x → out[i]? = some y →
    (p.ttStemsV ++ p.ttStemsH)[i]? = some q →
    y.2.width = x.value ∧ y.2.horizontal = decide (i < s.ttStemsV.length) ∧ LowFirst x.round q.round y.2.round ∧
    (y.2.round.map Prod.snd).Pairwise (· ≤ ·)

/-- the exported zones: names, then position, width, side and deltas (by ascending ppm) of the zones of the file, B then T -/
def ExportedZones (b t : List TTZone) (d : TTDeltas) (names : List PyStr) (out : List (PyStr × UfoZone)) : Prop :=
  out.map Prod.fst = names ∧ ∀ (i : Nat) z y, (allZones b t)[i]? = some z → out[i]? = some y →
    y.2.position = z.2.position ∧ y.2.top = z.2.top ∧ y.2.width = z.2.width ∧ HasDelta (dictGet d (i : Int)) y.2.delta ∧
    ∀ o, y.2.delta = some o → ∃ ppms : List Int, ppms.Pairwise (· < ·) ∧ o.map Prod.fst = ppms.map intDec

/-- the numbers that an entry sets -/
def numsOf : TthEntry → List (PyStr × Int)
  | .num k v => [(k, v)]
  | .ttinfo a b => (a.map fun v => (lit "head_lowest_rec_ppem", v)).toList ++ (b.map fun v => (lit "head_units_per_em", v)).toList
  | _ => []

/-- the gasp table that an entry sets -/
def asGasp : TthEntry → Option (List (Int × Int))
  | .gasp l => some l
  | _ => none

end Verif.Spec
