import Verif.Model.UfoMasterInfo
import Verif.Spec.UfoMasters
/-! Specification vocabulary for C80: the font info of a master. -/
set_option autoImplicit false
namespace Verif.Spec
open Verif

section
variable (ops : AngleOps) (asm : AsmOps)

/-- the PostScript infos of the file, one for each master -/
def psInfosOf (o : BuildOpts) (es : List (FEntry ops asm)) : List PSInfo :=
  (dataOf ops asm o es 1536).filterMap fun d =>
    match d with
    | .psInfo p => some p
    | _ => none

/-- the number in the last entry with this id; 0 if there is none -/
def numberOf (o : BuildOpts) (es : List (FEntry ops asm)) (id : Int) : Int :=
  match (dataOf ops asm o es id).getLast? with
  | some (.int n) => n
  | _ => 0

/-- the global guides of the file -/
def guidesOf (o : BuildOpts) (es : List (FEntry ops asm)) : Option (MMGuides ops.Angle) :=
  match (dataOf ops asm o es 1294).getLast? with
  | some (.guides g) => some g
  | _ => none

/-- their properties -/
def guidePropsOf (o : BuildOpts) (es : List (FEntry ops asm)) : GuideProps :=
  match (dataOf ops asm o es 1296).getLast? with
  | some (.guideProps p) => p
  | _ => ⟨[], []⟩

end

/-- the values of the list that count: the first `n` ones; if `n` is negative, all but the last `-n` -/
def clipped (l : List Int) (n : Int) : List Int := l.take (if n < 0 then l.length - n.natAbs else n.natAbs)

/-- What the PostScript info `p` of a master says about the attributes: `num` gives the number of values that count by the id of the entry
in which it is stored. -/
inductive SaysPs (pshints : Bool) (num : Int → Int) (p : PSInfo) : PyStr → InfoVal → Prop
  | ascender : SaysPs pshints num p (lit "ascender") (.int p.ascender)
  | descender : SaysPs pshints num p (lit "descender") (.int p.descender)
  | xHeight : SaysPs pshints num p (lit "xHeight") (.int p.x_height)
  | capHeight : SaysPs pshints num p (lit "capHeight") (.int p.cap_height)
  | blueScale : pshints = true → SaysPs pshints num p (lit "postscriptBlueScale") (.double p.blue_scale)
  | blueShift : pshints = true → SaysPs pshints num p (lit "postscriptBlueShift") (.int p.blue_shift)
  | blueFuzz : pshints = true → SaysPs pshints num p (lit "postscriptBlueFuzz") (.int p.blue_fuzz)
  | bold : pshints = true → p.force_bold ≠ 0 → SaysPs pshints num p (lit "postscriptForceBold") (.bool true)
  | notBold : pshints = true → p.force_bold = 0 → SaysPs pshints num p (lit "postscriptForceBold") (.bool false)
  | blues : pshints = true → num 1530 ≠ 0 → SaysPs pshints num p (lit "postscriptBlueValues") (.ints (clipped p.blue_values (num 1530)))
  | other : pshints = true → num 1531 ≠ 0 → SaysPs pshints num p (lit "postscriptOtherBlues") (.ints (clipped p.other_blues (num 1531)))
  | family : pshints = true → num 1532 ≠ 0 → SaysPs pshints num p (lit "postscriptFamilyBlues") (.ints (clipped p.family_blues (num 1532)))
  | familyOther : pshints = true → num 1533 ≠ 0 →
      SaysPs pshints num p (lit "postscriptFamilyOtherBlues") (.ints (clipped p.family_other_blues (num 1533)))
  | snapH : pshints = true → num 1534 ≠ 0 → SaysPs pshints num p (lit "postscriptStemSnapH") (.ints (clipped p.stem_snap_h (num 1534)))
  | snapV : pshints = true → num 1535 ≠ 0 → SaysPs pshints num p (lit "postscriptStemSnapV") (.ints (clipped p.stem_snap_v (num 1535)))

/-- What the file says about the attributes of the master with this number (from 0). -/
inductive SaysMaster (ops : AngleOps) (asm : AsmOps) (deg : ops.Angle → Rat) (o : BuildOpts) (es : List (FEntry ops asm)) (master : Nat) :
    PyStr → InfoVal → Prop
  | ps {p attr v} : (psInfosOf ops asm o es)[master]? = some p → SaysPs o.pshints (numberOf ops asm o es) p attr v →
      SaysMaster ops asm deg o es master attr v
  | guides {g l} : o.minimal = false → guidesOf ops asm o es = some g → g.h ≠ [] ∨ g.v ≠ [] →
      ufoGuides ops deg g (guidePropsOf ops asm o es) master = .ok l →
      SaysMaster ops asm deg o es master (lit "guidelines") (.guides l)

end Verif.Spec
