import Verif.Model.Guides
import Verif.Model.Float
import Verif.Model.UfoKerning
/-! Model of `ufo/guides.py`: the guidelines of a UFO. -/
set_option autoImplicit false
namespace Verif

/-- `UfoGuide` without the temporary key `_direction` — ufo/typing.py:62-68; `none` = key absent.  The angle is a double. -/
structure UfoGuide where
  x : Int
  y : Int
  angle : Rat
  color : Option PyStr
  name : Option PyStr
  deriving DecidableEq, Repr

/-- `round(x, 2)`: the double nearest to the decimal number that `x` is rounded to
— ufo/guides.py:26-33 -/
def round2 (x : Rat) : Rat := fl ((roundEven (x * 100) : Rat) / 100)

/-- the angle of a guide — ufo/guides.py:26-33; `v`: is the guide vertical? -/
def guideAngle (v : Bool) (a : Rat) : Rat :=
  let a := if v then fl (90 - a) else a
  let a := if a < 0 then fl (a + 360) else a
  let a := if 360 < a then fl (a - 360) else a
  round2 a

section
variable (ops : AngleOps) (deg : ops.Angle → Rat)

/-- one guide — ufo/guides.py:20-34; `deg` gives the value of an angle -/
def masterGuide (v : Bool) (master : Int) (l : List (Guide ops.Angle)) : Except PyErr UfoGuide :=
  pyIndex l master >>= fun g =>
  .ok ⟨if v then g.pos else 0, if v then 0 else g.pos, guideAngle v (deg g.angle), none, none⟩

/-- `get_master_guides(mm_guides, master_index)` — ufo/guides.py:14-35: the guides of both directions -/
def masterGuides (g : MMGuides ops.Angle) (master : Int) : Except PyErr (List UfoGuide × List UfoGuide) :=
  g.h.mapM (masterGuide ops deg false master) >>= fun h =>
  g.v.mapM (masterGuide ops deg true master) >>= fun v =>
  .ok (h, v)

end

/-- `f"{x:0.4f}"` for `x ≥ 0`: the decimal number that the double is rounded to
— ufo/guides.py:62-72 -/
def fixed4 (x : Rat) : PyStr :=
  let n := (roundEven (x * 10000)).toNat
  natDec (n / 10000) ++ lit "." ++ natDec (n / 1000 % 10) ++ natDec (n / 100 % 10) ++ natDec (n / 10 % 10) ++ natDec (n % 10)

/-- `int(s, 16) / 0xFF` — ufo/guides.py:62-72 -/
def colorPart (s : PyStr) : Except PyErr Rat := intBase16 s >>= fun n => .ok (fdiv n 255)

/-- the same where a ValueError is caught and gives 0 — ufo/guides.py:62-72 -/
def colorPart0 (s : PyStr) : Rat :=
  match colorPart s with
  | .ok x => x
  | .error _ => 0

/-- the colour of a guide — ufo/guides.py:62-72 -/
def guideColor (color : PyStr) : Except PyErr PyStr :=
  colorPart ((color.drop 1).take 2) >>= fun r =>
  .ok (fixed4 r ++ lit "," ++ fixed4 (colorPart0 ((color.drop 3).take 2)) ++ lit "," ++ fixed4 (colorPart0 ((color.drop 5).take 2)) ++ lit ",1")

/-- the guide with the properties — ufo/guides.py:60-74 -/
def withProp (g : UfoGuide) (p : GuideProp) : Except PyErr UfoGuide :=
  (match p.color with
    | some c => guideColor c >>= fun c => .ok { g with color := some c }
    | none => .ok g) >>= fun g =>
  .ok (match p.name with
    | some n => { g with name := some n }
    | none => g)

/-- one property — ufo/guides.py:51-74: the index is counted from 1; a guide that does not exist is skipped; a negative index counts
from the end, and is an IndexError before the first guide -/
def applyProp (l : List UfoGuide) (p : GuideProp) : Except PyErr (List UfoGuide) :=
  if (l.length : Int) ≤ p.index - 1 then .ok l
  else
    pyIndex l (p.index - 1) >>= fun g =>
    withProp g p >>= fun g =>
    .ok (l.set (if p.index - 1 < 0 then p.index - 1 + l.length else p.index - 1).toNat g)

/-- `apply_guide_properties(guides, properties)` — ufo/guides.py:38-76 -/
def applyProps (g : List UfoGuide × List UfoGuide) (p : GuideProps) : Except PyErr (List UfoGuide) :=
  p.h.foldlM applyProp g.1 >>= fun h =>
  p.v.foldlM applyProp g.2 >>= fun v =>
  .ok (h ++ v)

/-- the guides of a master — ufo/builder.py:741-743, ufo/paths.py:230-231 -/
def ufoGuides (ops : AngleOps) (deg : ops.Angle → Rat) (g : MMGuides ops.Angle) (p : GuideProps) (master : Int) : Except PyErr (List UfoGuide) :=
  masterGuides ops deg g master >>= fun l => applyProps l p

end Verif
