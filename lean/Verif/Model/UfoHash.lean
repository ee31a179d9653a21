import Verif.Model.UfoConvert
/-! Model of the last step of `get_ufo_master` (ufo/builder.py:811-821): the "id" of the TrueType instructions of a glyph, made by
`HashPointPen` of fontTools.  The text of a float, `hashlib.sha512` and Python's recursion limit are parameters.  The pen is modelled from
our knowledge of fontTools (its source is not part of the repository). -/
set_option autoImplicit false
namespace Verif

/-- What `HashPointPen` keeps of the calls of the pen: a point without its name and smoothness, the end of a path, the beginning and the
end of a component — ufo/builder.py:811-821 -/
inductive PenPiece where
  | point (seg : Option PathCommand) (pt : Point)
  | endPath
  | begin
  | finish (xx yy : UfoScale) (dx dy : Int)
  deriving DecidableEq

/-- `f"{t:+}"` for a scale that is not an int, and `hashlib.sha512(…).hexdigest()` — ufo/builder.py:811-821 -/
structure HashOps where
  float : UfoScale → PyStr
  digest : PyStr → PyStr

/-- the digits of `"%g"` for an int that is not negative: at most six significant digits — ufo/builder.py:811-821 -/
def gDigits (n : Nat) : PyStr :=
  if n < 1000000 then natDec n
  else
    let k : Nat := (natDec n).length
    let m : Nat := (roundEven ((n : Rat) / (10 : Rat) ^ ((k : Int) - 6))).toNat
    let k : Nat := if m = 1000000 then k + 1 else k
    let ds : PyStr := ((natDec m).take 6).reverse.dropWhile (· == 48) |>.reverse
    ds.take 1 ++ (if ds.length ≤ 1 then [] else 46 :: ds.drop 1) ++ lit "e+" ++ (if k ≤ 10 then [48] else []) ++ natDec (k - 1)

/-- `f"{x:g}"` for an int — ufo/builder.py:811-821 -/
def gText (x : Int) : PyStr := if x < 0 then 45 :: gDigits x.natAbs else gDigits x.natAbs
/-- `f"{y:+g}"` for an int — ufo/builder.py:811-821 -/
def gSigned (y : Int) : PyStr := (if y < 0 then 45 else 43) :: gDigits y.natAbs
/-- `f"{t:+}"` for an int — ufo/builder.py:811-821 -/
def signedDec (t : Int) : PyStr := (if t < 0 then 45 else 43) :: natDec t.natAbs

/-- `f"{t:+}"` for a scale of a component — ufo/builder.py:811-821 -/
def scaleText (h : HashOps) : UfoScale → PyStr
  | .int n => signedDec n
  | x => h.float x

/-- the first letter of the segment type, "o" for an off-curve point — ufo/builder.py:811-821 -/
def segLetter : Option PathCommand → Nat
  | none => 111
  | some .move => 109
  | some .line => 108
  | some .curve => 99
  | some .qcurve => 113

/-- what the pen appends to its data — ufo/builder.py:811-821 (`HashPointPen.addPoint`, `endPath`, `addComponent`) -/
def pieceText (h : HashOps) : PenPiece → PyStr
  | .point seg pt => segLetter seg :: (gText pt.1 ++ gSigned pt.2)
  | .endPath => lit "|"
  | .begin => lit "["
  | .finish xx yy dx dy => lit "(" ++ scaleText h xx ++ lit "+0+0" ++ scaleText h yy ++ signedDec dx ++ signedDec dy ++ lit ")]"

/-- a contour — ufo/builder.py:811-821 (`Contour.drawPoints`) -/
def contourPieces (c : UfoContour) : List PenPiece := c.map (fun p => .point p.seg p.pt) ++ [.endPath]

/-- `HashPointPen.addComponent`: the base glyph in the UFO is drawn by `draw`; KeyError if there is none — ufo/builder.py:811-821 -/
def componentPieces {ASM : Type} (glyphs : List (PyStr × UfoGlyph ASM)) (draw : UfoGlyph ASM → Except PyErr (List PenPiece)) (c : UfoComponent) :
    Except PyErr (List PenPiece) :=
  match dictGet glyphs c.base with
  | none => .error .key
  | some b => draw b >>= fun l => .ok (.begin :: (l ++ [.finish c.xx c.yy c.dx c.dy]))

/-- `glyph.drawPoints(hp)`: contours, then components; RecursionError if they nest too deeply — ufo/builder.py:811-821 -/
def drawPieces {ASM : Type} (glyphs : List (PyStr × UfoGlyph ASM)) : Nat → UfoGlyph ASM → Except PyErr (List PenPiece)
  | 0, _ => .error .runtime
  | depth + 1, g =>
    g.components.mapM (componentPieces glyphs (drawPieces glyphs depth)) >>= fun cs =>
    .ok (g.contours.flatMap contourPieces ++ cs.flatten)

/-- `"".join(self.data)` — ufo/builder.py:811-821 -/
def hashData (h : HashOps) (width : Int) (l : List PenPiece) : PyStr := lit "w" ++ intDec width ++ l.flatMap (pieceText h)

/-- `hp.hash` — ufo/builder.py:811-821 -/
def pointHash (h : HashOps) (width : Int) (l : List PenPiece) : PyStr :=
  if 128 ≤ (hashData h width l).length then h.digest (hashData h width l) else hashData h width l

/-- the ids of the glyphs with TrueType instructions, by name — ufo/builder.py:811-821.  (The lib of each glyph is its own copy,
ufo/paths.py:74.) -/
def instructionIds {ASM : Type} (h : HashOps) (depth : Nat) (u : UfoFont ASM) : Except PyErr (List (PyStr × PyStr)) :=
  (u.glyphs.filter fun e => e.2.instructions.isSome).mapM fun e =>
    drawPieces u.glyphs depth e.2 >>= fun l => .ok (e.1, pointHash h e.2.width l)

end Verif
