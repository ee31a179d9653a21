import Verif.Model.UfoMasters
import Verif.Model.UfoTth
import Verif.Model.UfoHints
import Verif.Model.UfoGuides
/-! Model of `UfoMasterGlyph.build` (ufo/paths.py): one master of a glyph.  Log messages are not modelled. -/
set_option autoImplicit false
namespace Verif

/-- a scale in the transformation of a component: an int, a finite float that is not integral, or an infinity or NaN
— ufo/paths.py:200-207 -/
inductive UfoScale where
  | int (n : Int)
  | float (q : Rat)
  | special (d : Dbl)
  deriving DecidableEq

/-- `round(x, 15)` for a finite double: the double nearest to the decimal number that `x` is rounded to
— ufo/paths.py:200-207 -/
def round15 (x : Rat) : Rat := fl ((roundEven (x * 10 ^ 15) : Rat) / 10 ^ 15)

/-- the scale of a component — ufo/paths.py:200-207; `round` keeps infinities and NaN, for which `is_integer()` is false -/
def ufoScale (d : Dbl) : UfoScale :=
  match d.toRat with
  | none => .special d
  | some x => if (round15 x).den = 1 then .int (round15 x).num else .float (round15 x)

/-- `UfoComponent`: the name and the transformation (xx, 0, 0, yy, dx, dy) — ufo/typing.py:15 -/
structure UfoComponent where
  base : PyStr
  xx : UfoScale
  yy : UfoScale
  dx : Int
  dy : Int
  deriving DecidableEq

/-- one component — ufo/paths.py:189-211 -/
def masterComponent (order : List PyStr) (master : Nat) (c : Component) : Except PyErr UfoComponent :=
  pyIndex c.scaleX master >>= fun xx =>
  pyIndex c.scaleY master >>= fun yy =>
  pyIndex c.offsetX master >>= fun dx =>
  pyIndex c.offsetY master >>= fun dy =>
  pyIndex order c.gid >>= fun base =>
  .ok ⟨base, ufoScale xx, ufoScale yy, dx, dy⟩

/-- the loop over `mm_anchors` — ufo/paths.py:114-117: IndexError if there are more of them than anchors -/
def setAnchors (master : Nat) : List GdefAnchor → List MMAnchor → Except PyErr (List GdefAnchor)
  | anchors, [] => .ok anchors
  | [], _ :: _ => .error .index
  | a :: anchors, m :: mm =>
    pyIndex m.x master >>= fun x =>
    pyIndex m.y master >>= fun y =>
    setAnchors master anchors mm >>= fun l =>
    .ok ({ a with x := x, y := y } :: l)

/-- `_extract_master_anchors` — ufo/paths.py:104-117 (`anchors` is never `None`) -/
def masterAnchors (anchors : List GdefAnchor) (mm : Option (List MMAnchor)) (master : Nat) : Except PyErr (List GdefAnchor) :=
  match mm with
  | none => .ok anchors
  | some mm => setAnchors master anchors mm

/-- `_extract_master_mask_metrics` — ufo/paths.py:213-224 -/
def masterMaskMetrics (metrics maskMetrics : List (Int × Int)) (master : Nat) : Except PyErr (Int × Int) :=
  if maskMetrics.isEmpty then pyIndex metrics master
  else if (master : Int) > maskMetrics.length - 1 then .error .value
  else pyIndex maskMetrics master

/-! ### base64 -/

/-- the alphabet — ufo/paths.py:254-261 -/
def b64Char (n : Nat) : UInt8 :=
  if n < 26 then UInt8.ofNat (65 + n)
  else if n < 52 then UInt8.ofNat (97 + (n - 26))
  else if n < 62 then UInt8.ofNat (48 + (n - 52))
  else if n = 62 then 43
  else 47

/-- `base64.b64encode` — ufo/paths.py:254-261 -/
def b64encode : Bytes → Bytes
  | [] => []
  | [a] =>
    let n := a.toNat * 65536
    [b64Char (n / 262144), b64Char (n / 4096 % 64), 61, 61]
  | [a, b] =>
    let n := a.toNat * 65536 + b.toNat * 256
    [b64Char (n / 262144), b64Char (n / 4096 % 64), b64Char (n / 64 % 64), 61]
  | a :: b :: c :: r =>
    let n := a.toNat * 65536 + b.toNat * 256 + c.toNat
    b64Char (n / 262144) :: b64Char (n / 4096 % 64) :: b64Char (n / 64 % 64) :: b64Char (n % 64) :: b64encode r

/-- `s.encode("ascii")` — ufo/paths.py:254-261 -/
def encodeAscii (s : PyStr) : Except PyErr Bytes :=
  s.mapM fun c => if c < 128 then .ok (UInt8.ofNat c) else .error .unicode

/-- text or data in a lib — ufo/paths.py:254-261 -/
inductive LibText where
  | text (s : PyStr)
  | data (b : Bytes)
  deriving DecidableEq, Repr

/-- `_finalize_lib` for the TrueType program — ufo/paths.py:254-261; the copy of the instructions makes no difference -/
def finalizeLib (base64 : Bool) (tth : Option PyStr) : Except PyErr (Option LibText) :=
  match tth with
  | none => .ok none
  | some s => if base64 then encodeAscii s >>= fun b => .ok (some (.data (b64encode b))) else .ok (some (.text s))

/-! ### the glyph -/

/-- A glyph of a UFO.  `mark` … `tth` are the items of the lib (see `BGlyph`; `psHints` is empty if the item is absent; the "id" of
`instructions` is added later, see UfoHash); `maskContours` and `maskMetrics` are for the background layer.
— ufo/paths.py:67-90 -/
structure UfoGlyph (ASM : Type) where
  width : Int
  height : Int
  unicodes : List Int
  contours : List UfoContour
  components : List UfoComponent
  anchors : List GdefAnchor
  guidelines : List UfoGuide
  mark : Option Int
  userData : Option PyStr
  background : Option BackgroundImage
  bitmaps : Option (List UfoBitmap)
  instructions : Option ASM
  psHints : List (PyStr × List PyStr)
  tth : Option LibText
  maskContours : List UfoContour
  maskMetrics : Int × Int

/-- the parts of the glyph used by the hints; the links are a dictionary with two keys, so it is never empty
— ufo/paths.py:67-90 -/
def hintGlyph {A ASM : Type} (g : BGlyph A ASM) : HintGlyph :=
  { h := g.hintsH
    v := g.hintsV
    links := some (g.links.x, g.links.y)
    masks := g.hintmasks
    nodes := g.nodes }

/-- `mm_glyph.point_labels` — ufo/paths.py:67-90 -/
def pointLabelsOf (font : LabelFont) (key : PyStr) : List (Int × PyStr) :=
  match dictGet font.glyphs key with
  | some g => g.pointLabels
  | none => []

section
variable (ops : AngleOps) (deg : ops.Angle → Rat) (asm : AsmOps)

/-- the mask — ufo/paths.py:80-82; nothing in minimal mode (ufo/paths.py:61).  `point_labels` is not used for the mask. -/
def masterMask (o : BuildOpts) (g : BGlyph ops.Angle asm.Asm) (master : Nat) : Except PyErr (List UfoContour × (Int × Int)) :=
  if o.minimal then .ok ([], (0, 0))
  else
    extractContours g.maskNodes [] master true >>= fun r =>
    masterMaskMetrics g.metrics g.maskMetrics master >>= fun m =>
    .ok (r.1, m)

/-- `_extract_master_guides` — ufo/paths.py:226-233, 86-87 -/
def glyphGuides (o : BuildOpts) (g : BGlyph ops.Angle asm.Asm) (master : Nat) : Except PyErr (List UfoGuide) :=
  if o.minimal then .ok []
  else match g.guides with
    | none => .ok []
    | some guides => ufoGuides ops deg guides g.guideProps master

/-- `UfoMasterGlyph.build` — ufo/paths.py:67-90: the glyph and the point labels, for the glyph with the key `key` in `glyph_masters`.
`cmds` is `tth_commands`; `order` is `glyphOrder`. -/
def masterGlyph (o : BuildOpts) (base64 : Bool) (depth : Nat) (order : List PyStr) (font : LabelFont) (key : PyStr)
    (g : BGlyph ops.Angle asm.Asm) (cmds : List TthCommand) (master : Nat) : Except PyErr (UfoGlyph asm.Asm × LabelFont) :=
  (if o.pshints then masterPsHints depth font key (hintGlyph g) master else .ok ([], font)) >>= fun hints =>
  tthLib cmds >>= fun tth =>
  masterMask ops asm o g master >>= fun mask =>
  extractContours g.nodes (pointLabelsOf hints.2 key) master false >>= fun contours =>
  g.components.mapM (masterComponent order master) >>= fun components =>
  finalizeTtPointLabels contours.2 cmds >>= fun _ =>
  masterAnchors g.anchors g.mmAnchors master >>= fun anchors =>
  glyphGuides ops deg asm o g master >>= fun guides =>
  finalizeLib base64 tth >>= fun tth =>
  pyIndex g.metrics master >>= fun metrics =>
  .ok (
    { width := metrics.1
      height := metrics.2
      unicodes := g.unicodes
      contours := contours.1
      components := components
      anchors := anchors
      guidelines := guides
      mark := g.mark
      userData := g.userData
      background := g.background
      bitmaps := g.bitmaps
      instructions := g.instructions
      psHints := hints.1
      tth := tth
      maskContours := mask.1
      maskMetrics := mask.2 }, hints.2)

end
end Verif
