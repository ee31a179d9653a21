import Verif.Model.VfbPens
import Verif.Spec.UfoPaths
/-! Specification vocabulary for C67–C69: drawing into glyphs and drawing glyphs. -/
set_option autoImplicit false
namespace Verif.Spec
open Verif

/-- the calls of a point pen that draw a contour -/
def contourCalls (c : UfoContour) : List PenCall :=
  [.beginPath] ++ c.map (fun p => .addPoint ((p.pt.1 : Rat), (p.pt.2 : Rat)) p.seg p.smooth p.name) ++ [.endPath]

/-- In a TrueType contour a point is off the curve, or it ends a quadratic curve if the point before is off the curve, or else a line. -/
def Follows (p q : UfoPoint) : Prop :=
  q.seg = none ∨ (q.seg = some .qcurve ∧ p.seg = none) ∨ (q.seg = some .line ∧ p.seg ≠ none)

/-- A TrueType contour that begins with a point on the curve: open (the first point is a "move"), or closed, with two points or more.
No point is smooth or has got a name. -/
def TrueTypeContour (c : UfoContour) : Prop :=
  (∀ p ∈ c, p.smooth = false ∧ p.name = none) ∧
  List.IsChain Follows c ∧
  ∃ first last, c.head? = some first ∧ c.getLast? = some last ∧
    (first.seg = some .move ∨ (first.seg ≠ none ∧ 2 ≤ c.length ∧ Follows last first))

/-- the point of a drawn contour as it can be read back: coordinates, and whether it is on the curve -/
def onCurve (p : UfoPoint) : Point × Bool := (p.pt, p.seg.isSome)

/-- the calls of a segment pen for a segment -/
def segmentCall (s : Segment) : List SegCall :=
  match s.kind, s.offs with
  | .line, _ => [.lineTo s.target]
  | .qcurve, offs => [.qCurveTo (offs ++ [s.target])]
  | .curve, [c1, c2] => [.curveTo c1 c2 s.target]
  | _, _ => []

/-- the calls of a segment pen for the contour: start, segments, and the end of the path -/
def contourSegCalls (c : List MasterNode) : List SegCall :=
  match c with
  | [] => []
  | mv :: rest => [.moveTo mv.pt] ++ (readNodesAs [] rest).1.flatMap segmentCall ++ [if mv.isOpen then .endPath else .closePath]

/-- no cubic curve comes directly after quadratic off-curve points -/
def NotMixed (c : List MasterNode) : Prop :=
  List.IsChain (fun a b : MasterNode => ¬ (a.kind = .qcurve ∧ b.kind = .curve)) c

/-- the quadratic off-curve points at the end of the contour -/
def trailing (c : List MasterNode) : List Point := (readNodesAs [] c.tail).2

/-- the call for a component in master `m`, where `order` has the names of the glyphs -/
def DrawnComponent (order : List PyStr) (m : Nat) (c : Component) (call : SegCall) : Prop :=
  ∃ (i : Nat) (base : PyStr) (sx sy : Dbl) (ox oy : Int), c.gid = i ∧ order[i]? = some base ∧ c.scaleX[m]? = some sx ∧ c.scaleY[m]? = some sy ∧
    c.offsetX[m]? = some ox ∧ c.offsetY[m]? = some oy ∧ call = .addComponent base sx sy ox oy

/-- the same call for a point pen -/
def DirectComponent (order : List PyStr) (m : Nat) (c : Component) (call : PointCall) : Prop :=
  ∃ (i : Nat) (base : PyStr) (sx sy : Dbl) (ox oy : Int), c.gid = i ∧ order[i]? = some base ∧ c.scaleX[m]? = some sx ∧ c.scaleY[m]? = some sy ∧
    c.offsetX[m]? = some ox ∧ c.offsetY[m]? = some oy ∧ call = .addComponent base sx sy ox oy

/-- where a contour begins -/
def startOf (c : List MasterNode) : List Point := (c.head?.map MasterNode.pt).toList

/-- the contours when quadratic off-curve points at the end of one of them, except the last one, get the start of the next contour
as the end of the curve -/
def runOn : List (List MasterNode) → List (List MasterNode)
  | [] => []
  | [c] => [c]
  | c :: c' :: cs =>
    (if trailing c = [] then c else c ++ (startOf c').map fun p => ⟨.line, false, false, none, p, []⟩) :: runOn (c' :: cs)

/-- the calls of a point pen that draw a contour of points -/
def pointCalls (c : UfoContour) : List PointCall := [.beginPath] ++ c.map (fun p => .addPoint p.pt p.seg) ++ [.endPath]

/-- the masters from number `k` on are drawn anew, one after the other, each with its contours -/
def redrawAll (n : Nat) (order : List PyStr) : Nat → List (List UfoContour) → MasterGlyphs → MasterGlyphs × Option PyErr
  | _, [], g => (g, none)
  | k, cs :: css, g =>
    match g.redraw n k order (cs.flatMap contourCalls) with
    | (g, none) => redrawAll n order (k + 1) css g
    | (g, some e) => (g, some e)

/-- contours of two masters that can be interpolated: the same number of contours, with the same types of points -/
def Compatible (a b : List UfoContour) : Prop := a.map (·.map UfoPoint.seg) = b.map (·.map UfoPoint.seg)

end Verif.Spec
