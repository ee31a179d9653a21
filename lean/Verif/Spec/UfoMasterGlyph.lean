import Verif.Model.UfoMasterGlyph
import Verif.Spec.UfoPaths
import Verif.Spec.UfoGuides
/-! Specification vocabulary for C83: a glyph of a UFO. -/
set_option autoImplicit false
namespace Verif.Spec
open Verif

/-- `x` is the element number `i` of the list; negative numbers count from the end -/
def ElementAt {α : Type} (l : List α) (i : Int) (x : α) : Prop :=
  -(l.length : Int) ≤ i ∧ l[(if 0 ≤ i then i else l.length + i).toNat]? = some x

/-! ### components -/

/-- the value of a scale, if it is a number -/
def scaleValue : UfoScale → Option Rat
  | .int n => some n
  | .float q => some q
  | .special _ => none

/-- The scale in the UFO for a stored double.  A finite number is rounded to 15 decimals (and to the nearest double); it is written as an
integer if it is one. -/
structure ScaleOf (d : Dbl) (s : UfoScale) : Prop where
  special : d.toRat = none → s = .special d
  rounded : ∀ x, d.toRat = some x → ∃ v, scaleValue s = some v ∧
    ∃ k : Int, |x * 10 ^ 15 - k| ≤ 1 / 2 ∧ |v - k / 10 ^ 15| ≤ |(k : Rat) / 10 ^ 15| / 2 ^ 53
  integral : ∀ x (n : Int), d.toRat = some x → x = n → s = .int n
  fraction : ∀ q (n : Int), s = .float q → q ≠ n
  /-- a decimal number with up to 15 decimals (as a double) is kept -/
  decimal : ∀ x (n : Int), d.toRat = some x → |n| < 2 ^ 52 → x = fl ((n : Rat) / 10 ^ 15) → scaleValue s = some x

/-- a component of the UFO in the master `k` -/
structure ComponentOf (order : List PyStr) (k : Nat) (c : Component) (out : UfoComponent) : Prop where
  base : ElementAt order c.gid out.base
  dx : c.offsetX[k]? = some out.dx
  dy : c.offsetY[k]? = some out.dy
  xx : ∃ d, c.scaleX[k]? = some d ∧ ScaleOf d out.xx
  yy : ∃ d, c.scaleY[k]? = some d ∧ ScaleOf d out.yy

/-! ### anchors -/

/-- The anchors in the master `k`: those of the glyph, in order, with their names; an anchor that has got positions for the masters is
at its position in this master, the others are where they are in the glyph. -/
def AnchorsOf (anchors : List GdefAnchor) (mm : List MMAnchor) (k : Nat) (out : List GdefAnchor) : Prop :=
  mm.length ≤ anchors.length ∧
  Corresponds (fun (a : Nat × GdefAnchor) (b : GdefAnchor) => b.name = a.2.name ∧
    (∀ m, mm[a.1]? = some m → m.x[k]? = some b.x ∧ m.y[k]? = some b.y) ∧
    (mm[a.1]? = none → b.x = a.2.x ∧ b.y = a.2.y)) ((List.range anchors.length).zip anchors) out

/-! ### the glyph -/

/-- the contours are those of the nodes in the master `k`, where `labels` has the names of the points -/
def OutlineOf (labels : List (Int × PyStr)) (k : Nat) (nodes : List MMNode) (contours : List UfoContour) : Prop :=
  ∃ cs : List (List MasterNode), NodesAre labels k nodes cs.flatten ∧ (∀ c ∈ cs, IsContour c) ∧
    Corresponds (fun c out => ufoPath out = vfbPath c ∧ SamePoints c out) cs contours

/-- the outline starts with a "move" -/
def StartsWithMove (nodes : List MMNode) : Prop := ∀ n, nodes.head? = some n → n.type = .move

section
variable (ops : AngleOps) (deg : ops.Angle → Rat) (asm : AsmOps)

/-- the guidelines of the glyph in the master `k` -/
def GuidelinesOf (guides : MMGuides ops.Angle) (props : GuideProps) (k : Nat) (l : List UfoGuide) : Prop :=
  l.length = guides.h.length + guides.v.length ∧
  (∀ (i : Nat) (s : List (Guide ops.Angle)), guides.h[i]? = some s →
    ∃ u, l[i]? = some u ∧ GuideFrom ops deg false k guides.h.length i s props.h u) ∧
  (∀ (i : Nat) (s : List (Guide ops.Angle)), guides.v[i]? = some s →
    ∃ u, l[guides.h.length + i]? = some u ∧ GuideFrom ops deg true k guides.v.length i s props.v u)

/-- The glyph `out` of the UFO is the master `k` of the glyph `g`; `labels` has the names of the points.  (Hints: see C51, C59, C60.) -/
structure IsMaster (minimal : Bool) (order : List PyStr) (labels : List (Int × PyStr)) (k : Nat) (g : BGlyph ops.Angle asm.Asm)
    (out : UfoGlyph asm.Asm) : Prop where
  metrics : g.metrics[k]? = some (out.width, out.height)
  unicodes : out.unicodes = g.unicodes
  outline : StartsWithMove g.nodes → OutlineOf labels k g.nodes out.contours
  components : Corresponds (ComponentOf order k) g.components out.components
  anchors : AnchorsOf g.anchors (g.mmAnchors.getD []) k out.anchors
  guidelines : (minimal = true ∨ g.guides = none → out.guidelines = []) ∧
    ∀ gs, minimal = false → g.guides = some gs → GuidelinesOf ops deg gs g.guideProps k out.guidelines
  lib : (out.mark, out.userData, out.background, out.bitmaps, out.instructions) = (g.mark, g.userData, g.background, g.bitmaps, g.instructions)
  mask : (minimal = true → out.maskContours = []) ∧
    (minimal = false → StartsWithMove g.maskNodes → OutlineOf [] k g.maskNodes out.maskContours)
  maskMetrics : minimal = false → (if g.maskMetrics = [] then g.metrics else g.maskMetrics)[k]? = some out.maskMetrics

/-- what every point of an outline needs in the master `k`: flags, a point, and for a curve two more -/
def HasNodes (k : Nat) (nodes : List MMNode) : Prop :=
  ∀ n ∈ nodes, n.flags ≠ none ∧ ∃ p rest, n.points[k]? = some (p :: rest) ∧ (n.type = .curve → rest.length = 2)

/-- what the glyph needs for the master `k`, apart from hints -/
structure HasMaster (minimal : Bool) (order : List PyStr) (k : Nat) (g : BGlyph ops.Angle asm.Asm) : Prop where
  metrics : k < g.metrics.length
  nodes : HasNodes k g.nodes
  components : ∀ c ∈ g.components, (-(order.length : Int) ≤ c.gid ∧ c.gid < order.length) ∧ k < c.offsetX.length ∧ k < c.offsetY.length ∧
    k < c.scaleX.length ∧ k < c.scaleY.length
  anchors : ∀ mm, g.mmAnchors = some mm → mm.length ≤ g.anchors.length ∧ ∀ m ∈ mm, k < m.x.length ∧ k < m.y.length
  guides : minimal = false → ∀ gs, g.guides = some gs → (∀ s ∈ gs.h, k < s.length) ∧ (∀ s ∈ gs.v, k < s.length) ∧
    (∀ q ∈ g.guideProps.h, Applicable gs.h.length q) ∧ ∀ q ∈ g.guideProps.v, Applicable gs.v.length q
  mask : minimal = false → HasNodes k g.maskNodes ∧ (g.maskMetrics ≠ [] → k < g.maskMetrics.length)

end

/-! ### base64 -/

/-- the value of a character of the base64 alphabet (RFC 4648, table 1) -/
def b64Value (c : Nat) : Option Nat :=
  if 65 ≤ c ∧ c ≤ 90 then some (c - 65)
  else if 97 ≤ c ∧ c ≤ 122 then some (c - 97 + 26)
  else if 48 ≤ c ∧ c ≤ 57 then some (c - 48 + 52)
  else if c = 43 then some 62
  else if c = 47 then some 63
  else none

/-- the bytes of a base64 text: four characters are three bytes; "=" pads the last group -/
def b64Decode : Bytes → Option Bytes
  | [] => some []
  | [a, b, c, d] => do
    let x ← b64Value a.toNat
    let y ← b64Value b.toNat
    if c = 61 ∧ d = 61 then return [UInt8.ofNat ((x * 64 + y) / 16)]
    let z ← b64Value c.toNat
    if d = 61 then return [UInt8.ofNat ((x * 64 + y) / 16), UInt8.ofNat ((x * 4096 + y * 64 + z) / 4 % 256)]
    let w ← b64Value d.toNat
    let n := x * 262144 + y * 4096 + z * 64 + w
    return [UInt8.ofNat (n / 65536), UInt8.ofNat (n / 256 % 256), UInt8.ofNat (n % 256)]
  | a :: b :: c :: d :: r => do
    let x ← b64Value a.toNat
    let y ← b64Value b.toNat
    let z ← b64Value c.toNat
    let w ← b64Value d.toNat
    let n := x * 262144 + y * 4096 + z * 64 + w
    let l ← b64Decode r
    return UInt8.ofNat (n / 65536) :: UInt8.ofNat (n / 256 % 256) :: UInt8.ofNat (n % 256) :: l
  | _ => none

end Verif.Spec
