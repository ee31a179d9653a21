import Verif.Model.Outline
import Verif.Spec.GlyphEntries
/-! Specification vocabulary for C41 and C46. -/
set_option autoImplicit false
namespace Verif.Spec
open Verif

/-- all points of master `m`, in the order of the nodes -/
def masterPoints (m : Nat) (nodes : List MMNode) : List Point := nodes.flatMap fun node => node.points[m]?.getD []

/-- the steps of a path from the point `from_` -/
def stepsFrom (from_ : Point) : List Point → List Point
  | [] => []
  | p :: ps => (p.1 - from_.1, p.2 - from_.2) :: stepsFrom p ps

/-- the number of points that a node of this type has per master -/
def pointCount (t : PathCommand) : Nat := if t = .curve then 3 else 1

/-- A node has flags below 16 and, for each of the `n` masters, the number of points of its type. -/
def NodeShape (n : Nat) (node : MMNode) : Prop :=
  (∃ f, node.flags = some f ∧ 0 ≤ f ∧ f < 16) ∧ node.points.length = n ∧ ∀ ps ∈ node.points, ps.length = pointCount node.type

/-- Nodes that can be stored for `n` masters: proper nodes; and in each master, starting from the origin, the steps
from point to point are 32-bit. -/
def NodesFit (n : Nat) (nodes : List MMNode) : Prop :=
  (∀ node ∈ nodes, NodeShape n node) ∧
  ∀ m, m < n → ∀ d ∈ stepsFrom (0, 0) (masterPoints m nodes), PairFits d

/-- twice the number of nodes and coordinates, which is stored with an outline -/
def outlineSize (n : Nat) (nodes : List MMNode) : Nat :=
  2 * (nodes.length + 2 * n * (nodes.map fun node => pointCount node.type).sum)

/-- An outline that can be stored: a 32-bit number of masters, at least one unless there are no nodes; nodes that can be
stored; and not too many of them. -/
def OutlineFits (numMasters : Int) (nodes : List MMNode) : Prop :=
  -1131 ≤ numMasters ∧ numMasters < 2147483648 ∧ (nodes ≠ [] → 1 ≤ numMasters) ∧ NodesFit numMasters.toNat nodes ∧
  outlineSize numMasters.toNat nodes < 2147483648

/-- the weight that is read back for a weight: hundred-millionths, rounded -/
def storedWeight (x : Rat) : Rat := fdiv (roundEven (fmul x 100000000)) 100000000

end Verif.Spec
