import Verif.Model.UfoPaths
import Verif.Spec.UfoHints
/-! Vocabulary for the statements about contours: what the nodes of a VFB glyph and the points of an UFO contour
mean. -/
set_option autoImplicit false
namespace Verif.Spec
open Verif

/-! ### Paths -/

/-- a segment: its kind, its off-curve points and the point where it ends -/
structure Segment where
  kind : PathCommand
  offs : List Point
  target : Point
  deriving DecidableEq, Repr

/-- a path: where it starts, its segments, off-curve points after the last segment (only in an open path), and
whether it is closed -/
structure Path where
  start : Point
  segs : List Segment
  dangling : List Point
  closed : Bool
  deriving DecidableEq, Repr

/-! ### The UFO side, after the UFO specification -/

/-- points in order, with the off-curve points seen since the last on-curve point -/
def readPoints : List Point → UfoContour → List Segment × List Point
  | pending, [] => ([], pending)
  | pending, p :: ps =>
    match p.seg with
    | none => readPoints (pending ++ [p.pt]) ps
    | some k => (⟨k, pending, p.pt⟩ :: (readPoints [] ps).1, (readPoints [] ps).2)

/-- the path of an UFO contour: open if the first point is a "move", else closed, and then the type of the first
point describes the segment that ends there -/
def ufoPath : UfoContour → Option Path
  | [] => none
  | first :: rest =>
    if first.seg = some .move then
      some ⟨first.pt, (readPoints [] rest).1, (readPoints [] rest).2, false⟩
    else some ⟨first.pt, (readPoints [] (rest ++ [first])).1, (readPoints [] (rest ++ [first])).2, true⟩

/-! ### The VFB side -/

/-- a node in one master -/
structure MasterNode where
  kind : PathCommand
  smooth : Bool
  isOpen : Bool
  name : Option PyStr
  pt : Point
  /-- the two control points of a curve -/
  ctrl : List Point
  deriving DecidableEq, Repr

/-- `a` is node number `i` in the master `m`, where `labels` has the names of the points; bit 0 of the flags means
smooth, bit 3 open -/
def NodeIs (labels : List (Int × PyStr)) (m : Nat) (i : Nat) (n : MMNode) (a : MasterNode) : Prop :=
  a.kind = n.type ∧ a.name = dictGet labels (i : Int) ∧
  (∃ flags, n.flags = some flags ∧ (a.smooth = true ↔ flags % 2 = 1) ∧ (a.isOpen = true ↔ flags / 8 % 2 = 1)) ∧
  ∃ rest, n.points[m]? = some (a.pt :: rest) ∧
    if a.kind = .curve then rest = a.ctrl ∧ a.ctrl.length = 2 else a.ctrl = []

/-- the nodes of a glyph in one master -/
def NodesAre (labels : List (Int × PyStr)) (m : Nat) (nodes : List MMNode) (l : List MasterNode) : Prop :=
  nodes.length = l.length ∧ ∀ (i : Nat) n a, nodes[i]? = some n → l[i]? = some a → NodeIs labels m i n a

/-- a contour is a "move" node and the nodes up to the next one -/
def IsContour (c : List MasterNode) : Prop :=
  ∃ mv rest, c = mv :: rest ∧ mv.kind = .move ∧ ∀ x ∈ rest, x.kind ≠ .move

/-- the segments of the nodes after the "move": a line node ends a run of quadratic off-curve points, if there is one -/
def readNodesAs : List Point → List MasterNode → List Segment × List Point
  | pending, [] => ([], pending)
  | pending, n :: ns =>
    match n.kind with
    | .qcurve => readNodesAs (pending ++ [n.pt]) ns
    | .curve => (⟨.curve, pending ++ n.ctrl, n.pt⟩ :: (readNodesAs [] ns).1, (readNodesAs [] ns).2)
    | _ => (⟨if pending = [] then .line else .qcurve, pending, n.pt⟩ :: (readNodesAs [] ns).1, (readNodesAs [] ns).2)

/-- the last segment is a curve that ends at `start` -/
def curveEndsAt (segs : List Segment) (start : Point) : Prop :=
  ∃ s, segs.getLast? = some s ∧ s.kind = .curve ∧ s.target = start

instance (segs : List Segment) (start : Point) : Decidable (curveEndsAt segs start) :=
  match h : segs.getLast? with
  | none => isFalse (by rintro ⟨s, h1, _⟩; rw [h] at h1; cases h1)
  | some s =>
    if h2 : s.kind = .curve ∧ s.target = start then isTrue ⟨s, h, h2.1, h2.2⟩
    else isFalse (by rintro ⟨t, h1, h3⟩; rw [h] at h1; cases h1; exact h2 h3)

/-- what closes a closed contour: the pending quadratic curve, or a line to the start, unless a curve has got there
already -/
def closing (segs : List Segment) (pending : List Point) (start : Point) : List Segment :=
  if pending ≠ [] then [⟨.qcurve, pending, start⟩]
  else if curveEndsAt segs start then []
  else [⟨.line, [], start⟩]

/-- the path of a VFB contour: closed unless the flag of the first node says otherwise; a single point is not closed -/
def vfbPath : List MasterNode → Option Path
  | [] => none
  | mv :: rest =>
    let r := readNodesAs [] rest
    if mv.isOpen ∨ rest = [] then some ⟨mv.pt, r.1, r.2, false⟩
    else some ⟨mv.pt, r.1 ++ closing r.1 r.2 mv.pt, [], true⟩

/-- the points of a node as triples of smooth, name and coordinates.  Control points have no names, and off-curve
points are not smooth. -/
def nodePoints (n : MasterNode) : List (Bool × Option PyStr × Point) :=
  match n.kind with
  | .curve => n.ctrl.map (fun p => (false, none, p)) ++ [(n.smooth, n.name, n.pt)]
  | .qcurve => [(false, n.name, n.pt)]
  | _ => [(n.smooth, n.name, n.pt)]

def pointTriple (p : UfoPoint) : Bool × Option PyStr × Point := (p.smooth, p.name, p.pt)

/-- a closed contour whose last node is a curve that ends at the start: its first and last point become one -/
def Joined (c : List MasterNode) : Prop :=
  ∃ mv last, c.head? = some mv ∧ c.getLast? = some last ∧ mv.isOpen = false ∧ last.kind = .curve ∧ last.pt = mv.pt

/-- the points of the contour are those of the nodes, in order; the first and last one of a joined contour become
one, with the properties of the last one, but the name of the first one if the last one has none -/
def SamePoints (c : List MasterNode) (out : UfoContour) : Prop :=
  (¬ Joined c → out.map pointTriple = c.flatMap nodePoints) ∧
  (Joined c → ∃ first mid last, c.flatMap nodePoints = first :: mid ++ [last] ∧
    out.map pointTriple = (last.1, last.2.1.or first.2.1, last.2.2) :: mid)

/-- the names that a joined contour loses, with the names that replace them -/
def lostNames (c : List MasterNode) (old new : PyStr) : Prop :=
  Joined c ∧ (c.head?.bind MasterNode.name) = some old ∧ (c.getLast?.bind MasterNode.name) = some new

/-! ### TrueType commands -/

/-- a command of the kind the converter makes: a known code and exactly the points that belong to it -/
def WellFormedCmd (cmd : TthCommand) : Prop :=
  ∃ code, dictGet cmd (lit "code") = some code ∧
    ((code ∈ [lit "alignb", lit "alignt", lit "alignh", lit "alignv", lit "mdeltah", lit "mdeltav", lit "fdeltah", lit "fdeltav"] ∧
        (dictGet cmd (lit "point")).isSome ∧ dictGet cmd (lit "point1") = none ∧ dictGet cmd (lit "point2") = none) ∨
      (code ∈ [lit "singleh", lit "singlev", lit "doubleh", lit "doublev"] ∧
        dictGet cmd (lit "point") = none ∧ (dictGet cmd (lit "point1")).isSome ∧ (dictGet cmd (lit "point2")).isSome) ∨
      (code ∈ [lit "interpolateh", lit "interpolatev"] ∧
        (dictGet cmd (lit "point")).isSome ∧ (dictGet cmd (lit "point1")).isSome ∧ (dictGet cmd (lit "point2")).isSome))

/-- the keys of a command that hold names of points -/
def pointKeyNames : List PyStr := [lit "point", lit "point1", lit "point2"]

/-- the command with its points renamed -/
def RenamedCmd (rename : List (PyStr × PyStr)) (cmd cmd' : TthCommand) : Prop :=
  ∀ key, dictGet cmd' key = if key ∈ pointKeyNames then (dictGet cmd key).map (fun x => (dictGet rename x).getD x) else dictGet cmd key

end Verif.Spec
