import Verif.Spec.VfbPens
import Verif.Model.SegPen
/-! Specification vocabulary for C109: drawing into a glyph with a segment pen. -/
set_option autoImplicit false
namespace Verif.Spec
open Verif

/-- a contour that someone draws with a segment pen: where it begins, its segments, and whether it is closed -/
structure Figure where
  start : Point
  segs : List Segment
  closed : Bool
  deriving DecidableEq

/-- a line, or a quadratic curve with at least one control point -/
def IsTrueType (s : Segment) : Prop := (s.kind = .line ∧ s.offs = []) ∨ (s.kind = .qcurve ∧ s.offs ≠ [])

/-- a cubic curve with two control points -/
def IsCubic (s : Segment) : Prop := s.kind = .curve ∧ s.offs.length = 2

/-- the calls that draw it: moveTo, a call for each segment, closePath or endPath -/
def Figure.calls (f : Figure) : List SegCall :=
  [.moveTo f.start] ++ f.segs.flatMap segmentCall ++ [if f.closed then .closePath else .endPath]

/-- the last segment ends there -/
def endsAt (segs : List Segment) (p : Point) : Prop := ∃ s, segs.getLast? = some s ∧ s.target = p

instance (segs : List Segment) (p : Point) : Decidable (endsAt segs p) :=
  match h : segs.getLast? with
  | none => isFalse (by rintro ⟨s, h1, _⟩; rw [h] at h1; cases h1)
  | some s => if h2 : s.target = p then isTrue ⟨s, h, h2⟩ else isFalse (by rintro ⟨t, h1, h3⟩; rw [h] at h1; cases h1; exact h2 h3)

/-- nothing but a point: no segment, or one line to where it begins -/
def Figure.isPoint (f : Figure) : Prop := f.segs = [] ∨ f.segs = [⟨.line, [], f.start⟩]

instance (f : Figure) : Decidable f.isPoint := inferInstanceAs (Decidable (_ ∨ _))

/-- the path that it draws: a closed contour has got a line back to the start, unless its last segment ends there; a single point is not a
closed path -/
def Figure.path (f : Figure) : Path :=
  if f.closed = false then ⟨f.start, f.segs, [], false⟩
  else if f.isPoint then ⟨f.start, [], [], false⟩
  else ⟨f.start, f.segs ++ (if endsAt f.segs f.start then [] else [⟨.line, [], f.start⟩]), [], true⟩

/-- the path without a last line of no length in a closed path; if nothing but such lines is there, it is a single point -/
def withoutNullLine (p : Path) : Path :=
  if p.closed = true ∧ p.segs.getLast? = some ⟨.line, [], p.start⟩ ∧ endsAt p.segs.dropLast p.start then
    if p.segs.dropLast = [⟨.line, [], p.start⟩] then ⟨p.start, [], [], false⟩ else { p with segs := p.segs.dropLast }
  else p

end Verif.Spec
