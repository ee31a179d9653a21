import Verif.Model.VfbPens
/-! Model of `getPen()` (vfb/glyph.py): fontTools' `SegmentToPointPen` with `guessSmooth`, in front of `VfbGlyphPointPen`.  fontTools is not
part of /repo; its pens are modelled from their published source. -/
set_option autoImplicit false
namespace Verif

/-- `SegmentToPointPen.contour`: points with their segment types — vfb/glyph.py:340-345 (fontTools.pens.pointPen) -/
abbrev SegContour := List (Point × Option PathCommand)

/-- the pen that `getPen()` returns: the point pen behind it and the contour being collected
— vfb/glyph.py:340-345, 449-454 -/
structure SegPen where
  pen : PointPen
  contour : Option SegContour
  deriving DecidableEq

/-- the calls of the point pen for a finished contour — vfb/glyph.py:340-345 (`SegmentToPointPen._flushContour` and `GuessSmoothPointPen`,
which only sets flags of points; which ones depends on angles, so it is a parameter) -/
def flushSeg (smooth : SegContour → Nat → Bool) (c : SegContour) : List PenCall :=
  [.beginPath] ++ c.mapIdx (fun i p => .addPoint ((p.1.1 : Rat), (p.1.2 : Rat)) p.2 (smooth c i) none) ++ [.endPath]

/-- `SegmentToPointPen.closePath`: a last point that is where the contour begins replaces the first point; otherwise, a "move" becomes a
"line" — vfb/glyph.py:340-345 (fontTools) -/
def closeSeg (c : SegContour) : SegContour :=
  match c, c.getLast? with
  | f :: r, some l => if r ≠ [] ∧ f.1 = l.1 then l :: r.dropLast else (f.1, if f.2 = some .move then some .line else f.2) :: r
  | c, _ => c

/-- the finished contour goes to the point pen — vfb/glyph.py:340-345 (fontTools) -/
def endSeg (smooth : SegContour → Nat → Bool) (n : Nat) (order : List PyStr) (s : SegPen) (c : SegContour) : SegPen × Option PyErr :=
  match runPen n order s.pen (flushSeg smooth c) with
  | (pen, none) => (⟨pen, none⟩, none)
  | (pen, some e) => ({ s with pen := pen }, some e)

/-- one call of the pen — vfb/glyph.py:340-345 (fontTools).  PenError ("Contour missing required initial moveTo", "Components must be added
before or after contours") is represented as AssertionError, which older versions of fontTools raise.  Coordinates are whole numbers, and a
`qCurveTo` that ends with `None` is not represented. -/
def segStep (smooth : SegContour → Nat → Bool) (n : Nat) (order : List PyStr) (s : SegPen) : SegCall → SegPen × Option PyErr
  | .moveTo pt => ({ s with contour := some [(pt, some .move)] }, none)
  | .lineTo pt =>
    match s.contour with
    | none => (s, some .assertion)
    | some c => ({ s with contour := some (c ++ [(pt, some .line)]) }, none)
  | .curveTo c1 c2 pt =>
    match s.contour with
    | none => (s, some .assertion)
    | some c => ({ s with contour := some (c ++ [(c1, none), (c2, none), (pt, some .curve)]) }, none)
  | .qCurveTo pts =>
    match pts.getLast? with
    | none => (s, some .type)
    | some last =>
      match s.contour with
      | none => (s, some .assertion)
      | some c => ({ s with contour := some (c ++ pts.dropLast.map (fun p => (p, none)) ++ [(last, some .qcurve)]) }, none)
  | .closePath =>
    match s.contour with
    | none => (s, some .assertion)
    | some c => endSeg smooth n order s (closeSeg c)
  | .endPath =>
    match s.contour with
    | none => (s, some .assertion)
    | some c => endSeg smooth n order s c
  | .addComponent base sx sy ox oy =>
    match s.contour with
    | some _ => (s, some .assertion)
    | none =>
      match penStep n order s.pen (.addComponent base ⟨sx, ⟨0⟩, ⟨0⟩, sy, ox, oy⟩) with
      | (pen, e) => ({ s with pen := pen }, e)

/-- calls one after the other, up to the first exception — vfb/glyph.py:340-345, 449-454 -/
def runSeg (smooth : SegContour → Nat → Bool) (n : Nat) (order : List PyStr) : SegPen → List SegCall → SegPen × Option PyErr
  | s, [] => (s, none)
  | s, c :: cs =>
    match segStep smooth n order s c with
    | (s', none) => runSeg smooth n order s' cs
    | (s', some e) => (s', some e)

end Verif
