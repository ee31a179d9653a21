import Verif.Spec.UfoPaths
/-! Specification vocabulary for C82: outlines that can be interpolated. -/
set_option autoImplicit false
namespace Verif.Spec
open Verif

/-- everything about a point except where it is -/
def pointShape (p : UfoPoint) : Option PathCommand × Bool × Option PyStr := (p.seg, p.smooth, p.name)

/-- Two contours can be interpolated: the same number of points, and point by point the same type, smooth flag and name. -/
def Interpolable (a b : UfoContour) : Prop := a.map pointShape = b.map pointShape

/-- Two outlines can be interpolated: the same number of contours, and contour by contour compatible. -/
def OutlinesInterpolable (a b : List UfoContour) : Prop := Corresponds Interpolable a b

end Verif.Spec
