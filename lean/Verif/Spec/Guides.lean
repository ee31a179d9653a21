import Verif.Model.Guides
import Verif.Spec.Entry
/-! Specification vocabulary for C30/C31. -/
set_option autoImplicit false
namespace Verif.Spec
open Verif

/-- guides that fit a font with `numMasters` masters: every guide has one entry per master, with
32-bit positions and 32-bit slopes -/
def GuidesFit (ops : AngleOps) (numMasters : Nat) (d : MMGuides ops.Angle) : Prop :=
  ∀ l ∈ [d.h, d.v], l.length < 2147483648 ∧ ∀ g ∈ l, g.length = numMasters ∧
    ∀ x ∈ g, IsInt32 x.pos ∧ IsInt32 (ops.fromAngle x.angle)

/-- every angle of the guides is restored by the float computation -/
def AnglesExact (ops : AngleOps) (d : MMGuides ops.Angle) : Prop :=
  ∀ l ∈ [d.h, d.v], ∀ g ∈ l, ∀ x ∈ g, ops.toAngle (ops.fromAngle x.angle) = x.angle

/-- replace every angle by the angle that results from writing and reading it -/
def reangle (ops : AngleOps) (d : MMGuides ops.Angle) : MMGuides ops.Angle :=
  let f := List.map (List.map fun x : Guide ops.Angle => ⟨x.pos, ops.toAngle (ops.fromAngle x.angle)⟩)
  ⟨f d.h, f d.v⟩

/-- "#rrggbb" with lower-case hexadecimal digits -/
def IsHexColor (s : PyStr) : Prop :=
  ∃ ds : List Nat, ds.length = 6 ∧ (∀ d ∈ ds, d < 16) ∧ s = 35 :: ds.map fun d => if d < 10 then 48 + d else 87 + d

/-- a guide property that the format can carry -/
def GuidePropOk (g : GuideProp) : Prop :=
  IsInt32 g.index ∧ g.index ≠ 0 ∧ (∀ c, g.color = some c → IsHexColor c) ∧
  ∀ n, g.name = some n → n ≠ [] ∧ n.length < 2147483648 ∧ ∀ c ∈ n, (cp1252Encode c).isSome = true

end Verif.Spec
