import Verif.Model.UfoGuides
/-! Specification vocabulary for C81: guidelines. -/
set_option autoImplicit false
namespace Verif.Spec
open Verif

/-- The property belongs to the guide number `i` (from 0) of `n` guides: indices count from 1; negative ones count from the end. -/
def Addresses (n i : Nat) (p : GuideProp) : Prop :=
  p.index = i + 1 ∨ (p.index < 1 ∧ p.index + n = i + 1)

instance (n i : Nat) (p : GuideProp) : Decidable (Addresses n i p) := inferInstanceAs (Decidable (_ ∨ _))

/-- the properties of the guide -/
def propsOf (n i : Nat) (l : List GuideProp) : List GuideProp := l.filter fun p => Addresses n i p

/-- The angle in the UFO: counter-clockwise from the horizontal, between 0 and 360 degrees, rounded to two decimals. -/
def AngleFrom (vertical : Bool) (stored angle : Rat) : Prop :=
  0 ≤ angle ∧ angle ≤ 360 ∧
  |angle - (if vertical then 90 - stored else if stored < 0 then stored + 360 else stored)| ≤ 501 / 100000

/-- The value is that of the last property that has got one, converted. -/
def LastProp {α β : Type} (l : List GuideProp) (f : GuideProp → Option α) (rel : α → β → Prop) (value : Option β) : Prop :=
  (l.filterMap f = [] ∧ value = none) ∨ ∃ x y, (l.filterMap f).getLast? = some x ∧ rel x y ∧ value = some y

/-- the number of the component of a colour, as a text with four decimals -/
def unitText (m : Nat) : PyStr :=
  [48 + m / 10000, 46, 48 + m / 1000 % 10, 48 + m / 100 % 10, 48 + m / 10 % 10, 48 + m % 10]

/-- the text is the nearest number with four decimals for the component `c` of 255 -/
def IsUnit (c : Nat) (s : PyStr) : Prop := ∃ m : Nat, 2 * |255 * (m : Int) - 10000 * c| < 255 ∧ s = unitText m

section
variable (ops : AngleOps) (deg : ops.Angle → Rat)

/-- The guide number `i` of `n` guides of one direction in the UFO: from the stored guide `l` and the properties. -/
structure GuideFrom (vertical : Bool) (master n i : Nat) (l : List (Guide ops.Angle)) (props : List GuideProp) (u : UfoGuide) : Prop where
  place : ∃ g, l[master]? = some g ∧ (u.x, u.y) = (if vertical then (g.pos, 0) else (0, g.pos)) ∧ AngleFrom vertical (deg g.angle) u.angle
  color : LastProp (propsOf n i props) GuideProp.color (fun c t => guideColor c = .ok t) u.color
  name : LastProp (propsOf n i props) GuideProp.name (fun x y => y = x) u.name

end

/-- The colour can be converted: the first two characters after the first one are hexadecimal digits, and there is at least one. -/
def ColorOk (c : PyStr) : Prop := (c.drop 1).take 2 ≠ [] ∧ ∀ x ∈ (c.drop 1).take 2, ∃ h, hexVal x = some h

/-- The property can be applied to a list of `n` guides: it is beyond the end (and has no effect), or it belongs to a guide and its
colour can be converted. -/
def Applicable (n : Nat) (p : GuideProp) : Prop :=
  (n : Int) < p.index ∨ (1 - (n : Int) ≤ p.index ∧ ∀ c, p.color = some c → ColorOk c)

end Verif.Spec
