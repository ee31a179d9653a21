import Verif.Model.GlyphEntries
import Verif.Spec.TrueType
/-! Specification vocabulary for C44, C45 and the mask metrics of C46. -/
set_option autoImplicit false
namespace Verif.Spec
open Verif

/-- anchors with one 32-bit coordinate pair for each of `n` masters -/
def AnchorsFit (n : Nat) (l : List MMAnchor) : Prop :=
  l.length < 2147483648 ∧ ∀ a ∈ l, a.x.length = n ∧ a.y.length = n ∧ (∀ v ∈ a.x, IsInt32 v) ∧ ∀ v ∈ a.y, IsInt32 v

/-- a number that can be written unsigned and read signed -/
def IsMixed (v : Int) : Prop := -1131 ≤ v ∧ v < 2147483648
instance (v : Int) : Decidable (IsMixed v) := by unfold IsMixed; infer_instance

/-- a pair of 32-bit numbers -/
def PairFits (p : Int × Int) : Prop := IsInt32 p.1 ∧ IsInt32 p.2

/-- An optional list that is either absent or not empty, is short enough, and whose items satisfy `P`. -/
def OptListFits {α : Type} (P : α → Prop) (l : Option (List α)) : Prop :=
  ∀ xs, l = some xs → xs ≠ [] ∧ xs.length < 2147483648 ∧ ∀ x ∈ xs, P x

/-- a GDEF anchor: 32-bit coordinates and, if there is a name, a non-empty Windows-1252 name -/
def GdefAnchorFits (a : GdefAnchor) : Prop :=
  IsInt32 a.x ∧ IsInt32 a.y ∧ ∀ s, a.name = some s → s ≠ [] ∧ IsLatin s ∧ s.length < 2147483648

/-- GDEF data in the form in which it is stored: the class is absent or one of the four names other than
`unassigned`; absent instead of empty lists -/
def GdefFits (d : Gdef) : Prop :=
  (∀ c, d.glyphClass = some c → c ∈ [lit "base", lit "ligature", lit "mark", lit "component"]) ∧
  OptListFits GdefAnchorFits d.anchors ∧ OptListFits PairFits d.carets ∧ OptListFits IsInt32 d.otClasses

/-- the value under an optional key, an empty list if it is absent -/
def orEmpty {α : Type} (l : Option (List α)) : List α := l.getD []

end Verif.Spec
