import Verif.Model.Mm
import Verif.Spec.Entry
/-! Specification vocabulary for C39, C40, C47. -/
set_option autoImplicit false
namespace Verif.Spec
open Verif

/-- anisotropic interpolation maps that can be stored -/
def AnisoFits (l : List (List (Int × Int))) : Prop :=
  ∀ a ∈ l, a.length < 2147483648 ∧ ∀ p ∈ a, IsInt32 p.1 ∧ IsInt32 p.2

/-- the coordinate that is read back for a coordinate: ten-thousandths, cut off -/
def storedCoord (x : Rat) : Rat := fdiv (truncInt (fmul x 10000)) 10000

/-- primary instances that can be stored: a Windows-1252 name, and four coordinates whose ten-thousandths are 32-bit -/
def InstanceFits (i : PrimaryInstance) : Prop :=
  IsLatin i.name ∧ i.name.length < 2147483648 ∧ i.values.length = 4 ∧ ∀ x ∈ i.values, IsInt32 (truncInt (fmul x 10000))

/-- a custom cmap that can be stored -/
def CmapFits (c : CustomCmap) : Prop :=
  IsInt32 c.languageId ∧ IsInt32 c.platformId ∧ IsInt32 c.encodingId ∧ IsInt32 c.format ∧ IsInt32 c.option ∧
    IsLatin c.pageName ∧ c.pageName.length < 2147483648

end Verif.Spec
