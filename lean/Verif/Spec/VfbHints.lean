import Verif.Model.VfbHints
import Verif.Spec.UfoHints
/-! Vocabulary for C70: the hint sets of a VFB glyph. -/
set_option autoImplicit false
namespace Verif.Spec
open Verif

/-- the masks fall into sections, separated by the replacement entries "r"; the first section starts at node 0 (`p`), the others at
the number given by the replacement -/
def maskSections (p : Int) : List (PyStr × Int) → List (Int × List (PyStr × Int))
  | [] => [(p, [])]
  | m :: ms =>
    if m.1 = lit "r" then (p, []) :: maskSections m.2 ms
    else match maskSections p ms with
      | [] => []
      | s :: ss => (s.1, m :: s.2) :: ss

/-- all sections with their start and the stems of their masks -/
def stemSections (hs vs : List Stem) (masks : List (PyStr × Int)) : List (Int × List Stem) :=
  (maskSections 0 masks).map fun s => (s.1, s.2.filterMap (maskStem hs vs))

/-- the stems of the last section at `p` that has any -/
def setAt (p : Int) (l : List (Int × List Stem)) : Option (List Stem) :=
  (l.filter fun s => s.1 = p ∧ s.2 ≠ []).getLast?.map Prod.snd

end Verif.Spec
