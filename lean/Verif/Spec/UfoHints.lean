import Verif.Model.UfoHints
import Verif.Spec.UfoLabels
import Verif.Spec.UfoGroups
/-! Vocabulary for the statements about PostScript hints in the UFO. -/
set_option autoImplicit false
namespace Verif.Spec
open Verif

/-- a ghost hint marks one edge only; it has one of two special widths -/
def IsGhost (width : Int) : Prop := width = -20 ∨ width = -21

/-- the two edges of a stem, the lower one first -/
def edges (pos width : Int) : Int × Int := (min pos (pos + width), max pos (pos + width))

/-- `f'` is a state of the labels that some history of calls leads to from `f`; the recursion limits of the calls may
differ, and calls may fail -/
def Later (f f' : LabelFont) : Prop :=
  ∃ calls : List (Nat × LabelCall), f' = calls.foldl (fun s c => (c.2.run c.1 s).2) f

/-- a state of the labels that some history of calls leads to -/
def Reachable (f : LabelFont) : Prop := ∃ f0, Fresh f0 ∧ Later f0 f

/-- in the font `f`, `l` is the name of the point `p` of the glyph `name` (without components) -/
def PointName (f : LabelFont) (name : PyStr) (p : Int) (l : PyStr) : Prop :=
  ∃ g, dictGet f.glyphs name = some g ∧
    (dictGet g.pointLabels p = some l ∨ (p = g.numNodes ∧ l = lit "lsb") ∨ (p = g.numNodes + 1 ∧ l = lit "rsb"))

/-- the node at which the hints are replaced: a negative number is one less than the absolute value -/
def replaceAt (i : Int) : Int := if i < 0 then -i - 1 else i

/-- the list of masks consists of sections, separated by the replacement entries "r"; the first section starts at node
0 (`p`), the others at the node given by the replacement -/
def sections (p : Int) : List (PyStr × Int) → List (Int × List (PyStr × Int))
  | [] => [(p, [])]
  | m :: ms =>
    if m.1 = lit "r" then (p, []) :: sections (replaceAt m.2) ms
    else match sections p ms with
      | [] => []
      | s :: ss => (s.1, m :: s.2) :: ss

/-- the stem that a mask refers to, if there is one -/
def maskStem (hs vs : List Stem) (m : PyStr × Int) : Option Stem :=
  if m.1 = lit "h" then if m.2 < 0 then hs[(hs.length + m.2).toNat]? else hs[m.2.toNat]?
  else if m.1 = lit "v" then if m.2 < 0 then vs[(vs.length + m.2).toNat]? else vs[m.2.toNat]?
  else none

/-- the stems of a section -/
def sectionStems (hs vs : List Stem) (s : Int × List (PyStr × Int)) : List Stem := s.2.filterMap (maskStem hs vs)

/-- the sections as pairs of start node and stems, without the empty ones -/
def filledSections (hs vs : List Stem) (masks : List (PyStr × Int)) : List (Int × List Stem) :=
  (((sections 0 masks).map fun s => (s.1, sectionStems hs vs s)).filter fun s => !s.2.isEmpty)

/-- the stems of the last entry for the node `p` -/
def lastFor (p : Int) (l : List (Int × List Stem)) : List Stem :=
  (((l.filter fun s => s.1 = p).getLast?).map Prod.snd).getD []

/-- `t` is the sorted list of the different elements of `l` -/
def SortedSet (l t : List Stem) : Prop :=
  (∀ x, x ∈ t ↔ x ∈ l) ∧
    t.Pairwise fun a b => a.1 < b.1 ∨ (a.1 = b.1 ∧ (a.2.1 < b.2.1 ∨ (a.2.1 = b.2.1 ∧ a.2.2 < b.2.2)))

end Verif.Spec
namespace Verif.Spec
open Verif

/-- the coordinate (0 = x, 1 = y) of node `i` in a master is `c`; negative numbers count from the end -/
def CoordIs (nodes : List MMNode) (master axis : Nat) (i c : Int) : Prop :=
  ∃ n pts p, nodes[(if 0 ≤ i then i else nodes.length + i).toNat]? = some n ∧ -(nodes.length : Int) ≤ i ∧
    n.points[master]? = some pts ∧ pts[0]? = some p ∧ c = if axis = 0 then p.1 else p.2

/-- the stem of a link between two nodes, or between a node and nothing (ghost) -/
def LinkStem (nodes : List MMNode) (master axis : Nat) (link : Int × Int) (st : Stem) : Prop :=
  st.1 = (if axis = 0 then lit "vstem" else lit "hstem") ∧
  ∃ s, CoordIs nodes master axis link.1 s ∧
    (link.2 = -1 → st.2.2 = -21 ∧ st.2.1 + st.2.2 = s) ∧
    (link.2 = -2 → st.2.2 = -20 ∧ st.2.1 = s) ∧
    (link.2 ≠ -1 → link.2 ≠ -2 → ∃ t, CoordIs nodes master axis link.2 t ∧ st.2.1 = s ∧ st.2.1 + st.2.2 = t)

/-- the stem of a hint: same edges, and the width is not negative unless it is a ghost hint -/
def HintStem (d : PyStr) (master : Nat) (hint : List (Int × Int)) (st : Stem) : Prop :=
  ∃ x, hint[master]? = some x ∧ st.1 = d ∧ edges st.2.1 st.2.2 = edges x.1 x.2 ∧ (0 ≤ st.2.2 ∨ IsGhost st.2.2) ∧
    (IsGhost x.2 → st.2 = x)

/-- the elements of the two lists correspond to each other -/
def Corresponds {α β : Type} (r : α → β → Prop) (l : List α) (m : List β) : Prop :=
  l.length = m.length ∧ ∀ (k : Nat) a b, l[k]? = some a → m[k]? = some b → r a b

end Verif.Spec
