import Verif.Model.UfoMasters
import Verif.Spec.UfoGlyph
/-! Specification vocabulary for C71–C74: masters, axes, the designspace document. -/
set_option autoImplicit false
namespace Verif.Spec
open Verif

section
variable (ops : AngleOps) (asm : AsmOps)

/-- the texts in the entries with this id, in the order of the file -/
def textsOf (o : BuildOpts) (es : List (FEntry ops asm)) (id : Int) : List PyStr :=
  (dataOf ops asm o es id).filterMap fun d =>
    match d with
    | .str s => some s
    | _ => none

/-- The location that the file gives for the master with number `n` (from 1): that of the last such entry. -/
def locationOf (o : BuildOpts) (es : List (FEntry ops asm)) (n : Int) : Option (List Dbl) :=
  ((dataOf ops asm o es 1505).filterMap fun d =>
    match d with
    | .location l => if l.1 = n then some l.2 else none
    | _ => none).getLast?

end

/-- How many masters a font with so many axes should at least have got according to the code.  (A font with `n` axes has 2ⁿ masters
in reality, see `C71_axes_defect`.) -/
def expectedMasters (axes : Int) : Nat := if axes = 0 then 1 else axes.natAbs * axes.natAbs

/-- `v` is the double nearest to 1000 times the double `d` (with an error of at most one part in 2⁵³) -/
def IsPerMille (d : Dbl) (v : Option Rat) : Prop :=
  ∀ x, d.toRat = some x → |x| ≤ (2 : Rat) ^ (1000 : Int) → ∃ q, v = some q ∧ |q - 1000 * x| ≤ |1000 * x| / 2 ^ 53

/-- `k` is the last axis of this name -/
def LastAxis (names : List PyStr) (k : Nat) (name : PyStr) : Prop :=
  names[k]? = some name ∧ ∀ j, k < j → names[j]? ≠ some name

/-- `t` is `s` without the white space at both ends -/
def IsStripped (s t : PyStr) : Prop :=
  ∃ pre post : PyStr, s = pre ++ t ++ post ∧ (∀ c ∈ pre, isSpace c = true) ∧ (∀ c ∈ post, isSpace c = true) ∧
    (∀ c, t.head? = some c → isSpace c = false) ∧ ∀ c, t.getLast? = some c → isSpace c = false

/-- the location has got a coordinate for each axis name, and no other; an axis has the coordinate that `rel` allows for the value that the
file stores at its place (if several axes have the same name, the last one counts) -/
def LocationFor {α β : Type} (rel : α → β → Prop) (axes : List PyStr) (stored : List α) (loc : List (PyStr × β)) : Prop :=
  DictOk loc ∧ (∀ name, name ∈ axes ↔ ∃ v, dictGet loc name = some v) ∧
  ∀ k name, LastAxis axes k name → ∃ x v, stored[k]? = some x ∧ dictGet loc name = some v ∧ rel x v

/-- `v` is 1000 times the double `d`, rounded to an integer -/
def IsRoundedPerMille (d : Dbl) (v : Int) : Prop :=
  ∀ x, d.toRat = some x → |x| ≤ (2 : Rat) ^ (1000 : Int) → |(v : Rat) - 1000 * x| ≤ 1 / 2 + |1000 * x| / 2 ^ 53

/-- `m` is the least (the greatest) of these doubles -/
def IsMin (l : List Dbl) (m : Dbl) : Prop := m ∈ l ∧ ∀ d ∈ l, ∀ x y, d.toRat = some x → m.toRat = some y → y ≤ x
def IsMax (l : List Dbl) (m : Dbl) : Prop := m ∈ l ∧ ∀ d ∈ l, ∀ x y, d.toRat = some x → m.toRat = some y → x ≤ y

/-- The mappings of axis `i` when it has got `n` of them: there is room for ten for each axis. -/
def mappingsOf (data : List (Dbl × Dbl)) (i : Nat) (n : Int) : List (Dbl × Dbl) := (data.drop (10 * i)).take n.toNat

/-- the axis with these mappings: the user coordinate of each mapping belongs to 1000 times the other coordinate, and the range of the
axis is that of the user coordinates; if none are left, it is from 0 to 1000 -/
structure Mapped (mappings : List (Dbl × Dbl)) (axis : Axis) : Prop where
  map : axis.map.map Prod.fst = mappings.map Prod.fst ∧
    ∀ (k : Nat) (p : Dbl × Dbl) (m : Dbl × Int), mappings[k]? = some p → axis.map[k]? = some m → IsRoundedPerMille p.2 m.2
  range : (∀ p ∈ mappings, p.1.toRat.isSome) → mappings ≠ [] →
    ∃ mn mx, axis.minimum = some mn ∧ axis.default = some mn ∧ axis.maximum = some mx ∧
      IsMin (mappings.map Prod.fst) mn ∧ IsMax (mappings.map Prod.fst) mx
  none_left : mappings = [] →
    ∃ mn mx, axis.minimum = some mn ∧ axis.default = some mn ∧ axis.maximum = some mx ∧ mn.toRat = some 0 ∧ mx.toRat = some 1000

/-- the double is not a number -/
def IsNan (d : Dbl) : Prop := d.bits.toNat / 2 ^ 52 % 2048 = 2047 ∧ d.bits.toNat % 2 ^ 52 ≠ 0

/-- positive infinity -/
def posInfinity : Dbl := ⟨0x7FF0000000000000⟩

/-- negative infinity -/
def negInfinity : Dbl := ⟨0xFFF0000000000000⟩

/-- an axis without mappings and without a range -/
structure Unmapped (axis : Axis) : Prop where
  map : axis.map = []
  minimum : axis.minimum = none
  default : axis.default = none
  maximum : axis.maximum = none

/-- the registered tags for the names that FontLab gives to axes -/
def registeredTags : List (PyStr × PyStr) :=
  [(lit "Weight", lit "wght"), (lit "Width", lit "wdth"), (lit "Optical Size", lit "opsz"), (lit "Serif", lit "SERF")]

end Verif.Spec
