import Verif.Py
/-! Specification vocabulary for groups and kerning in the UFO (C49, C50). -/
set_option autoImplicit false
namespace Verif.Spec
open Verif

/-- the list without repetitions, each element at its first place -/
def keepFirst {α : Type} [DecidableEq α] : List α → List α
  | [] => []
  | x :: xs => x :: (keepFirst xs).filter (fun y => y ≠ x)

/-- a group that is left out when it has no glyphs -/
def unlessEmpty {α : Type} : List α → Option (List α)
  | [] => none
  | l => some l

/-- The UFO prefix of the kerning groups of one side (1: first glyph of the pair, 2: second glyph). -/
def sidePrefix (side : Nat) : PyStr := if side = 1 then lit "public.kern1" else lit "public.kern2"

/-- a kerning group of the given side, by its name -/
def OfSide (side : Nat) (name : PyStr) : Prop := sidePrefix side <+: name

instance (side : Nat) (name : PyStr) : Decidable (OfSide side name) := by unfold OfSide; infer_instance

/-- a name that is reserved for kerning groups in the UFO -/
def KernName (name : PyStr) : Prop := lit "public.kern" <+: name
instance (name : PyStr) : Decidable (KernName name) := by unfold KernName; infer_instance

/-- the first group of the given side that contains glyph `g` -/
def firstGroup (side : Nat) (groups : List (PyStr × List PyStr)) (g : PyStr) : Option PyStr :=
  (groups.find? fun e => decide (OfSide side e.1) && e.2.contains g).map (·.1)

/-- UFO kerning lookup (UFO 3 specification, kerning.plist): glyph–glyph, glyph–group, group–glyph,
group–group, otherwise 0. -/
def ufoLookup (groups : List (PyStr × List PyStr)) (kerning : List ((PyStr × PyStr) × Int)) (a b : PyStr) : Int :=
  let ga := firstGroup 1 groups a
  let gb := firstGroup 2 groups b
  let look (x y : Option PyStr) : Option Int := do dictGet kerning (← x, ← y)
  (look a b <|> look a gb <|> look ga b <|> look ga gb).getD 0

/-- FontLab kerning lookup: kerning is stored for glyph pairs only, and the kerning of the key glyph of a
class applies to all its members unless there is kerning for the member itself; the exceptions rank as in
the UFO.  `src a b` is the stored value of the pair, `key side g` the key glyph of the class of `g`. -/
def vfbLookup (src : PyStr → PyStr → Option Int) (key : Nat → PyStr → Option PyStr) (a b : PyStr) : Int :=
  let ka := key 1 a
  let kb := key 2 b
  let look (x y : Option PyStr) : Option Int := do src (← x) (← y)
  (look a b <|> look a kb <|> look ka b <|> look ka kb).getD 0

/-- the value for master `m` that the glyphs of the VFB store for the pair of glyphs `a`, `b`; a stored
pair names the left glyph and gives the index of the right glyph in the glyph order -/
def storedKerning (order : List PyStr) (kerning : List ((PyStr × Int) × List Int)) (m : Nat) (a b : PyStr) : Option Int :=
  match kerning.find? fun e => decide (e.1.1 = a ∧ 0 ≤ e.1.2 ∧ order[e.1.2.toNat]? = some b) with
  | some e => e.2[m]?
  | none => none

/-- the key glyph of the kerning class of a glyph -/
def classKey (groups : List (PyStr × List PyStr)) (keys : List (PyStr × PyStr)) (side : Nat) (g : PyStr) : Option PyStr :=
  (firstGroup side groups g).bind (dictGet keys)

/-- the name by which a glyph is called in UFO kerning pairs: a key glyph stands for its group -/
def pairName (groups : List (PyStr × List PyStr)) (keys : List (PyStr × PyStr)) (side : Nat) (g : PyStr) : PyStr :=
  if classKey groups keys side g = some g then (firstGroup side groups g).getD g else g

/-- a glyph that is in a kerning class without being its key glyph: a pair with it is an exception -/
def IsMember (groups : List (PyStr × List PyStr)) (keys : List (PyStr × PyStr)) (side : Nat) (g : PyStr) : Prop :=
  firstGroup side groups g ≠ none ∧ classKey groups keys side g ≠ some g
instance (groups : List (PyStr × List PyStr)) (keys : List (PyStr × PyStr)) (side : Nat) (g : PyStr) : Decidable (IsMember groups keys side g) := by
  unfold IsMember; infer_instance

/-- The pair of a master's UFO kerning for a stored pair: zero pairs are left out unless they are
exceptions. -/
def ufoPair (order : List PyStr) (groups : List (PyStr × List PyStr)) (keys : List (PyStr × PyStr)) (m : Nat) (e : (PyStr × Int) × List Int) :
    Option ((PyStr × PyStr) × Int) := do
  let b ← order[e.1.2.toNat]?
  let v ← e.2[m]?
  if v ≠ 0 ∨ IsMember groups keys 1 e.1.1 ∨ IsMember groups keys 2 b then
    some ((pairName groups keys 1 e.1.1, pairName groups keys 2 b), v)
  else none

/-- Consistent kerning data: glyph names and stored pairs are unique, indices are in the glyph order, no
glyph is called like a kerning group, and every key glyph is in the class of which it is the key glyph and in no
earlier class of the same side. -/
structure KerningOk (order : List PyStr) (groups : List (PyStr × List PyStr)) (kerning : List ((PyStr × Int) × List Int))
    (keys : List (PyStr × PyStr)) : Prop where
  orderOk : order.Nodup
  groupsOk : DictOk groups
  kerningOk : DictOk kerning
  keysOk : DictOk keys
  index : ∀ e ∈ kerning, 0 ≤ e.1.2 ∧ e.1.2 < order.length
  left : ∀ e ∈ kerning, ¬ KernName e.1.1
  right : ∀ g ∈ order, ¬ KernName g
  members : ∀ e ∈ groups, ∀ g ∈ e.2, ¬ KernName g
  key : ∀ side, side = 1 ∨ side = 2 → ∀ e ∈ keys, OfSide side e.1 → firstGroup side groups e.2 = some e.1

/-! ### from VFB classes to UFO groups

In the VFB a class name starts with an underscore if it is a kerning class; the key glyph of a kerning
class is marked by a trailing apostrophe. -/

/-- marked as key glyph -/
def IsMarked (g : PyStr) : Prop := g.getLast? = some 39
instance (g : PyStr) : Decidable (IsMarked g) := by unfold IsMarked; infer_instance

/-- glyph name without the mark (apostrophes at both ends are removed) -/
def unmarked (g : PyStr) : PyStr :=
  ((g.dropWhile (· == 39)).reverse.dropWhile (· == 39)).reverse

/-- the glyphs of a class, key glyphs first -/
def classGlyphs (gs : List PyStr) : List PyStr :=
  (gs.filter fun g => IsMarked g).map unmarked ++ gs.filter fun g => ¬ IsMarked g

/-- the glyphs of a class in the UFO: all of them, or on request those which exist in the font; if none
exists, the class is left as it is -/
def groupGlyphs (order : List PyStr) (skip : Bool) (gs : List PyStr) : List PyStr :=
  if skip = true ∧ ∃ g ∈ classGlyphs gs, g ∈ order then (classGlyphs gs).filter fun g => g ∈ order
  else classGlyphs gs

/-- the key glyph of a class: the first key glyph that exists in the font; if no glyph of the class
exists in the font, the first key glyph -/
def keyGlyph (order : List PyStr) (gs : List PyStr) : Option PyStr :=
  if ∃ g ∈ classGlyphs gs, g ∈ order then ((gs.filter fun g => IsMarked g).map unmarked).find? fun k => k ∈ order
  else ((gs.filter fun g => IsMarked g).map unmarked).head?

/-- the names of a class in the UFO: unchanged for other classes; kerning classes get one name for each
side on which they are used according to the class flags (1024: first, 2048: second) -/
def finalNames (flags : List (PyStr × Int)) (name : PyStr) : List PyStr :=
  if lit "_" <+: name then
    match dictGet flags name with
    | none => []
    | some f => (if f / 1024 % 2 = 1 then [lit "public.kern1." ++ name] else []) ++
        (if f / 2048 % 2 = 1 then [lit "public.kern2." ++ name] else [])
  else [name]

end Verif.Spec
