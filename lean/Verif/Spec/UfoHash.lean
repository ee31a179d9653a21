import Verif.Model.UfoHash
/-! Specification vocabulary for C106: the drawing of a glyph with its components resolved. -/
set_option autoImplicit false
namespace Verif.Spec
open Verif

/-- the calls for the contours of a glyph: all points of a contour with segment type and coordinates, then the end of the path -/
def outlineCalls (contours : List UfoContour) : List PenPiece :=
  (contours.map fun c => c.map (fun p => PenPiece.point p.seg p.pt) ++ [PenPiece.endPath]).flatten

/-- the calls for a list of components: the outline of the glyph of this name in the same UFO, its components in turn, then the transformation -/
inductive ComponentCalls {ASM : Type} (glyphs : List (PyStr × UfoGlyph ASM)) : List UfoComponent → List PenPiece → Prop
  | nil : ComponentCalls glyphs [] []
  | cons {c : UfoComponent} {cs : List UfoComponent} {g : UfoGlyph ASM} {inner rest : List PenPiece} (base : (c.base, g) ∈ glyphs)
      (first : ComponentCalls glyphs g.components inner) (others : ComponentCalls glyphs cs rest) :
      ComponentCalls glyphs (c :: cs)
        (PenPiece.begin :: (outlineCalls g.contours ++ inner ++ [PenPiece.finish c.xx c.yy c.dx c.dy]) ++ rest)

/-- the calls for a glyph -/
def Drawing {ASM : Type} (glyphs : List (PyStr × UfoGlyph ASM)) (g : UfoGlyph ASM) (l : List PenPiece) : Prop :=
  ∃ inner, ComponentCalls glyphs g.components inner ∧ l = outlineCalls g.contours ++ inner

/-- `b` is the base glyph of a component of `a` -/
def UsesGlyph {ASM : Type} (glyphs : List (PyStr × UfoGlyph ASM)) (a b : PyStr) : Prop :=
  ∃ g, (a, g) ∈ glyphs ∧ ∃ c ∈ g.components, c.base = b

/-- `b` is reached from `a` through components, in one step or more -/
inductive Reaches {ASM : Type} (glyphs : List (PyStr × UfoGlyph ASM)) : PyStr → PyStr → Prop
  | one {a b : PyStr} (h : UsesGlyph glyphs a b) : Reaches glyphs a b
  | more {a b c : PyStr} (h : UsesGlyph glyphs a b) (t : Reaches glyphs b c) : Reaches glyphs a c

/-- coordinates with at most six digits and scales that are finite numbers -/
def Moderate : PenPiece → Prop
  | .point _ pt => pt.1.natAbs < 1000000 ∧ pt.2.natAbs < 1000000
  | .finish xx yy _ _ => (∀ d, xx ≠ .special d) ∧ ∀ d, yy ≠ .special d
  | _ => True

/-- a text that goes on with a sign -/
def SignFirst (s : PyStr) : Prop := ∃ r, s = 43 :: r ∨ s = 45 :: r

/-- What is assumed about the texts of floats: the text of a number that is not an integer, followed by a sign, can be told from those of all other
numbers; and about SHA-512: it has 128 hexadecimal digits. -/
structure LawfulHash (h : HashOps) : Prop where
  floats : ∀ (p q : Rat) (s t : PyStr), SignFirst s → SignFirst t → h.float (.float p) ++ s = h.float (.float q) ++ t → p = q ∧ s = t
  ints : ∀ (p : Rat) (n : Int) (s t : PyStr), SignFirst s → SignFirst t →
    h.float (.float p) ++ s ≠ ((if n < 0 then 45 else 43) :: natDec n.natAbs) ++ t
  digest : ∀ s, (h.digest s).length = 128

end Verif.Spec
