import Verif.Model.VfbSession
import Verif.Spec.VfbPens
/-! Specification vocabulary for C91: histories of calls on the objects for one glyph. -/
set_option autoImplicit false
namespace Verif.Spec
open Verif

section
variable (ops : AngleOps) (deg : ops.Angle → Rat) (asm : AsmOps)

/-- the state after a history -/
def stateAfter (s : GlyphState) (h : List GlyphOp) : GlyphState := (sessionRun ops deg asm s h).1

/-- what the call `c` returns or draws after the history `h` -/
def answer (s : GlyphState) (h : List GlyphOp) (c : GlyphOp) : GlyphResult := (sessionStep ops deg asm (stateAfter ops deg asm s h) c).2

end

/-- the object as if nothing had been asked of it yet -/
def GlyphObject.forget (o : GlyphObject) : GlyphObject := { o with cache := none, nameCache := none }

/-- the same font, with objects that have not been used yet -/
def forget (s : GlyphState) : GlyphState := { s with main := GlyphObject.forget s.main, masters := s.masters.map GlyphObject.forget }

/-- the calls that are meant to change the glyph -/
def Writes : GlyphOp → Prop
  | .clearContours _ => True
  | .drawInto _ _ => True
  | .rename _ => True
  | _ => False

/-- the object has not been used yet -/
def Unused (s : GlyphState) (r : ObjRef) : Prop := ∃ o, s.obj r = some o ∧ o.cache = none ∧ o.nameCache = none

/-- the outline of the entry in master `m`: the contours and the components, with the names of their glyphs -/
def IsOutline (order : List PyStr) (m : Nat) (e : GlyphEntry) (d : List UfoContour × List UfoComponent) : Prop :=
  (∃ ren, extractContours (e.glyphs.data.nodes.getD []) [] m false = .ok (d.1, ren)) ∧
  (e.glyphs.data.components.getD []).mapM (masterComponent order m) = .ok d.2

end Verif.Spec
