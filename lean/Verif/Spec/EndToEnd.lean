import Verif.Spec.Cmdline
import Verif.Spec.Container
import Verif.Spec.UfoConvert
/-! Specification vocabulary for C90: from the bytes of a VFB file to the UFOs on disk. -/
set_option autoImplicit false
namespace Verif.Spec
open Verif

/-- the entries of the file that are converted: all but the two encodings -/
def keptEntries (es : List (Nat × Bytes)) : List (Nat × Bytes) := es.filter fun p => decide (p.1 ≠ 1500 ∧ p.1 ≠ 1501)

section
variable (ops : AngleOps) (asm : AsmOps)

/-- the settings for the parsers: the encoding, the number of masters and of stems that the file states -/
def fileCtx (a : UfoArgs) (es : List (Nat × Bytes)) : Ctx := ctxAll (vfbCodec ops asm) a.unicode_strings {} es

/-- the decompiled entry `e` has got the id of the entry `p` of the file, and the data that the parser for this id reads from its payload -/
def Decoded (c : Ctx) (p : Nat × Bytes) (e : FEntry ops asm) : Prop :=
  e.1 = p.1 ∧ ∃ d, parseEntry ((vfbCodec ops asm).parse p.1 c) p.2 = .ok d ∧ e.2 = some d

end
end Verif.Spec
