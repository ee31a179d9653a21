import Verif.Py
/-! Model of `ufo/instructions.py`: TrueType instructions as text in a UFO, for C94. -/
set_option autoImplicit false
namespace Verif

/-- what the function uses of fontTools: the disassembler, and the two patterns for lines that begin or end a block
— ufo/instructions.py:20-27 -/
structure AsmText where
  getAssembly : Bytes → Except PyErr (List PyStr)
  splitlines : PyStr → List PyStr
  indents : PyStr → Bool
  unindents : PyStr → Bool

/-- the argument of `format_assembly` — ufo/instructions.py:4-27 -/
inductive AsmSource where
  | bytes (b : Bytes)
  | str (s : PyStr)
  | list (l : List PyStr)
  | other

/-- the loop — ufo/instructions.py:20-27: `indent` may become negative, a string times a negative number is empty -/
def formatLines (A : AsmText) : Int → List PyStr → PyStr
  | _, [] => []
  | indent, line :: ls =>
    let indent := if A.unindents line = true then indent - 1 else indent
    let next := if A.indents line = true then indent + 1 else indent
    (List.replicate indent.toNat (lit "  ")).flatten ++ line ++ lit "\n" ++ formatLines A next ls

/-- `format_assembly` — ufo/instructions.py:4-27 -/
def formatAssembly (A : AsmText) (src : AsmSource) : Except PyErr PyStr :=
  match src with
  | .bytes b => A.getAssembly b >>= fun l => .ok (lit "\n" ++ formatLines A 0 l)
  | .str s => .ok (lit "\n" ++ formatLines A 0 (A.splitlines s))
  | .list l => .ok (lit "\n" ++ formatLines A 0 l)
  | .other => .error .type

end Verif
