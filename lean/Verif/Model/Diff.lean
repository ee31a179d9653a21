import Verif.Model.Cmdline
import Verif.Model.Json
/-! Model of the command `diffvfb` (`diff.py`), for C95. -/
set_option autoImplicit false
namespace Verif

/-- what the command uses of other libraries: the lines of the JSON text of a font (`orjson`, with sorted keys), the two kinds of differences (`difflib`),
and `str()` of a list of lines.  `difflib.unified_diff` yields nothing exactly if the lines are the same.
— diff.py:11-75 -/
structure DiffOps (D : Type) where
  dumps : VfbDict D → List PyStr
  unified : List PyStr → List PyStr → PyStr → PyStr → List PyStr
  html : PyStr → PyStr → PyStr → PyStr → Bytes
  str : List PyStr → PyStr
  same : ∀ a b n m, unified a b n m = [] ↔ a = b

/-- `str(path)` — diff.py:44-75; simplified: pathlib leaves the folder out if it is the current one, and does not double the slash of the root -/
def FPath.str (p : FPath) : PyStr := p.dir ++ lit "/" ++ p.name

/-- the command line — diff.py:12-29 -/
structure DiffArgs where
  file1 : FPath
  file2 : FPath
  html : Option FPath := none
  deriving DecidableEq

section
variable {D T : Type} {ASM : Type} (C : Codec D T)

/-- reading a file into a `Vfb`, which may have read a file before; a path without plain file fails
— diff.py:35-43 -/
def readPath (fs : Files ASM) (p : FPath) (v : Vfb D T) : Except CmdErr (Vfb D T) :=
  match fs p with
  | some (.bytes file) =>
    match v.readBytes C file with
    | (.error e, _) => .error (.exception e)
    | (.ok (), v) => .ok v
  | _ => .error .noInput

/-- `vfb.decompile()` — diff.py:35-43 -/
def decompileFont (v : Vfb D T) : Except CmdErr (Vfb D T) :=
  match v.decompile C with
  | (.error e, _) => .error (.exception e)
  | (.ok (), v) => .ok v

/-- the two fonts — diff.py:35-43: each file is read twice, by the constructor and by `read()` -/
def diffFonts (a : DiffArgs) (fs : Files ASM) : Except CmdErr (Vfb D T × Vfb D T) := do
  let v1 ← readPath C fs a.file1 {}
  let v2 ← readPath C fs a.file2 {}
  let v1 ← readPath C fs a.file1 v1
  let v2 ← readPath C fs a.file2 v2
  let v1 ← decompileFont C v1
  let v2 ← decompileFont C v2
  .ok (v1, v2)

/-- the command — diff.py:11-75: the lines that are printed, or how it fails; and the files that are written -/
def diffvfb (o : DiffOps D) (a : DiffArgs) (fs : Files ASM) : Except CmdErr (List PyStr) × List (FPath × DiskFile ASM) :=
  match diffFonts C a fs with
  | .error e => (.error e, [])
  | .ok (v1, v2) =>
    let l1 := o.dumps v1.asDict
    let l2 := o.dumps v2.asDict
    match a.html with
    | some p => (.ok [], [(p, .bytes (o.html (o.str l1) (o.str l2) a.file1.str a.file2.str))])
    | none => (.ok (o.unified l1 l2 a.file1.str a.file2.str), [])

end
end Verif
