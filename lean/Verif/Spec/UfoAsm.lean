import Verif.Py
/-! Specification vocabulary for C94: an indented listing. -/
set_option autoImplicit false
namespace Verif.Spec
open Verif

/-- the number of blocks that are open where the line stands: those begun by lines before it, less those ended by lines before it and by itself; not below
0 -/
def blockDepth (opens closes : PyStr → Bool) (before : List PyStr) (line : PyStr) : Nat :=
  ((before.countP fun l => opens l) - ((before ++ [line]).countP fun l => closes l) : Int).toNat

/-- the lines of a text; the text must end with a newline -/
def linesOf : PyStr → Option (List PyStr)
  | [] => some []
  | c :: s =>
    if c = 10 then (linesOf s).map fun ls => [] :: ls
    else
      match linesOf s with
      | some (l :: ls) => some ((c :: l) :: ls)
      | _ => none

/-- a line without the spaces at its start -/
def unindented (l : PyStr) : PyStr := l.dropWhile fun c => c == 32

end Verif.Spec
