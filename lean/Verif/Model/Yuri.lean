import Verif.Model.Base
import Verif.Model.Stream
/-! Model of the command line tool `yuri` (value.py), which encodes and decodes numbers. -/
set_option autoImplicit false
namespace Verif

/-- `yuri -e [-l] [-s] values…` — value.py:46-50: the text that is printed.  The arguments are given as numbers (the conversion
`int(value)` of the command line arguments is not modelled).  The option `--long` (value.py:24-30) is accepted, but not used. -/
def yuriEncode (signed _long : Bool) (values : List Int) : Except PyErr PyStr :=
  match W.all values (fun v => writeValue v signed) with
  | .ok b => .ok (hexStr b)
  | .error e => .error e

/-- the loop of `yuri` — value.py:54-58: the numbers that are printed, and the exception that ends the program, if any.  The loop
ends at EOFError; `fuel` bounds the iterations. -/
def yuriLoop (signed : Bool) : Nat → Bytes → List Int × Except PyErr Unit
  | 0, _ => ([], .error .fuel)
  | fuel + 1, s =>
    match readValue signed s with
    | .ok v rest =>
      match yuriLoop signed fuel rest with
      | (vs, r) => (v :: vs, r)
    | .err .eof _ => ([], .ok ())
    | .err e _ => ([], .error e)

/-- `yuri [-s] hexstring…` — value.py:52-58 -/
def yuriDecode (signed : Bool) (args : List PyStr) : List Int × Except PyErr Unit :=
  match deHexStr args.flatten with
  | .error e => ([], .error e)
  | .ok data => yuriLoop signed (data.length + 1) data

end Verif
