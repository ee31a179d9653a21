import Verif.Py
/-! Specification vocabulary for the conversion to UFO. -/
set_option autoImplicit false
namespace Verif.Spec
open Verif

/-- The number of seconds since 1970-01-01 00:00 UTC that a FontLab timestamp stands for: the stored
32-bit pattern is read without sign and counts from 2082841200 seconds before 1970 (January 1904). -/
def flSeconds (t : Int) : Int := (if t < 0 then t + 4294967296 else t) - 2082841200

end Verif.Spec
