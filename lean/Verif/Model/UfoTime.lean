import Verif.Py
import Verif.Model.Float
/-! Model of `ufo/time.py`: FontLab timestamps and dates.

A `datetime` with a time zone is represented by the number of microseconds since 1970-01-01 00:00 UTC
(the resolution of `datetime`); the calendar and the year limits of `datetime` (years 1 to 9999) are not
modelled.  A naive `datetime` is first interpreted in the local time zone by `datetime.timestamp`, which
is not modelled either. -/
set_option autoImplicit false
namespace Verif

/-- `TIME_ZERO` — ufo/time.py:3 -/
def timeZero : Int := 2082841200

/-- `t.to_bytes(4, signed=signed)` with the default byte order "big", OverflowError outside the range
— ufo/time.py:6-17 -/
def toBytes4 (signed : Bool) (v : Int) : W :=
  if inRange 4 signed v then .ok (leDigits 4 (v % ((256 ^ 4 : Nat) : Int)).toNat).reverse
  else .error .overflow

/-- `convert_timestamp(t)` — ufo/time.py:6-17 -/
def convertTimestamp (t : Int) : Except PyErr Int := do
  let b ← toBytes4 true t
  let t := fromBE false b
  let t := if t < timeZero then timeZero else t
  pure ((t - timeZero) * 1000000)

/-- `datetime_to_fl(d)` — ufo/time.py:20-29 (`datetime.timestamp` is the true division of the
microseconds by 10**6) -/
def datetimeToFl (d : Int) : Except PyErr Int := do
  let ts := truncInt (fdiv d 1000000)
  let ts := ts + timeZero
  if ts < timeZero then pure timeZero
  else do
    let b ← toBytes4 false ts
    pure (fromBE true b)

end Verif
