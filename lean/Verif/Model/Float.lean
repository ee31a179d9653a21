import Mathlib.Data.Int.Log
import Mathlib.Data.Rat.Floor
import Mathlib.Algebra.Order.Field.Rat
/-! Double-precision arithmetic where the code base calculates with floats
(`parsers/options.py:30-32`, `compilers/options.py:28-30`, `parsers/mm.py:60`, `compilers/mm.py:45`,
`parsers/glyph.py` / `compilers/glyph.py` for masks).

A finite double is represented by its rational value.  Products and quotients of doubles are the exact
results rounded to 53 significant bits, ties to even (IEEE 754 round-to-nearest in the normal range;
overflow, subnormal numbers, infinities and NaN do not occur for the 32-bit quantities concerned). -/
set_option autoImplicit false
namespace Verif

/-- Python's `round(x)`: nearest integer, ties to even
— used for vfb/pens.py:51-99, ufo/paths.py:200-207, compilers/options.py:27 -/
def roundEven (q : Rat) : Int :=
  if q - ⌊q⌋ < 1 / 2 then ⌊q⌋
  else if 1 / 2 < q - ⌊q⌋ then ⌊q⌋ + 1
  else if ⌊q⌋ % 2 = 0 then ⌊q⌋ else ⌊q⌋ + 1

/-- Python's `int(x)`: truncation towards zero
— used for compilers/mm.py:42-45, compilers/guides.py:20, ufo/time.py:20-29 -/
def truncInt (q : Rat) : Int := if 0 ≤ q then ⌊q⌋ else -⌊-q⌋

/-- round to 53 significant bits
— used for parsers/mm.py:60, parsers/glyph.py:470, ufo/guides.py:26-33 -/
def fl (q : Rat) : Rat :=
  if q = 0 then 0
  else roundEven (q / (2 : Rat) ^ (Int.log 2 |q| - 52)) * (2 : Rat) ^ (Int.log 2 |q| - 52)

/-- `v / n` for integers (true division) — used for parsers/mm.py:60, parsers/glyph.py:470 -/
def fdiv (v n : Int) : Rat := fl ((v : Rat) / n)
/-- `x * n` for a double and an integer that is itself a double — used for compilers/mm.py:42-45 -/
def fmul (x : Rat) (n : Int) : Rat := fl (x * n)

end Verif
