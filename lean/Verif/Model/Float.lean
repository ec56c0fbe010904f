import Mathlib.Data.Rat.Floor
import Mathlib.Data.Int.Log
import Mathlib.Algebra.Order.Round
import Mathlib.Tactic.Linarith
import Mathlib.Tactic.Ring
import Mathlib.Tactic.Positivity
import Mathlib.Tactic.FieldSimp
import Mathlib.Tactic.NormNum

/-!
# Binary floating point arithmetic

The floating point types of C++ that the code is instantiated with (`float`, `double`, `long double`) have a radix of two, a
precision of `p` bits (`std::numeric_limits<T>::digits`) and round to nearest, ties to even. A value is the rational number it stands for and an operation
is the exact operation followed by `rnd`. Infinities and NaN are not modelled: the exponent has no upper bound. The lower bound of the
exponent is optional: `rnd p none` never underflows, `rnd p (some l)` has the subnormal numbers, the multiples of `2 ^ l` below `2 ^ (l + p)`.
For `double` this is `p = 53` and `l = -1074`.
-/

namespace Gbs.Fl

/-- Nearest integer, the even one when there are two. -/
def roundEven (y : ℚ) : ℤ :=
  if y - ⌊y⌋ < 1 / 2 then ⌊y⌋
  else if 1 / 2 < y - ⌊y⌋ then ⌊y⌋ + 1
  else if ⌊y⌋ % 2 = 0 then ⌊y⌋ else ⌊y⌋ + 1

/-- Exponent of the last place of the floating point numbers near `x`. -/
def expo (p : ℕ) (lo : Option ℤ) (x : ℚ) : ℤ :=
  match lo with
  | none => Int.log 2 |x| - p + 1
  | some l => max (Int.log 2 |x| - p + 1) l

/-- Rounding to nearest, ties to even. -/
def rnd (p : ℕ) (lo : Option ℤ) (x : ℚ) : ℚ :=
  if x = 0 then 0 else roundEven (x / 2 ^ expo p lo x) * 2 ^ expo p lo x

end Gbs.Fl
