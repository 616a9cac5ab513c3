import Verif.Model.Decimal
import Mathlib.Data.Int.Log
import Mathlib.Data.Rat.Floor

/-!
# Printing of `double`

`std::ostream::operator<<(double)` with the default flags, which is `printf("%.6g")`: six significant digits, without
trailing zeros. The C library rounds the exact value correctly, ties to even.
-/

namespace Verif

/-- The nearest whole number, the even one of two. -/
def roundEven (y : ℚ) : ℤ :=
  let f := ⌊y⌋
  if y - f < 1 / 2 then f else if y - f = 1 / 2 then (if f % 2 = 0 then f else f + 1) else f + 1

/-- The six digits and the exponent of the first one, of a positive number. -/
def sixDigits (x : ℚ) : Nat × Int :=
  let e := Int.log 10 x
  let m := (roundEven (x * 10 ^ (5 - e))).toNat
  if m = 10 ^ 6 then (10 ^ 5, e + 1) else (m, e)

/-- The digits without the zeros at the end. -/
def strip (l : Bytes) : Bytes := (l.reverse.dropWhile (· == 48)).reverse

/-- The digits before and after the decimal point. The point is left out if no digit follows it. -/
def point (a b : Bytes) : Bytes := if strip b = [] then a else a ++ [46] ++ strip b

/-- The exponent, with a sign and at least two digits. -/
def exponent (e : Int) : Bytes :=
  [101, if e < 0 then 45 else 43] ++ (if e.natAbs < 10 then [48] else []) ++ decimal e.natAbs

/-- `os << x` for a number that is not negative. -/
def general (x : ℚ) : Bytes :=
  if x = 0 then [48]
  else
    let (m, e) := sixDigits x
    let d := decimal m
    if e < -4 ∨ 6 ≤ e then point (d.take 1) (d.drop 1) ++ exponent e
    else if 0 ≤ e then point (d.take (e.toNat + 1)) (d.drop (e.toNat + 1))
    else point [48] (List.replicate (e.natAbs - 1) 48 ++ d)

end Verif
