import Mathlib.Data.Int.Log
import Mathlib.Data.Rat.Floor

/-! # Rounding of `double` arithmetic -/

namespace Verif

/-- Rounding to 53 significant bits, ties to even (IEEE 754 binary64 without overflow and subnormal
numbers). -/
def binary64 (x : ℚ) : ℚ :=
  if x = 0 then 0 else
    let e := Int.log 2 |x| - 52
    let y := x / 2 ^ e
    let f := ⌊y⌋
    let m := if y - f < 1 / 2 then f else if y - f = 1 / 2 then (if f % 2 = 0 then f else f + 1) else f + 1
    m * 2 ^ e

end Verif
