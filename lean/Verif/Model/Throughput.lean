import Verif.Model.Binary64
import Verif.Model.Dump

/-!
# Model of the summary of a transfer

`tools/chunks/catchunks/pipeline-interests.cpp`, the goodput line. `round` is the rounding of `double` arithmetic.
-/

namespace Verif.Throughput

/-- A non-negative `double`. -/
inductive Dbl
  | num (x : ℚ)
  | inf
  | nan
  deriving DecidableEq

/-- pipeline-interests.cpp:140-144: the loop; `k` is how often it can still divide. The value and the number of
divisions. -/
def scale (round : ℚ → ℚ) : Nat → ℚ → ℚ × Nat
  | 0, x => (x, 0)
  | k + 1, x =>
    if 1000 ≤ x then
      let r := scale round k (round (x / 1000))
      (r.1, r.2 + 1)
    else (x, 0)

/-- pipeline-interests.cpp:145-156: the unit. -/
def unit : Nat → String
  | 0 => "bit/s"
  | 1 => "kbit/s"
  | 2 => "Mbit/s"
  | 3 => "Gbit/s"
  | _ => "Tbit/s"

/-- The nearest integer, ties to even. -/
def nearest (y : ℚ) : ℤ :=
  let f := ⌊y⌋
  if y - f < 1 / 2 then f else if y - f = 1 / 2 then (if f % 2 = 0 then f else f + 1) else f + 1

/-- `std::to_string(double)`, that is `%f`: six digits after the point, correctly rounded. -/
def toStringF (x : ℚ) : Bytes :=
  let m := (nearest (x * 10 ^ 6)).toNat
  decimal (m / 10 ^ 6) ++ [46] ++ Dump.pad6 (decimal (m % 10 ^ 6))

/-- What is displayed: the text of the number, and the unit. -/
inductive Shown
  | number (text : Bytes) (unit : String)
  | inf (unit : String)
  | nan (unit : String)
  deriving DecidableEq

/-- pipeline-interests.cpp:137-158 `formatThroughput`. Infinity remains infinity when divided; comparisons with NaN are
false. -/
def formatThroughput (round : ℚ → ℚ) : Dbl → Shown
  | .num x => let r := scale round 4 x; .number (toStringF r.1) (unit r.2)
  | .inf => .inf (unit 4)
  | .nan => .nan (unit 0)

/-- pipeline-interests.cpp:127-128: the throughput for a number of bytes and a time in nanoseconds. The multiplication is
one of `size_t`. -/
def throughput (round : ℚ → ℚ) (bytes ns : Nat) : Dbl :=
  let bits : Nat := 8 * bytes % 2 ^ 64
  if ns = 0 then (if bits = 0 then .nan else .inf)
  else .num (round (round (bits : ℚ) / round (round (ns : ℚ) / 10 ^ 9)))

/-- pipeline-interests.cpp:134: the goodput line. -/
def goodput (round : ℚ → ℚ) (bytes ns : Nat) : Shown := formatThroughput round (throughput round bytes ns)

end Verif.Throughput
