import Verif.Spec.Dump
import Mathlib.Data.Rat.Defs

/-! # What a displayed throughput means -/

namespace Verif.Throughput.Spec

/-- The factor a unit stands for. -/
def factor (u : String) : Option ℚ :=
  if u = "bit/s" then some 1
  else if u = "kbit/s" then some (10 ^ 3)
  else if u = "Mbit/s" then some (10 ^ 6)
  else if u = "Gbit/s" then some (10 ^ 9)
  else if u = "Tbit/s" then some (10 ^ 12)
  else none

/-- A byte that is a decimal digit. -/
def IsDigit (x : UInt8) : Prop := 48 ≤ x.toNat ∧ x.toNat ≤ 57

/-- The text is a number with exactly six digits after the point, and `q` is that number. -/
def Denotes (t : Bytes) (q : ℚ) : Prop :=
  ∃ i f : Bytes, t = i ++ [46] ++ f ∧ i ≠ [] ∧ f.length = 6 ∧ (∀ x ∈ i ++ f, IsDigit x) ∧
    q = (Dump.Spec.readDigits (i ++ f) : ℚ) / 10 ^ 6

end Verif.Throughput.Spec
