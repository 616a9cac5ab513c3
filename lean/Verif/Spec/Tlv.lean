import Verif.Model.Tlv

/-! # What the NDN packet format says about TLV elements -/

namespace Verif

/-- `e` is an encoding of the number `n` in 1, 3, 5 or 9 bytes. -/
def IsVarNumber (n : Nat) (e : Bytes) : Prop :=
  (∃ x : UInt8, e = [x] ∧ x.toNat = n ∧ n < 253) ∨
  (∃ l : Bytes, e = 253 :: l ∧ l.length = 2 ∧ beNat l = n) ∨
  (∃ l : Bytes, e = 254 :: l ∧ l.length = 4 ∧ beNat l = n) ∨
  (∃ l : Bytes, e = 255 :: l ∧ l.length = 8 ∧ beNat l = n)

/-- `e` is an encoding of the element with this type and value. -/
def IsElement (type : Nat) (value e : Bytes) : Prop :=
  1 ≤ type ∧ type < 2 ^ 32 ∧
  ∃ t l, IsVarNumber type t ∧ IsVarNumber value.length l ∧ e = t ++ l ++ value

end Verif
