import Verif.Model.Format

/-! # Reading a number -/

namespace Verif

def isDigit (b : UInt8) : Bool := decide (48 ≤ b.toNat ∧ b.toNat ≤ 57)

/-- The number that some digits stand for. -/
def digitsValue (l : Bytes) : Nat := l.foldl (fun a x => a * 10 + (x.toNat - 48)) 0

/-- Digits. -/
def readNat (l : Bytes) : Option Nat := if l ≠ [] ∧ l.all isDigit = true then some (digitsValue l) else none

/-- Digits, with or without a decimal point between them. -/
def readDecimal (l : Bytes) : Option ℚ :=
  let a := l.takeWhile (· != 46)
  let b := (l.dropWhile (· != 46)).drop 1
  (readNat (a ++ b)).map fun (n : Nat) => (n : ℚ) / 10 ^ b.length

/-- Digits after a sign. -/
def readSigned : Bytes → Option Int
  | 43 :: l => (readNat l).map fun (n : Nat) => (n : Int)
  | 45 :: l => (readNat l).map fun (n : Nat) => -(n : Int)
  | _ => none

/-- A decimal number, with or without a power of ten after the letter `e`. -/
def readNumber (l : Bytes) : Option ℚ :=
  match l.dropWhile (· != 101) with
  | [] => readDecimal l
  | _ :: e => (readDecimal (l.takeWhile (· != 101))).bind fun v => (readSigned e).map fun k => v * 10 ^ k

end Verif
