import Verif.Model.Basic

/-! # Text literals and decimal numbers as bytes -/

namespace Verif

/-- The bytes of a text literal. -/
def text (s : String) : Bytes := s.toList.map fun c => UInt8.ofNat c.toNat

/-- `std::to_string` of an unsigned number, as the bytes of the text. -/
def decimal (n : Nat) : Bytes :=
  if n < 10 then [UInt8.ofNat (48 + n)] else decimal (n / 10) ++ [UInt8.ofNat (48 + n % 10)]
termination_by n

end Verif
