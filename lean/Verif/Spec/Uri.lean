import Verif.Model.Uri
import Verif.Spec.DumpText

/-! # Names and their texts -/

namespace Verif.Uri

/-- A name of NDN: the type of every component is in the range of component types, and digests have 32 bytes. -/
def Valid (n : Name) : Prop :=
  ∀ c ∈ n, 1 ≤ c.type ∧ c.type ≤ 65535 ∧ (c.type = 1 ∨ c.type = 2 → c.value.length = 32)

/-- The bytes of a text on the command line. -/
def utf8 (s : String) : Bytes := s.toUTF8.toList

/-- The digits of hexadecimal numbers, small and capital. -/
def hexChars : Bytes := utf8 "0123456789abcdefABCDEF"

/-- The text of a component as one types it: not empty, not only dots, without `/` and `=`, and no `%` has two hexadecimal digits behind
it. -/
def Typed (w : Bytes) : Prop :=
  (∃ b ∈ w, b ≠ 46) ∧ 47 ∉ w ∧ 61 ∉ w ∧ ∀ a x y r, w = a ++ 37 :: x :: y :: r → ¬ (x ∈ hexChars ∧ y ∈ hexChars)

end Verif.Uri
