import Verif.Model.Wireshark
import Verif.Spec.Tlv

/-! # What the Wireshark dissector should show -/

namespace Verif.Wireshark.Spec

/-- The bytes of a range of the buffer. -/
def slice (tvb : Bytes) (offset length : Nat) : Bytes := (tvb.drop offset).take length

/-- `b` describes an element of the packet format that begins at its offset and is entirely inside of the buffer. -/
def IsElementAt (tvb : Bytes) (b : Block) : Prop :=
  ∃ t l v rest, tvb.drop b.offset = t ++ l ++ v ++ rest ∧ IsVarNumber b.type t ∧ IsVarNumber b.length l ∧
    b.typeLen = t.length ∧ b.lengthLen = l.length ∧ b.length = v.length

/-- The value of an element. -/
def valueOf (tvb : Bytes) (b : Block) : Bytes := slice tvb (b.offset + b.typeLen + b.lengthLen) b.length

/-- The blocks follow each other without gap, from `a` to `z`. -/
inductive Consecutive : Nat → List Block → Nat → Prop
  | nil (a : Nat) : Consecutive a [] a
  | cons {a z : Nat} {b : Block} {bs : List Block} (h : b.offset = a)
      (hs : Consecutive (a + b.typeLen + b.lengthLen + b.length) bs z) : Consecutive a (b :: bs) z

/-- `x` is `t` or somewhere inside of it. -/
inductive Inside : Tree → Tree → Prop
  | self (t : Tree) : Inside t t
  | child {t c x : Tree} (hc : c ∈ t.elements) (h : Inside c x) : Inside t x

/-- What the dissector has added to the display when it ends. -/
def Result.shown : Result → List Tree
  | .ignored => []
  | .error shown _ => shown
  | .done shown _ _ => shown

/-- `b` describes type and length numbers that begin at its offset. -/
def HasHeader (tvb : Bytes) (b : Block) : Prop :=
  ∃ t l rest, tvb.drop b.offset = t ++ l ++ rest ∧ IsVarNumber b.type t ∧ IsVarNumber b.length l ∧
    b.typeLen = t.length ∧ b.lengthLen = l.length

/-- The elements that are found when values are read as elements, values of those too, and so on; also if the value turns out
not to be a sequence of elements. -/
inductive Reached (tvb : Bytes) (root : Block) : Block → Prop
  | root : Reached tvb root root
  | step {p c : Block} {bs : List Block} (hp : Reached tvb root p)
      (hbs : Consecutive (p.offset + p.typeLen + p.lengthLen) bs c.offset) (hh : ∀ x ∈ bs, HasHeader tvb x)
      (hin : c.offset < p.offset + p.typeLen + p.lengthLen + p.length) (hc : HasHeader tvb c) : Reached tvb root c

/-- The elements that the dissector cannot show: numbers of 9 octets, Nonce and HopLimit of the wrong length, and a FinalBlockId
without component. -/
def Bad (b : Block) : Prop :=
  b.typeLen = 9 ∨ b.lengthLen = 9 ∨ (b.type = 10 ∧ b.length ≠ 4) ∨ (b.type = 34 ∧ b.length ≠ 1) ∨
    (b.type = 26 ∧ b.length = 0)

/-- The type and length numbers of an NDN packet: Interest, Data or LpPacket, of at most 8800 octets, and the type number
not in 9 octets. -/
def PacketHeader (tvb : Bytes) (b : Block) : Prop :=
  HasHeader tvb b ∧ (b.type = 5 ∨ b.type = 6 ∨ b.type = 100) ∧ b.length ≤ 8800 ∧ b.typeLen ≠ 9

/-- No packet begins before `o`. -/
def NoneBefore (tvb : Bytes) (o : Nat) : Prop := ∀ b, PacketHeader tvb b → o ≤ b.offset

/-- The types of the elements whose value is a nonnegative integer. -/
def numberTypes : List Nat := [12, 24, 25, 27, 81, 82, 83, 812, 816, 832, 836, 840]

/-- The name component that a block shows. -/
def component (tvb : Bytes) (b : Block) : Comp := ⟨b.type, valueOf tvb b⟩

/-- The type of a shown element, if the type number is not in 9 octets. -/
def HasType (x : Tree) (type : Nat) : Prop := x.block.type = type ∧ x.block.typeLen ≠ 9

/-- Nothing inside of `x` (or `x` itself) has this type number. -/
def NoneInside (x : Tree) (type : Nat) : Prop := ∀ y, Inside x y → y.block.type ≠ type

/-- The bytes of a text. -/
def text (s : String) : Bytes := s.toUTF8.toList

/-- The characters of RFC 3986 that need no escape. -/
def unreservedChars : Bytes := text "ABCDEFGHIJKLMNOPQRSTUVWXYZabcdefghijklmnopqrstuvwxyz0123456789-._~"

/-- The value of a hexadecimal digit. -/
def hexValue (b : UInt8) : Nat :=
  if 48 ≤ b.toNat ∧ b.toNat ≤ 57 then b.toNat - 48
  else if 65 ≤ b.toNat ∧ b.toNat ≤ 70 then b.toNat - 55
  else b.toNat - 87

/-- Percent-decoding. -/
def unescape : Bytes → Bytes
  | 0x25 :: a :: b :: r => UInt8.ofNat (16 * hexValue a + hexValue b) :: unescape r
  | a :: r => a :: unescape r
  | [] => []

/-- Where an element ends. -/
def endOf (b : Block) : Nat := b.offset + b.typeLen + b.lengthLen + b.length

end Verif.Wireshark.Spec
