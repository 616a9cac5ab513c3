import Verif.Model.WiresharkText
import Verif.Spec.Wireshark
import Verif.Spec.Dissect

/-! # What the texts of the Wireshark dissector should tell -/

namespace Verif.Wireshark.Spec

/-! ## Names -/

/-- The digits of hexadecimal numbers. -/
def hexDigits (upper : Bool) : Bytes := if upper then text "0123456789ABCDEF" else text "0123456789abcdef"

/-- Two hexadecimal digits. -/
def hexByte (upper : Bool) (b : UInt8) : Bytes :=
  [(hexDigits upper).getD (b.toNat / 16) 0, (hexDigits upper).getD (b.toNat % 16) 0]

/-- Percent-encoding; three periods are added to a text of periods. -/
def percent (v : Bytes) : Bytes :=
  v.flatMap (fun b => if b ∈ unreservedChars then [b] else 37 :: hexByte true b) ++ (if ∀ b ∈ v, b = 46 then text "..." else [])

/-- The text of a name component. -/
def compText (c : Comp) : Bytes :=
  match c.type with
  | 1 => text "sha256digest=" ++ c.value.flatMap (hexByte false)
  | 2 => text "params-sha256=" ++ c.value.flatMap (hexByte false)
  | 8 => percent c.value
  | k => decimal k ++ text "=" ++ percent c.value

/-- The text of a name. -/
def nameText (n : Name) : Bytes := text "/" ++ List.intercalate (text "/") (n.map compText)

/-! ## Elements of packets -/

/-- The elements of packets, as far as the dissector knows them:
a Name; CanBePrefix or MustBeFresh; a Nonce; a HopLimit; an element with a number; a FinalBlockId; a NackReason; a CachePolicyType; an element
of whose value the text tells nothing; and an element that consists of elements. -/
inductive Elem
  | name (n : Name)
  | flag (type : Nat)
  | nonce (v : Bytes)
  | hopLimit (v : UInt8)
  | number (type n : Nat)
  | final (c : Comp)
  | reason (n : Nat)
  | policy (n : Nat)
  | silent (type : Nat) (v : Bytes)
  | group (type : Nat) (es : List Elem)

/-- The type number. -/
def Elem.type : Elem → Nat
  | .name _ => 7
  | .flag t => t
  | .nonce _ => 10
  | .hopLimit _ => 34
  | .number t _ => t
  | .final _ => 26
  | .reason _ => 801
  | .policy _ => 821
  | .silent t _ => t
  | .group t _ => t

mutual
/-- The value of the element. -/
def Elem.value : Elem → Bytes
  | .name n => (n.map fun c => Block.encode ⟨c.type, c.value⟩).flatten
  | .flag _ => []
  | .nonce v => v
  | .hopLimit v => [v]
  | .number _ n => nniEncode n
  | .final c => Block.encode ⟨c.type, c.value⟩
  | .reason n => nniEncode n
  | .policy n => nniEncode n
  | .silent _ v => v
  | .group _ es => encodeAll es
/-- The elements one after the other. -/
def encodeAll : List Elem → Bytes
  | [] => []
  | e :: es => Block.encode ⟨e.type, e.value⟩ ++ encodeAll es
end

/-- The types of ApplicationParameters, Content, KeyDigest, SignatureValue, PitToken and Fragment. -/
def silentTypes : List Nat := [36, 21, 29, 23, 98, 80]

/-- The types of the elements that consist of elements: Interest, Data, ForwardingHint, MetaInfo, SignatureInfo, KeyLocator, LpPacket, Nack and
CachePolicy. -/
def groupTypes : List Nat := [5, 6, 30, 20, 22, 28, 100, 800, 820]

/-- The other types that are known. -/
def leafTypes : List Nat := [1, 2, 7, 8, 10, 18, 26, 33, 34, 801, 821] ++ numberTypes

/-- A component that can be encoded. -/
def CompOk (c : Comp) : Prop := c.type < 2 ^ 32

mutual
/-- The element is as the packet format says. -/
def Elem.Valid : Elem → Prop
  | .name n => ∀ c ∈ n, CompOk c
  | .flag t => t = 33 ∨ t = 18
  | .nonce v => v.length = 4
  | .hopLimit _ => True
  | .number t n => t ∈ numberTypes ∧ n < 2 ^ 64
  | .final c => CompOk c
  | .reason n => n < 2 ^ 64
  | .policy n => n < 2 ^ 64
  | .silent t _ => t < 2 ^ 32 ∧ (t ∈ silentTypes ∨ (t ∉ silentTypes ∧ t ∉ groupTypes ∧ t ∉ leafTypes))
  | .group t es => t ∈ groupTypes ∧ ValidAll es
def ValidAll : List Elem → Prop
  | [] => True
  | e :: es => e.Valid ∧ ValidAll es
end

/-- The name that the packet formats give to a type. -/
def label (t : Nat) : Bytes := text (((Dissect.assigned ++ Dissect.assignedLink).lookup t).getD "")

/-- The reason of a Nack. -/
def reasonText : Nat → Bytes
  | 0 => text "None"
  | 50 => text "Congestion"
  | 100 => text "Duplicate"
  | 150 => text "NoRoute"
  | k => decimal k

/-- The type of a CachePolicy. -/
def policyText : Nat → Bytes
  | 0 => text "None"
  | 1 => text "NoCache"
  | k => decimal k ++ text " (unknown)"

mutual
/-- What the text tells about the element. -/
def Elem.text : Elem → Option Bytes
  | .name n => some (nameText n)
  | .flag _ => some (Spec.text "Yes")
  | .nonce v => some (decimal (beNat v))
  | .hopLimit v => some (decimal v.toNat)
  | .number _ n => some (decimal n)
  | .final c => some (compText c)
  | .reason n => some (reasonText n)
  | .policy n => some (policyText n)
  | .silent _ _ => none
  | .group _ es => if textParts es = [] then none else some (List.intercalate (Spec.text ", ") (textParts es))
/-- The elements of which the text tells something, each with its name. -/
def textParts : List Elem → List Bytes
  | [] => []
  | e :: es =>
    match e.text with
    | none => textParts es
    | some s => (label e.type ++ Spec.text ": " ++ s) :: textParts es
end

/-- The text for elements that follow each other. -/
def allText (es : List Elem) : Bytes := List.intercalate (text ", ") (textParts es)

/-- The element has no elements and the text tells it. -/
def Elem.Told : Elem → Prop
  | .silent _ _ => False
  | .group _ _ => False
  | _ => True

instance (e : Elem) : Decidable e.Told := by cases e <;> unfold Elem.Told <;> infer_instance

/-! ## Elements with unknown type -/

/-- How an element is called whose type has no name in the dissector. -/
def unknownLabel (t : Nat) : Bytes :=
  if t ∈ List.range 101 then text "Unrecognized from the reserved range 0-100"
  else if t ∈ List.range 800 then text "Unrecognized from the reserved range 101-799"
  else if t > 1000 then text "RESERVED_3"
  else if t % 2 = 1 then text "Unknown field (ignored)"
  else text "Unknown field"

/-- NDNLPv2: the types of the fields that are ignored by those who do not know them. -/
def Ignorable (t : Nat) : Prop := 800 ≤ t ∧ t ≤ 959 ∧ t % 4 = 0

end Verif.Wireshark.Spec
