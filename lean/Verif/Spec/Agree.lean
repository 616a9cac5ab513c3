import Verif.Spec.Dissect
import Verif.Spec.Wireshark

/-! # What it means that ndn-dissect and the Wireshark dissector show the same -/

namespace Verif.Agree

open Wireshark.Spec

instance (o : Dissect.Opts) (type : Nat) : Decidable (Dissect.IsOpaque o type) := by
  unfold Dissect.IsOpaque; infer_instance

mutual
/-- What Wireshark shows, as a tree of types and values; without what is inside of elements that ndn-dissect shows as they are. -/
def asTree (o : Dissect.Opts) (tvb : Bytes) : Wireshark.Tree → Dissect.Tree
  | .node b _ _ es => .mk b.type (valueOf tvb b) (if Dissect.IsOpaque o b.type then [] else asTrees o tvb es)
/-- The same for several elements. -/
def asTrees (o : Dissect.Opts) (tvb : Bytes) : List Wireshark.Tree → List Dissect.Tree
  | [] => []
  | x :: xs => asTree o tvb x :: asTrees o tvb xs
end

/-- `x` is `t` or inside of it, but not inside of an element that ndn-dissect shows as it is. -/
inductive Seen (o : Dissect.Opts) : Wireshark.Tree → Wireshark.Tree → Prop
  | self (t : Wireshark.Tree) : Seen o t t
  | child {t c x : Wireshark.Tree} (ho : ¬ Dissect.IsOpaque o t.block.type) (hc : c ∈ t.elements) (h : Seen o c x) : Seen o t x

/-- The value of `p` consists of the elements `bs`; their type numbers may be any. -/
def Fills (tvb : Bytes) (p : Wireshark.Block) (bs : List Wireshark.Block) : Prop :=
  Consecutive (p.offset + p.typeLen + p.lengthLen) bs (endOf p) ∧ ∀ c ∈ bs, HasHeader tvb c

/-- An element on whose reading the two programs agree: the type number is allowed in the packet format, the length is not given in 9
octets, and an empty element at the very end of the buffer has its length in one octet. -/
def Usual (tvb : Bytes) (c : Wireshark.Block) : Prop :=
  1 ≤ c.type ∧ c.type < 2 ^ 32 ∧ c.lengthLen ≠ 9 ∧ (c.length = 0 → endOf c = tvb.length → c.lengthLen = 1)

/-- The value does not start with elements that are followed by a wrong type or length number. -/
def Unbroken (value : Bytes) : Prop :=
  ∀ ts es rest, Dissect.Encodings ts es → ts ≠ [] → value = es.flatten ++ rest → rest ≠ [] → Dissect.HasHeader rest

end Verif.Agree
