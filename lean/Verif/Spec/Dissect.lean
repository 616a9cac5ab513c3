import Verif.Model.Dissect
import Verif.Spec.Tlv

/-! # What ndn-dissect should print -/

namespace Verif.Dissect

/-- An element with its type, value and sub-elements. -/
inductive Tree
  | mk (type : Nat) (value : Bytes) (children : List Tree)

namespace Tree
def type : Tree → Nat
  | mk t _ _ => t
def value : Tree → Bytes
  | mk _ v _ => v
def children : Tree → List Tree
  | mk _ _ c => c
end Tree

/-- `es` are encodings of the elements `ts`. -/
def Encodings : List Tree → List Bytes → Prop
  | [], [] => True
  | t :: ts, e :: es => IsElement t.type t.value e ∧ Encodings ts es
  | _, _ => False

/-- The byte string starts with a type number and a length number. -/
def HasHeader (b : Bytes) : Prop :=
  ∃ t n e1 e2 r, 1 ≤ t ∧ t < 2 ^ 32 ∧ IsVarNumber t e1 ∧ IsVarNumber n e2 ∧ b = e1 ++ e2 ++ r

/-- Elements of this type are shown as they are, without looking for sub-elements: SignatureValue,
InterestSignatureValue, and Content unless asked otherwise. -/
def IsOpaque (o : Opts) (type : Nat) : Prop := type = 23 ∨ type = 46 ∨ (type = 21 ∧ o.dissectContent = false)

/-- The value is not a sequence of elements. If `Block::parse` keeps what it read before a wrong header, the value must
not start with elements followed by a wrong header either. -/
def NotElements (keep : Bool) (value : Bytes) : Prop :=
  ∀ ts es rest, Encodings ts es → ts ≠ [] → value = es.flatten ++ rest →
    rest ≠ [] ∧ (keep = true → HasHeader rest)

/-- The tree shows the sub-elements wherever there are some: the value of an inner node is the sequence of the encodings
of its children, the value of a leaf is opaque or not a sequence of elements. -/
inductive Fits (o : Opts) : Tree → Prop
  | inner {type value children es} : ¬ IsOpaque o type → children ≠ [] → Encodings children es →
      value = es.flatten → (∀ c ∈ children, Fits o c) → Fits o (.mk type value children)
  | leaf {type value} : IsOpaque o type ∨ NotElements o.keep value → Fits o (.mk type value [])

/-- The element at a position: index of the top-level element, index of its child, and so on. -/
def at? (f : List Tree) : List Nat → Option Tree
  | [] => none
  | [i] => f[i]?
  | i :: p => match f[i]? with
    | none => none
    | some t => at? t.children p

/-- Whether the element at position `p` has a younger sibling. -/
def more (f : List Tree) (p : List Nat) : Bool :=
  match p.getLast? with
  | none => false
  | some i => (at? f (p.dropLast ++ [i + 1])).isSome

/-- The branch symbols in the line of the element at position `p`: one for each level below the top. The last
one is a tee if a sibling follows and a corner otherwise; those before are a bar or a blank. -/
def glyphsAt (f : List Tree) (p : List Nat) : List Glyph :=
  (List.range (p.length - 1)).map fun k =>
    if k + 2 = p.length then (if more f p then .verticalAndRight else .upAndRight)
    else (if more f (p.take (k + 2)) then .vertical else .space)

/-- The line of the element `t` at position `p`. -/
def lineAt (f : List Tree) (p : List Nat) (t : Tree) : Line :=
  { glyphs := glyphsAt f p
    type := t.type
    label := typeLabel t.type
    size := t.value.length
    value := if t.children.isEmpty then some t.value else none }

/-- The lines are those of all elements of the forest, each once, in document order. -/
def Shows (f : List Tree) (out : List Line) : Prop :=
  ∃ ps : List (List Nat × Tree),
    (ps.map Prod.fst).Pairwise (· < ·) ∧ (∀ p t, (p, t) ∈ ps ↔ at? f p = some t) ∧
    out = ps.map fun x => lineAt f x.1 x.2

/-- The type numbers of the NDN packet format (the page "TLV-TYPE assignments" that dissector.cpp:78 refers to), of the certificate
format and of the format of exported keys, in ascending order. -/
def assigned : List (Nat × String) :=
  [(0x01, "ImplicitSha256DigestComponent"), (0x02, "ParametersSha256DigestComponent"), (0x05, "Interest"), (0x06, "Data"),
   (0x07, "Name"), (0x08, "GenericNameComponent"), (0x0a, "Nonce"), (0x0c, "InterestLifetime"), (0x12, "MustBeFresh"),
   (0x14, "MetaInfo"), (0x15, "Content"), (0x16, "SignatureInfo"), (0x17, "SignatureValue"), (0x18, "ContentType"),
   (0x19, "FreshnessPeriod"), (0x1a, "FinalBlockId"), (0x1b, "SignatureType"), (0x1c, "KeyLocator"), (0x1d, "KeyDigest"),
   (0x1e, "ForwardingHint"), (0x20, "KeywordNameComponent"), (0x21, "CanBePrefix"), (0x22, "HopLimit"),
   (0x24, "ApplicationParameters"), (0x26, "SignatureNonce"), (0x28, "SignatureTime"), (0x2a, "SignatureSeqNum"),
   (0x2c, "InterestSignatureInfo"), (0x2e, "InterestSignatureValue"), (0x32, "SegmentNameComponent"),
   (0x34, "ByteOffsetNameComponent"), (0x36, "VersionNameComponent"), (0x38, "TimestampNameComponent"),
   (0x3a, "SequenceNumNameComponent"), (0x80, "SafeBag"), (0x81, "EncryptedKey"), (0xfd, "ValidityPeriod"), (0xfe, "NotBefore"),
   (0xff, "NotAfter"), (0x102, "AdditionalDescription"), (0x200, "DescriptionEntry"), (0x201, "DescriptionKey"),
   (0x202, "DescriptionValue")]

/-- The type numbers of the link protocol NDNLPv2. -/
def assignedLink : List (Nat × String) :=
  [(0x50, "Fragment"), (0x51, "Sequence"), (0x52, "FragIndex"), (0x53, "FragCount"), (0x62, "PitToken"), (0x64, "LpPacket"),
   (0x320, "Nack"), (0x321, "NackReason"), (0x32c, "IncomingFaceId"), (0x330, "NextHopFaceId"), (0x334, "CachePolicy"),
   (0x335, "CachePolicyType"), (0x340, "CongestionMark"), (0x344, "Ack"), (0x348, "TxSequence")]

end Verif.Dissect
