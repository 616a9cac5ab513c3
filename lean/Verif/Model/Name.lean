import Verif.Model.Basic

/-!
# Names, Interests and Data of ndn-cxx, as far as the tools use them

ndn-cxx itself is not part of the repository; these definitions describe the documented behaviour
of the ndn-cxx functions that the code calls and are part of the trusted base (see DESIGN.md).
-/

namespace Verif

/-- `ndn::name::Component`: TLV type and value. -/
structure Comp where
  type : Nat
  value : Bytes
  deriving DecidableEq, Repr

/-- `ndn::Name`. -/
abbrev Name := List Comp

/-- The TLV types of name components that matter here. -/
def ttImplicitDigest : Nat := 1
def ttGeneric : Nat := 8
def ttKeyword : Nat := 32
def ttSegment : Nat := 50
def ttVersion : Nat := 54

/-- Big-endian encoding of `n` in `w` bytes. -/
def beBytes : Nat → Nat → Bytes
  | 0, _ => []
  | w + 1, n => beBytes w (n / 256) ++ [UInt8.ofNat (n % 256)]

/-- The number that a byte string denotes, big-endian. -/
def beNat (b : Bytes) : Nat := b.foldl (fun a x => a * 256 + x.toNat) 0

/-- Encoding of a NonNegativeInteger (NDN packet specification; `tlv::writeNonNegativeInteger`):
the shortest of 1, 2, 4 or 8 bytes. -/
def nniEncode (n : Nat) : Bytes :=
  if n < 2 ^ 8 then beBytes 1 n
  else if n < 2 ^ 16 then beBytes 2 n
  else if n < 2 ^ 32 then beBytes 4 n
  else beBytes 8 n

/-- `tlv::readNonNegativeInteger`: the length must be 1, 2, 4 or 8; the encoding need not be the
shortest one. -/
def nniDecode (b : Bytes) : Option Nat :=
  if b.length = 1 ∨ b.length = 2 ∨ b.length = 4 ∨ b.length = 8 then some (beNat b) else none

/-- `ndn::name::Convention`, for encoding. Decoding accepts both (`Convention::EITHER`, the default
of ndn-cxx, which the tools do not change). -/
inductive Convention
  | marker
  | typed
  deriving DecidableEq, Repr

/-- `SEGMENT_MARKER` and `VERSION_MARKER` of ndn-cxx. -/
def segmentMarker : UInt8 := 0x00
def versionMarker : UInt8 := 0xFD

/-- `Component::fromNumberWithMarker` / `fromNumber`. -/
def Comp.encode (conv : Convention) (type : Nat) (marker : UInt8) (n : Nat) : Comp :=
  match conv with
  | .marker => ⟨ttGeneric, marker :: nniEncode n⟩
  | .typed => ⟨type, nniEncode n⟩

/-- `Component::toNumberWithMarker` / `toNumber`, whichever convention applies. -/
def Comp.decode (type : Nat) (marker : UInt8) (c : Comp) : Option Nat :=
  if c.type = ttGeneric then
    match c.value with
    | [] => none
    | m :: rest => if m = marker then nniDecode rest else none
  else if c.type = type then nniDecode c.value
  else none

/-- `Component::fromSegment`, used by `Name::appendSegment`. -/
def Comp.fromSegment (conv : Convention) (n : Nat) : Comp := .encode conv ttSegment segmentMarker n
/-- `Component::fromVersion`, used by `Name::appendVersion`. -/
def Comp.fromVersion (conv : Convention) (n : Nat) : Comp := .encode conv ttVersion versionMarker n
/-- `Component::toSegment`; `none` where it throws. -/
def Comp.toSegment (c : Comp) : Option Nat := c.decode ttSegment segmentMarker
/-- `Component::toVersion`; `none` where it throws. -/
def Comp.toVersion (c : Comp) : Option Nat := c.decode ttVersion versionMarker
/-- `Component::isSegment`. -/
def Comp.isSegment (c : Comp) : Bool := c.toSegment.isSome
/-- `Component::isVersion`. -/
def Comp.isVersion (c : Comp) : Bool := c.toVersion.isSome

/-- `name[-1].isVersion()` for a possibly empty name: `!name.empty() && name[-1].isVersion()`. -/
def Name.endsWithVersion (n : Name) : Bool :=
  match n.getLast? with
  | none => false
  | some c => c.isVersion

/-- `Name::isPrefixOf`. -/
def Name.isPrefixOf : Name → Name → Bool
  | [], _ => true
  | _ :: _, [] => false
  | a :: as, b :: bs => decide (a = b) && Name.isPrefixOf as bs

/-- `ndn::Interest`: name and the two selectors. Nonce, lifetime, hop limit play no role. -/
structure Interest where
  name : Name
  canBePrefix : Bool := false
  mustBeFresh : Bool := false
  deriving DecidableEq, Repr

/-- `ndn::Data`. `isBlob`: the ContentType is `ContentType_Blob`; `freshness` in milliseconds. The
signature is left out; the implicit digest of a packet is the value of an arbitrary function. -/
structure Data where
  name : Name
  content : Bytes
  final : Option Comp := none
  freshness : Nat := 0
  isBlob : Bool := true
  deriving DecidableEq, Repr

/-- `Interest::matchesData`. `digest` gives the implicit SHA-256 digest of a packet. -/
def Interest.matchesData (digest : Data → Bytes) (i : Interest) (d : Data) : Bool :=
  let fullName := d.name ++ [⟨ttImplicitDigest, digest d⟩]
  (!i.mustBeFresh || decide (0 < d.freshness)) &&
  (if i.name.length = fullName.length then decide (i.name = fullName)
   else if i.canBePrefix then i.name.isPrefixOf d.name
   else decide (i.name = d.name))

/-- `KEYWORD_METADATA_COMP` of ndn-cxx: the keyword component `metadata`. -/
def metadataComp : Comp := ⟨ttKeyword, [0x6d, 0x65, 0x74, 0x61, 0x64, 0x61, 0x74, 0x61]⟩

/-- `MetadataObject::makeDiscoveryInterest`. -/
def makeDiscoveryInterest (pre : Name) : Interest :=
  { name := pre ++ [metadataComp], canBePrefix := true, mustBeFresh := true }

/-- `MetadataObject::isValidName`. -/
def isValidMetadataName (n : Name) : Bool :=
  match n.reverse with
  | s :: v :: k :: _ => s.isSegment && v.isVersion && decide (k = metadataComp)
  | _ => false

end Verif
