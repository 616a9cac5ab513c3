import Verif.Model.Name
import Verif.Model.Decimal

/-!
# Model of the Wireshark dissector

`tools/dissect-wireshark/ndn.lua`. What Lua and the library of Wireshark do is part of the trusted base (see DESIGN.md):
`tvb(offset, length)` raises an error if the range is not inside of the buffer; numbers of 9 octets are objects of the class
`UInt64`, which compare with numbers by `<` and `<=` but never by `==`, which compute modulo 2^64, and which are not accepted
where a number is required; `TreeItem:add` with a field of integer type raises an error for a text that is not a number;
`pairs` visits the elements of an array in order. The texts of `addInfo` and `addSummary` are in `Model/WiresharkText`; colours
and the hidden fields are left out.
-/

namespace Verif.Wireshark

/-- Errors of Lua: a range outside of the buffer, an argument of the wrong type, a field of `nil`. `bound` is not an error of
Lua: it tells that a bound of this model is too small, which never happens (`C67_bound`). -/
inductive Err
  | outOfRange
  | badArgument
  | nilIndex
  | bound
  deriving DecidableEq, Repr

/-- `tvb(offset, length)`. -/
def range (tvb : Bytes) (offset length : Nat) : Except Err Bytes :=
  if offset + length ≤ tvb.length then .ok ((tvb.drop offset).take length) else .error .outOfRange

/-- `tvb(offset, length):uint()` and `:uint64()`. -/
def uint (tvb : Bytes) (offset length : Nat) : Except Err Nat := (range tvb offset length).map beNat

/-- ndn.lua:332-349 `readVarNumber`: the number and its size. -/
def readVarNumber (tvb : Bytes) (offset : Nat) : Except Err (Nat × Nat) :=
  if offset ≥ tvb.length then .ok (0, 0)
  else
    match uint tvb offset 1 with
    | .error e => .error e
    | .ok firstOctet =>
      if firstOctet < 253 then .ok (firstOctet, 1)
      else if firstOctet = 253 ∧ offset + 3 < tvb.length then (uint tvb (offset + 1) 2).map (·, 3)
      else if firstOctet = 254 ∧ offset + 5 < tvb.length then (uint tvb (offset + 1) 4).map (·, 5)
      else if firstOctet = 255 ∧ offset + 9 < tvb.length then (uint tvb (offset + 1) 8).map (·, 9)
      else .ok (0, 0)

/-- ndn.lua:258-265. The type is an object iff `typeLen = 9`, the length iff `lengthLen = 9`. `tree`: whether the block has
a `tree` yet. -/
structure Block where
  offset : Nat
  type : Nat
  typeLen : Nat
  length : Nat
  lengthLen : Nat
  tree : Bool := false
  deriving DecidableEq, Repr

/-- ndn.lua:366. -/
def Block.size (b : Block) : Nat :=
  if b.lengthLen = 9 then (b.typeLen + b.lengthLen + b.length) % 2 ^ 64 else b.typeLen + b.lengthLen + b.length

/-- Where the value begins. -/
def Block.start (b : Block) : Nat := b.offset + b.typeLen + b.lengthLen

/-- `block.type == t` with a number `t`. -/
def Block.is (b : Block) (t : Nat) : Bool := decide (b.typeLen ≠ 9 ∧ b.type = t)

/-- ndn.lua:351-369 `getBlock`. -/
def getBlock (tvb : Bytes) (offset : Nat) : Except Err (Option Block) :=
  match readVarNumber tvb offset with
  | .error e => .error e
  | .ok (type, typeLen) =>
    if typeLen = 0 then .ok none
    else
      match readVarNumber tvb (offset + typeLen) with
      | .error e => .error e
      | .ok (length, lengthLen) =>
        if lengthLen = 0 then .ok none
        else .ok (some { offset := offset, type := type, typeLen := typeLen, length := length, lengthLen := lengthLen })

/-- ndn.lua:371-377 `canBeValidNdnPacket`. -/
def canBeValidNdnPacket (b : Block) : Bool := (b.is 5 || b.is 6 || b.is 100) && decide (b.length ≤ 8800)

/-- ndn.lua:379-393 `findNdnPacket`, from `offset` on. -/
def findNdnPacket (tvb : Bytes) (offset : Nat) : Except Err (Option Block) :=
  if offset + 2 < tvb.length then
    match getBlock tvb offset with
    | .error e => .error e
    | .ok (some b) => if canBeValidNdnPacket b then .ok (some b) else findNdnPacket tvb (offset + 1)
    | .ok none => findNdnPacket tvb (offset + 1)
  else .ok none
termination_by tvb.length - offset

theorem getBlock_pos {tvb : Bytes} {offset : Nat} {b : Block} (h : getBlock tvb offset = .ok (some b)) :
    0 < b.typeLen := by
  unfold getBlock at h
  split at h
  · cases h
  · split at h
    · cases h
    · split at h
      · cases h
      · split at h
        · cases h
        · cases h; exact Nat.pos_of_ne_zero (by assumption)

/-- ndn.lua:395-415 `getSubBlocks`; `left` is `valueLeft`, and the result has the elements that are still to come. If the
length of a child is an object, so is `valueLeft`: then it is never equal to the number 0, and as an offset it is not
accepted unless it is beyond the end of the buffer. -/
def getSubBlocks (tvb : Bytes) (b : Block) (left : Nat) : Except Err (Option (List Block)) :=
  if left = 0 then .ok (some [])
  else
    match h : getBlock tvb (b.start + (b.length - left)) with
    | .error e => .error e
    | .ok none => .ok none
    | .ok (some c) =>
      if c.lengthLen = 9 then
        if c.size = left ∨ (c.offset + c.size) % 2 ^ 64 ≥ tvb.length then .ok none else .error .badArgument
      else if c.size > left then .ok none
      else (getSubBlocks tvb b (left - c.size)).map (Option.map (c :: ·))
termination_by left
decreasing_by
  have := getBlock_pos h
  unfold Block.size at *
  split <;> omega

/-! ## Values -/

/-- The bytes of an ASCII text. -/
def ascii (s : String) : Bytes := s.toList.map fun c => UInt8.ofNat c.toNat

/-- The digits of `%02x` and `%02X`. -/
def hexDigit (upper : Bool) (n : Nat) : UInt8 :=
  if n < 10 then UInt8.ofNat (48 + n) else if upper then UInt8.ofNat (55 + n) else UInt8.ofNat (87 + n)

/-- ndn.lua:64, 86: one byte by `%02x` or `%02X`. -/
def hex2 (upper : Bool) (b : UInt8) : Bytes := [hexDigit upper (b.toNat / 16), hexDigit upper (b.toNat % 16)]

/-- The condition in ndn.lua:83. -/
def unreserved (b : UInt8) : Bool :=
  let ch := b.toNat
  (0x41 ≤ ch && ch ≤ 0x5A) || (0x61 ≤ ch && ch ≤ 0x7A) || (0x30 ≤ ch && ch ≤ 0x39) || ch == 0x2D || ch == 0x2E ||
    ch == 0x5F || ch == 0x7E

/-- ndn.lua:79-91: the value of a component, escaped. -/
def escape (v : Bytes) : Bytes :=
  v.flatMap (fun b => if unreserved b then [b] else 0x25 :: hex2 true b) ++
    (if v.any (· != 0x2E) then [] else [0x2E, 0x2E, 0x2E])

/-- ndn.lua:52-67 `getUriFromSha256DigestComponent`. -/
def digestUri (type : Nat) (v : Bytes) : Bytes :=
  ascii (if type = 1 then "sha256digest=" else "params-sha256=") ++ v.flatMap (hex2 false)

/-- ndn.lua:69-93 `getUriFromNameComponent`. `string.format` does not accept an object as `%d`. -/
def componentUri (tvb : Bytes) (b : Block) : Except Err Bytes :=
  match range tvb b.start b.length with
  | .error e => .error e
  | .ok v =>
    if b.is 1 ∨ b.is 2 then .ok (digestUri b.type v)
    else if b.is 8 then .ok (escape v)
    else if b.typeLen = 9 then .error .badArgument
    else .ok (decimal b.type ++ 0x3D :: escape v)

/-- ndn.lua:95-105 `getUriFromName`, the components being `es`. -/
def nameUri (tvb : Bytes) (es : List Block) : Except Err Bytes :=
  (es.mapM (componentUri tvb)).map fun cs => 0x2F :: List.intercalate [0x2F] cs

/-- The functions in the column `value` of `NDN_DICT`. -/
inductive Fmt
  | name
  | component
  | true
  | nonce
  | number
  | hopLimit
  | finalBlockId
  | nackReason
  | cachePolicy
  deriving DecidableEq, Repr

/-- The types of the fields in `NDN_DICT`. -/
inductive Field
  | string
  | bytes
  | uint8
  | uint32
  | uint64
  deriving DecidableEq, Repr

/-- An entry of `NDN_DICT` (ndn.lua:197-243). -/
structure Info where
  name : String
  field : Option Field := none
  fmt : Option Fmt := none
  deriving DecidableEq, Repr

/-- ndn.lua:197-243 `NDN_DICT`. -/
def ndnDict : List (Nat × Info) :=
  [(7, ⟨"Name", some .string, some .name⟩),
   (1, ⟨"ImplicitSha256DigestComponent", some .string, some .component⟩),
   (2, ⟨"ParametersSha256DigestComponent", some .string, some .component⟩),
   (8, ⟨"GenericNameComponent", some .string, some .component⟩),
   (5, ⟨"Interest", none, none⟩),
   (33, ⟨"CanBePrefix", some .string, some .true⟩),
   (18, ⟨"MustBeFresh", some .string, some .true⟩),
   (30, ⟨"ForwardingHint", none, none⟩),
   (10, ⟨"Nonce", some .uint32, some .nonce⟩),
   (12, ⟨"InterestLifetime", some .uint64, some .number⟩),
   (34, ⟨"HopLimit", some .uint8, some .hopLimit⟩),
   (36, ⟨"ApplicationParameters", some .bytes, none⟩),
   (6, ⟨"Data", none, none⟩),
   (20, ⟨"MetaInfo", none, none⟩),
   (24, ⟨"ContentType", some .uint64, some .number⟩),
   (25, ⟨"FreshnessPeriod", some .uint64, some .number⟩),
   (26, ⟨"FinalBlockId", some .string, some .finalBlockId⟩),
   (21, ⟨"Content", some .bytes, none⟩),
   (22, ⟨"SignatureInfo", none, none⟩),
   (27, ⟨"SignatureType", some .uint64, some .number⟩),
   (28, ⟨"KeyLocator", none, none⟩),
   (29, ⟨"KeyDigest", some .bytes, none⟩),
   (23, ⟨"SignatureValue", some .bytes, none⟩),
   (80, ⟨"Fragment", none, none⟩),
   (81, ⟨"Sequence", some .uint64, some .number⟩),
   (82, ⟨"FragIndex", some .uint64, some .number⟩),
   (83, ⟨"FragCount", some .uint64, some .number⟩),
   (98, ⟨"PitToken", some .bytes, none⟩),
   (100, ⟨"LpPacket", none, none⟩),
   (800, ⟨"Nack", none, none⟩),
   (801, ⟨"NackReason", some .string, some .nackReason⟩),
   (812, ⟨"IncomingFaceId", some .uint64, some .number⟩),
   (816, ⟨"NextHopFaceId", some .uint64, some .number⟩),
   (820, ⟨"CachePolicy", none, none⟩),
   (821, ⟨"CachePolicyType", some .string, some .cachePolicy⟩),
   (832, ⟨"CongestionMark", some .uint64, some .number⟩),
   (836, ⟨"Ack", some .uint64, some .number⟩),
   (840, ⟨"TxSequence", some .uint64, some .number⟩)]

/-- `NDN_DICT[block.type]`. -/
def lookup (b : Block) : Option Info := if b.typeLen = 9 then none else ndnDict.lookup b.type

/-- `block.value`: a text, a number, an object of class `UInt64`, or the generic text of ndn.lua:172-192 with the type and
the length. -/
inductive Val
  | text (s : Bytes)
  | num (n : Nat)
  | object (n : Nat)
  | generic (label : String) (type length : Nat)
  deriving DecidableEq, Repr

/-- ndn.lua:172-192 `getGenericBlockInfo` with `canIgnoreTlvType` (160-170); `math.fmod` does not accept an object. -/
def genericInfo (b : Block) : Except Err Val :=
  if b.type ≤ 100 then .ok (.generic "Unrecognized from the reserved range 0-100" b.type b.length)
  else if b.type < 800 then .ok (.generic "Unrecognized from the reserved range 101-799" b.type b.length)
  else if b.type ≤ 1000 then
    if b.type < 1000 then
      if b.typeLen = 9 then .error .badArgument
      else .ok (.generic (if b.type % 2 = 1 then "Unknown field (ignored)" else "Unknown field") b.type b.length)
    else .ok (.generic "Unknown field" b.type b.length)
  else .ok (.generic "RESERVED_3" b.type b.length)

/-- ndn.lua:45-50 `getNonNegativeInteger`. -/
def getNonNegativeInteger (tvb : Bytes) (b : Block) : Except Err Nat :=
  if b.length = 1 ∨ b.length = 2 ∨ b.length = 4 ∨ b.length = 8 then uint tvb b.start b.length else .ok (2 ^ 64 - 1)

/-- The functions of ndn.lua:95-154; `es`: the elements, if any. -/
def Fmt.value (tvb : Bytes) (b : Block) (es : Option (List Block)) : Fmt → Except Err Val
  | .name => match es with
    | none => .ok (.text [0x2F])
    | some es => (nameUri tvb es).map .text
  | .component => (componentUri tvb b).map .text
  | .true => .ok (.text (ascii "Yes"))
  | .nonce =>
    if b.length ≠ 4 then .ok (.text (ascii "invalid (should have 4 octets)")) else (uint tvb b.start b.length).map .num
  | .number => (getNonNegativeInteger tvb b).map .object
  | .hopLimit =>
    if b.length ≠ 1 then .ok (.text (ascii "invalid (should have 1 octet)")) else (uint tvb b.start b.length).map .num
  | .finalBlockId => match es with
    | none => .ok (.text [0x2F])
    | some [] => .error .nilIndex
    | some (e :: _) => (componentUri tvb e).map .text
  | .nackReason => (getNonNegativeInteger tvb b).map fun code =>
      .text (if code = 0 then ascii "None" else if code = 50 then ascii "Congestion" else if code = 100 then ascii "Duplicate"
        else if code = 150 then ascii "NoRoute" else decimal code)
  | .cachePolicy => (getNonNegativeInteger tvb b).map fun code =>
      .text (if code = 0 then ascii "None" else if code = 1 then ascii "NoCache" else decimal code ++ ascii " (unknown)")

/-- ndn.lua:267-297 `addInfo`: `block.value` afterwards. -/
def addInfo (tvb : Bytes) (b : Block) (es : Option (List Block)) : Except Err (Option Val) :=
  match lookup b with
  | none =>
    match genericInfo b with
    | .error e => .error e
    | .ok v => (range tvb b.offset b.size).map fun _ => some v
  | some info =>
    match info.fmt with
    | none => (range tvb b.offset b.size).map fun _ => none
    | some f =>
      match f.value tvb b es with
      | .error e => .error e
      | .ok v =>
        match range tvb b.offset b.size with
        | .error e => .error e
        | .ok _ =>
          match info.field, v with
          | some .uint8, .text _ => .error .badArgument
          | some .uint32, .text _ => .error .badArgument
          | _, _ => .ok (some v)

/-! ## Packets -/

/-- What is shown of a block: its value, if any, and the elements; `parsed = false` if `block.elements` is `nil`. -/
inductive Tree
  | node (block : Block) (value : Option Val) (parsed : Bool) (elements : List Tree)
  deriving Repr

/-- The fields of an item. -/
def Tree.block : Tree → Block | .node b _ _ _ => b
def Tree.value : Tree → Option Val | .node _ v _ _ => v
def Tree.parsed : Tree → Bool | .node _ _ p _ => p
def Tree.elements : Tree → List Tree | .node _ _ _ es => es

/-- ndn.lua:448-462: the items for a block and what is inside of it. The code visits the blocks level by level; since each item
is appended to the item of its own parent, the result is the same. The first argument bounds the depth; the bound is
never reached because elements are shorter than the block that contains them. -/
def build (tvb : Bytes) : Nat → Block → Except Err Tree
  | 0, _ => .error .bound
  | depth + 1, b =>
    match getSubBlocks tvb b b.length with
    | .error e => .error e
    | .ok es =>
      match addInfo tvb b es with
      | .error e => .error e
      | .ok v =>
        match (es.getD []).mapM fun c => build tvb depth { c with tree := true } with
        | .error e => .error e
        | .ok ts => .ok (.node b v es.isSome ts)

/-- `pktType` and `pktName`. -/
structure Cols where
  type : String := ""
  name : Bytes := []
  deriving DecidableEq, Repr

/-- ndn.lua:480-491. The text of a Name was made by `addInfo` before. -/
def Cols.update (c : Cols) (t : Tree) : Cols :=
  { type := if t.block.is 5 ∧ c.type ≠ "Nack" then "Interest" else if t.block.is 6 then "Data"
      else if t.block.is 800 then "Nack" else c.type
    name := match t.block.is 7, t.value with
      | true, some (.text s) => s
      | _, _ => c.name }

/-- ndn.lua:465-492, the second queue: each entry is a block and whether it is `visited`. The first argument bounds the number
of rounds. -/
def visit : Nat → List (Bool × Tree) → Cols → Option Cols
  | _, [], c => some c
  | 0, _ :: _, _ => none
  | fuel + 1, (visited, t) :: queue, c =>
    let c := c.update t
    if visited || !t.parsed then visit fuel queue c
    else visit fuel (t.elements.foldl (fun q e => (false, e) :: q) ((true, t) :: queue)) c

mutual
/-- The number of rounds for a tree. -/
def Tree.rounds : Tree → Nat
  | .node _ _ parsed es => if parsed then 2 + roundsAll es else 1
def roundsAll : List Tree → Nat
  | [] => 0
  | t :: ts => t.rounds + roundsAll ts
end

/-- How the dissector ends: nothing was found (it returns 0); an error of Lua, after `shown` was added; or it comes to its end with
these columns, and requests more data from an offset on. -/
inductive Result
  | ignored
  | error (shown : List Tree) (e : Err)
  | done (shown : List Tree) (cols : Cols) (desegment : Option Nat)
  deriving Repr

/-- ndn.lua:519-528; `b = none`: `block` is `nil` or a message. -/
def finish (tvb : Bytes) (left : Nat) (b : Option Block) (shown : List Tree) (cols : Cols) : Result :=
  .done shown cols (if left > 0 ∧ b.any (fun b => b.size > left) then some (tvb.length - left) else none)

/-- ndn.lua:444-517: the loop over the packets; `left` is `nBytesLeft`. When nothing is left, `block` is not changed and the
loop ends because its size is not 0; that the size is not 0 is part of the condition here so that the loop is seen to
terminate. -/
def packets (tvb : Bytes) (b : Block) (left : Nat) (shown : List Tree) (cols : Cols) : Result :=
  if h : 0 < b.size ∧ b.size ≤ left then
    if b.lengthLen = 9 then .error shown .badArgument
    else
      match build tvb (b.length + 1) { b with tree := true } with
      | .error e => .error shown e
      | .ok t =>
        match visit t.rounds [(false, t)] cols with
        | none => .error shown .bound
        | some cols =>
          let shown := shown ++ [t]
          let left' := left - b.size
          if left' > 0 then
            match getBlock tvb (tvb.length - left') with
            | .error _ => finish tvb left' none shown cols
            | .ok none => finish tvb left' none shown cols
            | .ok (some b') =>
              if ¬ canBeValidNdnPacket b' then finish tvb left' (some b') shown cols
              else if ¬ b'.tree then .error shown .nilIndex
              else packets tvb b' left' shown cols
          else finish tvb left' (some b) shown cols
  else finish tvb left (some b) shown cols
termination_by left

/-- ndn.lua:421-529 `ndn.dissector`. `reportedLen`: the length of the packet before it was captured. -/
def dissector (tvb : Bytes) (reportedLen : Nat) : Result :=
  if tvb.length ≠ reportedLen then .ignored
  else
    match findNdnPacket tvb 0 with
    | .error _ => .ignored
    | .ok none => .ignored
    | .ok (some b) => packets tvb b (tvb.length - b.offset) [] {}

end Verif.Wireshark
