import Verif.Model.Tlv
import Verif.Model.Decimal

/-!
# Model of ndn-dissect

`tools/dissect/dissector.cpp`. A printed line is kept as a record of what it shows; `Line.text` gives the bytes.
-/

namespace Verif.Dissect

/-- dissector.hpp:31-34, and what `Block::parse` of ndn-cxx leaves behind when it throws (see `Verif.parse`). -/
structure Opts where
  dissectContent : Bool := false
  keep : Bool := true
  deriving DecidableEq, Repr

/-- dissector.cpp:60-63. -/
inductive Glyph
  | vertical
  | verticalAndRight
  | upAndRight
  | space
  deriving DecidableEq, Repr

/-- dissector.cpp:60-63, the characters in UTF-8. -/
def Glyph.text : Glyph → Bytes
  | .vertical => [0xE2, 0x94, 0x82, 0x20]
  | .verticalAndRight => [0xE2, 0x94, 0x9C, 0xE2, 0x94, 0x80]
  | .upAndRight => [0xE2, 0x94, 0x94, 0xE2, 0x94, 0x80]
  | .space => [0x20, 0x20]

/-- One line of the output: branch symbols, type number and its name, size, and the value in double brackets. -/
structure Line where
  glyphs : List Glyph
  type : Nat
  label : String
  size : Nat
  value : Option Bytes
  deriving DecidableEq, Repr

/-- dissector.cpp:65-76 `printBranches`. -/
def printBranches (branches : List Bool) : List Glyph :=
  branches.zipIdx.map fun (b, i) =>
    if i = branches.length - 1 then (if b then .verticalAndRight else .upAndRight)
    else (if b then .vertical else .space)

/-- dissector.cpp:78-129 `TLV_DICT`, with the numbers of ndn-cxx. -/
def tlvDict : List (Nat × String) :=
  [(5, "Interest"), (6, "Data"), (7, "Name"),
   (8, "GenericNameComponent"), (1, "ImplicitSha256DigestComponent"), (2, "ParametersSha256DigestComponent"),
   (32, "KeywordNameComponent"), (50, "SegmentNameComponent"), (52, "ByteOffsetNameComponent"),
   (54, "VersionNameComponent"), (56, "TimestampNameComponent"), (58, "SequenceNumNameComponent"),
   (33, "CanBePrefix"), (18, "MustBeFresh"), (30, "ForwardingHint"), (10, "Nonce"), (12, "InterestLifetime"),
   (34, "HopLimit"), (36, "ApplicationParameters"), (44, "InterestSignatureInfo"), (46, "InterestSignatureValue"),
   (20, "MetaInfo"), (21, "Content"), (22, "SignatureInfo"), (23, "SignatureValue"), (24, "ContentType"),
   (25, "FreshnessPeriod"), (26, "FinalBlockId"),
   (27, "SignatureType"), (28, "KeyLocator"), (29, "KeyDigest"), (38, "SignatureNonce"), (40, "SignatureTime"),
   (42, "SignatureSeqNum"),
   (253, "ValidityPeriod"), (254, "NotBefore"), (255, "NotAfter"), (258, "AdditionalDescription"),
   (512, "DescriptionEntry"), (513, "DescriptionKey"), (514, "DescriptionValue"),
   (128, "SafeBag"), (129, "EncryptedKey")]

/-- dissector.cpp:131-149 `printType`, the text in parentheses. `tlv::AppPrivateBlock1` is 128, `AppPrivateBlock2` 32767. -/
def typeLabel (type : Nat) : String :=
  match tlvDict.lookup type with
  | some s => s
  | none => if (128 ≤ type ∧ type ≤ 252) ∨ 32767 ≤ type then "UNKNOWN_APP" else "RESERVED"

/-- The characters of `escape` of ndn-cxx: unreserved characters stand for themselves, others are percent-encoded. -/
def escapeByte (b : UInt8) : Bytes :=
  let n := b.toNat
  if (48 ≤ n ∧ n ≤ 57) ∨ (65 ≤ n ∧ n ≤ 90) ∨ (97 ≤ n ∧ n ≤ 122) ∨ n = 45 ∨ n = 46 ∨ n = 95 ∨ n = 126 then [b]
  else
    let hex (k : Nat) : UInt8 := if k < 10 then UInt8.ofNat (48 + k) else UInt8.ofNat (55 + k)
    [37, hex (n / 16), hex (n % 16)]

/-- The characters of a line, dissector.cpp:154-175. -/
def Line.text (l : Line) : Bytes :=
  l.glyphs.flatMap Glyph.text ++ decimal l.type ++ Verif.text " (" ++ Verif.text l.label ++ Verif.text ")" ++
  Verif.text " (size: " ++ decimal l.size ++ Verif.text ")" ++
  (match l.value with
    | none => []
    | some v => Verif.text " [[" ++ v.flatMap escapeByte ++ Verif.text "]]") ++ Verif.text "\n"

/-- dissector.hpp:55-60: `m_branches` and what was written to `m_out`. -/
structure St where
  branches : List Bool := []
  out : List Line := []
  deriving DecidableEq, Repr

/-- dissector.cpp:158-169: the elements of the block after the attempt to parse it. -/
def elements (o : Opts) (b : Block) : List Block :=
  if b.type ≠ 23 ∧ b.type ≠ 46 ∧ (b.type ≠ 21 ∨ o.dissectContent = true) then parse o.keep [] b.value else []

/-- dissector.cpp:154-175: the line of one block. -/
def blockLine (branches : List Bool) (b : Block) (es : List Block) : Line :=
  { glyphs := printBranches branches
    type := b.type
    label := typeLabel b.type
    size := b.value.length
    value := if es = [] then some b.value else none }

/-- dissector.cpp:178-184, the loop over the elements; `p` prints one of them. -/
def printElements (p : St → Block → St) : List Block → St → St
  | [], s => s
  | e :: rest, s =>
    let s := if rest = [] then { s with branches := s.branches.dropLast ++ [false] } else s
    printElements p rest (p s e)

/-- dissector.cpp:151-186 `printBlock`. The recursion depth is bounded by the first argument; the bound is never
reached because elements are shorter than the block that contains them. -/
def printBlock (o : Opts) : Nat → St → Block → St
  | 0, s, _ => s
  | depth + 1, s, b =>
    let es := elements o b
    let s := { s with out := s.out ++ [blockLine s.branches b es] }
    let s := { s with branches := s.branches ++ [true] }
    let s := printElements (printBlock o depth) es s
    { s with branches := s.branches.dropLast }

/-- What `dissect` leaves: the lines on the output and the offset in the error message, if any. -/
structure Result where
  out : List Line
  error : Option Nat
  deriving DecidableEq, Repr

theorem fromStream_shorter {b : Bytes} {x r} (h : fromStream b = some (x, r)) : r.length < b.length := by
  unfold fromStream at h
  split at h
  · cases h
  · rename_i t r1 h1
    split at h
    · cases h
    · rename_i n r2 h2
      split at h
      · cases h
      · split at h
        · cases h
        · cases h
          have a2 := readVarNumber_shorter h2
          unfold readType at h1
          split at h1
          · cases h1
          · rename_i h0
            have a0 := readVarNumber_shorter h0
            split at h1
            · cases h1
            · cases h1; simp; omega

/-- The characters on the output. -/
def Result.text (r : Result) : Bytes := r.out.flatMap Line.text

/-- dissector.cpp:46-57, the loop of `dissect`. -/
def dissectLoop (o : Opts) (offset : Nat) (s : St) (input : Bytes) : Result :=
  if input = [] then ⟨s.out, none⟩
  else
    match h : fromStream input with
    | none => ⟨s.out, some offset⟩
    | some (b, r) => dissectLoop o (offset + b.size) (printBlock o (b.value.length + 1) s b) r
termination_by input.length
decreasing_by exact fromStream_shorter h

/-- dissector.cpp:43-57 `dissect`. -/
def dissect (o : Opts) (input : Bytes) : Result := dissectLoop o 0 {} input

end Verif.Dissect
