import Verif.Model.Name

/-!
# TLV decoding of ndn-cxx

ndn-cxx is not part of the repository; these definitions describe `ndn-cxx/encoding/tlv.hpp` and `block.cpp` as used by
`tools/dissect/dissector.cpp` and `tools/dump/ndndump.cpp`, and are part of the trusted base (see DESIGN.md).
-/

namespace Verif

/-- `tlv::readVarNumber`: the number and the bytes after it; `none` when there are too few bytes. The encoding need not be
the shortest one. -/
def readVarNumber : Bytes → Option (Nat × Bytes)
  | [] => none
  | b :: r =>
    if b.toNat < 253 then some (b.toNat, r)
    else
      let w := if b.toNat = 253 then 2 else if b.toNat = 254 then 4 else 8
      if r.length < w then none else some (beNat (r.take w), r.drop w)

/-- `tlv::readType`: type numbers are at least 1 and below 2^32. -/
def readType (b : Bytes) : Option (Nat × Bytes) :=
  match readVarNumber b with
  | none => none
  | some (n, r) => if n = 0 ∨ 2 ^ 32 ≤ n then none else some (n, r)

/-- `tlv::writeVarNumber`: the shortest encoding. -/
def writeVarNumber (n : Nat) : Bytes :=
  if n < 253 then [UInt8.ofNat n]
  else if n < 2 ^ 16 then 253 :: beBytes 2 n
  else if n < 2 ^ 32 then 254 :: beBytes 4 n
  else 255 :: beBytes 8 n

/-- `tlv::sizeOfVarNumber`. -/
def sizeOfVarNumber (n : Nat) : Nat :=
  if n < 253 then 1 else if n < 2 ^ 16 then 3 else if n < 2 ^ 32 then 5 else 9

/-- `ndn::Block`: type and value. -/
structure Block where
  type : Nat
  value : Bytes
  deriving DecidableEq, Repr

/-- The encoding of a block. -/
def Block.encode (b : Block) : Bytes := writeVarNumber b.type ++ writeVarNumber b.value.length ++ b.value

/-- Why no block can be read: a type or length number is missing or not allowed, or the value is too short. -/
inductive ReadError
  | number
  | value
  deriving DecidableEq, Repr

/-- Read one block: the block and the bytes after it. -/
def readBlock (b : Bytes) : Except ReadError (Block × Bytes) :=
  match readType b with
  | none => .error .number
  | some (t, r) =>
    match readVarNumber r with
    | none => .error .number
    | some (n, r) => if r.length < n then .error .value else .ok (⟨t, r.take n⟩, r.drop n)

/-- `Block::fromBuffer`: the first block of a buffer, if it is complete. -/
def fromBuffer (b : Bytes) : Option Block :=
  match readBlock b with
  | .error _ => none
  | .ok (x, _) => some x

/-- `MAX_SIZE_OF_BLOCK_FROM_STREAM` of `block.cpp`. -/
def maxStreamBlock : Nat := 8800

/-- The size of a block that was read from a stream: `Block::fromStream` encodes type and length again. -/
def Block.size (b : Block) : Nat := sizeOfVarNumber b.type + sizeOfVarNumber b.value.length + b.value.length

/-- `Block::fromStream`; `none` where it throws. The size limit is checked before the value is read. -/
def fromStream (b : Bytes) : Option (Block × Bytes) :=
  match readType b with
  | none => none
  | some (t, r) =>
    match readVarNumber r with
    | none => none
    | some (n, r) =>
      if sizeOfVarNumber t + sizeOfVarNumber n + n > maxStreamBlock then none
      else if r.length < n then none
      else some (⟨t, r.take n⟩, r.drop n)

theorem readVarNumber_shorter {b : Bytes} {n r} (h : readVarNumber b = some (n, r)) : r.length < b.length := by
  cases b with
  | nil => cases h
  | cons x l =>
    simp only [readVarNumber] at h
    by_cases h1 : x.toNat < 253
    · rw [if_pos h1] at h; cases h; simp
    · rw [if_neg h1] at h
      generalize (if x.toNat = 253 then 2 else if x.toNat = 254 then 4 else 8) = w at h
      by_cases h2 : l.length < w
      · rw [if_pos h2] at h; cases h
      · rw [if_neg h2] at h; cases h; simp only [List.length_drop, List.length_cons]; omega

theorem readBlock_shorter {b : Bytes} {x r} (h : readBlock b = .ok (x, r)) : r.length < b.length := by
  unfold readBlock at h
  split at h
  · cases h
  · rename_i t r1 h1
    split at h
    · cases h
    · rename_i n r2 h2
      split at h
      · cases h
      · cases h
        have a2 := readVarNumber_shorter h2
        unfold readType at h1
        split at h1
        · cases h1
        · rename_i h0
          have a0 := readVarNumber_shorter h0
          split at h1
          · cases h1
          · cases h1; simp; omega

/-- `Block::parse` on the value of a block, `acc` the elements found so far: the elements after the call. When it throws because
a value is too short, it forgets the elements; `keep` tells whether those before a wrong type or length number are
left in the block. -/
def parse (keep : Bool) (acc : List Block) (b : Bytes) : List Block :=
  if b = [] then acc
  else
    match h : readBlock b with
    | .ok (x, r) => parse keep (acc ++ [x]) r
    | .error .value => []
    | .error .number => if keep then acc else []
termination_by b.length
decreasing_by exact readBlock_shorter h

end Verif
