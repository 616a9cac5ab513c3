import Verif.Model.DumpText
import Verif.Model.Producer

/-!
# Names on the command line, and the name that ndnputchunks prints

All tools that take a name convert the text with the constructor `Name(std::string)` of ndn-cxx (catchunks/main.cpp:234,
putchunks/main.cpp:156, ping/client/main.cpp:190, ping/server/main.cpp:167, ndnpeek/main.cpp:103, ndnpoke/main.cpp:117). ndn-cxx
is not part of the repository; the definitions describe its documented behaviour and are part of the trusted base.
-/

namespace Verif.Uri

/-- `fromHexChar` of ndn-cxx. -/
def hexValue (b : UInt8) : Option Nat :=
  let n := b.toNat
  if 48 ≤ n ∧ n ≤ 57 then some (n - 48)
  else if 65 ≤ n ∧ n ≤ 70 then some (n - 55)
  else if 97 ≤ n ∧ n ≤ 102 then some (n - 87)
  else none

/-- `unescape` of ndn-cxx: a percent sign with two hexadecimal digits is a byte; all else stays as it is. -/
def unescape : Bytes → Bytes
  | [] => []
  | b :: l =>
    if b = 37 then
      match l with
      | x :: y :: r =>
        match hexValue x, hexValue y with
        | some i, some j => UInt8.ofNat (16 * i + j) :: unescape r
        | _, _ => 37 :: x :: y :: unescape r
      | _ => 37 :: l
    else b :: unescape l
termination_by l => l.length

/-- The check in the constructors of `Component`: the type is in the range of component types and a digest has 32 bytes. -/
def checked (c : Comp) : Option Comp :=
  if c.type < 1 ∨ 65535 < c.type then none
  else if (c.type = 1 ∨ c.type = 2) ∧ c.value.length ≠ 32 then none
  else some c

/-- `parseUriEscapedValue`: a value that consists of dots stands for one with three dots less. -/
def parseValue (type : Nat) (s : Bytes) : Option Comp :=
  let v := unescape s
  if v.all (· == 46) then
    if v.length < 3 then none else checked ⟨type, v.drop 3⟩
  else checked ⟨type, v⟩

/-- A number, accepted only if it is written like `std::to_string` writes it. -/
def parseNumber (bound : Nat) (s : Bytes) : Option Nat :=
  let n := s.foldl (fun a x => a * 10 + (x.toNat - 48)) 0
  if n < bound ∧ decimal n = s then some n else none

/-- `fromHex`: pairs of hexadecimal digits. -/
def parseHex : Bytes → Option Bytes
  | [] => some []
  | x :: y :: r =>
    match hexValue x, hexValue y, parseHex r with
    | some i, some j, some v => some (UInt8.ofNat (16 * i + j) :: v)
    | _, _, _ => none
  | [_] => none

/-- The table of the types that have a name in URIs. -/
def typeOfKey (k : Bytes) : Option Nat :=
  if k = text "sha256digest" then some 1
  else if k = text "params-sha256" then some 2
  else if k = text "seg" then some 50
  else if k = text "off" then some 52
  else if k = text "v" then some 54
  else if k = text "t" then some 56
  else if k = text "seq" then some 58
  else none

/-- `Component::fromUri`; `none` where it throws. -/
def parseComp (s : Bytes) : Option Comp :=
  if 61 ∈ s then
    let key := s.takeWhile (· != 61)
    let v := (s.dropWhile (· != 61)).drop 1
    match parseNumber 65536 key with
    | some t => parseValue t v
    | none =>
      match typeOfKey key with
      | none => none
      | some t =>
        if t = 1 ∨ t = 2 then (parseHex v).bind fun d => checked ⟨t, d⟩
        else (parseNumber (2 ^ 64) v).map fun n => ⟨t, nniEncode n⟩
  else parseValue 8 s

/-- The texts between slashes. -/
def cut : Bytes → List Bytes
  | [] => [[]]
  | b :: l =>
    if b = 47 then [] :: cut l
    else match cut l with
      | [] => [[b]]
      | w :: ws => (b :: w) :: ws

/-- The texts of the components: after a slash at the end there is no component. -/
def pieces (s : Bytes) : List Bytes := if (cut s).getLast? = some [] then (cut s).dropLast else cut s

/-- What stands before a colon that no slash precedes, such as `ndn:`, is left out. -/
def dropScheme (s : Bytes) : Bytes :=
  if 58 ∈ s ∧ 47 ∉ s.takeWhile (· != 58) then (s.dropWhile (· != 58)).drop 1 else s

/-- A slash at the start is left out, and two slashes with the authority that follows. -/
def dropStart : Bytes → Bytes
  | [] => []
  | b :: l =>
    if b = 47 then
      match l with
      | [] => []
      | c :: r => if c = 47 then (r.dropWhile (· != 47)).drop 1 else c :: r
    else b :: l

/-- `Name::Name(std::string_view)`; `none` where it throws. -/
def parseName (s : Bytes) : Option Name := (pieces (dropStart (dropScheme s))).mapM parseComp

/-! ## ndnputchunks -/

/-- The options of ndnputchunks that concern its messages, producer.hpp:43-50. -/
structure PutView where
  wantShowVersion : Bool := false
  isQuiet : Bool := false

/-- What the constructor writes to the standard output, producer.cpp:83-85; the operator `[-1]` of an empty name would be out of
range, but there is a version always. -/
def putOut (v : PutView) (p : Producer.Prod) : Option Bytes :=
  if v.wantShowVersion then p.versionedPrefix.getLast?.map fun c => DumpText.compText c ++ [10] else some []

/-- What the constructor writes to the standard error, producer.cpp:55-57, 86-89. -/
def putErr (v : PutView) (p : Producer.Prod) : Bytes :=
  if v.isQuiet then []
  else text "Loading input ...\n" ++ text "Published " ++ decimal p.store.length ++ text " Data packet" ++
    (if p.store.length > 1 then text "s" else []) ++ text " with prefix " ++ DumpText.nameText p.versionedPrefix ++ text "\n"

end Verif.Uri
