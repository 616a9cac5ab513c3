import Verif.Model.DumpRun
import Verif.Model.PingOutput
import Verif.Model.Dissect

/-!
# The text that ndndump prints

The values that `Model/Dump` writes to the line, as bytes: `operator<<` of the standard library and of ndn-cxx, and
`inet_ntop` of the C library.
-/

namespace Verif.DumpText

open Dump

/-! ## Names, as ndn-cxx prints them (`Name::toUri`, `UriFormat::ALTERNATE`, which is the default) -/

/-- A value, percent-encoded; three dots are put before a value that has no other characters than dots. -/
def escapeValue (v : Bytes) : Bytes := (if v.all (· == 46) then text "..." else []) ++ v.flatMap Dissect.escapeByte

/-- A hexadecimal digit. -/
def hexDigit (k : Nat) : UInt8 := if k < 10 then UInt8.ofNat (48 + k) else UInt8.ofNat (87 + k)

/-- The bytes in hexadecimal. -/
def hexBytes (v : Bytes) : Bytes := v.flatMap fun b => [hexDigit (b.toNat / 16), hexDigit (b.toNat % 16)]

/-- The types of components that are numbers: segment, byte offset, version, timestamp, sequence number. -/
def numberKey : Nat → Option String
  | 50 => some "seg"
  | 52 => some "off"
  | 54 => some "v"
  | 56 => some "t"
  | 58 => some "seq"
  | _ => none

/-- `Component::isNumber`: the value has the length of a NonNegativeInteger. -/
def isNumber (c : Comp) : Bool :=
  c.value.length == 1 || c.value.length == 2 || c.value.length == 4 || c.value.length == 8

/-- `operator<<(std::ostream&, const name::Component&)`. -/
def compText (c : Comp) : Bytes :=
  if c.type = 1 then text "sha256digest=" ++ hexBytes c.value
  else if c.type = 2 then text "params-sha256=" ++ hexBytes c.value
  else if c.type = 8 then escapeValue c.value
  else match numberKey c.type with
    | some s => if isNumber c then text s ++ 61 :: decimal (beNat c.value) else decimal c.type ++ 61 :: escapeValue c.value
    | none => decimal c.type ++ 61 :: escapeValue c.value

/-- `operator<<(std::ostream&, const Name&)`. -/
def nameText (n : Name) : Bytes := if n = [] then text "/" else n.flatMap fun c => 47 :: compText c

/-! ## Numbers and addresses -/

/-- A number in hexadecimal without leading zeros. -/
def hexText (n : Nat) : Bytes := if n < 16 then [hexDigit n] else hexText (n / 16) ++ [hexDigit (n % 16)]
termination_by n

/-- Texts with a byte between any two. -/
def sep (c : UInt8) : List Bytes → Bytes
  | [] => []
  | [w] => w
  | w :: ws => w ++ c :: sep c ws

/-- `inet_ntop` for IPv4: four numbers with dots. -/
def ip4Text (a : Bytes) : Bytes := sep 46 (a.map fun b => decimal b.toNat)

/-- The words of an IPv6 address. -/
def words6 : Bytes → List Nat
  | a :: b :: r => (a.toNat * 256 + b.toNat) :: words6 r
  | _ => []

/-- A run of zeros: where it begins and how long it is. The longer one of two, the earlier one if they are equally long. -/
def better (best cur : Option (Nat × Nat)) : Option (Nat × Nat) :=
  match best, cur with
  | none, c => c
  | some b, none => some b
  | some b, some c => if c.2 > b.2 then some c else some b

/-- The loop of `inet_ntop` that looks for the longest run of zeros, from the word with number `i` on. -/
def longestRun (i : Nat) (best cur : Option (Nat × Nat)) : List Nat → Option (Nat × Nat)
  | [] => better best cur
  | w :: ws =>
    if w = 0 then longestRun (i + 1) best (match cur with | none => some (i, 1) | some c => some (c.1, c.2 + 1)) ws
    else longestRun (i + 1) (better best cur) none ws

/-- A run of one zero is not shortened. -/
def bestRun (ws : List Nat) : Option (Nat × Nat) :=
  match longestRun 0 none none ws with
  | some r => if r.2 < 2 then none else some r
  | none => none

/-- `inet_ntop` for IPv6 (glibc): the words in hexadecimal with colons, the longest run of zeros as two colons; the last 32
bits as IPv4 if the first 96 bits are zero, or are those of IPv4-mapped addresses. -/
def ip6Text (a : Bytes) : Bytes :=
  let ws := words6 a
  match bestRun ws with
  | none => sep 58 (ws.map hexText)
  | some r =>
    if r.1 = 0 ∧ r.2 = 6 then text "::" ++ ip4Text (a.drop 12)
    else if r.1 = 0 ∧ r.2 = 5 ∧ ws[5]? = some 0xffff then text "::ffff:" ++ ip4Text (a.drop 12)
    else sep 58 ((ws.take r.1).map hexText) ++ text "::" ++ sep 58 ((ws.drop (r.1 + r.2)).map hexText)

/-! ## Lines -/

/-- One value. -/
def tokText : Tok → Bytes
  | .delim => text ", "
  | .str s => text s
  | .num n => decimal n
  | .hex n => text "0x" ++ hexText n
  | .ip4 a => ip4Text a
  | .ip6 a => ip6Text a
  | .name n => nameText n
  | .interest n t => nameText n ++ text t
  | .reason r => PingOutput.reasonText r

/-- ndndump.cpp:182-222: one line. -/
def lineText : Line → Bytes
  | .zeroCaplen => text "[Invalid header: caplen=0]\n"
  | .zeroLen => text "[Invalid header: len=0]\n"
  | .badLen len caplen =>
    text "[Invalid header: len(" ++ decimal len ++ text ") < caplen(" ++ decimal caplen ++ text ")]\n"
  | .packet ts toks => ts.getD [] ++ toks.flatMap tokText ++ text "\n"

/-- The standard output. -/
def output (ls : List Line) : Bytes := ls.flatMap lineText

end Verif.DumpText
