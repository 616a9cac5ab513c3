import Verif.Model.DumpText

/-!
# The unit tests of ndndump, on the model

`tests/dump/ndndump.t.cpp`, test by test, with the captures in `tests/dump`: the model prints what the tests expect of the code. These are
tests of the model, not proofs; they show that `Model/Dump`, `Model/DumpRun` and `Model/DumpText` agree with the code where the project
itself says what it should do. The decoders of ndn-cxx, arbitrary in the model, are those that the tests need.
-/

namespace Verif.Conformance.Dump

open Verif.Dump DumpText

/-! ## Decoders -/

private def name (v : Bytes) : Name := (parse false [] v).map fun b => ⟨b.type, b.value⟩

/-- ndn-cxx `Interest::wireDecode` as far as needed: an element of an unknown critical type is an error. -/
private def interest (b : Block) : Except String (Name × String) :=
  let es := parse false [] b.value
  if es.any (·.type = 9) then .error "Unrecognized element of critical type 9"
  else
    let one (t : Nat) : Option Bytes := (es.find? (·.type = t)).map (·.value)
    let hex (v : Bytes) : String := String.ofList ((hexBytes v).map fun b => Char.ofNat b.toNat)
    let params := (if (one 0x21).isSome then ["CanBePrefix"] else []) ++
      (match one 0x0a with | some v => ["Nonce=" ++ hex v] | none => []) ++
      (match one 0x0c with | some v => if beNat v = 4000 then [] else ["Lifetime=" ++ String.ofList ((decimal (beNat v)).map fun b => Char.ofNat b.toNat)] | none => [])
    .ok (name ((one 7).getD []), "?" ++ "&".intercalate params)

private def data (b : Block) : Except String Name :=
  .ok (name (((parse false [] b.value).find? (·.type = 7)).map (·.value) |>.getD []))

/-- ndn-cxx `lp::Packet::wireDecode` as far as needed. -/
private def lp (b : Block) : Except String Lp :=
  let es := parse false [] b.value
  if es = [] ∧ b.value ≠ [] then .error "TLV-LENGTH of sub-element of type 5 exceeds TLV-VALUE boundary of parent block"
  else if es.any (·.type = 4) then .error "unrecognized field 4 cannot be ignored"
  else .ok
    { fragment := (es.find? (·.type = 0x50)).map fun e => .ok e.value
      nack := (es.find? (·.type = 800)).map fun e =>
        .ok (match parse false [] e.value with
          | [⟨801, [50]⟩] => .congestion
          | [⟨801, [100]⟩] => .duplicate
          | [⟨801, [150]⟩] => .noRoute
          | _ => .none) }

private def dec : Decoders := ⟨lp, interest, data⟩

/-! ## The fixture -/

/-- What is printed for one packet. -/
private def shown (link : Link) (stamp : Bool) (p : Packet) : Option Bytes :=
  match printPacket { link := link, wantTimestamp := stamp, dec := dec } p with
  | .ok ls => some (output ls)
  | .error _ => none

/-- `receiveEthernet`. -/
private def ether (type : Nat) (stamp : Bool) (payload : Bytes) : Option Bytes :=
  let mem := List.replicate 12 0 ++ beBytes 2 type ++ payload
  shown .ether stamp { mem := mem, len := mem.length }

private def ndn (payload : Bytes) : Option Bytes := ether 0x8624 true payload

/-- The IPv4 header of the tests: version and header length in one byte, total length, protocol. -/
private def ip4 (v hl len proto : Nat) : Bytes :=
  [UInt8.ofNat (v * 16 + hl), 0] ++ beBytes 2 len ++ [0, 0, 0, 0, 0, UInt8.ofNat proto] ++ List.replicate 10 0

private def ip6 (v plen nxt : Nat) : Bytes :=
  [UInt8.ofNat (v * 16), 0, 0, 0] ++ beBytes 2 plen ++ [UInt8.ofNat nxt, 0] ++ List.replicate 32 0

private def tcp4 (off : Nat) : Bytes := ip4 4 5 40 6 ++ List.replicate 12 0 ++ [UInt8.ofNat (off * 16)] ++ List.replicate 7 0

private def udp4 (len : Nat) : Bytes := ip4 4 5 28 17 ++ List.replicate 4 0 ++ beBytes 2 len ++ [0, 0]

/-- `readFile`, with the default filter or without. -/
private def file (link : Link) (stamp filter : Bool) (ps : List Packet) : Bytes × End :=
  let r := loop { link := link, wantTimestamp := stamp, dec := dec }
    (ps.filter fun p => !filter || DumpRun.defaultAst.passes link p.mem)
  (output r.1, r.2)

/-! ## The tests -/

private def tlv (t : Nat) (v : Bytes) : Bytes := Block.encode ⟨t, v⟩

private def test : Bytes := tlv 7 (tlv 8 (text "test"))

private def nonce : Bytes := tlv 10 [0, 0, 0, 1]

-- Interest
example : ndn (tlv 5 (test ++ nonce)) = some (text "0.000000 Ethernet, INTEREST: /test?Nonce=00000001\n") := by decide +kernel
example : ndn (tlv 5 (test ++ tlv 0x21 [] ++ nonce)) =
    some (text "0.000000 Ethernet, INTEREST: /test?CanBePrefix&Nonce=00000001\n") := by decide +kernel
example : ndn (tlv 5 (test ++ tlv 0x21 [] ++ nonce ++ tlv 0x0c [50])) =
    some (text "0.000000 Ethernet, INTEREST: /test?CanBePrefix&Nonce=00000001&Lifetime=50\n") := by decide +kernel

-- Data
example : ndn (tlv 6 (test ++ tlv 0x16 (tlv 0x1b [200]) ++ tlv 0x17 [])) = some (text "0.000000 Ethernet, DATA: /test\n") := by
  decide +kernel
example : ndn (tlv 6 (test ++ tlv 0x14 (tlv 0x18 [2]) ++ tlv 0x16 (tlv 0x1b [200]) ++ tlv 0x17 [])) =
    some (text "0.000000 Ethernet, DATA: /test\n") := by decide +kernel

-- Nack
example : ndn (tlv 100 (tlv 800 (tlv 801 [100]) ++ tlv 0x50 (tlv 5 (test ++ nonce)))) =
    some (text "0.000000 Ethernet, NDNLPv2, NACK (Duplicate): /test?Nonce=00000001\n") := by decide +kernel

-- LpFragment
example : ndn (tlv 100 (tlv 0x51 (beBytes 8 1000) ++ tlv 0x52 [0] ++ tlv 0x53 [2] ++ tlv 0x50 [6, 8, 1, 2])) =
    some (text "0.000000 Ethernet, NDNLPv2 fragment\n") := by decide +kernel

-- LpIdle
example : ndn (tlv 100 []) = some (text "0.000000 Ethernet, NDNLPv2 idle\n") := by decide +kernel

-- IncompleteNdnPacket
example : ndn [5, 14, 7, 6] = some (text "0.000000 Ethernet, NDN truncated packet, length 4\n") := by decide +kernel

-- UnsupportedNdnPacket
example : ndn (tlv 7 []) = some (text "0.000000 Ethernet, [Unsupported NDN packet type 7]\n") := by decide +kernel

-- UnsupportedEtherType
example : ether 0x0806 true [] = some (text "0.000000 [Unsupported ethertype 0x806]\n") := by decide +kernel

-- MalformedIpv4Header
example : ether 0x0800 false [42] = some (text "IP truncated header, length 1\n") := by decide +kernel
example : ether 0x0800 false (ip4 7 0 0 0) = some (text "IP bad version 7\n") := by decide +kernel
example : ether 0x0800 false (ip4 4 2 0 0) = some (text "IP bad header length 8\n") := by decide +kernel
example : ether 0x0800 false (ip4 4 5 10 0) = some (text "IP bad length 10\n") := by decide +kernel
example : ether 0x0800 false (ip4 4 5 1000 0) = some (text "IP truncated packet, 980 bytes missing\n") := by decide +kernel

-- MalformedIpv6Header
example : ether 0x86dd false [42] = some (text "IP6 truncated header, length 1\n") := by decide +kernel
example : ether 0x86dd false (ip6 10 0 0) = some (text "IP6 bad version 10\n") := by decide +kernel
example : ether 0x86dd false (ip6 6 1400 0) = some (text "IP6 truncated payload, 1400 bytes missing\n") := by decide +kernel

-- UnsupportedIpProto
example : ether 0x0800 false (ip4 4 5 20 132) = some (text "IP 0.0.0.0 > 0.0.0.0, [Unsupported IP proto 132]\n") := by decide +kernel
example : ether 0x86dd false (ip6 6 0 59) = some (text "IP6 :: > ::, [No next header]\n") := by decide +kernel

-- MalformedTcpHeader
example : ether 0x0800 false (tcp4 2) = some (text "IP 0.0.0.0 > 0.0.0.0, TCP bad header length 8\n") := by decide +kernel
example : ether 0x0800 false (tcp4 15) = some (text "IP 0.0.0.0 > 0.0.0.0, TCP truncated header, 40 bytes missing\n") := by
  decide +kernel

-- MalformedUdpHeader
example : ether 0x0800 false (udp4 3) = some (text "IP 0.0.0.0 > 0.0.0.0, UDP bad length 3\n") := by decide +kernel
example : ether 0x0800 false (udp4 1000) = some (text "IP 0.0.0.0 > 0.0.0.0, UDP truncated packet, 992 bytes missing\n") := by
  decide +kernel

-- NoTimestamp
example : ether 0x8624 false (tlv 100 []) = some (text "Ethernet, NDNLPv2 idle\n") := by decide +kernel

/-! ## The captures -/

/-- `tests/dump/invalid-tlv-length.pcap`. -/
private def invalidTlvLength : List Packet :=
  [
  { len := 201, sec := 1486075800, usec := 161915, mem := [
    0, 15, 143, 247, 19, 127, 0, 28, 192, 160, 40, 198, 8, 0, 69, 0, 0, 187, 227, 221, 64, 0, 64, 6, 56, 175, 128, 196, 203, 36, 128,
    187, 81, 12, 186, 88, 24, 219, 228, 97, 248, 96, 186, 113, 132, 57, 80, 24, 8, 60, 30, 94, 0, 0, 100, 110, 8, 4, 78, 76, 83, 82, 8,
    3, 76, 83, 65, 8, 2, 110, 111, 8, 4, 110, 116, 110, 117, 8, 8, 193, 46, 82, 111, 117, 116, 101, 114, 8, 7, 110, 100, 110, 110, 111,
    100, 101, 8, 4, 110, 97, 109, 101, 8, 2, 188, 228, 9, 5, 17, 1, 1, 18, 0, 10, 4, 221, 51, 89, 191, 5, 80, 7, 65, 8, 3, 110, 100,
    110, 8, 4, 78, 76, 83, 82, 8, 3, 76, 83, 65, 8, 3, 101, 100, 117, 8, 4, 117, 99, 108, 97, 8, 8, 193, 46, 82, 111, 117, 116, 101,
    114, 8, 2, 99, 115, 8, 5, 97, 108, 101, 112, 104, 8, 9, 97, 100, 106, 97, 99, 101, 110, 99, 121, 8, 4, 0, 1, 159, 173, 9, 5, 17, 1,
    1, 18, 0, 10, 4, 88, 154, 84, 82] }]

-- InvalidTlvLength
example : file .ether false true invalidTlvLength = (
    text "IP 128.196.203.36 > 128.187.81.12, TCP, length 147, NDNLPv2 invalid packet: TLV-LENGTH of sub-element of type 5 exceeds TLV-VALUE boundary of parent block\n", .exit 0) := by decide +kernel

/-- `tests/dump/unrecognized-lp-field.pcap`. -/
private def unrecognizedLpField : List Packet :=
  [
  { len := 866, sec := 1486071022, usec := 517791, mem := [
    0, 15, 143, 247, 19, 127, 0, 28, 192, 160, 40, 198, 8, 0, 69, 0, 3, 84, 197, 177, 64, 0, 64, 6, 84, 66, 128, 196, 203, 36, 128, 187,
    81, 12, 24, 219, 161, 50, 210, 185, 188, 157, 230, 203, 83, 170, 128, 24, 5, 172, 32, 247, 0, 0, 1, 1, 8, 10, 133, 225, 213, 241,
    133, 240, 154, 39, 100, 206, 4, 41, 75, 104, 210, 192, 114, 130, 95, 136, 170, 121, 12, 94, 2, 184, 248, 70, 168, 167, 175, 159,
    119, 170, 9, 87, 226, 136, 218, 58, 83, 52, 217, 99, 106, 158, 173, 73, 201, 138, 95, 39, 76, 15, 94, 62, 110, 179, 247, 133, 47,
    215, 215, 143, 173, 58, 118, 229, 24, 120, 0, 245, 105, 141, 140, 97, 78, 186, 127, 163, 29, 137, 100, 141, 219, 182, 205, 12, 241,
    59, 174, 193, 163, 229, 119, 175, 227, 58, 149, 82, 228, 15, 88, 202, 149, 105, 191, 254, 127, 61, 170, 123, 221, 111, 5, 154, 232,
    99, 196, 199, 65, 25, 4, 6, 253, 2, 49, 7, 87, 8, 3, 110, 100, 110, 8, 4, 78, 76, 83, 82, 8, 3, 76, 83, 65, 8, 2, 110, 108, 8, 3,
    116, 110, 111, 8, 8, 193, 46, 82, 111, 117, 116, 101, 114, 8, 25, 116, 110, 111, 45, 110, 100, 110, 116, 101, 115, 116, 98, 101,
    100, 45, 98, 111, 114, 100, 101, 114, 110, 111, 100, 101, 8, 4, 110, 97, 109, 101, 8, 2, 53, 6, 8, 9, 253, 0, 0, 1, 90, 0, 188, 53,
    165, 8, 2, 0, 0, 20, 12, 25, 4, 0, 16, 122, 192, 26, 4, 8, 2, 0, 0, 21, 97, 47, 110, 100, 110, 47, 110, 108, 47, 116, 110, 111, 47,
    37, 67, 49, 46, 82, 111, 117, 116, 101, 114, 47, 116, 110, 111, 45, 110, 100, 110, 116, 101, 115, 116, 98, 101, 100, 45, 98, 111,
    114, 100, 101, 114, 110, 111, 100, 101, 124, 110, 97, 109, 101, 124, 49, 51, 53, 55, 52, 124, 50, 48, 49, 55, 48, 50, 48, 50, 84,
    50, 50, 48, 54, 49, 56, 46, 56, 57, 52, 51, 49, 57, 124, 49, 124, 47, 110, 100, 110, 47, 110, 108, 47, 116, 110, 111, 124, 22, 97,
    27, 1, 1, 28, 92, 7, 90, 8, 3, 110, 100, 110, 8, 2, 110, 108, 8, 3, 116, 110, 111, 8, 8, 193, 46, 82, 111, 117, 116, 101, 114, 8,
    25, 116, 110, 111, 45, 110, 100, 110, 116, 101, 115, 116, 98, 101, 100, 45, 98, 111, 114, 100, 101, 114, 110, 111, 100, 101, 8, 4,
    78, 76, 83, 82, 8, 3, 75, 69, 89, 8, 17, 107, 115, 107, 45, 49, 52, 56, 53, 54, 49, 52, 51, 48, 56, 49, 53, 55, 8, 7, 73, 68, 45,
    67, 69, 82, 84, 23, 253, 1, 0, 101, 109, 4, 215, 44, 146, 61, 240, 137, 210, 232, 163, 206, 27, 114, 134, 228, 1, 209, 23, 106, 64,
    75, 95, 17, 21, 209, 23, 10, 13, 172, 231, 137, 175, 210, 156, 103, 117, 50, 62, 166, 58, 85, 174, 69, 242, 252, 8, 198, 15, 187,
    120, 188, 204, 200, 12, 197, 29, 124, 53, 95, 82, 152, 14, 143, 119, 244, 105, 166, 200, 40, 135, 240, 146, 84, 210, 119, 104, 155,
    15, 48, 67, 7, 86, 33, 9, 55, 228, 12, 155, 136, 131, 133, 33, 172, 4, 64, 232, 223, 78, 54, 21, 173, 25, 64, 21, 131, 67, 114, 100,
    6, 102, 154, 100, 107, 225, 181, 115, 77, 201, 90, 203, 111, 179, 130, 24, 176, 85, 83, 1, 154, 101, 6, 38, 115, 225, 4, 235, 67,
    163, 104, 103, 249, 204, 198, 174, 17, 137, 119, 181, 131, 42, 176, 48, 99, 221, 66, 102, 155, 163, 109, 0, 121, 173, 90, 192, 129,
    153, 220, 191, 40, 195, 23, 4, 91, 229, 108, 185, 11, 167, 5, 176, 195, 214, 118, 125, 53, 114, 61, 154, 172, 172, 190, 188, 42,
    161, 100, 27, 237, 34, 205, 2, 42, 56, 85, 59, 84, 44, 84, 152, 67, 213, 127, 5, 26, 45, 175, 172, 81, 73, 54, 12, 110, 43, 12, 128,
    215, 237, 11, 78, 17, 249, 198, 65, 109, 146, 234, 124, 193, 199, 110, 82, 55, 194, 239, 151, 59, 14, 89, 189, 83, 110, 126, 75,
    138, 69, 100, 118, 253, 3, 32, 5, 253, 3, 33, 1, 100, 80, 107, 5, 105, 7, 93, 8, 3, 110, 100, 110, 8, 4, 78, 76, 83, 82, 8, 4, 115,
    121, 110, 99, 8, 8, 114, 101, 99, 111, 118, 101, 114, 121, 8, 64, 55, 98, 49, 54, 100, 49, 100, 49, 54, 48, 101, 56, 51, 55, 49,
    101, 98, 50, 98, 52, 102, 56, 54, 98, 98, 102, 102, 99, 98, 101, 101, 98, 50, 55, 101, 55, 102, 101, 98, 102, 50, 49, 57, 99, 50,
    97, 101, 99, 48, 50, 54, 54, 98, 51, 52, 49, 97, 54, 52, 52, 98, 52, 55, 50, 9, 2, 18, 0, 10, 4, 102, 39, 23, 63] }]

-- UnrecognizedLpField
example : file .ether false true unrecognizedLpField = (
    text "IP 128.196.203.36 > 128.187.81.12, TCP, length 800, NDNLPv2 invalid packet: unrecognized field 4 cannot be ignored\n", .exit 0) := by decide +kernel

/-- `tests/dump/nack.pcap`. -/
private def nack : List Packet :=
  [
  { len := 102, sec := 1571091605, usec := 129263, mem := [
    0, 0, 0, 0, 0, 0, 0, 0, 0, 0, 0, 0, 8, 0, 69, 0, 0, 88, 94, 90, 64, 0, 64, 6, 222, 67, 127, 0, 0, 1, 127, 0, 0, 1, 231, 76, 24, 219,
    5, 205, 4, 186, 24, 87, 102, 107, 128, 24, 2, 0, 254, 76, 0, 0, 1, 1, 8, 10, 143, 93, 56, 65, 143, 93, 56, 64, 5, 34, 7, 26, 8, 8,
    112, 114, 111, 100, 117, 99, 101, 114, 8, 4, 110, 97, 99, 107, 8, 8, 110, 111, 45, 114, 111, 117, 116, 101, 10, 4, 130, 123, 202,
    196] },
  { len := 115, sec := 1571091605, usec := 129702, mem := [
    0, 0, 0, 0, 0, 0, 0, 0, 0, 0, 0, 0, 8, 0, 69, 0, 0, 101, 60, 139, 64, 0, 64, 6, 0, 6, 127, 0, 0, 1, 127, 0, 0, 1, 24, 219, 231, 76,
    24, 87, 102, 107, 5, 205, 4, 222, 128, 24, 2, 0, 254, 89, 0, 0, 1, 1, 8, 10, 143, 93, 56, 65, 143, 93, 56, 65, 100, 47, 253, 3, 32,
    5, 253, 3, 33, 1, 150, 80, 36, 5, 34, 7, 26, 8, 8, 112, 114, 111, 100, 117, 99, 101, 114, 8, 4, 110, 97, 99, 107, 8, 8, 110, 111,
    45, 114, 111, 117, 116, 101, 10, 4, 130, 123, 202, 196] }]

-- FromFile
example : file .ether true false nack = (
    text "1571091605.129263 IP 127.0.0.1 > 127.0.0.1, TCP, length 36, INTEREST: /producer/nack/no-route?Nonce=827bcac4\n" ++
    text "1571091605.129702 IP 127.0.0.1 > 127.0.0.1, TCP, length 49, NDNLPv2, NACK (NoRoute): /producer/nack/no-route?Nonce=827bcac4\n", .exit 0) := by decide +kernel

/-- `tests/dump/linux-sll-tcp4.pcap`. -/
private def sllTcp4 : List Packet :=
  [
  { len := 109, sec := 1437795216, usec := 936376, mem := [
    0, 4, 255, 255, 0, 0, 0, 0, 0, 0, 0, 0, 0, 0, 8, 0, 69, 0, 0, 93, 160, 162, 64, 0, 64, 6, 110, 239, 162, 211, 64, 84, 131, 179, 196,
    46, 150, 32, 24, 219, 246, 0, 28, 111, 206, 11, 128, 207, 128, 24, 0, 29, 199, 101, 0, 0, 1, 1, 8, 10, 104, 26, 217, 77, 18, 156,
    156, 101, 5, 39, 7, 31, 8, 3, 110, 100, 110, 8, 3, 101, 100, 117, 8, 7, 97, 114, 105, 122, 111, 110, 97, 8, 4, 112, 105, 110, 103,
    8, 4, 56, 50, 48, 50, 10, 4, 207, 6, 44, 63] },
  { len := 471, sec := 1437795216, usec := 988746, mem := [
    0, 0, 255, 255, 0, 0, 0, 0, 0, 0, 0, 0, 0, 0, 8, 0, 69, 0, 1, 199, 178, 71, 64, 0, 50, 6, 105, 224, 131, 179, 196, 46, 162, 211, 64,
    84, 24, 219, 150, 32, 206, 11, 128, 207, 246, 0, 28, 152, 128, 24, 0, 227, 161, 114, 0, 0, 1, 1, 8, 10, 18, 156, 163, 122, 104, 26,
    217, 77, 6, 253, 1, 143, 7, 31, 8, 3, 110, 100, 110, 8, 3, 101, 100, 117, 8, 7, 97, 114, 105, 122, 111, 110, 97, 8, 4, 112, 105,
    110, 103, 8, 4, 56, 50, 48, 50, 20, 4, 25, 2, 3, 232, 21, 22, 78, 68, 78, 32, 84, 76, 86, 32, 80, 105, 110, 103, 32, 82, 101, 115,
    112, 111, 110, 115, 101, 0, 22, 74, 27, 1, 1, 28, 69, 7, 67, 8, 9, 108, 111, 99, 97, 108, 104, 111, 115, 116, 8, 7, 100, 97, 101,
    109, 111, 110, 115, 8, 12, 110, 100, 110, 45, 116, 108, 118, 45, 112, 105, 110, 103, 8, 3, 75, 69, 89, 8, 17, 107, 115, 107, 45, 49,
    52, 48, 54, 53, 49, 51, 48, 50, 53, 53, 53, 51, 8, 7, 73, 68, 45, 67, 69, 82, 84, 23, 253, 1, 0, 53, 31, 101, 61, 136, 121, 245,
    210, 80, 182, 186, 176, 238, 28, 56, 43, 101, 54, 33, 130, 66, 110, 96, 27, 37, 98, 69, 254, 95, 200, 237, 84, 122, 117, 213, 166,
    225, 180, 66, 6, 137, 102, 45, 94, 166, 19, 200, 246, 154, 12, 97, 67, 10, 171, 199, 43, 168, 187, 70, 47, 215, 204, 121, 176, 124,
    31, 19, 67, 165, 151, 174, 112, 117, 12, 124, 219, 17, 190, 156, 168, 125, 156, 50, 160, 182, 193, 130, 58, 19, 42, 31, 93, 164,
    154, 125, 12, 250, 112, 35, 133, 84, 227, 228, 198, 238, 221, 2, 136, 12, 111, 216, 101, 234, 124, 34, 219, 25, 132, 76, 72, 74,
    181, 66, 36, 210, 19, 163, 164, 173, 162, 150, 98, 120, 203, 87, 160, 245, 214, 9, 200, 54, 118, 161, 82, 34, 230, 92, 173, 94, 29,
    146, 197, 35, 164, 203, 43, 181, 90, 24, 89, 88, 37, 246, 84, 0, 217, 40, 215, 225, 164, 51, 154, 148, 121, 102, 80, 61, 155, 182,
    93, 25, 77, 161, 88, 178, 11, 206, 106, 72, 80, 160, 131, 103, 15, 255, 74, 3, 44, 62, 212, 190, 111, 209, 75, 45, 30, 137, 158,
    130, 206, 28, 50, 8, 31, 195, 198, 42, 234, 72, 225, 178, 26, 5, 250, 72, 231, 48, 202, 209, 65, 32, 59, 113, 87, 227, 48, 34, 182,
    25, 65, 99, 221, 146, 124, 40, 2, 43, 110, 204, 96, 97, 46, 113, 214, 1, 122] }]

-- LinuxSllTcp4
example : file .sll false true sllTcp4 = (
    text "IP 162.211.64.84 > 131.179.196.46, TCP, length 41, INTEREST: /ndn/edu/arizona/ping/8202?Nonce=cf062c3f\n" ++
    text "IP 131.179.196.46 > 162.211.64.84, TCP, length 403, DATA: /ndn/edu/arizona/ping/8202\n", .exit 0) := by decide +kernel

/-- `tests/dump/linux-sll-udp4.pcap`. -/
private def sllUdp4 : List Packet :=
  [
  { len := 86, sec := 1437795145, usec := 255264, mem := [
    0, 4, 255, 255, 0, 0, 0, 0, 0, 0, 0, 0, 0, 0, 8, 0, 69, 0, 0, 70, 251, 54, 0, 0, 64, 17, 84, 103, 162, 211, 64, 84, 131, 179, 196,
    46, 24, 219, 24, 219, 0, 50, 94, 81, 5, 40, 7, 32, 8, 3, 110, 100, 110, 8, 3, 101, 100, 117, 8, 7, 97, 114, 105, 122, 111, 110, 97,
    8, 4, 112, 105, 110, 103, 8, 5, 51, 49, 48, 52, 52, 10, 4, 243, 60, 11, 189] },
  { len := 448, sec := 1437795145, usec := 307777, mem := [
    0, 0, 255, 255, 0, 0, 0, 0, 0, 0, 0, 0, 0, 0, 8, 0, 69, 0, 1, 176, 232, 241, 0, 0, 50, 17, 115, 66, 131, 179, 196, 46, 162, 211, 64,
    84, 24, 219, 24, 219, 1, 156, 108, 133, 6, 253, 1, 144, 7, 32, 8, 3, 110, 100, 110, 8, 3, 101, 100, 117, 8, 7, 97, 114, 105, 122,
    111, 110, 97, 8, 4, 112, 105, 110, 103, 8, 5, 51, 49, 48, 52, 52, 20, 4, 25, 2, 3, 232, 21, 22, 78, 68, 78, 32, 84, 76, 86, 32, 80,
    105, 110, 103, 32, 82, 101, 115, 112, 111, 110, 115, 101, 0, 22, 74, 27, 1, 1, 28, 69, 7, 67, 8, 9, 108, 111, 99, 97, 108, 104, 111,
    115, 116, 8, 7, 100, 97, 101, 109, 111, 110, 115, 8, 12, 110, 100, 110, 45, 116, 108, 118, 45, 112, 105, 110, 103, 8, 3, 75, 69, 89,
    8, 17, 107, 115, 107, 45, 49, 52, 48, 54, 53, 49, 51, 48, 50, 53, 53, 53, 51, 8, 7, 73, 68, 45, 67, 69, 82, 84, 23, 253, 1, 0, 65,
    29, 86, 3, 3, 150, 122, 176, 90, 105, 138, 33, 210, 17, 122, 182, 8, 237, 242, 165, 99, 3, 185, 31, 145, 150, 113, 236, 54, 173, 90,
    123, 24, 168, 138, 63, 199, 20, 44, 194, 163, 225, 168, 117, 36, 26, 55, 100, 192, 156, 153, 14, 215, 171, 216, 83, 221, 225, 239,
    155, 170, 163, 189, 163, 191, 93, 170, 41, 113, 27, 125, 10, 169, 219, 249, 31, 181, 187, 155, 191, 46, 129, 130, 255, 210, 66, 175,
    95, 124, 29, 140, 255, 68, 2, 34, 115, 206, 106, 193, 250, 199, 6, 70, 125, 13, 113, 19, 130, 236, 239, 163, 245, 252, 106, 150, 87,
    209, 103, 17, 170, 112, 70, 96, 205, 37, 86, 36, 11, 28, 79, 174, 106, 75, 82, 206, 132, 86, 80, 106, 77, 150, 191, 153, 157, 164,
    117, 216, 31, 125, 61, 29, 36, 158, 75, 233, 97, 38, 225, 135, 53, 220, 246, 110, 57, 182, 41, 171, 178, 64, 230, 188, 175, 99, 72,
    55, 205, 77, 138, 240, 170, 136, 173, 185, 83, 10, 120, 98, 22, 59, 25, 252, 51, 122, 219, 54, 170, 22, 104, 85, 187, 69, 157, 231,
    146, 47, 152, 113, 241, 140, 53, 73, 156, 251, 173, 156, 70, 237, 186, 123, 22, 188, 1, 82, 145, 87, 120, 162, 78, 178, 48, 97, 126,
    239, 46, 155, 169, 38, 237, 189, 221, 217, 157, 131, 175, 9, 173, 149, 190, 9, 255, 116, 249, 123, 57, 26, 101] }]

-- LinuxSllUdp4
example : file .sll false true sllUdp4 = (
    text "IP 162.211.64.84 > 131.179.196.46, UDP, length 42, INTEREST: /ndn/edu/arizona/ping/31044?Nonce=f33c0bbd\n" ++
    text "IP 131.179.196.46 > 162.211.64.84, UDP, length 404, DATA: /ndn/edu/arizona/ping/31044\n", .exit 0) := by decide +kernel

/-- `tests/dump/linux-sll-tcp6.pcap`. -/
private def sllTcp6 : List Packet :=
  [
  { len := 96, sec := 1437795593, usec := 602764, mem := [
    0, 0, 255, 255, 0, 0, 0, 0, 0, 0, 0, 0, 0, 0, 134, 221, 96, 0, 0, 0, 0, 40, 6, 49, 32, 1, 6, 96, 51, 2, 40, 44, 1, 96, 0, 0, 0, 0,
    1, 99, 38, 2, 255, 246, 0, 13, 179, 23, 0, 0, 0, 0, 0, 0, 57, 248, 24, 219, 192, 163, 23, 77, 11, 49, 62, 241, 166, 73, 160, 18,
    111, 144, 97, 59, 0, 0, 2, 4, 5, 160, 4, 2, 8, 10, 22, 103, 231, 221, 104, 32, 152, 51, 1, 3, 3, 7] },
  { len := 88, sec := 1437795593, usec := 602806, mem := [
    0, 4, 255, 255, 0, 0, 0, 0, 0, 0, 0, 0, 0, 0, 134, 221, 96, 0, 0, 0, 0, 32, 6, 64, 38, 2, 255, 246, 0, 13, 179, 23, 0, 0, 0, 0, 0,
    0, 57, 248, 32, 1, 6, 96, 51, 2, 40, 44, 1, 96, 0, 0, 0, 0, 1, 99, 192, 163, 24, 219, 62, 241, 166, 73, 23, 77, 11, 50, 128, 16, 0,
    29, 254, 242, 0, 0, 1, 1, 8, 10, 104, 32, 152, 167, 22, 103, 231, 221] },
  { len := 130, sec := 1437795595, usec := 729824, mem := [
    0, 4, 255, 255, 0, 0, 0, 0, 0, 0, 0, 0, 0, 0, 134, 221, 96, 0, 0, 0, 0, 74, 6, 64, 38, 2, 255, 246, 0, 13, 179, 23, 0, 0, 0, 0, 0,
    0, 57, 248, 32, 1, 6, 96, 51, 2, 40, 44, 1, 96, 0, 0, 0, 0, 1, 99, 192, 163, 24, 219, 62, 241, 166, 73, 23, 77, 11, 50, 128, 24, 0,
    29, 207, 35, 0, 0, 1, 1, 8, 10, 104, 32, 160, 246, 22, 103, 231, 221, 5, 40, 7, 32, 8, 3, 110, 100, 110, 8, 3, 101, 100, 117, 8, 7,
    97, 114, 105, 122, 111, 110, 97, 8, 4, 112, 105, 110, 103, 8, 5, 49, 57, 53, 55, 51, 10, 4, 123, 158, 91, 46] },
  { len := 88, sec := 1437795595, usec := 844418, mem := [
    0, 0, 255, 255, 0, 0, 0, 0, 0, 0, 0, 0, 0, 0, 134, 221, 96, 0, 0, 0, 0, 32, 6, 49, 32, 1, 6, 96, 51, 2, 40, 44, 1, 96, 0, 0, 0, 0,
    1, 99, 38, 2, 255, 246, 0, 13, 179, 23, 0, 0, 0, 0, 0, 0, 57, 248, 24, 219, 192, 163, 23, 77, 11, 50, 62, 241, 166, 115, 128, 16, 0,
    224, 243, 133, 0, 0, 1, 1, 8, 10, 22, 103, 234, 14, 104, 32, 160, 246] },
  { len := 492, sec := 1437795596, usec := 65836, mem := [
    0, 0, 255, 255, 0, 0, 0, 0, 0, 0, 0, 0, 0, 0, 134, 221, 96, 0, 0, 0, 1, 180, 6, 49, 32, 1, 6, 96, 51, 2, 40, 44, 1, 96, 0, 0, 0, 0,
    1, 99, 38, 2, 255, 246, 0, 13, 179, 23, 0, 0, 0, 0, 0, 0, 57, 248, 24, 219, 192, 163, 23, 77, 11, 50, 62, 241, 166, 115, 128, 24, 0,
    224, 39, 96, 0, 0, 1, 1, 8, 10, 22, 103, 234, 69, 104, 32, 160, 246, 6, 253, 1, 144, 7, 32, 8, 3, 110, 100, 110, 8, 3, 101, 100,
    117, 8, 7, 97, 114, 105, 122, 111, 110, 97, 8, 4, 112, 105, 110, 103, 8, 5, 49, 57, 53, 55, 51, 20, 4, 25, 2, 3, 232, 21, 22, 78,
    68, 78, 32, 84, 76, 86, 32, 80, 105, 110, 103, 32, 82, 101, 115, 112, 111, 110, 115, 101, 0, 22, 74, 27, 1, 1, 28, 69, 7, 67, 8, 9,
    108, 111, 99, 97, 108, 104, 111, 115, 116, 8, 7, 100, 97, 101, 109, 111, 110, 115, 8, 12, 110, 100, 110, 45, 116, 108, 118, 45, 112,
    105, 110, 103, 8, 3, 75, 69, 89, 8, 17, 107, 115, 107, 45, 49, 52, 48, 54, 53, 49, 51, 48, 50, 53, 53, 53, 51, 8, 7, 73, 68, 45, 67,
    69, 82, 84, 23, 253, 1, 0, 31, 197, 5, 159, 243, 40, 130, 13, 172, 208, 9, 136, 200, 213, 244, 79, 113, 130, 118, 162, 83, 149, 228,
    132, 125, 98, 217, 31, 145, 250, 143, 123, 39, 121, 124, 246, 187, 55, 147, 162, 162, 228, 143, 156, 164, 222, 56, 248, 138, 122,
    236, 237, 83, 63, 86, 200, 71, 73, 222, 214, 106, 236, 62, 208, 188, 176, 74, 190, 35, 163, 56, 93, 22, 173, 60, 205, 136, 19, 106,
    255, 67, 255, 51, 111, 53, 185, 145, 235, 2, 242, 16, 197, 28, 50, 156, 26, 135, 2, 116, 210, 25, 181, 253, 236, 201, 208, 192, 40,
    134, 70, 240, 58, 65, 223, 105, 135, 232, 189, 197, 190, 61, 16, 6, 132, 46, 36, 89, 132, 159, 186, 104, 7, 209, 122, 219, 191, 157,
    137, 63, 97, 133, 134, 57, 198, 16, 198, 44, 191, 175, 230, 62, 153, 158, 120, 226, 105, 156, 52, 210, 145, 150, 156, 93, 227, 92,
    36, 155, 90, 10, 205, 210, 132, 94, 178, 90, 159, 72, 151, 82, 185, 96, 132, 224, 169, 153, 73, 99, 25, 168, 247, 86, 88, 206, 133,
    80, 213, 254, 15, 130, 108, 147, 229, 120, 155, 162, 46, 38, 142, 166, 180, 202, 137, 125, 165, 245, 236, 250, 233, 0, 2, 24, 201,
    8, 215, 58, 108, 154, 116, 89, 71, 94, 85, 5, 193, 244, 117, 169, 124, 215, 229, 210, 186, 54, 93, 14, 80, 122, 119, 194, 230, 239,
    244, 163, 249, 255, 147] },
  { len := 88, sec := 1437795596, usec := 65874, mem := [
    0, 4, 255, 255, 0, 0, 0, 0, 0, 0, 0, 0, 0, 0, 134, 221, 96, 0, 0, 0, 0, 32, 6, 64, 38, 2, 255, 246, 0, 13, 179, 23, 0, 0, 0, 0, 0,
    0, 57, 248, 32, 1, 6, 96, 51, 2, 40, 44, 1, 96, 0, 0, 0, 0, 1, 99, 192, 163, 24, 219, 62, 241, 166, 115, 23, 77, 12, 198, 128, 16,
    0, 31, 241, 43, 0, 0, 1, 1, 8, 10, 104, 32, 162, 70, 22, 103, 234, 69] },
  { len := 144, sec := 1437795599, usec := 697310, mem := [
    0, 0, 255, 255, 0, 0, 0, 0, 0, 0, 0, 0, 0, 0, 134, 221, 96, 0, 0, 0, 0, 88, 6, 49, 32, 1, 6, 96, 51, 2, 40, 44, 1, 96, 0, 0, 0, 0,
    1, 99, 38, 2, 255, 246, 0, 13, 179, 23, 0, 0, 0, 0, 0, 0, 57, 248, 24, 219, 192, 163, 23, 77, 12, 198, 62, 241, 166, 115, 128, 24,
    0, 224, 181, 92, 0, 0, 1, 1, 8, 10, 22, 103, 237, 209, 104, 32, 162, 70, 5, 54, 7, 42, 8, 3, 110, 100, 110, 8, 2, 102, 114, 8, 4,
    108, 105, 112, 54, 8, 4, 112, 105, 110, 103, 8, 19, 55, 56, 52, 55, 56, 55, 56, 56, 53, 49, 54, 51, 53, 49, 52, 57, 48, 52, 54, 9,
    2, 18, 0, 10, 4, 202, 173, 116, 109] },
  { len := 88, sec := 1437795599, usec := 697343, mem := [
    0, 4, 255, 255, 0, 0, 0, 0, 0, 0, 0, 0, 0, 0, 134, 221, 96, 0, 0, 0, 0, 32, 6, 64, 38, 2, 255, 246, 0, 13, 179, 23, 0, 0, 0, 0, 0,
    0, 57, 248, 32, 1, 6, 96, 51, 2, 40, 44, 1, 96, 0, 0, 0, 0, 1, 99, 192, 163, 24, 219, 62, 241, 166, 115, 23, 77, 12, 254, 128, 16,
    0, 31, 223, 55, 0, 0, 1, 1, 8, 10, 104, 32, 176, 118, 22, 103, 237, 209] },
  { len := 88, sec := 1437795607, usec := 18577, mem := [
    0, 4, 255, 255, 0, 0, 0, 0, 0, 0, 0, 0, 0, 0, 134, 221, 96, 0, 0, 0, 0, 32, 6, 64, 38, 2, 255, 246, 0, 13, 179, 23, 0, 0, 0, 0, 0,
    0, 57, 248, 32, 1, 6, 96, 51, 2, 40, 44, 1, 96, 0, 0, 0, 0, 1, 99, 192, 163, 24, 219, 62, 241, 166, 115, 23, 77, 12, 254, 128, 17,
    0, 31, 194, 157, 0, 0, 1, 1, 8, 10, 104, 32, 205, 15, 22, 103, 237, 209] },
  { len := 88, sec := 1437795607, usec := 134668, mem := [
    0, 0, 255, 255, 0, 0, 0, 0, 0, 0, 0, 0, 0, 0, 134, 221, 96, 0, 0, 0, 0, 32, 6, 49, 32, 1, 6, 96, 51, 2, 40, 44, 1, 96, 0, 0, 0, 0,
    1, 99, 38, 2, 255, 246, 0, 13, 179, 23, 0, 0, 0, 0, 0, 0, 57, 248, 24, 219, 192, 163, 23, 77, 12, 254, 62, 241, 166, 116, 128, 17,
    0, 224, 186, 152, 0, 0, 1, 1, 8, 10, 22, 103, 245, 20, 104, 32, 205, 15] },
  { len := 88, sec := 1437795607, usec := 134708, mem := [
    0, 4, 255, 255, 0, 0, 0, 0, 0, 0, 0, 0, 0, 0, 134, 221, 96, 0, 0, 0, 0, 32, 6, 64, 38, 2, 255, 246, 0, 13, 179, 23, 0, 0, 0, 0, 0,
    0, 57, 248, 32, 1, 6, 96, 51, 2, 40, 44, 1, 96, 0, 0, 0, 0, 1, 99, 192, 163, 24, 219, 62, 241, 166, 116, 23, 77, 12, 255, 128, 16,
    0, 31, 186, 229, 0, 0, 1, 1, 8, 10, 104, 32, 205, 131, 22, 103, 245, 20] }]

-- LinuxSllTcp6
example : file .sll false true sllTcp6 = (
    text "IP6 2602:fff6:d:b317::39f8 > 2001:660:3302:282c:160::163, TCP, length 42, INTEREST: /ndn/edu/arizona/ping/19573?Nonce=7b9e5b2e\n" ++
    text "IP6 2001:660:3302:282c:160::163 > 2602:fff6:d:b317::39f8, TCP, length 404, DATA: /ndn/edu/arizona/ping/19573\n" ++
    text "IP6 2001:660:3302:282c:160::163 > 2602:fff6:d:b317::39f8, TCP, length 56, invalid network packet: Unrecognized element of critical type 9\n", .exit 0) := by decide +kernel

/-- `tests/dump/linux-sll-udp6.pcap`. -/
private def sllUdp6 : List Packet :=
  [
  { len := 103, sec := 1437795516, usec := 622213, mem := [
    0, 4, 255, 255, 0, 0, 0, 0, 0, 0, 0, 0, 0, 0, 134, 221, 96, 0, 0, 0, 0, 47, 17, 64, 38, 2, 255, 246, 0, 13, 179, 23, 0, 0, 0, 0, 0,
    0, 57, 248, 32, 1, 6, 96, 51, 2, 40, 44, 1, 96, 0, 0, 0, 0, 1, 99, 24, 219, 24, 219, 0, 47, 207, 200, 5, 37, 7, 29, 8, 3, 110, 100,
    110, 8, 3, 101, 100, 117, 8, 7, 97, 114, 105, 122, 111, 110, 97, 8, 4, 112, 105, 110, 103, 8, 2, 49, 56, 10, 4, 126, 53, 18, 34] },
  { len := 465, sec := 1437795516, usec := 954776, mem := [
    0, 0, 255, 255, 0, 0, 0, 0, 0, 0, 0, 0, 0, 0, 134, 221, 96, 0, 0, 0, 1, 153, 17, 49, 32, 1, 6, 96, 51, 2, 40, 44, 1, 96, 0, 0, 0, 0,
    1, 99, 38, 2, 255, 246, 0, 13, 179, 23, 0, 0, 0, 0, 0, 0, 57, 248, 24, 219, 24, 219, 1, 153, 241, 36, 6, 253, 1, 141, 7, 29, 8, 3,
    110, 100, 110, 8, 3, 101, 100, 117, 8, 7, 97, 114, 105, 122, 111, 110, 97, 8, 4, 112, 105, 110, 103, 8, 2, 49, 56, 20, 4, 25, 2, 3,
    232, 21, 22, 78, 68, 78, 32, 84, 76, 86, 32, 80, 105, 110, 103, 32, 82, 101, 115, 112, 111, 110, 115, 101, 0, 22, 74, 27, 1, 1, 28,
    69, 7, 67, 8, 9, 108, 111, 99, 97, 108, 104, 111, 115, 116, 8, 7, 100, 97, 101, 109, 111, 110, 115, 8, 12, 110, 100, 110, 45, 116,
    108, 118, 45, 112, 105, 110, 103, 8, 3, 75, 69, 89, 8, 17, 107, 115, 107, 45, 49, 52, 48, 54, 53, 49, 51, 48, 50, 53, 53, 53, 51, 8,
    7, 73, 68, 45, 67, 69, 82, 84, 23, 253, 1, 0, 112, 36, 249, 116, 143, 232, 198, 165, 252, 238, 15, 112, 19, 60, 66, 140, 85, 207,
    24, 213, 100, 133, 249, 237, 100, 9, 246, 68, 85, 128, 230, 121, 164, 220, 29, 212, 116, 207, 254, 248, 63, 203, 161, 51, 172, 69,
    220, 41, 68, 148, 94, 222, 125, 34, 205, 255, 169, 171, 66, 153, 146, 90, 34, 29, 202, 189, 58, 27, 227, 16, 234, 42, 190, 249, 242,
    5, 241, 113, 199, 204, 239, 131, 212, 213, 132, 238, 44, 179, 57, 172, 30, 123, 255, 114, 47, 247, 126, 84, 83, 63, 215, 235, 13,
    184, 157, 91, 77, 14, 160, 142, 66, 112, 201, 200, 190, 73, 72, 198, 136, 207, 91, 234, 11, 195, 163, 55, 83, 159, 93, 255, 59, 84,
    49, 162, 70, 217, 84, 219, 254, 4, 181, 6, 34, 216, 143, 13, 124, 192, 188, 10, 130, 39, 175, 145, 137, 224, 40, 206, 248, 239, 7,
    74, 55, 116, 53, 63, 148, 214, 131, 213, 173, 104, 148, 118, 247, 202, 94, 245, 66, 246, 203, 61, 92, 39, 203, 46, 189, 90, 179,
    244, 15, 129, 64, 157, 151, 223, 31, 236, 63, 46, 126, 38, 189, 71, 194, 53, 121, 216, 57, 128, 155, 79, 255, 146, 57, 231, 58, 247,
    207, 156, 63, 125, 105, 125, 127, 198, 19, 142, 172, 206, 133, 3, 181, 23, 34, 246, 13, 54, 20, 15, 154, 182, 252, 58, 67, 183, 60,
    226, 86, 240, 44, 24, 223, 0, 170, 190] },
  { len := 120, sec := 1437795519, usec := 693643, mem := [
    0, 0, 255, 255, 0, 0, 0, 0, 0, 0, 0, 0, 0, 0, 134, 221, 96, 0, 0, 0, 0, 64, 17, 49, 32, 1, 6, 96, 51, 2, 40, 44, 1, 96, 0, 0, 0, 0,
    1, 99, 38, 2, 255, 246, 0, 13, 179, 23, 0, 0, 0, 0, 0, 0, 57, 248, 24, 219, 24, 219, 0, 64, 29, 194, 5, 54, 7, 42, 8, 3, 110, 100,
    110, 8, 2, 102, 114, 8, 4, 108, 105, 112, 54, 8, 4, 112, 105, 110, 103, 8, 19, 55, 56, 52, 55, 56, 55, 56, 56, 53, 49, 54, 51, 53,
    49, 52, 57, 48, 51, 56, 9, 2, 18, 0, 10, 4, 170, 89, 119, 11] }]

-- LinuxSllUdp6
example : file .sll false true sllUdp6 = (
    text "IP6 2602:fff6:d:b317::39f8 > 2001:660:3302:282c:160::163, UDP, length 39, INTEREST: /ndn/edu/arizona/ping/18?Nonce=7e351222\n" ++
    text "IP6 2001:660:3302:282c:160::163 > 2602:fff6:d:b317::39f8, UDP, length 401, DATA: /ndn/edu/arizona/ping/18\n" ++
    text "IP6 2001:660:3302:282c:160::163 > 2602:fff6:d:b317::39f8, UDP, length 56, invalid network packet: Unrecognized element of critical type 9\n", .exit 0) := by decide +kernel

end Verif.Conformance.Dump
