import Verif.Model.WiresharkText

/-!
# The test captures of the Wireshark dissector, on the model

`tests/dissect-wireshark/README.md` tells what the dissector should show for the captures in that directory. Here is what the model shows,
for the NDN packets in these captures. These are tests of the model, not proofs. Headers of lower layers were taken off, and fragments and
segments joined, as Wireshark does it. Left out are most of the packets of more than two hundred bytes (the kernel takes long for them), the WebSocket and IPv6 captures
and `ndnlpv2-more.pcap` (random packets).

Three expectations of the README do not agree with the code, and the model follows the code: `multi3`, `lp10`, and the names in `uri`.
-/

namespace Verif.Conformance.Wireshark

open Verif.Wireshark

private def digit (c : Char) : Nat := if c.toNat < 58 then c.toNat - 48 else c.toNat - 87

private def pairs : List Char → Bytes
  | a :: b :: l => UInt8.ofNat (digit a * 16 + digit b) :: pairs l
  | _ => []

private def hex (s : String) : Bytes := pairs s.toList

/-- The packets that are shown and the columns, if there is no error. -/
private def ok (b : Bytes) : Option (List Tree × Cols) :=
  match dissector b b.length with
  | .done shown cols none => some (shown, cols)
  | _ => none

private def only (b : Bytes) : Option Tree :=
  match ok b with
  | some ([t], _) => some t
  | _ => none

/-- The column "Info". -/
private def info (b : Bytes) : Option (String × Bytes) := (ok b).map fun r => (r.2.type, r.2.name)

/-- The name of the element and its text. -/
private def label (t : Tree) : Option Bytes × Option Bytes := ((lookup t.block).map fun i => ascii i.name, t.shownText)

private def labels (t : Option Tree) : List (Option Bytes × Option Bytes) := (t.map (·.elements)).getD [] |>.map label

private def a (n v : String) : Option Bytes × Option Bytes := (some (ascii n), some (ascii v))

/-- An element without a text of its own. -/
private def e (n : String) : Option Bytes × Option Bytes := (some (ascii n), none)

private def child (t : Option Tree) (n : Nat) : Option Tree := t.bind fun t => t.elements[n]?

/-! ## 1. ipv4-udp-fragmented.pcap -/

private def udp1 : Bytes := hex "0574076408036e646e080962726f61646361737408106e646e7274632d63686174726f6f6d73084032333636643331306231356261393761363263383733346434613736303137346637386431343434366265336437306135346565383064336564313963383362090212000a04cb1beadf0c0207d0"

example : info udp1 = some ("Interest", ascii "/ndn/broadcast/ndnrtc-chatrooms/2366d310b15ba97a62c8734d4a760174f78d14446be3d70a54ee80d3ed19c83b") := by decide +kernel

/-! ## 3. ipv4-tcp-segmented.pcap, ipv4-tcp-multi-ndn-packets-in-segment.pcap -/

private def seg2 : Bytes := hex "051d071508076578616d706c650807746573744170700801340a04a90e4ecd"
private def multi1 : Bytes := hex "0535072d08076578616d706c65080774657374417070080a72616e646f6d446174610809fd0000014f23e43664080200010a04b652665b"
private def multi3 : Bytes := hex "0535072d08076578616d706c65080774657374417070080a72616e646f6d446174610809fd0000014f23e43665080200020a0464bb17410535072d08076578616d706c65080774657374417070080a72616e646f6d446174610809fd0000014f23e43665080200030a049e74da3d"

example : (info seg2).map (·.1) = some "Interest" := by decide +kernel
example : (ok multi1).map (fun r => r.1.map (·.block.type)) = some [5] := by decide +kernel

/-- The packets that are shown before an error. -/
private def beforeError (b : Bytes) : Option (List Nat × Err) :=
  match dissector b b.length with
  | .error shown e => some (shown.map (·.block.type), e)
  | _ => none

/-- The README expects all Interests from packet 3 (here: the first two of four). The code shows one and ends with an error, as C69 says. -/
example : beforeError multi3 = some ([5], .nilIndex) := by decide +kernel

/-! ## 7. ethernet.pcap: an Interest inside of another format -/

private def eth6 : Bytes := hex "502751080000000000000001541b05190711080568656c6c6f0805776f726c640801210a04e01ca3130000000000"

example : (info eth6).map (·.1) = some "Interest" := by decide +kernel

/-! ## 9. ndnlpv2.pcap -/

private def lp1 : Bytes := hex "642055005600570058005900600061006300fd032400fd032500fd032600fd032700"
private def lp2 : Bytes := hex "64195301025108b0b1b2b3b4b5b6005007050b0703080141520100"
private def lp3 : Bytes := hex "64195108b0b1b2b3b4b5b6005201005301025007050b0703080141"
private def lp4 : Bytes := hex "64185108b0b1b2b3b4b5b60152010153010250060a04a0a1a2a3"
private def lp5 : Bytes := hex "6418fd032005fd03210132500d050b07030801410a04a0a1a2a3"
private def lp6 : Bytes := hex "6418fd032005fd03210164500d050b07030801410a04a0a1a2a3"
private def lp7 : Bytes := hex "6418fd032005fd03210196500d050b07030801410a04a0a1a2a3"
private def lp8 : Bytes := hex "6418fd032005fd03210101500d050b07030801410a04a0a1a2a3"
private def lp9 : Bytes := hex "6413fd032000500d050b07030801410a04a0a1a2a3"
private def lp10 : Bytes := hex "64196208d0d1d2d3d4d5d6d7500d050b07030801410a04a0a1a2a3"
private def lp11 : Bytes := hex "643efd03400101fd034808e0e1e2e3e4e5e6e7502b0629070016031b01001720612a79399e60304a9f701c1ecac7956bf2f1b046e6c6f0d6c29b3fe3a29bad76"
private def lp12 : Bytes := hex "6460fd034408e0e1e2e3e4e5e600fd034408e0e1e2e3e4e5e601fd034408e0e1e2e3e4e5e602fd034408e0e1e2e3e4e5e603fd034408e0e1e2e3e4e5e604fd034408e0e1e2e3e4e5e605fd034408e0e1e2e3e4e5e606fd034408e0e1e2e3e4e5e607"

/-- The value of an element that the dissector does not know. -/
private def unknown (t : Tree) : Option (String × Nat) := match t.value with | some (.generic l type _) => some (l, type) | _ => none

example : (((only lp1).map (·.elements)).getD []).map unknown =
    [some ("Unrecognized from the reserved range 0-100", 85), some ("Unrecognized from the reserved range 0-100", 86),
     some ("Unrecognized from the reserved range 0-100", 87), some ("Unrecognized from the reserved range 0-100", 88),
     some ("Unrecognized from the reserved range 0-100", 89), some ("Unrecognized from the reserved range 0-100", 96),
     some ("Unrecognized from the reserved range 0-100", 97), some ("Unrecognized from the reserved range 0-100", 99),
     some ("Unknown field", 804), some ("Unknown field (ignored)", 805), some ("Unknown field", 806),
     some ("Unknown field (ignored)", 807)] := by decide +kernel
example : (only lp2).isSome = true := by decide +kernel
example : labels (only lp3) = [a "Sequence" "12732154106453800448", a "FragIndex" "0", a "FragCount" "2", e "Fragment"] := by decide +kernel
example : labels (only lp4) = [a "Sequence" "12732154106453800449", a "FragIndex" "1", a "FragCount" "2", e "Fragment"] := by decide +kernel
example : labels (child (only lp5) 0) = [a "NackReason" "Congestion"] ∧ info lp5 = some ("Nack", ascii "/A") := by decide +kernel
example : labels (child (only lp6) 0) = [a "NackReason" "Duplicate"] := by decide +kernel
example : labels (child (only lp7) 0) = [a "NackReason" "NoRoute"] := by decide +kernel
example : labels (child (only lp8) 0) = [a "NackReason" "1"] := by decide +kernel
example : (child (only lp9) 0).map label = some (e "Nack") ∧ labels (child (only lp9) 0) = [] := by decide +kernel
/-- The README expects "PitToken: 15047039637272254167", but the field is made of bytes (ndn.lua:232), without a text. -/
example : (child (only lp10) 0).map (fun t => (label t, t.block.offset, t.block.length)) = some (e "PitToken", 2, 8) := by decide +kernel
example : (labels (only lp11)).take 2 = [a "CongestionMark" "1", a "TxSequence" "16204482402681480935"] := by decide +kernel
example : labels (only lp12) =
    [a "Ack" "16204482402681480704", a "Ack" "16204482402681480705", a "Ack" "16204482402681480706", a "Ack" "16204482402681480707",
     a "Ack" "16204482402681480708", a "Ack" "16204482402681480709", a "Ack" "16204482402681480710", a "Ack" "16204482402681480711"] := by
  decide +kernel

/-! ## 11. packet03.pcap -/

private def pkt1 : Bytes := hex "05290703080149210012001e0b1f091e023e1507030801480a044acb1e4c0c0276a12201d62404c0c1c2c3"
private def pkt2 : Bytes := hex "05400738020141070142080143fc0144fd01000145fdffff01450120ee357c5791dcaa4494d9b301047b875d8833caa76dada3e95837bbc3eaf7b3000a044acb1e4c"
private def pkt3 : Bytes := hex "0629070016031b01001720612a79399e60304a9f701c1ecac7956bf2f1b046e6c6f0d6c29b3fe3a29bad76"

example : (info pkt1).map (·.1) = some "Interest" ∧
    ∀ l ∈ [a "CanBePrefix" "Yes", a "MustBeFresh" "Yes", a "HopLimit" "214"], l ∈ labels (only pkt1) := by decide +kernel
example : some (ascii "ForwardingHint") ∈ (labels (only pkt1)).map (·.1) ∧ some (ascii "ApplicationParameters") ∈ (labels (only pkt1)).map (·.1) := by
  decide +kernel
example : info pkt2 = some ("Interest", ascii
    "/params-sha256=41/7=B/C/252=D/256=E/65535=E/sha256digest=ee357c5791dcaa4494d9b301047b875d8833caa76dada3e95837bbc3eaf7b300") := by
  decide +kernel
example : info pkt3 = some ("Data", ascii "/") := by decide +kernel

/-! ## 12. nameuri.pcap -/

private def uri : Bytes := hex "064f071f080008012e08022e2e08022e410810202122232425262728292a2b2c2d2e2f14051a0308010216031b01001720612a79399e60304a9f701c1ecac7956bf2f1b046e6c6f0d6c29b3fe3a29bad76"

/-- The components of the name, and FinalBlockId and its component. -/
private def uriView (t : Tree) : List (Option Bytes × Option Bytes) :=
  labels (child (some t) 0) ++ labels (child (some t) 1) ++ labels (child (child (some t) 1) 0)

/-- The README calls them `NameComponent`. Of the four components that list all bytes, sixteen bytes are kept. -/
example : (only uri).map uriView = some
    [a "GenericNameComponent" "...",
     a "GenericNameComponent" "....",
     a "GenericNameComponent" ".....",
     a "GenericNameComponent" ".A",
     a "GenericNameComponent" "%20%21%22%23%24%25%26%27%28%29%2A%2B%2C-.%2F",
     a "FinalBlockId" "%02", a "GenericNameComponent" "%02"] := by decide +kernel

/-! ## 13. ppp.pcap -/

private def ppp1 : Bytes := hex "641f540100501a0518070c08067072656669780802fe000a04793e08d10c0207d0"
private def ppp2 : Bytes := hex "641f540101501a0518070c08067072656669780802fe000a04793e08d10c0207d0"
private def ppp5 : Bytes := hex "641f540100501a0518070c08067072656669780802fe010a04ea3f5a9b0c0207d0"
private def ppp6 : Bytes := hex "641f540101501a0518070c08067072656669780802fe010a04ea3f5a9b0c0207d0"

/-- A packet in the fragment of an LpPacket. -/
private def inFragment (b : Bytes) : Option (Nat × List Nat) :=
  (only b).bind fun t => (t.elements.find? (·.block.is 80)).map fun f => (t.block.type, f.elements.map (·.block.type))

example : [ppp1, ppp2, ppp5, ppp6].map inFragment = List.replicate 4 (some (100, [5])) := by decide +kernel

end Verif.Conformance.Wireshark
