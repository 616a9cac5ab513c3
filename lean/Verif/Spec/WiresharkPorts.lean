import Verif.Model.WiresharkPorts
import Verif.Spec.DumpRun

/-! # The carriers of NDN that the documentation of the dissector lists -/

namespace Verif.Wireshark.Spec

/-- tools/dissect-wireshark/README.md:5-18. -/
inductive Documented : Carrier → Prop
  | udp (s d) : s = 6363 ∨ d = 6363 ∨ s = 56363 ∨ d = 56363 → Documented (.udp s d)
  | tcp (s d) : s = 6363 ∨ d = 6363 → Documented (.tcp s d)
  | websocket (s d) : s = 9696 ∨ d = 9696 → Documented (.websocket s d)
  | ethernet : Documented (.ethernet 0x8624)
  | ppp : Documented (.ppp 0x0077)

open Dump Dump.Spec DumpRun.Spec

/-- The frame has this carrier: an Ethernet type that is not one of IP, in a frame of Ethernet or of a Linux cooked capture; UDP or
TCP in IP; or a protocol of PPP in two bytes after Address and Control (RFC 1662). -/
inductive IsCarrier : Link → Bytes → Carrier → Prop
  | ethernet (link t mem) : t < 2 ^ 16 → t ≠ 0x0800 → t ≠ 0x86DD → Carries link t mem → IsCarrier link mem (.ethernet t)
  | udp (link s d mem) : s < 2 ^ 16 → d < 2 ^ 16 → CarriesIp link .udp s d mem → IsCarrier link mem (.udp s d)
  | tcp (link s d mem) : s < 2 ^ 16 → d < 2 ^ 16 → CarriesIp link .tcp s d mem → IsCarrier link mem (.tcp s d)
  | ppp (p rest) : p < 2 ^ 16 → p ≠ 0x0021 → p ≠ 0x0057 → IsCarrier .ppp ([0xff, 0x03] ++ be16 p ++ rest) (.ppp p)

end Verif.Wireshark.Spec
