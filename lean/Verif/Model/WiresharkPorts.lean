import Verif.Model.Basic

/-!
# Where the Wireshark dissector is registered

tools/dissect-wireshark/ndn.lua:531-546. `DissectorTable:add` with a text registers a range of numbers, with a number this one. Wireshark
hands the payload over to the dissector that is registered for one of the two ports, for the Ethernet type (also of a Linux cooked
capture) or for the protocol of PPP. Simplified: no other dissector is registered for the other port.
-/

namespace Verif.Wireshark

/-- The tables of Wireshark in which the dissector is registered. -/
inductive Table
  | udpPort
  | tcpPort
  | wsPort
  | ethertype
  | pppProtocol
  deriving DecidableEq, Repr

/-- ndn.lua:531-546: the table, and the least and the greatest number. -/
def registrations : List (Table × Nat × Nat) :=
  [(.udpPort, 6363, 6363), (.udpPort, 56363, 56363), (.tcpPort, 6363, 6363), (.wsPort, 1, 65535), (.ethertype, 0x8624, 0x8624),
   (.pppProtocol, 0x0077, 0x0077)]

/-- The dissector is registered for the number. -/
def registered (t : Table) (n : Nat) : Bool := registrations.any fun r => r.1 == t && decide (r.2.1 ≤ n) && decide (n ≤ r.2.2)

/-- What carries the bytes that are to be dissected. -/
inductive Carrier
  | udp (sport dport : Nat)
  | tcp (sport dport : Nat)
  | websocket (sport dport : Nat)
  | ethernet (type : Nat)
  | ppp (protocol : Nat)
  deriving DecidableEq, Repr

/-- The bytes are given to the dissector. -/
def Carrier.dissected : Carrier → Bool
  | .udp s d => registered .udpPort s || registered .udpPort d
  | .tcp s d => registered .tcpPort s || registered .tcpPort d
  | .websocket s d => registered .wsPort s || registered .wsPort d
  | .ethernet t => registered .ethertype t
  | .ppp p => registered .pppProtocol p

end Verif.Wireshark
