import Verif.Model.Dump
import Verif.Spec.Tlv

/-!
# Specification for ndndump

How NDN packets are carried in frames (RFC 791, 8200, 768, 9293 and the link types of libpcap), what a packet is about,
and how a line looks.
-/

namespace Verif.Dump.Spec

/-- A number in two bytes, network byte order. -/
def be16 (n : Nat) : Bytes := beBytes 2 n

/-- A frame header of the link layer, which says that something of type `t` follows. -/
inductive IsLinkHeader (t : Nat) : Link → Bytes → Prop
  | ether (mac : Bytes) : mac.length = 12 → IsLinkHeader t .ether (mac ++ be16 t)
  | sll (pre : Bytes) : pre.length = 14 → IsLinkHeader t .sll (pre ++ be16 t)

/-- A frame header of PPP that says that NDN follows: with or without Address and Control, with a protocol field of one
or two bytes, and the two additional bytes that ndnSIM writes. -/
def IsPppHeader (h : Bytes) : Prop :=
  ∃ framing proto extra : Bytes, h = framing ++ proto ++ extra ∧
    (framing = [] ∨ framing = [0xff, 0x03]) ∧ (proto = [0x77] ∨ proto = [0x00, 0x77]) ∧ extra.length = 2

/-- An IPv4 header: `total` is the length of the packet that it tells. -/
def IsIp4Header (h src dst : Bytes) (proto : UInt8) (total : Nat) : Prop :=
  ∃ (tos : UInt8) (mid sum opts : Bytes),
    h = UInt8.ofNat (0x40 + h.length / 4) :: tos :: be16 total ++ mid ++ [proto] ++ sum ++ src ++ dst ++ opts ∧
    mid.length = 5 ∧ sum.length = 2 ∧ src.length = 4 ∧ dst.length = 4 ∧ h.length % 4 = 0 ∧ h.length ≤ 60 ∧ total < 2 ^ 16

/-- An IPv6 header: `plen` is the length of the payload that it tells. -/
def IsIp6Header (h src dst : Bytes) (proto : UInt8) (plen : Nat) : Prop :=
  ∃ (low hop : UInt8) (flow : Bytes),
    h = UInt8.ofNat (0x60 + low.toNat % 16) :: flow ++ be16 plen ++ [proto, hop] ++ src ++ dst ∧
    flow.length = 3 ∧ src.length = 16 ∧ dst.length = 16 ∧ plen < 2 ^ 16

/-- A UDP header: `ulen` is the length of header and payload that it tells. -/
def IsUdpHeader (h : Bytes) (ulen : Nat) : Prop :=
  ∃ ports sum : Bytes, h = ports ++ be16 ulen ++ sum ∧ ports.length = 4 ∧ sum.length = 2 ∧ ulen < 2 ^ 16

/-- A TCP header, which tells its own length. -/
def IsTcpHeader (h : Bytes) : Prop :=
  ∃ (a b : Bytes) (low : UInt8),
    h = a ++ UInt8.ofNat (h.length / 4 * 16 + low.toNat % 16) :: b ∧
    a.length = 12 ∧ 20 ≤ h.length ∧ h.length % 4 = 0 ∧ h.length ≤ 60

inductive Transport
  | udp
  | tcp
  deriving DecidableEq, Repr

def Transport.proto : Transport → UInt8
  | .udp => 17
  | .tcp => 6

/-- An address of IPv4 or IPv6. -/
inductive IpVersion
  | v4
  | v6
  deriving DecidableEq, Repr

def IpVersion.etherType : IpVersion → Nat
  | .v4 => 0x0800
  | .v6 => 0x86DD

/-- An IP header and the number of bytes that, as it tells, follow it in the packet. -/
def IsIpHeader (h src dst : Bytes) (proto : UInt8) (following : Nat) : IpVersion → Prop
  | .v4 => IsIp4Header h src dst proto (h.length + following)
  | .v6 => IsIp6Header h src dst proto following

/-- A transport header before a payload of `n` bytes. -/
def IsTransportHeader (h : Bytes) (n : Nat) : Transport → Prop
  | .udp => IsUdpHeader h (8 + n)
  | .tcp => IsTcpHeader h

/-- How an NDN packet is carried. -/
inductive Encap
  | ethernet
  | ppp
  | ip (v : IpVersion) (t : Transport) (src dst : Bytes)
  deriving DecidableEq, Repr

/-- A frame that carries `payload`, then `rest`. The IP header does not tell more bytes than there are; if `exact`, it
tells precisely the transport header and the payload, so that `rest` is padding of the link layer. -/
inductive IsFrame (exact : Prop) : Link → Encap → (payload rest : Bytes) → Bytes → Prop
  | direct (link : Link) (t : Nat) (h payload rest : Bytes) :
      t = 0x8624 ∨ t = 0x7777 → IsLinkHeader t link h →
      IsFrame exact link .ethernet payload rest (h ++ payload ++ rest)
  | ppp (h payload rest : Bytes) : IsPppHeader h →
      IsFrame exact .ppp .ppp payload rest (h ++ payload ++ rest)
  | ip (link : Link) (v : IpVersion) (t : Transport) (lh ih th src dst payload rest : Bytes) (following : Nat) :
      IsLinkHeader v.etherType link lh → IsIpHeader ih src dst t.proto following v →
      IsTransportHeader th payload.length t →
      following ≤ th.length + payload.length + rest.length →
      (exact → following = th.length + payload.length) →
      IsFrame exact link (.ip v t src dst) payload rest (lh ++ ih ++ th ++ payload ++ rest)

/-- What a packet of the network layer is. -/
inductive Content
  | interest (n : Name) (text : String)
  | nack (r : NackReason) (n : Name) (text : String)
  | badNack (n : Name) (e : String)
  | data (n : Name)
  | invalid (e : String)
  | unsupported (type : Nat)

/-- The block `b` is a packet of the network layer with that content. -/
inductive IsContent (d : Decoders) (nack : Option (Except String NackReason)) (b : Block) : Content → Prop
  | interest (n text) : b.type = 5 → d.interest b = .ok (n, text) → nack = none → IsContent d nack b (.interest n text)
  | nack (r n text) : b.type = 5 → d.interest b = .ok (n, text) → nack = some (.ok r) →
      IsContent d nack b (.nack r n text)
  | badNack (e n text) : b.type = 5 → d.interest b = .ok (n, text) → nack = some (.error e) →
      IsContent d nack b (.badNack n e)
  | data (n) : b.type = 6 → d.data b = .ok n → IsContent d nack b (.data n)
  | badInterest (e) : b.type = 5 → d.interest b = .error e → IsContent d nack b (.invalid e)
  | badData (e) : b.type = 6 → d.data b = .error e → IsContent d nack b (.invalid e)
  | unsupported : b.type ≠ 5 → b.type ≠ 6 → IsContent d nack b (.unsupported b.type)

/-- What a payload is: nothing, not a complete TLV element, a bare packet of the network layer, or an LpPacket. -/
inductive Payload
  | empty
  | incomplete (len : Nat)
  | bare (c : Content)
  | lp (c : Content)
  | lpInvalid (e : String)
  | lpIdle
  | lpFragment
  | lpThrows (e : String)

/-- The bytes start with a complete TLV element, which is the block `b`. -/
def StartsWith (s : Bytes) (b : Block) : Prop := ∃ e r, s = e ++ r ∧ IsElement b.type b.value e

/-- The payload `s` is of that kind. -/
inductive IsPayload (d : Decoders) (s : Bytes) : Payload → Prop
  | empty : s = [] → IsPayload d s .empty
  | incomplete : s ≠ [] → (¬ ∃ b, StartsWith s b) → IsPayload d s (.incomplete s.length)
  | bare (b c) : StartsWith s b → b.type ≠ 100 → IsContent d none b c → IsPayload d s (.bare c)
  | lp (b lp f net c) : StartsWith s b → b.type = 100 → d.lp b = .ok lp → lp.fragment = some (.ok f) → StartsWith f net →
      IsContent d lp.nack net c → IsPayload d s (.lp c)
  | lpInvalid (b e) : StartsWith s b → b.type = 100 → d.lp b = .error e → IsPayload d s (.lpInvalid e)
  | lpIdle (b lp) : StartsWith s b → b.type = 100 → d.lp b = .ok lp → lp.fragment = none → IsPayload d s .lpIdle
  | lpFragment (b lp f) : StartsWith s b → b.type = 100 → d.lp b = .ok lp → lp.fragment = some (.ok f) →
      (¬ ∃ net, StartsWith f net) → IsPayload d s .lpFragment
  | lpThrows (b lp e) : StartsWith s b → b.type = 100 → d.lp b = .ok lp → lp.fragment = some (.error e) →
      IsPayload d s (.lpThrows e)

/-- The name that a packet has. -/
def Content.name? : Content → Option Name
  | .interest n _ => some n
  | .nack _ n _ => some n
  | .badNack n _ => some n
  | .data n => some n
  | .invalid _ => none
  | .unsupported _ => none

/-- The name of the packet in a payload. -/
def Payload.name? : Payload → Option Name
  | .bare c => c.name?
  | .lp c => c.name?
  | _ => none

/-- The filter of the command line lets the packet through. -/
def Accepts (filter : Option (Name → Bool)) (n : Option Name) : Prop := ∀ f m, filter = some f → n = some m → f m = true

/-- How a packet of the network layer is shown. -/
def Content.field : Content → List Tok
  | .interest n text => [.str "INTEREST: ", .interest n text]
  | .nack r n text => [.str "NACK (", .reason r, .str "): ", .interest n text]
  | .badNack _ e => [.str "invalid network packet: ", .str e]
  | .data n => [.str "DATA: ", .name n]
  | .invalid e => [.str "invalid network packet: ", .str e]
  | .unsupported t => [.str "[Unsupported NDN packet type ", .num t, .str "]"]

/-- How a payload is shown, as the fields of the line. -/
def Payload.fields : Payload → List (List Tok)
  | .empty => []
  | .incomplete n => [[.str "NDN truncated packet, length ", .num n]]
  | .bare c => [c.field]
  | .lp c => [[.str "NDNLPv2"], c.field]
  | .lpInvalid e => [[.str "NDNLPv2", .str " invalid packet: ", .str e]]
  | .lpIdle => [[.str "NDNLPv2", .str " idle"]]
  | .lpFragment => [[.str "NDNLPv2", .str " fragment"]]
  | .lpThrows _ => []

/-- How the encapsulation is shown, with a payload of `n` bytes. -/
def Encap.fields (n : Nat) : Encap → List (List Tok)
  | .ethernet => [[.str "Ethernet"]]
  | .ppp => [[.str "PPP"]]
  | .ip v t src dst =>
    [(match v with
      | .v4 => [.str "IP ", .ip4 src, .str " > ", .ip4 dst]
      | .v6 => [.str "IP6 ", .ip6 src, .str " > ", .ip6 dst]),
     (match t with
      | .udp => [.str "UDP"]
      | .tcp => [.str "TCP"]),
     [.str "length ", .num n]]

/-- The fields of a line with one delimiter between any two. -/
def join : List (List Tok) → List Tok
  | [] => []
  | [f] => f
  | f :: g :: r => f ++ .delim :: join (g :: r)

/-- A line: at least one field, no field empty, exactly one delimiter between any two fields and none elsewhere. -/
def IsLine (T : List Tok) : Prop := ∃ fs, T = join fs ∧ fs ≠ [] ∧ ∀ f ∈ fs, f ≠ [] ∧ Tok.delim ∉ f

/-- The payload is all that follows the headers, except that UDP tells its length. -/
def TakesAll (e : Encap) (rest : Bytes) : Prop := rest = [] ∨ ∃ v src dst, e = .ip v .udp src dst

/-- The digits of a text read as one decimal number; everything else is skipped. -/
def readDigits (b : Bytes) : Nat :=
  b.foldl (fun a x => if 48 ≤ x.toNat ∧ x.toNat ≤ 57 then a * 10 + (x.toNat - 48) else a) 0

/-- The packet was captured entirely; the length is that of a 32 bit field. -/
def Whole (p : Packet) : Prop := p.len = p.mem.length ∧ p.len < 2 ^ 32

end Verif.Dump.Spec
