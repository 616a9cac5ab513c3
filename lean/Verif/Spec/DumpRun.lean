import Verif.Model.DumpRun
import Verif.Spec.Dump
import Verif.Spec.Cli

/-!
# Specification for ndndump as a program

What the command line asks for, when a capture takes place, and which frames carry NDN.
-/

namespace Verif.DumpRun.Spec

open Dump Dump.Spec Cli

/-- What the command line asks to open: the file, the interface, or else the first interface that is not a loopback
interface. -/
inductive Asked (devs : List Dev) (a : DumpArgs) : Opened → Prop
  | file (f) : a.read = some f → Asked devs a (.file f)
  | interface (i) : a.interface = some i → Asked devs a (.live i (!a.noPromisc))
  | first (pre d post) : a.read = none → a.interface = none → devs = pre ++ d :: post → (∀ x ∈ pre, x.loopback = true) →
      d.loopback = false → Asked devs a (.live d.name (!a.noPromisc))

/-- Interfaces that are not loopback interfaces come first, as libpcap promises. -/
def LoopbackLast (devs : List Dev) : Prop :=
  ∀ pre d post, devs = pre ++ d :: post → d.loopback = false → ∀ x ∈ pre, x.loopback = false

/-- The link types that ndndump handles, with the numbers of libpcap. -/
inductive KnownLink : Nat → Link → Prop
  | ether : KnownLink 1 .ether
  | ppp : KnownLink 9 .ppp
  | sll : KnownLink 113 .sll

/-- The words of the filter on the command line, joined by spaces; without words the documented default. -/
inductive FilterText (a : DumpArgs) : String → Prop
  | default : a.pcapFilter = [] →
      FilterText a "(ether proto 0x8624) or (tcp port 6363) or (udp port 6363) or (udp port 56363)"
  | words : a.pcapFilter ≠ [] → FilterText a (" ".intercalate a.pcapFilter)

/-- What opening gives. -/
def Env.open (env : Env) : Opened → Except String Source
  | .live i p => env.live i p
  | .file f => env.offline f

/-- A filter text lets through what `pass` says; the empty text lets everything through. -/
def Filters (env : Env) (dlt : Nat) (text : String) (pass : Bytes → Bool) : Prop :=
  (text = "" ∧ pass = fun _ => true) ∨
  (text ≠ "" ∧ env.compile dlt text = .ok pass ∧ ∃ u, env.setFilter dlt text = .ok u)

/-- The capture that was opened can be read: opening succeeds, the link type is known, and so is the filter. -/
structure Captures (env : Env) (a : DumpArgs) (o : Opened) (s : Source) (link : Link) (pass : Bytes → Bool) : Prop where
  opens : Env.open env o = .ok s
  link : KnownLink s.dlt link
  filter : ∃ text, FilterText a text ∧ Filters env s.dlt text pass

/-- How the packets are printed: as the name filter and the option for the timestamps say. -/
def config (env : Env) (a : DumpArgs) (link : Link) : Cfg where
  link := link
  nameFilter := a.filter.map env.regexMatch
  wantTimestamp := !a.noTimestamp
  dec := env.dec

/-- Whether a message is about an error. -/
def Msg.isError : Msg → Bool
  | .listening _ _ => false
  | .reading _ _ => false
  | .filter _ => false
  | _ => true

/-- Ports of NDN. -/
def NdnPort (t : Transport) (port : Nat) : Prop := port = 6363 ∨ (t = .udp ∧ port = 56363)

/-- An IP packet that is not a later fragment of a larger one (RFC 791; the fragments of IPv6 have another header). -/
def FirstFragment (ih : Bytes) : IpVersion → Prop
  | .v4 => ∃ (a : Bytes) (x y : UInt8) (b : Bytes), ih = a ++ x :: y :: b ∧ a.length = 6 ∧ (x.toNat * 256 + y.toNat) % 2 ^ 13 = 0
  | .v6 => True

/-- A frame of the link layer with the given Ethernet type. -/
def Carries (link : Link) (t : Nat) (mem : Bytes) : Prop := ∃ h rest, IsLinkHeader t link h ∧ mem = h ++ rest

/-- A frame with TCP or UDP in IP with these ports, and whatever follows the ports. -/
def CarriesIp (link : Link) (t : Transport) (sport dport : Nat) (mem : Bytes) : Prop :=
  ∃ (v : IpVersion) (lh ih src dst rest : Bytes) (following : Nat),
    IsLinkHeader v.etherType link lh ∧ IsIpHeader ih src dst t.proto following v ∧ FirstFragment ih v ∧
    mem = lh ++ ih ++ be16 sport ++ be16 dport ++ rest

end Verif.DumpRun.Spec
