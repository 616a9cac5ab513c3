import Verif.Model.Dump
import Verif.Model.Cli

/-!
# ndndump from the command line to the exit status

`tools/dump/main.cpp` and `NdnDump::run`. libpcap is a record of arbitrary functions. A capture is the list of packets that
`pcap_loop` gets until it returns; for a live capture that goes on, the packets so far.
-/

namespace Verif.DumpRun

open Dump

/-- An entry of the list of `pcap_findalldevs`. -/
structure Dev where
  name : String
  loopback : Bool
  deriving DecidableEq, Repr

/-- An opened capture: the number of its link type (`pcap_datalink`), the packets before filtering, and the error with
which `pcap_loop` ends, if any. -/
structure Source where
  dlt : Nat
  packets : List Packet
  failure : Option String := none

/-- What libpcap and the regular expressions of the standard library answer. `compile`: the packets that a filter lets
through on a link type, as `pcap_compile` reads the text. -/
structure Env where
  devices : Except String (List Dev)
  live : String → Bool → Except String Source
  offline : String → Except String Source
  linkName : Nat → String
  compile : Nat → String → Except String (Bytes → Bool)
  setFilter : Nat → String → Except String Unit
  regexMatch : String → Name → Bool
  dec : Decoders

/-- What ndndump opened. -/
inductive Opened
  | live (interface : String) (promisc : Bool)
  | file (name : String)
  deriving DecidableEq, Repr

/-- A line on the standard error, other than for a malformed command line. -/
inductive Msg
  | listening (interface link : String)
  | reading (file link : String)
  | filter (text : String)
  | noDevices (e : String)
  | noInterface
  | cannotListen (interface e : String)
  | cannotRead (file e : String)
  | unsupported (link : String)
  | cannotCompile (text e : String)
  | cannotSet (e : String)
  | loop (e : String)
  | packet (e : String)
  deriving DecidableEq, Repr

/-- What a run leaves: what it tried to open, the lines of the standard output (other than help and version) and of the
standard error, and how it ended. -/
structure Out where
  opened : Option Opened := none
  lines : List Line := []
  msgs : List Msg := []
  ending : End
  deriving DecidableEq, Repr

/-- ndndump.hpp:60-64. -/
def defaultFilter : String := "(ether proto 0x8624) or (tcp port 6363) or (udp port 6363) or (udp port 56363)"

/-- main.cpp:126-130 and ndndump.hpp:109: the words are joined by spaces; without words the default. -/
def filterText (o : Cli.DumpOpts) : String :=
  if o.pcapFilter = [] then defaultFilter else " ".intercalate o.pcapFilter

/-- ndndump.cpp:143-151; `DLT_EN10MB` is 1, `DLT_PPP` 9, `DLT_LINUX_SLL` 113. -/
def link? : Nat → Option Link
  | 1 => some .ether
  | 9 => some .ppp
  | 113 => some .sll
  | _ => none

/-- The text of the exception that a packet causes, if one does. -/
def thrown (c : Cfg) : List Packet → Option String
  | [] => none
  | p :: ps =>
    match printPacket c p with
    | .error .ub => none
    | .error (.thrown e) => some e
    | .ok _ => thrown c ps

/-- ndndump.cpp:171-177: `pcap_loop` with the packets that the filter lets through, main.cpp:135-142. -/
def capture (env : Env) (o : Cli.DumpOpts) (link : Link) (pass : Bytes → Bool) (s : Source) (out : Out) : Out :=
  let c : Cfg := { link := link, nameFilter := o.filter.map env.regexMatch, wantTimestamp := o.wantTimestamp,
                   dec := env.dec }
  let ps := s.packets.filter fun p => pass p.mem
  let r := loop c ps
  match thrown c ps, r.2, s.failure with
  | some e, end_, _ => { out with lines := r.1, msgs := out.msgs ++ [.packet e], ending := end_ }
  | none, .exit _, some e => { out with lines := r.1, msgs := out.msgs ++ [.loop e], ending := .exit 1 }
  | none, end_, _ => { out with lines := r.1, ending := end_ }

/-- ndndump.cpp:153-169: the filter, if there is one. -/
def filterAndCapture (env : Env) (o : Cli.DumpOpts) (link : Link) (s : Source) (out : Out) : Out :=
  let text := filterText o
  if text = "" then capture env o link (fun _ => true) s out
  else
    let out := if o.wantVerbose then { out with msgs := out.msgs ++ [.filter text] } else out
    match env.compile s.dlt text with
    | .error e => { out with msgs := out.msgs ++ [.cannotCompile text e], ending := .exit 1 }
    | .ok pass =>
      match env.setFilter s.dlt text with
      | .error e => { out with msgs := out.msgs ++ [.cannotSet e], ending := .exit 1 }
      | .ok _ => capture env o link pass s out

/-- ndndump.cpp:133-151: the message with the link type, and whether the type is supported. -/
def withLink (env : Env) (o : Cli.DumpOpts) (s : Source) (msg : String → Msg) (out : Out) : Out :=
  let l := env.linkName s.dlt
  let out := { out with msgs := out.msgs ++ [msg l] }
  match link? s.dlt with
  | none => { out with msgs := out.msgs ++ [.unsupported l], ending := .exit 1 }
  | some link => filterAndCapture env o link s out

/-- ndndump.cpp:117-124: opening an interface. -/
def openLive (env : Env) (o : Cli.DumpOpts) (interface : String) : Out :=
  let out : Out := { opened := some (.live interface o.wantPromisc), ending := .exit 1 }
  match env.live interface o.wantPromisc with
  | .error e => { out with msgs := [.cannotListen interface e] }
  | .ok s => withLink env o s (.listening interface) out

/-- ndndump.cpp:125-131: opening a file. -/
def openFile (env : Env) (o : Cli.DumpOpts) : Out :=
  let out : Out := { opened := some (.file o.read), ending := .exit 1 }
  match env.offline o.read with
  | .error e => { out with msgs := [.cannotRead o.read e] }
  | .ok s => withLink env o s (.reading o.read) out

/-- ndndump.cpp:96-178 `run`, with main.cpp:135-142 for exceptions. -/
def run (env : Env) (o : Cli.DumpOpts) : Out :=
  if o.read = "" ∧ o.interface = "" then
    match env.devices with
    | .error e => { msgs := [.noDevices e], ending := .exit 1 }
    | .ok [] => { msgs := [.noInterface], ending := .exit 1 }
    | .ok (d :: _) => if d.name ≠ "" then openLive env o d.name else openFile env o
  else if o.interface ≠ "" then openLive env o o.interface
  else openFile env o

/-- main.cpp:47-143. The other endings do not occur. -/
def main (lib : Cli.Lib) (env : Env) (a : Option Cli.DumpArgs) : Out :=
  match Cli.dump lib a with
  | .exit n => { ending := .exit n }
  | .run o => run env o
  | _ => { ending := .ub }

/-! ## The default filter

The language of pcap-filter(7), as far as the default filter uses it, with the meaning that libpcap gives to it: the
filter is a program for the BSD packet filter. A load outside the captured bytes ends the program, and the packet is not
let through. -/

/-- Filter expressions, as far as the default filter (ndndump.hpp:66) uses them. -/
inductive Filter
  | etherProto (t : Nat)
  | tcpPort (n : Nat)
  | udpPort (n : Nat)
  | or (a b : Filter)
  deriving DecidableEq, Repr

/-- A load of one byte. -/
def load8 (mem : Bytes) (i : Nat) : Option Nat := mem[i]?.map UInt8.toNat

/-- A load of two bytes in network byte order. -/
def load16 (mem : Bytes) (i : Nat) : Option Nat := do
  let a ← load8 mem i
  let b ← load8 mem (i + 1)
  pure (a * 256 + b)

/-- Where the type field of the link layer is; after it, the network layer starts. For PPP libpcap assumes that Address
and Control are there and that the protocol field has two bytes. -/
def typeOffset : Link → Nat
  | .ether => 12
  | .sll => 14
  | .ppp => 2

/-- The protocol number of PPP for an Ethernet type (`ethertype_to_ppptype` of libpcap). -/
def linkType (l : Link) (t : Nat) : Nat :=
  match l with
  | .ppp => if t = 0x0800 then 0x0021 else if t = 0x86DD then 0x0057 else t
  | _ => t

/-- A TCP or UDP port at one of the ends: for IPv4, in a packet that is not a later fragment; for IPv6, without extension
headers. -/
def evalPort (l : Link) (mem : Bytes) (proto port : Nat) : Option Bool := do
  let t ← load16 mem (typeOffset l)
  let net := typeOffset l + 2
  if t = linkType l 0x86DD then
    if (← load8 mem (net + 6)) = proto then
      if (← load16 mem (net + 40)) = port then pure true
      else pure ((← load16 mem (net + 42)) = port)
    else pure false
  else if t = linkType l 0x0800 then
    if (← load8 mem (net + 9)) = proto then
      if (← load16 mem (net + 6)) % 8192 = 0 then
        let trans := net + (← load8 mem net) % 16 * 4
        if (← load16 mem trans) = port then pure true
        else pure ((← load16 mem (trans + 2)) = port)
      else pure false
    else pure false
  else pure false

/-- Whether a filter lets a packet through; `none` if the program loads from outside of the captured bytes
(`pcap_setfilter`, ndndump.cpp:165). -/
def Filter.eval (l : Link) (mem : Bytes) : Filter → Option Bool
  | .etherProto t => do pure ((← load16 mem (typeOffset l)) = linkType l t)
  | .tcpPort n => evalPort l mem 6 n
  | .udpPort n => evalPort l mem 17 n
  | .or a b => do if ← a.eval l mem then pure true else b.eval l mem

/-- The packet is let through. -/
def Filter.passes (f : Filter) (l : Link) (mem : Bytes) : Bool := (f.eval l mem).getD false

/-- The default filter, parsed. -/
def defaultAst : Filter := .or (.or (.or (.etherProto 0x8624) (.tcpPort 6363)) (.udpPort 6363)) (.udpPort 56363)

end Verif.DumpRun
