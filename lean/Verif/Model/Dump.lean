import Verif.Model.Tlv
import Verif.Model.Decimal

/-!
# Model of ndndump

`tools/dump/ndndump.cpp`: from a captured packet to the printed line. A read outside the captured bytes is undefined
behaviour in C++; here every read is checked, and a function that reads outside ends with the fault `ub`. Lengths are
`size_t`, with subtraction modulo 2^64. Simplification: unaligned access through `reinterpret_cast` is not counted as
undefined behaviour. The decoders of ndn-cxx are arbitrary functions.
-/

namespace Verif.Dump

/-- How a function can end other than by returning. -/
inductive Fault
  | ub
  | thrown (what : String)
  deriving DecidableEq, Repr

/-- What a function of the dissector gives. -/
abbrev Res := Except Fault

/-- One value written to the output line with `<<`, or the delimiter. For an Interest, which prints as its name and its
other parameters, both are kept. -/
inductive Tok
  | delim
  | str (s : String)
  | num (n : Nat)
  | hex (n : Nat)
  | ip4 (addr : Bytes)
  | ip6 (addr : Bytes)
  | name (n : Name)
  | interest (n : Name) (text : String)
  | reason (r : NackReason)
  deriving DecidableEq, Repr

/-- ndndump.cpp:50-76 `OutputFormatter`; the stream is the list of what was written. -/
structure Fmt where
  toks : List Tok := []
  isEmpty : Bool := true
  wantDelim : Bool := false
  deriving DecidableEq, Repr

/-- ndndump.cpp:59-66 `addDelimiter`. -/
def Fmt.addDelimiter (f : Fmt) : Fmt := if f.isEmpty then f else { f with wantDelim := true }

/-- ndndump.cpp:78-89 `operator<<`. -/
def Fmt.put (f : Fmt) (t : Tok) : Fmt :=
  let f := if f.wantDelim then { f with toks := f.toks ++ [.delim], wantDelim := false } else f
  { f with toks := f.toks ++ [t], isEmpty := false }

/-- Several `<<` in a row. -/
def Fmt.puts (f : Fmt) (ts : List Tok) : Fmt := ts.foldl Fmt.put f

/-- The link types that ndndump handles, ndndump.cpp:143-151. -/
inductive Link
  | ether
  | sll
  | ppp
  deriving DecidableEq, Repr

/-- What `lp::Packet` tells after decoding: the Fragment field and the Nack field, if there. `get` decodes the field and
may throw `tlv::Error`. -/
structure Lp where
  fragment : Option (Except String Bytes)
  nack : Option (Except String NackReason)

/-- The decoders of ndn-cxx: `lp::Packet::wireDecode`, `Interest(Block)`, `Data(Block)`; with an error, they throw
`tlv::Error`. An Interest has a name and a text, which is what `operator<<` prints. -/
structure Decoders where
  lp : Block → Except String Lp
  interest : Block → Except String (Name × String)
  data : Block → Except String Name

/-- ndndump.hpp:106-119. -/
structure Cfg where
  link : Link
  nameFilter : Option (Name → Bool) := none
  wantTimestamp : Bool := true
  dec : Decoders

/-- Read one byte. -/
def rd (mem : Bytes) (i : Nat) : Res UInt8 :=
  match mem[i]? with
  | some b => .ok b
  | none => .error .ub

/-- Read `n` bytes. -/
def rdBytes (mem : Bytes) (off : Nat) : Nat → Res Bytes
  | 0 => .ok []
  | n + 1 => do
    let b ← rd mem off
    let r ← rdBytes mem (off + 1) n
    .ok (b :: r)

/-- Read a number of two bytes in network byte order. -/
def rd16 (mem : Bytes) (off : Nat) : Res Nat := do
  let b ← rdBytes mem off 2
  .ok (beNat b)

/-- `len -= n` for `size_t`. -/
def subSize (len n : Nat) : Nat := (len + 2 ^ 64 - n) % 2 ^ 64

/-- `readVarNumber` on memory: `none` if there are too few bytes in the `len` bytes; otherwise the number and what
is left. -/
def memVarNumber (mem : Bytes) (off len : Nat) : Res (Option (Nat × Nat × Nat)) :=
  if len = 0 then .ok none
  else do
    let b ← rd mem off
    if b.toNat < 253 then .ok (some (b.toNat, off + 1, len - 1))
    else
      let w := if b.toNat = 253 then 2 else if b.toNat = 254 then 4 else 8
      if len - 1 < w then .ok none
      else do
        let bs ← rdBytes mem (off + 1) w
        .ok (some (beNat bs, off + 1 + w, len - 1 - w))

/-- `Block::fromBuffer({pkt, len})` on memory. -/
def memBlock (mem : Bytes) (off len : Nat) : Res (Option Block) := do
  match ← memVarNumber mem off len with
  | none => .ok none
  | some (t, off, len) =>
    if t = 0 ∨ 2 ^ 32 ≤ t then .ok none
    else match ← memVarNumber mem off len with
      | none => .ok none
      | some (n, off, len) =>
        if len < n then .ok none
        else do
          let v ← rdBytes mem off n
          .ok (some ⟨t, v⟩)

/-- ndndump.cpp:601-609 `matchesFilter`. -/
def matchesFilter (c : Cfg) (n : Name) : Bool :=
  match c.nameFilter with
  | none => true
  | some f => f n

/-- ndndump.cpp:561-598: the packet of the network layer; `nack` is the Nack field of the link packet, if any. -/
def printNet (c : Cfg) (f : Fmt) (nack : Option (Except String NackReason)) (net : Block) : Bool × Fmt :=
  if net.type = 5 then
    match c.dec.interest net with
    | .error e => (true, f.puts [.str "invalid network packet: ", .str e])
    | .ok (n, text) =>
      if !matchesFilter c n then (false, f)
      else match nack with
        | some (.error e) => (true, f.puts [.str "invalid network packet: ", .str e])
        | some (.ok r) => (true, f.puts [.str "NACK (", .reason r, .str "): ", .interest n text])
        | none => (true, f.puts [.str "INTEREST: ", .interest n text])
  else if net.type = 6 then
    match c.dec.data net with
    | .error e => (true, f.puts [.str "invalid network packet: ", .str e])
    | .ok n =>
      if !matchesFilter c n then (false, f)
      else (true, f.puts [.str "DATA: ", .name n])
  else (true, f.puts [.str "[Unsupported NDN packet type ", .num net.type, .str "]"])

/-- ndndump.cpp:530-559: after the outer block was read. The Fragment field is taken out of the link packet outside of
any `try`. -/
def printBlock (c : Cfg) (f : Fmt) (b : Block) : Res (Bool × Fmt) :=
  if b.type = 100 then
    let f := f.put (.str "NDNLPv2")
    match c.dec.lp b with
    | .error e => .ok (true, f.puts [.str " invalid packet: ", .str e])
    | .ok lp =>
      match lp.fragment with
      | none => .ok (true, f.put (.str " idle"))
      | some (.error e) => .error (.thrown e)
      | some (.ok frag) =>
        match fromBuffer frag with
        | none => .ok (true, f.put (.str " fragment"))
        | some net => .ok (printNet c f.addDelimiter lp.nack net)
  else .ok (printNet c f.addDelimiter none b)

/-- ndndump.cpp:515-599 `printNdn`. -/
def printNdn (c : Cfg) (mem : Bytes) (f : Fmt) (off len : Nat) : Res (Bool × Fmt) :=
  if len = 0 then .ok (false, f)
  else do
    let f := f.addDelimiter
    match ← memBlock mem off len with
    | none => .ok (true, f.puts [.str "NDN truncated packet, length ", .num len])
    | some b => printBlock c f b

/-- ndndump.cpp:483-513 `printUdp`; `sizeof(udphdr)` is 8. -/
def printUdp (c : Cfg) (mem : Bytes) (f : Fmt) (off len : Nat) : Res (Bool × Fmt) :=
  let f := f.addDelimiter.put (.str "UDP")
  if len < 8 then .ok (true, f.puts [.str " truncated header, length ", .num len])
  else do
    let udpLen ← rd16 mem (off + 4)
    if udpLen < 8 then .ok (true, f.puts [.str " bad length ", .num udpLen])
    else if udpLen > len then
      .ok (true, f.puts [.str " truncated packet, ", .num (udpLen - len), .str " bytes missing"])
    else
      let len := subSize udpLen 8
      printNdn c mem (f.addDelimiter.puts [.str "length ", .num len]) (off + 8) len

/-- ndndump.cpp:454-481 `printTcp`; `sizeof(tcphdr)` is 20, the data offset is in the upper half of byte 12. -/
def printTcp (c : Cfg) (mem : Bytes) (f : Fmt) (off len : Nat) : Res (Bool × Fmt) :=
  let f := f.addDelimiter.put (.str "TCP")
  if len < 20 then .ok (true, f.puts [.str " truncated header, length ", .num len])
  else do
    let b ← rd mem (off + 12)
    let hdrLen := b.toNat / 16 * 4
    if hdrLen < 20 then .ok (true, f.puts [.str " bad header length ", .num hdrLen])
    else if hdrLen > len then
      .ok (true, f.puts [.str " truncated header, ", .num (hdrLen - len), .str " bytes missing"])
    else
      let len := subSize len hdrLen
      printNdn c mem (f.addDelimiter.puts [.str "length ", .num len]) (off + hdrLen) len

/-- ndndump.cpp:254-271 `dispatchByIpProto`. -/
def dispatchByIpProto (c : Cfg) (mem : Bytes) (f : Fmt) (off len proto : Nat) : Res (Bool × Fmt) :=
  let f := f.addDelimiter
  if proto = 59 then .ok (true, f.put (.str "[No next header]"))
  else if proto = 6 then printTcp c mem f off len
  else if proto = 17 then printUdp c mem f off len
  else .ok (true, f.puts [.str "[Unsupported IP proto ", .num proto, .str "]"])

/-- ndndump.cpp:374-417 `printIp4`; `sizeof(ip)` is 20. -/
def printIp4 (c : Cfg) (mem : Bytes) (f : Fmt) (off len : Nat) : Res (Bool × Fmt) :=
  let f := f.addDelimiter.put (.str "IP ")
  if len < 20 then .ok (true, f.puts [.str "truncated header, length ", .num len])
  else do
    let b0 ← rd mem off
    if b0.toNat / 16 ≠ 4 then .ok (true, f.puts [.str "bad version ", .num (b0.toNat / 16)])
    else
      let hdrLen := b0.toNat % 16 * 4
      if hdrLen < 20 then .ok (true, f.puts [.str "bad header length ", .num hdrLen])
      else do
        let ipLen ← rd16 mem (off + 2)
        if ipLen < hdrLen then .ok (true, f.puts [.str "bad length ", .num ipLen])
        else if ipLen > len then
          .ok (true, f.puts [.str "truncated packet, ", .num (ipLen - len), .str " bytes missing"])
        else do
          let src ← rdBytes mem (off + 12) 4
          let dst ← rdBytes mem (off + 16) 4
          let f := f.puts [.ip4 src, .str " > ", .ip4 dst]
          let proto ← rd mem (off + 9)
          dispatchByIpProto c mem f (off + hdrLen) (subSize len hdrLen) proto.toNat

/-- ndndump.cpp:419-452 `printIp6`; `sizeof(ip6_hdr)` is 40. -/
def printIp6 (c : Cfg) (mem : Bytes) (f : Fmt) (off len : Nat) : Res (Bool × Fmt) :=
  let f := f.addDelimiter.put (.str "IP6 ")
  if len < 40 then .ok (true, f.puts [.str "truncated header, length ", .num len])
  else do
    let b0 ← rd mem off
    if b0.toNat / 16 ≠ 6 then .ok (true, f.puts [.str "bad version ", .num (b0.toNat / 16)])
    else
      let len := subSize len 40
      do
        let payloadLen ← rd16 mem (off + 4)
        if len < payloadLen then
          .ok (true, f.puts [.str "truncated payload, ", .num (payloadLen - len), .str " bytes missing"])
        else do
          let src ← rdBytes mem (off + 8) 16
          let dst ← rdBytes mem (off + 24) 16
          let f := f.puts [.ip6 src, .str " > ", .ip6 dst]
          let proto ← rd mem (off + 6)
          dispatchByIpProto c mem f (off + 40) len proto.toNat

/-- ndndump.cpp:234-252 `dispatchByEtherType`. -/
def dispatchByEtherType (c : Cfg) (mem : Bytes) (f : Fmt) (off len type : Nat) : Res (Bool × Fmt) :=
  let f := f.addDelimiter
  if type = 0x0800 then printIp4 c mem f off len
  else if type = 0x86DD then printIp6 c mem f off len
  else if type = 0x8624 ∨ type = 0x7777 then printNdn c mem (f.put (.str "Ethernet")) off len
  else .ok (true, f.puts [.str "[Unsupported ethertype ", .hex type, .str "]"])

/-- ndndump.cpp:273-288 `printEther`; `ethernet::HDR_LEN` is 14. -/
def printEther (c : Cfg) (mem : Bytes) (f : Fmt) (len : Nat) : Res (Bool × Fmt) :=
  if len < 14 then .ok (true, f.puts [.str "Truncated Ethernet frame, length ", .num len])
  else do
    let type ← rd16 mem 12
    dispatchByEtherType c mem f 14 (subSize len 14) type

/-- ndndump.cpp:290-306 `printLinuxSll`; `SLL_HDR_LEN` is 16. -/
def printLinuxSll (c : Cfg) (mem : Bytes) (f : Fmt) (len : Nat) : Res (Bool × Fmt) :=
  if len < 16 then .ok (true, f.puts [.str "Truncated LINUX_SLL frame, length ", .num len])
  else do
    let type ← rd16 mem 14
    dispatchByEtherType c mem f 16 (subSize len 16) type

/-- ndndump.cpp:344-359: `printPpp` after the protocol number. -/
def printPppBody (c : Cfg) (mem : Bytes) (f : Fmt) (off len proto : Nat) : Res (Bool × Fmt) :=
  if proto = 0x0077 then
    if len < 2 then .ok (true, f.put (.str "Truncated NDN/PPP frame"))
    else printNdn c mem (f.put (.str "PPP")) (off + 2) (subSize len 2)
  else .ok (true, f.puts [.str "[Unsupported PPP proto ", .hex proto, .str "]"])

/-- ndndump.cpp:331-342: `printPpp` after the optional Address and Control fields. -/
def printPppProto (c : Cfg) (mem : Bytes) (f : Fmt) (off len : Nat) : Res (Bool × Fmt) := do
  let b ← rd mem off
  if b.toNat % 2 = 1 then printPppBody c mem f (off + 1) (subSize len 1) b.toNat
  else do
    let b1 ← rd mem (off + 1)
    printPppBody c mem f (off + 2) (subSize len 2) (b.toNat * 256 + b1.toNat)

/-- ndndump.cpp:321: the second byte is only read if the first one is 0xff. -/
def isHdlc (mem : Bytes) : Res Bool := do
  let b0 ← rd mem 0
  if b0.toNat = 0xff then do
    let b1 ← rd mem 1
    .ok (b1.toNat = 0x03)
  else .ok false

/-- ndndump.cpp:308-360 `printPpp`. -/
def printPpp (c : Cfg) (mem : Bytes) (f : Fmt) (len : Nat) : Res (Bool × Fmt) :=
  if len < 2 then .ok (true, f.puts [.str "Truncated PPP frame, length ", .num len])
  else do
    let hdlc ← isHdlc mem
    if hdlc then
      if len < 4 then .ok (true, f.puts [.str "Truncated PPP frame, length ", .num len])
      else printPppProto c mem f 2 (subSize len 2)
    else printPppProto c mem f 0 len

/-- ndndump.cpp:228-231: digits filled with zeros to six characters. -/
def pad6 (b : Bytes) : Bytes := List.replicate (6 - b.length) 48 ++ b

/-- ndndump.cpp:224-232 `printTimestamp`, as the bytes of the text. -/
def printTimestamp (sec usec : Nat) : Bytes := decimal sec ++ [46] ++ pad6 (decimal usec) ++ [32]

/-- A captured packet: the captured bytes, the length of the original packet, and the capture time. -/
structure Packet where
  mem : Bytes
  len : Nat
  sec : Nat := 0
  usec : Nat := 0
  deriving DecidableEq, Repr

/-- A line on the standard output. -/
inductive Line
  | zeroCaplen
  | zeroLen
  | badLen (len caplen : Nat)
  | packet (timestamp : Option Bytes) (toks : List Tok)
  deriving DecidableEq, Repr

/-- ndndump.cpp:202-214: the line without the timestamp. -/
def printLink (c : Cfg) (mem : Bytes) (len : Nat) : Res (Bool × Fmt) :=
  match c.link with
  | .ether => printEther c mem {} len
  | .sll => printLinuxSll c mem {} len
  | .ppp => printPpp c mem {} len

/-- ndndump.cpp:180-222 `printPacket`: the lines that are printed. -/
def printPacket (c : Cfg) (p : Packet) : Res (List Line) :=
  if p.mem.length = 0 then .ok [.zeroCaplen]
  else if p.len = 0 then .ok [.zeroLen]
  else if p.len < p.mem.length then .ok [.badLen p.len p.mem.length]
  else do
    let r ← printLink c p.mem p.len
    if r.1 then
      .ok [.packet (if c.wantTimestamp then some (printTimestamp p.sec p.usec) else none) r.2.toks]
    else .ok []

/-- How `pcap_loop` ends, ndndump.cpp:171-177 and main.cpp:135-142: at the end of the file with status 0, or by the
exception of a callback with status 1, or with undefined behaviour. -/
inductive End
  | exit (status : Nat)
  | ub
  deriving DecidableEq, Repr

/-- ndndump.cpp:171-177: the packets of a capture file one after the other; the lines printed and how it ends. -/
def loop (c : Cfg) : List Packet → List Line × End
  | [] => ([], .exit 0)
  | p :: ps =>
    match printPacket c p with
    | .error .ub => ([], .ub)
    | .error (.thrown _) => ([], .exit 1)
    | .ok ls => let r := loop c ps; (ls ++ r.1, r.2)

end Verif.Dump
