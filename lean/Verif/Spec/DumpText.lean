import Verif.Model.DumpText
import Verif.Spec.Dump
import Verif.Spec.PingOutput
import Mathlib.Data.List.Forall2

/-! # Reading the output of ndndump -/

namespace Verif.DumpText

open Dump Dump.Spec PingOutput

/-- A name in which every component of a type for numbers is the shortest encoding of its number. -/
def Minimal (n : Name) : Prop :=
  ∀ c ∈ n, c.type ∈ [50, 52, 54, 56, 58] → c.value.length ∈ [1, 2, 4, 8] → c.value = nniEncode (beNat c.value)

/-- Two components that differ at most in the width of a number: they are of one type and either the same, or of a type for numbers
and encode the same number. -/
def CompAlike (c d : Comp) : Prop :=
  c.type = d.type ∧ (c.value = d.value ∨ c.type ∈ [50, 52, 54, 56, 58] ∧ c.value.length ∈ [1, 2, 4, 8] ∧
    d.value.length ∈ [1, 2, 4, 8] ∧ beNat c.value = beNat d.value)

/-- Two names with such components. -/
def NameAlike (n m : Name) : Prop := List.Forall₂ CompAlike n m

/-! ## Addresses (RFC 4291, section 2.2) -/

/-- A number in decimal, and one in hexadecimal. -/
def readDec (w : Bytes) : Nat := w.foldl (fun a x => a * 10 + (x.toNat - 48)) 0
def readHex (w : Bytes) : Nat := w.foldl (fun a x => a * 16 + (if x.toNat < 58 then x.toNat - 48 else x.toNat - 87)) 0

/-- An IPv4 address: four numbers between dots. -/
def readIp4 (w : Bytes) : Bytes := (split 46 w).map fun x => UInt8.ofNat (readDec x)

/-- A part of an IPv6 address between colons: sixteen bits in hexadecimal, or an IPv4 address. -/
def readGroup (w : Bytes) : Bytes := if 46 ∈ w then readIp4 w else beBytes 2 (readHex w)

/-- An IPv6 address: the parts between colons; two colons stand for as many zeros as are missing. -/
def readIp6 (w : Bytes) : Bytes :=
  let gs := split 58 w
  let pre := (gs.takeWhile (· ≠ [])).flatMap readGroup
  let post := ((gs.dropWhile (· ≠ [])).dropWhile (· = [])).flatMap readGroup
  pre ++ List.replicate (16 - pre.length - post.length) 0 ++ post

/-! ## Packets -/

/-- The parameters of an Interest, as ndn-cxx prints them after the name: nothing, or a question mark and more, in
printable characters. -/
def PlainParams (t : String) : Prop :=
  (t = "" ∨ t.toList.head? = some '?') ∧ ∀ c ∈ t.toList, 33 ≤ c.toNat ∧ c.toNat ≤ 126

/-- An Interest, Nack or Data packet whose name satisfies `N`. -/
def IsNet (N : Name → Prop) : Content → Prop
  | .interest n t => N n ∧ PlainParams t
  | .nack _ n t => N n ∧ PlainParams t
  | .data n => N n
  | _ => False

/-- Such a packet, with or without NDNLPv2 header. -/
def Understood (N : Name → Prop) : Payload → Prop
  | .bare c => IsNet N c
  | .lp c => IsNet N c
  | _ => False

/-- The captured packet is a frame that carries, encapsulated as `e`, the NDN packet `k`, and the filter accepts the name. -/
structure Shows (N : Name → Prop) (c : Cfg) (p : Packet) (e : Encap) (k : Payload) : Prop where
  whole : Whole p
  frame : ∃ payload rest b, IsFrame False c.link e payload rest p.mem ∧ StartsWith payload b ∧ IsPayload c.dec payload k
  accepted : Accepts c.nameFilter k.name?
  understood : Understood N k

/-- What the line of a packet is about. -/
structure Info where
  time : Option (Nat × Nat)
  encap : Encap
  payload : Payload

/-- Two packets that differ at most in the width of numbers in the name. -/
inductive NetAlike : Content → Content → Prop
  | interest (n m t) : NameAlike n m → NetAlike (.interest n t) (.interest m t)
  | nack (r n m t) : NameAlike n m → NetAlike (.nack r n t) (.nack r m t)
  | data (n m) : NameAlike n m → NetAlike (.data n) (.data m)

/-- The same for packets of which one knows whether they have an NDNLPv2 header. -/
inductive PayloadAlike : Payload → Payload → Prop
  | bare (c d) : NetAlike c d → PayloadAlike (.bare c) (.bare d)
  | lp (c d) : NetAlike c d → PayloadAlike (.lp c) (.lp d)

/-- Lines about the same, but for the width of numbers in names. -/
structure InfoAlike (i j : Info) : Prop where
  time : i.time = j.time
  encap : i.encap = j.encap
  payload : PayloadAlike i.payload j.payload

/-- What the lines of captured packets are about: one entry for every packet that is shown. -/
inductive Infos (N : Name → Prop) (c : Cfg) : List Packet → List Info → Prop
  | nil : Infos N c [] []
  | shown (p e k ps is) : Shows N c p e k → Infos N c ps is →
      Infos N c (p :: ps) (⟨if c.wantTimestamp then some (p.sec, p.usec) else none, e, k⟩ :: is)
  | skipped (p ps is) : printPacket c p = .ok [] → Infos N c ps is → Infos N c (p :: ps) is

end Verif.DumpText
