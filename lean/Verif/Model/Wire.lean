import Verif.Model.Tlv
import Verif.Model.PingServer
import Verif.Model.Producer

/-!
# Packets on the wire, and the servers on a Face that refuses large packets

The encodings are those of ndn-cxx (`Name::wireEncode`, `Data::wireEncode`, `MetaInfo::wireEncode`, `Interest::wireEncode`,
`lp::Packet::wireEncode`), which is not part of the repository, and belong to the trusted base. `Face::put` throws
`Face::OversizedPacketError` if the encoded packet has more than `MAX_NDN_PACKET_SIZE` bytes.
-/

namespace Verif.Wire

/-- `MAX_NDN_PACKET_SIZE`. -/
def maxPacket : Nat := 8800

/-- The components of a name. -/
def encodeComps (n : Name) : Bytes := (n.map fun c => Block.encode ⟨c.type, c.value⟩).flatten

/-- `Name::wireEncode`. -/
def encodeName (n : Name) : Bytes := Block.encode ⟨7, encodeComps n⟩

/-- The values of the elements SignatureInfo and SignatureValue. -/
structure Sig where
  info : Bytes
  value : Bytes
  deriving DecidableEq, Repr

/-- `MetaInfo::wireEncode`, for the ContentType Blob, which is left out. -/
def encodeMeta (d : Data) : Bytes :=
  Block.encode ⟨20, (if d.freshness = 0 then [] else Block.encode ⟨25, nniEncode d.freshness⟩) ++
    (match d.final with
    | none => []
    | some c => Block.encode ⟨26, Block.encode ⟨c.type, c.value⟩⟩)⟩

/-- `Data::wireEncode`, for the ContentType Blob. -/
def encodeData (g : Sig) (d : Data) : Bytes :=
  Block.encode ⟨6, encodeName d.name ++ encodeMeta d ++ Block.encode ⟨21, d.content⟩ ++
    Block.encode ⟨22, g.info⟩ ++ Block.encode ⟨23, g.value⟩⟩

/-- An Interest as it arrives: the part that the tools look at, and the encoded elements that they do not look at
(ForwardingHint, Nonce, InterestLifetime, HopLimit, ApplicationParameters, ...). -/
structure WireInterest where
  i : Interest
  rest : Bytes
  deriving DecidableEq, Repr

/-- `Interest::wireEncode`. -/
def WireInterest.encode (w : WireInterest) : Bytes :=
  Block.encode ⟨5, encodeName w.i.name ++ (if w.i.canBePrefix then Block.encode ⟨33, []⟩ else []) ++
    (if w.i.mustBeFresh then Block.encode ⟨18, []⟩ else []) ++ w.rest⟩

/-- An LpPacket with a Nack header without reason and the Interest as fragment: what `Face::put(lp::Nack(interest))`
sends. -/
def encodeNack (w : WireInterest) : Bytes :=
  Block.encode ⟨100, Block.encode ⟨800, []⟩ ++ Block.encode ⟨80, w.encode⟩⟩

/-! ## ndnpingserver -/

/-- The server, and whether an exception left `processEvents`. -/
structure PingSt where
  st : PingServer.St := {}
  failed : Bool := false
  deriving DecidableEq, Repr

/-- An Interest, or SIGINT. -/
inductive PingEv
  | interest (w : WireInterest)
  | sigint
  deriving DecidableEq, Repr

/-- `signingWithSha256()`: the signature type, and the digest. -/
def sha256Sig (hash : Data → Bytes) (d : Data) : Sig := ⟨[0x1b, 1, 0], hash d⟩

/-- ping-server.cpp:62-77: if `put` throws, the signal `afterReceive` has been emitted already. -/
def PingSt.step (hash : Data → Bytes) (o : PingServer.Opts) (p : PingSt) : PingEv → PingSt
  | .interest w =>
    let d := PingServer.reply o w.i
    if (encodeData (sha256Sig hash d) d).length ≤ maxPacket then { p with st := p.st.step o (.interest w.i) }
    else { st := { p.st with log := p.st.log ++ [.received w.i.name] }, failed := true }
  | .sigint => { p with st := p.st.step o .sigint }

/-- Interests of the size of a packet. -/
def PingSt.enabled (o : PingServer.Opts) (p : PingSt) : PingEv → Prop
  | .interest w => p.failed = false ∧ p.st.enabled o (.interest w.i) ∧ w.encode.length ≤ maxPacket
  | .sigint => p.failed = false

instance (o : PingServer.Opts) (p : PingSt) (e : PingEv) : Decidable (p.enabled o e) := by
  cases e <;> unfold PingSt.enabled <;> infer_instance

/-- The server of ping-server.cpp:40-76 with packets on the wire. -/
def pingMachine (hash : Data → Bytes) (o : PingServer.Opts) : Machine PingSt PingEv :=
  { init := {}, step := PingSt.step hash o, enabled := PingSt.enabled o }

instance (hash : Data → Bytes) (o : PingServer.Opts) (p : PingSt) (e : PingEv) :
    Decidable ((pingMachine hash o).enabled p e) :=
  inferInstanceAs (Decidable (p.enabled o e))

/-- ping/server/main.cpp:64-82: the program ends with status `n`, by an exception or because the prefix is not
registered any more. -/
def PingSt.Exits (p : PingSt) (n : Nat) : Prop :=
  if p.failed then n = 1 else p.st.registered = false ∧ n = 0

instance (p : PingSt) (n : Nat) : Decidable (p.Exits n) := by unfold PingSt.Exits; infer_instance

/-! ## ndnputchunks -/

/-- What was put on the Face, and whether an exception left `processEvents`. -/
structure PutSt where
  sent : List Producer.Reply := []
  failed : Bool := false
  deriving DecidableEq, Repr

/-- The packet for a reply to the Interest; `none` if there is no packet. The content of a metadata packet is the
encoded name (`MetadataObject::makeData`). -/
def encodeReply (sign : Data → Sig) (w : WireInterest) : Producer.Reply → Option Bytes
  | .data d => some (encodeData (sign d) d)
  | .metadata n f v =>
    let d : Data := { name := n, content := encodeName v, freshness := f }
    some (encodeData (sign d) d)
  | .nack => some (encodeNack w)
  | .threw => none
  | .ub => none

/-- One reply of a handler: it is sent if there is a packet and its size is allowed; otherwise an exception
leaves the handler. -/
def PutSt.put (sign : Data → Sig) (w : WireInterest) (s : PutSt) (r : Producer.Reply) : PutSt :=
  if s.failed then s
  else match encodeReply sign w r with
    | none => { s with failed := true }
    | some b => if b.length ≤ maxPacket then { s with sent := s.sent ++ [r] } else { s with failed := true }

/-- An Interest arrives; `now` is the time for the version number of a metadata packet. -/
structure PutEv where
  w : WireInterest
  now : Nat
  deriving DecidableEq, Repr

/-- producer.cpp:67-81: the handlers of the filters that match. -/
def PutSt.step (digest : Data → Bytes) (sign : Data → Sig) (p : Producer.Prod) (s : PutSt) (e : PutEv) : PutSt :=
  (p.onInterest digest e.now e.w.i).foldl (PutSt.put sign e.w) s

/-- The producer of producer.cpp:67-154 with packets on the wire. -/
def putMachine (digest : Data → Bytes) (sign : Data → Sig) (p : Producer.Prod) : Machine PutSt PutEv :=
  { init := {}, step := PutSt.step digest sign p,
    enabled := fun s e => s.failed = false ∧ e.w.encode.length ≤ maxPacket }

instance (digest : Data → Bytes) (sign : Data → Sig) (p : Producer.Prod) (s : PutSt) (e : PutEv) :
    Decidable ((putMachine digest sign p).enabled s e) :=
  inferInstanceAs (Decidable (s.failed = false ∧ e.w.encode.length ≤ maxPacket))

/-- chunks/putchunks/main.cpp:152-163: the program ends with status 1 if an exception leaves `run`. It does not end in
another way: the filters keep `processEvents` busy. -/
def PutSt.Exits (s : PutSt) (n : Nat) : Prop := s.failed = true ∧ n = 1

instance (s : PutSt) (n : Nat) : Decidable (s.Exits n) := by unfold PutSt.Exits; infer_instance

end Verif.Wire
