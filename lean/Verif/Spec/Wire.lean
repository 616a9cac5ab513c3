import Verif.Model.Wire
import Verif.Spec.Producer

/-! # Vocabulary for the statements about packet sizes -/

namespace Verif.Wire

/-- The encoded Nonce that every Interest carries. -/
def nonceElement (a b c d : UInt8) : Bytes := [10, 4, a, b, c, d]

/-- The Interests that arrived at the ping server. -/
def PingEv.plain : PingEv → PingServer.Ev
  | .interest w => .interest w.i
  | .sigint => .sigint

/-- The claim C75 for the ping server: it does not stop because of an Interest. -/
def PingStaysUp (hash : Data → Bytes) (o : PingServer.Opts) : Prop :=
  ∀ es s, (pingMachine hash o).Run es s → s.failed = false

/-- The claim C75 for ndnputchunks. -/
def PutStaysUp (digest : Data → Bytes) (sign : Data → Sig) (p : Producer.Prod) : Prop :=
  ∀ es s, (putMachine digest sign p).Run es s → s.failed = false

/-- An Interest that leaves room for the header of a Nack, and, if it is one for version discovery, has a name as
consumers use it, which leaves room for the rest of a metadata packet. -/
structure Moderate (p : Producer.Prod) (sigSize : Nat) (w : WireInterest) : Prop where
  size : w.encode.length + 12 ≤ maxPacket
  discovery : p.pre ++ [metadataComp] <+: w.i.name →
    (w.i.name.getLast? = some metadataComp ∨ isValidMetadataName w.i.name = true) ∧
    (encodeName w.i.name).length + (encodeName p.versionedPrefix).length + sigSize + 100 ≤ maxPacket

end Verif.Wire
