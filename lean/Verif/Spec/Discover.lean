import Verif.Model.Discover
import Verif.Model.Producer

/-! # Vocabulary for the statements about version discovery -/

namespace Verif.Discover

/-- A result was reported. -/
def Obs.isReport : Obs → Bool
  | .interest => false
  | _ => true

/-- A well-formed metadata packet that contains the name `n`: it has the right type, its name is
`<something>/32=metadata/<version>/<segment>`, and its content is the name `n`. -/
def WellFormed (m : Meta) (n : Name) : Prop :=
  m.isBlob = true ∧ m.content = some n ∧
  ∃ a v s, m.name = a ++ [metadataComp, v, s] ∧ v.isVersion = true ∧ s.isSegment = true

/-- Data in reply to the discovery Interest comes only from a given producer, directly or from a cache:
it is a metadata packet that the producer sent at some time in reply to some Interest. -/
def FromProducer (digest : Data → Bytes) (p : Producer.Prod) : Ev → Prop
  | .data m => ∃ i now f n, Producer.Reply.metadata m.name f n ∈ p.onInterest digest now i ∧
      m = ⟨m.name, true, some n⟩
  | _ => True

/-- The claim C55: a discovered name extends the requested one. -/
def DiscoversBelow (o : Opts) (pre : Name) : Prop :=
  ∀ es s, (machine o pre).Run es s → ∀ n, Obs.success n ∈ s.log → pre <+: n

end Verif.Discover
