import Verif.Model.PutVerbose
import Verif.Spec.Producer

/-! # What the verbose lines of ndnputchunks tell -/

namespace Verif.PutVerbose

open Producer Wire

/-- The Interest that a line is about. -/
def Line.about : Line → Option Interest
  | .discovery i => some i
  | .interest i => some i
  | _ => none

/-- The packet that a line says is sent. -/
def Line.says : Line → Option Reply
  | .lacksCanBePrefix => some .nack
  | .unsatisfied => some .nack
  | .metadata n f v => some (.metadata n f v)
  | .data d => some (.data d)
  | _ => none

/-- The Interests that arrived. -/
def arrived : List Ev → List WireInterest
  | [] => []
  | .interest w _ :: es => w :: arrived es
  | .flush :: es => arrived es

/-- The lines for one Interest: none if it does not concern the published object; for a segment that exists its packet, for one that does not
exist the message about a Nack; for other Interests in the versioned prefix, and for the prefix, the first packet if it satisfies the Interest;
for version discovery the metadata packet, or the message about a Nack, or nothing more if a packet of this name would not be metadata. -/
structure Told (digest : Data → Bytes) (p : Prod) (i : Interest) (b : List Line) : Prop where
  other : ¬ Concerns p i → b = []
  segment : ∀ c k, AsksSegment p i c → c.toSegment = some k →
    (∀ d, p.store[k]? = some d → b = [.interest i, .data d]) ∧ (p.store.length ≤ k → b = [.interest i, .unsatisfied])
  first : ∀ d, p.store[0]? = some d →
    (i.name = p.pre ∨ (p.versionedPrefix <+: i.name ∧ ∀ c, AsksSegment p i c → c.isSegment = false)) →
    (Satisfies digest d i → b = [.interest i, .data d]) ∧ (¬ Satisfies digest d i → b = [.interest i, .unsatisfied])
  nack : p.pre ++ [metadataComp] <+: i.name → i.canBePrefix = false → b = [.discovery i, .lacksCanBePrefix]
  metadata : p.pre ++ [metadataComp] <+: i.name → i.canBePrefix = true →
    (i.name.getLast? = some metadataComp ∨ isValidMetadataName i.name = true) →
    ∃ n, b = [.discovery i, .metadata n 10 p.versionedPrefix] ∧ i.name <+: n ∧ isValidMetadataName n = true
  invalid : p.pre ++ [metadataComp] <+: i.name → i.canBePrefix = true → i.name.getLast? ≠ some metadataComp →
    isValidMetadataName i.name = false → b = [.discovery i]

/-- The claim: what the lines say is sent, was sent when the program ends. -/
def Truthful (digest : Data → Bytes) (sign : Data → Sig) (p : Prod) : Prop :=
  ∀ es s, (machine digest sign p).Run es s → s.failed = true → s.lines.filterMap Line.says = s.sent

end Verif.PutVerbose
