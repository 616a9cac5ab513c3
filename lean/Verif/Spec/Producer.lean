import Verif.Model.Producer

/-! # Vocabulary for the statements about names and the producer -/

namespace Verif.Producer

/-- The Interest name starts with the versioned name, equals the unversioned name, or is one for
version discovery. -/
def Concerns (p : Prod) (i : Interest) : Prop :=
  p.versionedPrefix <+: i.name ∨ i.name = p.pre ∨ (p.pre ++ [metadataComp]) <+: i.name

/-- The Interest asks for the segment whose number is written in the component `c`. -/
def AsksSegment (p : Prod) (i : Interest) (c : Comp) : Prop := i.name = p.versionedPrefix ++ [c]

/-- A Data (also a metadata packet) satisfies an Interest: equal names, or prefix where that is
allowed, or the Interest names the packet by its digest; and a fresh packet is wanted only if it
has a freshness period. -/
def Satisfies (digest : Data → Bytes) (d : Data) (i : Interest) : Prop :=
  (i.name = d.name ∨ (i.canBePrefix = true ∧ i.name <+: d.name) ∨
    i.name = d.name ++ [⟨ttImplicitDigest, digest d⟩]) ∧
  (i.mustBeFresh = true → 0 < d.freshness)

/-- The claim C27 for one producer. -/
def AlwaysSatisfies (digest : Data → Bytes) (p : Prod) : Prop :=
  ∀ now i d, Reply.data d ∈ p.onInterest digest now i → Satisfies digest d i

/-- The claim C26 for one producer: one reply to every Interest that concerns it. -/
def AlwaysReplies (digest : Data → Bytes) (p : Prod) : Prop :=
  ∀ now i, Concerns p i → ∃ r, p.onInterest digest now i = [r] ∧ (r ≠ .threw ∧ r ≠ .ub)

end Verif.Producer
