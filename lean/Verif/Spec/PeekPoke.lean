import Verif.Model.Peek
import Verif.Model.Poke

/-!
# `ndnpeek` and `ndnpoke` with a network between them

The network invents no Data: what reaches ndnpeek was put on its face by ndnpoke and satisfies the Interest.
-/

namespace Verif.PeekPoke

/-- The part of an Interest that decides which Data satisfy it. -/
def toInterest (i : Peek.FullInterest) : Interest := ⟨i.name, i.canBePrefix, i.mustBeFresh⟩

/-- The options and the input of the two programs, and the digests. -/
structure Setup where
  peek : Peek.Opts
  poke : Poke.Opts
  input : Bytes
  params : Bytes → Bytes
  digest : Data → Bytes

structure St where
  peek : Peek.St
  poke : Poke.St
  deriving DecidableEq, Repr

inductive Ev
  | peek (e : Peek.Ev)
  | poke (e : Poke.Ev)
  deriving DecidableEq, Repr

def St.step (u : Setup) (s : St) : Ev → St
  | .peek e => { s with peek := s.peek.step u.peek e }
  | .poke e => { s with poke := s.poke.step u.digest u.poke u.input e }

/-- Any network: it may lose, delay and duplicate, and Interests of others may reach ndnpoke. -/
def St.enabled (u : Setup) (s : St) : Ev → Prop
  | .peek (.data d) => s.peek.enabled (.data d) ∧ d ∈ s.poke.sent ∧
      ∃ i ∈ s.peek.interests, (toInterest i).matchesData u.digest d = true
  | .peek e => s.peek.enabled e
  | .poke e => s.poke.enabled u.poke e

instance (u : Setup) (s : St) (e : Ev) : Decidable (s.enabled u e) := by
  unfold St.enabled; split <;> infer_instance

def netMachine (u : Setup) : Machine St Ev :=
  { init := ⟨Peek.start u.params u.peek, Poke.start u.poke u.input⟩, step := St.step u, enabled := St.enabled u }

/-- What happens if nothing is lost, nothing fails, no time limit expires, and no one else is there. -/
def St.works (s : St) : Ev → Prop
  | .peek (.data _) => True
  | .peek _ => False
  | .poke .regSuccess => True
  | .poke (.interest i) => ∃ j ∈ s.peek.interests, toInterest j = i
  | .poke _ => False

instance (s : St) (e : Ev) : Decidable (s.works e) := by
  unfold St.works; split <;> infer_instance

def workingMachine (u : Setup) : Machine St Ev :=
  { netMachine u with enabled := fun s e => s.enabled u e ∧ s.works e }

instance (u : Setup) (s : St) (e : Ev) : Decidable ((netMachine u).enabled s e) :=
  inferInstanceAs (Decidable (s.enabled u e))
instance (u : Setup) (s : St) (e : Ev) : Decidable ((workingMachine u).enabled s e) :=
  inferInstanceAs (Decidable (s.enabled u e ∧ s.works e))

/-- The Data that ndnpoke is asked to send, as a packet. -/
structure Offers (u : Setup) (d : Data) : Prop where
  name : d.name = u.poke.name
  content : d.content = u.input
  fresh : d.freshness = u.poke.freshnessPeriod
  final : d.final = if u.poke.wantFinalBlockId then u.poke.name.getLast? else none
  blob : d.isBlob = true

/-- The second half of C77: whenever the Data that ndnpoke offers satisfies the Interest that ndnpeek sends, the
exchange can always be completed over a network that works. -/
def Claim (u : Setup) : Prop :=
  u.poke.name ≠ [] →
  (∀ i ∈ (netMachine u).init.peek.interests, ∀ d, Offers u d → (toInterest i).matchesData u.digest d = true) →
  ∀ es s, (workingMachine u).Run es s → ∃ es' s', (workingMachine u).Run (es ++ es') s' ∧ s'.peek.Exits 0 ∧ s'.poke.Exits 0

end Verif.PeekPoke
