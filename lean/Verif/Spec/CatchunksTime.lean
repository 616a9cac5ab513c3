import Verif.Model.CatchunksTime
import Verif.Spec.FetchTime
import Verif.Spec.Catchunks

/-! # Vocabulary for the statements about `ndncatchunks` with a clock -/

namespace Verif.CatchunksTime

open Catchunks

/-- The program has terminated. -/
def St.Terminated (N : Nat) (R : Int) (s : St) : Prop := ∃ n, s.c.Exits (fixedPipe N R) n

/-- How many segments the pipeline has delivered. -/
def St.delivered (s : St) : Nat :=
  match s.c.pipe with
  | none => 0
  | some (_, q) => (Fixed.received q.log).length

/-- The program over a network where all Data come from the given producer. -/
def netMachine (late : Option Nat) (life N : Nat) (R : Int) (disable : Bool) (digest : Data → Bytes) (prod : Producer.Prod)
    (conv : Convention) (fresh : Bool) (name : Name) : Machine St Ev :=
  { init := init N R disable name
    step := St.step N R
    enabled := fun s e => s.enabled late life N R name e ∧ FromProducer (fixedPipe N R) digest prod conv fresh s.c e.ev }

end Verif.CatchunksTime
