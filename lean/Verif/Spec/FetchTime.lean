import Verif.Model.FetchTime
import Verif.Spec.DataFetcher
import Verif.Spec.Fixed

/-! # Vocabulary for the statements about a fetch and about the fixed pipeline with a clock -/

namespace Verif.FetchTime

open PingTime (ns)

/-- How long a fetch may take when Nacks are tolerated `n` times and timeouts `t` times: an Interest is sent at most `1 + n + t` times and
waits for its lifetime, and at most `n` times there is a pause of 1 ms; each time with the delay `d`. -/
def limit (life d : Nat) (n t : Nat) : Nat := (1 + n + t) * (life + d) + n * (ns 1 + d)

end Verif.FetchTime

namespace Verif.FixedTime

open Fixed

/-- The fixed pipeline with a clock, fetching the object with segments `segs` from a consistent producer. -/
def netMachine (late : Option Nat) (life N : Nat) (R : Int) (segs : List Bytes) : Machine St Ev :=
  { init := init 0 N R
    step := St.step
    enabled := fun s e => s.enabled late life e ∧ ConsistentEv segs s.p e.ev }

end Verif.FixedTime
