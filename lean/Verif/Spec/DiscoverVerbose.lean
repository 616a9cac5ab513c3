import Verif.Model.DiscoverVerbose
import Verif.Spec.Discover

/-! # What the lines of the version discovery tell -/

namespace Verif.DiscoverVerbose

open Discover

/-- The line is about an Interest without Data: a Nack or a timeout. -/
def Line.isSetback : Line → Bool
  | .nack _ => true
  | .timeout => true
  | _ => false

/-- The fetch was given up. -/
def gaveUp (log : List Obs) : Bool :=
  log.any fun
    | .failure (.nack _) => true
    | .failure (.timeout _) => true
    | _ => false

/-- The discovery waits before it sends the next Interest. -/
def waiting (s : Discover.St) : Bool := s.fetcher.any fun f => f.timer.isSome

/-- The line that belongs to a result: Data for a failure because of what came, Data and the version for a name, and the last Nack or
timeout if the fetch was given up. -/
def Tells : Obs → Line → Prop
  | .success n, l => ∃ c v, n = c ++ [v] ∧ l = .discovered (DumpText.compText v)
  | .failure .invalidMetadata, l => ∃ n, l = .data n
  | .failure .notVersioned, l => ∃ n, l = .data n
  | .failure (.nack (.nack r)), l => l = .nack r
  | .failure (.nack _), l => ∃ r, l = .nack r
  | .failure (.timeout _), l => l = .timeout
  | .interest, _ => False

end Verif.DiscoverVerbose
