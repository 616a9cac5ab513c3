import Verif.Model.DataFetcher

/-! # Vocabulary for the statements about one segment fetch -/

namespace Verif.DataFetcher

/-- Outputs that report an outcome to the caller of `fetch`: everything but sending an Interest. -/
def Out.isReport : Out → Bool
  | .interest => false
  | _ => true

/-- Whether an event is a Nack. -/
def Ev.isNack : Ev → Bool
  | .nack _ => true
  | _ => false

/-- `k+1` consecutive congestion Nacks, each but the last followed by the backoff timer. -/
def congestionBurst : Nat → List Ev
  | 0 => [.nack .congestion]
  | k + 1 => [.nack .congestion, .timer] ++ congestionBurst k

/-- The claim C04: after `k+1` consecutive congestion Nacks the fetch waits `2^k` milliseconds,
but at most 10 seconds. -/
def GrowingBackoff (n t : Int) : Prop :=
  ∀ k f outs, Run n t (congestionBurst k) f outs → f.timer = some (min (2 ^ k) 10000)

end Verif.DataFetcher
