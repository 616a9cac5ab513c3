import Verif.Spec.Adaptive

/-! # What the summaries of the pipelines should say -/

namespace Verif.Adaptive

variable {σ ε : Type}

/-- The number of segments that time out in this event: the segment whose Interest lifetime expires, or the segments
that an RTO check finds outstanding for longer than their RTO. Nothing counts after the end. -/
def timeoutsIn (s : St σ) : Ev ε → Nat
  | .expire _ _ => if s.isStopping ∨ s.threw.isSome ∨ s.ub then 0 else 1
  | .check _ v => if s.isStopping ∨ s.threw.isSome ∨ s.ub then 0
      else s.info.countP (fun e => decide (e.2.state ≠ .inRetxQueue ∧ v.now - e.2.timeSent > e.2.rto))
  | _ => 0

/-- The sum over an execution from `s` on. -/
def timeouts (A : Alg σ ε) (o : Opts) (s : St σ) : List (Ev ε) → Nat
  | [] => 0
  | e :: es => timeoutsIn s e + timeouts A o (s.step A o e) es

/-- The event is a Nack with reason Congestion. -/
def Ev.isCongestion : Ev ε → Bool
  | .nack _ .congestion _ => true
  | _ => false

end Verif.Adaptive
