import Verif.Model.CatchunksAdaptiveTime
import Verif.Spec.FetchTime
import Verif.Spec.AdaptiveTime
import Verif.Spec.Catchunks

/-! # Vocabulary for the statements about `ndncatchunks` with an adaptive pipeline and a clock -/

namespace Verif.CatchunksAdaptiveTime

open Catchunks

variable {σ ε : Type}

/-- The program has terminated with the exit status `n`. -/
def St.Exits (p : Params σ ε) (s : St σ) (n : Nat) : Prop := s.c.Exits (p.pipe s.begun) n

/-- If the event reaches the pipeline, then the RTO estimator gives at most `maxRto`. -/
def RtoBelow (maxRto : Nat) : Catchunks.Ev (Adaptive.Ev ε) → Prop
  | .disc _ => True
  | .pipe x => (AdaptiveTime.Ev.mk x 0 0 0).rto ≤ maxRto

/-- The program with a usable network, see `Catchunks.usableMachine`; timers are never later than `d`, and the RTO is never above
`maxRto`. -/
def usableTimed (p : Params σ ε) (d maxRto : Nat) (digest : Data → Bytes) (prod : Producer.Prod) (conv : Convention) (fresh : Bool)
    (name : Name) : Machine (St σ) (Ev ε) :=
  { init := init p name
    step := St.step p
    enabled := fun s e => s.enabled p (some d) name e ∧
      (usableMachine p.A p.ao p.w (p.env e.t) p.disc digest prod conv fresh name).enabled s.c e.ev ∧ RtoBelow maxRto e.ev }

/-- The events `es`, that led to the state `s`, do not lose too much, see `Adaptive.FewLosses`. -/
def FewLosses (p : Params σ ε) (segs : List Bytes) (es : List (Ev ε)) (s : St σ) : Prop :=
  Adaptive.FewLosses p.A p.ao p.w (p.env s.begun) segs (pipeEvents (es.map (·.ev)))

/-- How often the events `es`, that led to the state `s`, tell the loss of an Interest for one of the first `n` segments. -/
def losses (p : Params σ ε) (n : Nat) (es : List (Ev ε)) (s : St σ) : Nat :=
  AdaptiveTime.losses p.A p.ao p.w (p.env s.begun) n (pipeEvents (es.map (·.ev)))

end Verif.CatchunksAdaptiveTime
