import Verif.Model.Consumer
import Verif.Spec.Common

/-! # Vocabulary for the statements about the consumer -/

namespace Verif.Consumer

/-- The segments that were accepted by the validator and are no application Nacks, with their
contents, in order of acceptance. -/
def arrived (es : List Ev) : List (Nat × Bytes) :=
  es.filterMap fun
    | .valid k p => if p.appNack then none else some (k, p.content)
    | _ => none

/-- The event tells that a packet is invalid or refused. -/
def Ev.isBad : Ev → Bool
  | .invalid _ _ => true
  | .valid _ p => p.appNack
  | .data _ _ => false

/-- The exception that a bad packet leads to. -/
def Ev.exn : Ev → Exn
  | .valid _ _ => .appNack
  | _ => .invalid

/-- The event brings segment `k` of an object with segments `segs`, unless it is bad. -/
def FromObject (segs : List Bytes) (es : List Ev) : Prop :=
  ∀ k c, (k, c) ∈ arrived es → segs[k]? = some c

end Verif.Consumer
