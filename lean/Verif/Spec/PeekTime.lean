import Verif.Model.PeekTime

/-! # Vocabulary for the statements about the times of ndnpeek and ndnpoke -/

namespace Verif.PeekTime

/-- Both durations of ndnpeek, in nanoseconds, are less than 2^63. -/
def InRange (o : Peek.Opts) : Prop :=
  o.interestLifetime * 1000000 < 2 ^ 63 ∧ ∀ w ∈ o.timeout, w * 1000000 < 2 ^ 63

/-- When ndnpeek is to give up, in nanoseconds: after the lifetime of the Interest or after the time limit, if there is one and it
is shorter. -/
def deadline (o : Peek.Opts) : Nat :=
  match o.timeout with
  | none => o.interestLifetime * 1000000
  | some w => min o.interestLifetime w * 1000000

end Verif.PeekTime

namespace Verif.PokeTime

/-- The Data were put on the face at these times: an Interest that `d` satisfies came in. -/
def sendTimes (digest : Data → Bytes) (d : Data) (es : List Ev) : List Nat :=
  es.filterMap fun e => match e.kind with
    | .interest i => if i.matchesData digest d then some e.t else none
    | _ => none

end Verif.PokeTime
