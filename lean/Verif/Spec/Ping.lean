import Verif.Model.Ping

/-! # Vocabulary for the statements about the ping client -/

namespace Verif.Ping

/-- The sequence number of the ping that an entry of the history sends. -/
def Obs.sent : Obs → Option Nat
  | .interest q _ => some q
  | _ => none

/-- The sequence number of the ping whose result an entry of the history reports. -/
def Obs.result : Obs → Option Nat
  | .data q _ => some q
  | .nack q _ _ => some q
  | .timeout q => some q
  | _ => none

/-- The sequence numbers sent and the results reported so far, in order. -/
def sent (l : List Obs) : List Nat := l.filterMap Obs.sent
def results (l : List Obs) : List Nat := l.filterMap Obs.result

/-- The round-trip times of the responses, in milliseconds. -/
def rtts (l : List Obs) : List ℚ := l.filterMap fun
  | .data _ t => some ((t : ℚ) / 10 ^ 6)
  | _ => none

/-- The numbers of responses, Nacks and timeouts. -/
def nData (l : List Obs) : Nat := l.countP fun x => match x with | .data _ _ => true | _ => false
def nNack (l : List Obs) : Nat := l.countP fun x => match x with | .nack _ _ _ => true | _ => false
def nTimeout (l : List Obs) : Nat := l.countP fun x => match x with | .timeout _ => true | _ => false

end Verif.Ping
