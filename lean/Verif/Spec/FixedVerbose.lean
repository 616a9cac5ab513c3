import Verif.Model.FixedVerbose
import Verif.Spec.FixedMsg

/-! # What the lines of the fixed pipeline tell -/

namespace Verif.FixedVerbose

open Fixed

/-- The segments in the lines "Requesting segment", in order. -/
def requests (lines : List Line) : List Nat := lines.filterMap fun | .requesting k => some k | _ => none

/-- The segments in the lines "Received segment", in order. -/
def receipts (lines : List Line) : List Nat := lines.filterMap fun | .received k => some k | _ => none

/-- The lines "Requesting segment" and "Received segment", in order. -/
def steps (lines : List Line) : List Line := lines.filter fun | .requesting _ => true | .received _ => true | _ => false

/-- What happens in a history: segments are requested for the first time, and segments are passed to the callback; `seen`
are the segments that were requested before. -/
def didAfter (seen : List Nat) : List Obs → List Line
  | [] => []
  | .interest k :: rest => if k ∈ seen then didAfter seen rest else .requesting k :: didAfter (k :: seen) rest
  | .data k _ :: rest => .received k :: didAfter seen rest
  | _ :: rest => didAfter seen rest

def did (log : List Obs) : List Line := didAfter [] log

/-- The Nacks and timeouts that the lines tell, in order. -/
def told (lines : List Line) : List (Nat × Happened) :=
  lines.filterMap fun
    | .nack k r => some (k, .nack r)
    | .timeout k => some (k, .timeout)
    | _ => none

/-- The Nacks and timeouts in a story. -/
def setbacks (h : List (Nat × Happened)) : List (Nat × Happened) :=
  h.filter fun x => match x.2 with | .nack _ => true | .timeout => true | _ => false

/-- The number of lines about Nacks and timeouts of segment `k`. -/
def toldOf (k : Nat) (lines : List Line) : Nat := (told lines).countP fun x => decide (x.1 = k)

/-- The number of Interests for segment `k`. -/
def sent (k : Nat) (log : List Obs) : Nat := log.count (.interest k)

end Verif.FixedVerbose
