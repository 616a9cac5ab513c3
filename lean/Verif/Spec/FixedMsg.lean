import Verif.Spec.Fixed

/-! # What the messages of the fixed pipeline claim -/

namespace Verif.Fixed

/-- What happened to a segment that was being fetched. -/
inductive Happened
  | data
  | nack (r : NackReason)
  | timeout
  | resend
  deriving DecidableEq, Repr

def Ev.happened : Ev → Option Happened
  | .data _ _ _ => some .data
  | .nack _ r => some (.nack r)
  | .timeout _ => some .timeout
  | .timer _ => some .resend
  | .cancel => none
  | .posted => none

/-- The segment whose running fetch the event reaches, and what happened to it. -/
def occurs (s : St) (e : Ev) : List (Nat × Happened) :=
  match e.pipe, e.happened with
  | some i, some x =>
    match s.slots[i]? with
    | some (some (f, k)) => if f.isRunning = true ∧ s.threw = none then [(k, x)] else []
    | _ => []
  | _, _ => []

/-- What happened to which segments in the events `es` from state `s` on. -/
def story (s : St) : List Ev → List (Nat × Happened)
  | [] => []
  | e :: es => occurs s e ++ story (s.step e) es

/-- The number of Nacks, and of timeouts, for segment `k`. -/
def nackCount (k : Nat) (h : List (Nat × Happened)) : Nat :=
  h.countP fun x => decide (x.1 = k) && match x.2 with | .nack _ => true | _ => false
def timeoutCount (k : Nat) (h : List (Nat × Happened)) : Nat :=
  h.countP fun x => decide (x.1 = k) && decide (x.2 = .timeout)

/-- A Nack with a reason that forbids another attempt arrived for segment `k`. -/
def FatalNack (h : List (Nat × Happened)) (k : Nat) (r : NackReason) : Prop :=
  (k, .nack r) ∈ h ∧ r ≠ .duplicate ∧ r ≠ .congestion

/-- The limit `R` of retries is exceeded: there is one (-1 stands for none) and one more happened. -/
def Exceeded (R : Int) (n : Nat) : Prop := R ≠ -1 ∧ (n : Int) = R + 1

/-- The fetch of segment `k` has failed. -/
def Failed (R : Int) (h : List (Nat × Happened)) (k : Nat) : Prop :=
  (∃ r, FatalNack h k r) ∨ Exceeded R (nackCount k h) ∨ Exceeded R (timeoutCount k h)

/-- The segment number in the FinalBlockId of the first Data with one that was passed to the callback. -/
def announced (log : List Obs) : Option Nat :=
  (log.filterMap fun
    | .data _ p => match p.final with
      | .seg n => some n
      | _ => none
    | _ => none).head?

/-- Segment `k` was requested and has not been delivered. -/
def Missing (log : List Obs) (k : Nat) : Prop := Obs.interest k ∈ log ∧ k ∉ received log

/-- Segment `k` is missing and part of the object, as far as its end was announced. -/
def Needed (log : List Obs) (k : Nat) : Prop := Missing log k ∧ ∃ n, announced log = some n ∧ k ≤ n

/-- What the message claims: a Nack with this reason arrived for a needed segment; the limit was exceeded for one; the fetch
of this needed segment failed; nothing tells the end of the object. -/
def Truth (R : Int) (h : List (Nat × Happened)) (log : List Obs) : FailMsg → Prop
  | .nack r => ∃ k, FatalNack h k r ∧ Needed log k
  | .maxNackRetries n => n = R ∧ ∃ k, Exceeded R (nackCount k h) ∧ Needed log k
  | .maxTimeoutRetries n => n = R ∧ ∃ k, Exceeded R (timeoutCount k h) ∧ Needed log k
  | .segment k => Failed R h k ∧ Needed log k
  | .noFinal => announced log = none
  | _ => False

/-- What is true of the message about a missing end: a request failed for a missing segment that lies beyond the
announced end, if one was announced. -/
def BeyondFailed (R : Int) (h : List (Nat × Happened)) (log : List Obs) : Prop :=
  ∃ k, Failed R h k ∧ Missing log k ∧ ∀ n, announced log = some n → n < k

end Verif.Fixed
