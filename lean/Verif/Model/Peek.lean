import Verif.Model.Machine
import Verif.Model.Name

/-!
# Model of ndnpeek

`tools/peek/ndnpeek/ndnpeek.cpp` and the exit status of `main.cpp:191-203`. Verbose output is left out here, see `Model/PeekVerbose`.
-/

namespace Verif.Peek

/-- ndnpeek.hpp:47-62 `PeekOptions` (times in milliseconds). -/
structure Opts where
  name : Name
  canBePrefix : Bool := false
  mustBeFresh : Bool := false
  forwardingHint : List Name := []
  interestLifetime : Nat := 4000
  hopLimit : Option Nat := none
  applicationParameters : Option Bytes := none
  wantPayloadOnly : Bool := false
  timeout : Option Nat := none
  deriving DecidableEq, Repr

/-- An Interest with all the fields that ndnpeek sets. -/
structure FullInterest where
  name : Name
  canBePrefix : Bool
  mustBeFresh : Bool
  forwardingHint : List Name
  lifetime : Nat
  hopLimit : Option Nat
  applicationParameters : Option Bytes
  deriving DecidableEq, Repr

/-- TLV type of `ParametersSha256DigestComponent`. -/
def ttParamsDigest : Nat := 2

/-- ndnpeek.cpp:61-81 `createInterest`. `setApplicationParameters` adds a component with the digest of the parameters
to the name (the name given by the user has none). -/
def createInterest (digest : Bytes → Bytes) (o : Opts) : FullInterest :=
  { name := o.name ++ (match o.applicationParameters with
      | none => []
      | some b => [⟨ttParamsDigest, digest b⟩])
    canBePrefix := o.canBePrefix
    mustBeFresh := o.mustBeFresh
    forwardingHint := o.forwardingHint
    lifetime := o.interestLifetime
    hopLimit := o.hopLimit
    applicationParameters := o.applicationParameters }

/-- ndnpeek.hpp:69-75. -/
inductive Result
  | data
  | unknown
  | timeout
  | nack
  deriving DecidableEq, Repr

/-- The exit status, ndnpeek.hpp:69-75 and main.cpp:198. -/
def Result.code : Result → Nat
  | .data => 0
  | .unknown => 1
  | .timeout => 3
  | .nack => 4

/-- What is written to the standard output: the encoded Data, its payload, the encoded Nack header, or the reason
as text. -/
inductive Out
  | packet (d : Data)
  | payload (b : Bytes)
  | nackHeader (r : NackReason)
  | nackText (r : NackReason)
  deriving DecidableEq, Repr

/-- ndnpeek.hpp:116-122. `pending`: the face may still call back; `handle`: the pending Interest was not cancelled. -/
structure St where
  interests : List FullInterest := []
  pending : Bool := false
  handle : Bool := true
  timer : Bool := false
  result : Result := .unknown
  out : List Out := []
  deriving DecidableEq, Repr

/-- ndnpeek.cpp:43-59 `start`. -/
def start (digest : Bytes → Bytes) (o : Opts) : St :=
  { interests := [createInterest digest o], pending := true, timer := o.timeout.isSome }

/-- The three callbacks of the Interest, and the timer. -/
inductive Ev
  | data (d : Data)
  | nack (r : NackReason)
  | expire
  | timer
  deriving DecidableEq, Repr

/-- ndnpeek.cpp:89-107 `onData`. -/
def St.onData (o : Opts) (s : St) (d : Data) : St :=
  { s with result := .data, timer := false,
           out := s.out ++ [if o.wantPayloadOnly then .payload d.content else .packet d] }

/-- ndnpeek.cpp:109-128 `onNack`. -/
def St.onNack (o : Opts) (s : St) (r : NackReason) : St :=
  { s with result := .nack, timer := false,
           out := s.out ++ [if o.wantPayloadOnly then .nackText r else .nackHeader r] }

/-- ndnpeek.cpp:130-139 `onTimeout`. -/
def St.onTimeout (s : St) : St := { s with result := .timeout, timer := false }

/-- One event; the timer as in ndnpeek.cpp:52-55. -/
def St.step (o : Opts) (s : St) : Ev → St
  | .data d => { s with pending := false }.onData o d
  | .nack r => { s with pending := false }.onNack o r
  | .expire => { s with pending := false }.onTimeout
  | .timer => { s with timer := false, handle := false }.onTimeout

/-- Which events can happen. Cancelling the pending Interest is asynchronous, so a callback may come after the timer. -/
def St.enabled (s : St) : Ev → Prop
  | .timer => s.timer = true
  | _ => s.pending = true

instance (s : St) (e : Ev) : Decidable (s.enabled e) := by
  cases e <;> unfold St.enabled <;> infer_instance

/-- ndnpeek as a machine: `start` of ndnpeek.cpp and the handlers. -/
def machine (digest : Bytes → Bytes) (o : Opts) : Machine St Ev :=
  { init := start digest o, step := St.step o, enabled := St.enabled }

instance (digest : Bytes → Bytes) (o : Opts) (s : St) (e : Ev) : Decidable ((machine digest o).enabled s e) :=
  inferInstanceAs (Decidable (s.enabled e))

/-- main.cpp:195-198: `processEvents` returns because there is neither a timer nor a pending Interest that was not
cancelled, and the program terminates with status `n`. -/
def St.Exits (s : St) (n : Nat) : Prop :=
  s.timer = false ∧ (s.pending = true → s.handle = false) ∧ n = s.result.code

instance (s : St) (n : Nat) : Decidable (s.Exits n) := by unfold St.Exits; infer_instance

end Verif.Peek
