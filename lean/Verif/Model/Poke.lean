import Verif.Model.Machine
import Verif.Model.Name

/-!
# Model of ndnpoke

`tools/peek/ndnpoke/ndnpoke.cpp` and the exit status of `main.cpp:155-168`. Verbose output (see `Model/PeekVerbose`) and signing are left out.
-/

namespace Verif.Poke

/-- ndnpoke.hpp:45-57 `PokeOptions` (times in milliseconds). -/
structure Opts where
  name : Name
  freshnessPeriod : Nat := 0
  wantFinalBlockId : Bool := false
  wantUnsolicited : Bool := false
  timeout : Option Nat := none
  deriving DecidableEq, Repr

/-- ndnpoke.hpp:64-71. -/
inductive Result
  | dataSent
  | unknown
  | timeout
  | prefixRegFail
  deriving DecidableEq, Repr

/-- The exit status. -/
def Result.code : Result → Nat
  | .dataSent => 0
  | .unknown => 1
  | .timeout => 3
  | .prefixRegFail => 5

/-- ndnpoke.cpp:61-77 `createData`; `none` when `name.at(-1)` throws because the name is empty. -/
def createData (o : Opts) (input : Bytes) : Option Data :=
  match o.wantFinalBlockId, o.name.getLast? with
  | true, none => none
  | true, some c => some { name := o.name, content := input, final := some c, freshness := o.freshnessPeriod }
  | false, _ => some { name := o.name, content := input, final := none, freshness := o.freshnessPeriod }

/-- ndnpoke.hpp:102-109. `registering`: the registration has no result yet; `active`: the Interest filter is set;
`cancelled`: `m_registeredPrefix.cancel()` was called; `sent`: the Data that were put on the face. -/
structure St where
  registering : Bool := false
  active : Bool := false
  cancelled : Bool := false
  timer : Bool := false
  result : Result := .unknown
  sent : List Data := []
  threw : Bool := false
  deriving DecidableEq, Repr

/-- ndnpoke.cpp:79-88 `sendData`. -/
def St.sendData (s : St) (d : Data) : St := { s with sent := s.sent ++ [d], result := .dataSent }

/-- ndnpoke.cpp:46-59 `start`. -/
def start (o : Opts) (input : Bytes) : St :=
  match createData o input with
  | none => { threw := true }
  | some d => if o.wantUnsolicited then St.sendData {} d else { registering := true }

/-- The result of the prefix registration, an Interest, the timer. -/
inductive Ev
  | regSuccess
  | regFailure
  | interest (i : Interest)
  | timer
  deriving DecidableEq, Repr

/-- ndnpoke.cpp:90-131, one event. -/
def St.step (digest : Data → Bytes) (o : Opts) (input : Bytes) (s : St) : Ev → St
  | .regSuccess => { s with registering := false, active := true, timer := o.timeout.isSome }
  | .regFailure => { s with registering := false, result := .prefixRegFail }
  | .interest i =>
    match createData o input with
    | none => s
    | some d => if i.matchesData digest d then { s with timer := false, cancelled := true }.sendData d else s
  | .timer => { s with timer := false, result := .timeout, cancelled := true }

/-- Which events can happen. The Interest filter becomes active with the registration. Cancelling is asynchronous, so
Interests may come afterwards. -/
def St.enabled (o : Opts) (s : St) : Ev → Prop
  | .regSuccess => s.registering = true
  | .regFailure => s.registering = true
  | .interest i => s.active = true ∧ o.name <+: i.name
  | .timer => s.timer = true

instance (o : Opts) (s : St) (e : Ev) : Decidable (s.enabled o e) := by
  cases e <;> unfold St.enabled <;> infer_instance

/-- ndnpoke as a machine: `start` of ndnpoke.cpp and the handlers. -/
def machine (digest : Data → Bytes) (o : Opts) (input : Bytes) : Machine St Ev :=
  { init := start o input, step := St.step digest o input, enabled := St.enabled o }

instance (digest : Data → Bytes) (o : Opts) (input : Bytes) (s : St) (e : Ev) :
    Decidable ((machine digest o input).enabled s e) :=
  inferInstanceAs (Decidable (s.enabled o e))

/-- main.cpp:155-168: the program terminates with status `n`. -/
def St.Exits (s : St) (n : Nat) : Prop :=
  if s.threw then n = 1
  else s.registering = false ∧ s.timer = false ∧ (s.active = true → s.cancelled = true) ∧ n = s.result.code

instance (s : St) (n : Nat) : Decidable (s.Exits n) := by unfold St.Exits; infer_instance

end Verif.Poke
