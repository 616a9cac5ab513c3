import Verif.Model.Basic
import Verif.Model.Machine

/-!
# Model of `Consumer`

`tools/chunks/catchunks/consumer.{hpp,cpp}`: validation and in-order output of the segments that
the pipeline delivers. The validator is any validator: it calls back once per packet, at any time
and in any order, with success or failure. Writing to the output stream is assumed to succeed.
-/

namespace Verif.Consumer

/-- The exceptions of consumer.cpp.
* `appNack`: `ApplicationNackError` (consumer.cpp:68),
* `invalid`: `DataValidationError` (consumer.cpp:75),
* `failure`: the `std::runtime_error` of consumer.cpp:52,55 (the pipeline or the version discovery
  failed). -/
inductive Exn
  | appNack
  | invalid
  | failure
  deriving DecidableEq, Repr

/-- consumer.hpp:95-104 member variables.
* `validating`: the packets given to the validator for which it has not called back,
* `buffered`: `m_bufferedData`, a `std::map`, as a list ordered by segment number; of each packet
  the content is kept,
* `out`: what was written to `m_outputStream`,
* `threw`: the exception that left a handler. -/
structure St where
  validating : List (Nat × Pkt) := []
  buffered : List (Nat × Bytes) := []
  nextToPrint : Nat := 0
  out : Bytes := []
  threw : Option Exn := none
  deriving DecidableEq, Repr

/-- `map[k] = c` for a `std::map` (consumer.cpp:71). -/
def mapSet (k : Nat) (c : Bytes) : List (Nat × Bytes) → List (Nat × Bytes)
  | [] => [(k, c)]
  | (j, d) :: rest =>
    if k < j then (k, c) :: (j, d) :: rest
    else if k = j then (k, c) :: rest
    else (j, d) :: mapSet k c rest

/-- consumer.cpp:79-88 `writeInOrderData`; arguments: `m_bufferedData` (from its begin on),
`m_nextToPrint` and the bytes written so far. -/
def writeLoop : List (Nat × Bytes) → Nat → Bytes → List (Nat × Bytes) × Nat × Bytes
  | [], next, out => ([], next, out)
  | (j, c) :: rest, next, out =>
    if j = next then writeLoop rest (next + 1) (out ++ c) else ((j, c) :: rest, next, out)

namespace St

/-- consumer.cpp:79-88 `writeInOrderData`. -/
def writeInOrderData (s : St) : St :=
  let r := writeLoop s.buffered s.nextToPrint s.out
  { s with buffered := r.1, nextToPrint := r.2.1, out := r.2.2 }

/-- consumer.cpp:66-73: the validator accepted the packet. -/
def onValid (s : St) (k : Nat) (p : Pkt) : St :=
  if p.appNack then { s with threw := some .appNack }
  else { s with buffered := mapSet k p.content s.buffered }.writeInOrderData

/-- consumer.cpp:74-76: the validator rejected the packet. -/
def onInvalid (s : St) : St := { s with threw := some .invalid }

end St

/-- What can happen to the consumer: the pipeline delivers a packet (consumer.cpp:59-65
`handleData`: it is given to the validator), or the validator calls back. -/
inductive Ev
  | data (k : Nat) (p : Pkt)
  | valid (k : Nat) (p : Pkt)
  | invalid (k : Nat) (p : Pkt)
  deriving DecidableEq, Repr

/-- One event. After an exception left a handler nothing more happens. -/
def St.step (s : St) (e : Ev) : St :=
  if s.threw.isSome then s else
  match e with
  | .data k p => { s with validating := s.validating ++ [(k, p)] }
  | .valid k p => { s with validating := s.validating.erase (k, p) }.onValid k p
  | .invalid k p => { s with validating := s.validating.erase (k, p) }.onInvalid

/-- The validator calls back for packets that were given to it. -/
def St.enabled (s : St) : Ev → Prop
  | .data _ _ => True
  | .valid k p => (k, p) ∈ s.validating
  | .invalid k p => (k, p) ∈ s.validating

instance (s : St) (e : Ev) : Decidable (s.enabled e) := by
  cases e <;> unfold St.enabled <;> infer_instance

/-- consumer.cpp:40-46: `run` resets the member variables. -/
def machine : Machine St Ev := { init := {}, step := St.step, enabled := St.enabled }

instance (s : St) (e : Ev) : Decidable (machine.enabled s e) :=
  inferInstanceAs (Decidable (s.enabled e))

/-- The consumer with the validator of main.cpp:291 (`ValidatorPolicy` accept-all), which calls back
with success at once: what the delivery of a packet does. -/
def St.accept (s : St) (k : Nat) (p : Pkt) : St := (s.step (.data k p)).step (.valid k p)

end Verif.Consumer
