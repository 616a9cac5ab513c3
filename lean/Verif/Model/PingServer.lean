import Verif.Model.Machine
import Verif.Model.Name

/-!
# Model of the ping server

`tools/ping/server/ping-server.cpp` and the reaction of `main.cpp:50-53` to its signal.
-/

namespace Verif.PingServer

/-- ping-server.hpp:37-45 `Options`. -/
structure Opts where
  pre : Name
  freshnessPeriod : Nat := 1000
  nMaxPings : Nat := 0
  payloadSize : Nat := 0
  deriving DecidableEq, Repr

/-- What becomes visible: the signal `afterReceive`, the Data put on the face, the signal `afterFinish`. -/
inductive Obs
  | received (n : Name)
  | reply (d : Data)
  | finish
  deriving DecidableEq, Repr

/-- ping-server.hpp:105-110. `registered`: `m_registeredPrefix` was not cancelled. -/
structure St where
  nPings : Nat := 0
  registered : Bool := true
  log : List Obs := []
  deriving DecidableEq, Repr

/-- The prefix of the Interest filter, ping-server.cpp:43. -/
def filterPrefix (o : Opts) : Name := o.pre ++ [⟨ttGeneric, [0x70, 0x69, 0x6e, 0x67]⟩]

/-- ping-server.cpp:35-37: the payload. -/
def payload (o : Opts) : Bytes := List.replicate o.payloadSize 0x61

/-- ping-server.cpp:50-54 `stop`. -/
def St.stop (s : St) : St := { s with registered := false }

/-- ping-server.cpp:67-69: the reply. -/
def reply (o : Opts) (i : Interest) : Data := { name := i.name, content := payload o, freshness := o.freshnessPeriod }

/-- ping-server.cpp:62-77 `onInterest`, with the handler of `afterFinish` (main.cpp:50-53). The
counter is a 64-bit number. `Face::put` succeeds here; for replies that are too large see `Model/Wire.lean`. -/
def St.onInterest (o : Opts) (s : St) (i : Interest) : St :=
  let s := { s with
    log := s.log ++ [Obs.received i.name, Obs.reply (reply o i)]
    nPings := (s.nPings + 1) % 2 ^ 64 }
  if o.nMaxPings > 0 ∧ o.nMaxPings = s.nPings then { s with log := s.log ++ [Obs.finish] }.stop else s

/-- Events: an Interest under the filter prefix arrives, or SIGINT. -/
inductive Ev
  | interest (i : Interest)
  | sigint
  deriving DecidableEq, Repr

/-- ping-server.cpp:61-76 for an Interest; tools/ping/server/main.cpp:55-60: the handler of SIGINT stops the server. -/
def St.step (o : Opts) (s : St) : Ev → St
  | .interest i => s.onInterest o i
  | .sigint => s.stop

/-- Unregistering is asynchronous, so Interests may still arrive afterwards. -/
def St.enabled (o : Opts) (_ : St) : Ev → Prop
  | .interest i => filterPrefix o <+: i.name
  | .sigint => True

instance (o : Opts) (s : St) (e : Ev) : Decidable (s.enabled o e) := by
  cases e <;> unfold St.enabled <;> infer_instance

/-- ping-server.cpp:40-48: the server after `start()`. -/
def machine (o : Opts) : Machine St Ev := { init := {}, step := St.step o, enabled := St.enabled o }

instance (o : Opts) (s : St) (e : Ev) : Decidable ((machine o).enabled s e) :=
  inferInstanceAs (Decidable (s.enabled o e))

end Verif.PingServer
