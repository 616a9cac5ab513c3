import Verif.Spec.Ping

/-!
# The ping client with a clock

`tools/ping/client/ping.cpp` with the time at which each event happens, in nanoseconds since the start. Handlers take no time.
The scheduler and the timer of a pending Interest, both of ndn-cxx, fire when they are due or later; with `late` a bound for
the delay is given.
-/

namespace Verif.PingTime

open Ping

/-- `time::milliseconds` in `time::nanoseconds`. -/
def ns (ms : Nat) : Nat := ms * 10 ^ 6

/-- The conversion is a multiplication of signed 64 bit numbers. -/
def overflows (ms : Nat) : Bool := decide (2 ^ 63 ≤ ns ms)

/-- The program; the time of the last event; when `m_nextPingEvent` is due; the sequence number and the time of sending of each
Interest; `ub`: the signed multiplication of a duration has overflowed. -/
structure St where
  prog : Prog
  now : Nat := 0
  nextAt : Nat := 0
  sends : List (Nat × Nat) := []
  ub : Bool := false

/-- What happens to a timed program when the program goes to `q` at time `t`. An Interest has been sent if the history has
grown by one: `expressInterest` sets a timer for the lifetime (ping.cpp:60-66), and line 73 schedules the next ping. -/
def St.goto (o : Opts) (interval : Nat) (s : St) (old : List Obs) (q : Prog) (t : Nat) : St :=
  let new := (sent (q.ping.log.drop old.length)).map fun n => (n, t)
  { prog := q
    now := t
    nextAt := if new.isEmpty then s.nextAt else t + ns interval
    sends := s.sends ++ new
    ub := s.ub || (!new.isEmpty && (overflows o.timeout.toNat || (q.ping.timer && overflows interval))) }

/-- The events without the measured times. -/
inductive Kind
  | timer
  | data (seq : Nat)
  | nack (seq : Nat) (r : NackReason)
  | timeout (seq : Nat)
  | sigint
  | sigquit
  deriving DecidableEq, Repr

/-- An event and when it happens. -/
structure Ev where
  kind : Kind
  t : Nat
  deriving DecidableEq, Repr

/-- ping.cpp:63-66: the variable `now` that the callbacks have captured. -/
def St.sentAt (s : St) (q : Nat) : Nat := (s.sends.lookup q).getD 0

/-- ping.cpp:83 and 91: the round-trip time is the time that has passed since the Interest was sent. -/
def St.event (s : St) (e : Ev) : PEv :=
  match e.kind with
  | .timer => .ping .timer
  | .data q => .ping (.data q (e.t - s.sentAt q))
  | .nack q r => .ping (.nack q (e.t - s.sentAt q) r)
  | .timeout q => .ping (.timeout q)
  | .sigint => .sigint
  | .sigquit => .sigquit

/-- One event. -/
def St.step (r : ℚ → ℚ) (o : Opts) (interval : Nat) (s : St) (e : Ev) : St :=
  if s.ub then s else s.goto o interval s.prog.ping.log (s.prog.step r o (s.event e)) e.t

/-- Time does not go backwards, no timer fires early, and, if there is a bound for the delay, none is left waiting for longer. -/
def St.enabled (late : Option Nat) (o : Opts) (s : St) (e : Ev) : Prop :=
  s.prog.enabled (s.event e) ∧ s.now ≤ e.t ∧
  (e.kind = .timer → s.nextAt ≤ e.t) ∧
  (∀ q ∈ s.prog.ping.pending, e.kind = .timeout q → s.sentAt q + ns o.timeout.toNat ≤ e.t) ∧
  (∀ d ∈ late, (s.prog.ping.timer = true → e.t ≤ s.nextAt + d) ∧
    ∀ q ∈ s.prog.ping.pending, e.t ≤ s.sentAt q + ns o.timeout.toNat + d)

instance (late : Option Nat) (o : Opts) (s : St) (e : Ev) : Decidable (s.enabled late o e) := by
  unfold St.enabled; infer_instance

/-- The program with a clock; the first ping is sent at time 0. -/
def machine (late : Option Nat) (r : ℚ → ℚ) (o : Opts) (interval : Nat) : Machine St Ev :=
  { init := ({ prog := Prog.start r o } : St).goto o interval [] (Prog.start r o) 0
    step := St.step r o interval
    enabled := St.enabled late o }

instance (late : Option Nat) (r : ℚ → ℚ) (o : Opts) (interval : Nat) (s : St) (e : Ev) :
    Decidable ((machine late r o interval).enabled s e) := inferInstanceAs (Decidable (s.enabled late o e))

end Verif.PingTime
