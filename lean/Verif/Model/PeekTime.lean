import Verif.Model.Peek
import Verif.Model.Poke
import Verif.Model.PingTime

/-!
# ndnpeek and ndnpoke with a clock

`tools/peek/ndnpeek/ndnpeek.cpp` and `tools/peek/ndnpoke/ndnpoke.cpp` with the time at which each event happens, in nanoseconds
since the start. Handlers take no time. The scheduler and the timer of a pending Interest, both of ndn-cxx, fire when they are
due or later; with `late` a bound for the delay is given.
-/

namespace Verif.PeekTime

open PingTime (ns overflows)

/-- The program; the time of the last event; the round-trip time in milliseconds that `--verbose` prints; `ub`: the signed
multiplication of a duration has overflowed. -/
structure St where
  prog : Peek.St
  now : Nat := 0
  rtt : Option Nat := none
  ub : Bool := false
  deriving DecidableEq

/-- An event and when it happens. -/
structure Ev where
  kind : Peek.Ev
  t : Nat
  deriving DecidableEq, Repr

/-- ndnpeek.cpp:43-59 `start` at time 0: `expressInterest` and `schedule` convert the two durations to nanoseconds. -/
def start (digest : Bytes → Bytes) (o : Peek.Opts) : St :=
  { prog := Peek.start digest o
    ub := overflows o.interestLifetime || o.timeout.any overflows }

/-- ndnpeek.cpp:95-99 and 116-120 print the time since the start. -/
def Ev.rtt (old : Option Nat) (e : Ev) : Option Nat :=
  match e.kind with
  | .data _ => some (e.t / 10 ^ 6)
  | .nack _ => some (e.t / 10 ^ 6)
  | _ => old

/-- One event. -/
def St.step (o : Peek.Opts) (s : St) (e : Ev) : St :=
  if s.ub then s
  else
    { s with
      prog := s.prog.step o e.kind
      now := e.t
      rtt := e.rtt s.rtt }

/-- Time does not go backwards, no timer fires early, and, if there is a bound for the delay, none is left waiting for longer.
`cancel` (ndnpeek.cpp:53) is posted, and so takes effect with at most this delay. -/
def St.enabled (late : Option Nat) (o : Peek.Opts) (s : St) (e : Ev) : Prop :=
  s.prog.enabled e.kind ∧ s.now ≤ e.t ∧
  (e.kind = .expire → ns o.interestLifetime ≤ e.t) ∧
  (e.kind = .timer → ∀ w ∈ o.timeout, ns w ≤ e.t) ∧
  (∀ d ∈ late, (s.prog.timer = true → ∀ w ∈ o.timeout, e.t ≤ ns w + d) ∧
    (s.prog.pending = true → e.t ≤ (if s.prog.handle then ns o.interestLifetime else s.now) + d))

instance (late : Option Nat) (o : Peek.Opts) (s : St) (e : Ev) : Decidable (s.enabled late o e) := by
  unfold St.enabled; infer_instance

/-- ndnpeek with a clock. -/
def machine (late : Option Nat) (digest : Bytes → Bytes) (o : Peek.Opts) : Machine St Ev :=
  { init := start digest o, step := St.step o, enabled := St.enabled late o }

instance (late : Option Nat) (digest : Bytes → Bytes) (o : Peek.Opts) (s : St) (e : Ev) :
    Decidable ((machine late digest o).enabled s e) := inferInstanceAs (Decidable (s.enabled late o e))

end Verif.PeekTime

namespace Verif.PokeTime

open PingTime (ns overflows)

/-- The program; the time of the last event; when the prefix was registered; when the registration was cancelled; `ub`: the
signed multiplication of a duration has overflowed. -/
structure St where
  prog : Poke.St
  now : Nat := 0
  regAt : Nat := 0
  cancelAt : Nat := 0
  ub : Bool := false
  deriving DecidableEq

/-- An event and when it happens. -/
structure Ev where
  kind : Poke.Ev
  t : Nat
  deriving DecidableEq, Repr

/-- How long timers are late at most, and when the registration of the prefix has a result at the latest (ndn-cxx sends the
command with a lifetime of its own, 10 s, on which the options of ndnpoke have no influence). -/
structure Late where
  delay : Nat
  registration : Nat
  deriving DecidableEq, Repr

/-- One event; the timer is set when the prefix has been registered (ndnpoke.cpp:107-125). -/
def St.step (digest : Data → Bytes) (o : Poke.Opts) (input : Bytes) (s : St) (e : Ev) : St :=
  if s.ub then s
  else
    let q := s.prog.step digest o input e.kind
    { prog := q
      now := e.t
      regAt := if e.kind = .regSuccess then e.t else s.regAt
      cancelAt := if q.cancelled ∧ ¬ s.prog.cancelled then e.t else s.cancelAt
      ub := decide (e.kind = .regSuccess) && o.timeout.any overflows }

/-- As for ndnpeek. `cancel` (ndnpoke.cpp:97 and 117) is posted, and so takes effect with at most the given delay. -/
def St.enabled (late : Option Late) (o : Poke.Opts) (s : St) (e : Ev) : Prop :=
  s.prog.enabled o e.kind ∧ s.now ≤ e.t ∧
  (e.kind = .timer → ∀ w ∈ o.timeout, s.regAt + ns w ≤ e.t) ∧
  (∀ l ∈ late, (s.prog.registering = true → e.t ≤ l.registration) ∧
    (s.prog.timer = true → ∀ w ∈ o.timeout, e.t ≤ s.regAt + ns w + l.delay) ∧
    (s.prog.cancelled = true → e.t ≤ s.cancelAt + l.delay))

instance (late : Option Late) (o : Poke.Opts) (s : St) (e : Ev) : Decidable (s.enabled late o e) := by
  unfold St.enabled; infer_instance

/-- ndnpoke with a clock, from ndnpoke.cpp:46-59 `start` at time 0. -/
def machine (late : Option Late) (digest : Data → Bytes) (o : Poke.Opts) (input : Bytes) : Machine St Ev :=
  { init := { prog := Poke.start o input }, step := St.step digest o input, enabled := St.enabled late o }

instance (late : Option Late) (digest : Data → Bytes) (o : Poke.Opts) (input : Bytes) (s : St) (e : Ev) :
    Decidable ((machine late digest o input).enabled s e) := inferInstanceAs (Decidable (s.enabled late o e))

end Verif.PokeTime
