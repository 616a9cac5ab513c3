import Verif.Model.Machine
import Verif.Model.Name
import Verif.Model.Decimal
import Mathlib.Data.Real.Sqrt
import Verif.Model.Binary64

/-!
# Model of the ping client

`tools/ping/client/ping.cpp`, `statistics-collector.cpp`, and the class `Runner` of `main.cpp`.

`double` is modelled by rationals with a rounding function. Printing is not modelled beyond the values that are printed.
-/

namespace Verif.Ping

/-- `std::numeric_limits<int>::max()`. -/
def intMax : Int := 2 ^ 31 - 1

/-- ping.hpp:40-51 `Options`. With `shouldGenerateRandomSeq` (ping.cpp:36-38) `startSeq` is the random
number. The interval plays no role: the timer may fire at any time. -/
structure Opts where
  pre : Name
  shouldAllowStaleData : Bool := false
  nPings : Int := -1
  timeout : Int := 4000
  startSeq : Nat := 0
  clientIdentifier : Bytes := []
  deriving DecidableEq, Repr

/-- What becomes visible: an Interest with its sequence number, the signals `afterData` (with the round-trip time
in nanoseconds), `afterNack`, `afterTimeout`, `afterFinish`. -/
inductive Obs
  | interest (seq : Nat) (i : Interest)
  | data (seq : Nat) (rtt : Nat)
  | nack (seq : Nat) (rtt : Nat) (r : NackReason)
  | timeout (seq : Nat)
  | finish
  deriving DecidableEq, Repr

/-- ping.hpp:146-152. `pending`: the sequence numbers of the pending Interests; `timer`: `m_nextPingEvent` is
scheduled; `threw`: an exception left a handler; `assertFailed`; `ub`: signed overflow. -/
structure St where
  nSent : Int := 0
  nextSeq : Nat
  nOutstanding : Int := 0
  pending : List Nat := []
  timer : Bool := false
  threw : Bool := false
  assertFailed : Bool := false
  ub : Bool := false
  log : List Obs := []
  deriving DecidableEq, Repr

/-- ping.cpp:112-122 `makePingName`. `Name::append` of a text makes a generic component. -/
def makePingName (o : Opts) (seq : Nat) : Name :=
  o.pre ++ [⟨ttGeneric, [0x70, 0x69, 0x6e, 0x67]⟩] ++
    (if o.clientIdentifier = [] then [] else [⟨ttGeneric, o.clientIdentifier⟩]) ++ [⟨ttGeneric, decimal seq⟩]

/-- ping.cpp:103-110 `finish`. -/
def St.finish (s : St) : St :=
  let s := { s with nOutstanding := s.nOutstanding - 1 }
  if s.nOutstanding ≥ 0 then s else { s with log := s.log ++ [Obs.finish] }

/-- ping.cpp:53-78 `performPing`. `setInterestLifetime` throws for negative numbers. -/
def St.performPing (o : Opts) (s : St) : St :=
  if ¬ (o.nPings < 0 ∨ s.nSent < o.nPings) then { s with assertFailed := true }
  else if o.timeout < 0 then { s with threw := true }
  else
    let s := { s with
      log := s.log ++ [Obs.interest s.nextSeq { name := makePingName o s.nextSeq, mustBeFresh := !o.shouldAllowStaleData }]
      pending := s.pending ++ [s.nextSeq] }
    if s.nSent + 1 > intMax ∨ s.nOutstanding + 1 > intMax then { s with ub := true }
    else
      let s := { s with nSent := s.nSent + 1, nextSeq := (s.nextSeq + 1) % 2 ^ 64, nOutstanding := s.nOutstanding + 1 }
      if o.nPings < 0 ∨ s.nSent < o.nPings then { s with timer := true } else s.finish

/-- Events: the timer fires, one of the three callbacks of a pending Interest, a call of `stop()`. -/
inductive Ev
  | timer
  | data (seq : Nat) (rtt : Nat)
  | nack (seq : Nat) (rtt : Nat) (r : NackReason)
  | timeout (seq : Nat)
  | stop
  deriving DecidableEq, Repr

/-- ping.cpp:47-110, one event. After an exception left a handler, a failed assertion or
undefined behaviour nothing more happens. -/
def St.step (o : Opts) (s : St) (e : Ev) : St :=
  if s.threw || s.assertFailed || s.ub then s else
  match e with
  | .timer => { s with timer := false }.performPing o
  | .data q t => { s with pending := s.pending.erase q, log := s.log ++ [Obs.data q t] }.finish
  | .nack q t r => { s with pending := s.pending.erase q, log := s.log ++ [Obs.nack q t r] }.finish
  | .timeout q => { s with pending := s.pending.erase q, log := s.log ++ [Obs.timeout q] }.finish
  | .stop => { s with timer := false }

/-- Which events can happen. -/
def St.enabled (s : St) : Ev → Prop
  | .timer => s.timer = true
  | .data q _ => q ∈ s.pending
  | .nack q _ _ => q ∈ s.pending
  | .timeout q => q ∈ s.pending
  | .stop => True

instance (s : St) (e : Ev) : Decidable (s.enabled e) := by
  cases e <;> unfold St.enabled <;> infer_instance

/-- ping.cpp:30-45, the constructor and `start`. -/
def start (o : Opts) : St := { nextSeq := o.startSeq : St }.performPing o

/-- The ping client after `start()` was called. -/
def machine (o : Opts) : Machine St Ev := { init := start o, step := St.step o, enabled := St.enabled }

instance (o : Opts) (s : St) (e : Ev) : Decidable ((machine o).enabled s e) :=
  inferInstanceAs (Decidable (s.enabled e))

/-! ## The statistics collector

`r` is the rounding of every arithmetic operation on `double`: the identity for exact arithmetic, or
`binary64`. -/

/-- `std::numeric_limits<double>::max()`. -/
def dblMax : ℚ := (2 ^ 53 - 1) * 2 ^ 971

/-- statistics-collector.hpp:99-105. -/
structure Coll where
  nSent : Int := 0
  nReceived : Int := 0
  nNacked : Int := 0
  minRtt : ℚ := dblMax
  maxRtt : ℚ := 0
  sumRtt : ℚ := 0
  sumRttSquared : ℚ := 0
  deriving DecidableEq

/-- statistics-collector.cpp:39-52 `recordData`, the round-trip time in milliseconds. -/
def Coll.recordData (r : ℚ → ℚ) (c : Coll) (rttMs : ℚ) : Coll :=
  { c with
    nSent := c.nSent + 1
    nReceived := c.nReceived + 1
    minRtt := min c.minRtt rttMs
    maxRtt := max c.maxRtt rttMs
    sumRtt := r (c.sumRtt + rttMs)
    sumRttSquared := r (c.sumRttSquared + r (rttMs * rttMs)) }

/-- statistics-collector.cpp:54-59 `recordNack`. -/
def Coll.recordNack (c : Coll) : Coll := { c with nSent := c.nSent + 1, nNacked := c.nNacked + 1 }

/-- statistics-collector.cpp:61-65 `recordTimeout`. -/
def Coll.recordTimeout (c : Coll) : Coll := { c with nSent := c.nSent + 1 }

/-- statistics-collector.hpp:34-56 `Statistics`; `none` is NaN. -/
structure Statistics where
  nSent : Int
  nReceived : Int
  nNacked : Int
  minRtt : ℚ
  maxRtt : ℚ
  packetLossRate : Option ℚ
  packetNackedRate : Option ℚ
  sumRtt : ℚ
  avgRtt : Option ℚ
  stdDevRtt : Option ℝ

/-- statistics-collector.cpp:91-93, the value under the square root. -/
def Coll.variance (r : ℚ → ℚ) (c : Coll) : ℚ :=
  let avg := r (c.sumRtt / c.nReceived)
  r (r (c.sumRttSquared / c.nReceived) - r (avg * avg))

/-- statistics-collector.cpp:67-101 `computeStatistics`. The square root of a negative number is NaN; the
square root itself is not rounded. -/
noncomputable def Coll.computeStatistics (r : ℚ → ℚ) (c : Coll) : Statistics :=
  { nSent := c.nSent
    nReceived := c.nReceived
    nNacked := c.nNacked
    minRtt := c.minRtt
    maxRtt := c.maxRtt
    packetLossRate := if c.nSent > 0 then some (r (((c.nSent - c.nReceived - c.nNacked : Int) : ℚ) / c.nSent)) else none
    packetNackedRate := if c.nSent > 0 then some (r ((c.nNacked : ℚ) / c.nSent)) else none
    sumRtt := c.sumRtt
    avgRtt := if c.nReceived > 0 then some (r (c.sumRtt / c.nReceived)) else none
    stdDevRtt :=
      if c.nReceived > 0 then
        if c.variance r < 0 then none else some (Real.sqrt ((c.variance r : ℚ) : ℝ))
      else none }

/-! ## The program -/

/-- main.cpp:39-117 `Runner`. `signals`: the program waits for SIGINT and SIGQUIT. `reports`: the summaries that
were printed because of SIGQUIT. -/
structure Prog where
  ping : St
  coll : Coll := {}
  signals : Bool := true
  reports : List Coll := []

/-- main.cpp:79-85 `cancel`. -/
def Prog.cancel (o : Opts) (p : Prog) : Prog := { p with signals := false, ping := p.ping.step o .stop }

/-- main.cpp:52, statistics-collector.cpp:34-36: the reaction to the signals of the ping client. The
round-trip time is converted to milliseconds. -/
def Prog.onSignal (r : ℚ → ℚ) (o : Opts) (p : Prog) : Obs → Prog
  | .interest _ _ => p
  | .data _ t => { p with coll := p.coll.recordData r (r ((t : ℚ) / 10 ^ 6)) }
  | .nack _ _ _ => { p with coll := p.coll.recordNack }
  | .timeout _ => { p with coll := p.coll.recordTimeout }
  | .finish => p.cancel o

/-- Events of the program. -/
inductive PEv
  | ping (e : Ev)
  | sigint
  | sigquit
  deriving DecidableEq, Repr

/-- main.cpp:87-107, one event. -/
def Prog.step (r : ℚ → ℚ) (o : Opts) (p : Prog) : PEv → Prog
  | .ping e =>
    let q := p.ping.step o e
    (q.log.drop p.ping.log.length).foldl (Prog.onSignal r o) { p with ping := q }
  | .sigint => p.cancel o
  | .sigquit => { p with reports := p.reports ++ [p.coll] }

/-- Which events can happen. `stop()` is called by `cancel` only. -/
def Prog.enabled (p : Prog) : PEv → Prop
  | .ping e => e ≠ .stop ∧ p.ping.threw = false ∧ p.ping.enabled e
  | .sigint => p.ping.threw = false ∧ p.signals = true
  | .sigquit => p.ping.threw = false ∧ p.signals = true

instance (p : Prog) (e : PEv) : Decidable (p.enabled e) := by
  cases e <;> unfold Prog.enabled <;> infer_instance

/-- main.cpp:55-59: the program, after `m_ping.start()`. -/
def Prog.start (r : ℚ → ℚ) (o : Opts) : Prog :=
  let q := Ping.start o
  q.log.foldl (Prog.onSignal r o) { ping := q }

/-- The program. -/
def progMachine (r : ℚ → ℚ) (o : Opts) : Machine Prog PEv :=
  { init := Prog.start r o, step := Prog.step r o, enabled := Prog.enabled }

instance (r : ℚ → ℚ) (o : Opts) (p : Prog) (e : PEv) : Decidable ((progMachine r o).enabled p e) :=
  inferInstanceAs (Decidable (p.enabled e))

/-- main.cpp:58-75: the program terminates in state `p` with exit status `n`: by an exception, or because no
pending Interest, scheduled event or signal handler keeps `processEvents` busy. -/
def Prog.Exits (p : Prog) (n : Nat) : Prop :=
  if p.ping.threw then n = 2
  else p.ping.assertFailed = false ∧ p.ping.ub = false ∧
    p.ping.pending = [] ∧ p.ping.timer = false ∧ p.signals = false ∧
    n = if p.coll.nReceived = p.coll.nSent then 0 else 1

end Verif.Ping
