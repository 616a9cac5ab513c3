import Verif.Model.Adaptive

/-!
# The adaptive pipeline with a clock and with the files of `--log-cwnd` and `--log-rtt`

`tools/chunks/catchunks/pipeline-interests-adaptive.cpp` with the time at which each event happens, in nanoseconds, and
`tools/chunks/catchunks/statistics-collector.cpp`. Handlers take no time. The scheduler of ndn-cxx runs `checkRto` when it is due or
later; with `late` a bound for the delay is given. The rows of the files are kept as numbers; their text is in
`Model/Report`.
-/

namespace Verif.AdaptiveTime

open Adaptive

variable {σ ε : Type}

/-- What becomes visible, when, and the RTO that the RTT estimator gives at that time. -/
structure Entry where
  time : Nat
  rto : Nat
  obs : Obs
  deriving DecidableEq, Repr

/-- pipeline-interests-adaptive.hpp:102-109 `RttSample`, a row of the file of `--log-rtt` (statistics-collector.cpp:41-47). -/
structure RttRow where
  seg : Nat
  rtt : Nat
  rttVar : Nat
  sRtt : Nat
  rto : Nat
  deriving DecidableEq, Repr

/-- The pipeline; the time of the last event; when `m_checkRtoEvent` is due; the history; the rows of the two files. -/
structure St (σ : Type) where
  p : Adaptive.St σ
  now : Nat
  due : Nat
  hist : List Entry
  cwnd : List (Nat × σ) := []
  rtt : List RttRow := []

/-- An event, when it happens, and what the RTT estimator then gives for the variation and the smoothed RTT. -/
structure Ev (ε : Type) where
  ev : Adaptive.Ev ε
  t : Nat
  rttVar : Nat := 0
  sRtt : Nat := 0

/-- What the handler reads from outside. -/
def env? : Adaptive.Ev ε → Option (Env ε)
  | .data _ _ _ v => some v
  | .nack _ _ v => some v
  | .expire _ v => some v
  | .check _ v => some v
  | .cancel => none
  | .posted => none

/-- Whether the event is a run of `checkRto` (pipeline-interests-adaptive.cpp:78-107). -/
def isCheck : Adaptive.Ev ε → Bool
  | .check _ _ => true
  | _ => false

/-- The RTO of the estimator. -/
def Ev.rto (e : Ev ε) : Nat :=
  match env? e.ev with
  | some v => v.rto
  | none => 0

/-- statistics-collector.cpp:37-39, called from pipeline-interests-aimd.cpp:54 and 64 and pipeline-interests-cubic.cpp:87 and 111. An
event changes the window at most once, so that `m_cwnd` is the window after the event. -/
def cwndRow (start t : Nat) (w : σ) : Obs → Option (Nat × σ)
  | .incr => some (t - start, w)
  | .decr _ _ => some (t - start, w)
  | _ => none

/-- pipeline-interests-adaptive.cpp:224 and 273-276 with statistics-collector.cpp:41-47. `info`: `m_segmentInfo` before the event. -/
def rttRow (info : List (Nat × Seg)) (e : Ev ε) : Obs → Option RttRow
  | .sample k => some { seg := k, rtt := e.t - ((get info k).map (·.timeSent)).getD 0, rttVar := e.rttVar, sRtt := e.sRtt, rto := e.rto }
  | _ => none

/-- One event. pipeline-interests-adaptive.cpp:106: `checkRto` schedules itself again. `start`: `m_startTime`; `interval`: the
option `rtoCheckInterval`. -/
def St.step (A : Alg σ ε) (o : Opts) (interval start : Nat) (s : St σ) (e : Ev ε) : St σ :=
  let p := s.p.step A o e.ev
  let new := p.log.drop s.p.log.length
  { p := p
    now := e.t
    due := if isCheck e.ev then e.t + interval else s.due
    hist := s.hist ++ new.map fun x => ⟨e.t, e.rto, x⟩
    cwnd := s.cwnd ++ new.filterMap (cwndRow start e.t p.win)
    rtt := s.rtt ++ new.filterMap (rttRow s.p.info e) }

/-- Time does not go backwards, `checkRto` is not called early, and, if there is a bound for the delay, it is not left waiting for
longer. -/
def St.enabled (late : Option Nat) (s : St σ) (e : Ev ε) : Prop :=
  s.p.enabled e.ev ∧ s.now ≤ e.t ∧ (env? e.ev).all (fun v => v.now == e.t) = true ∧
  (isCheck e.ev = true → s.due ≤ e.t) ∧ (∀ d ∈ late, s.p.timer = true → e.t ≤ s.due + d)

instance (late : Option Nat) (s : St σ) (e : Ev ε) : Decidable (s.enabled late e) := by
  unfold St.enabled; infer_instance

/-- The pipeline after `run()`, which was called at the time `v.now`. -/
def init (A : Alg σ ε) (o : Opts) (interval : Nat) (w : σ) (v : Env ε) : St σ :=
  let p := start A o w v
  { p := p
    now := v.now
    due := v.now + interval
    hist := p.log.map fun x => ⟨v.now, v.rto, x⟩ }

/-- The pipeline after `doRun` (pipeline-interests-adaptive.cpp:54-69), with a clock. -/
def machine (late : Option Nat) (A : Alg σ ε) (o : Opts) (interval : Nat) (w : σ) (v : Env ε) : Machine (St σ) (Ev ε) :=
  { init := init A o interval w v
    step := St.step A o interval v.now
    enabled := St.enabled late }

instance (late : Option Nat) (A : Alg σ ε) (o : Opts) (interval : Nat) (w : σ) (v : Env ε) (s : St σ) (e : Ev ε) :
    Decidable ((machine late A o interval w v).enabled s e) := inferInstanceAs (Decidable (s.enabled late e))

end Verif.AdaptiveTime
