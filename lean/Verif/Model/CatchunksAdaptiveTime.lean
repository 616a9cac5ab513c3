import Verif.Model.Catchunks
import Verif.Model.AdaptiveTime
import Verif.Model.FetchTime

/-!
# The program `ndncatchunks` with an adaptive pipeline and a clock

`Model/Catchunks` with the time at which each event happens, in nanoseconds since the start; see `Model/FetchTime` for the timers of the
version discovery and `Model/AdaptiveTime` for those of the pipeline. The discovery uses the options `--lifetime` and `--retries`
(tools/chunks/catchunks/main.cpp:70-73,194-203, discover-version.cpp:52-66). When the lifetime of a segment Interest expires is left open.
-/

namespace Verif.CatchunksAdaptiveTime

open Catchunks
open AdaptiveTime (env? isCheck)
open PingTime (ns)
open FetchTime (dueAt)

variable {σ ε : Type}

/-- The options: the window algorithm and its initial window, the options of the adaptive pipeline with its option `rtoCheckInterval`,
`--no-version-discovery` and `--lifetime`; and what is read when the pipeline is started at the time `t` (pipeline-interests-adaptive.cpp:54-69): the
initial RTO of the estimator and the input `win t` of the window algorithm. -/
structure Params (σ ε : Type) where
  A : Adaptive.Alg σ ε
  w : σ
  ao : Adaptive.Opts
  interval : Nat
  disable : Bool
  life : Nat
  rto0 : Nat
  win : Nat → ε

/-- What the pipeline reads from outside if it is started at the time `t`. -/
def Params.env (p : Params σ ε) (t : Nat) : Adaptive.Env ε := ⟨t, p.rto0, p.win t⟩

/-- The pipeline, if it is started at the time `t` (main.cpp:244-285). -/
def Params.pipe (p : Params σ ε) (t : Nat) : Pipe (Adaptive.St σ) (Adaptive.Ev ε) := adaptivePipe p.A p.ao p.w (p.env t)

/-- Both the discovery and the pipeline have the limit of retries from `--retries` (main.cpp:194-203). -/
def Params.disc (p : Params σ ε) : Discover.Opts := ⟨p.disable, p.ao.maxRetries⟩

/-- The program; the time of the last event; when the last discovery Interest was sent and when the fetcher of the discovery set its
timer; when the pipeline was started; when `m_checkRtoEvent` is due. -/
structure St (σ : Type) where
  c : Catchunks.St (Adaptive.St σ)
  now : Nat := 0
  sent : Nat := 0
  set : Nat := 0
  begun : Nat := 0
  due : Nat := 0

/-- An event and when it happens. -/
structure Ev (ε : Type) where
  ev : Catchunks.Ev (Adaptive.Ev ε)
  t : Nat

/-- The timer of the fetcher of the version discovery. -/
def discTimer (d : Discover.St) : Option Nat := d.fetcher.bind (·.timer)

/-- Whether the event is a run of `checkRto` (pipeline-interests-adaptive.cpp:78-107). -/
def checks : Catchunks.Ev (Adaptive.Ev ε) → Bool
  | .disc _ => false
  | .pipe e => isCheck e

/-- One event. When the discovery has succeeded, the pipeline starts at once (consumer.cpp:48-55), and schedules its first RTO check
(pipeline-interests-adaptive.cpp:65-66); `checkRto` schedules itself again (line 106). -/
def St.step (p : Params σ ε) (s : St σ) (e : Ev ε) : St σ :=
  let c := s.c.step (p.pipe e.t) e.ev
  let starts := s.c.pipe.isNone && c.pipe.isSome
  { c := c
    now := e.t
    sent := if (c.disc.log.drop s.c.disc.log.length).contains .interest then e.t else s.sent
    set := if (discTimer s.c.disc).isNone && (discTimer c.disc).isSome then e.t else s.set
    begun := if starts then e.t else s.begun
    due := if starts || checks e.ev then e.t + p.interval else s.due }

/-- Time does not go backwards, no timer fires early, and, if there is a bound for the delay, nothing is left waiting for longer: neither a
running fetch of the discovery nor the RTO check nor a failure callback that was posted to the event loop. The event loop returns once
nothing is left to wait for (main.cpp:294 `face.processEvents()`). -/
def St.enabled (p : Params σ ε) (late : Option Nat) (name : Name) (s : St σ) (e : Ev ε) : Prop :=
  (s.c.enabled (p.pipe e.t) name e.ev ∧ ¬ s.c.idle (p.pipe e.t)) ∧ s.now ≤ e.t ∧
  (∀ f, s.c.disc.fetcher = some f →
    (e.ev = .disc .timeout → s.sent + p.life ≤ e.t) ∧
    (e.ev = .disc .timer → ∀ b ∈ f.timer, s.set + ns b ≤ e.t) ∧
    (∀ d ∈ late, f.isRunning = true → e.t ≤ dueAt p.life f s.sent s.set + d)) ∧
  (∀ n q, s.c.pipe = some (n, q) →
    (∀ x, e.ev = .pipe x → (env? x).all (fun v => v.now == e.t) = true ∧ (isCheck x = true → s.due ≤ e.t)) ∧
    (∀ d ∈ late, (q.timer = true → e.t ≤ s.due + d) ∧ (q.posted ≠ [] → e.t ≤ s.now + d)))

/-- The program is started at time 0. -/
def init (p : Params σ ε) (name : Name) : St σ :=
  { c := start (p.pipe 0) p.disc name, due := p.interval }

/-- `ndncatchunks [-p cubic|aimd] -r R [-D] name`. -/
def machine (p : Params σ ε) (late : Option Nat) (name : Name) : Machine (St σ) (Ev ε) :=
  { init := init p name, step := St.step p, enabled := St.enabled p late name }

end Verif.CatchunksAdaptiveTime
