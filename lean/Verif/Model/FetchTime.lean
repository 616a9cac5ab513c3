import Verif.Model.Fixed
import Verif.Model.PingTime

/-!
# A segment fetch and the fixed pipeline with a clock

`tools/chunks/catchunks/data-fetcher.cpp` and `tools/chunks/catchunks/pipeline-interests-fixed.cpp` with the time at which each event
happens, in nanoseconds since the start. Handlers take no time. `life`: the lifetime of the Interests (the option `--lifetime`), so short
that its conversion to nanoseconds does not overflow. The timer of a pending Interest and the scheduler, both of ndn-cxx, fire when they
are due or later; with `late` a bound for the delay is given.
-/

namespace Verif.FetchTime

open DataFetcher
open PingTime (ns)

/-- The fetcher; the time of the last event; when the last Interest was sent (data-fetcher.cpp:77-85); when the timer was set
(data-fetcher.cpp:129-131); everything visible so far and when it happened. -/
structure St where
  f : Fetcher
  now : Nat := 0
  sent : Nat := 0
  set : Nat := 0
  hist : List (Nat × Out) := []
  deriving DecidableEq, Repr

/-- An event and when it happens. -/
structure Ev where
  kind : DataFetcher.Ev
  t : Nat
  deriving DecidableEq, Repr

/-- One event. The timer is set by the handler of a Nack. -/
def St.step (s : St) (e : Ev) : St :=
  let (f, outs) := s.f.step e.kind
  { f := f
    now := e.t
    sent := if outs.contains .interest then e.t else s.sent
    set := if s.f.timer.isNone && f.timer.isSome then e.t else s.set
    hist := s.hist ++ outs.map fun o => (e.t, o) }

/-- When the timer of the fetch or, if there is none, the one of its Interest is due. -/
def dueAt (life : Nat) (f : Fetcher) (sent set : Nat) : Nat :=
  match f.timer with
  | some b => set + ns b
  | none => sent + life

/-- Time does not go backwards, no timer fires early, and, if there is a bound for the delay, nothing is left waiting for longer. -/
def St.enabled (late : Option Nat) (life : Nat) (s : St) (e : Ev) : Prop :=
  s.f.enabled e.kind ∧ s.now ≤ e.t ∧
  (e.kind = .timeout → s.sent + life ≤ e.t) ∧
  (e.kind = .timer → ∀ b ∈ s.f.timer, s.set + ns b ≤ e.t) ∧
  (∀ d ∈ late, s.f.isRunning = true → e.t ≤ dueAt life s.f s.sent s.set + d)

instance (late : Option Nat) (life : Nat) (s : St) (e : Ev) : Decidable (s.enabled late life e) := by
  unfold St.enabled; infer_instance

/-- `DataFetcher::fetch(..., n, t, ...)` called at time 0. -/
def machine (late : Option Nat) (life : Nat) (n t : Int) : Machine St Ev :=
  { init := { f := (fetch n t).1, hist := (fetch n t).2.map fun o => (0, o) }
    step := St.step
    enabled := St.enabled late life }

instance (late : Option Nat) (life : Nat) (n t : Int) (s : St) (e : Ev) : Decidable ((machine late life n t).enabled s e) :=
  inferInstanceAs (Decidable (s.enabled late life e))

end Verif.FetchTime

namespace Verif.FixedTime

open Fixed
open PingTime (ns)
open FetchTime (dueAt)

/-- The visible event is an Interest, and for which segment. -/
def interest? : Obs → Option Nat
  | .interest k => some k
  | _ => none

/-- The pipeline; the time of the last event; for each segment when an Interest for it was sent, the latest first; for each slot when
its fetcher last set a timer. -/
structure St where
  p : Fixed.St
  now : Nat := 0
  sent : List (Nat × Nat) := []
  set : List Nat := []

/-- An event and when it happens. -/
structure Ev where
  ev : Fixed.Ev
  t : Nat

/-- The slot whose fetcher may set its timer, by the handler of a Nack (data-fetcher.cpp:129-131). -/
def nackSlot : Fixed.Ev → Option Nat
  | .nack i _ => some i
  | _ => none

/-- When the latest Interest for segment `k` was sent. -/
def St.sentAt (s : St) (k : Nat) : Nat := (s.sent.lookup k).getD 0

/-- When the timer of the fetcher in slot `i` was set. -/
def St.setAt (s : St) (i : Nat) : Nat := (s.set[i]?).getD 0

/-- One event. -/
def St.step (s : St) (e : Ev) : St :=
  let p := s.p.step e.ev
  { p := p
    now := e.t
    sent := ((p.log.drop s.p.log.length).filterMap interest?).reverse.map (fun k => (k, e.t)) ++ s.sent
    set := match nackSlot e.ev with
      | some i => s.set.set i e.t
      | none => s.set }

/-- As `FetchTime.St.enabled`, for the fetcher of each slot. -/
def St.enabled (late : Option Nat) (life : Nat) (s : St) (e : Ev) : Prop :=
  s.p.enabled e.ev ∧ s.now ≤ e.t ∧
  (∀ i f k, s.p.slots[i]? = some (some (f, k)) →
    (e.ev = .timeout i → s.sentAt k + life ≤ e.t) ∧
    (e.ev = .timer i → ∀ b ∈ f.timer, s.setAt i + ns b ≤ e.t) ∧
    (∀ d ∈ late, f.isRunning = true → e.t ≤ dueAt life f (s.sentAt k) (s.setAt i) + d))

/-- The fixed pipeline, whose `run()` is called at time `t0`. -/
def init (t0 N : Nat) (R : Int) : St :=
  let p := Fixed.start N R
  { p := p
    now := t0
    sent := (p.log.filterMap interest?).reverse.map (fun k => (k, t0))
    set := List.replicate N 0 }

/-- The fixed pipeline, whose `run()` is called at time 0. -/
def machine (late : Option Nat) (life N : Nat) (R : Int) : Machine St Ev :=
  { init := init 0 N R, step := St.step, enabled := St.enabled late life }

end Verif.FixedTime
