import Verif.Model.Catchunks
import Verif.Model.FetchTime

/-!
# The program `ndncatchunks` with the fixed pipeline and a clock

`Model/Catchunks` with the time at which each event happens, in nanoseconds since the start; see `Model/FetchTime` for the timers. Both the
version discovery and the pipeline use the options `--lifetime` and `--retries` (main.cpp:70-73,194-203, discover-version.cpp:52-66,
pipeline-interests-fixed.cpp:85-97).
-/

namespace Verif.CatchunksTime

open Catchunks
open PingTime (ns)
open FetchTime (dueAt)

/-- The program; the time of the last event; when the last discovery Interest was sent and when the fetcher of the discovery set its
timer; for the pipeline the same as in `FixedTime.St`. -/
structure St where
  c : Catchunks.St Fixed.St
  now : Nat := 0
  sent : Nat := 0
  set : Nat := 0
  psent : List (Nat × Nat) := []
  pset : List Nat := []

/-- An event and when it happens. -/
structure Ev where
  ev : Catchunks.Ev Fixed.Ev
  t : Nat

/-- The pipeline `q` of the program with the clock. -/
def St.pipe (s : St) (q : Fixed.St) : FixedTime.St := { p := q, now := s.now, sent := s.psent, set := s.pset }

/-- The timer of the fetcher of the version discovery. -/
def discTimer (d : Discover.St) : Option Nat := d.fetcher.bind (·.timer)

/-- One event. When the discovery has succeeded, the pipeline starts at once (consumer.cpp:48-55). -/
def St.step (N : Nat) (R : Int) (s : St) (e : Ev) : St :=
  let c := s.c.step (fixedPipe N R) e.ev
  match e.ev with
  | .disc _ =>
    let starts := s.c.pipe.isNone && c.pipe.isSome
    { c := c
      now := e.t
      sent := if (c.disc.log.drop s.c.disc.log.length).contains .interest then e.t else s.sent
      set := if (discTimer s.c.disc).isNone && (discTimer c.disc).isSome then e.t else s.set
      psent := if starts then (FixedTime.init e.t N R).sent else s.psent
      pset := if starts then (FixedTime.init e.t N R).set else s.pset }
  | .pipe pe =>
    match s.c.pipe with
    | none => { s with c := c, now := e.t }
    | some (_, q) =>
      let f := (s.pipe q).step ⟨pe, e.t⟩
      { s with c := c, now := e.t, psent := f.sent, pset := f.set }

/-- Time does not go backwards, no timer fires early, and, if there is a bound for the delay, nothing is left waiting for longer: neither a
running fetch nor a failure callback that was posted to the event loop. The event loop returns once nothing is left to wait for
(main.cpp:294 `face.processEvents()`). -/
def St.enabled (late : Option Nat) (life N : Nat) (R : Int) (name : Name) (s : St) (e : Ev) : Prop :=
  (s.c.enabled (fixedPipe N R) name e.ev ∧ ¬ s.c.idle (fixedPipe N R)) ∧ s.now ≤ e.t ∧
  (∀ f, s.c.disc.fetcher = some f →
    (e.ev = .disc .timeout → s.sent + life ≤ e.t) ∧
    (e.ev = .disc .timer → ∀ b ∈ f.timer, s.set + ns b ≤ e.t) ∧
    (∀ d ∈ late, f.isRunning = true → e.t ≤ dueAt life f s.sent s.set + d)) ∧
  (∀ n q, s.c.pipe = some (n, q) →
    (∀ i f k, q.slots[i]? = some (some (f, k)) →
      (e.ev = .pipe (.timeout i) → (s.pipe q).sentAt k + life ≤ e.t) ∧
      (e.ev = .pipe (.timer i) → ∀ b ∈ f.timer, (s.pipe q).setAt i + ns b ≤ e.t) ∧
      (∀ d ∈ late, f.isRunning = true → e.t ≤ dueAt life f ((s.pipe q).sentAt k) ((s.pipe q).setAt i) + d)) ∧
    (∀ d ∈ late, q.posted ≠ [] → e.t ≤ s.now + d))

/-- The program is started at time 0. -/
def init (N : Nat) (R : Int) (disable : Bool) (name : Name) : St :=
  let c := start (fixedPipe N R) ⟨disable, R⟩ name
  { c := c
    psent := if c.pipe.isSome then (FixedTime.init 0 N R).sent else []
    pset := if c.pipe.isSome then (FixedTime.init 0 N R).set else [] }

/-- `ndncatchunks -p fixed -s N -r R [-D] name`. -/
def machine (late : Option Nat) (life N : Nat) (R : Int) (disable : Bool) (name : Name) : Machine St Ev :=
  { init := init N R disable name, step := St.step N R, enabled := St.enabled late life N R name }

end Verif.CatchunksTime
