import Verif.Model.Basic

/-!
# Model of `ndn::chunks::DataFetcher`

`tools/chunks/catchunks/data-fetcher.{hpp,cpp}`. One value of type `Fetcher` is one object.
The two ghost fields `pending` and `timer` are the state of the ndn-cxx `Face` and `Scheduler`
as far as this fetcher is concerned. `Interest` names and nonces are left out: a fetcher only
ever re-expresses the Interest that it was created with.
-/

namespace Verif.DataFetcher

/-- data-fetcher.hpp:114-131 `DataFetcher` member variables.
`maxNackRetries`, `maxTimeoutRetries`: `m_maxNackRetries`, `m_maxTimeoutRetries`, where -1 is
`MAX_RETRIES_INFINITE`. C++ `int` is modelled by unbounded `Int`: the counters are only
incremented when the limit is finite, and never beyond limit+1.
`pending`: how many Interests of this fetcher the Face holds whose callback was not yet invoked.
`timer`: the backoff in milliseconds of the event in `m_scheduler`, if any. -/
structure Fetcher where
  maxNackRetries : Int
  maxTimeoutRetries : Int
  nNacks : Int := 0
  nTimeouts : Int := 0
  nCongestionRetries : Nat := 0
  isStopped : Bool := false
  hasError : Bool := false
  pending : Nat := 0
  timer : Option Nat := none
  deriving DecidableEq, Repr

/-- What one call into a fetcher makes visible to the outside.
* `interest`: an Interest is given to the Face,
* `onData`: the data callback, `onNack m` / `onTimeout m`: the failure callbacks. -/
inductive Out
  | interest
  | onData
  | onNack (m : FailMsg)
  | onTimeout (m : FailMsg)
  deriving DecidableEq, Repr

/-- data-fetcher.hpp:85-89 `isRunning`. -/
def Fetcher.isRunning (f : Fetcher) : Bool := !f.isStopped && !f.hasError

/-- data-fetcher.cpp:77-85 `expressInterest`. -/
def Fetcher.expressInterest (f : Fetcher) : Fetcher × List Out :=
  ({ f with nCongestionRetries := 0, pending := f.pending + 1 }, [.interest])

/-- data-fetcher.cpp:36-50 `fetch`: constructs the object and expresses the Interest. -/
def fetch (maxNackRetries maxTimeoutRetries : Int) : Fetcher × List Out :=
  Fetcher.expressInterest { maxNackRetries, maxTimeoutRetries }

/-- data-fetcher.cpp:67-75 `cancel`. Cancelling the pending Interest is asynchronous in ndn-cxx
(it posts the removal), so `pending` stays: a late callback is possible. `cancelAllEvents` is
synchronous. -/
def Fetcher.cancel (f : Fetcher) : Fetcher :=
  if f.isRunning then { f with isStopped := true, timer := none } else f

/-- data-fetcher.cpp:87-96 `handleData`. -/
def Fetcher.handleData (f : Fetcher) : Fetcher × List Out :=
  if !f.isRunning then (f, []) else ({ f with isStopped := true }, [.onData])

/-- data-fetcher.hpp:65 `MAX_CONGESTION_BACKOFF_TIME`, in milliseconds. -/
def maxCongestionBackoffTime : Nat := 10000

/-- data-fetcher.cpp:98-149 `handleNack`. `std::pow(2, n)` is exact for every `n` that occurs. -/
def Fetcher.handleNack (f : Fetcher) (reason : NackReason) : Fetcher × List Out :=
  if !f.isRunning then (f, []) else
  let f := if f.maxNackRetries ≠ -1 then { f with nNacks := f.nNacks + 1 } else f
  if f.nNacks ≤ f.maxNackRetries ∨ f.maxNackRetries = -1 then
    match reason with
    | .duplicate => f.expressInterest
    | .congestion =>
      let backoffTime := 2 ^ f.nCongestionRetries
      if backoffTime > maxCongestionBackoffTime then
        ({ f with timer := some maxCongestionBackoffTime }, [])
      else
        ({ f with nCongestionRetries := f.nCongestionRetries + 1, timer := some backoffTime }, [])
    | r => ({ f with hasError := true }, [.onNack (.nack r)])
  else
    ({ f with hasError := true }, [.onNack (.maxNackRetries f.maxNackRetries)])

/-- data-fetcher.cpp:151-174 `handleTimeout`. -/
def Fetcher.handleTimeout (f : Fetcher) : Fetcher × List Out :=
  if !f.isRunning then (f, []) else
  let f := if f.maxTimeoutRetries ≠ -1 then { f with nTimeouts := f.nTimeouts + 1 } else f
  if f.nTimeouts ≤ f.maxTimeoutRetries ∨ f.maxTimeoutRetries = -1 then
    f.expressInterest
  else
    ({ f with hasError := true }, [.onTimeout (.maxTimeoutRetries f.maxTimeoutRetries)])

/-- Things that can happen to a fetcher. `timer`: the scheduled event of
data-fetcher.cpp:129-131 fires. -/
inductive Ev
  | data
  | nack (r : NackReason)
  | timeout
  | timer
  | cancel
  deriving DecidableEq, Repr

/-- One event. The Face and the Scheduler forget the Interest / the event before the callback
runs, hence the changes to `pending` and `timer`. The scheduled lambda
(data-fetcher.cpp:129-131) does not test `isRunning`. -/
def Fetcher.step (f : Fetcher) : Ev → Fetcher × List Out
  | .data => { f with pending := f.pending - 1 }.handleData
  | .nack r => { f with pending := f.pending - 1 }.handleNack r
  | .timeout => { f with pending := f.pending - 1 }.handleTimeout
  | .timer => { f with timer := none }.expressInterest
  | .cancel => (f.cancel, [])

/-- Which events ndn-cxx can deliver: a Data, Nack or timeout callback needs an Interest whose
callback was not yet invoked, the timer callback a scheduled event, and `cancel` may always be
called. -/
def Fetcher.enabled (f : Fetcher) : Ev → Prop
  | .data => 0 < f.pending
  | .nack _ => 0 < f.pending
  | .timeout => 0 < f.pending
  | .timer => f.timer.isSome = true
  | .cancel => True

instance (f : Fetcher) (e : Ev) : Decidable (f.enabled e) := by
  cases e <;> unfold Fetcher.enabled <;> infer_instance

/-- `Run n t es f outs`: starting with `DataFetcher::fetch(..., n, t, ...)`, the events `es`, each
possible at its time, lead to the fetcher `f`, and `outs` is everything visible so far. -/
inductive Run (n t : Int) : List Ev → Fetcher → List Out → Prop
  | start : Run n t [] (fetch n t).1 (fetch n t).2
  | step {es f outs} (e : Ev) : Run n t es f outs → f.enabled e →
      Run n t (es ++ [e]) (f.step e).1 (outs ++ (f.step e).2)

/-- Executable form of `Run`, for examples: `none` if some event is not enabled. -/
def exec (n t : Int) (es : List Ev) : Option (Fetcher × List Out) :=
  es.foldl (fun acc e =>
    match acc with
    | none => none
    | some (f, outs) =>
      if f.enabled e then some ((f.step e).1, outs ++ (f.step e).2) else none)
    (some (fetch n t))

end Verif.DataFetcher
