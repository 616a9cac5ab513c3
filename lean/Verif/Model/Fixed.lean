import Verif.Model.Basic
import Verif.Model.Machine
import Verif.Model.DataFetcher

/-!
# Model of `PipelineInterestsFixed`

`tools/chunks/catchunks/pipeline-interests-fixed.{hpp,cpp}` and the base class
`tools/chunks/catchunks/pipeline-interests.{hpp,cpp}`.

Verbose output is left out here, see `Model/FixedVerbose`. `uint64_t` segment numbers and `int64_t` counters are unbounded
natural numbers here (2^63 segments cannot be requested in practice).
-/

namespace Verif.Fixed

open Verif.DataFetcher (Fetcher)

/-- What the pipeline makes visible.
* `interest k`: an Interest for segment `k` is given to the Face,
* `data k p`: the data callback is invoked with the Data `p` for segment `k`,
* `failure m`: the failure callback is invoked,
* `complete`: all segments were received, `printSummary` (pipeline-interests-fixed.cpp:154-157;
  recorded here also when the option `isQuiet` suppresses the printing). -/
inductive Obs
  | interest (k : Nat)
  | data (k : Nat) (p : Pkt)
  | failure (m : FailMsg)
  | complete
  deriving DecidableEq, Repr

/-- An element of `m_segmentFetchers`: a null pointer, or a fetcher and its segment number. -/
abbrev Slot := Option (Fetcher × Nat)

/-- pipeline-interests-fixed.hpp:85-92 and pipeline-interests.hpp:158-174 member variables.
`maxPipelineSize`, `maxRetries`: `m_options.maxPipelineSize`, `m_options.maxRetriesOnTimeoutOrNack`.
`posted`: failure callbacks posted to the io_context and not yet run.
`threw`: an exception left a handler. `ub`: an out-of-range vector access happened.
`assertFailed`: a `BOOST_ASSERT` did not hold. -/
structure St where
  maxPipelineSize : Nat
  maxRetries : Int
  slots : List Slot
  nextSegmentNo : Nat := 0
  lastSegmentNo : Nat := 0
  hasFinalBlockId : Bool := false
  nReceived : Nat := 0
  receivedSize : Nat := 0
  isStopping : Bool := false
  hasFailure : Bool := false
  posted : List FailMsg := []
  threw : Option Exn := none
  ub : Bool := false
  assertFailed : Bool := false
  log : List Obs := []
  deriving DecidableEq, Repr

/-- The condition asserted at pipeline-interests-fixed.cpp:104 about the old content of a slot. -/
def slotFree : Slot → Bool
  | none => true
  | some (f, _) => !f.isRunning

namespace St

/-- Append to the visible history. -/
def emit (s : St) (o : Obs) : St := { s with log := s.log ++ [o] }

/-- pipeline-interests.cpp:66-74 `cancel` with pipeline-interests-fixed.cpp:110-119 `doCancel`.
The fetchers are cancelled and then dropped from the vector. A fetcher that the Face still
refers to is cancelled, failed or finished, and then does nothing when called back (C01), so
dropped fetchers need not be kept in the model. -/
def cancel (s : St) : St :=
  if s.isStopping then s else { s with isStopping := true, slots := [] }

/-- pipeline-interests.cpp:99-110 `onFailure`; the failure callback is not null. -/
def onFailure (s : St) (m : FailMsg) : St :=
  if s.isStopping then s else
  let s := s.cancel
  { s with posted := s.posted ++ [m] }

/-- pipeline-interests.cpp:76-82 `allSegmentsReceived`. -/
def allSegmentsReceived (s : St) : Bool :=
  decide (s.nReceived > 0) && s.hasFinalBlockId && decide (s.nReceived - 1 ≥ s.lastSegmentNo)

/-- pipeline-interests-fixed.cpp:66-108 `fetchNextSegment`, with
pipeline-interests.cpp:84-88 `getNextSegmentNo`. -/
def fetchNextSegment (s : St) (pipeNo : Nat) : St × Bool :=
  if s.isStopping then (s, false)
  else if s.hasFailure then (s.onFailure .noFinal, false)
  else
    let nextSegmentNo := s.nextSegmentNo
    let s := { s with nextSegmentNo := s.nextSegmentNo + 1 }
    if s.hasFinalBlockId ∧ nextSegmentNo > s.lastSegmentNo then (s, false)
    else
      let fetcher := (DataFetcher.fetch s.maxRetries s.maxRetries).1
      let s := s.emit (.interest nextSegmentNo)
      match s.slots[pipeNo]? with
      | none => ({ s with ub := true }, true)
      | some old =>
        ({ s with
            assertFailed := s.assertFailed || !slotFree old
            slots := s.slots.set pipeNo (some (fetcher, nextSegmentNo)) }, true)

/-- pipeline-interests-fixed.cpp:57-63, the loop of `doRun` from `pipeNo` on, `n` rounds left. -/
def doRunLoop (s : St) (pipeNo : Nat) : Nat → St
  | 0 => s
  | n + 1 =>
    let (s, ok) := s.fetchNextSegment pipeNo
    if ok then doRunLoop s (pipeNo + 1) n else s

/-- pipeline-interests.cpp:90-97 `onData`. `cbCancels`: the data callback calls `cancel()` on the
pipeline. -/
def onData (s : St) (k : Nat) (p : Pkt) (cbCancels : Bool) : St :=
  let s := { s with nReceived := s.nReceived + 1, receivedSize := s.receivedSize + p.content.length }
  let s := s.emit (.data k p)
  if cbCancels then s.cancel else s

end St

/-- pipeline-interests-fixed.cpp:139-151: the loop after the final segment number became known.
Result: the slots, and the segment number for which the loop returns through `onFailure`. -/
def finalLoop (last : Nat) : List Slot → List Slot × Option Nat
  | [] => ([], none)
  | none :: rest => let (r, e) := finalLoop last rest; (none :: r, e)
  | some (f, k) :: rest =>
    if k > last then
      let (r, e) := finalLoop last rest
      (some (f.cancel, k) :: r, e)
    else if f.hasError then (some (f, k) :: rest, some k)
    else
      let (r, e) := finalLoop last rest
      (some (f, k) :: r, e)

/-- `fetcher.second`; the `second` of a never used slot is 0. -/
def slotSeg : Slot → Nat
  | none => 0
  | some (_, k) => k

/-- pipeline-interests-fixed.cpp:174-186: the loop of `handleFail`; `failed` is
`m_segmentFetchers[pipeNo].second`. Result: the slots and `areAllFetchersStopped`. -/
def failLoop (failed : Nat) : List Slot → List Slot × Bool
  | [] => ([], true)
  | none :: rest => let (r, b) := failLoop failed rest; (none :: r, b)
  | some (f, k) :: rest =>
    let (r, b) := failLoop failed rest
    if k > failed then (some (f.cancel, k) :: r, b)
    else (some (f, k) :: r, b && !f.isRunning)

namespace St

/-- pipeline-interests-fixed.cpp:154-161, the end of `handleData`. -/
def finish (s : St) (pipeNo : Nat) : St :=
  if s.allSegmentsReceived then s.emit .complete else (s.fetchNextSegment pipeNo).1

/-- pipeline-interests-fixed.cpp:135-161, the part of `handleData` after `onData`. -/
def afterOnData (s : St) (pipeNo : Nat) (p : Pkt) : St :=
  if !s.hasFinalBlockId then
    match p.final with
    | .absent => s.finish pipeNo
    | .notSegment => { s with threw := some .finalBlockNotSegment }
    | .seg n =>
      let loop := finalLoop n s.slots
      let s := { s with lastSegmentNo := n, hasFinalBlockId := true, slots := loop.1 }
      match loop.2 with
      | some e => s.onFailure (.segment e)
      | none => s.finish pipeNo
  else s.finish pipeNo

/-- pipeline-interests-fixed.cpp:121-162 `handleData`. `k` is the segment number in the name of
the Interest, which equals the name of the Data (asserted at line 128, guaranteed by the Face). -/
def handleData (s : St) (pipeNo : Nat) (k : Nat) (p : Pkt) (cbCancels : Bool) : St :=
  if s.isStopping then s else (s.onData k p cbCancels).afterOnData pipeNo p

/-- pipeline-interests-fixed.cpp:169-194: the part of `handleFail` after the first test; `k` is
`m_segmentFetchers[pipeNo].second`. -/
def handleFailSeg (s : St) (m : FailMsg) (k : Nat) : St :=
  if s.hasFinalBlockId ∧ k ≤ s.lastSegmentNo then s.onFailure m
  else if !s.hasFinalBlockId then
    let loop := failLoop k s.slots
    let s := { s with slots := loop.1 }
    if loop.2 then s.onFailure .noFinal else { s with hasFailure := true }
  else s

/-- pipeline-interests-fixed.cpp:164-195 `handleFail`. -/
def handleFail (s : St) (m : FailMsg) (pipeNo : Nat) : St :=
  if s.isStopping then s else
  match s.slots[pipeNo]? with
  | none => { s with ub := true }
  | some slot => s.handleFailSeg m (slotSeg slot)

/-- The callbacks that `fetchNextSegment` installs (pipeline-interests-fixed.cpp:93-101). -/
def react (s : St) (pipeNo k : Nat) (p : Pkt) (cbCancels : Bool) : DataFetcher.Out → St
  | .interest => s.emit (.interest k)
  | .onData => s.handleData pipeNo k p cbCancels
  | .onNack m => s.handleFail m pipeNo
  | .onTimeout m => s.handleFail m pipeNo

/-- A network or timer event reaches the fetcher in slot `pipeNo`. -/
def fetcherEvent (s : St) (pipeNo : Nat) (e : DataFetcher.Ev) (p : Pkt) (cbCancels : Bool) : St :=
  match s.slots[pipeNo]? with
  | some (some (f, k)) =>
    let (f', outs) := f.step e
    outs.foldl (fun s o => s.react pipeNo k p cbCancels o)
      { s with slots := s.slots.set pipeNo (some (f', k)) }
  | _ => s

end St

/-- What can happen to the pipeline: an event for the fetcher in a slot (with the Data packet,
where the event is the arrival of Data, and whether the data callback cancels the pipeline), a
call of `cancel()`, or the execution of a posted failure callback. -/
inductive Ev
  | data (pipeNo : Nat) (p : Pkt) (cbCancels : Bool)
  | nack (pipeNo : Nat) (r : NackReason)
  | timeout (pipeNo : Nat)
  | timer (pipeNo : Nat)
  | cancel
  | posted
  deriving DecidableEq, Repr

/-- One event. After an exception left a handler (or undefined behaviour) nothing more happens:
`face.processEvents()` does not return to the event loop. -/
def St.step (s : St) (e : Ev) : St :=
  if s.threw.isSome || s.ub then s else
  match e with
  | .data i p c => s.fetcherEvent i .data p c
  | .nack i r => s.fetcherEvent i (.nack r) ⟨[], .absent, false, false, true⟩ false
  | .timeout i => s.fetcherEvent i .timeout ⟨[], .absent, false, false, true⟩ false
  | .timer i => s.fetcherEvent i .timer ⟨[], .absent, false, false, true⟩ false
  | .cancel => s.cancel
  | .posted =>
    match s.posted with
    | [] => s
    | m :: rest => { s with posted := rest }.emit (.failure m)

/-- The fetcher in slot `i` can receive `e`. -/
def St.slotEnabled (s : St) (i : Nat) (e : DataFetcher.Ev) : Prop :=
  match s.slots[i]? with
  | some (some (f, _)) => f.enabled e
  | _ => False

instance (s : St) (i : Nat) (e : DataFetcher.Ev) : Decidable (s.slotEnabled i e) := by
  unfold St.slotEnabled; split <;> infer_instance

/-- Which events the environment can deliver. -/
def St.enabled (s : St) : Ev → Prop
  | .data i _ _ => s.slotEnabled i .data
  | .nack i r => s.slotEnabled i (.nack r)
  | .timeout i => s.slotEnabled i .timeout
  | .timer i => s.slotEnabled i .timer
  | .cancel => True
  | .posted => s.posted ≠ []

instance (s : St) (e : Ev) : Decidable (s.enabled e) := by
  cases e <;> unfold St.enabled <;> infer_instance

/-- pipeline-interests-fixed.cpp:37-46 constructor. -/
def construct (maxPipelineSize : Nat) (maxRetries : Int) : St :=
  { maxPipelineSize, maxRetries, slots := List.replicate maxPipelineSize none }

/-- pipeline-interests.cpp:49-64 `run` with pipeline-interests-fixed.cpp:53-64 `doRun`. -/
def start (maxPipelineSize : Nat) (maxRetries : Int) : St :=
  (construct maxPipelineSize maxRetries).doRunLoop 0 maxPipelineSize

/-- The fixed pipeline after `run()` was called, as a component. -/
def machine (maxPipelineSize : Nat) (maxRetries : Int) : Machine St Ev :=
  { init := start maxPipelineSize maxRetries, step := St.step, enabled := St.enabled }

instance (n : Nat) (r : Int) (s : St) (e : Ev) : Decidable ((machine n r).enabled s e) :=
  inferInstanceAs (Decidable (s.enabled e))

end Verif.Fixed
