import Verif.Model.Fixed

/-!
# The fixed pipeline with `--verbose`

`tools/chunks/catchunks/pipeline-interests-fixed.cpp` and `data-fetcher.cpp` with the lines that they print to the standard error while a
transfer goes on. Each function of `Model/Fixed` that prints, or that calls one that prints, is transcribed again, with the lines.
The options that the constructor prints, and the nonce and the parameters of the Interests in the lines about Nacks and timeouts, are left out.
-/

namespace Verif.FixedVerbose

open Fixed
open Verif.DataFetcher (Fetcher)

/-- A line on the standard error.
* `requesting k`: "Requesting segment #k" (pipeline-interests-fixed.cpp:82-83),
* `received k`: "Received segment #k" (lines 130-131),
* `nack k r`: "Received Nack with reason r for Interest ..." (data-fetcher.cpp:108-110), the Interest is the one for segment `k`,
* `timeout k`: "Timeout for Interest ..." (data-fetcher.cpp:160-161). -/
inductive Line
  | requesting (k : Nat)
  | received (k : Nat)
  | nack (k : Nat) (r : NackReason)
  | timeout (k : Nat)
  deriving DecidableEq, Repr

/-- The pipeline and what it has printed. -/
structure St where
  p : Fixed.St
  lines : List Line := []

/-- data-fetcher.cpp:98-110 and 151-161: what a fetcher for segment `k` prints when an event reaches it; the state is that before
the event. -/
def fetcherLines (f : Fetcher) (k : Nat) : DataFetcher.Ev → List Line
  | .nack r => if !f.isRunning then [] else [.nack k r]
  | .timeout => if !f.isRunning then [] else [.timeout k]
  | _ => []

namespace St

/-- Print a line. -/
def say (s : St) (l : Line) : St := { s with lines := s.lines ++ [l] }

/-- A part of the code that does not print. -/
def quiet (s : St) (f : Fixed.St → Fixed.St) : St := { s with p := f s.p }

/-- pipeline-interests-fixed.cpp:66-108 `fetchNextSegment`. -/
def fetchNextSegment (s : St) (pipeNo : Nat) : St × Bool :=
  if s.p.isStopping then (s, false)
  else if s.p.hasFailure then (s.quiet (·.onFailure .noFinal), false)
  else
    let nextSegmentNo := s.p.nextSegmentNo
    let s := s.quiet fun p => { p with nextSegmentNo := p.nextSegmentNo + 1 }
    if s.p.hasFinalBlockId ∧ nextSegmentNo > s.p.lastSegmentNo then (s, false)
    else
      let s := s.say (.requesting nextSegmentNo)
      let fetcher := (DataFetcher.fetch s.p.maxRetries s.p.maxRetries).1
      let s := s.quiet (·.emit (.interest nextSegmentNo))
      (s.quiet fun p =>
        match p.slots[pipeNo]? with
        | none => { p with ub := true }
        | some old =>
          { p with
            assertFailed := p.assertFailed || !slotFree old
            slots := p.slots.set pipeNo (some (fetcher, nextSegmentNo)) }, true)

/-- pipeline-interests-fixed.cpp:57-63, the loop of `doRun` from `pipeNo` on, `n` rounds left. -/
def doRunLoop (s : St) (pipeNo : Nat) : Nat → St
  | 0 => s
  | n + 1 =>
    let (s, ok) := s.fetchNextSegment pipeNo
    if ok then doRunLoop s (pipeNo + 1) n else s

/-- pipeline-interests-fixed.cpp:154-161, the end of `handleData`. -/
def finish (s : St) (pipeNo : Nat) : St :=
  if s.p.allSegmentsReceived then s.quiet (·.emit .complete) else (s.fetchNextSegment pipeNo).1

/-- pipeline-interests-fixed.cpp:135-161, the part of `handleData` after `onData`. -/
def afterOnData (s : St) (pipeNo : Nat) (p : Pkt) : St :=
  if !s.p.hasFinalBlockId then
    match p.final with
    | .absent => s.finish pipeNo
    | .notSegment => s.quiet fun q => { q with threw := some .finalBlockNotSegment }
    | .seg n =>
      let loop := finalLoop n s.p.slots
      let s := s.quiet fun q => { q with lastSegmentNo := n, hasFinalBlockId := true, slots := loop.1 }
      match loop.2 with
      | some e => s.quiet (·.onFailure (.segment e))
      | none => s.finish pipeNo
  else s.finish pipeNo

/-- pipeline-interests-fixed.cpp:121-162 `handleData`. -/
def handleData (s : St) (pipeNo : Nat) (k : Nat) (p : Pkt) (cbCancels : Bool) : St :=
  if s.p.isStopping then s
  else ((s.say (.received k)).quiet (·.onData k p cbCancels)).afterOnData pipeNo p

/-- The callbacks that `fetchNextSegment` installs (pipeline-interests-fixed.cpp:93-101). -/
def react (s : St) (pipeNo k : Nat) (p : Pkt) (cbCancels : Bool) : DataFetcher.Out → St
  | .interest => s.quiet (·.emit (.interest k))
  | .onData => s.handleData pipeNo k p cbCancels
  | .onNack m => s.quiet (·.handleFail m pipeNo)
  | .onTimeout m => s.quiet (·.handleFail m pipeNo)

/-- A network or timer event reaches the fetcher in slot `pipeNo`. A fetcher prints before it does anything else that can
be seen. -/
def fetcherEvent (s : St) (pipeNo : Nat) (e : DataFetcher.Ev) (p : Pkt) (cbCancels : Bool) : St :=
  match s.p.slots[pipeNo]? with
  | some (some (f, k)) =>
    let r := f.step e
    r.2.foldl (fun s o => s.react pipeNo k p cbCancels o)
      { p := { s.p with slots := s.p.slots.set pipeNo (some (r.1, k)) }, lines := s.lines ++ fetcherLines f k e }
  | _ => s

/-- One event, as in `Fixed.St.step`. -/
def step (s : St) (e : Ev) : St :=
  if s.p.threw.isSome || s.p.ub then s else
  match e with
  | .data i p c => s.fetcherEvent i .data p c
  | .nack i r => s.fetcherEvent i (.nack r) ⟨[], .absent, false, false, true⟩ false
  | .timeout i => s.fetcherEvent i .timeout ⟨[], .absent, false, false, true⟩ false
  | .timer i => s.fetcherEvent i .timer ⟨[], .absent, false, false, true⟩ false
  | .cancel => s.quiet (·.step .cancel)
  | .posted => s.quiet (·.step .posted)

end St

/-- pipeline-interests.cpp:49-64 `run` with pipeline-interests-fixed.cpp:53-64 `doRun`. -/
def start (maxPipelineSize : Nat) (maxRetries : Int) : St :=
  St.doRunLoop { p := construct maxPipelineSize maxRetries } 0 maxPipelineSize

/-- The fixed pipeline with its lines after `run()` was called, as a component. -/
def machine (maxPipelineSize : Nat) (maxRetries : Int) : Machine St Ev :=
  { init := start maxPipelineSize maxRetries, step := St.step, enabled := fun s e => s.p.enabled e }

instance (n : Nat) (r : Int) (s : St) (e : Ev) : Decidable ((machine n r).enabled s e) :=
  inferInstanceAs (Decidable (s.p.enabled e))

end Verif.FixedVerbose
