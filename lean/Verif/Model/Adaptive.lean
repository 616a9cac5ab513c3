import Verif.Model.Basic
import Verif.Model.Machine

/-!
# Model of `PipelineInterestsAdaptive`

`tools/chunks/catchunks/pipeline-interests-adaptive.{hpp,cpp}` and the base class
`tools/chunks/catchunks/pipeline-interests.{hpp,cpp}`.

The window algorithm (the two virtual functions) is a parameter; `Model/Window.lean` has the two
instances. The RTT estimator of ndn-cxx is not modelled: the RTO that it reports is an input of every
event, so every sequence of RTOs is covered. `steady_clock::now()` is read once per event. Verbose
output is left out. `uint64_t` segment numbers and `int64_t` counters are unbounded here.
-/

namespace Verif.Adaptive

/-- The window algorithm. `σ`: its variables (`m_cwnd`, `m_ssthresh`, ...), `ε`: what it reads from
outside (time, smoothed RTT). pipeline-interests-adaptive.hpp:121-131 `increaseWindow`,
`decreaseWindow`; `slots` is `static_cast<int64_t>(m_cwnd)`
(pipeline-interests-adaptive.cpp:175). -/
structure Alg (σ ε : Type) where
  inc : σ → ε → σ
  dec : σ → ε → σ
  slots : σ → Int

/-- options.hpp: `maxRetriesOnTimeoutOrNack`, `ignoreCongMarks`, `disableCwa`. -/
structure Opts where
  maxRetries : Int
  ignoreCongMarks : Bool
  disableCwa : Bool
  deriving DecidableEq, Repr

/-- What an event handler reads from outside: the time, the RTO, and the input of the window
algorithm. -/
structure Env (ε : Type) where
  now : Nat
  rto : Nat
  win : ε

/-- pipeline-interests-adaptive.hpp:48-52 `SegmentState`. -/
inductive SegState
  | firstTimeSent
  | inRetxQueue
  | retransmitted
  deriving DecidableEq, Repr

/-- pipeline-interests-adaptive.hpp:60-66 `SegmentInfo`. `pending` stands for `interestHdl`: the
Interest that was sent last for the segment has not called back yet. -/
structure Seg where
  timeSent : Nat
  rto : Nat
  state : SegState
  pending : Bool
  deriving DecidableEq, Repr

/-- What the pipeline makes visible.
* `interest k retx`: an Interest for segment `k` is given to the Face, for the first time or again,
* `data k p`: the data callback is invoked with the Data `p` for segment `k`,
* `failure m`: the failure callback is invoked,
* `complete`: all segments were received, `printSummary` (recorded here also when the option
  `isQuiet` suppresses the printing),
* `sample k`: the RTT of segment `k` is used (signal `afterRttMeasurement`),
* `incr`, `decr k mark`: the window is increased / decreased (signal `afterCwndChange`); `k` is the
  segment number that was compared with the recovery point, `mark` tells whether a congestion mark
  (rather than a timeout or a Nack) is the cause. -/
inductive Obs
  | interest (k : Nat) (retx : Bool)
  | data (k : Nat) (p : Pkt)
  | failure (m : FailMsg)
  | complete
  | sample (k : Nat)
  | incr
  | decr (k : Nat) (mark : Bool)
  deriving DecidableEq, Repr

/-- pipeline-interests-adaptive.hpp:191-226 and pipeline-interests.hpp:158-174 member variables.
`info`: `m_segmentInfo`, `retxCount k = 0`: no entry for `k` in `m_retxCount`.
`timer`: `m_checkRtoEvent` is scheduled. `posted`: failure callbacks posted and not yet run.
`out`: the segment numbers of all Interests given to the Face that have not called back yet, also
those whose handle was destroyed (destroying the handle cancels the Interest asynchronously).
`threw`: an exception left a handler. `ub`: undefined behaviour happened.
`assertFailed`: a `BOOST_ASSERT` did not hold (assertions are not compiled in release mode, so
execution continues). -/
structure St (σ : Type) where
  win : σ
  info : List (Nat × Seg) := []
  retxCount : Nat → Nat := fun _ => 0
  retxQueue : List Nat := []
  nextSegmentNo : Nat := 0
  lastSegmentNo : Nat := 0
  hasFinalBlockId : Bool := false
  nReceived : Nat := 0
  receivedSize : Nat := 0
  isStopping : Bool := false
  hasFailure : Bool := false
  failedSegNo : Nat := 0
  failureReason : FailMsg := .noFinal
  nInFlight : Int := 0
  highData : Nat := 0
  highInterest : Nat := 0
  recPoint : Nat := 0
  nLossDecr : Nat := 0
  nMarkDecr : Nat := 0
  nTimeouts : Nat := 0
  nSkippedRetx : Nat := 0
  nRetransmitted : Nat := 0
  nCongMarks : Nat := 0
  nSent : Nat := 0
  timer : Bool := false
  posted : List FailMsg := []
  out : List Nat := []
  threw : Option Exn := none
  ub : Bool := false
  assertFailed : Bool := false
  log : List Obs := []

/-- `m_segmentInfo.find(k)`. -/
def get (l : List (Nat × Seg)) (k : Nat) : Option Seg :=
  (l.find? (fun e => e.1 == k)).map (·.2)

/-- `m_segmentInfo[k] = x`. -/
def put (l : List (Nat × Seg)) (k : Nat) (x : Seg) : List (Nat × Seg) :=
  if (get l k).isSome then l.map (fun e => if e.1 == k then (k, x) else e) else l ++ [(k, x)]

/-- `m_segmentInfo.erase(k)`. -/
def del (l : List (Nat × Seg)) (k : Nat) : List (Nat × Seg) :=
  l.filter (fun e => e.1 != k)

variable {σ ε : Type}

namespace St

/-- Append to the visible history. -/
def emit (s : St σ) (o : Obs) : St σ := { s with log := s.log ++ [o] }

/-- pipeline-interests.cpp:66-74 `cancel` with pipeline-interests-adaptive.cpp:71-76 `doCancel`. -/
def cancel (s : St σ) : St σ :=
  if s.isStopping then s else { s with isStopping := true, timer := false, info := [] }

/-- pipeline-interests.cpp:99-110 `onFailure`; the failure callback is not null. -/
def onFailure (s : St σ) (m : FailMsg) : St σ :=
  if s.isStopping then s else
  let s := s.cancel
  { s with posted := s.posted ++ [m] }

/-- pipeline-interests.cpp:76-82 `allSegmentsReceived`. -/
def allSegmentsReceived (s : St σ) : Bool :=
  decide (s.nReceived > 0) && s.hasFinalBlockId && decide (s.nReceived - 1 ≥ s.lastSegmentNo)

/-- pipeline-interests-adaptive.cpp:390-403 `cancelInFlightSegmentsGreaterThan`. -/
def cancelGreater (s : St σ) (k : Nat) : St σ :=
  let kept := s.info.filter (fun e => decide (e.1 ≤ k))
  { s with info := kept, nInFlight := s.nInFlight - ((s.info.length : Int) - kept.length) }

/-- pipeline-interests-adaptive.cpp:364-388 `handleFail`. -/
def handleFail (s : St σ) (k : Nat) (m : FailMsg) : St σ :=
  if s.isStopping then s
  else if s.hasFinalBlockId ∧ k ≤ s.lastSegmentNo then s.onFailure m
  else if !s.hasFinalBlockId then
    let s := { s with info := del s.info k, nInFlight := s.nInFlight - 1 }
    if s.info.isEmpty then s.onFailure .noFinal
    else { s.cancelGreater k with hasFailure := true, failedSegNo := k, failureReason := m }
  else s

/-- pipeline-interests-adaptive.cpp:145-168, the end of `sendInterest`. -/
def transmit (s : St σ) (v : Env ε) (k : Nat) (retx : Bool) : St σ :=
  { s with
    info := put s.info k
      { timeSent := v.now, rto := v.rto, pending := true,
        state := if retx then .retransmitted else .firstTimeSent }
    nInFlight := s.nInFlight + 1
    nSent := s.nSent + 1
    nRetransmitted := if retx then s.nRetransmitted + 1 else s.nRetransmitted
    highInterest := if retx then s.highInterest else k
    out := s.out ++ [k]
    log := s.log ++ [.interest k retx] }

/-- pipeline-interests-adaptive.cpp:126-143: the retransmission counter; the segment fails when
the counter was present already and exceeds the limit. -/
def sendAgain (s : St σ) (o : Opts) (v : Env ε) (k : Nat) : St σ :=
  let s' := { s with retxCount := fun j => if j = k then s.retxCount k + 1 else s.retxCount j }
  if s.retxCount k ≠ 0 ∧ o.maxRetries ≠ -1 ∧ (s.retxCount k + 1 : Int) > o.maxRetries then
    s'.handleFail k (.maxRetries o.maxRetries k)
  else s'.transmit v k true

/-- pipeline-interests-adaptive.cpp:109-169 `sendInterest`. -/
def sendInterest (s : St σ) (o : Opts) (v : Env ε) (k : Nat) (retx : Bool) : St σ :=
  if s.isStopping then s
  else if s.hasFinalBlockId ∧ k > s.lastSegmentNo then s
  else if !retx && s.hasFailure then s
  else if retx then s.sendAgain o v k
  else s.transmit v k false

/-- The iterations of pipeline-interests-adaptive.cpp:177-192 with a non-empty retransmission queue
`q` and available window `n`. `sendInterest` does not change the queue, therefore the iterations
with a non-empty queue come first. Called with `q = s.retxQueue`; the recursion is over `q`.
Result: the state and the remaining available window. -/
def schedRetx (o : Opts) (v : Env ε) : List Nat → Nat → St σ → St σ × Nat
  | _, 0, s => (s, 0)
  | [], n + 1, s => (s, n + 1)
  | k :: q, n + 1, s =>
    let s := { s with retxQueue := q }
    if (get s.info k).isSome then schedRetx o v q n (s.sendInterest o v k true)
    else schedRetx o v q (n + 1) { s with nSkippedRetx := s.nSkippedRetx + 1 }

/-- The iterations of pipeline-interests-adaptive.cpp:177-192 with an empty retransmission queue,
with pipeline-interests.cpp:84-88 `getNextSegmentNo`. -/
def schedNew (o : Opts) (v : Env ε) : Nat → St σ → St σ
  | 0, s => s
  | n + 1, s =>
    schedNew o v n ({ s with nextSegmentNo := s.nextSegmentNo + 1 }.sendInterest o v s.nextSegmentNo false)

/-- pipeline-interests-adaptive.cpp:171-193 `schedulePackets`. -/
def schedulePackets (s : St σ) (A : Alg σ ε) (o : Opts) (v : Env ε) : St σ :=
  let s := { s with assertFailed := s.assertFailed || decide (s.nInFlight < 0) }
  let r := schedRetx o v s.retxQueue (A.slots s.win - s.nInFlight).toNat s
  schedNew o v r.2 r.1

/-- pipeline-interests-adaptive.cpp:336-353 `recordTimeout`. -/
def recordTimeout (s : St σ) (A : Alg σ ε) (o : Opts) (v : Env ε) (k : Nat) : St σ :=
  if o.disableCwa || decide (k > s.recPoint) then
    { s with recPoint := s.highInterest, win := A.dec s.win v.win, nLossDecr := s.nLossDecr + 1,
             log := s.log ++ [.decr k false] }
  else s

/-- pipeline-interests-adaptive.cpp:355-362 `enqueueForRetransmission`. `unordered_map::at` throws if
there is no entry, after the other changes were made. -/
def enqueueForRetransmission (s : St σ) (k : Nat) : St σ :=
  let s := { s with assertFailed := s.assertFailed || decide (s.nInFlight ≤ 0),
                    nInFlight := s.nInFlight - 1, retxQueue := s.retxQueue ++ [k] }
  match get s.info k with
  | none => { s with threw := some (.outOfRange k) }
  | some x => { s with info := put s.info k { x with state := .inRetxQueue } }

/-- pipeline-interests-adaptive.cpp:87-98: one round of the loop of `checkRto`. -/
def checkOne (v : Env ε) (s : St σ) (k : Nat) : St σ :=
  match get s.info k with
  | none => s
  | some x =>
    if x.state ≠ .inRetxQueue ∧ v.now > x.timeSent + x.rto then
      { s with nTimeouts := s.nTimeouts + 1 }.enqueueForRetransmission k
    else s

/-- The segments that the loop of `checkRto` finds expired. -/
def expired (s : St σ) (v : Env ε) (order : List Nat) : List Nat :=
  order.filter (fun k =>
    match get s.info k with
    | none => false
    | some x => decide (x.state ≠ .inRetxQueue ∧ v.now > x.timeSent + x.rto))

/-- pipeline-interests-adaptive.cpp:78-107 `checkRto`. `order`: the order in which the iteration over
the unordered map visits the segment numbers. -/
def checkRto (s : St σ) (A : Alg σ ε) (o : Opts) (v : Env ε) (order : List Nat) : St σ :=
  if s.isStopping then s
  else
    let l := s.expired v order
    let s := order.foldl (checkOne v) s
    let s := if l ≠ [] then (s.recordTimeout A o v (l.foldl max 0)).schedulePackets A o v else s
    { s with timer := true }

/-- pipeline-interests-adaptive.cpp:204-215: the FinalBlockId in `handleData`; `false`: the function
returns (or throws) here. -/
def handleFinal (s : St σ) (p : Pkt) : St σ × Bool :=
  if s.hasFinalBlockId then (s, true)
  else
    match p.final with
    | .absent => (s, true)
    | .notSegment => ({ s with threw := some .finalBlockNotSegment }, false)
    | .seg n =>
      let s := { s with lastSegmentNo := n, hasFinalBlockId := true }.cancelGreater n
      if s.hasFailure ∧ n ≥ s.failedSegNo then (s.onFailure s.failureReason, false)
      else ({ s with hasFailure := false }, true)

/-- pipeline-interests-adaptive.cpp:231-262: counters and window adaptation in `handleData`. -/
def adapt (s : St σ) (A : Alg σ ε) (o : Opts) (v : Env ε) (k : Nat) (x : Seg) (p : Pkt) : St σ :=
  let s := { s with
    highData := max s.highData k
    nInFlight := if x.state ≠ .inRetxQueue then s.nInFlight - 1 else s.nInFlight
    nCongMarks := if p.congMark then s.nCongMarks + 1 else s.nCongMarks }
  if p.congMark && !o.ignoreCongMarks then
    if o.disableCwa || decide (s.highData > s.recPoint) then
      { s with recPoint := s.highInterest, nMarkDecr := s.nMarkDecr + 1, win := A.dec s.win v.win,
               log := s.log ++ [.decr s.highData true] }
    else s
  else { s with win := A.inc s.win v.win, log := s.log ++ [.incr] }

/-- pipeline-interests.cpp:90-97 `onData`. -/
def onData (s : St σ) (k : Nat) (p : Pkt) : St σ :=
  { s with nReceived := s.nReceived + 1, receivedSize := s.receivedSize + p.content.length,
           log := s.log ++ [.data k p] }

/-- pipeline-interests-adaptive.cpp:264-277: `onData` and the RTT sample. -/
def deliver (s : St σ) (k : Nat) (x : Seg) (p : Pkt) : St σ :=
  let s := s.onData k p
  if x.state ≠ .retransmitted ∧ s.retxCount k = 0 then s.emit (.sample k) else s

/-- pipeline-interests-adaptive.cpp:279-290: the end of `handleData`. -/
def finish (s : St σ) (A : Alg σ ε) (o : Opts) (v : Env ε) (k : Nat) : St σ :=
  let s := { s with info := del s.info k }
  if s.allSegmentsReceived then s.cancel.emit .complete else s.schedulePackets A o v

/-- pipeline-interests-adaptive.cpp:217-290: `handleData` after the FinalBlockId was handled. If the
data callback calls `cancel()`, `m_segmentInfo` is cleared while `segIt` and `segInfo` still refer
to an element: reading `segInfo.state` and erasing `segIt` is undefined behaviour. -/
def handleSeg (s : St σ) (A : Alg σ ε) (o : Opts) (v : Env ε) (k : Nat) (p : Pkt) (cbCancels : Bool) :
    St σ :=
  match get s.info k with
  | none => s
  | some x =>
    let s := s.adapt A o v k x p
    if cbCancels then { s.onData k p with isStopping := true, timer := false, info := [], ub := true }
    else (s.deliver k x p).finish A o v k

/-- pipeline-interests-adaptive.cpp:195-291 `handleData`. -/
def handleData (s : St σ) (A : Alg σ ε) (o : Opts) (v : Env ε) (k : Nat) (p : Pkt) (cbCancels : Bool) :
    St σ :=
  if s.isStopping then s
  else
    let r := s.handleFinal p
    if r.2 then r.1.handleSeg A o v k p cbCancels else r.1

/-- pipeline-interests-adaptive.cpp:311-313 and 331-333: treatment of a timeout of segment `k`. -/
def lossOf (s : St σ) (A : Alg σ ε) (o : Opts) (v : Env ε) (k : Nat) : St σ :=
  let s := s.enqueueForRetransmission k
  if s.threw.isSome then s else (s.recordTimeout A o v k).schedulePackets A o v

/-- pipeline-interests-adaptive.cpp:293-320 `handleNack`. -/
def handleNack (s : St σ) (A : Alg σ ε) (o : Opts) (v : Env ε) (k : Nat) (r : NackReason) : St σ :=
  if s.isStopping then s
  else
    match r with
    | .duplicate => s
    | .congestion => s.lossOf A o v k
    | r => s.handleFail k (.segNack k r)

/-- pipeline-interests-adaptive.cpp:322-334 `handleLifetimeExpiration`. -/
def handleLifetimeExpiration (s : St σ) (A : Alg σ ε) (o : Opts) (v : Env ε) (k : Nat) : St σ :=
  if s.isStopping then s
  else { s with nTimeouts := s.nTimeouts + 1 }.lossOf A o v k

/-- The Face forgets one Interest for segment `k` before it calls back. -/
def called (s : St σ) (k : Nat) : St σ :=
  { s with
    out := s.out.erase k
    info := match get s.info k with
      | none => s.info
      | some x => put s.info k { x with pending := false } }

end St

/-- What can happen to the pipeline. `data`: Data for segment `k`; `cbCancels`: the data callback
calls `cancel()` on the pipeline. `check`: the scheduled `checkRto`. -/
inductive Ev (ε : Type)
  | data (k : Nat) (p : Pkt) (cbCancels : Bool) (v : Env ε)
  | nack (k : Nat) (r : NackReason) (v : Env ε)
  | expire (k : Nat) (v : Env ε)
  | check (order : List Nat) (v : Env ε)
  | cancel
  | posted

/-- One event. After an exception left a handler (or undefined behaviour) nothing more happens. -/
def St.step (A : Alg σ ε) (o : Opts) (s : St σ) (e : Ev ε) : St σ :=
  if s.threw.isSome || s.ub then s else
  match e with
  | .data k p c v => (s.called k).handleData A o v k p c
  | .nack k r v => (s.called k).handleNack A o v k r
  | .expire k v => (s.called k).handleLifetimeExpiration A o v k
  | .check order v => { s with timer := false }.checkRto A o v order
  | .cancel => s.cancel
  | .posted =>
    match s.posted with
    | [] => s
    | m :: rest => { s with posted := rest }.emit (.failure m)

/-- Which events ndn-cxx can deliver: callbacks of any Interest that has not called back yet (also of
Interests whose handle was destroyed); `checkRto` while it is scheduled, visiting every entry of
the map exactly once in some order. -/
def St.enabled (s : St σ) : Ev ε → Prop
  | .data k _ _ _ => k ∈ s.out
  | .nack k _ _ => k ∈ s.out
  | .expire k _ => k ∈ s.out
  | .check order _ => s.timer = true ∧ order.Perm (s.info.map (·.1))
  | .cancel => True
  | .posted => s.posted ≠ []

instance (s : St σ) (e : Ev ε) : Decidable (s.enabled e) := by
  cases e <;> unfold St.enabled <;> infer_instance

/-- pipeline-interests.cpp:49-64 `run` with pipeline-interests-adaptive.cpp:54-69 `doRun`
(`allSegmentsReceived()` is false because nothing was received). -/
def start (A : Alg σ ε) (o : Opts) (w : σ) (v : Env ε) : St σ :=
  { win := w, timer := true : St σ }.schedulePackets A o v

/-- The adaptive pipeline after `run()` was called, as a component. -/
def machine (A : Alg σ ε) (o : Opts) (w : σ) (v : Env ε) : Machine (St σ) (Ev ε) :=
  { init := start A o w v, step := St.step A o, enabled := St.enabled }

instance (A : Alg σ ε) (o : Opts) (w : σ) (v : Env ε) (s : St σ) (e : Ev ε) :
    Decidable ((machine A o w v).enabled s e) :=
  inferInstanceAs (Decidable (s.enabled e))

end Verif.Adaptive
