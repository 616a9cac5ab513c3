import Verif.Model.Adaptive

/-!
# The adaptive pipeline with `--verbose`

`tools/chunks/catchunks/pipeline-interests-adaptive.cpp` with the lines that it prints to the standard error while a transfer goes on. Each
function of `Model/Adaptive` that prints, or that calls one that prints, is transcribed again, with the lines. The numbers in the lines are
kept as numbers. The name, nonce and lifetime of the Interest in the line about a Nack, and the value of a congestion mark, are left out.
-/

namespace Verif.Verbose

open Adaptive

variable {σ ε : Type}

/-- A line on the standard error.
* `sending k retx`: "Requesting segment #k", "Retransmitting segment #k" (pipeline-interests-adaptive.cpp:121-124),
* `retries k n`: "# of retries for segment #k is n" (lines 138-141),
* `received k rtt rto`: "Received segment #k, rtt=...ms, rto=...ms" (lines 225-229), in nanoseconds,
* `mark w`: "Received congestion mark, value = ..., new cwnd = ..." (lines 250-253); the window is in `w`,
* `nack k r`: "Received Nack with reason r for Interest ..." (lines 299-301), the Interest is the one for segment `k`,
* `loss w`: "Packet loss event, new cwnd = ..., ssthresh = ..." (lines 348-351). -/
inductive Line (σ : Type)
  | sending (k : Nat) (retx : Bool)
  | retries (k n : Nat)
  | received (k : Nat) (rtt : Int) (rto : Nat)
  | mark (w : σ)
  | nack (k : Nat) (r : NackReason)
  | loss (w : σ)
  deriving DecidableEq, Repr

/-- The pipeline and what it has printed. -/
structure St (σ : Type) where
  p : Adaptive.St σ
  lines : List (Line σ) := []

namespace St

/-- Print a line. -/
def say (s : St σ) (l : Line σ) : St σ := { s with lines := s.lines ++ [l] }

/-- A part of the code that does not print. -/
def quiet (s : St σ) (f : Adaptive.St σ → Adaptive.St σ) : St σ := { s with p := f s.p }

/-- pipeline-interests-adaptive.cpp:126-168. -/
def sendAgain (s : St σ) (o : Opts) (v : Env ε) (k : Nat) : St σ :=
  let c := s.p.retxCount k
  let s := s.quiet fun p => { p with retxCount := fun j => if j = k then p.retxCount k + 1 else p.retxCount j }
  if c ≠ 0 then
    if o.maxRetries ≠ -1 ∧ (c + 1 : Int) > o.maxRetries then s.quiet (·.handleFail k (.maxRetries o.maxRetries k))
    else (s.say (.retries k (c + 1))).quiet (·.transmit v k true)
  else s.quiet (·.transmit v k true)

/-- pipeline-interests-adaptive.cpp:109-169 `sendInterest`. -/
def sendInterest (s : St σ) (o : Opts) (v : Env ε) (k : Nat) (retx : Bool) : St σ :=
  if s.p.isStopping then s
  else if s.p.hasFinalBlockId ∧ k > s.p.lastSegmentNo then s
  else if !retx && s.p.hasFailure then s
  else
    let s := s.say (.sending k retx)
    if retx then s.sendAgain o v k else s.quiet (·.transmit v k false)

/-- The iterations of pipeline-interests-adaptive.cpp:177-192 with a non-empty retransmission queue, as in `Adaptive.St.schedRetx`. -/
def schedRetx (o : Opts) (v : Env ε) : List Nat → Nat → St σ → St σ × Nat
  | _, 0, s => (s, 0)
  | [], n + 1, s => (s, n + 1)
  | k :: q, n + 1, s =>
    let s := s.quiet fun p => { p with retxQueue := q }
    if (get s.p.info k).isSome then schedRetx o v q n (s.sendInterest o v k true)
    else schedRetx o v q (n + 1) (s.quiet fun p => { p with nSkippedRetx := p.nSkippedRetx + 1 })

/-- The iterations of pipeline-interests-adaptive.cpp:177-192 with an empty retransmission queue. -/
def schedNew (o : Opts) (v : Env ε) : Nat → St σ → St σ
  | 0, s => s
  | n + 1, s =>
    schedNew o v n ((s.quiet fun p => { p with nextSegmentNo := p.nextSegmentNo + 1 }).sendInterest o v s.p.nextSegmentNo false)

/-- pipeline-interests-adaptive.cpp:171-193 `schedulePackets`. -/
def schedulePackets (s : St σ) (A : Alg σ ε) (o : Opts) (v : Env ε) : St σ :=
  let s := s.quiet fun p => { p with assertFailed := p.assertFailed || decide (p.nInFlight < 0) }
  let r := schedRetx o v s.p.retxQueue (A.slots s.p.win - s.p.nInFlight).toNat s
  schedNew o v r.2 r.1

/-- pipeline-interests-adaptive.cpp:336-353 `recordTimeout`. -/
def recordTimeout (s : St σ) (A : Alg σ ε) (o : Opts) (v : Env ε) (k : Nat) : St σ :=
  if o.disableCwa || decide (k > s.p.recPoint) then
    let s := s.quiet fun p =>
      { p with recPoint := p.highInterest, win := A.dec p.win v.win, nLossDecr := p.nLossDecr + 1, log := p.log ++ [.decr k false] }
    s.say (.loss s.p.win)
  else s

/-- pipeline-interests-adaptive.cpp:78-107 `checkRto`. -/
def checkRto (s : St σ) (A : Alg σ ε) (o : Opts) (v : Env ε) (order : List Nat) : St σ :=
  if s.p.isStopping then s
  else
    let l := s.p.expired v order
    let s := s.quiet fun p => order.foldl (Adaptive.St.checkOne v) p
    let s := if l ≠ [] then (s.recordTimeout A o v (l.foldl max 0)).schedulePackets A o v else s
    s.quiet fun p => { p with timer := true }

/-- pipeline-interests-adaptive.cpp:231-262: counters and window adaptation in `handleData`. -/
def adapt (s : St σ) (A : Alg σ ε) (o : Opts) (v : Env ε) (k : Nat) (x : Seg) (d : Pkt) : St σ :=
  let s := s.quiet fun p =>
    { p with
      highData := max p.highData k
      nInFlight := if x.state ≠ .inRetxQueue then p.nInFlight - 1 else p.nInFlight
      nCongMarks := if d.congMark then p.nCongMarks + 1 else p.nCongMarks }
  if d.congMark && !o.ignoreCongMarks then
    if o.disableCwa || decide (s.p.highData > s.p.recPoint) then
      let s := s.quiet fun p =>
        { p with recPoint := p.highInterest, nMarkDecr := p.nMarkDecr + 1, win := A.dec p.win v.win, log := p.log ++ [.decr p.highData true] }
      s.say (.mark s.p.win)
    else s
  else s.quiet fun p => { p with win := A.inc p.win v.win, log := p.log ++ [.incr] }

/-- pipeline-interests-adaptive.cpp:279-290: the end of `handleData`. -/
def finish (s : St σ) (A : Alg σ ε) (o : Opts) (v : Env ε) (k : Nat) : St σ :=
  let s := s.quiet fun p => { p with info := del p.info k }
  if s.p.allSegmentsReceived then s.quiet (·.cancel.emit .complete) else s.schedulePackets A o v

/-- pipeline-interests-adaptive.cpp:217-290: `handleData` after the FinalBlockId was handled. -/
def handleSeg (s : St σ) (A : Alg σ ε) (o : Opts) (v : Env ε) (k : Nat) (d : Pkt) (cbCancels : Bool) : St σ :=
  match get s.p.info k with
  | none => s
  | some x =>
    let s := (s.say (.received k ((v.now : Int) - x.timeSent) x.rto)).adapt A o v k x d
    if cbCancels then s.quiet fun p => { p.onData k d with isStopping := true, timer := false, info := [], ub := true }
    else (s.quiet (·.deliver k x d)).finish A o v k

/-- pipeline-interests-adaptive.cpp:195-291 `handleData`. -/
def handleData (s : St σ) (A : Alg σ ε) (o : Opts) (v : Env ε) (k : Nat) (d : Pkt) (cbCancels : Bool) : St σ :=
  if s.p.isStopping then s
  else
    let r := s.p.handleFinal d
    let s := s.quiet fun _ => r.1
    if r.2 then s.handleSeg A o v k d cbCancels else s

/-- pipeline-interests-adaptive.cpp:311-313 and 331-333: treatment of a timeout of segment `k`. -/
def lossOf (s : St σ) (A : Alg σ ε) (o : Opts) (v : Env ε) (k : Nat) : St σ :=
  let s := s.quiet (·.enqueueForRetransmission k)
  if s.p.threw.isSome then s else (s.recordTimeout A o v k).schedulePackets A o v

/-- pipeline-interests-adaptive.cpp:293-320 `handleNack`. -/
def handleNack (s : St σ) (A : Alg σ ε) (o : Opts) (v : Env ε) (k : Nat) (r : NackReason) : St σ :=
  if s.p.isStopping then s
  else
    let s := s.say (.nack k r)
    match r with
    | .duplicate => s
    | .congestion => s.lossOf A o v k
    | r => s.quiet (·.handleFail k (.segNack k r))

/-- pipeline-interests-adaptive.cpp:322-334 `handleLifetimeExpiration`. -/
def handleLifetimeExpiration (s : St σ) (A : Alg σ ε) (o : Opts) (v : Env ε) (k : Nat) : St σ :=
  if s.p.isStopping then s
  else (s.quiet fun p => { p with nTimeouts := p.nTimeouts + 1 }).lossOf A o v k

/-- One event (pipeline-interests-adaptive.cpp:78-334), as in `Adaptive.St.step`. -/
def step (A : Alg σ ε) (o : Opts) (s : St σ) (e : Ev ε) : St σ :=
  if s.p.threw.isSome || s.p.ub then s else
  match e with
  | .data k d c v => (s.quiet (·.called k)).handleData A o v k d c
  | .nack k r v => (s.quiet (·.called k)).handleNack A o v k r
  | .expire k v => (s.quiet (·.called k)).handleLifetimeExpiration A o v k
  | .check order v => (s.quiet fun p => { p with timer := false }).checkRto A o v order
  | .cancel => s.quiet (·.cancel)
  | .posted => s.quiet (·.step A o .posted)

end St

/-- pipeline-interests-adaptive.cpp:54-69 `doRun`. The lines that tell the options (lines 406-420) are left out. -/
def start (A : Alg σ ε) (o : Opts) (w : σ) (v : Env ε) : St σ :=
  { p := { win := w, timer := true } : St σ }.schedulePackets A o v

/-- The adaptive pipeline with `--verbose`, after `run()` was called. -/
def machine (A : Alg σ ε) (o : Opts) (w : σ) (v : Env ε) : Machine (St σ) (Ev ε) :=
  { init := start A o w v, step := St.step A o, enabled := fun s e => s.p.enabled e }

instance (A : Alg σ ε) (o : Opts) (w : σ) (v : Env ε) (s : St σ) (e : Ev ε) : Decidable ((machine A o w v).enabled s e) :=
  inferInstanceAs (Decidable (s.p.enabled e))

end Verif.Verbose
