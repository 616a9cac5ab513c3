import Verif.Model.Window
import Mathlib.Tactic.NormNum

/-!
# The unit tests of the AIMD pipeline, on the model

`tests/chunks/pipeline-interests-aimd.t.cpp`, test by test, except `PrintSummaryWithNoRttMeasurements` (see `Model/Summary`). These are tests
of the model, not proofs. The RTO, an arbitrary input of the model, is the one of ndn-cxx's `RttEstimator` with the options of the tests. The
clock advances as in the tests: `checkRto` runs at the ticks that are at least 10 ms after it was scheduled.
-/

namespace Verif.Conformance.Aimd

open Verif.Adaptive Verif.Window

/-- ndn-cxx `RttEstimator` as far as needed: times in nanoseconds, alpha 1/8, beta 1/4, `k` 4, multiplier 2. -/
private structure Rtt where
  sRtt : ℚ := 0
  rttVar : ℚ := 0
  rto : ℚ := 1000000000
  measured : Bool := false

private def clamp (x : ℚ) : ℚ := min (max x 200000000) 4000000000

private def Rtt.add (e : Rtt) (rtt : ℚ) (n : Nat) : Rtt :=
  let e := if e.measured then
      { e with
        rttVar := (1 - 1 / 4 / n) * e.rttVar + 1 / 4 / n * |e.sRtt - rtt|
        sRtt := (1 - 1 / 8 / n) * e.sRtt + 1 / 8 / n * rtt }
    else { e with sRtt := rtt, rttVar := rtt / 2, measured := true }
  { e with rto := clamp (e.sRtt + 4 * e.rttVar) }

private def Rtt.backoff (e : Rtt) : Rtt := { e with rto := clamp (e.rto * 2) }

/-- A test in progress: the pipeline, the clock, the estimator, the time for which `checkRto` is scheduled. -/
private structure T where
  p : St Aimd
  now : Nat := 0
  rtt : Rtt := {}
  due : Nat := 10000000
  bad : Bool := false

private def o : AimdOpts := { initCwnd := 2, initSsthresh := 2 ^ 1000, aiStep := 1, mdCoef := 1 / 2, resetCwndToInit := false }

private def A : Alg Aimd Unit := Aimd.alg o

/-- The fields of `PipelineInterests` that the tests look at. -/
private def opts (ignoreCongMarks disableCwa : Bool) : Opts := { maxRetries := 15, ignoreCongMarks, disableCwa }

private def env (t : T) : Env Unit := ⟨t.now, t.rtt.rto.floor.toNat, ()⟩

private def newObs (p p' : St Aimd) : List Obs := p'.log.drop p.log.length

/-- The estimator after an event, for the Interests sent at its end: `addMeasurement` and `backoffRto` come before `schedulePackets`. The RTO
after the event is found from what the event does with any RTO. -/
private def after (t : T) (seg : Nat) (p' : St Aimd) : Rtt :=
  let l := newObs t.p p'
  let n := ((t.p.nInFlight - 1 + 1) / 2).toNat
  let e := if l.any (fun x => match x with | .sample _ => true | _ => false) then
      t.rtt.add ((t.now - ((Adaptive.get t.p.info seg).map (·.timeSent)).getD 0 : Nat) : ℚ) (max n 1)
    else t.rtt
  if l.any (fun x => match x with | .decr _ false => true | _ => false) then e.backoff else e

/-- One event; then the posted callbacks. -/
private def ev (op : Opts) (t : T) (seg : Nat) (mk : Env Unit → Ev Unit) : T :=
  let r := after t seg (t.p.step A op (mk (env t)))
  let e := mk (env { t with rtt := r })
  if t.p.enabled e then
    let p := t.p.step A op e
    { t with p := if p.posted = [] then p else p.step A op .posted, rtt := r }
  else { t with bad := true }

private inductive Op
  | data (k : Nat) (last : Option Nat) (mark : Bool)
  | nack (k : Nat) (r : NackReason)
  | tick (ns : Nat)

private def pkt (last : Option Nat) (mark : Bool) : Pkt := ⟨[], match last with | some n => .seg n | none => .absent, mark, false, true⟩

/-- The Face drops packets for which no Interest is pending. -/
private def isPending (t : T) (k : Nat) : Bool := match Adaptive.get t.p.info k with | some x => x.pending | none => false

private def op (opt : Opts) (t : T) : Op → T
  | .data k last mark => if isPending t k then ev opt t k (.data k (pkt last mark) false) else t
  | .nack k r => if isPending t k then ev opt t k (.nack k r) else t
  | .tick ns =>
    let t := { t with now := t.now + ns }
    if t.due ≤ t.now ∧ t.p.timer = true then
      { ev opt t 0 (.check (t.p.info.map (·.1))) with due := t.now + 10000000 }
    else t

private def begin (opt : Opts) (cwnd ssthresh : ℚ) (r : Rtt := {}) : T :=
  { p := start A opt ⟨cwnd, ssthresh⟩ ⟨0, r.rto.floor.toNat, ()⟩, rtt := r }

private def run (opt : Opts) (cwnd ssthresh : ℚ) (ops : List Op) : T := ops.foldl (op opt) (begin opt cwnd ssthresh)

private def std : Opts := opts false false

private def ns : Op := .tick 1

private def ms (n : Nat) : Op := .tick (n * 1000000)

/-- Data for the segments `a ≤ k < b`, each followed by a tick of 1 ns. -/
private def recv (a b : Nat) (last : Option Nat) : List Op :=
  ((List.range b).drop a).flatMap fun k => [.data k last false, ns]

private def sent (t : T) : List Nat := t.p.log.filterMap fun x => match x with | .interest k _ => some k | _ => none

private def hasFailed (t : T) : Bool := t.p.log.any fun x => match x with | .failure _ => true | _ => false

private def ok (t : T) : Bool := !t.bad && !t.p.ub && !t.p.assertFailed && t.p.threw.isNone

private def nPending (t : T) : Nat := (t.p.info.filter (·.2.pending)).length

/-! ## SlowStart -/

private def slow (i : Nat) : T := run std 2 8 (ns :: recv 0 i (some 3))

example : (slow 0).p.win.cwnd = 2 ∧ sent (slow 0) = [0, 1] := by decide +kernel
example : ∀ i ∈ List.range 3, (slow (i + 1)).p.win.cwnd - (slow i).p.win.cwnd = 1 := by decide +kernel
example : (slow 3).p.nReceived = 3 ∧ ok (slow 3) = true := by decide +kernel

/-! ## CongestionAvoidance -/

private def avoid (i : Nat) : T := run std 2 4 (ns :: recv 0 i (some 6))

example : (avoid 4).p.win.cwnd = 9 / 2 := by decide +kernel
example : ∀ i ∈ [4, 5], (avoid (i + 1)).p.win.cwnd - (avoid i).p.win.cwnd = 1 / ((avoid i).p.win.cwnd.floor : ℚ) := by decide +kernel
example : (avoid 6).p.nReceived = 6 ∧ ok (avoid 6) = true := by decide +kernel

/-! ## Timeout -/

private def to1 : List Op := ns :: recv 0 3 (some 7)
private def to2 : List Op := to1 ++ [ms 100] ++ recv 4 6 (some 7)
private def to3 : List Op := to2 ++ [ms 150]
private def to4 : List Op := to3 ++ recv 6 7 (some 7)

private def counters (t : T) : List Nat := [t.p.nTimeouts, t.p.nLossDecr, t.p.nMarkDecr, t.p.nRetransmitted, t.p.nSkippedRetx, t.p.nCongMarks]

example : (run std 2 4 to1).p.nReceived = 3 ∧ (run std 2 4 to1).p.win.cwnd = 17 / 4 ∧ (sent (run std 2 4 to1)).length = 7 := by decide +kernel
example : (run std 2 4 to2).p.nReceived = 5 ∧ (run std 2 4 to2).p.win.cwnd = 19 / 4 ∧ (sent (run std 2 4 to2)).length = 8 ∧
    counters (run std 2 4 to2) = [0, 0, 0, 0, 0, 0] := by decide +kernel
example : counters (run std 2 4 to3) = [2, 1, 0, 1, 0, 0] ∧ (run std 2 4 to3).p.nReceived = 5 ∧
    (run std 2 4 to3).p.win.cwnd = 19 / 8 ∧ (run std 2 4 to3).p.retxQueue.length = 1 := by decide +kernel

/-! The iteration order of the unordered map decides which of the two segments is retransmitted first. The model leaves it open; here, as in
the test, segment 6 comes first. -/

private def to3' : T :=
  let t := { run std 2 4 to2 with now := (run std 2 4 to2).now + 150000000 }
  { ev std t 0 (.check (t.p.info.map (·.1)).reverse) with due := t.now + 10000000 }

private def to4' : T := (recv 6 7 (some 7)).foldl (op std) to3'

example : counters to3' = [2, 1, 0, 1, 0, 0] ∧ to3'.p.retxQueue = [3] := by decide +kernel
example : to4'.p.nReceived = 6 ∧ to4'.p.win.cwnd = 23 / 8 ∧ to4'.p.retxQueue = [] ∧ to4'.p.retxCount 3 = 1 ∧
    to4'.p.nTimeouts = 2 ∧ to4'.p.nRetransmitted = 2 ∧ ok to4' = true := by decide +kernel

/-! ## CongestionMarksWithCwa, CongestionMarksWithoutCwa, IgnoreCongestionMarks -/

private def marks1 : List Op := ns :: recv 0 5 (some 6)
private def marks2 : List Op := marks1 ++ [.data 5 (some 6) true, ns]
private def marks3 : List Op := marks2 ++ [.data 6 (some 6) true, ns]
private def ign1 : List Op := ns :: recv 0 6 (some 6)
private def ign2 : List Op := ign1 ++ [.data 6 (some 6) true, ns]
private def noCwa : Opts := opts false true
private def ign : Opts := opts true false

private structure View where
  nReceived : Nat
  cwnd : ℚ
  sent : Nat
  retxQueue : Nat
  retx : Nat
  nCongMarks : Nat
  ok : Bool
  deriving DecidableEq

private def view (t : T) : View :=
  ⟨t.p.nReceived, t.p.win.cwnd, (sent t).length, t.p.retxQueue.length, t.p.retxCount 5 + t.p.retxCount 6, t.p.nCongMarks, ok t⟩

example : view (run std 2 4 marks1) = ⟨5, 19 / 4, 7, 0, 0, 0, true⟩ ∧ view (run noCwa 2 4 marks1) = ⟨5, 19 / 4, 7, 0, 0, 0, true⟩ := by decide +kernel
example : view (run std 2 4 marks2) = ⟨6, 19 / 8, 7, 0, 0, 1, true⟩ ∧ view (run noCwa 2 4 marks2) = ⟨6, 19 / 8, 7, 0, 0, 1, true⟩ := by decide +kernel
example : view (run std 2 4 marks3) = ⟨7, 19 / 8, 7, 0, 0, 2, true⟩ := by decide +kernel
example : view (run noCwa 2 4 marks3) = ⟨7, minSsthresh, 7, 0, 0, 2, true⟩ := by decide +kernel
example : view (run ign 2 4 ign1) = ⟨6, 5, 7, 0, 0, 0, true⟩ ∧ view (run ign 2 4 ign2) = ⟨7, 26 / 5, 7, 0, 0, 1, true⟩ := by decide +kernel

/-! ## Nack -/

private def big : ℚ := 2 ^ 1000

private def nack1 : List Op := ns :: recv 0 2 (some 4)
private def nack2 : List Op := nack1 ++ [.nack 1 .duplicate, ns]
private def nack3 : List Op := nack2 ++ [.nack 2 .congestion, ns]
private def nack4 : List Op := nack3 ++ [.nack 3 .none, ns]

example : (run std 10 big nack1).p.nReceived = 2 ∧ (sent (run std 10 big nack1)).length = 10 := by decide +kernel
example : hasFailed (run std 10 big nack2) = false ∧ (run std 10 big nack2).p.nReceived = 2 ∧ (run std 10 big nack2).p.retxQueue = [] := by decide +kernel
example : (run std 10 big nack3).p.retxCount 2 = 1 := by decide +kernel
example : hasFailed (run std 10 big nack4) = true ∧ (run std 10 big nack4).p.nReceived = 2 ∧ ok (run std 10 big nack4) = true := by decide +kernel

/-! ## FinalBlockIdNotSetAtBeginning -/

private def fin1 : List Op := ns :: recv 0 1 none
private def fin2 : List Op := fin1 ++ recv 1 2 (some 3)

example : (sent (run std 4 big fin1)).length = 6 ∧ (run std 4 big fin1).p.nReceived = 1 ∧ (run std 4 big fin1).p.hasFinalBlockId = false ∧
    nPending (run std 4 big fin1) = 5 := by decide +kernel
example : (run std 4 big fin2).p.nReceived = 2 ∧ (run std 4 big fin2).p.hasFinalBlockId = true ∧ nPending (run std 4 big fin2) = 2 ∧
    ok (run std 4 big fin2) = true := by decide +kernel

/-! ## FailureBeforeFinalBlockIdReceived, SpuriousFailureBeforeFinalBlockIdReceived -/

private def fail1 : List Op := ns :: recv 0 2 none
private def fail2 (k : Nat) : List Op := fail1 ++ [.nack k .none, ns]
private def fail3 (k : Nat) : List Op := fail2 k ++ recv 2 3 (some 3)

example : (sent (run std 4 big fail1)).length = 8 := by decide +kernel
example : hasFailed (run std 4 big (fail2 3)) = false ∧ nPending (run std 4 big (fail2 3)) = 1 := by decide +kernel
example : hasFailed (run std 4 big (fail3 3)) = true ∧ ok (run std 4 big (fail3 3)) = true := by decide +kernel
example : hasFailed (run std 4 big (fail2 4)) = false ∧ nPending (run std 4 big (fail2 4)) = 2 := by decide +kernel
example : (run std 4 big (fail3 4 ++ [ms 1000])).p.retxCount 3 = 1 := by decide +kernel
example : hasFailed (run std 4 big (fail3 4 ++ [ms 1000] ++ recv 3 4 (some 3))) = false ∧
    ok (run std 4 big (fail3 4 ++ [ms 1000] ++ recv 3 4 (some 3))) = true := by decide +kernel

/-! ## SegmentInfoMaintenance -/

private def info1 : List Op := ns :: recv 0 2 (some 2)
private def info2 : List Op := info1 ++ [ms 400, ms 400, ms 400]
private def info3 : List Op := info2 ++ recv 2 3 (some 2)
private def info4 : List Op := info3 ++ recv 2 3 (some 2)

private def state (t : T) : Option SegState := (Adaptive.get t.p.info 2).map (·.state)

example : (sent (run std 2 big info1)).length = 3 ∧ state (run std 2 big info1) = some .firstTimeSent := by decide +kernel
example : (sent (run std 2 big info2)).length = 5 ∧ state (run std 2 big info2) = some .retransmitted ∧
    (run std 2 big info2).p.retxCount 2 = 2 := by decide +kernel
example : state (run std 2 big info3) = none := by decide +kernel
example : state (run std 2 big info4) = none ∧ (sent (run std 2 big info4)).length = 5 ∧
    (run std 2 big info4).rtt.sRtt = (run std 2 big info3).rtt.sRtt ∧ (run std 2 big info4).rtt.rto = (run std 2 big info3).rtt.rto ∧
    ok (run std 2 big info4) = true := by decide +kernel

/-! ## Bug5202

A transfer of 300 segments. It takes the kernel too much memory, so the last two tests are left to Lean's interpreter. -/

private def recvMs (a b : Nat) : List Op := ((List.range b).drop a).flatMap fun k => [.data k (some 299) false, ms 1]

private def bug0 : T := begin std 20 0 ((({} : Rtt)).add 1 1)
private def bug1 : T := ([ns, ms 20] ++ recvMs 0 1 ++ recvMs 2 100 ++ recvMs 101 182).foldl (op std) bug0
private def bug2 : T := (recvMs 182 301).foldl (op std) bug1

example : bug0.rtt.rto = 200000000 ∧ (sent bug0).length = 20 := by decide +kernel
#guard 27 / 2 < bug1.p.win.cwnd ∧ bug1.p.win.cwnd < 28 / 2 ∧ bug1.p.nTimeouts = 1 ∧ bug1.p.nLossDecr = 1
#guard bug2.p.nTimeouts = 2 ∧ bug2.p.nLossDecr = 1 ∧ ok bug2 = true

/-! ## StopsWhenFileSizeLessThanChunkSize -/

private def one : T := run std 2 big (ns :: recv 0 1 (some 0))

example : one.p.hasFinalBlockId = true ∧ one.p.info = [] ∧ nPending one = 0 ∧ ok one = true := by decide +kernel

end Verif.Conformance.Aimd
