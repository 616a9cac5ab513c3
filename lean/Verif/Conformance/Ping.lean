import Verif.Spec.PingNet
import Verif.Model.Binary64
import Mathlib.Tactic.NormNum
import Mathlib.Data.Real.Sqrt

/-!
# The unit tests of ndnping and ndnpingserver, on the model

`tests/ping/client/statistics-collector.t.cpp`, `tests/ping/client/ping.t.cpp`, `tests/ping/server/ping-server.t.cpp` and
`tests/ping/integrated.t.cpp`, test by test. These are tests of the model, not proofs. The statistics are tested with the arithmetic of
`double`. Where a test lets time pass, the events that happen in the meantime are listed.
-/

namespace Verif.Conformance.Ping

open Verif.Ping

/-! ## statistics-collector.t.cpp -/

private def r : ℚ → ℚ := binary64

private def resp (c : Coll) (t : ℚ) : Coll := c.recordData r t

/-- What can be computed of `computeStatistics`: the standard deviation is given by the variance (`none` is NaN). -/
private structure Got where
  nSent : Int
  nReceived : Int
  nNacked : Int
  minRtt : ℚ
  maxRtt : ℚ
  packetLossRate : Option ℚ
  packetNackedRate : Option ℚ
  sumRtt : ℚ
  avgRtt : Option ℚ
  variance : Option ℚ
  deriving DecidableEq

private def got (c : Coll) : Got :=
  { nSent := c.nSent
    nReceived := c.nReceived
    nNacked := c.nNacked
    minRtt := c.minRtt
    maxRtt := c.maxRtt
    packetLossRate := if c.nSent > 0 then some (r (((c.nSent - c.nReceived - c.nNacked : Int) : ℚ) / c.nSent)) else none
    packetNackedRate := if c.nSent > 0 then some (r ((c.nNacked : ℚ) / c.nSent)) else none
    sumRtt := c.sumRtt
    avgRtt := if c.nReceived > 0 then some (r (c.sumRtt / c.nReceived)) else none
    variance := if c.nReceived > 0 then some (c.variance r) else none }

/-- The link between `got` and the model: every field, and the standard deviation as the root of the variance. -/
private theorem got_eq (c : Coll) :
    let s := c.computeStatistics r
    let g := got c
    s.nSent = g.nSent ∧ s.nReceived = g.nReceived ∧ s.nNacked = g.nNacked ∧ s.minRtt = g.minRtt ∧ s.maxRtt = g.maxRtt ∧
      s.packetLossRate = g.packetLossRate ∧ s.packetNackedRate = g.packetNackedRate ∧ s.sumRtt = g.sumRtt ∧
      s.avgRtt = g.avgRtt ∧
      s.stdDevRtt = g.variance.bind fun v => if v < 0 then none else some (Real.sqrt (v : ℝ)) := by
  refine ⟨rfl, rfl, rfl, rfl, rfl, rfl, rfl, rfl, rfl, ?_⟩
  simp only [Coll.computeStatistics, got]
  by_cases h : c.nReceived > 0 <;> simp [h]

/-- Resp50msResp50ms. -/
example : got (resp {} 50) = ⟨1, 1, 0, 50, 50, some 0, some 0, 50, some 50, some 0⟩ := by decide +kernel
example : got (resp (resp {} 50) 50) = ⟨2, 2, 0, 50, 50, some 0, some 0, 100, some 50, some 0⟩ := by decide +kernel
/-- Resp50msResp100ms: the standard deviation is 25. -/
example : got (resp (resp {} 50) 100) = ⟨2, 2, 0, 50, 100, some 0, some 0, 150, some 75, some 625⟩ := by decide +kernel
example : Real.sqrt ((625 : ℚ) : ℝ) = 25 := by
  rw [show ((625 : ℚ) : ℝ) = 25 * 25 by norm_num, Real.sqrt_mul_self (by norm_num)]
/-- LossLoss. -/
example : got ({} : Coll).recordTimeout.recordTimeout = ⟨2, 0, 0, dblMax, 0, some 1, some 0, 0, none, none⟩ := by decide +kernel
/-- Resp50msLoss. -/
example : got (resp {} 50).recordTimeout = ⟨2, 1, 0, 50, 50, some (1 / 2), some 0, 50, some 50, some 0⟩ := by decide +kernel
/-- NackNack. -/
example : got ({} : Coll).recordNack.recordNack = ⟨2, 0, 2, dblMax, 0, some 0, some 1, 0, none, none⟩ := by decide +kernel
/-- Resp50msNack. -/
example : got (resp {} 50).recordNack = ⟨2, 1, 1, 50, 50, some 0, some (1 / 2), 50, some 50, some 0⟩ := by decide +kernel
/-- NackLoss. -/
example : got ({} : Coll).recordNack.recordTimeout = ⟨2, 0, 1, dblMax, 0, some (1 / 2), some (1 / 2), 0, none, none⟩ := by decide +kernel
/-- NoneSent. -/
example : got {} = ⟨0, 0, 0, dblMax, 0, none, none, 0, none, none⟩ := by decide +kernel

/-! ## ping.t.cpp -/

private def testPrefix : Name := [⟨ttGeneric, "test-prefix".toUTF8.toList⟩]

private def opts : Opts := { pre := testPrefix, nPings := 4, timeout := 2000, startSeq := 1000 }

private def signals (l : List Obs) : List Obs := l.filter fun x => match x with | .interest _ _ => false | _ => true

/-- Basic, the first 500 ms: four Interests. -/
example : ((machine opts).exec (machine opts).init [.timer, .timer, .timer]).map (fun s => (s.log.length, signals s.log, s.timer, s.pending)) =
    some (4, [], false, [1000, 1001, 1002, 1003]) := by decide +kernel

/-- Basic: the signals, `afterFinish` once and last. -/
example : ((machine opts).exec (machine opts).init
      [.timer, .timer, .timer, .data 1000 200, .nack 1001 100 .duplicate, .data 1002 200, .timeout 1003]).map (fun s => signals s.log) =
    some [.data 1000 200, .nack 1001 100 .duplicate, .data 1002 200, .timeout 1003, .finish] := by decide +kernel

/-! ## ping-server.t.cpp -/

private def serverOpts : PingServer.Opts := { pre := testPrefix, freshnessPeriod := 5000, nMaxPings := 2, payloadSize := 0 }

private def ping (n : Nat) : Interest := { name := makePingName opts n, mustBeFresh := true }

/-- Receive. -/
example : (PingServer.machine serverOpts).init.nPings = 0 := by decide
example : ((PingServer.machine serverOpts).exec (PingServer.machine serverOpts).init
      [.interest (ping 1000), .interest (ping 1001)]).map (·.nPings) = some 2 := by decide +kernel

/-! ## integrated.t.cpp -/

private def net (nMax : Nat) (timeout : Int) : Machine PingNet.St PingNet.Ev :=
  PingNet.netMachine (fun _ => []) r { opts with timeout } { serverOpts with nMaxPings := nMax }

private instance (n : Nat) (t : Int) (s : PingNet.St) (e : PingNet.Ev) : Decidable ((net n t).enabled s e) :=
  inferInstanceAs (Decidable (s.enabled (fun _ => []) { serverOpts with nMaxPings := n } e))

/-- Normal: the server answers four pings. -/
example : ((net 4 2000).exec (net 4 2000).init
      [.server (.interest (ping 1000)), .client (.ping (.data 1000 0)), .client (.ping .timer),
       .server (.interest (ping 1001)), .client (.ping (.data 1001 0)), .client (.ping .timer),
       .server (.interest (ping 1002)), .client (.ping (.data 1002 0)), .client (.ping .timer),
       .server (.interest (ping 1003)), .client (.ping (.data 1003 0))]).map (fun s => (s.server.nPings, s.client.ping.pending, signals s.client.ping.log)) =
    some (4, [], [.data 1000 0, .data 1001 0, .data 1002 0, .data 1003 0, .finish]) := by decide +kernel

/-- Timeout: everything is lost. -/
example : ((net 4 500).exec (net 4 500).init
      [.client (.ping .timer), .client (.ping .timer), .client (.ping .timer), .client (.ping (.timeout 1000)),
       .client (.ping (.timeout 1001)), .client (.ping (.timeout 1002)), .client (.ping (.timeout 1003))]).map
        (fun s => (s.server.nPings, signals s.client.ping.log)) =
    some (0, [.timeout 1000, .timeout 1001, .timeout 1002, .timeout 1003, .finish]) := by decide +kernel

end Verif.Conformance.Ping
