import Verif.Proofs.FixedVerbose
import Verif.Props.FixedMsg

/-! # C105: what `ndncatchunks --verbose` prints with the fixed pipeline -/

namespace Verif.FixedVerbose

open Fixed

variable {N : Nat} {R : Int}

private def d (n : Nat) : Pkt := ⟨[1], .seg n, false, false, true⟩

/-- Three pipes, one retry: segment 1 is lost, then refused because of congestion; segment 0 announces that segment 3 is the last one, and
segment 2 gets a Nack that forbids another attempt. -/
private def sample : List Ev :=
  [.timeout 1, .nack 1 .congestion, .data 0 (d 3) false, .timer 1, .data 1 (d 3) false, .nack 2 .noRoute, .posted]

private theorem sample_ok : ((machine 3 1).exec (machine 3 1).init sample).isSome = true := by decide +kernel

private def sampleEnd : St := ((machine 3 1).exec (machine 3 1).init sample).get sample_ok

private theorem sample_run : (machine 3 1).Run sample sampleEnd := Machine.exec_run (M := machine 3 1) (Option.some_get _).symm

example : sampleEnd.lines = [.requesting 0, .requesting 1, .requesting 2, .timeout 1, .nack 1 .congestion, .received 0, .requesting 3,
    .received 1, .nack 2 .noRoute] ∧
    sampleEnd.p.log = [.interest 0, .interest 1, .interest 2, .interest 1, .data 0 (d 3), .interest 3, .interest 1, .data 1 (d 3),
      .failure (.nack .noRoute)] := by decide +kernel

/-! ## Printing changes nothing -/

/-- **C105** The executions with `--verbose` are those without, with lines. -/
theorem C105_same (es : List Ev) (q : Fixed.St) :
    (Fixed.machine N R).Run es q ↔ ∃ s, (machine N R).Run es s ∧ s.p = q :=
  ⟨run_lift, fun ⟨_, h, hq⟩ => hq ▸ run_p h⟩

example : (Fixed.machine 3 1).Run sample sampleEnd.p := (C105_same sample _).2 ⟨sampleEnd, sample_run, rfl⟩

/-! ## Requests and receipts -/

/-- **C105** The lines "Requesting segment" and "Received segment" tell, in order, which segments are requested for the first time
and which are delivered. -/
theorem C105_steps {es s} (hN : 0 < N) (h : (machine N R).Run es s) : steps s.lines = did s.p.log := (run_lines hN h).1.rcv

example : steps sampleEnd.lines = [.requesting 0, .requesting 1, .requesting 2, .received 0, .requesting 3, .received 1] := by
  decide +kernel

/-- **C105** The segments in the lines "Requesting segment" are 0, 1, 2 and so on, each once; an Interest is sent for exactly these. -/
theorem C105_requests {es s} (hN : 0 < N) (h : (machine N R).Run es s) :
    ∃ m, requests s.lines = List.range m ∧ ∀ k, Obs.interest k ∈ s.p.log ↔ k < m := by
  obtain ⟨m, h1, h2, -⟩ := (run_lines hN h).1.req
  exact ⟨m, h1, h2⟩

example : requests sampleEnd.lines = [0, 1, 2, 3] := by decide +kernel

/-- **C105** The segments in the lines "Received segment" are those delivered, in this order, each once. -/
theorem C105_received {es s} (hN : 0 < N) (h : (machine N R).Run es s) :
    receipts s.lines = received s.p.log ∧ (receipts s.lines).Nodup := by
  have h1 : receipts s.lines = received s.p.log := by
    rw [← receipts_steps, (run_lines hN h).1.rcv]; exact receipts_did _ []
  exact ⟨h1, h1 ▸ (run_inv hN (run_p h)).core.rnodup⟩

example : receipts sampleEnd.lines = [0, 1] := by decide +kernel

/-! ## Nacks and timeouts -/

/-- **C105** Every Nack and timeout of a segment that is being fetched is told, in order, and nothing else. -/
theorem C105_setbacks {es s} (hN : 0 < N) (h : (machine N R).Run es s) :
    told s.lines = setbacks (story (Fixed.start N R) es) := (run_lines hN h).2

example : told sampleEnd.lines = [(1, .timeout), (1, .nack .congestion), (2, .nack .noRoute)] := by decide +kernel

/-- **C105** With a limit of retries there are for each segment at most as many lines about timeouts as retries are allowed and one
more, and the same for lines about Nacks. -/
theorem C105_limit {es s} (hN : 0 < N) (hR : 0 ≤ R) (h : (machine N R).Run es s) (k : Nat) :
    (nackCount k (told s.lines) : Int) ≤ R + 1 ∧ (timeoutCount k (told s.lines) : Int) ≤ R + 1 := by
  rw [C105_setbacks hN h, nackCount_setbacks, timeoutCount_setbacks]
  exact run_limit hN hR (run_p h) k

private def limit : List Ev := [.data 0 (d 3) false, .timeout 1, .nack 1 .duplicate, .timeout 1, .posted]

private theorem limit_ok : ((machine 2 1).exec (machine 2 1).init limit).isSome = true := by decide +kernel

private def limitEnd : St := ((machine 2 1).exec (machine 2 1).init limit).get limit_ok

example : (machine 2 1).Run limit limitEnd ∧ timeoutCount 1 (told limitEnd.lines) = 2 ∧ nackCount 1 (told limitEnd.lines) = 1 :=
  ⟨Machine.exec_run (M := machine 2 1) (Option.some_get _).symm, by decide +kernel, by decide +kernel⟩

/-- **C105** A failure can be explained with the lines: the message is true of the Nacks and timeouts that the lines tell. The message
about the missing end is, as in `C84_messages_partial`, only explained by a failed request. -/
theorem C105_messages {es s} (hN : 0 < N) (hR : -1 ≤ R) (h : (machine N R).Run es s) (m : FailMsg) (hm : Obs.failure m ∈ s.p.log) :
    (m ≠ .noFinal → Truth R (told s.lines) s.p.log m) ∧ (m = .noFinal → BeyondFailed R (told s.lines) s.p.log) := by
  rw [C105_setbacks hN h, truth_setbacks, beyond_setbacks]
  exact C84_messages_partial hN hR (run_p h) m hm

example : FailMsg.nack .noRoute ≠ .noFinal ∧ Obs.failure (.nack .noRoute) ∈ sampleEnd.p.log ∧
    Obs.failure (.maxTimeoutRetries 1) ∈ limitEnd.p.log := by decide +kernel

/-! ## Interests -/

/-- **C105** No segment is requested more often than the lines tell: one Interest for the line "Requesting segment", and one for each Nack
or timeout. For a segment that was received it is exactly this number. -/
theorem C105_interests {es s} (hN : 0 < N) (h : (machine N R).Run es s) (k : Nat) :
    sent k s.p.log ≤ (requests s.lines).count k + toldOf k s.lines ∧
    (k ∈ receipts s.lines → sent k s.p.log = 1 + toldOf k s.lines) := by
  have hf := run_flow hN (run_p h)
  have ht : toldOf k s.lines = sb k (story (Fixed.start N R) es) := by
    unfold toldOf sb; rw [C105_setbacks hN h]
  obtain ⟨m, h1, h2⟩ := C105_requests hN h
  rw [ht, h1]
  refine ⟨?_, fun hk => hf.got k ((C105_received hN h).1 ▸ hk)⟩
  by_cases hk : k < m
  · exact Nat.le_trans (hf.le k) (Nat.add_le_add_right (List.one_le_count_iff.mpr (List.mem_range.mpr hk)) _)
  · rw [sent_zero fun hx => hk ((h2 k).1 hx)]
    exact Nat.zero_le _

example : sent 1 sampleEnd.p.log = 3 ∧ toldOf 1 sampleEnd.lines = 2 ∧ 1 ∈ receipts sampleEnd.lines ∧
    sent 2 sampleEnd.p.log = 1 ∧ toldOf 2 sampleEnd.lines = 1 := by decide +kernel

end Verif.FixedVerbose
