import Verif.Proofs.FixedMsg

/-! # Property C84: the messages of the fixed pipeline are true -/

namespace Verif.Fixed

/-- **C84 (fixed pipeline)** The message passed to the failure callback is true: the Nack it names arrived, and
permits no retry, or the limit it names was set and exceeded by one, or the fetch of the segment it names
failed; always for a segment that was requested, never delivered, and not beyond the end that the first
FinalBlockId announced. No other message is used, except the one about the missing end. That one is reported only when the request for a segment
failed that was not delivered and lies beyond the announced end, if there is one. Missing: that no end was announced, which
is false, see `C84_noFinal_refuted`. -/
theorem C84_messages_partial {N : Nat} {R : Int} {es s} (hN : 0 < N) (hR : -1 ≤ R) (h : (machine N R).Run es s)
    (m : FailMsg) (hm : Obs.failure m ∈ s.log) :
    (m ≠ .noFinal → Truth R (story (start N R) es) s.log m) ∧
    (m = .noFinal → BeyondFailed R (story (start N R) es) s.log) := by
  have := ((run_msgs hN hR h).msg m (Or.inr hm)).2
  constructor
  · intro hne
    cases m <;> first | exact absurd rfl hne | exact this
  · rintro rfl
    exact this

/-- The pipeline reports that the end is not known although it was announced before: three pipes, no retries;
segment 2 times out, segment 0 announces that segment 1 is the last one. -/
theorem C84_noFinal_refuted : ∃ es s, (machine 3 0).Run es s ∧ Obs.failure .noFinal ∈ s.log ∧
    ¬ Truth 0 (story (start 3 0) es) s.log .noFinal := by
  let es : List Ev := [.timeout 2, .data 0 ⟨[1], .seg 1, false, false, true⟩ false, .posted]
  refine ⟨es, ((machine 3 0).exec (machine 3 0).init es).get (by decide +kernel),
    Machine.exec_run (M := machine 3 0) (Option.some_get _).symm, by decide +kernel, ?_⟩
  show ¬ announced _ = none
  decide +kernel

/-! ## Examples: every message occurs -/

private def d (n : Nat) : Pkt := ⟨[1], .seg n, false, false, true⟩

private def run84 (N : Nat) (R : Int) (es : List Ev) : Option (List Obs) :=
  ((machine N R).exec (machine N R).init es).map St.log

example : run84 2 3 [.data 0 (d 5) false, .nack 1 .noRoute, .posted] =
    some [.interest 0, .interest 1, .data 0 (d 5), .interest 2, .failure (.nack .noRoute)] := by decide +kernel

example : run84 2 1 [.data 0 (d 5) false, .nack 1 .duplicate, .nack 1 .duplicate, .posted] =
    some [.interest 0, .interest 1, .data 0 (d 5), .interest 2, .interest 1, .failure (.maxNackRetries 1)] := by decide +kernel

example : story (start 2 1) [.data 0 (d 5) false, .nack 1 .duplicate, .timeout 0, .nack 1 .duplicate, .posted] =
    [(0, .data), (1, .nack .duplicate), (2, .timeout), (1, .nack .duplicate)] := by decide +kernel

example : run84 2 0 [.data 0 (d 5) false, .timeout 0, .posted] =
    some [.interest 0, .interest 1, .data 0 (d 5), .interest 2, .failure (.maxTimeoutRetries 0)] := by decide +kernel

example : run84 3 0 [.timeout 1, .data 0 (d 5) false, .posted] =
    some [.interest 0, .interest 1, .interest 2, .data 0 (d 5), .failure (.segment 1)] := by decide +kernel

example : run84 2 0 [.timeout 0, .posted] = some [.interest 0, .interest 1, .failure .noFinal] := by decide +kernel

end Verif.Fixed
