import Verif.Proofs.PingError
import Verif.Props.Ping

/-! # C59 for several responses -/

namespace Verif.Ping

/-- **C59 (partial: several responses)** In double arithmetic, with `n` responses, at most a thousand million: the reported deviation is a
number, unless the variance of the round-trip times is less than `60 n / 2 ^ 53` of the mean of their squares. If it is a number, its square
is the variance up to `72 n / 2 ^ 53` of the mean of the squares. -/
theorem C59_deviation_partial {o : Opts} {es p} (h : (progMachine binary64 o).Run es p) (hne : rtts p.ping.log ≠ [])
    (hle : (rtts p.ping.log).length ≤ 10 ^ 9) :
    let xs := rtts p.ping.log
    let n : ℚ := xs.length
    let mean := xs.sum / n
    let variance := (xs.map fun x => (x - mean) * (x - mean)).sum / n
    let squares := (xs.map fun x => x * x).sum / n
    let dev := (p.coll.computeStatistics binary64).stdDevRtt
    (60 * n / 2 ^ 53 * squares ≤ variance → dev ≠ none) ∧
    ∀ d, dev = some d → 0 ≤ d ∧ |d * d - (variance : ℝ)| ≤ ((72 * n / 2 ^ 53 * squares : ℚ) : ℝ) := by
  have hc := (prog_inv h).coll
  obtain ⟨s1, s2⟩ := coll_folds binary64 p.ping.log {}
  rw [← hc] at s1 s2
  have g2 : p.coll.nReceived = (nData p.ping.log : Int) := (C30_accounting h).2.1
  rw [← rtts_length] at g2
  dsimp only
  generalize hxs : rtts p.ping.log = xs at *
  have hlen : 0 < xs.length := List.length_pos_of_ne_nil hne
  have hnn : ∀ x ∈ xs, 0 ≤ x := by rw [← hxs]; exact rtts_nonneg _
  have hrec : (p.coll.nReceived : ℚ) = xs.length := by rw [g2]; exact Int.cast_natCast _
  obtain ⟨k1, k2⟩ := variance_near (c := p.coll) (xs := xs) rfl (by exact_mod_cast hlen) (by exact_mod_cast hle) hnn hrec s1 s2
  have hpos : p.coll.nReceived > 0 := by rw [g2]; omega
  have hdev : (p.coll.computeStatistics binary64).stdDevRtt =
      if p.coll.variance binary64 < 0 then none else some (Real.sqrt ((p.coll.variance binary64 : ℚ) : ℝ)) := by
    unfold Coll.computeStatistics
    dsimp only
    rw [if_pos hpos]
  rw [hdev]
  refine ⟨fun hv => ?_, fun d hd => ?_⟩
  · rw [if_neg (not_lt.mpr (k1 hv))]
    simp
  · split at hd
    · cases hd
    · rename_i hneg
      have hd' : Real.sqrt ((p.coll.variance binary64 : ℚ) : ℝ) = d := Option.some.inj hd
      subst hd'
      refine ⟨Real.sqrt_nonneg _, ?_⟩
      rw [Real.mul_self_sqrt (by exact_mod_cast not_lt.mp hneg), ← Rat.cast_sub, ← Rat.cast_abs]
      exact_mod_cast k2

/-- Two responses after 1 and 3 milliseconds: the variance is 1 and the mean of the squares is 5. -/
example : ∃ p, (progMachine binary64 { pre := [] }).Run [.ping (.data 0 1000000), .ping .timer, .ping (.data 1 3000000)] p ∧
    rtts p.ping.log = [1, 3] ∧ (60 * 2 / 2 ^ 53 * (([1, 3] : List ℚ).map fun x => x * x).sum / 2 : ℚ) ≤
      (([1, 3] : List ℚ).map fun x => (x - 2) * (x - 2)).sum / 2 := by
  let M := progMachine binary64 { pre := [] }
  refine ⟨_, Machine.exec_run (M := M) (s := (M.exec M.init
    [.ping (.data 0 1000000), .ping .timer, .ping (.data 1 3000000)]).get (by decide +kernel))
    (Option.some_get _).symm, by decide +kernel, by norm_num⟩

end Verif.Ping
