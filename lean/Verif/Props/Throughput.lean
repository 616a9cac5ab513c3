import Verif.Proofs.Throughput

/-!
# The displayed throughput

`formatThroughput` and the goodput line of the summary, pipeline-interests.cpp:123-158, in `double` arithmetic.
-/

namespace Verif.Throughput

open Spec

/-! ## C45: Throughput is displayed in the right unit

"The displayed throughput value times its unit equals the true throughput, and the value is below 1000 unless the largest
unit is reached." The displayed number has six digits after the point, so that it is not exactly the throughput, and it
can be 1000: both halves fail as they stand (`C45_refuted`). The theorems give the error, and 1000 as the bound. -/

/-- **C45, part.** For every throughput, what is displayed is a number with six digits after the point and a unit. The
number times the unit is the throughput up to half a millionth of the unit and a relative error of `2^-49`. The number is
at most 1000 unless the unit is Tbit/s, and at least 1 unless the unit is bit/s. Missing: exactness and "below 1000",
which do not hold. -/
theorem C45_format_partial (x : ℚ) (hx : 0 ≤ x) :
    ∃ t u q f, formatThroughput binary64 (.num x) = .number t u ∧ Denotes t q ∧ factor u = some f ∧
      |q * f - x| ≤ x / 2 ^ 49 + f / (2 * 10 ^ 6) ∧ (u ≠ "Tbit/s" → q ≤ 1000) ∧ (u ≠ "bit/s" → 1 ≤ q) := by
  obtain ⟨t, u, q, f, h1, h2, h3, ⟨v, h4, h5, _⟩, h6, h7, h8⟩ := format_spec rounding_binary64 hx
  refine ⟨t, u, q, f, h1, h2, h3, ?_, h7, h8⟩
  have hf : 0 ≤ f := by linarith
  have ha := (h4.mono (by decide : 4 ≤ 8) (h4.nonneg hx) hx).abs hx
  exact error_sum ha h5 hf

/-- 1234567 bit/s. -/
example : (0 : ℚ) ≤ 1234567 ∧ formatThroughput binary64 (.num 1234567) = .number "1.234567".toUTF8.toList "Mbit/s" := by
  constructor
  · norm_num
  · decide +kernel

/-- **C45, part.** A throughput the loop has scaled below 999.9999995 in its unit is displayed below 1000: the number that
is rounded for display agrees with the throughput up to `2^-49`, is below 1000 unless the unit is Tbit/s, and the displayed
number is within half a millionth of it. -/
theorem C45_below_partial (x : ℚ) (hx : 0 ≤ x) :
    ∃ t u q f v, formatThroughput binary64 (.num x) = .number t u ∧ Denotes t q ∧ factor u = some f ∧
      |v * f - x| ≤ x / 2 ^ 49 ∧ (u ≠ "Tbit/s" → v < 1000) ∧ |q - v| ≤ 1 / (2 * 10 ^ 6) ∧
      (v < 1000 - 1 / (2 * 10 ^ 6) → q < 1000) := by
  obtain ⟨t, u, q, f, h1, h2, h3, ⟨v, h4, h5, h9⟩, h6, h7, h8⟩ := format_spec rounding_binary64 hx
  refine ⟨t, u, q, f, v, h1, h2, h3, (h4.mono (by decide : 4 ≤ 8) (h4.nonneg hx) hx).abs hx, h9, h5, ?_⟩
  intro hv
  have := (abs_le.mp h5).2
  linarith

/-- Just below a gigabit. -/
example : formatThroughput binary64 (.num 999999999) = .number "999.999999".toUTF8.toList "Mbit/s" := by decide +kernel

/-- **C45, part.** The goodput line: for every number of received bytes whose number of bits is a 64 bit number and every
time that is not zero, the displayed number times its unit is the number of bits per second, up to half a millionth of the
unit and a relative error of `2^-49`. -/
theorem C45_goodput_partial (bytes ns : Nat) (hb : 8 * bytes < 2 ^ 64) (hn : 0 < ns) :
    ∃ t u q f, goodput binary64 bytes ns = .number t u ∧ Denotes t q ∧ factor u = some f ∧
      |q * f - 8 * bytes / (ns / 10 ^ 9)| ≤ 8 * bytes / (ns / 10 ^ 9) / 2 ^ 49 + f / (2 * 10 ^ 6) ∧
      (u ≠ "Tbit/s" → q ≤ 1000) ∧ (u ≠ "bit/s" → 1 ≤ q) := by
  obtain ⟨x, hx, hrel, hx0⟩ := throughput_spec rounding_binary64 hb hn
  obtain ⟨t, u, q, f, h1, h2, h3, ⟨v, h4, h5, _⟩, h6, h7, h8⟩ := format_spec rounding_binary64 hx0
  refine ⟨t, u, q, f, ?_, h2, h3, ?_, h7, h8⟩
  · unfold goodput; rw [hx]; exact h1
  · have hf : 0 ≤ f := by linarith
    have hT : (0 : ℚ) ≤ 8 * bytes / (ns / 10 ^ 9) := by positivity
    exact error_sum ((h4.trans hrel).abs hT) h5 hf

/-- 1500000 bytes in a second and a half are 8 Mbit/s. -/
example : 8 * 1500000 < 2 ^ 64 ∧ 0 < 1500000000 ∧
    goodput binary64 1500000 1500000000 = .number "8.000000".toUTF8.toList "Mbit/s" :=
  ⟨by decide, by decide, by decide +kernel⟩

/-- **C45, refuted as stated.** A throughput just below 1000 bit/s is displayed as 1000 bit/s, not as 1 kbit/s; a positive
throughput is displayed as zero; and with a transfer of `2^61` bytes the number of bits wraps to zero. -/
theorem C45_refuted :
    formatThroughput binary64 (.num (1000 - 1 / 2 ^ 30)) = .number "1000.000000".toUTF8.toList "bit/s" ∧
    formatThroughput binary64 (.num (1 / 2 ^ 30)) = .number "0.000000".toUTF8.toList "bit/s" ∧
    goodput binary64 (2 ^ 61) (10 ^ 9) = .number "0.000000".toUTF8.toList "bit/s" := by
  decide +kernel

/-- **C45 (no time)** A transfer that takes no measurable time has no number displayed: it is infinitely fast, or not a number if there
is nothing to transfer. -/
theorem C45_no_time (bytes : Nat) :
    goodput binary64 bytes 0 = if 8 * bytes % 2 ^ 64 = 0 then .nan "bit/s" else .inf "Tbit/s" := by
  unfold goodput throughput
  rw [if_pos rfl]
  by_cases h : 8 * bytes % 2 ^ 64 = 0
  · rw [if_pos h, if_pos h]; rfl
  · rw [if_neg h, if_neg h]; rfl

example : goodput binary64 5 0 = .inf "Tbit/s" := by decide +kernel

end Verif.Throughput
