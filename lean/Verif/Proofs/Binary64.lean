import Verif.Model.Binary64
import Mathlib.Tactic.NormNum
import Mathlib.Tactic.Ring
import Mathlib.Tactic.Linarith
/-! # Facts about rounding -/

namespace Verif

/-- A multiple `m * 2^e` with `2^52 ≤ |m| < 2^53` is a double. -/
theorem binary64_fix {m e : Int} (h1 : 2 ^ 52 ≤ |m|) (h2 : |m| < 2 ^ 53) :
    binary64 ((m : ℚ) * 2 ^ e) = m * 2 ^ e := by
  have hm : m ≠ 0 := by rintro rfl; simp at h1
  have hp : (0 : ℚ) < 2 ^ e := zpow_pos (by norm_num) e
  have hx : (m : ℚ) * 2 ^ e ≠ 0 := mul_ne_zero (by exact_mod_cast hm) hp.ne'
  have habs : |(m : ℚ) * 2 ^ e| = |(m : ℚ)| * 2 ^ e := by rw [abs_mul, abs_of_pos hp]
  have hq1 : (2 : ℚ) ^ (52 : Int) ≤ |(m : ℚ)| := by exact_mod_cast h1
  have hq2 : |(m : ℚ)| < (2 : ℚ) ^ (53 : Int) := by exact_mod_cast h2
  have hpos : 0 < |(m : ℚ)| * 2 ^ e := by rw [← habs]; exact abs_pos.mpr hx
  have hlog : Int.log 2 (|(m : ℚ)| * 2 ^ e) = 52 + e := by
    apply le_antisymm
    · have : Int.log 2 (|(m : ℚ)| * 2 ^ e) < 53 + e := by
        rw [← Int.lt_zpow_iff_log_lt (by norm_num) hpos]
        rw [Nat.cast_ofNat, zpow_add₀ (by norm_num)]
        exact mul_lt_mul_of_pos_right hq2 hp
      omega
    · rw [← Int.zpow_le_iff_le_log (by norm_num) hpos]
      rw [Nat.cast_ofNat, zpow_add₀ (by norm_num)]
      exact mul_le_mul_of_nonneg_right hq1 hp.le
  unfold binary64
  rw [if_neg hx]
  dsimp only
  rw [habs, hlog]
  have he : (52 + e - 52 : Int) = e := by ring
  rw [he, mul_div_assoc, div_self hp.ne', mul_one, Int.floor_intCast, sub_self, if_pos (by norm_num)]

theorem binary64_idem (x : ℚ) : binary64 (binary64 x) = binary64 x := by
  by_cases hx : x = 0
  · subst hx; rfl
  · have hp : ∀ e : Int, (0 : ℚ) < 2 ^ e := fun e => zpow_pos (by norm_num) e
    have hax : 0 < |x| := abs_pos.mpr hx
    have hl1 : (2 : ℚ) ^ Int.log 2 |x| ≤ |x| := by
      have := Int.zpow_log_le_self (R := ℚ) (b := 2) (by norm_num) hax
      simpa using this
    have hl2 : |x| < (2 : ℚ) ^ (Int.log 2 |x| + 1) := by
      have := Int.lt_zpow_succ_log_self (R := ℚ) (b := 2) (by norm_num) |x|
      simpa using this
    have hdef : ∃ m : Int, binary64 x = m * 2 ^ (Int.log 2 |x| - 52) ∧ 2 ^ 52 ≤ |m| ∧ |m| ≤ 2 ^ 53 := by
      unfold binary64
      rw [if_neg hx]
      dsimp only
      generalize he : Int.log 2 |x| - 52 = e
      have hy1 : (2 : ℚ) ^ 52 ≤ |x / 2 ^ e| := by
        rw [abs_div, abs_of_pos (hp e), le_div_iff₀ (hp e)]
        have : (2 : ℚ) ^ 52 * 2 ^ e = 2 ^ Int.log 2 |x| := by
          rw [← he, ← zpow_natCast, ← zpow_add₀ (by norm_num)]; congr 1; push_cast; ring
        rw [this]; exact hl1
      have hy2 : |x / 2 ^ e| < (2 : ℚ) ^ 53 := by
        rw [abs_div, abs_of_pos (hp e), div_lt_iff₀ (hp e)]
        have : (2 : ℚ) ^ 53 * 2 ^ e = 2 ^ (Int.log 2 |x| + 1) := by
          rw [← he, ← zpow_natCast, ← zpow_add₀ (by norm_num)]; congr 1; push_cast; ring
        rw [this]; exact hl2
      generalize x / 2 ^ e = y at *
      have hf1 := Int.floor_le y
      have hf2 := Int.lt_floor_add_one y
      generalize ⌊y⌋ = f at *
      refine ⟨_, rfl, ?_⟩
      rcases abs_cases y with ⟨ha, hb⟩ | ⟨ha, hb⟩
      · rw [ha] at hy1 hy2
        have g1 : (2 : Int) ^ 52 ≤ f := by
          have : (2 : ℚ) ^ 52 < f + 1 := by linarith
          have : (2 : Int) ^ 52 < f + 1 := by exact_mod_cast this
          omega
        have g2 : f < (2 : Int) ^ 53 := by
          have : (f : ℚ) < 2 ^ 53 := by linarith
          exact_mod_cast this
        split
        · rw [abs_of_nonneg (by omega)]; omega
        · split
          · split <;> rw [abs_of_nonneg (by omega)] <;> omega
          · rw [abs_of_nonneg (by omega)]; omega
      · rw [ha] at hy1 hy2
        have g1 : f ≤ -(2 : Int) ^ 52 := by
          have : (f : ℚ) ≤ -2 ^ 52 := by linarith
          exact_mod_cast this
        have g2 : -(2 : Int) ^ 53 ≤ f := by
          have : -(2 : ℚ) ^ 53 < f + 1 := by linarith
          have : -(2 : Int) ^ 53 < f + 1 := by exact_mod_cast this
          omega
        have g3 : (f : ℚ) < y → f + 1 ≤ -(2 : Int) ^ 52 := by
          intro h
          have : (f : ℚ) < -2 ^ 52 := by linarith
          have : f < -(2 : Int) ^ 52 := by exact_mod_cast this
          omega
        split
        · rw [abs_of_nonpos (by omega)]; omega
        · rename_i h
          have := g3 (by linarith)
          split
          · split <;> rw [abs_of_nonpos (by omega)] <;> omega
          · rw [abs_of_nonpos (by omega)]; omega
    obtain ⟨m, hm, h1, h2⟩ := hdef
    rw [hm]
    rcases lt_or_eq_of_le h2 with h2 | h2
    · exact binary64_fix h1 h2
    · have hmm : ∃ k : Int, m = k * 2 ∧ |k| = 2 ^ 52 := by
        rcases abs_cases m with ⟨ha, hb⟩ | ⟨ha, hb⟩
        · exact ⟨2 ^ 52, by omega, by norm_num⟩
        · exact ⟨-2 ^ 52, by omega, by norm_num⟩
      obtain ⟨k, rfl, hk⟩ := hmm
      have e : ((k * 2 : Int) : ℚ) * 2 ^ (Int.log 2 |x| - 52) = k * 2 ^ (Int.log 2 |x| - 52 + 1) := by
        rw [zpow_add₀ (by norm_num)]; push_cast; ring
      rw [e]
      exact binary64_fix (by rw [hk]) (by rw [hk]; norm_num)

/-- The relative error of rounding. -/
theorem binary64_err (x : ℚ) : |binary64 x - x| ≤ |x| / 2 ^ 53 := by
  by_cases hx : x = 0
  · subst hx; simp [binary64]
  · have hp : ∀ e : Int, (0 : ℚ) < 2 ^ e := fun e => zpow_pos (by norm_num) e
    have hax : 0 < |x| := abs_pos.mpr hx
    have hl1 : (2 : ℚ) ^ Int.log 2 |x| ≤ |x| := by
      have := Int.zpow_log_le_self (R := ℚ) (b := 2) (by norm_num) hax
      simpa using this
    unfold binary64
    rw [if_neg hx]
    dsimp only
    generalize he : Int.log 2 |x| - 52 = e
    have hy1 : (2 : ℚ) ^ 52 ≤ |x / 2 ^ e| := by
      rw [abs_div, abs_of_pos (hp e), le_div_iff₀ (hp e)]
      have : (2 : ℚ) ^ 52 * 2 ^ e = 2 ^ Int.log 2 |x| := by
        rw [← he, ← zpow_natCast, ← zpow_add₀ (by norm_num)]; congr 1; push_cast; ring
      rw [this]; exact hl1
    have hxy : x = x / 2 ^ e * 2 ^ e := by rw [div_mul_cancel₀ _ (hp e).ne']
    generalize x / 2 ^ e = y at *
    subst hxy
    have hf1 := Int.floor_le y
    have hf2 := Int.lt_floor_add_one y
    generalize ⌊y⌋ = f at *
    generalize hmdef : (if y - f < 1 / 2 then f else if y - f = 1 / 2 then (if f % 2 = 0 then f else f + 1) else f + 1) = m
    have hm : |(m : ℚ) - y| ≤ 1 / 2 := by
      rw [abs_le]
      rw [← hmdef]
      split
      · constructor <;> linarith
      · split
        · split
          · constructor <;> linarith
          · push_cast; constructor <;> linarith
        · push_cast
          rename_i h1 h2
          constructor <;> linarith
    rw [← sub_mul, abs_mul, abs_mul, abs_of_pos (hp e), mul_div_right_comm]
    refine mul_le_mul_of_nonneg_right ?_ (hp e).le
    refine hm.trans ?_
    rw [le_div_iff₀ (by norm_num)]
    linarith

/-- Rounding does not cross 1 downwards. -/
theorem one_le_binary64 {x : ℚ} (h : 1 ≤ x) : 1 ≤ binary64 x := by
  have hx : x ≠ 0 := by intro h0; rw [h0] at h; norm_num at h
  have hpos : 0 < x := by linarith
  have hp : ∀ e : Int, (0 : ℚ) < 2 ^ e := fun e => zpow_pos (by norm_num) e
  have hl0 : 0 ≤ Int.log 2 x := by
    rw [← Int.zpow_le_iff_le_log (by norm_num) hpos]; simpa using h
  have hl1 : (2 : ℚ) ^ Int.log 2 x ≤ x := by
    have := Int.zpow_log_le_self (R := ℚ) (b := 2) (by norm_num) hpos
    simpa using this
  unfold binary64
  rw [if_neg hx, abs_of_pos hpos]
  dsimp only
  generalize he : Int.log 2 x - 52 = e
  have hsp : (2 : ℚ) ^ 52 * 2 ^ e = 2 ^ Int.log 2 x := by
    rw [← he, ← zpow_natCast, ← zpow_add₀ (by norm_num)]; congr 1; push_cast; ring
  have hf : (2 ^ 52 : Int) ≤ ⌊x / 2 ^ e⌋ := by
    rw [Int.le_floor, le_div_iff₀ (hp e)]; push_cast; rw [← hsp] at hl1; norm_num at hl1 ⊢; exact hl1
  have hone : (1 : ℚ) ≤ 2 ^ 52 * 2 ^ e := by
    rw [hsp]; exact one_le_zpow₀ (by norm_num) hl0
  refine le_trans hone (mul_le_mul_of_nonneg_right ?_ (hp e).le)
  have : (2 ^ 52 : ℚ) ≤ (⌊x / 2 ^ e⌋ : ℚ) := by exact_mod_cast hf
  split_ifs <;> push_cast <;> linarith

end Verif
