import Verif.Model.Throughput
import Verif.Spec.Throughput
import Verif.Proofs.Binary64
import Verif.Proofs.DumpPacket
import Mathlib.Algebra.Order.Ring.Pow
import Mathlib.Tactic.Positivity
import Mathlib.Tactic.FieldSimp

/-! # Lemmas about the displayed throughput -/

namespace Verif.Throughput

/-- A rounding that is right up to a factor `1 - 2^-53`, and does not cross 1 downwards. -/
structure Rounding (round : ℚ → ℚ) : Prop where
  err : ∀ x, |round x - x| ≤ |x| / 2 ^ 53
  one : ∀ x, 1 ≤ x → 1 ≤ round x

theorem rounding_binary64 : Rounding binary64 := ⟨binary64_err, fun _ => one_le_binary64⟩

/-- `a` and `b` agree up to `k` roundings. -/
def Rel (k : Nat) (a b : ℚ) : Prop := b * (1 - 1 / 2 ^ 53) ^ k ≤ a ∧ a * (1 - 1 / 2 ^ 53) ^ k ≤ b

theorem c_pos : (0 : ℚ) < 1 - 1 / 2 ^ 53 := by norm_num

theorem Rel.refl (a : ℚ) : Rel 0 a a := by simp [Rel]

theorem Rel.trans {k l : Nat} {a b d : ℚ} (h : Rel k a b) (h' : Rel l b d) : Rel (k + l) a d := by
  have hk : (0 : ℚ) < (1 - 1 / 2 ^ 53) ^ k := pow_pos c_pos k
  have hl : (0 : ℚ) < (1 - 1 / 2 ^ 53) ^ l := pow_pos c_pos l
  constructor
  · rw [pow_add]
    calc d * ((1 - 1 / 2 ^ 53) ^ k * (1 - 1 / 2 ^ 53) ^ l)
        = d * (1 - 1 / 2 ^ 53) ^ l * (1 - 1 / 2 ^ 53) ^ k := by ring
      _ ≤ b * (1 - 1 / 2 ^ 53) ^ k := mul_le_mul_of_nonneg_right h'.1 hk.le
      _ ≤ a := h.1
  · rw [pow_add]
    calc a * ((1 - 1 / 2 ^ 53) ^ k * (1 - 1 / 2 ^ 53) ^ l)
        = a * (1 - 1 / 2 ^ 53) ^ k * (1 - 1 / 2 ^ 53) ^ l := by ring
      _ ≤ b * (1 - 1 / 2 ^ 53) ^ l := mul_le_mul_of_nonneg_right h.2 hl.le
      _ ≤ d := h'.2

theorem Rel.pos {k : Nat} {a b : ℚ} (h : Rel k a b) (hb : 0 < b) : 0 < a :=
  lt_of_lt_of_le (mul_pos hb (pow_pos c_pos k)) h.1

theorem Rel.nonneg {k : Nat} {a b : ℚ} (h : Rel k a b) (hb : 0 ≤ b) : 0 ≤ a :=
  le_trans (mul_nonneg hb (pow_pos c_pos k).le) h.1

theorem Rel.mul {k : Nat} {a b : ℚ} (h : Rel k a b) {d : ℚ} (hd : 0 ≤ d) : Rel k (a * d) (b * d) := by
  constructor
  · calc b * d * (1 - 1 / 2 ^ 53) ^ k = b * (1 - 1 / 2 ^ 53) ^ k * d := by ring
      _ ≤ a * d := mul_le_mul_of_nonneg_right h.1 hd
  · calc a * d * (1 - 1 / 2 ^ 53) ^ k = a * (1 - 1 / 2 ^ 53) ^ k * d := by ring
      _ ≤ b * d := mul_le_mul_of_nonneg_right h.2 hd

theorem Rel.div {k l : Nat} {a b a' b' : ℚ} (h : Rel k a b) (h' : Rel l a' b') (hb : 0 ≤ b) (hb' : 0 < b') :
    Rel (k + l) (a / a') (b / b') := by
  have ha' := h'.pos hb'
  have ha := h.nonneg hb
  have hk : (0 : ℚ) < (1 - 1 / 2 ^ 53) ^ k := pow_pos c_pos k
  have hl : (0 : ℚ) < (1 - 1 / 2 ^ 53) ^ l := pow_pos c_pos l
  constructor
  · rw [pow_add, le_div_iff₀ ha']
    calc b / b' * ((1 - 1 / 2 ^ 53) ^ k * (1 - 1 / 2 ^ 53) ^ l) * a'
        = (b * (1 - 1 / 2 ^ 53) ^ k) * (a' * (1 - 1 / 2 ^ 53) ^ l) / b' := by ring
      _ ≤ a * b' / b' := by
          apply div_le_div_of_nonneg_right _ hb'.le
          exact mul_le_mul h.1 h'.2 (mul_nonneg ha'.le hl.le) ha
      _ = a := by field_simp
  · rw [pow_add, le_div_iff₀ hb']
    calc a / a' * ((1 - 1 / 2 ^ 53) ^ k * (1 - 1 / 2 ^ 53) ^ l) * b'
        = (a * (1 - 1 / 2 ^ 53) ^ k) * (b' * (1 - 1 / 2 ^ 53) ^ l) / a' := by ring
      _ ≤ b * a' / a' := by
          apply div_le_div_of_nonneg_right _ ha'.le
          exact mul_le_mul h.2 h'.1 (mul_nonneg hb'.le hl.le) hb
      _ = b := by field_simp

theorem Rounding.rel {round : ℚ → ℚ} (h : Rounding round) {x : ℚ} (hx : 0 ≤ x) : Rel 1 (round x) x := by
  have := h.err x
  rw [abs_of_nonneg hx] at this
  obtain ⟨h1, h2⟩ := abs_le.mp this
  constructor
  · rw [pow_one]; linarith
  · rw [pow_one]
    have h3 : round x ≤ x * (1 + 1 / 2 ^ 53) := by linarith
    calc round x * (1 - 1 / 2 ^ 53) ≤ x * (1 + 1 / 2 ^ 53) * (1 - 1 / 2 ^ 53) :=
          mul_le_mul_of_nonneg_right h3 c_pos.le
      _ = x * (1 - 1 / 2 ^ 53 * (1 / 2 ^ 53)) := by ring
      _ ≤ x * 1 := mul_le_mul_of_nonneg_left (by norm_num) hx
      _ = x := mul_one x

theorem Rel.mono {k l : Nat} {a b : ℚ} (h : Rel k a b) (hkl : k ≤ l) (ha : 0 ≤ a) (hb : 0 ≤ b) : Rel l a b := by
  have hp : ((1 : ℚ) - 1 / 2 ^ 53) ^ l ≤ (1 - 1 / 2 ^ 53) ^ k :=
    pow_le_pow_of_le_one c_pos.le (by norm_num) hkl
  exact ⟨le_trans (mul_le_mul_of_nonneg_left hp hb) h.1, le_trans (mul_le_mul_of_nonneg_left hp ha) h.2⟩

/-- Agreement up to eight roundings is a relative error below `2^-49`. -/
theorem Rel.abs {a b : ℚ} (h : Rel 8 a b) (hb : 0 ≤ b) : |a - b| ≤ b / 2 ^ 49 := by
  have ha := h.nonneg hb
  have hc : (1 : ℚ) - 1 / 2 ^ 50 ≤ (1 - 1 / 2 ^ 53) ^ 8 := by norm_num
  rw [abs_le]
  constructor
  · have := le_trans (mul_le_mul_of_nonneg_left hc hb) h.1
    have h2 : b / 2 ^ 50 ≤ b / 2 ^ 49 := by
      apply div_le_div_of_nonneg_left hb <;> norm_num
    have h3 : b * (1 - 1 / 2 ^ 50) = b - b / 2 ^ 50 := by ring
    linarith
  · have := le_trans (mul_le_mul_of_nonneg_left hc ha) h.2
    have h3 : a * (1 - 1 / 2 ^ 50) = a - a / 2 ^ 50 := by ring
    have h4 : a ≤ 2 * b := by linarith
    have h5 : a / 2 ^ 50 ≤ 2 * b / 2 ^ 50 := div_le_div_of_nonneg_right h4 (by norm_num)
    have h6 : 2 * b / 2 ^ 50 = b / 2 ^ 49 := by ring
    linarith

/-! ## The loop -/

theorem scale_spec {round : ℚ → ℚ} (h : Rounding round) (k : Nat) : ∀ x, 0 ≤ x →
    Rel (scale round k x).2 ((scale round k x).1 * 1000 ^ (scale round k x).2) x ∧ (scale round k x).2 ≤ k ∧
    ((scale round k x).1 < 1000 ∨ (scale round k x).2 = k) ∧ 0 ≤ (scale round k x).1 ∧ (1 ≤ x → 1 ≤ (scale round k x).1) ∧
    (x < 1 → (scale round k x).2 = 0) := by
  induction k with
  | zero => intro x hx; simp [scale, Rel.refl, hx]
  | succ k ih =>
    intro x hx
    simp only [scale]
    by_cases hx' : 1000 ≤ x
    · rw [if_pos hx']
      have hr := h.rel (x := x / 1000) (by positivity)
      obtain ⟨h1, h2, h3, h4, h5, _⟩ := ih (round (x / 1000)) (hr.nonneg (by positivity))
      refine ⟨?_, by simpa using h2, by simpa using h3, h4,
        fun _ => h5 (h.one _ (by linarith)), fun hlt => by linarith⟩
      have := (h1.trans hr).mul (d := 1000) (by norm_num)
      rw [show x / 1000 * 1000 = x by ring] at this
      simp only [pow_succ, ← mul_assoc]
      exact this
    · rw [if_neg hx']
      refine ⟨?_, by simp, .inl (by simpa using not_le.mp hx'), hx, fun h => h, fun _ => rfl⟩
      have := Rel.refl x
      simpa using this

/-! ## The text -/

theorem nearest_err (y : ℚ) : |(nearest y : ℚ) - y| ≤ 1 / 2 := by
  have h1 : (⌊y⌋ : ℚ) ≤ y := Int.floor_le y
  have h2 : y < ⌊y⌋ + 1 := Int.lt_floor_add_one y
  unfold nearest
  dsimp only
  rw [abs_le]
  split_ifs <;> push_cast <;> constructor <;> linarith

theorem nearest_nonneg {y : ℚ} (h : 0 ≤ y) : 0 ≤ nearest y := by
  have hf : 0 ≤ ⌊y⌋ := Int.floor_nonneg.mpr h
  unfold nearest
  dsimp only
  split_ifs <;> omega

theorem decimal_ne_nil (n : Nat) : decimal n ≠ [] := by
  rw [decimal]; split <;> simp

open Dump Dump.Spec in
/-- The text of a number denotes the nearest number of millionths. -/
theorem denotes_toStringF (x : ℚ) : Spec.Denotes (toStringF x) (((nearest (x * 10 ^ 6)).toNat : ℚ) / 10 ^ 6) := by
  unfold toStringF
  dsimp only
  generalize (nearest (x * 10 ^ 6)).toNat = m
  have hm : m % 10 ^ 6 < 10 ^ 6 := Nat.mod_lt _ (by decide)
  refine ⟨decimal (m / 10 ^ 6), pad6 (decimal (m % 10 ^ 6)), rfl, decimal_ne_nil _, length_pad6 hm, ?_, ?_⟩
  · intro y hy
    rw [List.mem_append] at hy
    rcases hy with hy | hy
    · exact decimal_digits _ y hy
    · unfold pad6 at hy
      rw [List.mem_append] at hy
      rcases hy with hy | hy
      · rw [List.eq_of_mem_replicate hy]; exact ⟨by decide, by decide⟩
      · exact decimal_digits _ y hy
  · have h0 := foldl_decimal (m / 10 ^ 6) 0
    rw [Nat.zero_mul, Nat.zero_add] at h0
    rw [readDigits_append, foldl_pad6 hm]
    unfold readDigits
    rw [h0]
    have : m / 10 ^ 6 * 10 ^ 6 + m % 10 ^ 6 = m := by omega
    rw [this]

/-- The displayed number is within half a millionth. -/
theorem shown_err {x : ℚ} (hx : 0 ≤ x) :
    |((nearest (x * 10 ^ 6)).toNat : ℚ) / 10 ^ 6 - x| ≤ 1 / (2 * 10 ^ 6) := by
  have h := nearest_err (x * 10 ^ 6)
  have h0 := nearest_nonneg (y := x * 10 ^ 6) (by positivity)
  generalize nearest (x * 10 ^ 6) = n at *
  have hn : ((n.toNat : ℕ) : ℚ) = (n : ℚ) := by
    have := Int.toNat_of_nonneg h0
    exact_mod_cast congrArg (Int.cast (R := ℚ)) this
  rw [hn]
  rw [abs_le] at h ⊢
  constructor <;> linarith [h.1, h.2]

theorem shown_le {x : ℚ} (hx : 0 ≤ x) (h : x < 1000) : ((nearest (x * 10 ^ 6)).toNat : ℚ) / 10 ^ 6 ≤ 1000 := by
  have h1 := nearest_err (x * 10 ^ 6)
  have h0 := nearest_nonneg (y := x * 10 ^ 6) (by positivity)
  generalize nearest (x * 10 ^ 6) = n at *
  rw [abs_le] at h1
  have h2 : (n : ℚ) < 10 ^ 9 + 1 := by linarith [h1.2]
  have h3 : n < 10 ^ 9 + 1 := by exact_mod_cast h2
  have h4 : n.toNat ≤ 10 ^ 9 := by omega
  have h5 : (n.toNat : ℚ) ≤ 10 ^ 9 := by exact_mod_cast h4
  linarith

theorem le_shown {x : ℚ} (h : 1 ≤ x) : 1 ≤ ((nearest (x * 10 ^ 6)).toNat : ℚ) / 10 ^ 6 := by
  have h1 := nearest_err (x * 10 ^ 6)
  generalize nearest (x * 10 ^ 6) = n at *
  rw [abs_le] at h1
  have h2 : (10 : ℚ) ^ 6 - 1 < (n : ℚ) := by linarith [h1.1]
  have h3 : (10 ^ 6 - 1 : Int) < n := by exact_mod_cast h2
  have h4 : 10 ^ 6 ≤ n.toNat := by omega
  have h5 : (10 : ℚ) ^ 6 ≤ (n.toNat : ℚ) := by exact_mod_cast h4
  linarith

theorem factor_unit {k : Nat} (h : k ≤ 4) : Spec.factor (unit k) = some (1000 ^ k) := by
  obtain rfl | rfl | rfl | rfl | rfl : k = 0 ∨ k = 1 ∨ k = 2 ∨ k = 3 ∨ k = 4 := by omega
  all_goals simp [unit, Spec.factor]
  all_goals norm_num

theorem unit_ne {k : Nat} (h : k ≤ 4) : (unit k ≠ "Tbit/s" → k ≠ 4) ∧ (unit k ≠ "bit/s" → k ≠ 0) := by
  constructor <;> rintro h rfl <;> exact h rfl

/-- What is displayed for a throughput. -/
theorem format_spec {round : ℚ → ℚ} (hr : Rounding round) {x : ℚ} (hx : 0 ≤ x) :
    ∃ t u q f, formatThroughput round (.num x) = .number t u ∧ Spec.Denotes t q ∧ Spec.factor u = some f ∧
      (∃ v, Rel 4 (v * f) x ∧ |q - v| ≤ 1 / (2 * 10 ^ 6) ∧ (u ≠ "Tbit/s" → v < 1000)) ∧
      1 ≤ f ∧ (u ≠ "Tbit/s" → q ≤ 1000) ∧ (u ≠ "bit/s" → 1 ≤ q) := by
  obtain ⟨h1, h2, h3, h4, h5, h6⟩ := scale_spec hr 4 x hx
  refine ⟨_, _, _, _, rfl, denotes_toStringF _, factor_unit h2, ⟨(scale round 4 x).1, ?_, shown_err h4, ?_⟩, ?_, ?_, ?_⟩
  · exact h1.mono h2 (by positivity) hx
  · intro hu
    exact h3.resolve_right ((unit_ne h2).1 hu)
  · exact one_le_pow₀ (by norm_num)
  · intro hu
    exact shown_le h4 (h3.resolve_right ((unit_ne h2).1 hu))
  · intro hu
    refine le_shown (h5 ?_)
    have := (unit_ne h2).2 hu
    refine Classical.byContradiction fun hlt => this (h6 (not_le.mp hlt))

/-- The computed throughput against the true one. -/
theorem throughput_spec {round : ℚ → ℚ} (hr : Rounding round) {bytes ns : Nat} (hb : 8 * bytes < 2 ^ 64) (hn : 0 < ns) :
    ∃ x, throughput round bytes ns = .num x ∧ Rel 4 x (8 * bytes / (ns / 10 ^ 9)) ∧ 0 ≤ x := by
  unfold throughput
  rw [if_neg (by omega), Nat.mod_eq_of_lt hb]
  have hnq : (0 : ℚ) < (ns : ℚ) := by exact_mod_cast hn
  have h1 : Rel 1 (round ((8 * bytes : ℕ) : ℚ)) ((8 * bytes : ℕ) : ℚ) := hr.rel (by positivity)
  have h2 : Rel 1 (round (ns : ℚ)) (ns : ℚ) := hr.rel hnq.le
  have h3 : Rel 1 (round (ns : ℚ) / 10 ^ 9) ((ns : ℚ) / 10 ^ 9) := by
    have := h2.mul (d := 1 / 10 ^ 9) (by norm_num)
    rwa [mul_one_div, mul_one_div] at this
  have h3p := h3.pos (by positivity)
  have h4 := (hr.rel h3p.le).trans h3
  have h4p := h4.pos (by positivity)
  have h5 := h1.div h4 (by positivity) (by positivity)
  have h6 := (hr.rel (div_nonneg (h1.nonneg (by positivity)) h4p.le)).trans h5
  refine ⟨_, rfl, ?_, h6.nonneg (by positivity)⟩
  push_cast at h6 ⊢
  exact h6

theorem error_sum {v f x q e d : ℚ} (h1 : |v * f - x| ≤ e) (h2 : |q - v| ≤ 1 / d) (hf : 0 ≤ f) :
    |q * f - x| ≤ e + f / d := by
  have h3 : |(q - v) * f| ≤ f / d := by
    rw [abs_mul, abs_of_nonneg hf]
    calc |q - v| * f ≤ 1 / d * f := mul_le_mul_of_nonneg_right h2 hf
      _ = f / d := by ring
  have h4 : q * f - x = (v * f - x) + (q - v) * f := by ring
  rw [h4]
  exact le_trans (abs_add_le _ _) (add_le_add h1 h3)

end Verif.Throughput
