import Verif.Proofs.PingStats
import Verif.Proofs.Binary64
import Mathlib.Tactic.Positivity
import Mathlib.Tactic.NormNum
import Mathlib.Tactic.Linarith

/-! # The rounding errors of the statistics of ndnping -/

namespace Verif.Ping

/-- The number `a` is `x` up to the relative error `e`. -/
def Near (e a x : ℚ) : Prop := |a - x| ≤ e * x

theorem Near.mono {e e' a x : ℚ} (h : Near e a x) (hx : 0 ≤ x) (he : e ≤ e') : Near e' a x :=
  le_trans h (mul_le_mul_of_nonneg_right he hx)

theorem Near.refl (x : ℚ) : Near 0 x x := by unfold Near; simp

theorem Near.add {e a b x y : ℚ} (h : Near e a x) (h' : Near e b y) : Near e (a + b) (x + y) := by
  unfold Near at *
  rw [abs_le] at *
  constructor <;> linarith [h.1, h.2, h'.1, h'.2]

theorem Near.div {e a x n : ℚ} (h : Near e a x) (hn : 0 < n) : Near e (a / n) (x / n) := by
  unfold Near at *
  rw [← sub_div, abs_div, abs_of_pos hn, ← mul_div_assoc]
  exact div_le_div_of_nonneg_right h hn.le

theorem Near.round {e a x : ℚ} (h : Near e a x) (hx : 0 ≤ x) (he1 : e ≤ 1 / 1000) :
    Near (e + 2 / 2 ^ 53) (binary64 a) x := by
  have h1 := binary64_err a
  unfold Near at *
  have h2 : |a| ≤ 2 * x := by
    rw [abs_le] at h ⊢
    have : e * x ≤ 1 / 1000 * x := mul_le_mul_of_nonneg_right he1 hx
    constructor <;> linarith [h.1, h.2]
  have h3 : |a| / 2 ^ 53 ≤ 2 * x / 2 ^ 53 := div_le_div_of_nonneg_right h2 (by norm_num)
  rw [abs_le] at h h1 ⊢
  have h4 : (e + 2 / 2 ^ 53) * x = e * x + 2 * x / 2 ^ 53 := by ring
  rw [h4]
  constructor <;> linarith [h.1, h.2, h1.1, h1.2]

theorem Near.sq {e a x : ℚ} (h : Near e a x) (hx : 0 ≤ x) (he : 0 ≤ e) (he1 : e ≤ 1) : Near (3 * e) (a * a) (x * x) := by
  unfold Near at *
  have h0 : a * a - x * x = (a - x) * (a + x) := by ring
  have h1 : |a + x| ≤ 3 * x := by
    rw [abs_le] at h ⊢
    have : e * x ≤ 1 * x := mul_le_mul_of_nonneg_right he1 hx
    constructor <;> linarith [h.1, h.2]
  rw [h0, abs_mul]
  calc |a - x| * |a + x| ≤ e * x * (3 * x) := mul_le_mul h h1 (abs_nonneg _) (by positivity)
    _ = 3 * e * (x * x) := by ring

/-- A sum that is rounded after each term. -/
theorem sum_near {g f : ℚ → ℚ} (l : List ℚ) (hl : ∀ x ∈ l, 0 ≤ f x ∧ Near (8 / 2 ^ 53) (g x) (f x)) (k : Nat) (a T : ℚ) (hT : 0 ≤ T)
    (hk : k + l.length ≤ 10 ^ 9) (ha : Near ((2 * k + 8) / 2 ^ 53) a T) :
    Near ((2 * (k + l.length : Nat) + 8) / 2 ^ 53) (l.foldl (fun a x => binary64 (a + g x)) a) (T + (l.map f).sum) := by
  induction l generalizing k a T with
  | nil => simpa using ha
  | cons x l ih =>
    obtain ⟨h0, h1⟩ := hl x (by simp)
    have hk' : (k : ℚ) ≤ 10 ^ 9 := by
      have : k ≤ 10 ^ 9 := by simp at hk; omega
      exact_mod_cast this
    have hk0 : (0 : ℚ) ≤ k := by positivity
    have hsum := (ha.add (h1.mono h0 (show (8 : ℚ) / 2 ^ 53 ≤ (2 * k + 8) / 2 ^ 53 from
      div_le_div_of_nonneg_right (by linarith) (by norm_num)))).round (by positivity)
        (show (2 * (k : ℚ) + 8) / 2 ^ 53 ≤ 1 / 1000 by rw [div_le_div_iff₀ (by norm_num) (by norm_num)]; linarith)
    have := ih (fun y hy => hl y (by simp [hy])) (k + 1) (binary64 (a + g x)) (T + f x) (by positivity)
      (by simp at hk; omega) (by
        have e : (2 * (k : ℚ) + 8) / 2 ^ 53 + 2 / 2 ^ 53 = (2 * ((k + 1 : Nat) : ℚ) + 8) / 2 ^ 53 := by push_cast; ring
        rw [← e]; exact hsum)
    rw [List.foldl_cons, List.map_cons, List.sum_cons, ← add_assoc, List.length_cons, show k + (l.length + 1) = k + 1 + l.length by omega]
    exact this

/-- The sums of the collector as sums over the round-trip times. -/
theorem coll_folds (r : ℚ → ℚ) (l : List Obs) (c : Coll) :
    (l.foldl (record r) c).sumRtt = (rtts l).foldl (fun a x => r (a + r x)) c.sumRtt ∧
    (l.foldl (record r) c).sumRttSquared = (rtts l).foldl (fun a x => r (a + r (r x * r x))) c.sumRttSquared := by
  induction l generalizing c with
  | nil => exact ⟨rfl, rfl⟩
  | cons x l ih =>
    rw [List.foldl_cons]
    obtain ⟨h1, h2⟩ := ih (record r c x)
    rw [h1, h2]
    unfold rtts
    cases x <;> exact ⟨rfl, rfl⟩

/-- The square of the mean is not greater than the mean of the squares. -/
theorem mean_sq (l : List ℚ) {n : ℚ} (hn : n = l.length) (hpos : 0 < n) :
    (l.map fun x => (x - l.sum / n) * (x - l.sum / n)).sum / n = (l.map fun x => x * x).sum / n - l.sum / n * (l.sum / n) ∧
    l.sum / n * (l.sum / n) ≤ (l.map fun x => x * x).sum / n := by
  have h1 : (l.map fun x => (x - l.sum / n) * (x - l.sum / n)).sum / n =
      (l.map fun x => x * x).sum / n - l.sum / n * (l.sum / n) := by
    rw [sum_sq_dev, ← hn]
    field_simp
    ring
  refine ⟨h1, ?_⟩
  have := div_nonneg (sum_sq_nonneg l (l.sum / n)) hpos.le
  linarith

theorem binary64_nonneg {x : ℚ} (hx : 0 ≤ x) : 0 ≤ binary64 x := by
  have h1 := binary64_err x
  rw [abs_of_nonneg hx, abs_le] at h1
  have : x / 2 ^ 53 ≤ x := div_le_self hx (by norm_num)
  linarith [h1.1]

/-- The variance that the collector computes. -/
theorem variance_near {c : Coll} {xs : List ℚ} {n : ℚ} (hn : n = xs.length) (h1 : 1 ≤ n) (h2 : n ≤ 10 ^ 9)
    (hx : ∀ x ∈ xs, 0 ≤ x) (hr : (c.nReceived : ℚ) = n)
    (hs : c.sumRtt = xs.foldl (fun a x => binary64 (a + binary64 x)) 0)
    (hq : c.sumRttSquared = xs.foldl (fun a x => binary64 (a + binary64 (binary64 x * binary64 x))) 0) :
    let mean := xs.sum / n
    let V := (xs.map fun x => (x - mean) * (x - mean)).sum / n
    let Q := (xs.map fun x => x * x).sum / n
    (60 * n / 2 ^ 53 * Q ≤ V → 0 ≤ c.variance binary64) ∧ |c.variance binary64 - V| ≤ 72 * n / 2 ^ 53 * Q := by
  intro mean V Q
  have hpos : 0 < n := by linarith
  obtain ⟨hV, hmQ⟩ := mean_sq xs hn hpos
  have hlen : xs.length ≤ 10 ^ 9 := by
    have : (xs.length : ℚ) ≤ ((10 ^ 9 : Nat) : ℚ) := by rw [← hn]; push_cast; exact h2
    exact_mod_cast this
  have hone : ∀ x : ℚ, 0 ≤ x → Near (2 / 2 ^ 53) (binary64 x) x := fun x h => by
    have := (Near.refl x).round h (by norm_num)
    rwa [zero_add] at this
  have htwo : ∀ x : ℚ, 0 ≤ x → Near (8 / 2 ^ 53) (binary64 (binary64 x * binary64 x)) (x * x) := fun x h => by
    have := ((hone x h).sq h (by norm_num) (by norm_num)).round (mul_self_nonneg x) (by norm_num)
    exact this.mono (mul_self_nonneg x) (by norm_num)
  have hzero : Near ((2 * ((0 : Nat) : ℚ) + 8) / 2 ^ 53) 0 0 := by unfold Near; simp
  have hS := sum_near (g := binary64) (f := fun x => x) xs (fun x h => ⟨hx x h, (hone x (hx x h)).mono (hx x h) (by norm_num)⟩) 0 0 0
    (le_refl _) (by omega) hzero
  have hQ := sum_near (g := fun x => binary64 (binary64 x * binary64 x)) (f := fun x => x * x) xs
    (fun x h => ⟨mul_self_nonneg x, htwo x (hx x h)⟩) 0 0 0 (le_refl _) (by omega) hzero
  rw [← hs, List.map_id', zero_add, zero_add, ← hn] at hS
  rw [← hq, zero_add, zero_add, ← hn] at hQ
  have hm0 : 0 ≤ mean := div_nonneg (List.sum_nonneg hx) hpos.le
  have hQ0 : 0 ≤ Q := le_trans (mul_self_nonneg mean) hmQ
  have hsmall : (2 * n + 8) / 2 ^ 53 ≤ 1 / 1000 := by rw [div_le_div_iff₀ (by norm_num) (by norm_num)]; linarith
  have havg := (hS.div hpos).round hm0 hsmall
  have hsq := (hQ.div hpos).round hQ0 hsmall
  have e1 : (2 * n + 8) / 2 ^ 53 + 2 / 2 ^ 53 ≤ 12 * n / 2 ^ 53 := by
    rw [← add_div]; exact div_le_div_of_nonneg_right (by linarith) (by norm_num)
  have havg' := havg.mono hm0 e1
  have hsq' := hsq.mono hQ0 e1
  have e2 : 3 * (12 * n / 2 ^ 53) ≤ 1 / 1000 := by
    rw [← mul_div_assoc, div_le_div_iff₀ (by norm_num) (by norm_num)]; linarith
  have e0 : 0 ≤ 12 * n / 2 ^ 53 := by positivity
  have hprod := ((havg'.sq hm0 e0 (by linarith)).round (mul_self_nonneg mean) e2).mono (mul_self_nonneg mean)
    (show 3 * (12 * n / 2 ^ 53) + 2 / 2 ^ 53 ≤ 4 * (12 * n / 2 ^ 53) by
      have : (2 : ℚ) / 2 ^ 53 ≤ 12 * n / 2 ^ 53 := div_le_div_of_nonneg_right (by linarith) (by norm_num)
      linarith)
  have hvar : c.variance binary64 = binary64 (binary64 (c.sumRttSquared / n) -
      binary64 (binary64 (c.sumRtt / n) * binary64 (c.sumRtt / n))) := by
    unfold Coll.variance
    rw [hr]
  rw [hvar]
  have hVQ : V = Q - mean * mean := hV
  have hmm : 0 ≤ mean * mean := mul_self_nonneg mean
  have hmQ' : mean * mean ≤ Q := hmQ
  unfold Near at hprod hsq'
  rw [show (xs.map fun x => x * x).sum / n = Q from rfl] at hsq'
  rw [show xs.sum / n = mean from rfl] at hprod
  generalize binary64 (binary64 (c.sumRtt / n) * binary64 (c.sumRtt / n)) = p at *
  generalize binary64 (c.sumRttSquared / n) = q at *
  generalize hd : 12 * n / 2 ^ 53 = d at *
  have f1 : 60 * n / 2 ^ 53 = 5 * d := by rw [← hd]; ring
  have f2 : 72 * n / 2 ^ 53 = 6 * d := by rw [← hd]; ring
  rw [f1, f2]
  have g1 : d * (mean * mean) ≤ d * Q := mul_le_mul_of_nonneg_left hmQ' e0
  rw [abs_le] at hprod hsq'
  refine ⟨fun h => binary64_nonneg ?_, ?_⟩
  · linarith [hprod.2, hsq'.1]
  · have herr := binary64_err (q - p)
    have g2 : |q - p| ≤ 2 * Q := by
      have : d * Q ≤ 1 / 1000 * Q := mul_le_mul_of_nonneg_right (by linarith) hQ0
      rw [abs_le]
      constructor <;> linarith [hprod.1, hprod.2, hsq'.1, hsq'.2]
    have g3 : |q - p| / 2 ^ 53 ≤ d * Q := by
      refine le_trans (div_le_div_of_nonneg_right g2 (by norm_num)) ?_
      rw [← hd, mul_div_right_comm, mul_comm]
      have : (2 : ℚ) / 2 ^ 53 ≤ 12 * n / 2 ^ 53 := div_le_div_of_nonneg_right (by linarith) (by norm_num)
      rw [mul_comm]
      exact mul_le_mul_of_nonneg_right this hQ0
    rw [abs_le] at herr ⊢
    constructor <;> linarith [hprod.1, hprod.2, hsq'.1, hsq'.2, herr.1, herr.2]

end Verif.Ping
