import Verif.Spec.Format
import Verif.Proofs.DumpPacket
import Verif.Proofs.Ping
import Mathlib.Tactic.Linarith
import Mathlib.Tactic.FieldSimp
import Mathlib.Tactic.Ring

/-! # Lemmas about printing numbers -/

namespace Verif

theorem ten_pow_pos (k : ℤ) : (0 : ℚ) < 10 ^ k := zpow_pos (by norm_num) k

theorem roundEven_err (y : ℚ) : |(roundEven y : ℚ) - y| ≤ 1 / 2 := by
  unfold roundEven
  have h1 := Int.floor_le y
  have h2 := Int.lt_floor_add_one y
  simp only
  split
  · rw [abs_le]; constructor <;> linarith
  · split
    · split
      · rw [abs_le]; constructor <;> linarith
      · push_cast; rw [abs_le]; constructor <;> linarith
    · push_cast
      rename_i a b
      have : 1 / 2 < y - ⌊y⌋ := lt_of_le_of_ne (not_lt.mp a) (Ne.symm b)
      rw [abs_le]; constructor <;> linarith

theorem floor_le_roundEven (y : ℚ) : ⌊y⌋ ≤ roundEven y := by
  unfold roundEven; simp only; split
  · omega
  · split
    · split <;> omega
    · omega

theorem roundEven_le (y : ℚ) : roundEven y ≤ ⌊y⌋ + 1 := by
  unfold roundEven; simp only; split
  · omega
  · split
    · split <;> omega
    · omega

theorem roundEven_mono {a b : ℚ} (h : a ≤ b) : roundEven a ≤ roundEven b := by
  rcases lt_or_eq_of_le (Int.floor_le_floor h) with hf | hf
  · have := roundEven_le a; have := floor_le_roundEven b; omega
  · unfold roundEven
    simp only [hf]
    have hm : a - ⌊b⌋ ≤ b - ⌊b⌋ := by linarith
    generalize a - (⌊b⌋ : ℚ) = u at *
    generalize b - (⌊b⌋ : ℚ) = v at *
    split
    · split
      · omega
      · split
        · split <;> omega
        · omega
    · rename_i h1
      have hv : ¬ v < 1 / 2 := by intro hh; linarith
      rw [if_neg hv]
      split
      · rename_i h2
        split
        · split <;> omega
        · split <;> omega
      · rename_i h2
        have : v ≠ 1 / 2 := by
          intro hh
          have : u ≤ 1 / 2 := by linarith
          exact h2 (le_antisymm this (not_lt.mp h1))
        rw [if_neg this]

theorem roundEven_int (n : ℤ) : roundEven (n : ℚ) = n := by
  unfold roundEven
  simp

/-- The number before rounding has six digits before the decimal point. -/
theorem scaled {x : ℚ} (hx : 0 < x) :
    (10 : ℚ) ^ 5 ≤ x * 10 ^ (5 - Int.log 10 x) ∧ x * 10 ^ (5 - Int.log 10 x) < 10 ^ 6 := by
  have h1 : ((10 : ℕ) : ℚ) ^ Int.log 10 x ≤ x := Int.zpow_log_le_self (by norm_num) hx
  have h2 : x < ((10 : ℕ) : ℚ) ^ (Int.log 10 x + 1) := Int.lt_zpow_succ_log_self (by norm_num) x
  generalize Int.log 10 x = e at *
  push_cast at h1 h2
  have hp := ten_pow_pos (5 - e)
  constructor
  · calc (10 : ℚ) ^ 5 = 10 ^ e * 10 ^ (5 - e) := by
          rw [← zpow_add₀ (by norm_num)]; rw [show e + (5 - e) = 5 by ring]; norm_num
      _ ≤ _ := mul_le_mul_of_nonneg_right h1 hp.le
  · calc x * 10 ^ (5 - e) < 10 ^ (e + 1) * 10 ^ (5 - e) := mul_lt_mul_of_pos_right h2 hp
      _ = 10 ^ 6 := by rw [← zpow_add₀ (by norm_num)]; rw [show e + 1 + (5 - e) = 6 by ring]; norm_num

theorem scaled_round {x : ℚ} (hx : 0 < x) :
    10 ^ 5 ≤ roundEven (x * 10 ^ (5 - Int.log 10 x)) ∧ roundEven (x * 10 ^ (5 - Int.log 10 x)) ≤ 10 ^ 6 := by
  obtain ⟨h1, h2⟩ := scaled hx
  generalize x * 10 ^ (5 - Int.log 10 x) = y at *
  constructor
  · have := roundEven_mono (a := ((10 ^ 5 : ℤ) : ℚ)) (b := y) (by push_cast; exact h1)
    rwa [roundEven_int] at this
  · have := roundEven_mono (a := y) (b := ((10 ^ 6 : ℤ) : ℚ)) (by push_cast; exact h2.le)
    rwa [roundEven_int] at this

/-- What the digits stand for. -/
def shown (x : ℚ) : ℚ := if x = 0 then 0 else roundEven (x * 10 ^ (5 - Int.log 10 x)) * 10 ^ (Int.log 10 x - 5)

theorem sixDigits_spec {x : ℚ} (hx : 0 < x) :
    10 ^ 5 ≤ (sixDigits x).1 ∧ (sixDigits x).1 < 10 ^ 6 ∧ ((sixDigits x).1 : ℚ) * 10 ^ ((sixDigits x).2 - 5) = shown x := by
  obtain ⟨h1, h2⟩ := scaled_round hx
  unfold sixDigits shown
  rw [if_neg hx.ne']
  simp only
  generalize roundEven (x * 10 ^ (5 - Int.log 10 x)) = m at *
  generalize Int.log 10 x = e at *
  obtain ⟨n, rfl⟩ := Int.eq_ofNat_of_zero_le (show 0 ≤ m by omega)
  simp only [Int.toNat_natCast]
  split
  · rename_i hn
    subst hn
    refine ⟨le_refl _, by norm_num, ?_⟩
    push_cast
    rw [show e + 1 - 5 = (e - 5) + 1 by ring, zpow_add₀ (by norm_num)]
    norm_num
    ring
  · refine ⟨by exact_mod_cast h1, ?_, by simp⟩
    simp only
    have : n ≤ 10 ^ 6 := by exact_mod_cast h2
    omega

theorem shown_err {x : ℚ} (hx : 0 ≤ x) : |shown x - x| ≤ x * (5 / 10 ^ 6) := by
  unfold shown
  rcases eq_or_lt_of_le hx with rfl | hx
  · simp
  · rw [if_neg hx.ne']
    have h0 := roundEven_err (x * 10 ^ (5 - Int.log 10 x))
    have h1 : ((10 : ℕ) : ℚ) ^ Int.log 10 x ≤ x := Int.zpow_log_le_self (by norm_num) hx
    generalize roundEven (x * 10 ^ (5 - Int.log 10 x)) = m at *
    generalize Int.log 10 x = e at *
    push_cast at h1
    have hp := ten_pow_pos (e - 5)
    have hq : (10 : ℚ) ^ (5 - e) * 10 ^ (e - 5) = 1 := by
      rw [← zpow_add₀ (by norm_num)]; rw [show 5 - e + (e - 5) = 0 by ring]; norm_num
    have : (m : ℚ) * 10 ^ (e - 5) - x = (m - x * 10 ^ (5 - e)) * 10 ^ (e - 5) := by
      rw [sub_mul, mul_assoc, hq, mul_one]
    rw [this, abs_mul, abs_of_pos hp]
    calc |(m : ℚ) - x * 10 ^ (5 - e)| * 10 ^ (e - 5) ≤ 1 / 2 * 10 ^ (e - 5) := mul_le_mul_of_nonneg_right h0 hp.le
      _ = 10 ^ e * (5 / 10 ^ 6) := by rw [zpow_sub₀ (by norm_num)]; norm_num; ring
      _ ≤ x * (5 / 10 ^ 6) := mul_le_mul_of_nonneg_right h1 (by norm_num)

theorem shown_pos {x : ℚ} (hx : 0 < x) : 0 < shown x := by
  have := shown_err hx.le
  rw [abs_le] at this
  have := this.1
  linarith

theorem shown_mono {x y : ℚ} (hx : 0 ≤ x) (h : x ≤ y) : shown x ≤ shown y := by
  rcases eq_or_lt_of_le hx with rfl | hx
  · rcases eq_or_lt_of_le h with rfl | h
    · exact le_refl _
    · have := shown_pos h; unfold shown at *; rw [if_pos rfl]; exact this.le
  · have hy : 0 < y := lt_of_lt_of_le hx h
    obtain ⟨-, b1⟩ := scaled_round hx
    obtain ⟨a2, -⟩ := scaled_round hy
    have hl : Int.log 10 x ≤ Int.log 10 y := Int.log_mono_right hx h
    unfold shown
    rw [if_neg hx.ne', if_neg hy.ne']
    rcases eq_or_lt_of_le hl with he | he
    · rw [he]
      refine mul_le_mul_of_nonneg_right ?_ (ten_pow_pos _).le
      exact_mod_cast roundEven_mono (mul_le_mul_of_nonneg_right h (ten_pow_pos _).le)
    · generalize roundEven (x * 10 ^ (5 - Int.log 10 x)) = m at *
      generalize roundEven (y * 10 ^ (5 - Int.log 10 y)) = n at *
      generalize Int.log 10 x = e at *
      generalize Int.log 10 y = f at *
      have b1' : (m : ℚ) ≤ 10 ^ 6 := by exact_mod_cast b1
      have a2' : (10 : ℚ) ^ 5 ≤ n := by exact_mod_cast a2
      calc (m : ℚ) * 10 ^ (e - 5) ≤ 10 ^ 6 * 10 ^ (e - 5) := mul_le_mul_of_nonneg_right b1' (ten_pow_pos _).le
        _ = 10 ^ (e + 1) := by rw [show e + 1 = 6 + (e - 5) by ring, zpow_add₀ (by norm_num)]; norm_num
        _ ≤ 10 ^ f := zpow_le_zpow_right₀ (by norm_num) (by omega)
        _ = 10 ^ 5 * 10 ^ (f - 5) := by
          rw [show f = 5 + (f - 5) by ring, zpow_add₀ (by norm_num), show 5 + (f - 5) - 5 = f - 5 by ring]; norm_num
        _ ≤ _ := mul_le_mul_of_nonneg_right a2' (ten_pow_pos _).le

/-! ## Reading -/

theorem decimal_isDigit (n : Nat) : (decimal n).all isDigit = true := by
  rw [List.all_eq_true]
  intro x hx
  simpa [isDigit] using Dump.decimal_digits n x hx

theorem digitsValue_append (a b : Bytes) : digitsValue (a ++ b) = digitsValue a * 10 ^ b.length + digitsValue b := by
  have key : ∀ (b : Bytes) (n : Nat), b.foldl (fun a x => a * 10 + (x.toNat - 48)) n
      = n * 10 ^ b.length + b.foldl (fun a x => a * 10 + (x.toNat - 48)) 0 := by
    intro b
    induction b with
    | nil => intro n; simp
    | cons x b ih =>
      intro n
      simp only [List.foldl_cons, List.length_cons]
      rw [ih, ih (0 * 10 + _)]
      ring
  unfold digitsValue
  rw [List.foldl_append, key]

theorem digitsValue_decimal (n : Nat) : digitsValue (decimal n) = n := decimal_parse n

theorem decimal_ne_nil' (n : Nat) : decimal n ≠ [] := by
  rw [decimal]; split <;> simp

theorem readNat_decimal (n : Nat) : readNat (decimal n) = some n := by
  unfold readNat
  rw [if_pos ⟨decimal_ne_nil' n, decimal_isDigit n⟩, digitsValue_decimal]

theorem strip_append (b : Bytes) : ∃ k, b = strip b ++ List.replicate k 48 := by
  refine ⟨(b.reverse.takeWhile (· == 48)).length, ?_⟩
  have h : b.reverse.takeWhile (· == 48) = List.replicate (b.reverse.takeWhile (· == 48)).length 48 := by
    rw [List.eq_replicate_iff]
    refine ⟨rfl, fun x hx => ?_⟩
    have := List.all_takeWhile (p := (· == 48)) (l := b.reverse)
    rw [List.all_eq_true] at this
    simpa using this x hx
  unfold strip
  conv_lhs => rw [← List.reverse_reverse b, ← List.takeWhile_append_dropWhile (p := (· == 48)) (l := b.reverse), List.reverse_append]
  rw [h]
  simp

theorem digitsValue_zeros (k : Nat) : digitsValue (List.replicate k 48) = 0 := by
  induction k with
  | zero => rfl
  | succ k ih =>
    rw [List.replicate_succ, ← List.singleton_append, digitsValue_append, ih]
    simp [digitsValue]

theorem takeWhile_digits {a : Bytes} (ha : a.all isDigit = true) {c : UInt8} (hc : isDigit c = false) (l : Bytes) :
    (a ++ l).takeWhile (· != c) = a ++ l.takeWhile (· != c) ∧ (a ++ l).dropWhile (· != c) = l.dropWhile (· != c) := by
  have : ∀ x ∈ a, (x != c) = true := by
    intro x hx
    rw [List.all_eq_true] at ha
    have := ha x hx
    simp only [bne_iff_ne, ne_eq]
    rintro rfl
    rw [hc] at this
    cases this
  exact ⟨List.takeWhile_append_of_pos this, List.dropWhile_append_of_pos this⟩

theorem readDecimal_point {a b : Bytes} (ha : a.all isDigit = true) (hb : b.all isDigit = true) (hn : a ≠ []) :
    readDecimal (point a b) = some ((digitsValue (a ++ b) : ℚ) / 10 ^ b.length) := by
  obtain ⟨k, hk⟩ := strip_append b
  have hd : (digitsValue (a ++ b) : ℚ) / 10 ^ b.length = (digitsValue (a ++ strip b) : ℚ) / 10 ^ (strip b).length := by
    conv_lhs => rw [hk]
    rw [← List.append_assoc, digitsValue_append, digitsValue_zeros]
    simp only [List.length_replicate, List.length_append, add_zero]
    push_cast
    rw [pow_add]
    field_simp
  have hs : (strip b).all isDigit = true := by
    rw [hk, List.all_append] at hb
    simp only [Bool.and_eq_true] at hb
    exact hb.1
  rw [hd]
  unfold point readDecimal
  split
  · rename_i he
    obtain ⟨h1, h2⟩ := takeWhile_digits ha (c := 46) (by decide) []
    simp only [List.append_nil] at h1 h2
    simp only [h1, h2, he]
    simp [readNat, ha, hn]
  · obtain ⟨h1, h2⟩ := takeWhile_digits ha (c := 46) (by decide) (46 :: strip b)
    simp only [List.append_assoc, List.singleton_append]
    simp only [h1, h2]
    have : (strip b).length = (strip b).length := rfl
    simp [readNat, ha, hn, hs]

theorem readSigned_exponent (e : Int) : ∃ r, exponent e = 101 :: r ∧ readSigned r = some e := by
  unfold exponent
  have h0 : ∀ (p : Bytes), (p = [48] ∨ p = []) → readNat (p ++ decimal e.natAbs) = some e.natAbs := by
    intro p hp
    unfold readNat
    rw [if_pos]
    · rw [digitsValue_append, digitsValue_decimal]
      rcases hp with rfl | rfl <;> simp [digitsValue]
    · refine ⟨by simp [decimal_ne_nil'], ?_⟩
      rw [List.all_append, decimal_isDigit]
      rcases hp with rfl | rfl <;> decide
  have hp : (if e.natAbs < 10 then ([48] : Bytes) else []) = [48] ∨ (if e.natAbs < 10 then ([48] : Bytes) else []) = [] := by
    split <;> simp
  generalize (if e.natAbs < 10 then ([48] : Bytes) else []) = p at *
  refine ⟨(if e < 0 then 45 else 43) :: (p ++ decimal e.natAbs), by simp, ?_⟩
  split
  · show (readNat (p ++ decimal e.natAbs)).map (fun (n : Nat) => -(n : Int)) = some e
    rw [h0 p hp, Option.map_some]; congr 1; omega
  · show (readNat (p ++ decimal e.natAbs)).map (fun (n : Nat) => (n : Int)) = some e
    rw [h0 p hp, Option.map_some]; congr 1; omega

theorem length_decimal_six {m : Nat} (h1 : 10 ^ 5 ≤ m) (h2 : m < 10 ^ 6) : (decimal m).length = 6 := by
  have key : ∀ k n, 10 ^ k ≤ n → n < 10 ^ (k + 1) → (decimal n).length = k + 1 := by
    intro k
    induction k with
    | zero => intro n _ h; rw [decimal, if_pos (by simpa using h)]; rfl
    | succ k ih =>
      intro n ha hb
      have : ¬ n < 10 := by
        have : 10 ^ 1 ≤ 10 ^ (k + 1) := Nat.pow_le_pow_right (by norm_num) (by omega)
        omega
      rw [decimal, if_neg this]
      have := ih (n / 10) (by rw [pow_succ] at ha; omega) (by rw [pow_succ] at hb; omega)
      simp [this]
  exact key 5 m h1 h2

theorem point_digits {a b : Bytes} (ha : a.all isDigit = true) (hb : b.all isDigit = true) {c : UInt8}
    (hc : isDigit c = false) (h46 : c ≠ 46) (l : Bytes) :
    (point a b ++ l).dropWhile (· != c) = l.dropWhile (· != c) ∧
    (point a b ++ l).takeWhile (· != c) = point a b ++ l.takeWhile (· != c) := by
  have hs : (strip b).all isDigit = true := by
    obtain ⟨k, hk⟩ := strip_append b
    rw [hk, List.all_append] at hb
    simp only [Bool.and_eq_true] at hb
    exact hb.1
  have : ∀ x ∈ point a b, (x != c) = true := by
    intro x hx
    simp only [bne_iff_ne, ne_eq]
    rintro rfl
    rw [List.all_eq_true] at ha hs
    unfold point at hx
    split at hx
    · rw [ha x hx] at hc; cases hc
    · simp only [List.append_assoc, List.singleton_append, List.mem_append, List.mem_cons] at hx
      rcases hx with hx | hx | hx
      · rw [ha x hx] at hc; cases hc
      · exact h46 hx
      · rw [hs x hx] at hc; cases hc
  exact ⟨List.dropWhile_append_of_pos this, List.takeWhile_append_of_pos this⟩

theorem general_read {x : ℚ} (hx : 0 ≤ x) : readNumber (general x) = some (shown x) := by
  rcases eq_or_lt_of_le hx with rfl | hx
  · simp [general, shown, readNumber, readDecimal, readNat, isDigit, digitsValue]
  · obtain ⟨h1, h2, h3⟩ := sixDigits_spec hx
    unfold general
    rw [if_neg hx.ne', ← h3]
    generalize sixDigits x = p at *
    obtain ⟨m, e⟩ := p
    simp only at h1 h2 ⊢
    have hd := decimal_isDigit m
    have hl := length_decimal_six h1 h2
    have hv := digitsValue_decimal m
    generalize decimal m = d at *
    have ht : ∀ k, (d.take k).all isDigit = true ∧ (d.drop k).all isDigit = true := by
      intro k
      have := hd
      rw [← List.take_append_drop k d, List.all_append, Bool.and_eq_true] at this
      exact this
    have hne : ∀ k, 0 < k → d.take k ≠ [] := by
      intro k hk hh
      have := congrArg List.length hh
      simp [hl] at this
      omega
    split
    · obtain ⟨r, hr, hr'⟩ := readSigned_exponent e
      rw [hr]
      unfold readNumber
      obtain ⟨e1, e2⟩ := point_digits (ht 1).1 (ht 1).2 (c := 101) (by decide) (by decide) (101 :: r)
      rw [e1, e2]
      simp only [List.dropWhile_cons, List.takeWhile_cons, bne_self_eq_false, Bool.false_eq_true, if_false, List.append_nil]
      rw [readDecimal_point (ht 1).1 (ht 1).2 (hne 1 (by norm_num)), hr']
      simp only [Option.bind_some, Option.map_some]
      rw [List.take_append_drop, hv]
      simp only [List.length_drop, hl]
      congr 1
      rw [zpow_sub₀ (by norm_num)]
      norm_num
      ring
    · split
      · rename_i hA hB
        obtain ⟨k, rfl⟩ := Int.eq_ofNat_of_zero_le hB
        simp only [Int.toNat_natCast] at hA ⊢
        obtain ⟨e1, e2⟩ := point_digits (ht (k + 1)).1 (ht (k + 1)).2 (c := 101) (by decide) (by decide) []
        simp only [List.append_nil, List.dropWhile_nil] at e1
        unfold readNumber
        rw [e1]
        simp only
        rw [readDecimal_point (ht _).1 (ht _).2 (hne _ (by omega)), List.take_append_drop, hv]
        simp only [List.length_drop, hl]
        congr 1
        rw [div_eq_mul_inv]
        congr 1
        rw [show (k : Int) - 5 = -((6 - (k + 1) : Nat) : Int) by omega, zpow_neg, zpow_natCast]
      · rename_i hA hB
        obtain ⟨k, hk⟩ := Int.eq_ofNat_of_zero_le (show 0 ≤ -e by omega)
        have he : e = -(k : Int) := by omega
        subst he
        have hk1 : 1 ≤ k := by omega
        simp only [Int.natAbs_neg, Int.natAbs_natCast]
        have hz : (List.replicate (k - 1) 48 ++ d).all isDigit = true := by
          rw [List.all_append, hd, Bool.and_true, List.all_eq_true]
          intro y hy
          rw [List.eq_of_mem_replicate hy]; decide
        obtain ⟨e1, e2⟩ := point_digits (a := [48]) (by decide) hz (c := 101) (by decide) (by decide) []
        simp only [List.append_nil, List.dropWhile_nil] at e1
        unfold readNumber
        rw [e1]
        simp only
        rw [readDecimal_point (by decide) hz (by decide), digitsValue_append, digitsValue_append, digitsValue_zeros, hv]
        simp only [digitsValue, List.length_append, List.length_replicate, hl]
        congr 1
        simp only [List.foldl_cons, List.foldl_nil]
        rw [div_eq_mul_inv]
        congr 1
        · simp
        · rw [show -(k : Int) - 5 = -((k - 1 + 6 : Nat) : Int) by omega, zpow_neg, zpow_natCast]

end Verif
