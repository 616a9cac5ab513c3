import Verif.Spec.Report
import Verif.Proofs.Throughput
import Verif.Proofs.PingOutput

/-! # Lemmas about the statistics files and the summary of ndncatchunks -/

namespace Verif

private theorem two_pow_pos (k : ℤ) : (0 : ℚ) < 2 ^ k := zpow_pos (by norm_num) k

theorem binary64_pos_eq {x : ℚ} (hx : 0 < x) :
    binary64 x = roundEven (x / 2 ^ (Int.log 2 x - 52)) * 2 ^ (Int.log 2 x - 52) := by
  unfold binary64 roundEven
  rw [if_neg hx.ne', abs_of_pos hx]

theorem binary64_zero : binary64 0 = 0 := by unfold binary64; rw [if_pos rfl]

theorem binary64_nonneg {x : ℚ} (hx : 0 ≤ x) : 0 ≤ binary64 x := by
  have := binary64_err x
  rw [abs_of_nonneg hx, abs_le] at this
  have h1 : x / 2 ^ 53 ≤ x := div_le_self hx (by norm_num)
  linarith [this.1]

theorem binary64_pos {x : ℚ} (hx : 0 < x) : 0 < binary64 x := by
  have := binary64_err x
  rw [abs_of_pos hx, abs_le] at this
  have h1 : x / 2 ^ 53 < x := div_lt_self hx (by norm_num)
  linarith [this.1]

private theorem bits {x : ℚ} (hx : 0 < x) :
    2 ^ 52 ≤ roundEven (x / 2 ^ (Int.log 2 x - 52)) ∧ roundEven (x / 2 ^ (Int.log 2 x - 52)) ≤ 2 ^ 53 := by
  have h1 : ((2 : ℕ) : ℚ) ^ Int.log 2 x ≤ x := Int.zpow_log_le_self (by norm_num) hx
  have h2 : x < ((2 : ℕ) : ℚ) ^ (Int.log 2 x + 1) := Int.lt_zpow_succ_log_self (by norm_num) x
  generalize Int.log 2 x = e at *
  push_cast at h1 h2
  have hp := two_pow_pos (e - 52)
  have k1 : (2 : ℚ) ^ 52 ≤ x / 2 ^ (e - 52) := by
    rw [le_div_iff₀ hp]
    calc (2 : ℚ) ^ 52 * 2 ^ (e - 52) = 2 ^ e := by
          rw [show (2 : ℚ) ^ 52 = 2 ^ (52 : ℤ) by norm_num, ← zpow_add₀ (by norm_num)]; congr 1; ring
      _ ≤ x := h1
  have k2 : x / 2 ^ (e - 52) ≤ (2 : ℚ) ^ 53 := by
    rw [div_le_iff₀ hp]
    calc x ≤ 2 ^ (e + 1) := h2.le
      _ = (2 : ℚ) ^ 53 * 2 ^ (e - 52) := by
          rw [show (2 : ℚ) ^ 53 = 2 ^ (53 : ℤ) by norm_num, ← zpow_add₀ (by norm_num)]; congr 1; ring
  constructor
  · have := roundEven_mono (a := ((2 ^ 52 : ℤ) : ℚ)) (b := x / 2 ^ (e - 52)) (by push_cast; exact k1)
    rwa [roundEven_int] at this
  · have := roundEven_mono (a := x / 2 ^ (e - 52)) (b := ((2 ^ 53 : ℤ) : ℚ)) (by push_cast; exact k2)
    rwa [roundEven_int] at this

/-- Rounding keeps the order. -/
theorem binary64_mono {x y : ℚ} (hx : 0 ≤ x) (h : x ≤ y) : binary64 x ≤ binary64 y := by
  rcases eq_or_lt_of_le hx with rfl | hx
  · rw [binary64_zero]; exact binary64_nonneg h
  · have hy : 0 < y := lt_of_lt_of_le hx h
    rw [binary64_pos_eq hx, binary64_pos_eq hy]
    obtain ⟨-, b1⟩ := bits hx
    obtain ⟨a2, -⟩ := bits hy
    have hl : Int.log 2 x ≤ Int.log 2 y := Int.log_mono_right hx h
    rcases eq_or_lt_of_le hl with he | he
    · rw [he]
      refine mul_le_mul_of_nonneg_right ?_ (two_pow_pos _).le
      exact_mod_cast roundEven_mono (div_le_div_of_nonneg_right h (two_pow_pos _).le)
    · generalize roundEven (x / 2 ^ (Int.log 2 x - 52)) = m at *
      generalize roundEven (y / 2 ^ (Int.log 2 y - 52)) = n at *
      generalize Int.log 2 x = e at *
      generalize Int.log 2 y = f at *
      have b1' : (m : ℚ) ≤ 2 ^ 53 := by exact_mod_cast b1
      have a2' : (2 : ℚ) ^ 52 ≤ n := by exact_mod_cast a2
      calc (m : ℚ) * 2 ^ (e - 52) ≤ 2 ^ 53 * 2 ^ (e - 52) := mul_le_mul_of_nonneg_right b1' (two_pow_pos _).le
        _ = 2 ^ (e + 1) := by
          rw [show (2 : ℚ) ^ 53 = 2 ^ (53 : ℤ) by norm_num, ← zpow_add₀ (by norm_num)]; congr 1; ring
        _ ≤ 2 ^ f := zpow_le_zpow_right₀ (by norm_num) (by omega)
        _ = 2 ^ 52 * 2 ^ (f - 52) := by
          rw [show (2 : ℚ) ^ 52 = 2 ^ (52 : ℤ) by norm_num, ← zpow_add₀ (by norm_num)]; congr 1; ring
        _ ≤ _ := mul_le_mul_of_nonneg_right a2' (two_pow_pos _).le

namespace Report

open PingOutput (split lines words field fieldEnd Text Word join)
open Throughput (Rel rounding_binary64)

/-! ## Numbers -/

theorem near_shown {k : Nat} (hk : k ≤ 8) {x y : ℚ} (hy : 0 ≤ y) (h : Rel k x y) : Near (shown x) y := by
  have hx := h.nonneg hy
  have h1 := (h.mono hk hx hy).abs hy
  have h2 := shown_err hx
  unfold Near
  have h3 : x ≤ y + y / 2 ^ 49 := by linarith [(abs_le.mp h1).2]
  have : |shown x - y| ≤ |shown x - x| + |x - y| := abs_sub_le _ _ _
  have h4 : x * (5 / 10 ^ 6) ≤ (y + y / 2 ^ 49) * (5 / 10 ^ 6) := mul_le_mul_of_nonneg_right h3 (by norm_num)
  have h5 : (y + y / 2 ^ 49) * (5 / 10 ^ 6) + y / 2 ^ 49 ≤ y * (6 / 10 ^ 6) := by
    have : y * (6 / 10 ^ 6) - ((y + y / 2 ^ 49) * (5 / 10 ^ 6) + y / 2 ^ 49) =
        y * (6 / 10 ^ 6 - (1 + 1 / 2 ^ 49) * (5 / 10 ^ 6) - 1 / 2 ^ 49) := by ring
    have h6 : 0 ≤ y * (6 / 10 ^ 6 - (1 + 1 / 2 ^ 49) * (5 / 10 ^ 6) - 1 / 2 ^ 49) := mul_nonneg hy (by norm_num)
    linarith
  linarith

/-- Two roundings. -/
theorem quotient_rel (n : Nat) {c : ℚ} (hc : 0 < c) : Rel 2 (binary64 (binary64 n / c)) (n / c) := by
  have hn : (0 : ℚ) ≤ n := Nat.cast_nonneg n
  have h1 := (rounding_binary64.rel hn).div (Rel.refl c) hn hc
  have h2 := rounding_binary64.rel (x := binary64 n / c) (div_nonneg (binary64_nonneg hn) hc.le)
  simpa using h2.trans h1

theorem quotient_nonneg (n : Nat) {c : ℚ} (hc : 0 < c) : 0 ≤ binary64 (binary64 n / c) :=
  binary64_nonneg (div_nonneg (binary64_nonneg (Nat.cast_nonneg n)) hc.le)

theorem quotient_mono {m n : Nat} (h : m ≤ n) {c : ℚ} (hc : 0 < c) :
    binary64 (binary64 m / c) ≤ binary64 (binary64 n / c) := by
  refine binary64_mono (div_nonneg (binary64_nonneg (Nat.cast_nonneg m)) hc.le) ?_
  exact div_le_div_of_nonneg_right (binary64_mono (Nat.cast_nonneg m) (by exact_mod_cast h)) hc.le

theorem near_seconds (n : Nat) : Near (shown (seconds binary64 n)) (n / 10 ^ 9) :=
  near_shown (by decide) (by positivity) (quotient_rel n (by norm_num))

theorem near_millis (n : Nat) : Near (shown (millis binary64 n)) (n / 10 ^ 6) :=
  near_shown (by decide) (by positivity) (quotient_rel n (by norm_num))

theorem near_self {x : ℚ} (hx : 0 ≤ x) : Near (shown x) x := by
  have := near_shown (k := 0) (by decide) hx (Rel.refl x)
  exact this

theorem seconds_nonneg (n : Nat) : 0 ≤ seconds binary64 n := quotient_nonneg n (by norm_num)
theorem millis_nonneg (n : Nat) : 0 ≤ millis binary64 n := quotient_nonneg n (by norm_num)

theorem shown_seconds_mono {m n : Nat} (h : m ≤ n) : shown (seconds binary64 m) ≤ shown (seconds binary64 n) :=
  shown_mono (seconds_nonneg m) (quotient_mono h (by norm_num))

/-! ## Tables -/

/-- Cells with tabs between them. -/
def glue : List Bytes → Bytes
  | [] => []
  | [w] => w
  | w :: ws => w ++ 9 :: glue ws

theorem split_glue {ws : List Bytes} (hn : ws ≠ []) (h : ∀ w ∈ ws, 9 ∉ w) : split 9 (glue ws) = ws := by
  induction ws with
  | nil => exact absurd rfl hn
  | cons w ws ih =>
    cases ws with
    | nil => exact PingOutput.split_free (h w (by simp))
    | cons w' ws =>
      show split 9 (w ++ 9 :: glue (w' :: ws)) = _
      rw [PingOutput.split_cons (h w (by simp)), ih (by simp) fun x hx => h x (List.mem_cons_of_mem _ hx)]

theorem glue_free {ws : List Bytes} (h : ∀ w ∈ ws, 10 ∉ w) : 10 ∉ glue ws := by
  induction ws with
  | nil => simp [glue]
  | cons w ws ih =>
    cases ws with
    | nil => exact h w (by simp)
    | cons w' ws =>
      show 10 ∉ w ++ 9 :: glue (w' :: ws)
      simp only [List.mem_append, List.mem_cons, not_or]
      exact ⟨h w (by simp), by decide, ih fun x hx => h x (List.mem_cons_of_mem _ hx)⟩

theorem lines_flatten {ls : List Bytes} (h : ∀ l ∈ ls, 10 ∉ l) : lines (ls.map (· ++ [10])).flatten = ls ++ [[]] := by
  unfold lines
  induction ls with
  | nil => simp [split]
  | cons l ls ih =>
    simp only [List.map_cons, List.flatten_cons, List.append_assoc, List.nil_append, List.cons_append]
    rw [PingOutput.split_cons (h l (by simp)), ih fun x hx => h x (List.mem_cons_of_mem _ hx)]

theorem table_flatten {wss : List (List Bytes)} (hn : ∀ ws ∈ wss, ws ≠ []) (h : ∀ ws ∈ wss, ∀ w ∈ ws, 9 ∉ w ∧ 10 ∉ w) :
    table (wss.map fun ws => glue ws ++ [10]).flatten = some wss := by
  have hl : lines (wss.map fun ws => glue ws ++ [10]).flatten = wss.map glue ++ [[]] := by
    have := lines_flatten (ls := wss.map glue) (by
      intro l hl
      obtain ⟨ws, hws, rfl⟩ := List.mem_map.mp hl
      exact glue_free fun w hw => (h ws hws w hw).2)
    rw [List.map_map] at this
    exact this
  unfold table
  rw [hl, if_pos (by simp)]
  congr 1
  rw [List.dropLast_concat, List.map_map]
  conv_rhs => rw [← List.map_id wss]
  refine List.map_congr_left fun ws hws => ?_
  exact split_glue (hn ws hws) fun w hw => (h ws hws w hw).1

theorem readRows_map {α β : Type} {f : List Bytes → Option α} {c : β → List Bytes} {g : β → α} {l : List β}
    (h : ∀ b ∈ l, f (c b) = some (g b)) : readRows f (l.map c) = some (l.map g) := by
  induction l with
  | nil => rfl
  | cons b l ih =>
    show (f (c b)).bind _ = _
    rw [h b (by simp), Option.bind_some, ih fun x hx => h x (List.mem_cons_of_mem _ hx)]
    rfl

theorem numChar_free {a : Bytes} (h : ∀ b ∈ a, PingOutput.numChar b = true) : 9 ∉ a ∧ 10 ∉ a :=
  ⟨PingOutput.numChar_not h (by decide), PingOutput.numChar_not h (by decide)⟩

/-! ## The two files -/

theorem cwnd_read {rows : List (Nat × ℚ)} (h : ∀ x ∈ rows, 0 ≤ x.2) :
    readCwnd (cwndFile binary64 rows) = some (rows.map fun x => (shown (seconds binary64 x.1), shown x.2)) := by
  have e : cwndFile binary64 rows = (([text "time", text "cwndsize"] ::
      rows.map fun x => [general (seconds binary64 x.1), general x.2]).map fun ws => glue ws ++ [10]).flatten := by
    unfold cwndFile
    rw [List.map_cons, List.flatten_cons, List.map_map, List.flatMap_def]
    congr 1
    congr 1
    refine List.map_congr_left fun x _ => ?_
    show general (seconds binary64 x.1) ++ [9] ++ general x.2 ++ [10] = (general (seconds binary64 x.1) ++ 9 :: general x.2) ++ [10]
    simp
  unfold readCwnd readFile
  rw [e, table_flatten]
  · show (if [text "time", text "cwndsize"] = ["time", "cwndsize"].map text then _ else _) = _
    rw [if_pos (by rfl)]
    refine readRows_map fun x hx => ?_
    show (readNumber _).bind _ = _
    rw [general_read (seconds_nonneg _), Option.bind_some, general_read (h x hx)]
    rfl
  · intro ws hws
    rcases List.mem_cons.mp hws with rfl | hws
    · simp
    · obtain ⟨x, _, rfl⟩ := List.mem_map.mp hws; simp
  · intro ws hws w hw
    rcases List.mem_cons.mp hws with rfl | hws
    · simp only [List.mem_cons, List.not_mem_nil, or_false] at hw
      rcases hw with rfl | rfl <;> decide
    · obtain ⟨x, _, rfl⟩ := List.mem_map.mp hws
      simp only [List.mem_cons, List.not_mem_nil, or_false] at hw
      rcases hw with rfl | rfl <;> exact numChar_free (PingOutput.general_numChar _)

theorem rtt_read (rows : List AdaptiveTime.RttRow) :
    readRtt (rttFile binary64 rows) = some (rows.map fun x => ⟨x.seg, shown (millis binary64 x.rtt),
      shown (millis binary64 x.rttVar), shown (millis binary64 x.sRtt), shown (millis binary64 x.rto)⟩) := by
  have e : rttFile binary64 rows = (([text "segment", text "rtt", text "rttvar", text "srtt", text "rto"] ::
      rows.map fun x => [decimal x.seg, general (millis binary64 x.rtt), general (millis binary64 x.rttVar),
        general (millis binary64 x.sRtt), general (millis binary64 x.rto)]).map fun ws => glue ws ++ [10]).flatten := by
    unfold rttFile
    rw [List.map_cons, List.flatten_cons, List.map_map, List.flatMap_def]
    congr 1
    congr 1
    refine List.map_congr_left fun x _ => ?_
    simp only [Function.comp, glue, show text "\t" = [9] from rfl, show text "\n" = [10] from rfl]
    simp
  unfold readRtt readFile
  rw [e, table_flatten]
  · show (if [text "segment", text "rtt", text "rttvar", text "srtt", text "rto"] =
      ["segment", "rtt", "rttvar", "srtt", "rto"].map text then _ else _) = _
    rw [if_pos (by rfl)]
    refine readRows_map fun x hx => ?_
    show (readNat _).bind _ = _
    rw [readNat_decimal, Option.bind_some, general_read (millis_nonneg _), Option.bind_some, general_read (millis_nonneg _),
      Option.bind_some, general_read (millis_nonneg _), Option.bind_some, general_read (millis_nonneg _)]
    rfl
  · intro ws hws
    rcases List.mem_cons.mp hws with rfl | hws
    · simp
    · obtain ⟨x, _, rfl⟩ := List.mem_map.mp hws; simp
  · intro ws hws w hw
    rcases List.mem_cons.mp hws with rfl | hws
    · simp only [List.mem_cons, List.not_mem_nil, or_false] at hw
      rcases hw with rfl | rfl | rfl | rfl | rfl <;> decide
    · obtain ⟨x, _, rfl⟩ := List.mem_map.mp hws
      simp only [List.mem_cons, List.not_mem_nil, or_false] at hw
      rcases hw with rfl | rfl | rfl | rfl | rfl
      · exact numChar_free (PingOutput.decimal_numChar _)
      all_goals exact numChar_free (PingOutput.general_numChar _)

/-! ## The summary -/

theorem Text_wordLines {wss : List (List Bytes)} {out : Bytes} (h : Text wss out) : wordLines out = some wss := by
  unfold wordLines
  rw [h.lines, if_pos (by simp)]
  congr 1
  rw [List.dropLast_concat, List.map_map]
  conv_rhs => rw [← List.map_id wss]
  exact List.map_congr_left fun ws hws => PingOutput.words_join (h.ne ws hws) fun w hw => (h.word ws hws w hw).1

/-- The two words of the goodput. -/
def goodputWords : Throughput.Shown → Bytes × Bytes
  | .number t u => (t, text u)
  | .inf u => (text "inf", text u)
  | .nan u => (text "nan", text u)

theorem throughputText_eq (x : Throughput.Shown) :
    throughputText x = (goodputWords x).1 ++ 32 :: (goodputWords x).2 := by
  cases x <;> simp [throughputText, goodputWords, text]

theorem unit_word (k : Nat) : Word (text (Throughput.unit k)) := by
  unfold Throughput.unit
  split <;> (unfold Word; decide +kernel)

theorem toStringF_numChar (x : ℚ) : ∀ b ∈ Throughput.toStringF x, PingOutput.numChar b = true := by
  obtain ⟨i, f, h, -, -, hd, -⟩ := Throughput.denotes_toStringF x
  rw [h]
  intro b hb
  have hdig : ∀ y ∈ i ++ f, PingOutput.numChar y = true := by
    intro y hy
    have := hd y hy
    exact PingOutput.digit_numChar (by unfold isDigit; exact decide_eq_true this)
  simp only [List.mem_append, List.mem_singleton] at hb hdig
  rcases hb with (hb | rfl) | hb
  · exact hdig b (.inl hb)
  · decide
  · exact hdig b (.inr hb)

theorem goodput_words (x : Throughput.Dbl) :
    Word (goodputWords (Throughput.formatThroughput binary64 x)).1 ∧ Word (goodputWords (Throughput.formatThroughput binary64 x)).2 := by
  cases x with
  | num x => exact ⟨.num (toStringF_numChar _), unit_word _⟩
  | inf => exact ⟨by unfold Word; decide +kernel, unit_word _⟩
  | nan => exact ⟨by unfold Word; decide +kernel, unit_word _⟩

/-- The words of the lines of the summary. -/
def baseWords (ns : Nat) (s : Summary) : List (List Bytes) :=
  [[[]], [[]], ["All", "segments", "have", "been", "received."].map text,
    [text "Time", text "elapsed:", general (seconds binary64 ns), if seconds binary64 ns = 1 then text "second" else text "seconds"],
    [text "Segments", text "received:", decimal s.segments],
    [text "Transferred", text "size:", general (binary64 (binary64 s.size / 10 ^ 3)), text "kB"],
    [text "Goodput:", (goodputWords (Throughput.goodput binary64 s.size ns)).1, (goodputWords (Throughput.goodput binary64 s.size ns)).2]]

theorem base_text (ns : Nat) (s : Summary) : Text (baseWords ns s) (summaryText binary64 ns s) := by
  have hg := goodput_words (Throughput.throughput binary64 s.size ns)
  rw [show Throughput.formatThroughput binary64 (Throughput.throughput binary64 s.size ns) = Throughput.goodput binary64 s.size ns from rfl] at hg
  refine ⟨?_, ?_, ?_⟩
  · intro ws hws
    simp only [baseWords, List.mem_cons, List.not_mem_nil, or_false] at hws
    rcases hws with rfl | rfl | rfl | rfl | rfl | rfl | rfl <;> simp
  · intro ws hws w hw
    simp only [baseWords, List.mem_cons, List.not_mem_nil, or_false] at hws
    rcases hws with rfl | rfl | rfl | rfl | rfl | rfl | rfl <;>
      simp only [List.map_cons, List.map_nil, List.mem_cons, List.not_mem_nil, or_false] at hw
    · subst hw; unfold Word; decide
    · subst hw; unfold Word; decide
    · rcases hw with rfl | rfl | rfl | rfl | rfl <;> (unfold Word; decide +kernel)
    · rcases hw with rfl | rfl | rfl | rfl
      · unfold Word; decide +kernel
      · unfold Word; decide +kernel
      · exact .general _
      · split <;> (unfold Word; decide +kernel)
    · rcases hw with rfl | rfl | rfl
      · unfold Word; decide +kernel
      · unfold Word; decide +kernel
      · exact .nat _
    · rcases hw with rfl | rfl | rfl | rfl
      · unfold Word; decide +kernel
      · unfold Word; decide +kernel
      · exact .general _
      · unfold Word; decide +kernel
    · rcases hw with rfl | rfl | rfl
      · unfold Word; decide +kernel
      · exact hg.1
      · exact hg.2
  · unfold summaryText
    rw [throughputText_eq]
    split <;> rename_i h1 <;> simp [baseWords, join, text, h1]

/-- What is read from the summary. -/
def baseOf (ns : Nat) (s : Summary) : Base :=
  ⟨shown (seconds binary64 ns), s.segments, shown (binary64 (binary64 s.size / 10 ^ 3)), goodputWords (Throughput.goodput binary64 s.size ns)⟩

theorem readBase_words (ns : Nat) (s : Summary) : readBase (baseWords ns s) = some (baseOf ns s) := by
  have h1 : (if seconds binary64 ns = 1 then text "second" else text "seconds") = text "seconds" ∨
      (if seconds binary64 ns = 1 then text "second" else text "seconds") = text "second" := by
    split
    · exact .inr rfl
    · exact .inl rfl
  unfold baseWords
  simp only [readBase, and_self, if_true, h1, general_read (seconds_nonneg ns), readNat_decimal,
    general_read (quotient_nonneg s.size (c := 10 ^ 3) (by norm_num)), Option.bind_some, Option.map_some, baseOf]

theorem summary_read (ns : Nat) (s : Summary) : readSummary (summaryText binary64 ns s) = some (baseOf ns s) := by
  unfold readSummary
  rw [Text_wordLines (base_text ns s), Option.bind_some, readBase_words]

/-! ## Three digits after the point -/

/-- The number that `fixed3` prints. -/
def shown3 (x : ℚ) : ℚ := ((Throughput.nearest (x * 10 ^ 3)).toNat : ℚ) / 10 ^ 3

private theorem digits3 {n : Nat} (h : n < 10 ^ 3) : (decimal n).length ≤ 3 := by
  rw [decimal]
  split
  · simp
  · rw [decimal]
    split
    · simp
    · rw [decimal, if_pos (by omega)]
      simp

theorem fixed3_digits (x : ℚ) : ∃ a b : Bytes, fixed3 x = a ++ 46 :: b ∧ a.all isDigit = true ∧ b.all isDigit = true ∧ a ≠ [] ∧
    b.length = 3 ∧ digitsValue a * 10 ^ 3 + digitsValue b = (Throughput.nearest (x * 10 ^ 3)).toNat := by
  unfold fixed3
  generalize (Throughput.nearest (x * 10 ^ 3)).toNat = m
  have hl := digits3 (n := m % 10 ^ 3) (Nat.mod_lt _ (by decide))
  refine ⟨decimal (m / 10 ^ 3), List.replicate (3 - (decimal (m % 10 ^ 3)).length) 48 ++ decimal (m % 10 ^ 3), ?_,
    decimal_isDigit _, ?_, decimal_ne_nil' _, ?_, ?_⟩
  · simp [text]
  · rw [List.all_append, decimal_isDigit, Bool.and_true, List.all_eq_true]
    intro y hy
    rw [List.eq_of_mem_replicate hy]
    decide
  · rw [List.length_append, List.length_replicate]; omega
  · rw [digitsValue_append, digitsValue_zeros, digitsValue_decimal, digitsValue_decimal]
    have := Nat.div_add_mod m (10 ^ 3)
    omega

theorem fixed3_read (x : ℚ) : readDecimal (fixed3 x) = some (shown3 x) := by
  obtain ⟨a, b, h, ha, hb, hn, hl, hv⟩ := fixed3_digits x
  have hne : ∀ y ∈ a, (y != 46) = true := by
    intro y hy
    have := List.all_eq_true.mp ha y hy
    rw [bne_iff_ne]
    rintro rfl
    exact absurd this (by decide)
  have h1 : (a ++ 46 :: b).takeWhile (· != 46) = a := by
    rw [List.takeWhile_append_of_pos hne]
    simp
  have h2 : (a ++ 46 :: b).dropWhile (· != 46) = 46 :: b := by
    rw [List.dropWhile_append_of_pos hne]
    simp
  unfold readDecimal shown3
  simp only [h, h1, h2, List.drop_succ_cons, List.drop_zero, hl]
  unfold readNat
  rw [if_pos ⟨by simp [hn], by rw [List.all_append, ha, hb]; rfl⟩, digitsValue_append, hl, hv]
  rfl

theorem fixed3_numChar (x : ℚ) : ∀ b ∈ fixed3 x, PingOutput.numChar b = true := by
  obtain ⟨a, b, h, ha, hb, -⟩ := fixed3_digits x
  rw [h]
  intro y hy
  rcases List.mem_append.mp hy with hy | hy
  · exact PingOutput.digit_numChar (List.all_eq_true.mp ha y hy)
  · rcases List.mem_cons.mp hy with rfl | hy
    · decide
    · exact PingOutput.digit_numChar (List.all_eq_true.mp hb y hy)

theorem shown3_mono {x y : ℚ} (h : x ≤ y) : shown3 x ≤ shown3 y := by
  unfold shown3
  have h1 : Throughput.nearest (x * 10 ^ 3) ≤ Throughput.nearest (y * 10 ^ 3) :=
    roundEven_mono (mul_le_mul_of_nonneg_right h (by norm_num))
  have h2 : ((Throughput.nearest (x * 10 ^ 3)).toNat : ℚ) ≤ ((Throughput.nearest (y * 10 ^ 3)).toNat : ℚ) := by
    exact_mod_cast Int.toNat_le_toNat h1
  exact div_le_div_of_nonneg_right h2 (by norm_num)

theorem shown3_err {x : ℚ} (hx : 0 ≤ x) : |shown3 x - x| ≤ 1 / (2 * 10 ^ 3) := by
  have h := Throughput.nearest_err (x * 10 ^ 3)
  have h0 := Throughput.nearest_nonneg (y := x * 10 ^ 3) (by positivity)
  unfold shown3
  generalize Throughput.nearest (x * 10 ^ 3) = n at *
  have hn : ((n.toNat : ℕ) : ℚ) = (n : ℚ) := by exact_mod_cast Int.toNat_of_nonneg h0
  rw [hn]
  rw [abs_le] at h ⊢
  constructor <;> linarith [h.1, h.2]

/-- Nanoseconds printed as milliseconds with three digits after the point. -/
theorem shown3_millis (n : Nat) :
    |shown3 (millis binary64 n) - (n : ℚ) / 10 ^ 6| ≤ 1 / (2 * 10 ^ 3) + (n : ℚ) / 10 ^ 6 / 2 ^ 49 := by
  have h1 := shown3_err (millis_nonneg n)
  have hr := quotient_rel n (c := 10 ^ 6) (by norm_num)
  have hn : (0 : ℚ) ≤ n / 10 ^ 6 := by positivity
  have h2 := (hr.mono (by decide : 2 ≤ 8) (quotient_nonneg n (by norm_num)) hn).abs hn
  calc _ ≤ |shown3 (millis binary64 n) - millis binary64 n| + |millis binary64 n - (n : ℚ) / 10 ^ 6| := abs_sub_le _ _ _
    _ ≤ _ := add_le_add h1 h2

/-! ## The share of repeated Interests -/

theorem percent_nonneg (a b : Nat) : 0 ≤ percent binary64 a b := by
  unfold percent
  split
  · exact le_refl _
  · have := binary64_nonneg (Nat.cast_nonneg (α := ℚ) a)
    have := binary64_nonneg (Nat.cast_nonneg (α := ℚ) b)
    have := binary64_nonneg (x := binary64 a * 100) (by positivity)
    exact binary64_nonneg (by positivity)

theorem percent_near (a b : Nat) : Near (shown (percent binary64 a b)) (if b = 0 then 0 else a * 100 / b) := by
  unfold percent
  split
  · exact near_self (le_refl _)
  · rename_i hb
    have hbq : (0 : ℚ) < b := by exact_mod_cast Nat.pos_of_ne_zero hb
    have ha : (0 : ℚ) ≤ a := Nat.cast_nonneg a
    have h1 : Rel 1 (binary64 a * 100) (a * 100) := (rounding_binary64.rel ha).mul (by norm_num)
    have h2 := (rounding_binary64.rel (h1.nonneg (by positivity))).trans h1
    have h3 := h2.div (rounding_binary64.rel hbq.le) (by positivity) hbq
    have h4 := (rounding_binary64.rel (h3.nonneg (by positivity))).trans h3
    exact near_shown (by decide) (by positivity) h4

theorem percent_le {a b : Nat} (h : a ≤ b) : shown (percent binary64 a b) ≤ 100 := by
  unfold percent
  split
  · decide +kernel
  · rename_i hb
    have hbq : (0 : ℚ) < b := by exact_mod_cast Nat.pos_of_ne_zero hb
    have ha : (0 : ℚ) ≤ a := Nat.cast_nonneg a
    have hab : binary64 a ≤ binary64 b := binary64_mono ha (by exact_mod_cast h)
    have hp := binary64_pos hbq
    have hna := binary64_nonneg ha
    have h1 : binary64 (binary64 a * 100) ≤ binary64 b * 100 * (1 + 1 / 2 ^ 53) := by
      refine le_trans (binary64_mono (by positivity) (mul_le_mul_of_nonneg_right hab (by norm_num))) ?_
      have := binary64_err (binary64 b * 100)
      rw [abs_of_pos (a := binary64 b * 100) (by positivity), abs_le] at this
      linarith [this.2]
    have h2 : binary64 (binary64 a * 100) / binary64 b ≤ 100 * (1 + 1 / 2 ^ 53) := by
      rw [div_le_iff₀ hp]; linarith
    have h0 : 0 ≤ binary64 (binary64 a * 100) / binary64 b := div_nonneg (binary64_nonneg (by positivity)) hp.le
    refine le_trans (shown_mono (binary64_nonneg h0) (binary64_mono h0 h2)) ?_
    decide +kernel

theorem percent_zero {a b : Nat} (h : a ≤ b) : shown (percent binary64 a b) = 0 ↔ a = 0 := by
  constructor
  · intro hs
    by_contra ha
    have haq : (0 : ℚ) < a := by exact_mod_cast Nat.pos_of_ne_zero ha
    have hb : b ≠ 0 := by omega
    have hbq : (0 : ℚ) < b := by exact_mod_cast Nat.pos_of_ne_zero hb
    refine absurd hs (shown_pos ?_).ne'
    unfold percent
    rw [if_neg hb]
    have h1 := binary64_pos haq
    have h2 := binary64_pos hbq
    have h3 := binary64_pos (x := binary64 a * 100) (by positivity)
    exact binary64_pos (by positivity)
  · rintro rfl
    unfold percent
    split
    · decide +kernel
    · have e : binary64 (binary64 (binary64 ((0 : ℕ) : ℚ) * 100) / binary64 b) = 0 := by
        rw [Nat.cast_zero, binary64_zero, zero_mul, binary64_zero, zero_div, binary64_zero]
      rw [e]
      decide +kernel

/-! ## The lines of the adaptive pipelines -/

def rttWords : Option Rtts → List Bytes
  | none => ["RTT", "stats", "unavailable"].map text
  | some t => [text "RTT", text "min/avg/max", text "=", fixed3 (millis binary64 t.min) ++ 47 :: (fixed3 (millis binary64 t.avg) ++ 47 ::
      fixed3 (millis binary64 t.max)), text "ms"]

def moreWords (s : Summary.Adaptive) (sent : Nat) (rtts : Option Rtts) : List (List Bytes) :=
  [[text "Congestion", text "marks:", decimal s.marks, text "(caused", decimal s.markDecr, text "window", text "decreases)"],
    [text "Timeouts:", decimal s.timeouts, text "(caused", decimal s.lossDecr, text "window", text "decreases)"],
    [text "Retransmitted", text "segments:", decimal s.retx, text "(" ++ (general (percent binary64 s.retx sent) ++ text "%),"),
      text "skipped:", decimal s.skipped],
    rttWords rtts]

theorem rtt_words (rtts : Option Rtts) : ∀ w ∈ rttWords rtts, Word w := by
  intro w hw
  cases rtts with
  | none =>
    simp only [rttWords, List.map_cons, List.map_nil, List.mem_cons, List.not_mem_nil, or_false] at hw
    rcases hw with rfl | rfl | rfl <;> (unfold Word; decide +kernel)
  | some t =>
    have hs : Word [47] := by unfold Word; decide
    have hf : ∀ x, Word (fixed3 x) := fun x => .num (fixed3_numChar x)
    simp only [rttWords, List.mem_cons, List.not_mem_nil, or_false] at hw
    rcases hw with rfl | rfl | rfl | rfl | rfl
    · unfold Word; decide +kernel
    · unfold Word; decide +kernel
    · unfold Word; decide +kernel
    · exact .append (hf _) (.append hs (.append (hf _) (.append hs (hf _))))
    · unfold Word; decide +kernel

theorem more_word (s : Summary.Adaptive) (sent : Nat) (rtts : Option Rtts) :
    ∀ ws ∈ moreWords s sent rtts, ws ≠ [] ∧ ∀ w ∈ ws, Word w := by
  intro ws hws
  simp only [moreWords, List.mem_cons, List.not_mem_nil, or_false] at hws
  rcases hws with rfl | rfl | rfl | rfl
  · refine ⟨by simp, fun w hw => ?_⟩
    simp only [List.mem_cons, List.not_mem_nil, or_false] at hw
    rcases hw with rfl | rfl | rfl | rfl | rfl | rfl | rfl <;> first | exact .nat _ | (unfold Word; decide +kernel)
  · refine ⟨by simp, fun w hw => ?_⟩
    simp only [List.mem_cons, List.not_mem_nil, or_false] at hw
    rcases hw with rfl | rfl | rfl | rfl | rfl | rfl <;> first | exact .nat _ | (unfold Word; decide +kernel)
  · refine ⟨by simp, fun w hw => ?_⟩
    simp only [List.mem_cons, List.not_mem_nil, or_false] at hw
    rcases hw with rfl | rfl | rfl | rfl | rfl | rfl
    · unfold Word; decide +kernel
    · unfold Word; decide +kernel
    · exact .nat _
    · exact .append (by unfold Word; decide +kernel) (.append (.general _) (by unfold Word; decide +kernel))
    · unfold Word; decide +kernel
    · exact .nat _
  · refine ⟨?_, rtt_words rtts⟩
    cases rtts <;> simp [rttWords]

theorem adaptive_text (ns : Nat) (s : Summary.Adaptive) (sent : Nat) (rtts : Option Rtts) :
    Text (baseWords ns s.toSummary ++ moreWords s sent rtts) (adaptiveText binary64 ns s sent rtts) := by
  have hm := more_word s sent rtts
  have : Text (moreWords s sent rtts) (((moreWords s sent rtts).map fun ws => join ws ++ [10]).flatten) :=
    ⟨fun ws h => (hm ws h).1, fun ws h => (hm ws h).2, rfl⟩
  have e : adaptiveText binary64 ns s sent rtts =
      summaryText binary64 ns s.toSummary ++ (((moreWords s sent rtts).map fun ws => join ws ++ [10]).flatten) := by
    unfold adaptiveText
    cases rtts <;> simp [moreWords, rttWords, join, text]
  rw [e]
  exact (base_text ns s.toSummary).append this

/-- What is read from the line about the RTT. -/
def rttsOf : Option Rtts → Option (ℚ × ℚ × ℚ)
  | none => none
  | some t => some (shown3 (millis binary64 t.min), shown3 (millis binary64 t.avg), shown3 (millis binary64 t.max))

theorem readRtts_words (rtts : Option Rtts) : readRtts (rttWords rtts) = some (rttsOf rtts) := by
  cases rtts with
  | none => decide +kernel
  | some t =>
    have hf : ∀ x, 47 ∉ fixed3 x := fun x => PingOutput.numChar_not (fixed3_numChar x) (by decide)
    simp only [rttWords, readRtts, and_self, if_true]
    rw [PingOutput.split_cons (hf _), PingOutput.split_cons (hf _), PingOutput.split_free (hf _)]
    simp only [fixed3_read, Option.bind_some, Option.map_some, rttsOf]

theorem readRetx_words (s : Summary.Adaptive) (sent : Nat) :
    readRetx [text "Retransmitted", text "segments:", decimal s.retx, text "(" ++ (general (percent binary64 s.retx sent) ++ text "%),"),
      text "skipped:", decimal s.skipped] = some (s.retx, shown (percent binary64 s.retx sent), s.skipped) := by
  simp only [readRetx, and_self, if_true, readNat_decimal, Option.bind_some, PingOutput.field_append, PingOutput.fieldEnd_append,
    general_read (percent_nonneg s.retx sent), Option.map_some]

/-- What is read from the summary of an adaptive pipeline. -/
def fullOf (ns : Nat) (s : Summary.Adaptive) (sent : Nat) (rtts : Option Rtts) : Full :=
  { baseOf ns s.toSummary with
    marks := s.marks, markDecr := s.markDecr, timeouts := s.timeouts, lossDecr := s.lossDecr, retx := s.retx,
    percent := shown (percent binary64 s.retx sent), skipped := s.skipped, rtts := rttsOf rtts }

theorem adaptive_read (ns : Nat) (s : Summary.Adaptive) (sent : Nat) (rtts : Option Rtts) :
    readAdaptive (adaptiveText binary64 ns s sent rtts) = some (fullOf ns s sent rtts) := by
  unfold readAdaptive
  rw [Text_wordLines (adaptive_text ns s sent rtts), Option.bind_some]
  have h1 : (baseWords ns s.toSummary ++ moreWords s sent rtts).drop 7 = moreWords s sent rtts := rfl
  have h2 : (baseWords ns s.toSummary ++ moreWords s sent rtts).take 7 = baseWords ns s.toSummary := rfl
  rw [h1, h2, readBase_words]
  unfold moreWords
  simp only [Option.bind_some, readRetx_words, readRtts_words]
  have h3 : ∀ n m, readCaused ["Congestion", "marks:"] [text "Congestion", text "marks:", decimal n, text "(caused", decimal m, text "window", text "decreases)"] = some (n, m) := by
    intro n m
    simp [readCaused, readNat_decimal]
  have h4 : ∀ n m, readCaused ["Timeouts:"] [text "Timeouts:", decimal n, text "(caused", decimal m, text "window", text "decreases)"] = some (n, m) := by
    intro n m
    simp [readCaused, readNat_decimal]
  rw [h3, Option.bind_some, h4, Option.bind_some]
  rfl

end Report
end Verif
