import Verif.Proofs.Report
import Verif.Spec.Parameters

/-! # The list of parameters can be read -/

namespace Verif.Parameters

open Cli (Num)
open PingOutput (lines field fieldEnd intText field_append fieldEnd_append numChar_not intText_numChar general_numChar decimal_numChar)

theorem readDecimal_minus (l : Bytes) : readDecimal (45 :: l) = none := by
  have : ((45 : UInt8) != 46) = true := by decide
  simp only [readDecimal, List.takeWhile_cons, this, if_true, readNat, List.cons_append, List.all_cons]
  rw [if_neg]
  · rfl
  · simp [isDigit]

theorem readNumber_minus (l : Bytes) : readNumber (45 :: l) = none := by
  have : ((45 : UInt8) != 101) = true := by decide
  simp only [readNumber, List.dropWhile_cons, List.takeWhile_cons, this, if_true]
  split
  · exact readDecimal_minus l
  · rw [readDecimal_minus]; rfl

private theorem inf_none : readNumber (text "inf") = none := by decide +kernel
private theorem nan_none : readNumber (text "nan") = none := by decide +kernel

private theorem readNum_plain {l : Bytes} {x : ℚ} (h : readNumber l = some x) : readNum l = some (.num x) := by
  have h1 : l ≠ text "inf" := by rintro rfl; rw [inf_none] at h; cases h
  have h2 : l ≠ text "nan" := by rintro rfl; rw [nan_none] at h; cases h
  unfold readNum
  split
  · rw [readNumber_minus] at h; cases h
  · rw [if_neg h1, if_neg h2, h]; rfl

/-- What is read of a number. -/
def numShown : Num → Num
  | .num x => if x < 0 then .num (- shown (-x)) else .num (shown x)
  | n => n

theorem readNum_text (n : Num) : readNum (numText n) = some (numShown n) := by
  cases n with
  | num x =>
    unfold numText numShown
    dsimp only
    by_cases hx : x < 0
    · rw [if_pos hx, if_pos hx]
      have h := general_read (x := -x) (by linarith)
      show readNum (45 :: general (-x)) = _
      unfold readNum
      have h1 : general (-x) ≠ text "inf" := by intro e; rw [e, inf_none] at h; cases h
      simp only [h, if_neg h1, Option.map_some]
    · rw [if_neg hx, if_neg hx]
      exact readNum_plain (general_read (by linarith))
  | inf => decide +kernel
  | negInf => decide +kernel
  | nan => decide +kernel

theorem shows_text (n : Num) : Shows (numShown n) n := by
  cases n with
  | num x =>
    unfold numShown
    dsimp only
    by_cases hx : x < 0
    · rw [if_pos hx]
      have := Report.near_self (x := -x) (by linarith)
      unfold Report.Near at this
      show |_| ≤ _
      rw [abs_of_neg hx, show -shown (-x) - x = -(shown (-x) - -x) by ring, abs_neg]
      exact this
    · rw [if_neg hx]
      have := Report.near_self (x := x) (by linarith)
      unfold Report.Near at this
      show |_| ≤ _
      rw [abs_of_nonneg (by linarith : 0 ≤ x)]
      exact this
  | inf => trivial
  | negInf => trivial
  | nan => trivial

theorem readInt_text (n : Int) : readInt (intText n) = some n := by
  unfold intText
  by_cases h : n < 0
  · rw [if_pos h]
    show (readNat (decimal n.natAbs)).map _ = _
    rw [readNat_decimal]
    simp only [Option.map_some, Option.some.injEq]
    omega
  · rw [if_neg h, List.nil_append]
    have hr := readNat_decimal n.natAbs
    unfold readInt
    split
    · rename_i l e
      rw [e] at hr
      simp [readNat, isDigit] at hr
    · rw [hr]
      simp only [Option.map_some, Option.some.injEq]
      omega

theorem readMs_text (n : Int) : readMs (msText n) = some n := by
  unfold msText readMs
  by_cases h : n.natAbs = 1
  · have : n = 1 ∨ n = -1 := by omega
    rcases this with rfl | rfl <;> decide +kernel
  · rw [if_neg h, fieldEnd_append, Option.orElse_some, Option.bind_some, readInt_text]

theorem readYesNo_text (b : Bool) : readYesNo (yesNo b) = some b := by cases b <;> decide +kernel

theorem readRetries_text (n : Int) : readRetries (if n = -1 then text "infinite" else intText n) =
    some (if n = -1 then none else some n) := by
  unfold readRetries
  by_cases h : n = -1
  · simp [h]
  · rw [if_neg h, if_neg h, if_neg, readInt_text]
    · rfl
    · intro e
      have := intText_numChar n 102
      rw [e] at this
      exact absurd (this (by decide +kernel)) (by decide)

theorem readReset_text (b : Bool) : readReset (text (if b then "initial value" else "ssthresh") ++ text " upon loss event") = some b := by
  cases b <;> decide +kernel

theorem line_text {α : Type} {key : String} {f : Bytes → Option α} {v : Bytes} {a : α} (h : f v = some a) (ls : List Bytes) :
    line key f ((text key ++ v) :: ls) = some (a, ls) := by
  simp only [line, field_append, Option.bind_some, h, Option.map_some]

theorem line_heading (key : String) (ls : List Bytes) : line key heading (text key :: ls) = some ((), ls) := by
  have := line_text (key := key) (f := heading) (v := []) (a := ()) rfl ls
  rwa [List.append_nil] at this

/-! ## The lines -/

def rttLines (a : Args) : List Bytes :=
  [text "RTT estimator parameters:", text "\tAlpha = " ++ numText a.rtoAlpha, text "\tBeta = " ++ numText a.rtoBeta,
    text "\tK = " ++ intText a.rtoK, text "\tInitial RTO = " ++ msText 1000, text "\tMin RTO = " ++ msText a.minRto,
    text "\tMax RTO = " ++ msText a.maxRto, text "\tBackoff multiplier = " ++ intText 2]

def commonLines (a : Args) : List Bytes :=
  [text "Pipeline parameters:", text "\tRequest fresh content = " ++ yesNo a.fresh, text "\tInterest lifetime = " ++ msText a.lifetime,
    text "\tMax retries on timeout or Nack = " ++ (if a.retries = -1 then text "infinite" else intText a.retries)]

def adaptLines (a : Args) : List Bytes :=
  [text "\tInitial congestion window size = " ++ numText a.initCwnd, text "\tInitial slow start threshold = " ++ numText a.initSsthresh,
    text "\tAdditive increase step = " ++ numText a.aiStep, text "\tMultiplicative decrease factor = " ++ numText a.mdCoef,
    text "\tRTO check interval = " ++ msText 10, text "\tReact to congestion marks = " ++ yesNo (!a.ignoreMarks),
    text "\tConservative window adaptation = " ++ yesNo (!a.disableCwa),
    text "\tResetting window to " ++ (text (if a.resetCwnd then "initial value" else "ssthresh") ++ text " upon loss event")]

def cubicLines (a : Args) : List Bytes :=
  [text "\tCubic beta = " ++ numText a.cubicBeta, text "\tFast convergence = " ++ yesNo a.fastConv]

theorem rtt_lines (a : Args) : rttText a = ((rttLines a).map (· ++ [10])).flatten := by
  unfold rttText rttLines
  generalize msText 1000 = x, intText 2 = y
  simp only [List.map_cons, List.map_nil, List.flatten_cons, List.flatten_nil, List.append_assoc, List.append_nil]

theorem common_lines (a : Args) : optionsText a = ((commonLines a).map (· ++ [10])).flatten := by
  simp only [optionsText, commonLines, List.map_cons, List.map_nil, List.flatten_cons, List.flatten_nil, List.append_assoc, List.append_nil]

theorem adapt_lines (a : Args) : adaptiveOptionsText a = ((commonLines a ++ adaptLines a).map (· ++ [10])).flatten := by
  rw [List.map_append, List.flatten_append, ← common_lines]
  unfold adaptiveOptionsText adaptLines
  generalize msText 10 = x
  simp only [List.map_cons, List.map_nil, List.flatten_cons, List.flatten_nil, List.append_assoc, List.append_nil]

/-! Nothing in them is a line break. -/

private theorem free_text {s : String} (h : 10 ∉ text s) {v : Bytes} (hv : 10 ∉ v) : 10 ∉ text s ++ v := by
  simp only [List.mem_append, not_or]; exact ⟨h, hv⟩

theorem num_free (n : Num) : 10 ∉ numText n := by
  cases n with
  | num x =>
    unfold numText
    dsimp only
    split
    · simp only [List.cons_append, List.nil_append, List.mem_cons, not_or]
      exact ⟨by decide, numChar_not (general_numChar _) (by decide)⟩
    · exact numChar_not (general_numChar _) (by decide)
  | inf => decide +kernel
  | negInf => decide +kernel
  | nan => decide +kernel

theorem int_free (n : Int) : 10 ∉ intText n := numChar_not (intText_numChar _) (by decide)

theorem ms_free (n : Int) : 10 ∉ msText n := by
  unfold msText
  simp only [List.mem_append, not_or]
  refine ⟨int_free n, ?_⟩
  split <;> decide +kernel

theorem yes_free (b : Bool) : 10 ∉ yesNo b := by cases b <;> decide +kernel

theorem retries_free (n : Int) : 10 ∉ (if n = -1 then text "infinite" else intText n) := by
  split
  · decide +kernel
  · exact int_free n

theorem reset_free (b : Bool) : 10 ∉ text (if b then "initial value" else "ssthresh") ++ text " upon loss event" := by
  cases b <;> decide +kernel

theorem rtt_free (a : Args) : ∀ l ∈ rttLines a, 10 ∉ l := by
  simp only [rttLines, List.forall_mem_cons, List.not_mem_nil, false_imp_iff, implies_true, and_true]
  exact ⟨by decide +kernel, free_text (by decide +kernel) (num_free _), free_text (by decide +kernel) (num_free _),
    free_text (by decide +kernel) (int_free _), free_text (by decide +kernel) (ms_free _), free_text (by decide +kernel) (ms_free _),
    free_text (by decide +kernel) (ms_free _), free_text (by decide +kernel) (int_free _)⟩

theorem common_free (a : Args) : ∀ l ∈ commonLines a, 10 ∉ l := by
  simp only [commonLines, List.forall_mem_cons, List.not_mem_nil, false_imp_iff, implies_true, and_true]
  exact ⟨by decide +kernel, free_text (by decide +kernel) (yes_free _), free_text (by decide +kernel) (ms_free _),
    free_text (by decide +kernel) (retries_free _)⟩

theorem adapt_free (a : Args) : ∀ l ∈ adaptLines a, 10 ∉ l := by
  simp only [adaptLines, List.forall_mem_cons, List.not_mem_nil, false_imp_iff, implies_true, and_true]
  exact ⟨free_text (by decide +kernel) (num_free _), free_text (by decide +kernel) (num_free _), free_text (by decide +kernel) (num_free _),
    free_text (by decide +kernel) (num_free _), free_text (by decide +kernel) (ms_free _), free_text (by decide +kernel) (yes_free _),
    free_text (by decide +kernel) (yes_free _), free_text (by decide +kernel) (reset_free _)⟩

theorem cubic_free (a : Args) : ∀ l ∈ cubicLines a, 10 ∉ l := by
  simp only [cubicLines, List.forall_mem_cons, List.not_mem_nil, false_imp_iff, implies_true, and_true]
  exact ⟨free_text (by decide +kernel) (num_free _), free_text (by decide +kernel) (yes_free _)⟩

/-! ## Reading them -/

def rttOf (a : Args) : Rtt := ⟨numShown a.rtoAlpha, numShown a.rtoBeta, a.rtoK, 1000, a.minRto, a.maxRto, 2⟩

def commonOf (a : Args) : Common := ⟨a.fresh, a.lifetime, if a.retries = -1 then none else some a.retries⟩

def adaptOf (a : Args) : Adapt :=
  ⟨numShown a.initCwnd, numShown a.initSsthresh, numShown a.aiStep, numShown a.mdCoef, 10, !a.ignoreMarks, !a.disableCwa, a.resetCwnd⟩

theorem rtt_read (a : Args) (ls : List Bytes) : readRtt (rttLines a ++ ls) = some (rttOf a, ls) := by
  simp only [rttLines, List.cons_append, List.nil_append, readRtt, line_heading, Option.bind_some, line_text (readNum_text _),
    line_text (readInt_text _), line_text (readMs_text _), Option.map_some, rttOf]

theorem common_read (a : Args) (ls : List Bytes) : readCommon (commonLines a ++ ls) = some (commonOf a, ls) := by
  simp only [commonLines, List.cons_append, List.nil_append, readCommon, line_heading, Option.bind_some, line_text (readYesNo_text _),
    line_text (readMs_text _), line_text (readRetries_text _), Option.map_some, commonOf]

theorem adapt_read (a : Args) (ls : List Bytes) : readAdapt (adaptLines a ++ ls) = some (adaptOf a, ls) := by
  simp only [adaptLines, List.cons_append, List.nil_append, readAdapt, Option.bind_some, line_text (readNum_text _),
    line_text (readMs_text _), line_text (readYesNo_text _), line_text (readReset_text _), Option.map_some, adaptOf]

theorem read_lines {ls : List Bytes} (h : ∀ l ∈ ls, 10 ∉ l) :
    read (ls.map (· ++ [10])).flatten = (readAdaptive ls).orElse fun _ => readFixed ls := by
  unfold read
  rw [Report.lines_flatten h]
  simp

theorem fixed_read {a : Args} (hv : a.verbose = true) : read (listing a .fixed) = some (.fixed (commonOf a) a.pipelineSize) := by
  have e : listing a .fixed = ((commonLines a ++ [text "\tPipeline size = " ++ decimal a.pipelineSize]).map (· ++ [10])).flatten := by
    unfold listing
    rw [if_pos hv, List.map_append, List.flatten_append, ← common_lines]
    simp only [List.map_cons, List.map_nil, List.flatten_cons, List.flatten_nil, List.append_assoc, List.append_nil]
  rw [e, read_lines]
  · have hn : readAdaptive (commonLines a ++ [text "\tPipeline size = " ++ decimal a.pipelineSize]) = none := by
      have hf : field "RTT estimator parameters:" (text "Pipeline parameters:") = none := by decide +kernel
      simp only [readAdaptive, readRtt, commonLines, List.cons_append, line, hf, Option.bind_none, Option.map_none]
    rw [hn]
    simp only [Option.orElse_none, readFixed, common_read, Option.bind_some, line_text (readNat_decimal _), if_true]
  · intro l hl
    rcases List.mem_append.mp hl with hl | hl
    · exact common_free a l hl
    · obtain rfl := List.mem_singleton.mp hl
      exact free_text (by decide +kernel) (numChar_not (decimal_numChar _) (by decide))

theorem aimd_read {a : Args} (hv : a.verbose = true) : read (listing a .aimd) = some (.aimd (rttOf a) (commonOf a) (adaptOf a)) := by
  have e : listing a .aimd = ((rttLines a ++ (commonLines a ++ (adaptLines a ++ []))).map (· ++ [10])).flatten := by
    unfold listing
    rw [if_pos hv, List.append_nil, List.map_append, List.flatten_append, ← rtt_lines, ← adapt_lines]
  rw [e, read_lines]
  · simp only [readAdaptive, rtt_read, common_read, adapt_read, Option.bind_some, if_true, Option.orElse_some]
  · intro l hl
    simp only [List.mem_append, List.append_nil] at hl
    rcases hl with hl | hl | hl
    · exact rtt_free a l hl
    · exact common_free a l hl
    · exact adapt_free a l hl

theorem cubic_read {a : Args} (hv : a.verbose = true) :
    read (listing a .cubic) = some (.cubic (rttOf a) (commonOf a) (adaptOf a) (numShown a.cubicBeta) a.fastConv) := by
  have e : listing a .cubic = ((rttLines a ++ (commonLines a ++ (adaptLines a ++ cubicLines a))).map (· ++ [10])).flatten := by
    unfold listing
    rw [if_pos hv, List.map_append, List.flatten_append, ← rtt_lines, ← List.append_assoc (commonLines a), List.map_append,
      List.flatten_append, ← adapt_lines]
    simp only [cubicLines, List.map_cons, List.map_nil, List.flatten_cons, List.flatten_nil, List.append_assoc, List.append_nil]
  rw [e, read_lines]
  · simp only [readAdaptive, rtt_read, common_read, adapt_read, Option.bind_some, cubicLines, reduceCtorEq, if_false,
      line_text (readNum_text _), line_text (readYesNo_text _), if_true, Option.orElse_some]
  · intro l hl
    simp only [List.mem_append] at hl
    rcases hl with hl | hl | hl | hl
    · exact rtt_free a l hl
    · exact common_free a l hl
    · exact adapt_free a l hl
    · exact cubic_free a l hl

end Verif.Parameters
