import Verif.Spec.PingOutput
import Verif.Proofs.Format
import Verif.Proofs.PingTime

/-! # Lemmas about the output of ndnping -/

namespace Verif.PingOutput

open Ping

theorem split_free {c : UInt8} {a : Bytes} (h : c ∉ a) : split c a = [a] := by
  induction a with
  | nil => rfl
  | cons b a ih =>
    simp only [List.mem_cons, not_or] at h
    simp only [split]
    rw [if_neg (Ne.symm h.1), ih h.2]

theorem split_cons {c : UInt8} {a : Bytes} (h : c ∉ a) (l : Bytes) : split c (a ++ c :: l) = a :: split c l := by
  induction a with
  | nil => simp [split]
  | cons b a ih =>
    simp only [List.mem_cons, not_or] at h
    simp only [List.cons_append, split]
    rw [if_neg (Ne.symm h.1), ih h.2]

/-- Words with spaces between them. -/
def join : List Bytes → Bytes
  | [] => []
  | [w] => w
  | w :: ws => w ++ 32 :: join ws

theorem words_join {ws : List Bytes} (hn : ws ≠ []) (h : ∀ w ∈ ws, 32 ∉ w) : words (join ws) = ws := by
  unfold words
  induction ws with
  | nil => exact absurd rfl hn
  | cons w ws ih =>
    cases ws with
    | nil => exact split_free (h w (by simp))
    | cons w' ws =>
      show split 32 (w ++ 32 :: join (w' :: ws)) = _
      rw [split_cons (h w (by simp)), ih (by simp) fun x hx => h x (List.mem_cons_of_mem _ hx)]

theorem join_free {ws : List Bytes} (h : ∀ w ∈ ws, 10 ∉ w) : 10 ∉ join ws := by
  induction ws with
  | nil => simp [join]
  | cons w ws ih =>
    cases ws with
    | nil => exact h w (by simp)
    | cons w' ws =>
      show 10 ∉ w ++ 32 :: join (w' :: ws)
      simp only [List.mem_append, List.mem_cons, not_or]
      exact ⟨h w (by simp), by decide, ih fun x hx => h x (List.mem_cons_of_mem _ hx)⟩

/-- A word. -/
def Word (w : Bytes) : Prop := 32 ∉ w ∧ 10 ∉ w

/-- The output consists of lines of words. -/
structure Text (wss : List (List Bytes)) (out : Bytes) : Prop where
  ne : ∀ ws ∈ wss, ws ≠ []
  word : ∀ ws ∈ wss, ∀ w ∈ ws, Word w
  eq : out = (wss.map fun ws => join ws ++ [10]).flatten

theorem Text.append {a b : List (List Bytes)} {x y : Bytes} (h : Text a x) (k : Text b y) : Text (a ++ b) (x ++ y) where
  ne := by
    intro ws hw
    rcases List.mem_append.1 hw with hw | hw
    · exact h.ne ws hw
    · exact k.ne ws hw
  word := by
    intro ws hw
    rcases List.mem_append.1 hw with hw | hw
    · exact h.word ws hw
    · exact k.word ws hw
  eq := by rw [h.eq, k.eq]; simp

theorem Text.nil : Text [] [] := ⟨by simp, by simp, by simp⟩

theorem Text.one {ws : List Bytes} (hn : ws ≠ []) (hw : ∀ w ∈ ws, Word w) {x : Bytes} (hx : x = join ws ++ [10]) :
    Text [ws] x :=
  ⟨by simpa using hn, by simpa using hw, by simpa using hx⟩

theorem Text.lines {wss : List (List Bytes)} {out : Bytes} (h : Text wss out) : lines out = wss.map join ++ [[]] := by
  obtain ⟨-, hw, rfl⟩ := h
  unfold PingOutput.lines
  induction wss with
  | nil => simp [split]
  | cons ws wss ih =>
    simp only [List.map_cons, List.flatten_cons, List.append_assoc, List.nil_append, List.cons_append]
    rw [split_cons (join_free fun w hw' => (hw ws (by simp) w hw').2), ih fun x hx => hw x (List.mem_cons_of_mem _ hx)]

/-- One line. -/
def readItem (stamps : Bool) (ws : List Bytes) : Option Item := readWords (if stamps then ws.drop 2 else ws)

theorem Text.items {wss : List (List Bytes)} {out : Bytes} (h : Text wss out) (stamps : Bool) :
    items stamps out = wss.filterMap (readItem stamps) := by
  unfold PingOutput.items
  rw [h.lines, List.filterMap_append, List.filterMap_map]
  have : [([] : Bytes)].filterMap (readLine stamps) = [] := by cases stamps <;> rfl
  rw [this, List.append_nil]
  refine List.filterMap_congr fun ws hw => ?_
  simp only [Function.comp, readLine, readItem, words_join (h.ne ws hw) fun w hw' => (h.word ws hw w hw').1]

theorem Text.totals {wss : List (List Bytes)} {out : Bytes} (h : Text wss out) : totals out = wss.filterMap readTotals := by
  unfold PingOutput.totals
  rw [h.lines, List.filterMap_append, List.filterMap_map]
  have : [([] : Bytes)].filterMap (fun l => readTotals (words l)) = [] := rfl
  rw [this, List.append_nil]
  refine List.filterMap_congr fun ws hw => ?_
  simp only [Function.comp, words_join (h.ne ws hw) fun w hw' => (h.word ws hw w hw').1]

theorem Text.rtts {wss : List (List Bytes)} {out : Bytes} (h : Text wss out) : rttLines out = wss.filterMap readRtt := by
  unfold PingOutput.rttLines
  rw [h.lines, List.filterMap_append, List.filterMap_map]
  have : [([] : Bytes)].filterMap (fun l => readRtt (words l)) = [] := rfl
  rw [this, List.append_nil]
  refine List.filterMap_congr fun ws hw => ?_
  simp only [Function.comp, words_join (h.ne ws hw) fun w hw' => (h.word ws hw w hw').1]

/-! ## The characters of numbers -/

/-- The characters of a printed number. -/
def numChar (b : UInt8) : Bool := isDigit b || b == 46 || b == 101 || b == 43 || b == 45

theorem digit_numChar {b : UInt8} (h : isDigit b = true) : numChar b = true := by simp [numChar, h]

theorem decimal_numChar (n : Nat) : ∀ b ∈ decimal n, numChar b = true := by
  intro b hb
  have := decimal_isDigit n
  rw [List.all_eq_true] at this
  exact digit_numChar (this b hb)

theorem strip_sub {b : Bytes} {x : UInt8} (h : x ∈ strip b) : x ∈ b := by
  unfold strip at h
  rw [List.mem_reverse] at h
  exact List.mem_reverse.1 (List.dropWhile_sublist _ |>.subset h)

theorem point_numChar {a b : Bytes} (ha : ∀ x ∈ a, numChar x = true) (hb : ∀ x ∈ b, numChar x = true) :
    ∀ x ∈ point a b, numChar x = true := by
  intro x hx
  unfold point at hx
  split at hx
  · exact ha x hx
  · simp only [List.append_assoc, List.singleton_append, List.mem_append, List.mem_cons] at hx
    rcases hx with hx | rfl | hx
    · exact ha x hx
    · decide
    · exact hb x (strip_sub hx)

theorem general_numChar (x : ℚ) : ∀ b ∈ general x, numChar b = true := by
  unfold general
  split
  · simp [numChar, isDigit]
  · generalize sixDigits x = p
    obtain ⟨m, e⟩ := p
    simp only
    have hd := decimal_numChar m
    have ht : ∀ k, (∀ b ∈ (decimal m).take k, numChar b = true) ∧ ∀ b ∈ (decimal m).drop k, numChar b = true :=
      fun k => ⟨fun b hb => hd b (List.mem_of_mem_take hb), fun b hb => hd b (List.mem_of_mem_drop hb)⟩
    split
    · intro b hb
      rcases List.mem_append.1 hb with hb | hb
      · exact point_numChar (ht 1).1 (ht 1).2 b hb
      · unfold exponent at hb
        simp only [List.mem_append, List.mem_cons, List.not_mem_nil, or_false] at hb
        rcases hb with ((rfl | rfl) | hb) | hb
        · decide
        · split <;> decide
        · split at hb
          · rw [List.mem_singleton] at hb; subst hb; decide
          · cases hb
        · exact decimal_numChar _ b hb
    · split
      · exact point_numChar (ht _).1 (ht _).2
      · refine point_numChar (by decide) fun b hb => ?_
        rcases List.mem_append.1 hb with hb | hb
        · rw [List.eq_of_mem_replicate hb]; decide
        · exact hd b hb

theorem intText_numChar (n : Int) : ∀ b ∈ intText n, numChar b = true := by
  intro b hb
  unfold intText at hb
  rcases List.mem_append.1 hb with hb | hb
  · split at hb
    · rw [List.mem_singleton] at hb; subst hb; decide
    · cases hb
  · exact decimal_numChar _ b hb

theorem Word.num {a : Bytes} (h : ∀ b ∈ a, numChar b = true) : Word a :=
  ⟨fun hh => absurd (h _ hh) (by decide), fun hh => absurd (h _ hh) (by decide)⟩

theorem Word.append {a b : Bytes} (ha : Word a) (hb : Word b) : Word (a ++ b) := by
  unfold Word at *
  simp only [List.mem_append, not_or]
  exact ⟨⟨ha.1, hb.1⟩, ha.2, hb.2⟩

theorem Word.general (x : ℚ) : Word (general x) := .num (general_numChar x)
theorem Word.int (x : Int) : Word (intText x) := .num (intText_numChar x)
theorem Word.nat (x : Nat) : Word (decimal x) := .num (decimal_numChar x)

theorem Word.reason (n : NackReason) : Word (reasonText n) := by unfold Word; cases n <;> decide +kernel

/-! ## The lines -/

/-- The two words of a timestamp. -/
def stampWords (v : Env) (i : Nat) : List Bytes := if v.stamps then [v.time i, text "-"] else []

/-- The words of a line about a ping. -/
def traceWords (r : ℚ → ℚ) (v : Env) (i : Nat) : Obs → Option (List Bytes)
  | .data q t => some (stampWords v i ++ [text "content", text "from", v.uri ++ text ":", text "seq=" ++ decimal q,
      text "time=" ++ general (r ((t : ℚ) / 10 ^ 6)), text "ms"])
  | .nack q t n => some (stampWords v i ++ [text "nack", text "from", v.uri ++ text ":", text "seq=" ++ decimal q,
      text "time=" ++ general (r ((t : ℚ) / 10 ^ 6)), text "ms", text "reason=" ++ reasonText n])
  | .timeout q => some (stampWords v i ++ [text "timeout", text "from", v.uri ++ text ":", text "seq=" ++ decimal q])
  | _ => none

theorem stamp_words {v : Env} (hv : v.Plain) (i : Nat) : ∀ w ∈ stampWords v i, Word w := by
  unfold stampWords
  split
  · intro w hw
    simp only [List.mem_cons, List.not_mem_nil, or_false] at hw
    rcases hw with rfl | rfl
    · exact hv.time i
    · unfold Word; decide +kernel
  · simp

theorem stamp_join (v : Env) (i : Nat) {ws : List Bytes} (hn : ws ≠ []) : join (stampWords v i ++ ws) = stamp v i ++ join ws := by
  unfold stampWords stamp
  cases ws with
  | nil => exact absurd rfl hn
  | cons w ws => split <;> simp [join, text]

theorem trace_text (r : ℚ → ℚ) {v : Env} (hv : v.Plain) (i : Nat) (x : Obs) :
    Text (traceWords r v i x).toList (trace r v i x) := by
  have hu : Word (v.uri ++ text ":") := .append hv.uri (by unfold Word; decide +kernel)
  have hs := stamp_words hv i
  cases x with
  | interest _ _ => exact Text.nil
  | finish => exact Text.nil
  | data q t =>
    refine Text.one (by simp) ?_ ?_
    · intro w hw
      rcases List.mem_append.1 hw with hw | hw
      · exact hs w hw
      · simp only [List.mem_cons, List.not_mem_nil, or_false] at hw
        rcases hw with rfl | rfl | rfl | rfl | rfl | rfl
        · unfold Word; decide +kernel
        · unfold Word; decide +kernel
        · exact hu
        · exact .append (by unfold Word; decide +kernel) (.nat _)
        · exact .append (by unfold Word; decide +kernel) (.general _)
        · unfold Word; decide +kernel
    · rw [stamp_join _ _ (by simp)]
      simp [trace, join, text]
  | nack q t n =>
    refine Text.one (by simp) ?_ ?_
    · intro w hw
      rcases List.mem_append.1 hw with hw | hw
      · exact hs w hw
      · simp only [List.mem_cons, List.not_mem_nil, or_false] at hw
        rcases hw with rfl | rfl | rfl | rfl | rfl | rfl | rfl
        · unfold Word; decide +kernel
        · unfold Word; decide +kernel
        · exact hu
        · exact .append (by unfold Word; decide +kernel) (.nat _)
        · exact .append (by unfold Word; decide +kernel) (.general _)
        · unfold Word; decide +kernel
        · exact .append (by unfold Word; decide +kernel) (.reason _)
    · rw [stamp_join _ _ (by simp)]
      simp [trace, join, text]
  | timeout q =>
    refine Text.one (by simp) ?_ ?_
    · intro w hw
      rcases List.mem_append.1 hw with hw | hw
      · exact hs w hw
      · simp only [List.mem_cons, List.not_mem_nil, or_false] at hw
        rcases hw with rfl | rfl | rfl | rfl
        · unfold Word; decide +kernel
        · unfold Word; decide +kernel
        · exact hu
        · exact .append (by unfold Word; decide +kernel) (.nat _)
    · rw [stamp_join _ _ (by simp)]
      simp [trace, join, text]

theorem field_append (key : String) (w : Bytes) : field key (text key ++ w) = some w := by
  simp [field]

theorem readSeq_word (q : Nat) : readSeq (text "seq=" ++ decimal q) = some q := by
  unfold readSeq
  rw [field_append, Option.bind_some, readNat_decimal]

theorem readTime_word {x : ℚ} (hx : 0 ≤ x) : readTime (text "time=" ++ general x) = some (shown x) := by
  unfold readTime
  rw [field_append, Option.bind_some, general_read hx]

/-- The item that is read from the line about a ping. -/
def itemOf (r : ℚ → ℚ) : Obs → Option Item
  | .data q t => some (.content q (shown (r ((t : ℚ) / 10 ^ 6))))
  | .nack q t n => some (.nack q (shown (r ((t : ℚ) / 10 ^ 6))) (reasonText n))
  | .timeout q => some (.timeout q)
  | _ => none

theorem readItem_stamp (v : Env) (i : Nat) (ws : List Bytes) : readItem v.stamps (stampWords v i ++ ws) = readWords ws := by
  unfold readItem stampWords
  split <;> simp [*]

theorem trace_items {r : ℚ → ℚ} (hr : ∀ x, 0 ≤ x → 0 ≤ r x) (v : Env) (i : Nat) (x : Obs) :
    (traceWords r v i x).toList.filterMap (readItem v.stamps) = (itemOf r x).toList := by
  have ht : ∀ t : Nat, 0 ≤ r ((t : ℚ) / 10 ^ 6) := fun t => hr _ (by positivity)
  cases x with
  | interest _ _ => rfl
  | finish => rfl
  | data q t =>
    simp only [traceWords, Option.toList_some, List.filterMap_cons, List.filterMap_nil, readItem_stamp, readWords, and_self, if_true,
      readSeq_word, readTime_word (ht t), Option.bind_some, Option.map_some, itemOf]
  | nack q t n =>
    simp only [traceWords, Option.toList_some, List.filterMap_cons, List.filterMap_nil, readItem_stamp, readWords, and_self, if_true,
      readSeq_word, readTime_word (ht t), Option.bind_some, Option.map_some, itemOf, field_append]
  | timeout q =>
    simp only [traceWords, Option.toList_some, List.filterMap_cons, List.filterMap_nil, readItem_stamp, readWords, and_self, if_true,
      readSeq_word, Option.map_some, itemOf]

theorem trace_totals {r : ℚ → ℚ} (v : Env) (i : Nat) (x : Obs) :
    (traceWords r v i x).toList.filterMap readTotals = [] := by
  have h1 : text "from" ≠ text "packets" := by decide +kernel
  have h2 : text "-" ≠ text "packets" := by decide +kernel
  cases x with
  | interest _ _ => rfl
  | finish => rfl
  | data q t => cases h : v.stamps <;> simp [traceWords, stampWords, h, readTotals, h1, h2]
  | nack q t n => cases h : v.stamps <;> simp [traceWords, stampWords, h, readTotals, h1, h2]
  | timeout q => cases h : v.stamps <;> simp [traceWords, stampWords, h, readTotals, h2]

theorem trace_rtt {r : ℚ → ℚ} (v : Env) (i : Nat) (x : Obs) :
    (traceWords r v i x).toList.filterMap readRtt = [] := by
  cases x with
  | interest _ _ => rfl
  | finish => rfl
  | data q t => cases h : v.stamps <;> simp [traceWords, stampWords, h, readRtt]
  | nack q t n => cases h : v.stamps <;> simp [traceWords, stampWords, h, readRtt]
  | timeout q => cases h : v.stamps <;> simp [traceWords, stampWords, h, readRtt]

theorem traces_text (r : ℚ → ℚ) (hr : ∀ x, 0 ≤ x → 0 ≤ r x) {v : Env} (hv : v.Plain) (l : List Obs) (k : Nat) :
    ∃ wss, Text wss (traces r v k l) ∧ wss.filterMap (readItem v.stamps) = l.filterMap (itemOf r) ∧
      wss.filterMap readTotals = [] ∧ wss.filterMap readRtt = [] := by
  induction l generalizing k with
  | nil => exact ⟨[], Text.nil, rfl, rfl, rfl⟩
  | cons x l ih =>
    obtain ⟨wss, h1, h2, h3, h4⟩ := ih (k + 1)
    refine ⟨(traceWords r v k x).toList ++ wss, ?_, ?_, ?_, ?_⟩
    · have := (trace_text r hv k x).append h1
      simpa [traces] using this
    · rw [List.filterMap_append, trace_items hr, h2]
      cases h : itemOf r x <;> simp [h]
    · rw [List.filterMap_append, trace_totals, h3]; rfl
    · rw [List.filterMap_append, trace_rtt, h4]; rfl

/-! ## The other lines -/

theorem start_text {v : Env} (hv : v.Plain) : ∃ wss, Text wss (text "PING " ++ v.uri ++ text "\n") ∧
    wss.filterMap (readItem v.stamps) = [] ∧ wss.filterMap readTotals = [] ∧ wss.filterMap readRtt = [] := by
  refine ⟨[[text "PING", v.uri]], Text.one (by simp) ?_ (by simp [join, text]), ?_, rfl, rfl⟩
  · intro w hw
    simp only [List.mem_cons, List.not_mem_nil, or_false] at hw
    rcases hw with rfl | rfl
    · unfold Word; decide +kernel
    · exact hv.uri
  · cases v.stamps <;> rfl

/-- The words with the four times. -/
def timesWord (r : ℚ → ℚ) (v : Env) (c : Coll) : Bytes :=
  general c.minRtt ++ text "/" ++ general (r (c.sumRtt / c.nReceived)) ++ text "/" ++ general c.maxRtt ++ text "/" ++
    (if c.variance r < 0 then v.nan else general (v.sqrt (c.variance r)))

theorem timesWord_word (r : ℚ → ℚ) {v : Env} (hv : v.Plain) (c : Coll) : Word (timesWord r v c) := by
  have hs : Word (text "/") := by unfold Word; decide +kernel
  refine .append (.append (.append (.append (.append (.append (.general _) hs) (.general _)) hs) (.general _)) hs) ?_
  split
  · exact hv.nan
  · exact .general _

/-- The percentages. -/
def lostWord (r : ℚ → ℚ) (c : Coll) : Bytes := general (r (lossRate r c * 100)) ++ text "%"
def nackedWord (r : ℚ → ℚ) (c : Coll) : Bytes := general (r (nackedRate r c * 100)) ++ text "%"

theorem not_of_mem {a b : Bytes} {x : UInt8} (hx : x ∈ b) (h : x ∉ a) : a ≠ b := by
  rintro rfl; exact h hx

theorem numChar_not {a : Bytes} (h : ∀ b ∈ a, numChar b = true) {x : UInt8} (hx : numChar x = false) : x ∉ a := by
  intro hh; rw [h x hh] at hx; cases hx

theorem summary_text (r : ℚ → ℚ) {v : Env} (hv : v.Plain) (c : Coll) : ∃ wss, Text wss (printSummary r v c) ∧
    wss.filterMap (readItem v.stamps) = [] ∧ wss.filterMap readTotals = [] ∧ wss.filterMap readRtt = [] := by
  have hp : Word (text "%") := by unfold Word; decide +kernel
  have hf : Word (intText c.nReceived ++ text "/" ++ intText c.nSent) :=
    .append (.append (.int _) (by unfold Word; decide +kernel)) (.int _)
  have hl : Word (lostWord r c) := .append (.general _) hp
  have hk : Word (nackedWord r c) := .append (.general _) hp
  have ht := timesWord_word r hv c
  have n1 : text "packets," ≠ text "packets" := by decide +kernel
  have n2 : intText c.nReceived ++ text "/" ++ intText c.nSent ≠ text "content" := by
    refine not_of_mem (x := 99) (by decide +kernel) ?_
    simp only [List.mem_append, not_or]
    exact ⟨⟨numChar_not (intText_numChar _) (by decide), by decide +kernel⟩, numChar_not (intText_numChar _) (by decide)⟩
  have n3 : lostWord r c ≠ text "timeout" := by
    refine not_of_mem (x := 116) (by decide +kernel) ?_
    unfold lostWord
    simp only [List.mem_append, not_or]
    exact ⟨numChar_not (general_numChar _) (by decide), by decide +kernel⟩
  have n4 : text "min/avg/max/mdev" ≠ text "timeout" := by decide +kernel
  have w1 : Word (text "packets") := by unfold Word; decide +kernel
  have w2 : Word (text "packets,") := by unfold Word; decide +kernel
  have w3 : Word (text "lost,") := by unfold Word; decide +kernel
  have w4 : Word (text "nacked") := by unfold Word; decide +kernel
  have w5 : Word (text "nacked,") := by unfold Word; decide +kernel
  have w6 : Word (text "min/avg/max/mdev") := by unfold Word; decide +kernel
  have w7 : Word (text "=") := by unfold Word; decide +kernel
  have w8 : Word (text "ms") := by unfold Word; decide +kernel
  unfold printSummary rates
  by_cases h1 : c.nSent > 0 <;> by_cases h2 : c.nReceived > 0
  · refine ⟨[[intText c.nReceived ++ text "/" ++ intText c.nSent, text "packets,", lostWord r c, text "lost,", nackedWord r c,
      text "nacked,", text "min/avg/max/mdev", text "=", timesWord r v c, text "ms"]], Text.one (by simp) ?_ ?_, ?_, ?_, ?_⟩
    · simp only [List.forall_mem_cons, List.not_mem_nil, false_imp_iff, implies_true, and_true]
      exact ⟨hf, w2, hl, w3, hk, w5, w6, w7, ht, w8⟩
    · rw [if_pos h1, if_pos h2]
      simp [times, timesWord, lostWord, nackedWord, join, text]
    · cases v.stamps <;> simp [readItem, readWords]
    · simp [readTotals, n1]
    · simp [readRtt]
  · refine ⟨[[intText c.nReceived ++ text "/" ++ intText c.nSent, text "packets,", lostWord r c, text "lost,", nackedWord r c,
      text "nacked"]], Text.one (by simp) ?_ ?_, ?_, ?_, ?_⟩
    · simp only [List.forall_mem_cons, List.not_mem_nil, false_imp_iff, implies_true, and_true]
      exact ⟨hf, w2, hl, w3, hk, w4⟩
    · rw [if_pos h1, if_neg h2]
      simp [lostWord, nackedWord, join, text]
    · cases v.stamps
      · simp only [readItem, Bool.false_eq_true, if_false, List.filterMap_cons, List.filterMap_nil, readWords, n2, false_and]
      · simp only [readItem, if_true, List.drop_succ_cons, List.drop_zero, List.filterMap_cons, List.filterMap_nil, readWords,
          n3, false_and, if_false]
    · simp [readTotals]
    · simp [readRtt]
  · refine ⟨[[intText c.nReceived ++ text "/" ++ intText c.nSent, text "packets,", text "min/avg/max/mdev", text "=",
      timesWord r v c, text "ms"]], Text.one (by simp) ?_ ?_, ?_, ?_, ?_⟩
    · simp only [List.forall_mem_cons, List.not_mem_nil, false_imp_iff, implies_true, and_true]
      exact ⟨hf, w2, w6, w7, ht, w8⟩
    · rw [if_neg h1, if_pos h2]
      simp [times, timesWord, join, text]
    · cases v.stamps
      · simp only [readItem, Bool.false_eq_true, if_false, List.filterMap_cons, List.filterMap_nil, readWords, n2, false_and]
      · simp only [readItem, if_true, List.drop_succ_cons, List.drop_zero, List.filterMap_cons, List.filterMap_nil, readWords,
          n4, false_and, if_false]
    · simp [readTotals]
    · simp [readRtt]
  · refine ⟨[[intText c.nReceived ++ text "/" ++ intText c.nSent, text "packets"]], Text.one (by simp) ?_ ?_, ?_, ?_, ?_⟩
    · simp only [List.forall_mem_cons, List.not_mem_nil, false_imp_iff, implies_true, and_true]
      exact ⟨hf, w1⟩
    · rw [if_neg h1, if_neg h2]
      simp [join, text]
    · cases v.stamps <;> simp [readItem, readWords]
    · simp [readTotals]
    · simp [readRtt]

theorem fieldEnd_append (key : String) (w : Bytes) : fieldEnd key (w ++ text key) = some w := by
  simp [fieldEnd]

theorem readPercent_word {x : ℚ} (hx : 0 ≤ x) : readPercent (general x ++ text "%") = some (shown x) := by
  unfold readPercent
  rw [fieldEnd_append, Option.bind_some, general_read hx]

theorem intText_nat (n : Nat) : intText n = decimal n := by
  unfold intText
  rw [if_neg (by omega)]
  simp

theorem full_text {r : ℚ → ℚ} (hr : ∀ x, 0 ≤ x → 0 ≤ r x) {v : Env} (hv : v.Plain) {c : Coll} {n m k : Nat}
    (hn : c.nSent = n) (hm : c.nReceived = m) (hk : c.nNacked = k) (hle : m + k ≤ n) :
    ∃ wss, Text wss (printFull r v c) ∧ wss.filterMap (readItem v.stamps) = [] ∧
      wss.filterMap readTotals = [⟨n, m, k, if n = 0 then none else some (shown (r (lossRate r c * 100))),
        if n = 0 then none else some (shown (r (nackedRate r c * 100)))⟩] ∧
      wss.filterMap readRtt = if m = 0 then [] else [(split 47 (timesWord r v c)).map readNumber] := by
  have hp : Word (text "%") := by unfold Word; decide +kernel
  have hl : Word (lostWord r c) := .append (.general _) hp
  have hkk : Word (nackedWord r c) := .append (.general _) hp
  have ht := timesWord_word r hv c
  have w1 : Word (text "packets") := by unfold Word; decide +kernel
  have w2 : Word (text "transmitted,") := by unfold Word; decide +kernel
  have w3 : Word (text "lost,") := by unfold Word; decide +kernel
  have w4 : Word (text "received,") := by unfold Word; decide +kernel
  have w5 : Word (text "nacked,") := by unfold Word; decide +kernel
  have w6 : Word (text "min/avg/max/mdev") := by unfold Word; decide +kernel
  have w7 : Word (text "=") := by unfold Word; decide +kernel
  have w8 : Word (text "ms") := by unfold Word; decide +kernel
  have w9 : Word (text "rtt") := by unfold Word; decide +kernel
  have w10 : Word (text "---") := by unfold Word; decide +kernel
  have w11 : Word (text "ping") := by unfold Word; decide +kernel
  have w12 : Word (text "statistics") := by unfold Word; decide +kernel
  have w13 : Word (text "time") := by unfold Word; decide +kernel
  have hhead : Text [[[]], [text "---", v.uri, text "ping", text "statistics", text "---"]]
      (text "\n--- " ++ v.uri ++ text " ping statistics ---\n") := by
    refine ⟨by simp, ?_, by simp [join, text]⟩
    simp only [List.forall_mem_cons, List.not_mem_nil, false_imp_iff, implies_true, and_true]
    exact ⟨⟨by simp, by simp⟩, w10, hv.uri, w11, w12, w10⟩
  have htail : Text (if c.nReceived > 0 then [[text "rtt", text "min/avg/max/mdev", text "=", timesWord r v c, text "ms"]] else [])
      (if c.nReceived > 0 then text "rtt min/avg/max/mdev = " ++ times r v c ++ text "\n" else []) := by
    split
    · refine Text.one (by simp) ?_ (by simp [times, timesWord, join, text])
      simp only [List.forall_mem_cons, List.not_mem_nil, false_imp_iff, implies_true, and_true]
      exact ⟨w9, w6, w7, ht, w8⟩
    · exact Text.nil
  have htail1 : (if c.nReceived > 0 then [[text "rtt", text "min/avg/max/mdev", text "=", timesWord r v c, text "ms"]] else
      []).filterMap (readItem v.stamps) = [] := by
    split
    · cases v.stamps <;> simp [readItem, readWords]
    · rfl
  have htail2 : (if c.nReceived > 0 then [[text "rtt", text "min/avg/max/mdev", text "=", timesWord r v c, text "ms"]] else
      []).filterMap readTotals = [] := by
    split
    · simp [readTotals]
    · rfl
  have htail3 : (if c.nReceived > 0 then [[text "rtt", text "min/avg/max/mdev", text "=", timesWord r v c, text "ms"]] else
      []).filterMap readRtt = if m = 0 then [] else [(split 47 (timesWord r v c)).map readNumber] := by
    by_cases h : m = 0
    · rw [if_neg (by omega), if_pos h]; rfl
    · rw [if_pos (by omega), if_neg h]
      simp only [List.filterMap_cons, List.filterMap_nil, readRtt, and_self, if_true]
  have hlr : 0 ≤ r (lossRate r c * 100) := by
    refine hr _ (mul_nonneg (hr _ ?_) (by norm_num))
    rw [hn, hm, hk, show ((n : Int) - m - k) = ((n - m - k : Nat) : Int) by omega]
    positivity
  have hnr : 0 ≤ r (nackedRate r c * 100) := by
    refine hr _ (mul_nonneg (hr _ ?_) (by norm_num))
    rw [hn, hk]
    positivity
  have hfull : printFull r v c = (text "\n--- " ++ v.uri ++ text " ping statistics ---\n") ++
      ((decimal n ++ text " packets transmitted" ++ text ", " ++ decimal m ++ text " received" ++
        text ", " ++ decimal k ++ text " nacked" ++ rates r c ++ text ", time " ++ general c.sumRtt ++ text " ms\n") ++
      (if c.nReceived > 0 then text "rtt min/avg/max/mdev = " ++ times r v c ++ text "\n" else [])) := by
    unfold printFull
    rw [hn, hm, hk, intText_nat, intText_nat, intText_nat]
    split <;> simp [text]
  rw [hfull]
  generalize (if c.nReceived > 0 then [[text "rtt", text "min/avg/max/mdev", text "=", timesWord r v c, text "ms"]] else
      []) = tw at *
  generalize (if c.nReceived > 0 then text "rtt min/avg/max/mdev = " ++ times r v c ++ text "\n" else []) = tl at *
  have hhead1 : [[[]], [text "---", v.uri, text "ping", text "statistics", text "---"]].filterMap (readItem v.stamps) = [] := by
    cases v.stamps <;> simp [readItem, readWords]
  have hhead2 : [[[]], [text "---", v.uri, text "ping", text "statistics", text "---"]].filterMap readTotals = [] := by
    simp [readTotals]
  have hhead3 : [[[]], [text "---", v.uri, text "ping", text "statistics", text "---"]].filterMap readRtt = [] := by
    have : text "---" ≠ text "rtt" := by decide +kernel
    simp [readRtt, this]
  by_cases h0 : n = 0
  · refine ⟨_, hhead.append ((Text.one (ws := [decimal n, text "packets", text "transmitted,", decimal m, text "received,", decimal k,
      text "nacked,", text "time", general c.sumRtt, text "ms"]) (by simp) ?_ ?_).append htail), ?_, ?_, ?_⟩
    · simp only [List.forall_mem_cons, List.not_mem_nil, false_imp_iff, implies_true, and_true]
      exact ⟨.nat _, w1, w2, .nat _, w4, .nat _, w5, w13, .general _, w8⟩
    · unfold rates
      rw [if_neg (by omega)]
      simp [join, text]
    · rw [List.filterMap_append, List.filterMap_append, hhead1, htail1]
      cases v.stamps <;> simp [readItem, readWords]
    · rw [List.filterMap_append, List.filterMap_append, hhead2, htail2, if_pos h0, if_pos h0]
      simp only [List.filterMap_cons, List.filterMap_nil, readTotals, readNat_decimal, and_self, if_true,
        Option.bind_some, Option.map_some, List.nil_append, List.append_nil]
    · rw [List.filterMap_append, List.filterMap_append, hhead3, htail3]
      simp [readRtt]
  · refine ⟨_, hhead.append ((Text.one (ws := [decimal n, text "packets", text "transmitted,", decimal m, text "received,", decimal k,
      text "nacked,", lostWord r c, text "lost,", nackedWord r c, text "nacked,", text "time", general c.sumRtt, text "ms"])
      (by simp) ?_ ?_).append htail), ?_, ?_, ?_⟩
    · simp only [List.forall_mem_cons, List.not_mem_nil, false_imp_iff, implies_true, and_true]
      exact ⟨.nat _, w1, w2, .nat _, w4, .nat _, w5, hl, w3, hkk, w5, w13, .general _, w8⟩
    · unfold rates
      rw [if_pos (by omega)]
      simp [lostWord, nackedWord, join, text]
    · rw [List.filterMap_append, List.filterMap_append, hhead1, htail1]
      cases v.stamps <;> simp [readItem, readWords]
    · rw [List.filterMap_append, List.filterMap_append, hhead2, htail2, if_neg h0, if_neg h0]
      simp only [List.filterMap_cons, List.filterMap_nil, readTotals, readNat_decimal, and_self, if_true,
        Option.bind_some, Option.map_some, List.nil_append, List.append_nil, lostWord, nackedWord, readPercent_word hlr,
        readPercent_word hnr]
    · rw [List.filterMap_append, List.filterMap_append, hhead3, htail3]
      simp [readRtt]

/-! ## The program -/

theorem prog_run {r : ℚ → ℚ} {o : Opts} {v : Env} {es s} (h : (machine r o v).Run es s) : (progMachine r o).Run es s.prog := by
  induction h with
  | nil => exact .nil
  | @snoc es s e hr he ih =>
    have := Machine.Run.snoc (M := progMachine r o) e ih he
    cases e <;> exact this

theorem log_grows (r : ℚ → ℚ) (o : Opts) (p : Prog) (e : PEv) : ∃ l, (p.step r o e).ping.log = p.ping.log ++ l := by
  cases hfl : (p.ping.threw || p.ping.assertFailed || p.ping.ub) with
  | false =>
    cases PingTime.change r o p e hfl with
    | quiet l hl => exact ⟨l, hl⟩
    | send l n hl => exact ⟨l, hl⟩
  | true =>
    have hst : ∀ e, p.ping.step o e = p.ping := by
      intro e; unfold Ping.St.step; rw [if_pos hfl]
    refine ⟨[], ?_⟩
    cases e with
    | ping e =>
      show (((p.ping.step o e).log.drop p.ping.log.length).foldl (Prog.onSignal r o) { p with ping := p.ping.step o e }).ping.log = _
      rw [hst]
      simp
    | sigint =>
      show (p.ping.step o .stop).log = _
      rw [hst]; simp
    | sigquit => simp [Prog.step]

theorem out_text {r : ℚ → ℚ} (hr : ∀ x, 0 ≤ x → 0 ≤ r x) {o : Opts} {v : Env} (hv : v.Plain) {es s}
    (h : (machine r o v).Run es s) :
    ∃ wss, Text wss s.out ∧ wss.filterMap (readItem v.stamps) = s.prog.ping.log.filterMap (itemOf r) ∧
      wss.filterMap readTotals = [] ∧ wss.filterMap readRtt = [] := by
  induction h with
  | nil =>
    obtain ⟨a, a1, a2, a3, a4⟩ := start_text hv
    obtain ⟨b, b1, b2, b3, b4⟩ := traces_text r hr hv (Prog.start r o).ping.log 0
    refine ⟨a ++ b, a1.append b1, ?_, ?_, ?_⟩
    · rw [List.filterMap_append, a2, b2]; rfl
    · rw [List.filterMap_append, a3, b3]; rfl
    · rw [List.filterMap_append, a4, b4]; rfl
  | @snoc es s e hrun he ih =>
    obtain ⟨a, a1, a2, a3, a4⟩ := ih
    cases e with
    | ping e =>
      obtain ⟨b, b1, b2, b3, b4⟩ := traces_text r hr hv
        ((s.prog.step r o (.ping e)).ping.log.drop s.prog.ping.log.length) s.prog.ping.log.length
      refine ⟨a ++ b, a1.append b1, ?_, ?_, ?_⟩
      · rw [List.filterMap_append, a2, b2]
        obtain ⟨l, hl⟩ : ∃ l, (s.prog.step r o (.ping e)).ping.log = s.prog.ping.log ++ l := log_grows r o s.prog (.ping e)
        show _ = (s.prog.step r o (.ping e)).ping.log.filterMap (itemOf r)
        rw [hl, List.drop_left, List.filterMap_append]
      · rw [List.filterMap_append, a3, b3]; rfl
      · rw [List.filterMap_append, a4, b4]; rfl
    | sigint =>
      refine ⟨a, a1, ?_, a3, a4⟩
      show _ = (s.prog.ping.step o .stop).log.filterMap (itemOf r)
      rw [stop_log, a2]
    | sigquit =>
      obtain ⟨b, b1, b2, b3, b4⟩ := summary_text r hv s.prog.coll
      refine ⟨a ++ b, a1.append b1, ?_, ?_, ?_⟩
      · rw [List.filterMap_append, a2, b2, List.append_nil]; rfl
      · rw [List.filterMap_append, a3, b3]; rfl
      · rw [List.filterMap_append, a4, b4]; rfl

end Verif.PingOutput
