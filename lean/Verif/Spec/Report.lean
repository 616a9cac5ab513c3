import Verif.Model.Report
import Verif.Spec.PingOutput
import Verif.Spec.Throughput

/-! # Reading the statistics files and the summary of ndncatchunks -/

namespace Verif.Report

open PingOutput (split lines words field fieldEnd)

/-- Lines that each end with a line break, and the cells between the tabs of a line; `none` if the last line is cut. -/
def table (out : Bytes) : Option (List (List Bytes)) :=
  if (lines out).getLast? = some [] then some ((lines out).dropLast.map (split 9)) else none

/-- All rows, if each can be read. -/
def readRows {α : Type} (f : List Bytes → Option α) : List (List Bytes) → Option (List α)
  | [] => some []
  | x :: l => (f x).bind fun a => (readRows f l).map fun b => a :: b

/-- A file with these headings. -/
def readFile {α : Type} (headings : List String) (f : List Bytes → Option α) (out : Bytes) : Option (List α) :=
  match table out with
  | some (h :: rows) => if h = headings.map text then readRows f rows else none
  | _ => none

def cwndCells : List Bytes → Option (ℚ × ℚ)
  | [a, b] => (readNumber a).bind fun x => (readNumber b).map fun y => (x, y)
  | _ => none

/-- The file of `--log-cwnd`: seconds and windows. -/
def readCwnd (out : Bytes) : Option (List (ℚ × ℚ)) := readFile ["time", "cwndsize"] cwndCells out

/-- A row of the file of `--log-rtt`; times in milliseconds. -/
structure Sample where
  seg : Nat
  rtt : ℚ
  rttVar : ℚ
  sRtt : ℚ
  rto : ℚ
  deriving DecidableEq

def rttCells : List Bytes → Option Sample
  | [a, b, c, d, e] => (readNat a).bind fun seg => (readNumber b).bind fun rtt => (readNumber c).bind fun rttVar =>
      (readNumber d).bind fun sRtt => (readNumber e).map fun rto => ⟨seg, rtt, rttVar, sRtt, rto⟩
  | _ => none

def readRtt (out : Bytes) : Option (List Sample) := readFile ["segment", "rtt", "rttvar", "srtt", "rto"] rttCells out

/-- `a` is `b` up to six millionths. -/
def Near (a b : ℚ) : Prop := |a - b| ≤ b * (6 / 10 ^ 6)

/-- The summary of every pipeline: seconds, segments, kilobytes, the words of the goodput. -/
structure Base where
  elapsed : ℚ
  segments : Nat
  kB : ℚ
  goodput : Bytes × Bytes
  deriving DecidableEq

/-- The first seven lines. -/
def readBase : List (List Bytes) → Option Base
  | [a, b, c, d, e, f, g] =>
    if a = [[]] ∧ b = [[]] ∧ c = ["All", "segments", "have", "been", "received."].map text then
      match d, e, f, g with
      | [d1, d2, d3, d4], [e1, e2, e3], [f1, f2, f3, f4], [g1, g2, g3] =>
        if d1 = text "Time" ∧ d2 = text "elapsed:" ∧ (d4 = text "seconds" ∨ d4 = text "second") ∧ e1 = text "Segments" ∧
            e2 = text "received:" ∧ f1 = text "Transferred" ∧ f2 = text "size:" ∧ f4 = text "kB" ∧ g1 = text "Goodput:" then
          (readNumber d3).bind fun x => (readNat e3).bind fun n => (readNumber f3).map fun y => ⟨x, n, y, (g2, g3)⟩
        else none
      | _, _, _, _ => none
    else none
  | _ => none

/-- "`key` n (caused m window decreases)" -/
def readCaused (key : List String) (l : List Bytes) : Option (Nat × Nat) :=
  if l.take key.length = key.map text then
    match l.drop key.length with
    | [a, b, c, d, e] => if b = text "(caused" ∧ d = text "window" ∧ e = text "decreases)" then
        (readNat a).bind fun n => (readNat c).map fun m => (n, m)
      else none
    | _ => none
  else none

/-- "Retransmitted segments: n (p%), skipped: m" -/
def readRetx : List Bytes → Option (Nat × ℚ × Nat)
  | [a, b, c, d, e, f] => if a = text "Retransmitted" ∧ b = text "segments:" ∧ e = text "skipped:" then
      (readNat c).bind fun n => ((field "(" d).bind (fieldEnd "%),")).bind fun p => (readNumber p).bind fun p =>
        (readNat f).map fun m => (n, p, m)
    else none
  | _ => none

/-- "RTT min/avg/max = x/y/z ms", or no statistics. -/
def readRtts : List Bytes → Option (Option (ℚ × ℚ × ℚ))
  | [a, b, c] => if a = text "RTT" ∧ b = text "stats" ∧ c = text "unavailable" then some none else none
  | [a, b, c, d, e] => if a = text "RTT" ∧ b = text "min/avg/max" ∧ c = text "=" ∧ e = text "ms" then
      match split 47 d with
      | [x, y, z] => (readDecimal x).bind fun x => (readDecimal y).bind fun y => (readDecimal z).map fun z => some (x, y, z)
      | _ => none
    else none
  | _ => none

/-- The summary of an adaptive pipeline. -/
structure Full extends Base where
  marks : Nat
  markDecr : Nat
  timeouts : Nat
  lossDecr : Nat
  retx : Nat
  percent : ℚ
  skipped : Nat
  rtts : Option (ℚ × ℚ × ℚ)
  deriving DecidableEq

/-- The words of the lines; `none` if the last line is cut. -/
def wordLines (out : Bytes) : Option (List (List Bytes)) :=
  if (lines out).getLast? = some [] then some ((lines out).dropLast.map words) else none

def readSummary (out : Bytes) : Option Base := (wordLines out).bind readBase

def readAdaptive (out : Bytes) : Option Full :=
  (wordLines out).bind fun l =>
    match l.drop 7 with
    | [a, b, c, d] => (readBase (l.take 7)).bind fun base => (readCaused ["Congestion", "marks:"] a).bind fun m =>
        (readCaused ["Timeouts:"] b).bind fun t => (readRetx c).bind fun x => (readRtts d).map fun y =>
          { base with marks := m.1, markDecr := m.2, timeouts := t.1, lossDecr := t.2, retx := x.1, percent := x.2.1,
                      skipped := x.2.2, rtts := y }
    | _ => none

/-- The two words are a number and a unit, and together the bits per second, up to half a millionth of the unit and a relative error of
`2^-49`; without any time they are no number. -/
def GoodputOf (g : Bytes × Bytes) (bytes ns : Nat) : Prop :=
  if ns = 0 then g = if bytes = 0 then (text "nan", text "bit/s") else (text "inf", text "Tbit/s")
  else ∃ u q f, g.2 = text u ∧ Throughput.Spec.Denotes g.1 q ∧ Throughput.Spec.factor u = some f ∧
    |q * f - 8 * bytes / (ns / 10 ^ 9)| ≤ 8 * bytes / (ns / 10 ^ 9) / 2 ^ 49 + f / (2 * 10 ^ 6) ∧
    (u ≠ "Tbit/s" → q ≤ 1000) ∧ (u ≠ "bit/s" → 1 ≤ q)

/-- The printed numbers of milliseconds are the nanoseconds, up to half a microsecond and a relative error of `2^-49`. -/
def RttsOf (p : ℚ × ℚ × ℚ) (t : Rtts) : Prop :=
  |p.1 - (t.min : ℚ) / 10 ^ 6| ≤ 1 / (2 * 10 ^ 3) + (t.min : ℚ) / 10 ^ 6 / 2 ^ 49 ∧
  |p.2.1 - (t.avg : ℚ) / 10 ^ 6| ≤ 1 / (2 * 10 ^ 3) + (t.avg : ℚ) / 10 ^ 6 / 2 ^ 49 ∧
  |p.2.2 - (t.max : ℚ) / 10 ^ 6| ≤ 1 / (2 * 10 ^ 3) + (t.max : ℚ) / 10 ^ 6 / 2 ^ 49 ∧
  (t.min ≤ t.avg → p.1 ≤ p.2.1) ∧ (t.avg ≤ t.max → p.2.1 ≤ p.2.2)

/-- An Interest; one that repeats an earlier one; a decrease of the window because of a loss, or of a congestion mark; a Data packet with a
congestion mark. -/
def isInterest : Adaptive.Obs → Bool
  | .interest _ _ => true
  | _ => false

def isRepeat : Adaptive.Obs → Bool
  | .interest _ true => true
  | _ => false

def isLossDecrease : Adaptive.Obs → Bool
  | .decr _ false => true
  | _ => false

def isMarkDecrease : Adaptive.Obs → Bool
  | .decr _ true => true
  | _ => false

def isMarked : Adaptive.Obs → Bool
  | .data _ p => p.congMark
  | _ => false

end Verif.Report
