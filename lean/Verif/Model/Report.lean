import Verif.Model.AdaptiveTime
import Verif.Model.Format
import Verif.Model.Summary
import Verif.Model.Throughput

/-!
# The text of the statistics files and of the summary of ndncatchunks

`tools/chunks/catchunks/statistics-collector.cpp` and `printSummary` of `pipeline-interests.cpp` and
`pipeline-interests-adaptive.cpp`. `r` is the rounding of `double` arithmetic; the window is a number that is not negative and
printed as it is. A `std::chrono` count is converted to `double` before the division.
-/

namespace Verif.Report

/-- A duration in nanoseconds `/ 1e9`. -/
def seconds (r : ℚ → ℚ) (ns : Nat) : ℚ := r (r ns / 10 ^ 9)

/-- A duration in nanoseconds `/ 1e6`. -/
def millis (r : ℚ → ℚ) (ns : Nat) : ℚ := r (r ns / 10 ^ 6)

/-- statistics-collector.cpp:34-39: the file of `--log-cwnd`; the rows are the time in nanoseconds and the window. -/
def cwndFile (r : ℚ → ℚ) (rows : List (Nat × ℚ)) : Bytes :=
  text "time\tcwndsize\n" ++ rows.flatMap fun x => general (seconds r x.1) ++ text "\t" ++ general x.2 ++ text "\n"

/-- statistics-collector.cpp:35 and 41-47: the file of `--log-rtt`. -/
def rttFile (r : ℚ → ℚ) (rows : List AdaptiveTime.RttRow) : Bytes :=
  text "segment\trtt\trttvar\tsrtt\trto\n" ++ rows.flatMap fun x =>
    decimal x.seg ++ text "\t" ++ general (millis r x.rtt) ++ text "\t" ++ general (millis r x.rttVar) ++ text "\t" ++
      general (millis r x.sRtt) ++ text "\t" ++ general (millis r x.rto) ++ text "\n"

/-- What `formatThroughput` returns, pipeline-interests.cpp:137-158. (The sign that the C library prints before `nan` is left out.) -/
def throughputText : Throughput.Shown → Bytes
  | .number t u => t ++ text " " ++ text u
  | .inf u => text "inf " ++ text u
  | .nan u => text "nan " ++ text u

/-- pipeline-interests.cpp:121-135 `printSummary`; `ns`: the elapsed time. The duration is printed by Boost.Chrono, with the unit in the
singular if it is 1. -/
def summaryText (r : ℚ → ℚ) (ns : Nat) (s : Summary) : Bytes :=
  text "\n\nAll segments have been received.\n" ++
  text "Time elapsed: " ++ general (seconds r ns) ++ (if seconds r ns = 1 then text " second" else text " seconds") ++ text "\n" ++
  text "Segments received: " ++ decimal s.segments ++ text "\n" ++
  text "Transferred size: " ++ general (r (r s.size / 10 ^ 3)) ++ text " kB" ++ text "\n" ++
  text "Goodput: " ++ throughputText (Throughput.goodput r s.size ns) ++ text "\n"

/-- `std::fixed << std::setprecision(3)`. -/
def fixed3 (x : ℚ) : Bytes :=
  let m := (Throughput.nearest (x * 10 ^ 3)).toNat
  let f := decimal (m % 10 ^ 3)
  decimal (m / 10 ^ 3) ++ text "." ++ List.replicate (3 - f.length) 48 ++ f

/-- The statistics of the RTT estimator, in nanoseconds. -/
structure Rtts where
  min : Nat
  avg : Nat
  max : Nat
  deriving DecidableEq, Repr

/-- pipeline-interests-adaptive.cpp:427: the share of repeated Interests. -/
def percent (r : ℚ → ℚ) (retx sent : Nat) : ℚ := if sent = 0 then 0 else r (r (r retx * 100) / r sent)

/-- pipeline-interests-adaptive.cpp:421-443 `printSummary`; `sent`: `m_nSent`; `rtts`: `none` if there was no measurement. -/
def adaptiveText (r : ℚ → ℚ) (ns : Nat) (s : Summary.Adaptive) (sent : Nat) (rtts : Option Rtts) : Bytes :=
  summaryText r ns s.toSummary ++
  text "Congestion marks: " ++ decimal s.marks ++ text " (caused " ++ decimal s.markDecr ++ text " window decreases)\n" ++
  text "Timeouts: " ++ decimal s.timeouts ++ text " (caused " ++ decimal s.lossDecr ++ text " window decreases)\n" ++
  text "Retransmitted segments: " ++ decimal s.retx ++ text " (" ++ general (percent r s.retx sent) ++ text "%)" ++
  text ", skipped: " ++ decimal s.skipped ++ text "\n" ++ text "RTT " ++
  match rtts with
  | none => text "stats unavailable\n"
  | some t => text "min/avg/max = " ++ fixed3 (millis r t.min) ++ text "/" ++ fixed3 (millis r t.avg) ++ text "/" ++
      fixed3 (millis r t.max) ++ text " ms\n"

end Verif.Report
