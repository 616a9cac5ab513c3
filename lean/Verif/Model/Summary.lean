import Verif.Model.Adaptive
import Verif.Model.Fixed
import Mathlib.Data.Rat.Defs

/-!
# The summaries that the pipelines print at the end

The numbers only; the text, with the elapsed time, the goodput and the RTT statistics of ndn-cxx, is in `Model/Report`.
-/

namespace Verif

/-- pipeline-interests.cpp:128-140 `printSummary`: "Segments received", "Transferred size" (in bytes; the text shows a
thousandth of it). -/
structure Summary where
  segments : Nat
  size : Nat
  deriving DecidableEq, Repr

/-- pipeline-interests-adaptive.cpp:421-443 `printSummary`: "Congestion marks: `marks` (caused `markDecr` window decreases)",
"Timeouts: `timeouts` (caused `lossDecr` window decreases)", "Retransmitted segments: `retx` (`percent`%), skipped:
`skipped`". -/
structure Summary.Adaptive extends Summary where
  marks : Nat
  markDecr : Nat
  timeouts : Nat
  lossDecr : Nat
  retx : Nat
  percent : ℚ
  skipped : Nat
  deriving DecidableEq

/-- pipeline-interests.cpp:128-140. -/
def Fixed.St.summary (s : Fixed.St) : Summary := ⟨s.nReceived, s.receivedSize⟩

/-- pipeline-interests-adaptive.cpp:421-443. -/
def Adaptive.St.summary {σ : Type} (s : Adaptive.St σ) : Summary.Adaptive :=
  { segments := s.nReceived, size := s.receivedSize, marks := s.nCongMarks, markDecr := s.nMarkDecr,
    timeouts := s.nTimeouts, lossDecr := s.nLossDecr, retx := s.nRetransmitted,
    percent := if s.nSent = 0 then 0 else s.nRetransmitted * 100 / s.nSent,
    skipped := s.nSkippedRetx }

end Verif
