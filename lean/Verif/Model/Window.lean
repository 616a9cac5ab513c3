import Verif.Model.Adaptive
import Mathlib.Data.Rat.Floor
import Mathlib.Analysis.SpecialFunctions.Pow.Real

/-!
# Models of the window algorithms

`tools/chunks/catchunks/pipeline-interests-aimd.cpp` and `pipeline-interests-cubic.cpp`.

`double` is modelled by exact rationals (AIMD) or reals (CUBIC, which needs a cube root): rounding
errors and overflow beyond `2^63` are not modelled. The initial slow start threshold is finite
(the default is the largest `double`).
-/

namespace Verif.Window

/-- options.hpp:52-53 and 59-61, the options of the AIMD pipeline. -/
structure AimdOpts where
  initCwnd : ℚ
  initSsthresh : ℚ
  aiStep : ℚ
  mdCoef : ℚ
  resetCwndToInit : Bool

/-- pipeline-interests-adaptive.hpp:194-195 `m_cwnd`, `m_ssthresh`. -/
structure Aimd where
  cwnd : ℚ
  ssthresh : ℚ

/-- pipeline-interests-adaptive.hpp:192. -/
def minSsthresh : ℚ := 2

namespace Aimd

/-- pipeline-interests-adaptive.cpp:40-44, the constructor. -/
def init (o : AimdOpts) : Aimd := ⟨o.initCwnd, o.initSsthresh⟩

/-- pipeline-interests-aimd.cpp:44-55 `increaseWindow`. -/
def increase (o : AimdOpts) (s : Aimd) : Aimd :=
  if s.cwnd < s.ssthresh then { s with cwnd := s.cwnd + o.aiStep }
  else { s with cwnd := s.cwnd + o.aiStep / (⌊s.cwnd⌋ : ℚ) }

/-- pipeline-interests-aimd.cpp:57-65 `decreaseWindow`. -/
def decrease (o : AimdOpts) (s : Aimd) : Aimd :=
  let ss := max minSsthresh (s.cwnd * o.mdCoef)
  { ssthresh := ss, cwnd := if o.resetCwndToInit then o.initCwnd else ss }

/-- pipeline-interests-adaptive.cpp:175 `static_cast<int64_t>(m_cwnd)`: truncation towards zero. -/
def slots (s : Aimd) : Int := if 0 ≤ s.cwnd then ⌊s.cwnd⌋ else ⌈s.cwnd⌉

/-- The AIMD algorithm as parameter of the adaptive pipeline. -/
def alg (o : AimdOpts) : Adaptive.Alg Aimd Unit :=
  ⟨fun s _ => s.increase o, fun s _ => s.decrease o, slots⟩

end Aimd

/-- options.hpp:52-53 and 64-65, the options of the CUBIC pipeline. -/
structure CubicOpts where
  initCwnd : ℝ
  initSsthresh : ℝ
  beta : ℝ
  fastConv : Bool

/-- pipeline-interests-adaptive.hpp:194-195 and pipeline-interests-cubic.hpp:50-53 `m_wmax`,
`m_lastWmax`, `m_lastDecrease` (seconds). `infinite`: the window is the floating point infinity; the
conversion to `int64_t` that follows is undefined behaviour, and the other variables have no meaning
any more. -/
structure Cubic where
  cwnd : ℝ
  ssthresh : ℝ
  wmax : ℝ := 0
  lastWmax : ℝ := 0
  lastDecrease : ℝ
  infinite : Bool := false

/-- What the CUBIC algorithm reads: `steady_clock::now()` and `getSmoothedRtt()`, in seconds; the latter
is 0 before the first sample. -/
structure CubicEnv where
  now : ℝ
  rtt : ℝ

/-- `std::cbrt`. -/
noncomputable def cbrt (x : ℝ) : ℝ :=
  if 0 ≤ x then x ^ ((1 : ℝ) / 3) else - ((-x) ^ ((1 : ℝ) / 3))

/-- pipeline-interests-cubic.cpp:33. -/
noncomputable def cubicC : ℝ := 0.4

namespace Cubic

/-- pipeline-interests-adaptive.cpp:40-44 and pipeline-interests-cubic.cpp:35-38, the constructors. -/
def init (o : CubicOpts) (now : ℝ) : Cubic :=
  { cwnd := o.initCwnd, ssthresh := o.initSsthresh, lastDecrease := now }

/-- pipeline-interests-cubic.cpp:62-71: the target of CUBIC. -/
noncomputable def wCubic (o : CubicOpts) (wmax t : ℝ) : ℝ :=
  let k := cbrt (wmax * (1 - o.beta) / cubicC)
  cubicC * (t - k) ^ 3 + wmax

/-- pipeline-interests-cubic.cpp:73-76: the estimate of Reno's window; not for `rtt = 0`. -/
noncomputable def wEst (o : CubicOpts) (wmax t rtt : ℝ) : ℝ :=
  wmax * o.beta + (3 * (1 - o.beta) / (1 + o.beta)) * (t / rtt)

/-- pipeline-interests-cubic.cpp:62-84: congestion avoidance. If `rtt = 0` the estimate is infinite
when `t > 0` and the factor is positive, and the window becomes infinite. If `t / rtt` or the product
is not a number, `std::max(wCubic, NaN)` is `wCubic`. A negative infinity loses against `wCubic`. -/
noncomputable def avoid (o : CubicOpts) (e : CubicEnv) (s : Cubic) : Cubic :=
  let t := e.now - s.lastDecrease
  let target :=
    if e.rtt = 0 then wCubic o s.wmax t else max (wCubic o s.wmax t) (wEst o s.wmax t e.rtt)
  let increment := max 0 (target - s.cwnd)
  { s with
    cwnd := s.cwnd + increment / s.cwnd
    infinite := s.infinite ||
      decide (e.rtt = 0 ∧ 0 < (3 * (1 - o.beta) / (1 + o.beta)) * t) }

/-- pipeline-interests-cubic.cpp:47-88 `increaseWindow`. -/
noncomputable def increase (o : CubicOpts) (e : CubicEnv) (s : Cubic) : Cubic :=
  if s.cwnd < s.ssthresh then { s with cwnd := s.cwnd + 1 }
  else avoid o e (if s.wmax < o.initCwnd then { s with wmax := s.cwnd } else s)

/-- pipeline-interests-cubic.cpp:90-112 `decreaseWindow`. -/
noncomputable def decrease (o : CubicOpts) (e : CubicEnv) (s : Cubic) : Cubic :=
  let wm := if o.fastConv = true ∧ s.cwnd < s.lastWmax then s.cwnd * (1 + o.beta) / 2 else s.cwnd
  let ss := max o.initCwnd (s.cwnd * o.beta)
  { s with lastWmax := s.cwnd, wmax := wm, ssthresh := ss, cwnd := ss, lastDecrease := e.now }

/-- pipeline-interests-adaptive.cpp:175 `static_cast<int64_t>(m_cwnd)`. Undefined if `infinite`. -/
noncomputable def slots (s : Cubic) : Int := if 0 ≤ s.cwnd then ⌊s.cwnd⌋ else ⌈s.cwnd⌉

/-- The CUBIC algorithm as parameter of the adaptive pipeline. -/
noncomputable def alg (o : CubicOpts) : Adaptive.Alg Cubic CubicEnv :=
  ⟨fun s e => s.increase o e, fun s e => s.decrease o e, slots⟩

end Cubic
end Verif.Window
