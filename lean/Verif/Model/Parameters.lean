import Verif.Model.Cli
import Verif.Model.Format
import Verif.Model.PingOutput

/-!
# The parameters that ndncatchunks lists in verbose mode

`printOptions` of the pipelines, what their constructors add, and the parameters of the RTT estimator that `main` prints before. All are on
the standard error, before the discovery starts.
-/

namespace Verif.Parameters

open Cli (Num)
open PingOutput (intText)

/-- chunks/catchunks/main.cpp:62-151: all options. `initSsthresh`: the default is the largest `double`. -/
structure Args extends Cli.CatArgs where
  initCwnd : Num := .num 2
  initSsthresh : Num := .num ((2 - 1 / 2 ^ 52) * 2 ^ 1023)
  aiStep : Num := .num 1
  mdCoef : Num := .num (1 / 2)
  resetCwnd : Bool := false
  cubicBeta : Num := .num (7 / 10)
  fastConv : Bool := false

/-- `os << x` for a `double`. (The sign that the C library may print before `nan` is left out. Zero has no sign here.) -/
def numText : Num → Bytes
  | .num x => if x < 0 then [45] ++ general (-x) else general x
  | .inf => text "inf"
  | .negInf => text "-inf"
  | .nan => text "nan"

/-- `os << d` for a `boost::chrono` duration in milliseconds: the unit is in the singular after 1 and -1. -/
def msText (n : Int) : Bytes := intText n ++ text (if n.natAbs = 1 then " millisecond" else " milliseconds")

def yesNo (b : Bool) : Bytes := text (if b then "yes" else "no")

/-- chunks/catchunks/main.cpp:245-255. The initial RTO and the multiplier are the defaults of ndn-cxx: no option changes them. The limits are
converted from milliseconds to nanoseconds and back. -/
def rttText (a : Args) : Bytes :=
  text "RTT estimator parameters:" ++ [10] ++
  text "\tAlpha = " ++ numText a.rtoAlpha ++ [10] ++
  text "\tBeta = " ++ numText a.rtoBeta ++ [10] ++
  text "\tK = " ++ intText a.rtoK ++ [10] ++
  text "\tInitial RTO = " ++ msText 1000 ++ [10] ++
  text "\tMin RTO = " ++ msText a.minRto ++ [10] ++
  text "\tMax RTO = " ++ msText a.maxRto ++ [10] ++
  text "\tBackoff multiplier = " ++ intText 2 ++ [10]

/-- pipeline-interests.cpp:112-121 `PipelineInterests::printOptions`. -/
def optionsText (a : Args) : Bytes :=
  text "Pipeline parameters:" ++ [10] ++
  text "\tRequest fresh content = " ++ yesNo a.fresh ++ [10] ++
  text "\tInterest lifetime = " ++ msText a.lifetime ++ [10] ++
  text "\tMax retries on timeout or Nack = " ++ (if a.retries = -1 then text "infinite" else intText a.retries) ++ [10]

/-- pipeline-interests-adaptive.cpp:405-419 `PipelineInterestsAdaptive::printOptions`. No option changes the check interval. -/
def adaptiveOptionsText (a : Args) : Bytes :=
  optionsText a ++
  text "\tInitial congestion window size = " ++ numText a.initCwnd ++ [10] ++
  text "\tInitial slow start threshold = " ++ numText a.initSsthresh ++ [10] ++
  text "\tAdditive increase step = " ++ numText a.aiStep ++ [10] ++
  text "\tMultiplicative decrease factor = " ++ numText a.mdCoef ++ [10] ++
  text "\tRTO check interval = " ++ msText 10 ++ [10] ++
  text "\tReact to congestion marks = " ++ yesNo (!a.ignoreMarks) ++ [10] ++
  text "\tConservative window adaptation = " ++ yesNo (!a.disableCwa) ++ [10] ++
  text "\tResetting window to " ++ text (if a.resetCwnd then "initial value" else "ssthresh") ++ text " upon loss event" ++ [10]

/-- The listing, if `main` comes to making the pipeline: chunks/catchunks/main.cpp:241-264, pipeline-interests-fixed.cpp:37-46,
pipeline-interests-aimd.cpp:34-42 and pipeline-interests-cubic.cpp:35-46. -/
def listing (a : Args) (k : Cli.PipelineKind) : Bytes :=
  if a.verbose then
    match k with
    | .fixed => optionsText a ++ (text "\tPipeline size = " ++ decimal a.pipelineSize ++ [10])
    | .aimd => rttText a ++ adaptiveOptionsText a
    | .cubic => rttText a ++ adaptiveOptionsText a ++
        (text "\tCubic beta = " ++ numText a.cubicBeta ++ [10] ++ text "\tFast convergence = " ++ yesNo a.fastConv ++ [10])
  else []

end Verif.Parameters
