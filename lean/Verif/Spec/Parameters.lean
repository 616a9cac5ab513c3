import Verif.Model.Parameters
import Verif.Spec.PingOutput
import Verif.Spec.Report

/-! # Reading the list of parameters of ndncatchunks -/

namespace Verif.Parameters

open Cli (Num)
open PingOutput (lines field fieldEnd)

/-- A number with or without sign, or `inf` or `nan`. -/
def readNum : Bytes → Option Num
  | 45 :: l => if l = text "inf" then some .negInf else (readNumber l).map fun x => .num (-x)
  | l => if l = text "inf" then some .inf else if l = text "nan" then some .nan else (readNumber l).map .num

/-- Digits with or without sign. -/
def readInt : Bytes → Option Int
  | 45 :: l => (readNat l).map fun (n : Nat) => -(n : Int)
  | l => (readNat l).map fun (n : Nat) => (n : Int)

def readMs (l : Bytes) : Option Int := ((fieldEnd " milliseconds" l).orElse fun _ => fieldEnd " millisecond" l).bind readInt

def readYesNo (l : Bytes) : Option Bool := if l = text "yes" then some true else if l = text "no" then some false else none

/-- The number of retries; `none`: infinite. -/
def readRetries (l : Bytes) : Option (Option Int) := if l = text "infinite" then some none else (readInt l).map some

/-- Whether the window is reset to the initial value. -/
def readReset (l : Bytes) : Option Bool :=
  if l = text "initial value upon loss event" then some true
  else if l = text "ssthresh upon loss event" then some false else none

/-- A line that begins with `key`, and the lines after it. -/
def line {α : Type} (key : String) (read : Bytes → Option α) : List Bytes → Option (α × List Bytes)
  | [] => none
  | l :: ls => ((field key l).bind read).map fun a => (a, ls)

def heading (l : Bytes) : Option Unit := if l = [] then some () else none

/-- The parameters of the RTT estimator; times in milliseconds. -/
structure Rtt where
  alpha : Num
  beta : Num
  k : Int
  initial : Int
  min : Int
  max : Int
  multiplier : Int

def readRtt (ls : List Bytes) : Option (Rtt × List Bytes) :=
  (line "RTT estimator parameters:" heading ls).bind fun (_, ls) =>
  (line "\tAlpha = " readNum ls).bind fun (alpha, ls) =>
  (line "\tBeta = " readNum ls).bind fun (beta, ls) =>
  (line "\tK = " readInt ls).bind fun (k, ls) =>
  (line "\tInitial RTO = " readMs ls).bind fun (initial, ls) =>
  (line "\tMin RTO = " readMs ls).bind fun (min, ls) =>
  (line "\tMax RTO = " readMs ls).bind fun (max, ls) =>
  (line "\tBackoff multiplier = " readInt ls).map fun (multiplier, ls) => (⟨alpha, beta, k, initial, min, max, multiplier⟩, ls)

/-- The parameters of every pipeline. -/
structure Common where
  fresh : Bool
  lifetime : Int
  retries : Option Int

def readCommon (ls : List Bytes) : Option (Common × List Bytes) :=
  (line "Pipeline parameters:" heading ls).bind fun (_, ls) =>
  (line "\tRequest fresh content = " readYesNo ls).bind fun (fresh, ls) =>
  (line "\tInterest lifetime = " readMs ls).bind fun (lifetime, ls) =>
  (line "\tMax retries on timeout or Nack = " readRetries ls).map fun (retries, ls) => (⟨fresh, lifetime, retries⟩, ls)

/-- The parameters of the adaptive pipelines. -/
structure Adapt where
  cwnd : Num
  ssthresh : Num
  step : Num
  factor : Num
  interval : Int
  marks : Bool
  cwa : Bool
  reset : Bool

def readAdapt (ls : List Bytes) : Option (Adapt × List Bytes) :=
  (line "\tInitial congestion window size = " readNum ls).bind fun (cwnd, ls) =>
  (line "\tInitial slow start threshold = " readNum ls).bind fun (ssthresh, ls) =>
  (line "\tAdditive increase step = " readNum ls).bind fun (step, ls) =>
  (line "\tMultiplicative decrease factor = " readNum ls).bind fun (factor, ls) =>
  (line "\tRTO check interval = " readMs ls).bind fun (interval, ls) =>
  (line "\tReact to congestion marks = " readYesNo ls).bind fun (marks, ls) =>
  (line "\tConservative window adaptation = " readYesNo ls).bind fun (cwa, ls) =>
  (line "\tResetting window to " readReset ls).map fun (reset, ls) => (⟨cwnd, ssthresh, step, factor, interval, marks, cwa, reset⟩, ls)

/-- What a listing tells. -/
inductive Told
  | fixed (c : Common) (size : Nat)
  | aimd (r : Rtt) (c : Common) (a : Adapt)
  | cubic (r : Rtt) (c : Common) (a : Adapt) (beta : Num) (fastConv : Bool)

def readFixed (ls : List Bytes) : Option Told :=
  (readCommon ls).bind fun (c, ls) => (line "\tPipeline size = " readNat ls).bind fun (n, ls) => if ls = [] then some (.fixed c n) else none

def readAdaptive (ls : List Bytes) : Option Told :=
  (readRtt ls).bind fun (r, ls) => (readCommon ls).bind fun (c, ls) => (readAdapt ls).bind fun (a, ls) =>
    if ls = [] then some (.aimd r c a)
    else (line "\tCubic beta = " readNum ls).bind fun (b, ls) => (line "\tFast convergence = " readYesNo ls).bind fun (f, ls) =>
      if ls = [] then some (.cubic r c a b f) else none

/-- All lines; the last one is not cut. -/
def read (out : Bytes) : Option Told :=
  if (lines out).getLast? = some [] then
    let ls := (lines out).dropLast
    (readAdaptive ls).orElse fun _ => readFixed ls
  else none

/-- The number that is shown is the value, up to six millionths. -/
def Shows : Num → Num → Prop
  | .num x, .num y => |x - y| ≤ |y| * (6 / 10 ^ 6)
  | .inf, .inf => True
  | .negInf, .negInf => True
  | .nan, .nan => True
  | _, _ => False

/-- What is told about every pipeline is what the program runs with. -/
def Common.Of (c : Common) (o : Cli.CatOpts) : Prop :=
  c.fresh = o.mustBeFresh ∧ c.lifetime = o.lifetime ∧ c.retries = if o.retries = -1 then none else some o.retries

def Rtt.Of (r : Rtt) (a : Args) (o : Cli.CatOpts) : Prop :=
  Shows r.alpha a.rtoAlpha ∧ Shows r.beta a.rtoBeta ∧ r.k = o.rtoK ∧ r.initial = 1000 ∧ r.min * 10 ^ 6 = o.minRto ∧
    r.max * 10 ^ 6 = o.maxRto ∧ r.multiplier = 2

def Adapt.Of (x : Adapt) (a : Args) (o : Cli.CatOpts) : Prop :=
  Shows x.cwnd a.initCwnd ∧ Shows x.ssthresh a.initSsthresh ∧ Shows x.step a.aiStep ∧ Shows x.factor a.mdCoef ∧ x.interval = 10 ∧
    x.marks = !o.ignoreMarks ∧ x.cwa = !o.disableCwa ∧ x.reset = a.resetCwnd

end Verif.Parameters
