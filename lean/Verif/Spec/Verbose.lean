import Verif.Model.Verbose
import Verif.Spec.AdaptiveTime

/-! # Vocabulary for the statements about `--verbose` -/

namespace Verif.Verbose

open Adaptive

variable {σ ε : Type}

/-- What the lines tell about: an Interest is sent, for the first time or again, a segment is delivered, the window is decreased because of a
loss. -/
inductive Act
  | sent (k : Nat) (retx : Bool)
  | got (k : Nat)
  | lost
  deriving DecidableEq, Repr

/-- What the line says. -/
def Line.act : Line σ → Option Act
  | .sending k b => some (.sent k b)
  | .received k _ _ => some (.got k)
  | .loss _ => some .lost
  | _ => none

/-- What happens. -/
def act : Obs → Option Act
  | .interest k b => some (.sent k b)
  | .data k _ => some (.got k)
  | .decr _ false => some .lost
  | _ => none

/-- What the lines say, in order. -/
def told (l : List (Line σ)) : List Act := l.filterMap Line.act

/-- What happens, in order. -/
def did (l : List Obs) : List Act := l.filterMap act

/-- Not about an Interest that is sent again. -/
def Act.sure : Act → Bool
  | .sent _ true => false
  | _ => true

/-- The number in the line "# of retries for segment #k is ...". -/
def Line.retries? (k : Nat) : Line σ → Option Nat
  | .retries j n => if j = k then some n else none
  | _ => none

/-- The line "Packet loss event, ...". -/
def Line.isLoss : Line σ → Bool
  | .loss _ => true
  | _ => false

/-- The line "Received congestion mark, ...". -/
def Line.isMark : Line σ → Bool
  | .mark _ => true
  | _ => false

/-- The window in the line. -/
def Line.window? : Line σ → Option σ
  | .loss w => some w
  | .mark w => some w
  | _ => none

/-- A line about sending. -/
def Line.plain : Line σ → Bool
  | .sending _ _ => true
  | .retries _ _ => true
  | _ => false

/-- Why the pipeline in the state `p` prints the line, when the event is `e` and the window is `w'` after it, if the line is not about
sending: there is a Nack with this reason for this segment; the segment arrives, the time is that since its latest Interest and the RTO is
the one that was kept with it; the window was decreased because of the congestion mark, or otherwise because of a loss, and is now the one
that is told. -/
def Explained (A : Alg σ ε) (p : Adaptive.St σ) (e : Ev ε) (w' : σ) : Line σ → Prop
  | .nack k r => ∃ v, e = .nack k r v
  | .received k d r => ∃ x pk c v, e = .data k pk c v ∧ get p.info k = some x ∧ d = (v.now : Int) - x.timeSent ∧ r = x.rto
  | .mark w => w = w' ∧ ∃ k pk c v, e = .data k pk c v ∧ pk.congMark = true ∧ w = A.dec p.win v.win
  | .loss w => w = w' ∧ ∃ v, AdaptiveTime.env? e = some v ∧ (∀ k pk c v, e ≠ .data k pk c v) ∧ w = A.dec p.win v.win
  | _ => False

/-- The claim C103: the lines tell exactly what happens, in order. -/
def TellsTruth (A : Alg σ ε) (o : Opts) (w : σ) (v : Env ε) : Prop :=
  ∀ es s, (machine A o w v).Run es s → told s.lines = did s.p.log

end Verif.Verbose
