import Verif.Model.AdaptiveTime
import Verif.Spec.Adaptive

/-! # Vocabulary for the statements about the adaptive pipeline with a clock -/

namespace Verif.AdaptiveTime

open Adaptive

variable {σ ε : Type}

/-- The entry is an Interest for segment `k`; when it was sent and with which RTO. -/
def Entry.sent? (k : Nat) (e : Entry) : Option (Nat × Nat) :=
  match e.obs with
  | .interest j _ => if j = k then some (e.time, e.rto) else none
  | _ => none

/-- The Interests for segment `k`. -/
def sends (hist : List Entry) (k : Nat) : List (Nat × Nat) := hist.filterMap (Entry.sent? k)

/-- The latest Interest for segment `k`. -/
def lastSent (hist : List Entry) (k : Nat) : Option (Nat × Nat) := (sends hist k).getLast?

/-- The event tells that an Interest for segment `k`, sent at `t0` with the RTO `r`, may be lost: its lifetime has expired, there is a
Nack because of congestion, or its RTO has passed. -/
def Indicates (k t0 r : Nat) (e : Ev ε) : Prop :=
  (∃ v, e.ev = .expire k v) ∨ (∃ v, e.ev = .nack k .congestion v) ∨ (isCheck e.ev = true ∧ t0 + r < e.t)

/-- The event does not tell of a loss of an Interest for a segment that waits for being requested again. -/
def NotWaiting (s : Adaptive.St σ) : Adaptive.Ev ε → Prop
  | .nack k r _ => r = .congestion → ∀ x, get s.info k = some x → x.state ≠ .inRetxQueue
  | .expire k _ => ∀ x, get s.info k = some x → x.state ≠ .inRetxQueue
  | _ => True

/-- The environments in which a loss is told once. -/
def onceMachine (late : Option Nat) (A : Alg σ ε) (o : Opts) (interval : Nat) (w : σ) (v : Env ε) : Machine (St σ) (Ev ε) :=
  { init := init A o interval w v
    step := St.step A o interval v.now
    enabled := fun s e => s.enabled late e ∧ NotWaiting s.p e.ev }

/-- In the run with the events `es`, where the history began with `a`: an Interest for segment `k` is in `a`, and after the last one of
them there was an event, with nothing but `a` visible before it, that told of its loss. -/
def LossTold (M : Machine (St σ) (Ev ε)) (es : List (Ev ε)) (a : List Entry) (k : Nat) : Prop :=
  ∃ es1 e es2 s1 t0 r0, es = es1 ++ e :: es2 ∧ M.Run es1 s1 ∧ s1.hist <+: a ∧ sends s1.hist k = sends a k ∧
    lastSent a k = some (t0, r0) ∧ Indicates k t0 r0 e

/-- An Interest is sent again only after the loss of the one before was told. -/
def RetxOnlyAfterLoss (M : Machine (St σ) (Ev ε)) : Prop :=
  ∀ es s, M.Run es s → ∀ a t r k b, s.hist = a ++ ⟨t, r, .interest k true⟩ :: b → LossTold M es a k

/-- The window was changed. -/
def Entry.isChange (e : Entry) : Bool :=
  match e.obs with
  | .incr => true
  | .decr _ _ => true
  | _ => false

/-- The RTT of this segment was measured. -/
def Entry.sample? (e : Entry) : Option Nat :=
  match e.obs with
  | .sample k => some k
  | _ => none

/-- The window `w'` follows `w`, by the change `x`. -/
def Follows (A : Alg σ ε) (w : σ) (x : Obs) (w' : σ) : Prop :=
  (x = .incr ∧ ∃ e, w' = A.inc w e) ∨ (∃ k m, x = .decr k m ∧ ∃ e, w' = A.dec w e)

/-- The rows `rows` of the file are those of the changes `cs`, from the window `w` on, and the last window is `w'`. -/
inductive Rows (A : Alg σ ε) (start : Nat) (w : σ) : List Entry → List (Nat × σ) → σ → Prop
  | nil : Rows A start w [] [] w
  | snoc {cs rows w1} (c : Entry) (w2 : σ) : Rows A start w cs rows w1 → Follows A w1 c.obs w2 → start ≤ c.time →
      Rows A start w (cs ++ [c]) (rows ++ [(c.time - start, w2)]) w2

/-- The row tells the RTT of the segment of the entry: the time from its only Interest to its delivery. -/
def RowFor (hist : List Entry) (e : Entry) (row : RttRow) : Prop :=
  ∃ k t0 r0, e.obs = .sample k ∧ row.seg = k ∧ sends hist k = [(t0, r0)] ∧ t0 ≤ e.time ∧ row.rtt = e.time - t0 ∧ row.rto = e.rto ∧
    ∃ p, ⟨e.time, e.rto, .data k p⟩ ∈ hist

/-! ## How fast the transfer goes on -/

/-- The entry is an Interest. -/
def Entry.isInterest (e : Entry) : Bool :=
  match e.obs with
  | .interest _ _ => true
  | _ => false

/-- Cancelled Interests do not call back, no producer announces a final segment before the announcing one, the RTO check is never later
than `d`, and the RTT estimator never gives an RTO above `maxRto`. -/
def promptTimed (d maxRto : Nat) (A : Alg σ ε) (o : Opts) (interval : Nat) (w : σ) (v : Env ε) : Machine (St σ) (Ev ε) :=
  { init := init A o interval w v
    step := St.step A o interval v.now
    enabled := fun s e => s.enabled (some d) e ∧ (promptMachine A o w v).enabled s.p e.ev ∧ e.rto ≤ maxRto }

/-- The same with a producer that serves `segs` and announces the end in every packet, a user who does not cancel, and fatal Nacks only
for segments that do not exist. -/
def servedTimed (d maxRto : Nat) (A : Alg σ ε) (o : Opts) (interval : Nat) (w : σ) (v : Env ε) (segs : List Bytes) :
    Machine (St σ) (Ev ε) :=
  { init := init A o interval w v
    step := St.step A o interval v.now
    enabled := fun s e => s.enabled (some d) e ∧ (servedMachine A o w v segs).enabled s.p e.ev ∧ e.rto ≤ maxRto }

instance (d maxRto : Nat) (A : Alg σ ε) (o : Opts) (interval : Nat) (w : σ) (v : Env ε) (segs : List Bytes) (s : St σ) (e : Ev ε) :
    Decidable ((servedTimed d maxRto A o interval w v segs).enabled s e) :=
  inferInstanceAs (Decidable (s.enabled (some d) e ∧ (servedMachine A o w v segs).enabled s.p e.ev ∧ e.rto ≤ maxRto))

/-- How often the events `es` tell the loss of an Interest for one of the first `n` segments. -/
def losses (A : Alg σ ε) (o : Opts) (w : σ) (v : Env ε) (n : Nat) (es : List (Adaptive.Ev ε)) : Nat :=
  ((List.range n).map fun k => lossCount A o k (start A o w v) es).sum

/-- The claim C100 about the pace: while the pipeline runs, it has sent an Interest at most `T` ago. -/
def KeepsSending (M : Machine (St σ) (Ev ε)) (T : Nat) : Prop :=
  ∀ es s, M.Run es s → s.p.isStopping = false → s.p.threw = none → s.p.ub = false →
    ∃ x ∈ s.hist, x.isInterest = true ∧ s.now ≤ x.time + T

end Verif.AdaptiveTime
