import Verif.Model.Adaptive
import Verif.Spec.Common

/-! # Vocabulary for the statements about the adaptive pipeline -/

namespace Verif.Adaptive

variable {σ ε : Type}

/-- The segment numbers passed to the data callback, in order. -/
def received (log : List Obs) : List Nat :=
  log.filterMap fun
    | .data k _ => some k
    | _ => none

/-- The visible event is a call of the failure callback. -/
def Obs.isFailure : Obs → Bool
  | .failure _ => true
  | _ => false

/-- The number of segments that are in flight: requested, not answered, not waiting for
retransmission. -/
def inFlight (l : List (Nat × Seg)) : Nat := l.countP (fun e => decide (e.2.state ≠ .inRetxQueue))

/-- The windows that the algorithm can get to from `w`. -/
inductive Reach (A : Alg σ ε) (w : σ) : σ → Prop
  | init : Reach A w w
  | inc {w'} (e : ε) : Reach A w w' → Reach A w (A.inc w' e)
  | dec {w'} (e : ε) : Reach A w w' → Reach A w (A.dec w' e)

/-- Data comes from a consistent producer of the object with segments `segs`. -/
def ConsistentEv (segs : List Bytes) : Ev ε → Prop
  | .data k p _ _ => Consistent segs k p
  | _ => True

/-- The adaptive pipeline fetching the object with segments `segs` from a consistent producer, over a
network that may lose, delay, Nack or reorder anything. -/
def netMachine (A : Alg σ ε) (o : Opts) (w : σ) (v : Env ε) (segs : List Bytes) :
    Machine (St σ) (Ev ε) :=
  { init := start A o w v
    step := St.step A o
    enabled := fun s e => s.enabled e ∧ ConsistentEv segs e }

/-- The segment is tracked and its last Interest has not called back. -/
def waitsFor (s : St σ) (k : Nat) : Prop := ∃ x, get s.info k = some x ∧ x.pending = true

/-- Cancelling an Interest takes effect at once: only Interests whose handle is still kept call back. -/
def Prompt (s : St σ) : Ev ε → Prop
  | .data k _ _ _ => waitsFor s k
  | .nack k _ _ => waitsFor s k
  | .expire k _ => waitsFor s k
  | _ => True

/-- The user does not cancel, neither from outside nor inside the data callback. -/
def NoCancel : Ev ε → Prop
  | .data _ _ c _ => c = false
  | .cancel => False
  | _ => True

/-- The segment that announces the final segment number is not beyond it. -/
def FinalNotBefore : Ev ε → Prop
  | .data k p _ _ => ∀ n, p.final = .seg n → k ≤ n
  | _ => True

instance (s : St σ) (k : Nat) : Decidable (waitsFor s k) :=
  decidable_of_iff ((get s.info k).any (·.pending) = true) (by
    unfold waitsFor; cases get s.info k <;> simp)

instance (s : St σ) (e : Ev ε) : Decidable (Prompt s e) := by
  cases e <;> unfold Prompt <;> infer_instance

instance (e : Ev ε) : Decidable (NoCancel e) := by
  cases e <;> unfold NoCancel <;> infer_instance

instance (segs : List Bytes) (e : Ev ε) : Decidable (ConsistentEv segs e) := by
  cases e <;> unfold ConsistentEv <;> infer_instance

/-- The number of Interests for segment `k`. -/
def nSends (log : List Obs) (k : Nat) : Nat :=
  log.count (.interest k false) + log.count (.interest k true)

/-- The number of Interests for segment `k` that repeat an earlier one. -/
def nRetx (log : List Obs) (k : Nat) : Nat := log.count (.interest k true)

/-- The friendliest environment that still may lose packets: a consistent producer of `segs`, prompt
cancelling of Interests, and a user who does not cancel. -/
def politeMachine (A : Alg σ ε) (o : Opts) (w : σ) (v : Env ε) (segs : List Bytes) :
    Machine (St σ) (Ev ε) :=
  { init := start A o w v
    step := St.step A o
    enabled := fun s e => s.enabled e ∧ ConsistentEv segs e ∧ Prompt s e ∧ NoCancel e }

instance (A : Alg σ ε) (o : Opts) (w : σ) (v : Env ε) (segs : List Bytes) (s : St σ) (e : Ev ε) :
    Decidable ((politeMachine A o w v segs).enabled s e) :=
  inferInstanceAs (Decidable (s.enabled e ∧ ConsistentEv segs e ∧ Prompt s e ∧ NoCancel e))

/-- Prompt cancelling of Interests, and a producer that does not announce a final segment before the
announcing one. -/
def promptMachine (A : Alg σ ε) (o : Opts) (w : σ) (v : Env ε) : Machine (St σ) (Ev ε) :=
  { init := start A o w v
    step := St.step A o
    enabled := fun s e => s.enabled e ∧ Prompt s e ∧ FinalNotBefore e }

/-- Nacks and timeouts are reported only for segments that the pipeline tracks. -/
def Tracked (s : St σ) : Ev ε → Prop
  | .nack k _ _ => (get s.info k).isSome = true
  | .expire k _ => (get s.info k).isSome = true
  | _ => True

instance (s : St σ) (e : Ev ε) : Decidable (Tracked s e) := by
  cases e <;> unfold Tracked <;> infer_instance

/-- The environments without Nacks and timeouts for segments that are not tracked. -/
def trackedMachine (A : Alg σ ε) (o : Opts) (w : σ) (v : Env ε) : Machine (St σ) (Ev ε) :=
  { init := start A o w v
    step := St.step A o
    enabled := fun s e => s.enabled e ∧ Tracked s e }

/-- The event keeps the in-flight counter exact: losses hit only segments that are not waiting for
retransmission already, no fatal Nack, and no segment that waits for retransmission turns out to be
beyond the end. -/
def CleanEv (s : St σ) : Ev ε → Prop
  | .data _ p _ _ => s.hasFinalBlockId = false → ∀ n, p.final = .seg n →
      ∀ j x, get s.info j = some x → n < j → x.state ≠ .inRetxQueue
  | .nack k r _ => (r = .duplicate ∨ r = .congestion) ∧
      ∀ x, get s.info k = some x → x.state ≠ .inRetxQueue
  | .expire k _ => ∀ x, get s.info k = some x → x.state ≠ .inRetxQueue
  | _ => True

/-- The environments in which the in-flight counter stays exact. -/
def cleanMachine (A : Alg σ ε) (o : Opts) (w : σ) (v : Env ε) : Machine (St σ) (Ev ε) :=
  { init := start A o w v
    step := St.step A o
    enabled := fun s e => s.enabled e ∧ Tracked s e ∧ CleanEv s e }

/-- The event `e` makes the pipeline send an Interest. -/
def Sends (A : Alg σ ε) (o : Opts) (s : St σ) (e : Ev ε) : Prop :=
  ∃ l, (s.step A o e).log = s.log ++ l ∧ ∃ k b, Obs.interest k b ∈ l

/-- The claim C14 about the counter. -/
def CounterExact (A : Alg σ ε) (o : Opts) (w : σ) (v : Env ε) (segs : List Bytes) : Prop :=
  ∀ es s, (politeMachine A o w v segs).Run es s → s.isStopping = false →
    s.nInFlight = inFlight s.info

/-- The claim C14 about the window: an event that sends an Interest leaves at most as many segments
in flight as the window allows. -/
def WindowRespected (A : Alg σ ε) (o : Opts) (w : σ) (v : Env ε) (segs : List Bytes) : Prop :=
  ∀ es s e, (politeMachine A o w v segs).Run es s → (politeMachine A o w v segs).enabled s e →
    Sends A o s e → (inFlight (s.step A o e).info : Int) ≤ A.slots (s.step A o e).win

/-- The claim C15. -/
def RetryLimitRespected (A : Alg σ ε) (o : Opts) (w : σ) (v : Env ε) (segs : List Bytes) : Prop :=
  ∀ es s, (politeMachine A o w v segs).Run es s → ∀ k, (nSends s.log k : Int) ≤ 1 + o.maxRetries

/-- The claim C16. -/
def NeverStalls (A : Alg σ ε) (o : Opts) (w : σ) (v : Env ε) (segs : List Bytes) : Prop :=
  ∀ es s, (politeMachine A o w v segs).Run es s → s.isStopping = false → s.threw = none →
    0 < inFlight s.info

/-- What the message `m` of a failure claims, in terms of the history `log` and of the Nacks that
arrived: no final segment number was found; a Nack with a fatal reason arrived for a requested
segment; the Interest for an undelivered segment was repeated as often as the limit allows. -/
def Truth (nacked : Nat → NackReason → Prop) (o : Opts) (log : List Obs) : FailMsg → Prop
  | .noFinal => ∀ k p, Obs.data k p ∈ log → p.final = .absent
  | .segNack k r => nacked k r ∧ r ≠ .duplicate ∧ r ≠ .congestion ∧ Obs.interest k false ∈ log
  | .maxRetries n k => n = o.maxRetries ∧ n ≠ -1 ∧ max 1 o.maxRetries ≤ (nRetx log k : Int) ∧
      Obs.interest k false ∈ log ∧ k ∉ received log
  | _ => False

/-- The event tells that the Interest for segment `k` was lost: its lifetime expired, a congestion Nack
arrived for it, or it is in flight and an RTO check comes later than its RTO. -/
def LossFor (s : St σ) (k : Nat) : Ev ε → Prop
  | .nack j r _ => j = k ∧ r = .congestion
  | .expire j _ => j = k
  | .check _ v => ∃ x, get s.info k = some x ∧ x.state ≠ .inRetxQueue ∧ v.now > x.timeSent + x.rto
  | _ => False

instance (s : St σ) (k : Nat) (e : Ev ε) : Decidable (LossFor s k e) := by
  cases e with
  | check l v =>
    exact decidable_of_iff ((get s.info k).any
      (fun x => decide (x.state ≠ .inRetxQueue ∧ v.now > x.timeSent + x.rto)) = true) (by
        unfold LossFor; cases get s.info k <;> simp)
  | _ => unfold LossFor; infer_instance

/-- How many of the events `es`, that happen from state `s` on, tell that the Interest for segment `k`
was lost. -/
def lossCount (A : Alg σ ε) (o : Opts) (k : Nat) : St σ → List (Ev ε) → Nat
  | _, [] => 0
  | s, e :: es => (if LossFor s k e then 1 else 0) + lossCount A o k (s.step A o e) es

/-- Nacks that are not answered by retransmission hit only segments that do not exist, and the last
segment says that it is the last one. -/
def BeyondEndEv (segs : List Bytes) : Ev ε → Prop
  | .nack k r _ => r = .duplicate ∨ r = .congestion ∨ segs.length ≤ k
  | .data k p _ _ => k + 1 = segs.length → p.final ≠ .absent
  | _ => True

instance (segs : List Bytes) (e : Ev ε) : Decidable (BeyondEndEv segs e) := by
  cases e <;> unfold BeyondEndEv <;> infer_instance

/-- A consistent producer of `segs`; fatal Nacks only for segments that do not exist. -/
def beyondMachine (A : Alg σ ε) (o : Opts) (w : σ) (v : Env ε) (segs : List Bytes) :
    Machine (St σ) (Ev ε) :=
  { init := start A o w v
    step := St.step A o
    enabled := fun s e => s.enabled e ∧ ConsistentEv segs e ∧ BeyondEndEv segs e }

/-- The same with prompt cancelling of Interests and a user who does not cancel. -/
def politeBeyondMachine (A : Alg σ ε) (o : Opts) (w : σ) (v : Env ε) (segs : List Bytes) :
    Machine (St σ) (Ev ε) :=
  { init := start A o w v
    step := St.step A o
    enabled := fun s e => s.enabled e ∧ ConsistentEv segs e ∧ BeyondEndEv segs e ∧ Prompt s e ∧ NoCancel e }

instance (A : Alg σ ε) (o : Opts) (w : σ) (v : Env ε) (segs : List Bytes) (s : St σ) (e : Ev ε) :
    Decidable ((politeBeyondMachine A o w v segs).enabled s e) :=
  inferInstanceAs (Decidable (s.enabled e ∧ ConsistentEv segs e ∧ BeyondEndEv segs e ∧ Prompt s e ∧ NoCancel e))

/-- Every Data packet carries a FinalBlockId, as those of ndnputchunks do. -/
def Announced : Ev ε → Prop
  | .data _ p _ _ => p.final ≠ .absent
  | _ => True

instance (e : Ev ε) : Decidable (Announced e) := by
  cases e <;> unfold Announced <;> infer_instance

/-- A consistent producer of `segs` that announces the final segment in every packet and answers, or lets the
network answer, Interests for segments that do not exist as it likes; prompt cancelling of Interests, and a
user who does not cancel. -/
def servedMachine (A : Alg σ ε) (o : Opts) (w : σ) (v : Env ε) (segs : List Bytes) :
    Machine (St σ) (Ev ε) :=
  { init := start A o w v
    step := St.step A o
    enabled := fun s e => (politeBeyondMachine A o w v segs).enabled s e ∧ Announced e }

instance (A : Alg σ ε) (o : Opts) (w : σ) (v : Env ε) (segs : List Bytes) (s : St σ) (e : Ev ε) :
    Decidable ((servedMachine A o w v segs).enabled s e) :=
  inferInstanceAs (Decidable ((politeBeyondMachine A o w v segs).enabled s e ∧ Announced e))

/-- The events `es` do not lose too much: there is no retry limit, or every segment that exists was lost at most
as often as the limit permits to repeat its Interest. -/
def FewLosses (A : Alg σ ε) (o : Opts) (w : σ) (v : Env ε) (segs : List Bytes) (es : List (Ev ε)) : Prop :=
  o.maxRetries = -1 ∨
    ∀ k < segs.length, (lossCount A o k (start A o w v) es : Int) ≤ max 1 o.maxRetries

/-- With a retry limit there is no Nack with reason Duplicate for a segment that exists. (The pipeline takes no
notice of such a Nack until the RTO of the Interest has passed, which counts as a loss.) -/
def NoDuplicates (o : Opts) (segs : List Bytes) (es : List (Ev ε)) : Prop :=
  o.maxRetries = -1 ∨ ∀ k < segs.length, ∀ v, Ev.nack k .duplicate v ∉ es

/-- The windows that the algorithm gets to from `w` by decreases only. -/
inductive Decs (A : Alg σ ε) (w : σ) : σ → Prop
  | init : Decs A w w
  | dec {w'} (e : ε) : Decs A w w' → Decs A w (A.dec w' e)

/-- A simple window algorithm for examples: the window is a number of segments, it is halved on
congestion, down to two. -/
def halving : Alg Nat Unit := ⟨fun w _ => w, fun w _ => max 2 (w / 2), fun w => w⟩

end Verif.Adaptive
