import Verif.Model.Fixed
import Verif.Spec.Common

/-! # Vocabulary for the statements about the fixed pipeline -/

namespace Verif.Fixed

/-- The segment numbers passed to the data callback, in order. -/
def received (log : List Obs) : List Nat :=
  log.filterMap fun
    | .data k _ => some k
    | _ => none

/-- The number of segments that are being fetched. -/
def St.nRunning (s : St) : Nat :=
  s.slots.countP fun
    | some (f, _) => f.isRunning
    | none => false

/-- Event `e` is possible in state `s` when the network delivers, for the object with segments
`segs`, only Data of a consistent producer. It may still lose, delay, Nack or reorder anything. -/
def ConsistentEv (segs : List Bytes) (s : St) : Ev → Prop
  | .data i p _ => ∀ f k, s.slots[i]? = some (some (f, k)) → Consistent segs k p
  | _ => True

/-- The fixed pipeline fetching the object with segments `segs` from a consistent producer. -/
def netMachine (maxPipelineSize : Nat) (maxRetries : Int) (segs : List Bytes) : Machine St Ev :=
  { init := start maxPipelineSize maxRetries
    step := St.step
    enabled := fun s e => s.enabled e ∧ ConsistentEv segs s e }

/-- The slot at which a network or timer event arrives. -/
def Ev.pipe : Ev → Option Nat
  | .data i _ _ => some i
  | .nack i _ => some i
  | .timeout i => some i
  | .timer i => some i
  | .cancel => none
  | .posted => none

/-- The event reaches a segment fetch that is still running. -/
def active (s : St) (e : Ev) : Bool :=
  match e.pipe with
  | none => false
  | some i =>
    match s.slots[i]? with
    | some (some (f, _)) => f.isRunning
    | _ => false

/-- How many of the events reach a running segment fetch. -/
def activeCount (s : St) : List Ev → Nat
  | [] => 0
  | e :: es => (active s e).toNat + activeCount (s.step e) es

/-- The event is a Nack or a timeout. -/
def Ev.isLoss : Ev → Bool
  | .nack _ _ => true
  | .timeout _ => true
  | _ => false

/-- Nacks and timeouts hit only segments that do not exist, and the user does not cancel. -/
def LossBeyondEnd (segs : List Bytes) (s : St) (e : Ev) : Prop :=
  (e.isLoss = true → ∀ i f k, e.pipe = some i → s.slots[i]? = some (some (f, k)) → segs.length ≤ k) ∧
  e ≠ .cancel ∧ (∀ i p, e ≠ .data i p true)

/-- The setting of claim C10. -/
def beyondEndMachine (maxPipelineSize : Nat) (maxRetries : Int) (segs : List Bytes) :
    Machine St Ev :=
  { init := start maxPipelineSize maxRetries
    step := St.step
    enabled := fun s e => s.enabled e ∧ ConsistentEv segs s e ∧ LossBeyondEnd segs s e }

/-- The claim C10: when only requests for segments beyond the end fail, the pipeline does not. -/
def BeyondEndHarmless (maxPipelineSize : Nat) (maxRetries : Int) (segs : List Bytes) : Prop :=
  ∀ es s, (beyondEndMachine maxPipelineSize maxRetries segs).Run es s →
    ∀ m, Obs.failure m ∉ s.log

/-- As `beyondEndMachine`, and moreover such Nacks and timeouts arrive only after some Data with a
FinalBlockId was passed to the data callback. -/
def lateLossMachine (maxPipelineSize : Nat) (maxRetries : Int) (segs : List Bytes) :
    Machine St Ev :=
  { init := start maxPipelineSize maxRetries
    step := St.step
    enabled := fun s e => s.enabled e ∧ ConsistentEv segs s e ∧ LossBeyondEnd segs s e ∧
      (e.isLoss = true → ∃ k p, Obs.data k p ∈ s.log ∧ p.final ≠ .absent) }

/-- A Nack after which the Interest is sent again (data-fetcher.cpp:112-141), or a timeout. -/
def Ev.isSoft : Ev → Bool
  | .nack _ .duplicate => true
  | .nack _ .congestion => true
  | .timeout _ => true
  | _ => false

/-- The event is no Nack or timeout; or one that hits a segment that does not exist, after some Data
with a FinalBlockId was delivered; or one after which the Interest may be sent again because at most
`R` of the `R + 1` permitted Interests for this segment have been sent. The user does not cancel. -/
def Tolerable (R : Int) (segs : List Bytes) (s : St) (e : Ev) : Prop :=
  e ≠ .cancel ∧ (∀ i p, e ≠ .data i p true) ∧
  (e.isLoss = true → ∀ i f k, e.pipe = some i → s.slots[i]? = some (some (f, k)) →
    (segs.length ≤ k ∧ ∃ j p, Obs.data j p ∈ s.log ∧ p.final ≠ .absent) ∨
    (e.isSoft = true ∧ (R = -1 ∨ (s.log.count (.interest k) : Int) ≤ R)))

/-- The fixed pipeline fetching from a consistent producer over a network that does not lose too much. -/
def fairMachine (maxPipelineSize : Nat) (maxRetries : Int) (segs : List Bytes) : Machine St Ev :=
  { init := start maxPipelineSize maxRetries
    step := St.step
    enabled := fun s e => s.enabled e ∧ ConsistentEv segs s e ∧ Tolerable maxRetries segs s e }

/-- The visible event is a call of the failure callback. -/
def Obs.isFailure : Obs → Bool
  | .failure _ => true
  | _ => false

end Verif.Fixed
