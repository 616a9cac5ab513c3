import Verif.Model.Fixed

/-!
# The unit tests of the fixed pipeline, on the model

`tests/chunks/pipeline-interests-fixed.t.cpp`, test by test. These are tests of the model, not proofs. Where a test lets the lifetime of the
Interests pass, every Interest that is pending at the beginning times out. ndn-cxx sends an Interest in a posted callback: an Interest
expressed in response to a packet, with the clock advanced by a whole lifetime afterwards, is sent when the clock has advanced, and does not
time out before the next tick. The tests `TimeoutBeforeFinalBlockIdReceived` and `SegmentReceivedAfterTimeout` depend on this.
-/

namespace Verif.Conformance.Fixed

open Verif.Fixed

private def M : Machine St Ev := machine 5 3

private instance (s : St) (e : Ev) : Decidable (M.enabled s e) := inferInstanceAs (Decidable (s.enabled e))

/-- One event, if it is possible; afterwards the posted callbacks. -/
private def ev (e : Ev) (s : St) : Option St :=
  if M.enabled s e then
    let s := M.step s e
    some (if s.posted = [] then s else M.step s .posted)
  else none

/-- The slot in which a fetcher waits for segment `k`. -/
private def slot (s : St) (k : Nat) : Option Nat :=
  s.slots.findIdx? fun x => match x with | some (f, k') => k' == k && decide (0 < f.pending) && f.isRunning | none => false

/-- What the tests do: the arrival of a Data packet (`last`: the FinalBlockId), of a Nack, the expiry of all pending Interests except those
for the given segments, the expiry of all back-off timers. -/
private inductive Op
  | data (k : Nat) (last : Option Nat)
  | nack (k : Nat) (r : NackReason)
  | lifetime (except : List Nat)
  | backoff

private def pkt (last : Option Nat) : Pkt := ⟨[], match last with | some n => .seg n | none => .absent, false, false, true⟩

private def pendingSegs (s : St) : List Nat :=
  s.slots.filterMap fun x => match x with | some (f, k) => if 0 < f.pending ∧ f.isRunning then some k else none | none => none

private def timerSlots (s : St) : List Nat :=
  (List.range s.slots.length).filter fun i => match s.slots[i]? with | some (some (f, _)) => f.timer.isSome | _ => false

/-- The event for segment `k`, if a fetcher still waits for it. -/
private def forSeg (k : Nat) (e : Nat → Ev) (s : St) : Option St :=
  match slot s k with | some i => ev (e i) s | none => some s

private def op (s : St) : Op → Option St
  | .data k last => forSeg k (fun i => .data i (pkt last) false) s
  | .nack k r => forSeg k (fun i => .nack i r) s
  | .lifetime ex => ((pendingSegs s).filter (!ex.contains ·)).foldlM (fun s k => forSeg k .timeout s) s
  | .backoff => (timerSlots s).foldlM (fun s i => ev (.timer i) s) s

private def run (ops : List Op) : St := (ops.foldlM op M.init).getD { M.init with ub := true }

private def sent (s : St) : List Nat := s.log.filterMap fun x => match x with | .interest k => some k | _ => none

private def hasFailed (s : St) : Bool := s.log.any fun x => match x with | .failure _ => true | _ => false

private def ok (s : St) : Bool := !s.ub && !s.assertFailed && s.threw.isNone

/-! ## FullPipeline: 13 segments -/

private def full (n : Nat) : List Op := (List.range n).map fun i => .data i (some 12)

example : sent (run []) = [0, 1, 2, 3, 4] := by decide +kernel
example : ∀ i ∈ List.range 12, (run (full (i + 1))).nReceived = i + 1 ∧
    sent (run (full (i + 1))) = List.range (min (5 + i + 1) 13) := by decide +kernel
example : hasFailed (run (full 12)) = false ∧ ok (run (full 12)) = true := by decide +kernel
example : hasFailed (run (full 12 ++ List.replicate 4 (.lifetime []))) = true := by decide +kernel

/-! ## TimeoutAllSegments -/

example : ∀ i ∈ List.range 3, sent (run (List.replicate (i + 1) (.lifetime []))) = (List.replicate (i + 2) [0, 1, 2, 3, 4]).flatten ∧
    (run (List.replicate (i + 1) (.lifetime []))).nReceived = 0 := by decide +kernel
example : hasFailed (run (List.replicate 3 (.lifetime []))) = false ∧ hasFailed (run (List.replicate 4 (.lifetime []))) = true := by decide +kernel

/-! ## TimeoutAfterFinalBlockIdReceived: 18 segments -/

private def after : List Op :=
  [.lifetime []] ++ [1, 2, 3, 4].map (fun k => .data k (some 17)) ++ [.lifetime [], .lifetime []] ++
    [5, 6, 7, 8, 9].map (fun k => .data k (some 17)) ++ [.lifetime []]

example : hasFailed (run after) = true ∧ pendingSegs (run after) = [] ∧ ok (run after) = true := by decide +kernel
example : sent (run (after ++ [.lifetime []] ++ [9, 10, 11, 12, 13].map (fun k => .data k (some 17)) ++ List.replicate 3 (.lifetime []))) =
    sent (run after) := by decide +kernel

/-! ## TimeoutBeforeFinalBlockIdReceived: 22 segments -/

private def before1 (n : Nat) : List Op := [.lifetime []] ++ (List.range n).map (fun i => .data (i + 2) none)

example : ∀ i ∈ List.range 3, (sent (run (before1 (i + 1)))).getLast? = some (5 + i) := by decide +kernel
example : (sent (run (before1 3))).length = 5 * 3 - 2 := by decide +kernel

private def before2 : List Op := before1 3 ++ [.nack 0 .duplicate, .lifetime [0], .lifetime []]

example : hasFailed (run before2) = false ∧ hasFailed (run (before2 ++ [.data 0 none])) = false := by decide +kernel

private def before3 : List Op :=
  before2 ++ [.data 0 none] ++ (List.range 17).map (fun i => .data (i + 5) (if i = 16 then some 21 else none)) ++ [.lifetime []]

example : (run before3).nReceived = 21 ∧ hasFailed (run before3) = true ∧ ok (run before3) = true := by decide +kernel

/-! ## SegmentReceivedAfterTimeout: 22 segments -/

private def late : List Op := [.lifetime [], .nack 0 .duplicate]

example : hasFailed (run late) = false := by decide +kernel

private def late2 : List Op := late ++ [.lifetime [0], .lifetime [], .lifetime []]

example : hasFailed (run late2) = false ∧ pendingSegs (run late2) = [0] := by decide +kernel
example : (run (late2 ++ [.data 0 none])).nReceived = 1 ∧ hasFailed (run (late2 ++ [.data 0 none])) = true ∧
    ok (run (late2 ++ [.data 0 none])) = true := by decide +kernel

/-! ## CongestionAllSegments -/

private def nacks : List Op := [0, 1, 2, 3, 4].map (fun k => .nack k .congestion)

example : ∀ i ∈ List.range 3,
    sent (run (nacks ++ (List.replicate i (.backoff :: nacks)).flatten ++ [.backoff])) = (List.replicate (i + 2) [0, 1, 2, 3, 4]).flatten := by
  decide +kernel
example : hasFailed (run (nacks ++ (List.replicate 2 (.backoff :: nacks)).flatten)) = false ∧
    hasFailed (run (nacks ++ (List.replicate 3 (.backoff :: nacks)).flatten)) = true := by decide +kernel

end Verif.Conformance.Fixed
