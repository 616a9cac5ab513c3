import Verif.Proofs.Fixed

/-! # Further invariants of the fixed pipeline: completion, silence, termination -/

namespace Verif.Fixed

set_option linter.unusedSimpArgs false

open Verif.DataFetcher (Fetcher)

attribute [local simp] Obs.isFailure

/-- What `fetchNextSegment` can do to the parts of the state that the history invariants mention. -/
theorem fetchNext_effect (s : St) (i : Nat) :
    let s' := (s.fetchNextSegment i).1
    (s'.log = s.log ∨ (s'.log = s.log ++ [.interest s.nextSegmentNo] ∧ s.isStopping = false)) ∧
    s'.hasFinalBlockId = s.hasFinalBlockId ∧ s'.lastSegmentNo = s.lastSegmentNo ∧
    s'.nReceived = s.nReceived ∧ s'.threw = s.threw ∧
    ((s'.posted = s.posted ∧ s'.isStopping = s.isStopping) ∨
      (s.isStopping = false ∧ s'.isStopping = true ∧ ∃ m, s'.posted = s.posted ++ [m])) := by
  unfold St.fetchNextSegment
  split
  · simp
  · rename_i h
    split
    · simp [St.onFailure, h, St.cancel]
    · dsimp only
      split
      · simp
      · simp only [St.emit]
        split <;> simp [h]

/-- History invariant: where the final number comes from, and when the transfer was complete. -/
structure Hist (s : St) : Prop where
  final : s.hasFinalBlockId = true → ∃ k p, Obs.data k p ∈ s.log ∧ p.final = .seg s.lastSegmentNo
  done : Obs.complete ∈ s.log → s.hasFinalBlockId = true ∧ s.lastSegmentNo + 1 ≤ s.nReceived
  quiet : s.isStopping = false → s.posted = [] ∧ ∀ m, Obs.failure m ∉ s.log
  once : s.posted.length + s.log.countP Obs.isFailure ≤ 1

theorem hist_same {s s' : St} (h : Hist s) (hlog : s'.log = s.log ∨ ∃ k, s'.log = s.log ++ [.interest k])
    (h1 : s'.hasFinalBlockId = s.hasFinalBlockId) (h2 : s'.lastSegmentNo = s.lastSegmentNo)
    (h3 : s'.nReceived = s.nReceived)
    (h4 : (s'.posted = s.posted ∧ s'.isStopping = s.isStopping) ∨
      (s.isStopping = false ∧ s'.isStopping = true ∧ (s'.posted = s.posted ∨ ∃ m, s'.posted = s.posted ++ [m]))) :
    Hist s' := by
  have hmem : ∀ o, o ∈ s.log → o ∈ s'.log := by
    intro o ho; rcases hlog with h | ⟨k, h⟩ <;> simp [h, ho]
  have hmem' : ∀ o, (∀ k, o ≠ .interest k) → o ∈ s'.log → o ∈ s.log := by
    intro o ho ho2; rcases hlog with h | ⟨k, h⟩
    · rwa [h] at ho2
    · rw [h] at ho2; simpa [ho k] using ho2
  have hcnt : s'.log.countP Obs.isFailure =
      s.log.countP Obs.isFailure := by
    rcases hlog with h | ⟨k, h⟩ <;> simp [h, List.countP_append]
  constructor
  · rw [h1, h2]
    intro hf
    obtain ⟨k, p, h5, h6⟩ := h.final hf
    exact ⟨k, p, hmem _ h5, h6⟩
  · rw [h1, h2, h3]
    intro hc
    exact h.done (hmem' _ (by simp) hc)
  · intro hs
    rcases h4 with ⟨h5, h6⟩ | ⟨_, h6, _⟩
    · rw [h5]
      rw [h6] at hs
      obtain ⟨h7, h8⟩ := h.quiet hs
      exact ⟨h7, fun m hm => h8 m (hmem' _ (by simp) hm)⟩
    · simp [h6] at hs
  · rw [hcnt]
    rcases h4 with ⟨h5, h6⟩ | ⟨h5, h6, h7⟩
    · rw [h5]; exact h.once
    · obtain ⟨h8, h9⟩ := h.quiet h5
      have : s.log.countP Obs.isFailure = 0 := by
        rw [List.countP_eq_zero]
        intro o ho
        cases o with
        | failure m => exact absurd ho (h9 m)
        | _ => simp
      rw [this]
      rcases h7 with h7 | ⟨m, h7⟩ <;> simp [h7, h8]

theorem hist_fetchNext {s : St} (h : Hist s) (i) : Hist (s.fetchNextSegment i).1 := by
  obtain ⟨h1, h2, h3, h4, _, h5⟩ := fetchNext_effect s i
  refine hist_same h ?_ h2 h3 h4 ?_
  · rcases h1 with h1 | h1
    · exact Or.inl h1
    · exact Or.inr ⟨_, h1.1⟩
  · rcases h5 with h5 | ⟨a, b, c⟩
    · exact Or.inl h5
    · exact Or.inr ⟨a, b, Or.inr c⟩

theorem hist_cancel {s : St} (h : Hist s) : Hist s.cancel := by
  unfold St.cancel
  split
  · exact h
  · rename_i hs
    exact hist_same h (Or.inl rfl) rfl rfl rfl (Or.inr ⟨by simpa using hs, rfl, Or.inl rfl⟩)

theorem hist_onFailure {s : St} (h : Hist s) (m) : Hist (s.onFailure m) := by
  unfold St.onFailure
  split
  · exact h
  · rename_i hs
    exact hist_same h (Or.inl (by simp [St.cancel, hs])) (by simp [St.cancel, hs]) (by simp [St.cancel, hs])
      (by simp [St.cancel, hs]) (Or.inr ⟨by simpa using hs, by simp [St.cancel, hs], Or.inr ⟨m, by simp [St.cancel, hs]⟩⟩)

theorem hist_slots {s : St} (h : Hist s) (sl) : Hist { s with slots := sl } :=
  hist_same h (Or.inl rfl) rfl rfl rfl (Or.inl ⟨rfl, rfl⟩)

theorem hist_complete {s : St} (h : Hist s) (hall : s.allSegmentsReceived = true) :
    Hist (s.emit .complete) := by
  simp only [St.allSegmentsReceived, Bool.and_eq_true, decide_eq_true_eq] at hall
  obtain ⟨⟨a, b⟩, c⟩ := hall
  constructor
  · intro hf
    obtain ⟨k, p, h5, h6⟩ := h.final hf
    exact ⟨k, p, by simp [St.emit, h5], h6⟩
  · intro _; simp only [St.emit]; exact ⟨b, by omega⟩
  · intro hs
    obtain ⟨h1, h2⟩ := h.quiet hs
    exact ⟨h1, fun m hm => h2 m (by simpa [St.emit] using hm)⟩
  · have := h.once
    simpa [St.emit, List.countP_append] using this

theorem hist_finish {s : St} (h : Hist s) (i) : Hist (s.finish i) := by
  unfold St.finish
  split
  · exact hist_complete h (by assumption)
  · exact hist_fetchNext h i

theorem hist_onData {s : St} (h : Hist s) (k p c) : Hist (s.onData k p c) := by
  unfold St.onData
  have h1 : Hist (({ s with nReceived := s.nReceived + 1, receivedSize := s.receivedSize + p.content.length } : St).emit
      (.data k p)) := by
    constructor
    · intro hf
      obtain ⟨k', p', h5, h6⟩ := h.final hf
      exact ⟨k', p', by simp [St.emit, h5], h6⟩
    · intro hc
      have := h.done (by simpa [St.emit] using hc)
      simp only [St.emit]
      exact ⟨this.1, by omega⟩
    · intro hs
      obtain ⟨h1, h2⟩ := h.quiet hs
      exact ⟨h1, fun m hm => h2 m (by simpa [St.emit] using hm)⟩
    · have := h.once
      simpa [St.emit, List.countP_append] using this
  dsimp only
  split
  · exact hist_cancel h1
  · exact h1

/-- What the log looks like right after `onData`. -/
theorem onData_log (s : St) (k p c) : (s.onData k p c).log = s.log ++ [.data k p] := by
  unfold St.onData St.cancel St.emit
  dsimp only
  split
  · split <;> rfl
  · rfl

theorem hist_afterOnData {s : St} (h : Hist s) {k p} (hp : Obs.data k p ∈ s.log) (i) :
    Hist (s.afterOnData i p) := by
  unfold St.afterOnData
  split
  · rename_i hnf
    simp only [Bool.not_eq_true'] at hnf
    split
    · exact hist_finish h i
    · exact hist_same h (Or.inl rfl) rfl rfl rfl (Or.inl ⟨rfl, rfl⟩)
    · rename_i n heq
      have h2 : Hist { s with lastSegmentNo := n, hasFinalBlockId := true, slots := (finalLoop n s.slots).1 } := by
        constructor
        · intro _; exact ⟨k, p, hp, heq⟩
        · intro hc
          have := (h.done hc).1
          simp [hnf] at this
        · exact h.quiet
        · exact h.once
      dsimp only
      split
      · exact hist_onFailure h2 _
      · exact hist_finish h2 i
  · exact hist_finish h i

theorem hist_handleData {s : St} (h : Hist s) (i k p c) : Hist (s.handleData i k p c) := by
  unfold St.handleData
  split
  · exact h
  · exact hist_afterOnData (hist_onData h k p c) (k := k) (p := p) (by simp [onData_log]) i

theorem hist_handleFail {s : St} (h : Hist s) (m i) : Hist (s.handleFail m i) := by
  unfold St.handleFail
  split
  · exact h
  · split
    · exact hist_same h (Or.inl rfl) rfl rfl rfl (Or.inl ⟨rfl, rfl⟩)
    · unfold St.handleFailSeg
      split
      · exact hist_onFailure h _
      · split
        · dsimp only
          split
          · exact hist_onFailure (hist_slots h _) _
          · exact hist_same h (Or.inl rfl) rfl rfl rfl (Or.inl ⟨rfl, rfl⟩)
        · exact h

theorem hist_react {s : St} (h : Hist s) (i k p c o) : Hist (s.react i k p c o) := by
  cases o with
  | interest => exact hist_same h (Or.inr ⟨k, rfl⟩) rfl rfl rfl (Or.inl ⟨rfl, rfl⟩)
  | onData => exact hist_handleData h i k p c
  | onNack m => exact hist_handleFail h m i
  | onTimeout m => exact hist_handleFail h m i

theorem hist_foldl {outs : List DataFetcher.Out} {s : St} (h : Hist s) (i k p c) :
    Hist (outs.foldl (fun s o => s.react i k p c o) s) := by
  induction outs generalizing s with
  | nil => exact h
  | cons o rest ih => exact ih (hist_react h i k p c o)

theorem hist_fetcherEvent {s : St} (h : Hist s) (i e p c) : Hist (s.fetcherEvent i e p c) := by
  unfold St.fetcherEvent
  split
  · exact hist_foldl (hist_slots h _) i _ p c
  · exact h

theorem hist_step {s : St} (h : Hist s) (e) : Hist (s.step e) := by
  unfold St.step
  split
  · exact h
  · cases e with
    | data i p c => exact hist_fetcherEvent h _ _ _ _
    | nack i r => exact hist_fetcherEvent h _ _ _ _
    | timeout i => exact hist_fetcherEvent h _ _ _ _
    | timer i => exact hist_fetcherEvent h _ _ _ _
    | cancel => exact hist_cancel h
    | posted =>
      dsimp only
      split
      · exact h
      · rename_i m rest heq
        constructor
        · intro hf
          obtain ⟨k', p', h5, h6⟩ := h.final hf
          exact ⟨k', p', by simp [St.emit, h5], h6⟩
        · intro hc
          exact h.done (by simpa [St.emit] using hc)
        · intro hs
          have := (h.quiet hs).1
          simp [heq] at this
        · have := h.once
          rw [heq] at this
          simp only [List.length_cons] at this
          simp [St.emit, List.countP_append]
          omega

theorem hist_doRunLoop {s : St} (h : Hist s) (i n) : Hist (s.doRunLoop i n) := by
  induction n generalizing s i with
  | zero => exact h
  | succ n ih =>
    unfold St.doRunLoop
    have := hist_fetchNext h i
    rcases hx : s.fetchNextSegment i with ⟨s', ok⟩
    rw [hx] at this
    dsimp only at this ⊢
    split
    · exact ih this _
    · exact this

theorem hist_start (N R) : Hist (start N R) := by
  apply hist_doRunLoop
  constructor <;> simp [construct]

theorem run_hist {N : Nat} {R es s} (h : (machine N R).Run es s) : Hist s :=
  h.invariant (P := Hist) (hist_start N R) (fun _ e h _ => hist_step h e)

/-- A run with a consistent producer is a run. -/
theorem net_run {N : Nat} {R segs es s} (h : (netMachine N R segs).Run es s) :
    (machine N R).Run es s := by
  induction h with
  | nil => exact Machine.Run.nil
  | snoc e _ he ih => exact Machine.Run.snoc (M := machine N R) e ih he.1

/-! ## Which Data is in the log -/

/-- Everything delivered so far comes from a consistent producer. -/
def AllConsistent (segs : List Bytes) (s : St) : Prop :=
  ∀ k p, Obs.data k p ∈ s.log → Consistent segs k p

theorem fetchNext_data {s : St} {i k p} (h : Obs.data k p ∈ (s.fetchNextSegment i).1.log) :
    Obs.data k p ∈ s.log := by
  obtain ⟨h1, _⟩ := fetchNext_effect s i
  rcases h1 with h1 | h1
  · rwa [h1] at h
  · rw [h1.1] at h; simpa using h

theorem onFailure_log (s : St) (m) : (s.onFailure m).log = s.log := by
  unfold St.onFailure St.cancel
  split
  · rfl
  · dsimp only

theorem finish_data {s : St} {i k p} (h : Obs.data k p ∈ (s.finish i).log) : Obs.data k p ∈ s.log := by
  unfold St.finish at h
  split at h
  · simpa [St.emit] using h
  · exact fetchNext_data h

theorem afterOnData_data {s : St} {i q k p} (h : Obs.data k p ∈ (s.afterOnData i q).log) :
    Obs.data k p ∈ s.log := by
  unfold St.afterOnData at h
  split at h
  · split at h
    · exact finish_data h
    · exact h
    · dsimp only at h
      split at h
      · rwa [onFailure_log] at h
      · have := finish_data h
        exact this
  · exact finish_data h

theorem handleFail_log (s : St) (m i) : (s.handleFail m i).log = s.log := by
  unfold St.handleFail
  split
  · rfl
  · split
    · rfl
    · unfold St.handleFailSeg
      split
      · exact onFailure_log _ _
      · split
        · dsimp only
          split
          · exact onFailure_log _ _
          · rfl
        · rfl

/-- A step adds Data to the log only if it is the arrival of that Data at its fetcher. -/
theorem fetcherEvent_data {s : St} {i e p c k q} (h : Obs.data k q ∈ (s.fetcherEvent i e p c).log)
    (hnew : Obs.data k q ∉ s.log) : q = p ∧ ∃ f, At s i f k ∧ DataFetcher.Out.onData ∈ (f.step e).2 := by
  unfold St.fetcherEvent at h
  split at h
  · rename_i f k' ha
    dsimp only at h
    have key : ∀ (outs : List DataFetcher.Out) (t : St), Obs.data k q ∉ t.log →
        Obs.data k q ∈ (outs.foldl (fun s o => s.react i k' p c o) t).log →
        q = p ∧ k = k' ∧ DataFetcher.Out.onData ∈ outs := by
      intro outs
      induction outs with
      | nil => intro t h1 h2; exact absurd h2 h1
      | cons o rest ih =>
        intro t h1 h2
        simp only [List.foldl_cons] at h2
        by_cases h3 : Obs.data k q ∈ (t.react i k' p c o).log
        · cases o with
          | interest => simp [St.react, St.emit] at h3; exact absurd h3 h1
          | onNack m => simp only [St.react, handleFail_log] at h3; exact absurd h3 h1
          | onTimeout m => simp only [St.react, handleFail_log] at h3; exact absurd h3 h1
          | onData =>
            simp only [St.react, St.handleData] at h3
            split at h3
            · exact absurd h3 h1
            · have := afterOnData_data h3
              rw [onData_log] at this
              simp only [List.mem_append, List.mem_singleton, Obs.data.injEq] at this
              rcases this with h4 | ⟨rfl, rfl⟩
              · exact absurd h4 h1
              · exact ⟨rfl, rfl, by simp⟩
        · obtain ⟨a, b, d⟩ := ih _ h3 h2
          exact ⟨a, b, by simp [d]⟩
    obtain ⟨a, rfl, d⟩ := key (f.step e).2
      { s with slots := s.slots.set i (some ((f.step e).1, k')) } hnew h
    exact ⟨a, f, ha, d⟩
  · exact absurd h hnew

theorem step_onData {f : Fetcher} {e : DataFetcher.Ev} (h : DataFetcher.Out.onData ∈ (f.step e).2) :
    e = .data := by
  cases e with
  | data => rfl
  | nack r =>
    exfalso
    revert h
    unfold Fetcher.step Fetcher.handleNack Fetcher.expressInterest
    dsimp only
    repeat' split
    all_goals simp
  | timeout =>
    exfalso
    revert h
    unfold Fetcher.step Fetcher.handleTimeout Fetcher.expressInterest
    dsimp only
    repeat' split
    all_goals simp
  | timer => simp [Fetcher.step, Fetcher.expressInterest] at h
  | cancel => simp [Fetcher.step] at h

theorem consistent_step {segs s e} (h : AllConsistent segs s) (he : ConsistentEv segs s e) :
    AllConsistent segs (s.step e) := by
  intro k q hq
  by_cases hold : Obs.data k q ∈ s.log
  · exact h k q hold
  unfold St.step at hq
  split at hq
  · exact h k q hq
  · cases e with
    | data i p c =>
      obtain ⟨rfl, f, ha, _⟩ := fetcherEvent_data hq hold
      exact he f k ha
    | nack i r =>
      obtain ⟨_, f, ha, ho⟩ := fetcherEvent_data hq hold
      simpa using step_onData ho
    | timeout i =>
      obtain ⟨_, f, ha, ho⟩ := fetcherEvent_data hq hold
      simpa using step_onData ho
    | timer i =>
      obtain ⟨_, f, ha, ho⟩ := fetcherEvent_data hq hold
      simpa using step_onData ho
    | cancel =>
      simp only [St.cancel] at hq
      split at hq <;> exact h k q hq
    | posted =>
      dsimp only at hq
      split at hq
      · exact h k q hq
      · simp [St.emit] at hq; exact h k q hq

theorem doRunLoop_data {s : St} {i n k p} (h : Obs.data k p ∈ (s.doRunLoop i n).log) :
    Obs.data k p ∈ s.log := by
  induction n generalizing s i with
  | zero => exact h
  | succ n ih =>
    unfold St.doRunLoop at h
    have hfd := fetchNext_data (s := s) (i := i) (k := k) (p := p)
    rcases hx : s.fetchNextSegment i with ⟨s', ok⟩
    rw [hx] at h hfd
    dsimp only at h hfd
    split at h
    · exact hfd (ih h)
    · exact hfd h

theorem net_consistent {N : Nat} {R segs es s} (h : (netMachine N R segs).Run es s) :
    AllConsistent segs s := by
  refine Machine.Run.invariant (M := netMachine N R segs) (P := AllConsistent segs) ?_
    (fun s e h he => consistent_step h he.2) h
  intro k p hp
  have := doRunLoop_data hp
  simp [construct] at this

/-! ## Termination measure -/

/-- Remaining work of a fetcher. -/
def phi (R : Int) (f : Fetcher) : Nat :=
  if f.isRunning then
    (2 * (R + 1 - f.nNacks) + (R + 1 - f.nTimeouts)).toNat + (if f.timer.isSome then 1 else 0)
  else 0

/-- Remaining work of a slot. -/
def slotPhi (R : Int) : Slot → Nat
  | none => 0
  | some (f, _) => phi R f

/-- Remaining work of all slots. -/
def slotSum (R : Int) (l : List Slot) : Nat := (l.map (slotPhi R)).sum

/-- Work that one segment can cause at most. -/
def full (R : Int) : Nat := (3 * (R + 1)).toNat

theorem sum_set (l : List Slot) (R) (i) (x y : Slot) (h : l[i]? = some x) :
    slotSum R (l.set i y) + slotPhi R x = slotSum R l + slotPhi R y := by
  induction l generalizing i with
  | nil => simp at h
  | cons a l ih =>
    cases i with
    | zero =>
      simp at h
      subst h
      simp [slotSum]; omega
    | succ i =>
      simp at h
      have := ih i h
      simp [slotSum] at this ⊢
      omega

theorem phi_fetch (R : Int) : phi R (DataFetcher.fetch R R).1 ≤ full R := by
  simp [phi, DataFetcher.fetch, Fetcher.expressInterest, Fetcher.isRunning, full]
  omega

theorem phi_cancel (R : Int) (f : Fetcher) : phi R f.cancel = 0 := by
  simp [phi, cancel_running]

theorem slotSum_nil (R) : slotSum R [] = 0 := rfl

theorem slotSum_cons (R x l) : slotSum R (x :: l) = slotPhi R x + slotSum R l := rfl

theorem finalLoop_sum (R last l) : slotSum R (finalLoop last l).1 ≤ slotSum R l := by
  induction l with
  | nil => simp [finalLoop]
  | cons a l ih =>
    cases a with
    | none => simp only [finalLoop, slotSum_cons]; omega
    | some x =>
      obtain ⟨f, k⟩ := x
      simp only [finalLoop]
      split
      · simp only [slotSum_cons, slotPhi, phi_cancel]; omega
      · split
        · exact Nat.le_refl _
        · simp only [slotSum_cons]; omega

theorem failLoop_sum (R b l) : slotSum R (failLoop b l).1 ≤ slotSum R l := by
  induction l with
  | nil => simp [failLoop]
  | cons a l ih =>
    cases a with
    | none => simp only [failLoop, slotSum_cons]; omega
    | some x =>
      obtain ⟨f, k⟩ := x
      simp only [failLoop]
      split
      · simp only [slotSum_cons, slotPhi, phi_cancel]; omega
      · simp only [slotSum_cons]; omega

theorem cancel_sum (R) (s : St) : slotSum R s.cancel.slots ≤ slotSum R s.slots := by
  unfold St.cancel
  split
  · exact Nat.le_refl _
  · simp [slotSum_nil]

theorem onFailure_sum (R) (s : St) (m) : slotSum R (s.onFailure m).slots ≤ slotSum R s.slots := by
  unfold St.onFailure
  split
  · exact Nat.le_refl _
  · exact cancel_sum R s

theorem onFailure_received (s : St) (m) : received (s.onFailure m).log = received s.log := by
  rw [onFailure_log]

theorem fetchNext_sum {R} (s : St) (i) (hR : s.maxRetries = R) :
    slotSum R (s.fetchNextSegment i).1.slots ≤ slotSum R s.slots + full R ∧
    received (s.fetchNextSegment i).1.log = received s.log := by
  subst hR
  refine ⟨?_, ?_⟩
  · unfold St.fetchNextSegment
    split
    · simp
    · split
      · have := onFailure_sum s.maxRetries s .noFinal
        dsimp only; omega
      · dsimp only
        split
        · simp
        · simp only [St.emit]
          split
          · simp
          · rename_i old ho
            have := sum_set s.slots s.maxRetries i old
              (some ((DataFetcher.fetch s.maxRetries s.maxRetries).1, s.nextSegmentNo)) ho
            have h2 := phi_fetch s.maxRetries
            simp only [slotPhi] at this
            dsimp only
            omega
  · obtain ⟨h1, _⟩ := fetchNext_effect s i
    rcases h1 with h1 | h1
    · rw [h1]
    · rw [h1.1]; simp

theorem finish_sum {R} (s : St) (i) (hR : s.maxRetries = R) :
    slotSum R (s.finish i).slots ≤ slotSum R s.slots + full R ∧
    received (s.finish i).log = received s.log := by
  unfold St.finish
  split
  · simp [St.emit]
  · exact fetchNext_sum s i hR

theorem afterOnData_sum {R} (s : St) (i p) (hR : s.maxRetries = R) :
    slotSum R (s.afterOnData i p).slots ≤ slotSum R s.slots + full R ∧
    received (s.afterOnData i p).log = received s.log := by
  unfold St.afterOnData
  split
  · split
    · exact finish_sum s i hR
    · simp
    · rename_i n _
      have h1 := finalLoop_sum R n s.slots
      dsimp only
      split
      · rw [onFailure_received]
        have := onFailure_sum R { s with lastSegmentNo := n, hasFinalBlockId := true, slots := (finalLoop n s.slots).1 }
        refine ⟨Nat.le_trans (this _) ?_, rfl⟩
        dsimp only; omega
      · obtain ⟨h2, h3⟩ := finish_sum (R := R)
          { s with lastSegmentNo := n, hasFinalBlockId := true, slots := (finalLoop n s.slots).1 } i hR
        refine ⟨Nat.le_trans h2 ?_, h3⟩
        dsimp only; omega
  · exact finish_sum s i hR

theorem onData_sum (R) (s : St) (k p c) :
    slotSum R (s.onData k p c).slots ≤ slotSum R s.slots ∧ (s.onData k p c).maxRetries = s.maxRetries := by
  unfold St.onData St.cancel St.emit
  dsimp only
  split
  · split <;> simp [slotSum_nil]
  · simp

theorem handleFail_sum (R) (s : St) (m i) : slotSum R (s.handleFail m i).slots ≤ slotSum R s.slots := by
  unfold St.handleFail
  split
  · exact Nat.le_refl _
  · split
    · exact Nat.le_refl _
    · rename_i slot _
      unfold St.handleFailSeg
      split
      · exact onFailure_sum _ _ _
      · split
        · have := failLoop_sum R (slotSeg slot) s.slots
          dsimp only
          split
          · exact Nat.le_trans (onFailure_sum R { s with slots := (failLoop (slotSeg slot) s.slots).1 } _) this
          · exact this
        · exact Nat.le_refl _

/-- Remaining work. -/
def Phi (R : Int) (L : Nat) (s : St) : Nat :=
  slotSum R s.slots + full R * (L - (received s.log).length)

theorem phi_running {R : Int} {f : Fetcher} (hR : 0 ≤ R) (h : DataFetcher.Inv R R f) (hr : f.isRunning = true) :
    3 ≤ phi R f := by
  have h1 := h.nnl hr
  have h2 := h.ntl hr
  have h3 : 0 ≤ f.nNacks := h.nn0
  have h4 : 0 ≤ f.nTimeouts := h.nt0
  simp only [phi, hr, if_true]
  omega

theorem phi_eq {R : Int} {f : Fetcher} (hr : f.isRunning = true) :
    phi R f = (2 * (R + 1 - f.nNacks) + (R + 1 - f.nTimeouts)).toNat + (if f.timer.isSome then 1 else 0) := by
  simp [phi, hr]

theorem consistent_lt {segs k p} (h : Consistent segs k p) : k < segs.length := by
  have := h.1
  exact (List.getElem?_eq_some_iff.mp this).1

theorem phi_fetcherEvent {N : Nat} {R s i e p c segs} (hR : 0 ≤ R) (h : Inv N R s)
    (hc : AllConsistent segs s) (he : s.slotEnabled i e)
    (hp : e = .data → ∀ f k, At s i f k → Consistent segs k p) (hne : e ≠ .cancel) :
    Phi R segs.length (s.fetcherEvent i e p c) +
      (if (match s.slots[i]? with | some (some (f, _)) => f.isRunning | _ => false) = true then 1 else 0) ≤
      Phi R segs.length s := by
  unfold St.slotEnabled at he
  split at he
  case h_2 => exact absurd he (by simp)
  rename_i f k ha
  have ha' : At s i f k := ha
  have hI := h.core.fet i f k ha'
  unfold St.fetcherEvent
  rw [ha]
  dsimp only
  by_cases hr : f.isRunning = true
  case neg =>
    simp only [Bool.not_eq_true] at hr
    obtain ⟨h1, h2, _⟩ := DataFetcher.step_idle hI hr he
    rw [h1]
    have := sum_set s.slots R i _ (some ((f.step e).1, k)) ha
    simp only [slotPhi, phi, hr, h2] at this
    simp only [Phi, List.foldl_nil, hr]
    simp at this ⊢
    omega
  obtain ⟨hI', hE⟩ := DataFetcher.step_running hI hr he
  have hset := sum_set s.slots R i _ (some ((f.step e).1, k)) ha
  have h3 := phi_running hR hI hr
  have hphi := phi_eq (R := R) hr
  have nnl := hI.nnl hr
  have ntl := hI.ntl hr
  have nn0 : 0 ≤ f.nNacks := hI.nn0
  have nt0 : 0 ≤ f.nTimeouts := hI.nt0
  have hone := hI.one hr
  have hone' := hI'.one
  simp only [slotPhi] at hset
  simp only [hr, if_true]
  generalize hf' : (f.step e).1 = f' at *
  generalize ho : (f.step e).2 = outs at *
  -- a failure of the fetcher
  have hfail : ∀ m, f'.isRunning = false →
      Phi R segs.length (St.handleFail { s with slots := s.slots.set i (some (f', k)) } m i) + 1 ≤
        Phi R segs.length s := by
    intro m hnr
    have h4 := handleFail_sum R { s with slots := s.slots.set i (some (f', k)) } m i
    have h5 : phi R f' = 0 := by simp [phi, hnr]
    simp only [Phi, handleFail_log]
    dsimp only at h4
    omega
  -- a retransmission or a pause
  have hretry : ∀ s' : St, s'.slots = s.slots.set i (some (f', k)) → received s'.log = received s.log →
      phi R f' + 1 ≤ phi R f → Phi R segs.length s' + 1 ≤ Phi R segs.length s := by
    intro s' h1 h2 h3
    simp only [Phi, h1, h2]
    omega
  cases hE with
  | data _ h1 h2 h4 h5 h6 =>
    simp only [List.foldl_cons, List.foldl_nil, St.react]
    have hns := not_stopping h.core ha'
    have hhd : St.handleData { s with slots := s.slots.set i (some (f', k)) } i k p c =
        (St.onData { s with slots := s.slots.set i (some (f', k)) } k p c).afterOnData i p := by
      unfold St.handleData
      rw [if_neg (by simp [hns])]
    rw [hhd]
    have hco := hp rfl f k ha'
    have hklt := consistent_lt hco
    have hnot := h.core.live i f k ha' (Or.inl hr)
    have hbound : (received s.log).length + 1 ≤ segs.length := by
      have hnd : (k :: received s.log).Nodup := List.nodup_cons.mpr ⟨hnot, h.core.rnodup⟩
      have := nodup_length_le (b := segs.length) hnd (by
        intro x hx
        rcases List.mem_cons.mp hx with rfl | hx
        · exact hklt
        · simp only [received, List.mem_filterMap] at hx
          obtain ⟨o, ho, hox⟩ := hx
          cases o with
          | data k' p' =>
            simp at hox
            subst hox
            exact consistent_lt (hc _ _ ho)
          | _ => simp at hox)
      simpa using this
    obtain ⟨g1, g2⟩ := onData_sum R { s with slots := s.slots.set i (some (f', k)) } k p c
    obtain ⟨g3, g4⟩ := afterOnData_sum (R := R)
      (St.onData { s with slots := s.slots.set i (some (f', k)) } k p c) i p (by rw [g2]; exact h.core.cfgR)
    simp only [Phi]
    rw [g4, onData_log]
    have hz : phi R f' = 0 := by simp [phi, h1]
    simp only [received_append, received_data, List.length_append, List.length_singleton]
    have hmul : full R * (segs.length - (received s.log).length) =
        full R * (segs.length - ((received s.log).length + 1)) + full R := by
      have : segs.length - (received s.log).length = segs.length - ((received s.log).length + 1) + 1 := by omega
      rw [this, Nat.mul_add, Nat.mul_one]
    rw [hmul]
    dsimp only at g1
    omega
  | cancel => exact absurd rfl hne
  | timer _ h1 h2 h4 h5 h6 =>
    refine hretry _ rfl (by simp [St.react, St.emit]) ?_
    have hz := phi_eq (R := R) h1
    have : f'.timer = none := by
      rcases hone' h1 with h | h
      · exact h.2
      · omega
    have h7 : f.timer.isSome = true := by
      rcases hone with h | h
      · omega
      · exact h.2
    rw [hz, hphi, this, h7, h5, h6]
    simp
  | retryTimeout _ h1 h2 h4 h5 h6 =>
    refine hretry _ rfl (by simp [St.react, St.emit]) ?_
    have hz := phi_eq (R := R) h1
    have h8 : f'.timer = none := by
      rcases hone' h1 with h | h
      · exact h.2
      · omega
    have h7 : f.timer = none := by
      rcases hone with h | h
      · exact h.2
      · omega
    obtain ⟨h9, h10⟩ := h6 (by omega)
    rw [hz, hphi, h8, h7, h5, h9]
    simp; omega
  | duplicate _ h1 h2 h4 h5 h6 =>
    refine hretry _ rfl (by simp [St.react, St.emit]) ?_
    have hz := phi_eq (R := R) h1
    have h8 : f'.timer = none := by
      rcases hone' h1 with h | h
      · exact h.2
      · omega
    have h7 : f.timer = none := by
      rcases hone with h | h
      · exact h.2
      · omega
    obtain ⟨h9, h10⟩ := h6 (by omega)
    rw [hz, hphi, h8, h7, h5, h9]
    simp; omega
  | congestion _ h1 h2 h4 h5 h6 =>
    refine hretry _ rfl rfl ?_
    have hz := phi_eq (R := R) h1
    have h7 : f.timer = none := by
      rcases hone with h | h
      · exact h.2
      · omega
    obtain ⟨h9, h10⟩ := h6 (by omega)
    rw [hz, hphi, h7, h5, h9]
    simp
    split <;> omega
  | failTimeout _ h1 => exact hfail _ h1
  | fatal _ r h1 => exact hfail _ h1
  | failNack _ r h1 => exact hfail _ h1

theorem phi_step {N : Nat} {R s e segs} (hR : 0 ≤ R) (h : Inv N R s)
    (hc : AllConsistent segs s) (he : s.enabled e) (hp : ConsistentEv segs s e) :
    Phi R segs.length (s.step e) + (if active s e && s.threw.isNone then 1 else 0) ≤
      Phi R segs.length s := by
  unfold St.step
  rw [h.core.noub]
  simp only [Bool.or_false]
  cases hth : s.threw with
  | some x => simp
  | none =>
    simp only [Option.isSome_none, Bool.false_eq_true, if_false, Option.isNone_none, Bool.and_true]
    cases e with
    | data i p c =>
      have := phi_fetcherEvent (c := c) hR h hc he (p := p) (fun _ f k ha => hp f k ha) (by simp)
      exact this
    | nack i r =>
      have := phi_fetcherEvent (c := false) hR h hc he (p := ⟨[], .absent, false, false, true⟩) (by simp) (by simp)
      exact this
    | timeout i =>
      have := phi_fetcherEvent (c := false) hR h hc he (p := ⟨[], .absent, false, false, true⟩) (by simp) (by simp)
      exact this
    | timer i =>
      have := phi_fetcherEvent (c := false) hR h hc he (p := ⟨[], .absent, false, false, true⟩) (by simp) (by simp)
      exact this
    | cancel =>
      have h1 := cancel_sum R s
      have h2 : s.cancel.log = s.log := by unfold St.cancel; split <;> rfl
      simp only [active, Ev.pipe, Phi, h2]
      simp; omega
    | posted =>
      simp only [active, Ev.pipe]
      split
      · simp
      · simp [Phi, St.emit]

/-! ## Completion is the last thing that happens -/

theorem afterOnData_threw {s : St} {i p} (hp : p.final ≠ .notSegment) :
    (s.afterOnData i p).threw = s.threw := by
  have hfin : ∀ t : St, (t.finish i).threw = t.threw := by
    intro t
    unfold St.finish
    split
    · rfl
    · exact (fetchNext_effect t i).2.2.2.2.1
  have hof : ∀ (t : St) m, (t.onFailure m).threw = t.threw := by
    intro t m
    unfold St.onFailure St.cancel
    split
    · rfl
    · dsimp only
  unfold St.afterOnData
  split
  · split
    · exact hfin _
    · rename_i h; exact absurd h hp
    · dsimp only
      split
      · rw [hof]
      · rw [hfin]
  · exact hfin _

theorem handleFail_threw (s : St) (m i) : (s.handleFail m i).threw = s.threw := by
  have hof : ∀ (t : St) m, (t.onFailure m).threw = t.threw := by
    intro t m
    unfold St.onFailure St.cancel
    split
    · rfl
    · dsimp only
  unfold St.handleFail
  split
  · rfl
  · split
    · rfl
    · unfold St.handleFailSeg
      split
      · exact hof _ _
      · split
        · dsimp only
          split
          · rw [hof]
          · rfl
        · rfl

theorem onData_threw (s : St) (k p c) : (s.onData k p c).threw = s.threw := by
  unfold St.onData St.cancel St.emit
  dsimp only
  split
  · split <;> rfl
  · rfl

theorem fetcherEvent_threw {s : St} {i e p c} (hp : e = .data → p.final ≠ .notSegment) :
    (s.fetcherEvent i e p c).threw = s.threw := by
  unfold St.fetcherEvent
  split
  · rename_i f k _
    dsimp only
    have key : ∀ (outs : List DataFetcher.Out) (t : St), (DataFetcher.Out.onData ∈ outs → p.final ≠ .notSegment) →
        (outs.foldl (fun s o => s.react i k p c o) t).threw = t.threw := by
      intro outs
      induction outs with
      | nil => intro t _; rfl
      | cons o rest ih =>
        intro t h
        rw [List.foldl_cons, ih _ (fun h' => h (by simp [h']))]
        cases o with
        | interest => rfl
        | onNack m => exact handleFail_threw _ _ _
        | onTimeout m => exact handleFail_threw _ _ _
        | onData =>
          simp only [St.react, St.handleData]
          split
          · rfl
          · rw [afterOnData_threw (h (by simp)), onData_threw]
    rw [key _ _ (fun h => hp (step_onData h))]
  · rfl

theorem consistent_final {segs k p} (h : Consistent segs k p) : p.final ≠ .notSegment := by
  rcases h.2 with h | h <;> simp [h]

theorem step_threw {N : Nat} {R segs s e} (h : Inv N R s) (he : s.enabled e) (hp : ConsistentEv segs s e) :
    (s.step e).threw = s.threw := by
  unfold St.step
  split
  · rfl
  · cases e with
    | data i p c =>
      refine fetcherEvent_threw (fun _ => ?_)
      simp only [St.enabled, St.slotEnabled] at he
      split at he
      · rename_i f k ha
        exact consistent_final (hp f k ha)
      · exact absurd he (by simp)
    | nack i r => exact fetcherEvent_threw (by simp)
    | timeout i => exact fetcherEvent_threw (by simp)
    | timer i => exact fetcherEvent_threw (by simp)
    | cancel => simp only [St.cancel]; split <;> rfl
    | posted => dsimp only; split <;> rfl

theorem start_threw {N : Nat} {R} : (start N R).threw = none := by
  have : ∀ n i (t : St), (t.doRunLoop i n).threw = t.threw := by
    intro n
    induction n with
    | zero => intro i t; rfl
    | succ n ih =>
      intro i t
      unfold St.doRunLoop
      have hf := (fetchNext_effect t i).2.2.2.2.1
      rcases hx : t.fetchNextSegment i with ⟨s', ok⟩
      rw [hx] at hf
      dsimp only at hf ⊢
      split
      · rw [ih, hf]
      · exact hf
  unfold start
  rw [this]
  rfl

theorem net_threw {N : Nat} {R segs es s} (hN : 0 < N) (h : (netMachine N R segs).Run es s) :
    s.threw = none := by
  induction h with
  | nil => exact start_threw
  | snoc e hr he ih =>
    have := step_threw (run_inv hN (net_run hr)) he.1 he.2
    exact this.trans ih

/-- With a consistent producer, when all segments were received no fetcher runs. -/
theorem none_running {N : Nat} {R segs s} (h : Inv N R s) (hh : Hist s) (hc : AllConsistent segs s)
    (hd : Obs.complete ∈ s.log) :
    (∀ i f k, At s i f k → f.isRunning = false) ∧ (received s.log).length = segs.length ∧
    ∀ k, k < segs.length → k ∈ received s.log := by
  obtain ⟨hf, hl⟩ := hh.done hd
  obtain ⟨k0, p0, h1, h2⟩ := hh.final hf
  have h3 := hc _ _ h1
  have hlast : s.lastSegmentNo = segs.length - 1 := by
    rcases h3.2 with h | h
    · rw [h2] at h; simp at h
    · rw [h2] at h; simpa using h
  have hpos := consistent_lt h3
  have hmem : ∀ x ∈ received s.log, x < segs.length := by
    intro x hx
    simp only [received, List.mem_filterMap] at hx
    obtain ⟨o, ho, hox⟩ := hx
    cases o with
    | data k' p' =>
      simp at hox
      subst hox
      exact consistent_lt (hc _ _ ho)
    | _ => simp at hox
  have hle := nodup_length_le h.core.rnodup hmem
  have hcnt := h.core.cnt
  have hlen : (received s.log).length = segs.length := by omega
  have hall : ∀ k, k < segs.length → k ∈ received s.log := by
    have hsub : (received s.log).Subperm (List.range segs.length) :=
      List.Nodup.subperm h.core.rnodup (fun x hx => List.mem_range.mpr (hmem x hx))
    have hperm := hsub.perm_of_length_le (by simp [hlen])
    intro k hk
    exact hperm.mem_iff.mpr (List.mem_range.mpr hk)
  refine ⟨?_, hlen, hall⟩
  intro i f k ha
  by_contra hr
  simp only [Bool.not_eq_false] at hr
  have h4 := h.core.live i f k ha (Or.inl hr)
  have h5 := (h.core.fin hf i f k ha).1
  by_cases h6 : s.lastSegmentNo < k
  · simp [h5 h6] at hr
  · exact h4 (hall k (by omega))

/-- The fetcher event does nothing visible when the fetcher is over. -/
theorem fetcherEvent_idle {N : Nat} {R s i e p c} (h : Inv N R s) (he : s.slotEnabled i e)
    (hn : ∀ f k, At s i f k → f.isRunning = false) :
    (s.fetcherEvent i e p c).log = s.log ∧ (s.fetcherEvent i e p c).posted = s.posted ∧
    (s.fetcherEvent i e p c).isStopping = s.isStopping ∧
    (s.fetcherEvent i e p c).hasFailure = s.hasFailure ∧
    (s.fetcherEvent i e p c).hasFinalBlockId = s.hasFinalBlockId ∧
    (∀ j g m, At (s.fetcherEvent i e p c) j g m → ∃ g', At s j g' m ∧ g.hasError = g'.hasError) := by
  unfold St.slotEnabled at he
  split at he
  case h_2 => exact absurd he (by simp)
  rename_i f k ha
  have ha' : At s i f k := ha
  have hI := h.core.fet i f k ha'
  obtain ⟨h1, h2⟩ := DataFetcher.step_idle hI (hn f k ha') he
  unfold St.fetcherEvent
  rw [ha]
  dsimp only
  rw [h1]
  refine ⟨rfl, rfl, rfl, rfl, rfl, ?_⟩
  intro j g m hg
  simp only [List.foldl_nil, At] at hg
  rw [List.getElem?_set] at hg
  split at hg
  · rename_i hij
    subst hij
    split at hg
    · simp at hg
      obtain ⟨rfl, rfl⟩ := hg
      exact ⟨f, ha', h2.2.2.2.2.2.2.2.2⟩
    · simp at hg
  · exact ⟨g, hg, rfl⟩

theorem fetchNext_complete {s : St} {i} (h : Obs.complete ∈ (s.fetchNextSegment i).1.log) :
    Obs.complete ∈ s.log := by
  obtain ⟨h1, _⟩ := fetchNext_effect s i
  rcases h1 with h1 | h1
  · rwa [h1] at h
  · rw [h1.1] at h; simpa using h

theorem finish_complete {s : St} {i} (h : Obs.complete ∈ (s.finish i).log) (hn : Obs.complete ∉ s.log) :
    (s.finish i).log = s.log ++ [.complete] ∧ (s.finish i).posted = s.posted := by
  unfold St.finish at h ⊢
  split at h
  · rename_i hx; rw [if_pos hx]; exact ⟨rfl, rfl⟩
  · exact absurd (fetchNext_complete h) hn

theorem afterOnData_complete {s : St} {i p} (h : Obs.complete ∈ (s.afterOnData i p).log)
    (hn : Obs.complete ∉ s.log) :
    (s.afterOnData i p).log = s.log ++ [.complete] ∧ (s.afterOnData i p).posted = s.posted := by
  unfold St.afterOnData at h ⊢
  by_cases hf : (!s.hasFinalBlockId) = true
  · rw [if_pos hf] at h ⊢
    cases hp : p.final with
    | absent => rw [hp] at h; exact finish_complete h hn
    | notSegment => rw [hp] at h; exact absurd h hn
    | seg n =>
      rw [hp] at h
      dsimp only at h ⊢
      cases hl : (finalLoop n s.slots).2 with
      | some e => rw [hl] at h; rw [onFailure_log] at h; exact absurd h hn
      | none =>
        rw [hl] at h
        have := finish_complete h hn
        exact this
  · rw [if_neg hf] at h ⊢
    exact finish_complete h hn

theorem fetcherEvent_complete {N : Nat} {R s i e p c} (h : Inv N R s) (hh : Hist s)
    (he : s.slotEnabled i e) (hne : e ≠ .cancel)
    (hc : Obs.complete ∈ (s.fetcherEvent i e p c).log) (hn : Obs.complete ∉ s.log) :
    (∃ pre, (s.fetcherEvent i e p c).log = pre ++ [.complete] ∧ Obs.complete ∉ pre) ∧
    (s.fetcherEvent i e p c).posted = [] := by
  unfold St.slotEnabled at he
  split at he
  case h_2 => exact absurd he (by simp)
  rename_i f k ha
  have ha' : At s i f k := ha
  have hI := h.core.fet i f k ha'
  unfold St.fetcherEvent at hc ⊢
  rw [ha] at hc ⊢
  dsimp only at hc ⊢
  by_cases hr : f.isRunning = true
  case neg =>
    simp only [Bool.not_eq_true] at hr
    obtain ⟨h1, _⟩ := DataFetcher.step_idle hI hr he
    rw [h1] at hc
    exact absurd hc hn
  obtain ⟨hI', hE⟩ := DataFetcher.step_running hI hr he
  generalize hf' : (f.step e).1 = f' at *
  generalize ho : (f.step e).2 = outs at *
  cases hE with
  | data _ h1 h2 h4 h5 h6 =>
    simp only [List.foldl_cons, List.foldl_nil, St.react] at hc ⊢
    have hns := not_stopping h.core ha'
    have hhd : St.handleData { s with slots := s.slots.set i (some (f', k)) } i k p c =
        (St.onData { s with slots := s.slots.set i (some (f', k)) } k p c).afterOnData i p := by
      unfold St.handleData
      rw [if_neg (by simp [hns])]
    rw [hhd] at hc ⊢
    have hn2 : Obs.complete ∉ (St.onData { s with slots := s.slots.set i (some (f', k)) } k p c).log := by
      rw [onData_log]; simpa using hn
    obtain ⟨g1, g2⟩ := afterOnData_complete hc hn2
    refine ⟨⟨_, g1, hn2⟩, ?_⟩
    rw [g2]
    have : ∀ t : St, (t.onData k p c).posted = t.posted := by
      intro t
      unfold St.onData St.cancel St.emit
      dsimp only
      split
      · split <;> rfl
      · rfl
    rw [this]
    exact (hh.quiet hns).1
  | cancel => exact absurd rfl hne
  | timer => simp [St.react, St.emit] at hc; exact absurd hc hn
  | retryTimeout => simp [St.react, St.emit] at hc; exact absurd hc hn
  | duplicate => simp [St.react, St.emit] at hc; exact absurd hc hn
  | congestion => exact absurd hc hn
  | failTimeout => simp [St.react, handleFail_log] at hc; exact absurd hc hn
  | fatal => simp [St.react, handleFail_log] at hc; exact absurd hc hn
  | failNack => simp [St.react, handleFail_log] at hc; exact absurd hc hn

/-- Completion is the end of the history. -/
def EndsComplete (s : St) : Prop :=
  Obs.complete ∈ s.log → (∃ pre, s.log = pre ++ [.complete] ∧ Obs.complete ∉ pre) ∧ s.posted = []

theorem ends_step {N : Nat} {R segs s e} (h : Inv N R s) (hh : Hist s) (hcs : AllConsistent segs s)
    (he : s.enabled e) (hE : EndsComplete s) : EndsComplete (s.step e) := by
  intro hc
  by_cases hd : Obs.complete ∈ s.log
  · obtain ⟨hnr, _⟩ := none_running h hh hcs hd
    have key : (s.step e).log = s.log ∧ (s.step e).posted = s.posted := by
      unfold St.step
      split
      · exact ⟨rfl, rfl⟩
      · cases e with
        | data i p c =>
          have := fetcherEvent_idle (p := p) (c := c) h he (fun f k ha => hnr i f k ha)
          exact ⟨this.1, this.2.1⟩
        | nack i r =>
          have := fetcherEvent_idle (p := ⟨[], .absent, false, false, true⟩) (c := false) h he (fun f k ha => hnr i f k ha)
          exact ⟨this.1, this.2.1⟩
        | timeout i =>
          have := fetcherEvent_idle (p := ⟨[], .absent, false, false, true⟩) (c := false) h he (fun f k ha => hnr i f k ha)
          exact ⟨this.1, this.2.1⟩
        | timer i =>
          have := fetcherEvent_idle (p := ⟨[], .absent, false, false, true⟩) (c := false) h he (fun f k ha => hnr i f k ha)
          exact ⟨this.1, this.2.1⟩
        | cancel => simp only [St.cancel]; split <;> exact ⟨rfl, rfl⟩
        | posted => exact absurd (hE hd).2 he
    rw [key.1, key.2]
    exact hE hd
  · revert hc
    unfold St.step
    split
    · intro hc; exact absurd hc hd
    · intro hc
      cases e with
      | data i p c => exact fetcherEvent_complete h hh he (by simp) hc hd
      | nack i r => exact fetcherEvent_complete h hh he (by simp) hc hd
      | timeout i => exact fetcherEvent_complete h hh he (by simp) hc hd
      | timer i => exact fetcherEvent_complete h hh he (by simp) hc hd
      | cancel =>
        simp only [St.cancel] at hc
        split at hc <;> exact absurd hc hd
      | posted =>
        dsimp only at hc
        split at hc
        · exact absurd hc hd
        · simp [St.emit] at hc; exact absurd hc hd

theorem doRunLoop_complete {s : St} {i n} (h : Obs.complete ∈ (s.doRunLoop i n).log) :
    Obs.complete ∈ s.log := by
  induction n generalizing s i with
  | zero => exact h
  | succ n ih =>
    unfold St.doRunLoop at h
    have hfd := fetchNext_complete (s := s) (i := i)
    rcases hx : s.fetchNextSegment i with ⟨s', ok⟩
    rw [hx] at h hfd
    dsimp only at h hfd
    split at h
    · exact hfd (ih h)
    · exact hfd h

theorem net_ends {N : Nat} {R segs es s} (hN : 0 < N) (h : (netMachine N R segs).Run es s) :
    EndsComplete s := by
  induction h with
  | nil =>
    intro hc
    have := doRunLoop_complete hc
    simp [construct] at this
  | snoc e hr he ih =>
    exact ends_step (run_inv hN (net_run hr)) (run_hist (net_run hr)) (net_consistent hr) he.1 ih

/-! ## The end is noticed -/

/-- When everything was received this has been announced. -/
def Announced (s : St) : Prop :=
  s.isStopping = false → s.threw = none → s.allSegmentsReceived = true → Obs.complete ∈ s.log

theorem announced_stop {s : St} (h : s.isStopping = true) : Announced s := by
  intro h'; simp [h] at h'

theorem announced_same {s s' : St} (h : Announced s) (h1 : s'.isStopping = s.isStopping)
    (h2 : s'.threw = s.threw) (h3 : s'.nReceived = s.nReceived) (h4 : s'.hasFinalBlockId = s.hasFinalBlockId)
    (h5 : s'.lastSegmentNo = s.lastSegmentNo) (h6 : ∀ o ∈ s.log, o ∈ s'.log) : Announced s' := by
  intro a b c
  rw [h1] at a; rw [h2] at b
  simp only [St.allSegmentsReceived, h3, h4, h5] at c
  exact h6 _ (h a b c)

theorem announced_finish (s : St) (i) : Announced (s.finish i) := by
  unfold St.finish
  split
  · intro _ _ _; simp [St.emit]
  · rename_i hn
    intro _ _ c
    obtain ⟨_, h2, h3, h4, _⟩ := fetchNext_effect s i
    simp only [St.allSegmentsReceived] at c hn
    rw [h2, h3, h4] at c
    exact absurd c hn

theorem announced_afterOnData (s : St) (i p) : Announced (s.afterOnData i p) := by
  unfold St.afterOnData
  split
  · split
    · exact announced_finish _ _
    · intro _ h; simp at h
    · dsimp only
      split
      · exact announced_stop (onFailure_stopping _ _)
      · exact announced_finish _ _
  · exact announced_finish _ _

theorem announced_handleFail {s : St} (h : Announced s) (m i) : Announced (s.handleFail m i) := by
  unfold St.handleFail
  split
  · exact h
  · split
    · exact announced_same h rfl rfl rfl rfl rfl (fun _ h => h)
    · unfold St.handleFailSeg
      split
      · exact announced_stop (onFailure_stopping _ _)
      · split
        · dsimp only
          split
          · exact announced_stop (onFailure_stopping _ _)
          · exact announced_same h rfl rfl rfl rfl rfl (fun _ h => h)
        · exact h

theorem announced_react {s : St} (h : Announced s) (i k p c o) : Announced (s.react i k p c o) := by
  cases o with
  | interest => exact announced_same h rfl rfl rfl rfl rfl (fun o ho => by simp [St.react, St.emit, ho])
  | onData =>
    simp only [St.react, St.handleData]
    split
    · exact h
    · exact announced_afterOnData _ _ _
  | onNack m => exact announced_handleFail h m i
  | onTimeout m => exact announced_handleFail h m i

theorem announced_fetcherEvent {s : St} (h : Announced s) (i e p c) : Announced (s.fetcherEvent i e p c) := by
  unfold St.fetcherEvent
  split
  · rename_i f k _
    dsimp only
    have : ∀ (outs : List DataFetcher.Out) (t : St), Announced t →
        Announced (outs.foldl (fun s o => s.react i k p c o) t) := by
      intro outs
      induction outs with
      | nil => intro t h; exact h
      | cons o rest ih => intro t h; exact ih _ (announced_react h i k p c o)
    exact this _ _ (announced_same h rfl rfl rfl rfl rfl (fun _ h => h))
  · exact h

theorem announced_step {s : St} (h : Announced s) (e) : Announced (s.step e) := by
  unfold St.step
  split
  · exact h
  · cases e with
    | data i p c => exact announced_fetcherEvent h _ _ _ _
    | nack i r => exact announced_fetcherEvent h _ _ _ _
    | timeout i => exact announced_fetcherEvent h _ _ _ _
    | timer i => exact announced_fetcherEvent h _ _ _ _
    | cancel => exact announced_stop (cancel_stopping s)
    | posted =>
      dsimp only
      split
      · exact h
      · exact announced_same h rfl rfl rfl rfl rfl (fun o ho => by simp [St.emit, ho])

theorem start_nReceived (N R) : (start N R).nReceived = 0 := by
  have : ∀ n i (t : St), (t.doRunLoop i n).nReceived = t.nReceived := by
    intro n
    induction n with
    | zero => intro i t; rfl
    | succ n ih =>
      intro i t
      unfold St.doRunLoop
      have hf := (fetchNext_effect t i).2.2.2.1
      rcases hx : t.fetchNextSegment i with ⟨s', ok⟩
      rw [hx] at hf
      dsimp only at hf ⊢
      split
      · rw [ih, hf]
      · exact hf
  unfold start
  rw [this]
  rfl

theorem run_announced {N : Nat} {R es s} (h : (machine N R).Run es s) : Announced s := by
  refine h.invariant (P := Announced) ?_ (fun _ e h _ => announced_step h e)
  intro _ _ c
  simp [St.allSegmentsReceived, machine, start_nReceived] at c

/-- No stall. -/
theorem no_stall {N : Nat} {R s} (h : Inv N R s) (ha : Announced s) (h1 : s.isStopping = false)
    (h2 : s.threw = none) (h3 : Obs.complete ∉ s.log) :
    ∃ i f k, At s i f k ∧ f.isRunning = true := by
  by_cases hp : s.hasFinalBlockId = false ∨ s.nextSegmentNo ≤ s.lastSegmentNo
  · exact h.prog h1 h2 hp
  · simp only [not_or, Bool.not_eq_false, Nat.not_le] at hp
    obtain ⟨hf, hn⟩ := hp
    by_contra hno
    have hall : ∀ k, k ≤ s.lastSegmentNo → k ∈ received s.log := by
      intro k hk
      rcases h.core.cover h1 k (by omega) (fun _ => hk) with hr | ⟨i, f, ha, hr⟩
      · exact hr
      · exfalso
        rcases hr with hr | hr | ⟨j, g, m, hg, hm, hr⟩
        · exact hno ⟨i, f, k, ha, hr⟩
        · have := (h.core.fin hf i f k ha).2 hk
          simp [this] at hr
        · have := (h.core.fin hf j g m hg).2 (by omega)
          simp [this] at hr
    have hsub : (List.range (s.lastSegmentNo + 1)).Subperm (received s.log) :=
      List.Nodup.subperm List.nodup_range (fun x hx => hall x (by have := List.mem_range.mp hx; omega))
    have hle := hsub.length_le
    simp only [List.length_range] at hle
    have hcnt := h.core.cnt
    refine h3 (ha h1 h2 ?_)
    simp only [St.allSegmentsReceived, hf, Bool.and_true, Bool.and_eq_true, decide_eq_true_eq]
    omega

/-! ## Silence after the stop -/

/-- The pipeline will do nothing more, except for running a posted failure callback. -/
def Frozen (s : St) : Prop := s.isStopping = true ∨ s.threw.isSome = true ∨ s.ub = true

theorem frozen_step {s : St} {e} (hs : s.isStopping = true → s.slots = []) (h : Frozen s) :
    Frozen (s.step e) ∧
    ((s.step e).log = s.log ∨ ∃ m rest, s.posted = m :: rest ∧ (s.step e).log = s.log ++ [.failure m]) ∧
    (s.posted = [] → (s.step e).posted = []) := by
  unfold St.step
  by_cases ht : (s.threw.isSome || s.ub) = true
  · rw [if_pos ht]; exact ⟨h, Or.inl rfl, id⟩
  · rw [if_neg ht]
    have hst : s.isStopping = true := by
      rcases h with h | h | h
      · exact h
      · simp [h] at ht
      · simp [h] at ht
    have hsl := hs hst
    have key : ∀ i e p c, s.fetcherEvent i e p c = s := by
      intro i e p c
      simp [St.fetcherEvent, hsl]
    cases e with
    | data i p c => dsimp only; rw [key]; exact ⟨h, Or.inl rfl, id⟩
    | nack i r => dsimp only; rw [key]; exact ⟨h, Or.inl rfl, id⟩
    | timeout i => dsimp only; rw [key]; exact ⟨h, Or.inl rfl, id⟩
    | timer i => dsimp only; rw [key]; exact ⟨h, Or.inl rfl, id⟩
    | cancel => dsimp only [St.cancel]; rw [if_pos hst]; exact ⟨h, Or.inl rfl, id⟩
    | posted =>
      dsimp only
      split
      · exact ⟨h, Or.inl rfl, id⟩
      · rename_i m rest hp
        exact ⟨Or.inl hst, Or.inr ⟨m, rest, hp, rfl⟩, by simp [hp]⟩

theorem frozen_run {N : Nat} {R es s es' s'} (hN : 0 < N) (h : (machine N R).Run es s)
    (hf : Frozen s) (h' : (machine N R).RunFrom s es' s') :
    Frozen s' ∧ (∃ l, s'.log = s.log ++ l ∧ ∀ o ∈ l, o.isFailure = true) ∧
    (s.posted = [] → s'.posted = [] ∧ s'.log = s.log) := by
  induction h' with
  | nil => exact ⟨hf, ⟨[], by simp⟩, fun h => ⟨h, rfl⟩⟩
  | snoc e hr he ih =>
    obtain ⟨h1, ⟨l, h2, h3⟩, h4⟩ := ih
    obtain ⟨h5, h6, h7⟩ := frozen_step (e := e) ((run_inv hN (h.extend hr)).core.stop) h1
    refine ⟨h5, ?_, ?_⟩
    · rcases h6 with h6 | ⟨m, rest, _, h6⟩
      · exact ⟨l, by simp only [machine]; rw [h6, h2], h3⟩
      · refine ⟨l ++ [.failure m], by simp only [machine]; rw [h6, h2, List.append_assoc], ?_⟩
        intro o ho
        rcases List.mem_append.mp ho with ho | ho
        · exact h3 o ho
        · simp at ho; subst ho; rfl
    · intro hp
      obtain ⟨h8, h9⟩ := h4 hp
      refine ⟨h7 h8, ?_⟩
      rcases h6 with h6 | ⟨m, rest, h10, _⟩
      · simp only [machine]; rw [h6, h9]
      · rw [h8] at h10; simp at h10

theorem step_frozen_of_cancel {s : St} : Frozen (s.step .cancel) := by
  unfold St.step
  split
  · rename_i h
    simp only [Bool.or_eq_true] at h
    rcases h with h | h
    · exact Or.inr (Or.inl h)
    · exact Or.inr (Or.inr h)
  · exact Or.inl (cancel_stopping s)

theorem frozen_of_cancel {N : Nat} {R es s} (hN : 0 < N) (h : (machine N R).Run es s)
    (hc : Ev.cancel ∈ es) : Frozen s := by
  induction h with
  | nil => simp at hc
  | snoc e hr he ih =>
    rcases List.mem_append.mp hc with hc | hc
    · exact (frozen_step ((run_inv hN hr).core.stop) (ih hc)).1
    · simp at hc; subst hc
      exact step_frozen_of_cancel

theorem frozen_of_failure {s : St} (h : Hist s) {m} (hm : Obs.failure m ∈ s.log) : Frozen s := by
  left
  by_contra hs
  simp only [Bool.not_eq_true] at hs
  exact (h.quiet hs).2 m hm

/-! ## Counting the events that matter -/

theorem run_foldl {σ ε} {M : Machine σ ε} {es s} (h : M.Run es s) : s = es.foldl M.step M.init := by
  induction h with
  | nil => rfl
  | snoc e _ _ ih => rw [List.foldl_append, ← ih]; rfl

theorem activeCount_snoc (s : St) (es e) :
    activeCount s (es ++ [e]) = activeCount s es + (active (es.foldl St.step s) e).toNat := by
  induction es generalizing s with
  | nil => simp [activeCount]
  | cons a es ih => simp only [List.cons_append, activeCount, ih, List.foldl_cons]; omega

theorem net_count {N : Nat} {R segs es s} (hN : 0 < N) (hR : 0 ≤ R) (h : (netMachine N R segs).Run es s) :
    Phi R segs.length s + activeCount (start N R) es ≤ Phi R segs.length (start N R) := by
  induction h with
  | nil => simp [activeCount, netMachine]
  | snoc e hr he ih =>
    have h1 := phi_step hR (run_inv hN (net_run hr)) (net_consistent hr) he.1 he.2
    have h2 := net_threw hN hr
    rw [activeCount_snoc]
    have h3 := run_foldl hr
    simp only [netMachine] at h3
    rw [← h3]
    simp only [h2, Option.isNone_none, Bool.and_true] at h1
    simp only [netMachine, Bool.toNat, cond_eq_ite]
    revert h1
    split <;> intro h1 <;> omega

theorem start_phi {N : Nat} {R} (L : Nat) : Phi R L (start N R) ≤ full R * (N + L) := by
  have key : ∀ n i (t : St), t.maxRetries = R →
      slotSum R (t.doRunLoop i n).slots ≤ slotSum R t.slots + full R * n ∧
      received (t.doRunLoop i n).log = received t.log := by
    intro n
    induction n with
    | zero => intro i t _; simp [St.doRunLoop]
    | succ n ih =>
      intro i t ht
      unfold St.doRunLoop
      obtain ⟨h1, h2⟩ := fetchNext_sum t i ht
      have h3 : (t.fetchNextSegment i).1.maxRetries = R := by
        rw [← ht]
        unfold St.fetchNextSegment St.onFailure St.cancel St.emit
        dsimp only
        repeat' split
        all_goals rfl
      rcases hx : t.fetchNextSegment i with ⟨s', ok⟩
      rw [hx] at h1 h2 h3
      dsimp only at h1 h2 h3 ⊢
      split
      · obtain ⟨h4, h5⟩ := ih (i + 1) s' h3
        refine ⟨?_, by rw [h5, h2]⟩
        rw [Nat.mul_succ]
        omega
      · refine ⟨?_, h2⟩
        rw [Nat.mul_succ]
        omega
  obtain ⟨h1, h2⟩ := key N 0 (construct N R) rfl
  have h3 : slotSum R (construct N R).slots = 0 := by
    simp [construct, slotSum, slotPhi]
  unfold Phi start
  rw [h2]
  have h4 : (received (construct N R).log).length = 0 := by simp [construct]
  rw [h4, Nat.mul_add]
  simp only [Nat.sub_zero]
  omega

theorem slotSum_pos {R : Int} {l : List Slot} {i : Nat} {f k} (h : l[i]? = some (some (f, k))) :
    phi R f ≤ slotSum R l := by
  have := sum_set l R i _ none h
  simp [slotPhi] at this
  omega

/-! ## Failures beyond the end -/

/-- Nothing has gone wrong. -/
structure Good (s : St) : Prop where
  stop : s.isStopping = false
  posted : s.posted = []
  nofail : s.hasFailure = false
  noerr : ∀ i f k, At s i f k → f.hasError = false
  log : ∀ m, Obs.failure m ∉ s.log
  fin : s.hasFinalBlockId = false → ∀ k p, Obs.data k p ∈ s.log → p.final = .absent

theorem good_fetchNext {s : St} (h : Good s) (i) : Good (s.fetchNextSegment i).1 := by
  obtain ⟨h1, h2, h3, h4, h5, h6⟩ := h
  unfold St.fetchNextSegment
  rw [if_neg (by simp [h1]), if_neg (by simp [h3])]
  dsimp only
  split
  · exact ⟨h1, h2, h3, h4, h5, h6⟩
  · simp only [St.emit]
    have hlog : ∀ m, Obs.failure m ∉ s.log ++ [Obs.interest s.nextSegmentNo] := by
      intro m; simpa using h5 m
    have hfin : s.hasFinalBlockId = false → ∀ k p, Obs.data k p ∈ s.log ++ [Obs.interest s.nextSegmentNo] →
        p.final = .absent := by
      intro a k p b; exact h6 a k p (by simpa using b)
    split
    · exact ⟨h1, h2, h3, h4, hlog, hfin⟩
    · refine ⟨h1, h2, h3, ?_, hlog, hfin⟩
      intro j f k ha
      simp only [At, List.getElem?_set] at ha
      split at ha
      · split at ha
        · simp at ha
          obtain ⟨rfl, rfl⟩ := ha
          simp [DataFetcher.fetch, Fetcher.expressInterest]
        · simp at ha
      · exact h4 j f k ha

theorem good_finish {s : St} (h : Good s) (i) : Good (s.finish i) := by
  unfold St.finish
  split
  · obtain ⟨h1, h2, h3, h4, h5, h6⟩ := h
    exact ⟨h1, h2, h3, h4, by simpa [St.emit] using h5, by simpa [St.emit] using h6⟩
  · exact good_fetchNext h i

/-- The part of `Good` that holds between `onData` and the treatment of the FinalBlockId. -/
theorem good_afterOnData {s : St} {i k p pre} (h1 : s.isStopping = false) (h2 : s.posted = [])
    (h3 : s.hasFailure = false) (h4 : ∀ i f k, At s i f k → f.hasError = false)
    (hlog : s.log = pre ++ [.data k p])
    (h5 : ∀ m, Obs.failure m ∉ pre)
    (h6 : s.hasFinalBlockId = false → ∀ k p, Obs.data k p ∈ pre → p.final = .absent)
    (hp : p.final ≠ .notSegment) : Good (s.afterOnData i p) := by
  have h5' : ∀ m, Obs.failure m ∉ s.log := by intro m; rw [hlog]; simpa using h5 m
  unfold St.afterOnData
  split
  · rename_i hf
    split
    · rename_i hpf
      apply good_finish
      refine ⟨h1, h2, h3, h4, h5', ?_⟩
      intro a k' p' hm
      rw [hlog] at hm
      simp only [List.mem_append, List.mem_singleton, Obs.data.injEq] at hm
      rcases hm with hm | ⟨_, rfl⟩
      · exact h6 a k' p' hm
      · exact hpf
    · rename_i h; exact absurd h hp
    · rename_i n _
      dsimp only
      rcases hx : finalLoop n s.slots with ⟨l', o⟩
      cases o with
      | some e =>
        exfalso
        obtain ⟨_, f, hm, he⟩ := finalLoop_some hx
        obtain ⟨j, hj⟩ := List.mem_iff_getElem?.mp hm
        have := h4 j f e hj
        simp [this] at he
      | none =>
        obtain ⟨rfl, _⟩ := finalLoop_none hx
        apply good_finish
        refine ⟨h1, h2, h3, ?_, h5', by simp⟩
        intro j g m hg
        obtain ⟨f, hf1, rfl⟩ := (At_map (s := s) (b := n) rfl j g m).mp hg
        have := h4 j f m hf1
        split
        · rw [cancel_hasError]; exact this
        · exact this
  · rename_i hf
    apply good_finish
    refine ⟨h1, h2, h3, h4, h5', ?_⟩
    intro a; simp [a] at hf

theorem good_step {N : Nat} {R segs s e} (h : Inv N R s) (hh : Hist s) (hcs : AllConsistent segs s)
    (hg : Good s) (hen : (lateLossMachine N R segs).enabled s e) : Good (s.step e) := by
  obtain ⟨he, hce, hl, hlate⟩ := hen
  obtain ⟨h1, h2, h3, h4, h5, h6⟩ := hg
  have idle : ∀ i e' p c, s.slotEnabled i e' → (∀ f k, At s i f k → f.isRunning = false) →
      Good (s.fetcherEvent i e' p c) := by
    intro i e' p c hen hn
    obtain ⟨g1, g2, g3, g4, g5, g6⟩ := fetcherEvent_idle (p := p) (c := c) h hen hn
    refine ⟨by rw [g3, h1], by rw [g2, h2], by rw [g4, h3], ?_, by rw [g1]; exact h5, by rw [g1, g5]; exact h6⟩
    intro j g m hgm
    obtain ⟨g', hg', heq⟩ := g6 j g m hgm
    rw [heq]; exact h4 j g' m hg'
  have loss : e.isLoss = true → ∀ i, e.pipe = some i → ∀ f k, At s i f k → f.isRunning = false := by
    intro hls i hi f k ha
    obtain ⟨k0, p0, hm0, hp0⟩ := hlate hls
    have hfin : s.hasFinalBlockId = true := by
      by_contra hc
      simp only [Bool.not_eq_true] at hc
      exact hp0 (h6 hc k0 p0 hm0)
    obtain ⟨k1, p1, hm1, hp1⟩ := hh.final hfin
    have hc1 := hcs _ _ hm1
    have hlast : s.lastSegmentNo = segs.length - 1 := by
      rcases hc1.2 with h | h
      · rw [hp1] at h; simp at h
      · rw [hp1] at h; simpa using h
    have := hl.1 hls i f k hi ha
    have hpos := consistent_lt hc1
    exact (h.core.fin hfin i f k ha).1 (by omega)
  unfold St.step
  split
  · exact ⟨h1, h2, h3, h4, h5, h6⟩
  · cases e with
    | nack i r => exact idle i _ _ _ he (loss rfl i rfl)
    | timeout i => exact idle i _ _ _ he (loss rfl i rfl)
    | cancel => exact absurd rfl hl.2.1
    | posted => exact absurd h2 he
    | data i p c =>
      have hcf : c = false := by
        cases c with
        | false => rfl
        | true => exact absurd rfl (hl.2.2 i p)
      subst hcf
      have he' : s.slotEnabled i .data := he
      have he2 := he'
      unfold St.slotEnabled at he'
      split at he'
      case h_2 => exact absurd he' (by simp)
      rename_i f k ha
      have ha' : At s i f k := ha
      by_cases hr : f.isRunning = true
      case neg =>
        simp only [Bool.not_eq_true] at hr
        refine idle i _ _ _ he2 (fun f' k' ha2 => ?_)
        have : At s i f k := ha'
        unfold At at this ha2
        rw [this] at ha2
        simp at ha2
        rw [← ha2.1]; exact hr
      have hI := h.core.fet i f k ha'
      obtain ⟨hI', hE⟩ := DataFetcher.step_running hI hr he'
      dsimp only
      unfold St.fetcherEvent
      rw [ha]
      dsimp only
      generalize hf' : (f.step .data).1 = f' at *
      generalize ho : (f.step .data).2 = outs at *
      cases hE with
      | data _ g1 g2 g4 g5 g6 =>
        simp only [List.foldl_cons, List.foldl_nil, St.react]
        have hhd : St.handleData { s with slots := s.slots.set i (some (f', k)) } i k p false =
            (St.onData { s with slots := s.slots.set i (some (f', k)) } k p false).afterOnData i p := by
          unfold St.handleData
          rw [if_neg (by simp [h1])]
        rw [hhd]
        refine good_afterOnData (k := k) (pre := s.log) ?_ ?_ ?_ ?_ ?_ h5 ?_ (consistent_final (hce f k ha'))
        · exact h1
        · exact h2
        · exact h3
        · intro j g m hg
          simp only [At, St.onData, St.emit, Bool.false_eq_true, if_false, List.getElem?_set] at hg
          split at hg
          · split at hg
            · simp at hg
              obtain ⟨rfl, rfl⟩ := hg
              exact g6
            · simp at hg
          · exact h4 j g m hg
        · rw [onData_log]
        · exact h6
    | timer i =>
      have he' : s.slotEnabled i .timer := he
      unfold St.slotEnabled at he'
      split at he'
      case h_2 => exact absurd he' (by simp)
      rename_i f k ha
      dsimp only
      unfold St.fetcherEvent
      rw [ha]
      simp only [Fetcher.step, Fetcher.expressInterest, List.foldl_cons, List.foldl_nil, St.react, St.emit]
      refine ⟨h1, h2, h3, ?_, by simpa using h5, by simpa using h6⟩
      intro j g m hg
      simp only [At, List.getElem?_set] at hg
      split at hg
      · split at hg
        · simp at hg
          obtain ⟨rfl, rfl⟩ := hg
          exact h4 i f k ha
        · simp at hg
      · exact h4 j g m hg

theorem good_start (N R) : Good (start N R) := by
  have : ∀ n i (t : St), Good t → Good (t.doRunLoop i n) := by
    intro n
    induction n with
    | zero => intro i t h; exact h
    | succ n ih =>
      intro i t h
      unfold St.doRunLoop
      have hf := good_fetchNext h i
      rcases hx : t.fetchNextSegment i with ⟨s', ok⟩
      rw [hx] at hf
      dsimp only at hf ⊢
      split
      · exact ih _ _ hf
      · exact hf
  refine this _ _ _ ⟨rfl, rfl, rfl, ?_, by simp [construct], by simp [construct]⟩
  intro i f k ha
  simp [At, construct, List.getElem?_replicate] at ha

theorem late_net {N : Nat} {R segs es s} (h : (lateLossMachine N R segs).Run es s) :
    (netMachine N R segs).Run es s := by
  induction h with
  | nil => exact Machine.Run.nil
  | snoc e _ he ih => exact Machine.Run.snoc (M := netMachine N R segs) e ih ⟨he.1, he.2.1⟩

theorem late_good {N : Nat} {R segs es s} (hN : 0 < N) (h : (lateLossMachine N R segs).Run es s) :
    Good s := by
  induction h with
  | nil => exact good_start N R
  | snoc e hr he ih =>
    have hn := late_net hr
    exact good_step (run_inv hN (net_run hn)) (run_hist (net_run hn)) (net_consistent hn) ih he

/-- Only the execution of a posted callback calls the failure callback. -/
theorem fetcherEvent_failure {s : St} {i e p c m} (hm : Obs.failure m ∉ s.log) :
    Obs.failure m ∉ (s.fetcherEvent i e p c).log := by
  have hfn : ∀ (t : St), Obs.failure m ∉ t.log → Obs.failure m ∉ (t.fetchNextSegment i).1.log := by
    intro t ht
    obtain ⟨h1, _⟩ := fetchNext_effect t i
    rcases h1 with h1 | h1
    · rwa [h1]
    · rw [h1.1]; simpa using ht
  have hfi : ∀ (t : St), Obs.failure m ∉ t.log → Obs.failure m ∉ (t.finish i).log := by
    intro t ht
    unfold St.finish
    split
    · simpa [St.emit] using ht
    · exact hfn t ht
  have hreact : ∀ (t : St) k o, Obs.failure m ∉ t.log → Obs.failure m ∉ (t.react i k p c o).log := by
    intro t k o ht
    cases o with
    | interest => simpa [St.react, St.emit] using ht
    | onNack m' => simpa only [St.react, handleFail_log] using ht
    | onTimeout m' => simpa only [St.react, handleFail_log] using ht
    | onData =>
      simp only [St.react, St.handleData]
      split
      · exact ht
      · have h2 : Obs.failure m ∉ (t.onData k p c).log := by rw [onData_log]; simpa using ht
        unfold St.afterOnData
        split
        · split
          · exact hfi _ h2
          · exact h2
          · dsimp only
            split
            · rw [onFailure_log]; exact h2
            · exact hfi _ h2
        · exact hfi _ h2
  unfold St.fetcherEvent
  split
  · rename_i f k _
    dsimp only
    have : ∀ (outs : List DataFetcher.Out) (t : St), Obs.failure m ∉ t.log →
        Obs.failure m ∉ (outs.foldl (fun s o => s.react i k p c o) t).log := by
      intro outs
      induction outs with
      | nil => intro t h; exact h
      | cons o rest ih => intro t h; exact ih _ (hreact t k o h)
    exact this _ _ hm
  · exact hm

/-- The rest of `handleData` after the data callback cancelled the pipeline. -/
theorem afterOnData_cancelled {s : St} {sl i k p} (hs : s.isStopping = false) :
    let s' := (St.onData { s with slots := sl } k p true).afterOnData i p
    s'.isStopping = true ∧
    (s'.log = s.log ++ [.data k p] ∨ s'.log = s.log ++ [.data k p, .complete]) := by
  intro s'
  have h0 : (St.onData { s with slots := sl } k p true).isStopping = true := by
    simp [St.onData, cancel_stopping]
  have h1 : (St.onData { s with slots := sl } k p true).log = s.log ++ [.data k p] := onData_log _ _ _ _
  have hfi : ∀ t : St, t.isStopping = true → t.log = s.log ++ [.data k p] →
      (t.finish i).isStopping = true ∧
      ((t.finish i).log = s.log ++ [.data k p] ∨ (t.finish i).log = s.log ++ [.data k p, .complete]) := by
    intro t ht hl
    unfold St.finish
    split
    · exact ⟨ht, Or.inr (by simp [St.emit, hl])⟩
    · unfold St.fetchNextSegment
      rw [if_pos ht]
      exact ⟨ht, Or.inl hl⟩
  have hof : ∀ (t : St) m, t.isStopping = true → t.onFailure m = t := by
    intro t m ht; unfold St.onFailure; rw [if_pos ht]
  show s'.isStopping = true ∧ _
  simp only [s']
  unfold St.afterOnData
  split
  · split
    · exact hfi _ h0 h1
    · exact ⟨h0, Or.inl h1⟩
    · dsimp only
      split
      · rw [hof]
        · exact ⟨h0, Or.inl h1⟩
        · exact h0
      · exact hfi _ h0 h1
  · exact hfi _ h0 h1

end Verif.Fixed
