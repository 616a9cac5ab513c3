import Verif.Proofs.Summary
import Mathlib.Algebra.Order.Field.Basic
import Mathlib.Tactic.Linarith
import Mathlib.Tactic.Positivity
import Mathlib.Tactic.NormNum

/-! # C78: the summary of a transfer -/

namespace Verif

namespace Fixed

/-- **C78 (fixed pipeline)** The summary that the fixed pipeline prints after fetching an object from a consistent
producer shows the number of segments and the size of the object. -/
theorem C78_fixed {N : Nat} {R : Int} {segs : List Bytes} {es s} (hN : 0 < N) (h : (netMachine N R segs).Run es s)
    (hc : Obs.complete ∈ s.log) : s.summary = ⟨segs.length, (segs.map List.length).sum⟩ := by
  obtain ⟨pre, post, e⟩ := List.append_of_mem hc
  obtain ⟨h1, h2, h3, _⟩ := C07_fixed_completion hN h e
  subst h3
  have hlog : received s.log = received pre := by rw [e]; simp [received]
  have hcnt := (run_inv hN (net_run h)).core.cnt
  have hsz := size_run (net_run h)
  unfold St.summary
  congr 1
  · rw [hcnt, hlog, h1.length_eq, List.length_range]
  · rw [hsz, e, List.map_append, List.sum_append]
    show _ + 0 = _
    rw [Nat.add_zero, sum_log h2, sum_perm h1, sum_range]

/-- Three segments of different sizes, the last sent twice. -/
example : ∃ s, (netMachine 2 1 [[1], [2, 2], [3, 3, 3]]).Run
    [.data 1 ⟨[2, 2], .absent, false, false, true⟩ false, .timeout 1, .data 0 ⟨[1], .seg 2, false, false, true⟩ false,
     .data 1 ⟨[3, 3, 3], .seg 2, false, false, true⟩ false] s ∧ Obs.complete ∈ s.log ∧ s.summary = ⟨3, 6⟩ := by
  let M := netMachine 2 1 [[1], [2, 2], [3, 3, 3]]
  have key : ∀ (s : St) (i : Nat) p c f k, s.slots[i]? = some (some (f, k)) → Consistent [[1], [2, 2], [3, 3, 3]] k p →
      ConsistentEv [[1], [2, 2], [3, 3, 3]] s (.data i p c) := by
    intro s i p c f k h1 h2 f' k' h3
    rw [h1] at h3; simp at h3; rw [← h3.2]; exact h2
  have r1 := Machine.Run.snoc (M := M) (.data 1 ⟨[2, 2], .absent, false, false, true⟩ false) Machine.Run.nil
    ⟨by decide, key _ _ _ _ (DataFetcher.fetch 1 1).1 1 (by decide) (by decide)⟩
  have r2 := Machine.Run.snoc (M := M) (.timeout 1) r1 ⟨by decide, trivial⟩
  have r3 := Machine.Run.snoc (M := M) (.data 0 ⟨[1], .seg 2, false, false, true⟩ false) r2
    ⟨by decide, key _ _ _ _ (DataFetcher.fetch 1 1).1 0 (by decide) (by decide)⟩
  have r4 := Machine.Run.snoc (M := M) (.data 1 ⟨[3, 3, 3], .seg 2, false, false, true⟩ false) r3
    ⟨by decide, key _ _ _ _ ((DataFetcher.fetch 1 1).1.step .timeout).1 2 (by decide) (by decide)⟩
  exact ⟨_, r4, by decide, by decide⟩

end Fixed

namespace Adaptive

variable {σ ε : Type}

/-- **C78 (timeouts)** The number of timeouts that the adaptive pipelines print is the number of timeouts: the Interests
whose lifetime expired and the segments that an RTO check found outstanding for longer than their RTO. -/
theorem C78_timeouts {A : Alg σ ε} {o : Opts} {w : σ} {v : Env ε} {es s} (h : (machine A o w v).Run es s) :
    s.summary.timeouts = timeouts A o (start A o w v) es := by
  show s.nTimeouts = _
  induction h with
  | nil =>
    have := (less_sched A o v ({ win := w, timer := true } : St σ)).tmo
    exact this
  | snoc e hr he ih =>
    rw [timeouts_append, run_foldl hr, ← ih]
    exact (step_cnt (run_wf hr) he).1

/-- **C78 (adaptive pipelines)** The summary that an adaptive pipeline prints after fetching an object from a consistent
producer shows the number of segments and the size of the object. -/
theorem C78_size {A : Alg σ ε} {o : Opts} {w : σ} {v : Env ε} {segs : List Bytes} {es s}
    (h : (netMachine A o w v segs).Run es s) (hc : Obs.complete ∈ s.log) :
    s.summary.segments = segs.length ∧ s.summary.size = (segs.map List.length).sum := by
  have hr : (machine A o w v).Run es s := by
    clear hc
    induction h with
    | nil => exact .nil
    | snoc e _ he ih => exact ih.snoc e he.1
  obtain ⟨pre, post, e⟩ := List.append_of_mem hc
  obtain ⟨h1, h2, h3, _⟩ := C13_adaptive_completion h e
  subst h3
  have hlog : received s.log = received pre := by rw [e]; simp [received]
  obtain ⟨_, _, _, _, h4, h5, _⟩ := C48_counters hr
  refine ⟨?_, ?_⟩
  · show s.nReceived = _
    rw [h4, hlog, h1.length_eq, List.length_range]
  · show s.receivedSize = _
    have hd : s.receivedSize = (s.log.map dlen).sum := by
      rw [h5]
      congr 2
    rw [hd]
    rw [e, List.map_append, List.sum_append]
    show _ + 0 = _
    rw [Nat.add_zero, sum_log h2, sum_perm h1, sum_range]

/-- **C78 (relations; partial)** Of all printed numbers: the decreases caused by congestion marks are at most as many as the
marks, the repeated Interests are at most 100% of all, and no more Interests are repeated or skipped than losses were
indicated. Missing from the claim: that the decreases attributed to timeouts are at most as many as
the timeouts. This is false (`C78_timeouts_refuted`), since Nacks with reason Congestion cause such decreases as
well; with them it is true. -/
theorem C78_relations_partial {A : Alg σ ε} {o : Opts} {w : σ} {v : Env ε} {es s} (h : (machine A o w v).Run es s) :
    s.summary.markDecr ≤ s.summary.marks ∧ 0 ≤ s.summary.percent ∧ s.summary.percent ≤ 100 ∧
    s.summary.retx + s.summary.skipped ≤ s.summary.timeouts + es.countP Ev.isCongestion ∧
    s.summary.lossDecr ≤ s.summary.timeouts + es.countP Ev.isCongestion := by
  obtain ⟨h1, h2⟩ := bounds h
  have hrs : s.nRetransmitted ≤ s.nSent := by
    obtain ⟨a, b, _⟩ := C48_counters h
    rw [a, b]
    refine List.countP_mono_left ?_
    intro x _ hx
    cases x <;> first | rfl | cases hx
  have hpc : 0 ≤ s.summary.percent ∧ s.summary.percent ≤ 100 := by
    show 0 ≤ (if s.nSent = 0 then (0 : ℚ) else s.nRetransmitted * 100 / s.nSent) ∧
      (if s.nSent = 0 then (0 : ℚ) else s.nRetransmitted * 100 / s.nSent) ≤ 100
    split
    · exact ⟨le_refl _, by norm_num⟩
    · rename_i h0
      have hpos : (0 : ℚ) < s.nSent := by exact_mod_cast Nat.pos_of_ne_zero h0
      have hle : (s.nRetransmitted : ℚ) ≤ s.nSent := by exact_mod_cast hrs
      have hnn : (0 : ℚ) ≤ s.nRetransmitted := by exact_mod_cast Nat.zero_le _
      refine ⟨by positivity, ?_⟩
      rw [div_le_iff₀ hpos]
      linarith
  refine ⟨marks_le h, hpc.1, hpc.2, ?_, h1⟩
  refine Nat.le_trans ?_ h2
  unfold acc
  exact Nat.le_add_right _ _

/-- **C78 (refuted)** Two segments are fetched over a network which answers the second Interest with a Nack for congestion.
The summary says "Timeouts: 0 (caused 1 window decreases)". -/
theorem C78_timeouts_refuted : ∃ es s,
    (politeMachine halving ⟨3, false, false⟩ 2 ⟨0, 10, ()⟩ [[1, 2], [3]]).Run es s ∧ Obs.complete ∈ s.log ∧
    s.summary.timeouts = 0 ∧ s.summary.lossDecr = 1 := by
  let M := politeMachine halving ⟨3, false, false⟩ 2 ⟨0, 10, ()⟩ [[1, 2], [3]]
  let es : List (Ev Unit) := [.nack 1 .congestion ⟨3, 10, ()⟩, .data 0 { content := [1, 2] } false ⟨5, 10, ()⟩,
    .data 1 { content := [3], final := .seg 1 } false ⟨8, 10, ()⟩]
  exact ⟨es, (M.exec M.init es).get (by decide), Machine.exec_run (Option.some_get _).symm, by decide, by decide, by decide⟩

/-- **C78 (timeouts; partial)** Without Nacks for congestion the numbers on the line "Timeouts" are consistent. -/
theorem C78_timeouts_partial {A : Alg σ ε} {o : Opts} {w : σ} {v : Env ε} {es s} (h : (machine A o w v).Run es s)
    (hn : ∀ k v, Ev.nack k .congestion v ∉ es) :
    s.summary.lossDecr ≤ s.summary.timeouts ∧
    s.summary.retx + s.summary.skipped ≤ s.summary.timeouts := by
  have h0 : es.countP Ev.isCongestion = 0 := by
    rw [List.countP_eq_zero]
    intro e he hc
    match e, hc with
    | .nack k .congestion v, _ => exact hn k v he
  obtain ⟨_, _, _, h1, h2⟩ := C78_relations_partial h
  rw [h0] at h1 h2
  exact ⟨h2, h1⟩

/-- The summary of the example in `Props/Adaptive`: two marks of which one caused a decrease, three timeouts of which one
caused a decrease, three of nine Interests repeated. -/
example : ∃ s, (politeMachine halving ⟨3, false, false⟩ 4 ⟨0, 10, ()⟩ [[0], [1], [2], [3], [4], [5]]).Run exampleEvents s ∧
    Obs.complete ∈ s.log ∧
    s.summary = { segments := 6, size := 6, marks := 2, markDecr := 1, timeouts := 3, lossDecr := 1, retx := 3,
                  percent := 100 / 3, skipped := 0 } ∧
    (∀ k v, Ev.nack k .congestion v ∉ exampleEvents) := by
  let M := politeMachine halving ⟨3, false, false⟩ 4 ⟨0, 10, ()⟩ [[0], [1], [2], [3], [4], [5]]
  refine ⟨_, Machine.exec_run (M := M) (s := (M.exec M.init exampleEvents).get (by decide)) (Option.some_get _).symm,
    by decide, ?_, by simp [exampleEvents]⟩
  have : ∀ {s : St Nat}, s.nReceived = 6 → s.receivedSize = 6 → s.nCongMarks = 2 → s.nMarkDecr = 1 → s.nTimeouts = 3 →
      s.nLossDecr = 1 → s.nRetransmitted = 3 → s.nSent = 9 → s.nSkippedRetx = 0 → s.summary =
      { segments := 6, size := 6, marks := 2, markDecr := 1, timeouts := 3, lossDecr := 1, retx := 3,
        percent := 100 / 3, skipped := 0 } := by
    intro s h1 h2 h3 h4 h5 h6 h7 h8 h9
    unfold St.summary
    rw [h1, h2, h3, h4, h5, h6, h7, h8, h9]
    norm_num
  exact this (by decide) (by decide) (by decide) (by decide) (by decide) (by decide) (by decide) (by decide) (by decide)

end Adaptive
end Verif
