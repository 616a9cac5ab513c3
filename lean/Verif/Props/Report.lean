import Verif.Proofs.Report
import Verif.Props.AdaptiveTime
import Verif.Props.Summary
import Verif.Props.Throughput
import Verif.Props.Window

/-! # C94: the text of the statistics files; C95: the text of the summary -/

namespace Verif.Report

open AdaptiveTime (Rows RowFor Entry sends)

variable {σ ε : Type} {late : Option Nat} {A : Adaptive.Alg σ ε} {o : Adaptive.Opts} {interval : Nat} {w : σ} {v : Adaptive.Env ε}

/-! ## C94 -/

private theorem rows_times {start : Nat} {cs : List Entry} {rows : List (Nat × σ)} {w' : σ} (h : Rows A start w cs rows w') :
    List.Forall₂ (fun c x => start ≤ c.time ∧ x.1 = c.time - start) cs rows := by
  induction h with
  | nil => exact .nil
  | snoc c w2 _ _ h3 ih => exact List.rel_append ih (.cons ⟨h3, rfl⟩ .nil)

private theorem rows_last {start : Nat} {cs : List Entry} {rows : List (Nat × σ)} {w' : σ} (h : Rows A start w cs rows w') :
    w' = (rows.getLast?.map (·.2)).getD w := by
  cases h with
  | nil => rfl
  | snoc c w2 _ _ h3 => simp

private theorem rows_reach {start : Nat} {cs : List Entry} {rows : List (Nat × σ)} {w' : σ} (h : Rows A start w cs rows w') :
    Adaptive.Reach A w w' ∧ ∀ x ∈ rows, Adaptive.Reach A w x.2 := by
  induction h with
  | nil => exact ⟨.init, by simp⟩
  | snoc c w2 _ hf _ ih =>
    have hr : Adaptive.Reach A w w2 := by
      rcases hf with ⟨_, e, rfl⟩ | ⟨_, _, _, e, rfl⟩
      · exact .inc e ih.1
      · exact .dec e ih.1
    refine ⟨hr, fun x hx => ?_⟩
    rcases List.mem_append.mp hx with hx | hx
    · exact ih.2 x hx
    · rw [List.mem_singleton] at hx; subst hx; exact hr

private theorem mem_right {α β : Type} {R : α → β → Prop} {l1 : List α} {l2 : List β} (h : List.Forall₂ R l1 l2) {b} (hb : b ∈ l2) :
    ∃ a ∈ l1, R a b := by
  induction h with
  | nil => cases hb
  | cons hr _ ih =>
    rcases List.mem_cons.mp hb with rfl | hb
    · exact ⟨_, by simp, hr⟩
    · obtain ⟨a, ha, h⟩ := ih hb
      exact ⟨a, List.mem_cons_of_mem _ ha, h⟩

private theorem sorted_rows {start : Nat} {cs : List Entry} {rows : List (Nat × σ)}
    (h : List.Forall₂ (fun c x => start ≤ c.time ∧ x.1 = c.time - start) cs rows) (hs : cs.Pairwise fun a b => a.time ≤ b.time) :
    rows.Pairwise fun a b => a.1 ≤ b.1 := by
  induction h with
  | nil => exact .nil
  | cons hab hl ih =>
    rw [List.pairwise_cons] at hs ⊢
    refine ⟨fun y hy => ?_, ih hs.2⟩
    obtain ⟨c, hc, h1, h2⟩ := mem_right hl hy
    have := hs.1 c hc
    rw [hab.2, h2]
    omega

private theorem forall₂_map_self {α β : Type} {R : α → β → Prop} {f : α → β} {l : List α} (h : ∀ x ∈ l, R x (f x)) :
    List.Forall₂ R l (l.map f) := by
  induction l with
  | nil => exact .nil
  | cons x l ih => exact .cons (h x (by simp)) (ih fun y hy => h y (List.mem_cons_of_mem _ hy))

private theorem forall₂_map_right {α β γ : Type} {R : α → β → Prop} {S : α → γ → Prop} {f : β → γ} {l : List α} {l' : List β}
    (h : List.Forall₂ R l l') (hf : ∀ x y, R x y → S x (f y)) : List.Forall₂ S l (l'.map f) := by
  induction h with
  | nil => exact .nil
  | cons h _ ih => exact .cons (hf _ _ h) ih

/-- **C94 (the file of --log-cwnd)** The text can be read back, with a row for each change of the window: its time is, up to six
millionths, the number of seconds since the start at which the change happened, and its window the window after the change. The times
do not decrease, and the last window is the current one. `f` is the size of a window. -/
theorem C94_cwnd {es s} (h : (AdaptiveTime.machine late A o interval w v).Run es s) (f : σ → ℚ) (hf : ∀ x ∈ s.cwnd, 0 ≤ f x.2) :
    ∃ rows, readCwnd (cwndFile binary64 (s.cwnd.map fun x => (x.1, f x.2))) = some rows ∧
      List.Forall₂ (fun c r => v.now ≤ c.time ∧ Near r.1 (((c.time - v.now : Nat) : ℚ) / 10 ^ 9)) (s.hist.filter Entry.isChange) rows ∧
      List.Forall₂ (fun x r => Near r.2 (f x.2)) s.cwnd rows ∧ rows.Pairwise (fun a b => a.1 ≤ b.1) ∧
      ∀ r ∈ rows.getLast?, Near r.2 (f s.p.win) := by
  obtain ⟨hr, -, hs⟩ := AdaptiveTime.C88_cwnd h
  have ht := rows_times hr
  refine ⟨_, cwnd_read ?_, ?_, ?_, ?_, ?_⟩
  · intro x hx
    obtain ⟨y, hy, rfl⟩ := List.mem_map.mp hx
    exact hf y hy
  · rw [List.map_map]
    refine forall₂_map_right ht fun c x hcx => ⟨hcx.1, ?_⟩
    rw [← hcx.2]
    exact near_seconds _
  · rw [List.map_map]
    exact forall₂_map_self fun x hx => near_self (hf x hx)
  · rw [List.map_map, List.pairwise_map]
    exact (sorted_rows ht (hs.filter _)).imp fun h => shown_seconds_mono h
  · intro r hr'
    rw [List.map_map, List.getLast?_map] at hr'
    obtain ⟨x, hx, rfl⟩ := Option.mem_map.mp hr'
    have hl := rows_last hr
    rw [hx] at hl
    rw [hl]
    exact near_self (hf x (List.mem_of_getLast? hx))

/-- **C94 (the file of --log-cwnd, AIMD)** The same with the windows of the AIMD pipeline, if the initial window is at least 1 and the step
is not negative. -/
theorem C94_cwnd_aimd {ao : Window.AimdOpts} (h1 : 1 ≤ ao.initCwnd) (h2 : 0 ≤ ao.aiStep) {v : Adaptive.Env Unit} {es s}
    (h : (AdaptiveTime.machine late (Window.Aimd.alg ao) o interval (Window.Aimd.init ao) v).Run es s) :
    ∃ rows, readCwnd (cwndFile binary64 (s.cwnd.map fun x => (x.1, x.2.cwnd))) = some rows ∧
      List.Forall₂ (fun c r => v.now ≤ c.time ∧ Near r.1 (((c.time - v.now : Nat) : ℚ) / 10 ^ 9)) (s.hist.filter Entry.isChange) rows ∧
      List.Forall₂ (fun x r => Near r.2 x.2.cwnd) s.cwnd rows ∧ rows.Pairwise (fun a b => a.1 ≤ b.1) ∧
      ∀ r ∈ rows.getLast?, Near r.2 s.p.win.cwnd := by
  refine C94_cwnd h (fun x => x.cwnd) fun x hx => ?_
  have := (Window.C19_aimd_laws h1 h2 ((rows_reach (AdaptiveTime.C88_cwnd h).1).2 x hx)).1
  linarith

/-- **C94 (the file of --log-rtt)** The text can be read back, with a row for each measurement: the number of the segment, and in
milliseconds, up to six millionths, the time between the only Interest for it and its delivery, and the RTO after the measurement; also
the smoothed RTT and its variation as they were told. -/
theorem C94_rtt {es s} (h : (AdaptiveTime.machine late A o interval w v).Run es s) :
    ∃ rows, readRtt (rttFile binary64 s.rtt) = some rows ∧
      List.Forall₂ (fun e r => ∃ k t0 r0 p, e.obs = .sample k ∧ r.seg = k ∧ sends s.hist k = [(t0, r0)] ∧ t0 ≤ e.time ∧
        ⟨e.time, e.rto, .data k p⟩ ∈ s.hist ∧ Near r.rtt (((e.time - t0 : Nat) : ℚ) / 10 ^ 6) ∧ Near r.rto ((e.rto : ℚ) / 10 ^ 6))
        (s.hist.filter (·.sample?.isSome)) rows ∧
      List.Forall₂ (fun x r => Near r.sRtt ((x.sRtt : ℚ) / 10 ^ 6) ∧ Near r.rttVar ((x.rttVar : ℚ) / 10 ^ 6)) s.rtt rows := by
  refine ⟨_, rtt_read s.rtt, ?_, ?_⟩
  · refine forall₂_map_right (AdaptiveTime.C88_rtt h) ?_
    rintro e x ⟨k, t0, r0, g1, g2, g3, g4, g5, g6, p, g7⟩
    refine ⟨k, t0, r0, p, g1, g2, g3, g4, g7, ?_, ?_⟩
    · rw [← g5]; exact near_millis _
    · rw [← g6]; exact near_millis _
  · exact forall₂_map_self fun x _ => ⟨near_millis _, near_millis _⟩

private abbrev logAlg : Adaptive.Alg Nat Unit := ⟨fun w _ => w + 1, fun w _ => max 2 (w / 2), fun w => (w : Nat)⟩

/-- Beside `C94_cwnd` and `C94_rtt`: the run beside C88, with the text. -/
example : ∃ s, (AdaptiveTime.machine none logAlg ⟨3, false, false⟩ 20000000 6 ⟨10 ^ 9, 10 ^ 7, ()⟩).Run
      [⟨.data 1 { content := [1] } false ⟨1004000000, 9000000, ()⟩, 1004000000, 2000000, 4000000⟩,
        ⟨.expire 2 ⟨1006000000, 18000000, ()⟩, 1006000000, 2000000, 4000000⟩,
        ⟨.data 0 { content := [1] } false ⟨1009000000, 18000000, ()⟩, 1009000000, 2500000, 4000000⟩] s ∧
    (∀ x ∈ s.cwnd, (0 : ℚ) ≤ (x.2 : ℚ)) ∧
    cwndFile binary64 (s.cwnd.map fun x => (x.1, (x.2 : ℚ))) = text "time\tcwndsize\n0.004\t7\n0.006\t3\n0.009\t4\n" ∧
    rttFile binary64 s.rtt = text "segment\trtt\trttvar\tsrtt\trto\n1\t4\t2\t4\t9\n0\t9\t2.5\t4\t18\n" := by
  let M := AdaptiveTime.machine none logAlg ⟨3, false, false⟩ 20000000 6 ⟨10 ^ 9, 10 ^ 7, ()⟩
  let es : List (AdaptiveTime.Ev Unit) := [⟨.data 1 { content := [1] } false ⟨1004000000, 9000000, ()⟩, 1004000000, 2000000, 4000000⟩,
        ⟨.expire 2 ⟨1006000000, 18000000, ()⟩, 1006000000, 2000000, 4000000⟩,
        ⟨.data 0 { content := [1] } false ⟨1009000000, 18000000, ()⟩, 1009000000, 2500000, 4000000⟩]
  exact ⟨(M.exec M.init es).get (by decide +kernel), Machine.exec_run (M := M) (Option.some_get _).symm, fun _ _ => Nat.cast_nonneg _,
    by decide +kernel, by decide +kernel⟩

/-- Beside `C94_cwnd_aimd`: the window of the AIMD pipeline. -/
example : ∃ s, (AdaptiveTime.machine none (Window.Aimd.alg ⟨2, 3, 1, 1 / 2, false⟩) ⟨3, false, false⟩ 20000000
      (Window.Aimd.init ⟨2, 3, 1, 1 / 2, false⟩) ⟨10 ^ 9, 10 ^ 7, ()⟩).Run
      [⟨.data 1 { content := [1] } false ⟨1004000000, 9000000, ()⟩, 1004000000, 2000000, 4000000⟩,
        ⟨.data 0 { content := [1] } false ⟨1009000000, 18000000, ()⟩, 1009000000, 2500000, 4000000⟩] s ∧
    cwndFile binary64 (s.cwnd.map fun x => (x.1, x.2.cwnd)) = text "time\tcwndsize\n0.004\t3\n0.009\t3.33333\n" := by
  let M := AdaptiveTime.machine none (Window.Aimd.alg ⟨2, 3, 1, 1 / 2, false⟩) ⟨3, false, false⟩ 20000000
      (Window.Aimd.init ⟨2, 3, 1, 1 / 2, false⟩) ⟨10 ^ 9, 10 ^ 7, ()⟩
  let es : List (AdaptiveTime.Ev Unit) := [⟨.data 1 { content := [1] } false ⟨1004000000, 9000000, ()⟩, 1004000000, 2000000, 4000000⟩,
        ⟨.data 0 { content := [1] } false ⟨1009000000, 18000000, ()⟩, 1009000000, 2500000, 4000000⟩]
  exact ⟨(M.exec M.init es).get (by decide +kernel), Machine.exec_run (M := M) (Option.some_get _).symm, by decide +kernel⟩

/-- **C94 (how fine the times are)** The number of printed digits is fixed: after a quarter of an hour, changes of the window that are
3 ms apart are logged with the same time. -/
theorem C94_resolution : readCwnd (cwndFile binary64 [(1000001000000, 10), (1000004000000, 11)]) = some [(1000, 10), (1000, 11)] := by
  decide +kernel

/-! ## C95 -/

private theorem goodput_of {bytes ns : Nat} (hb : 8 * bytes < 2 ^ 64) :
    GoodputOf (goodputWords (Throughput.goodput binary64 bytes ns)) bytes ns := by
  unfold GoodputOf
  by_cases hn : ns = 0
  · subst hn
    rw [if_pos rfl, Throughput.C45_no_time, Nat.mod_eq_of_lt hb]
    by_cases h0 : bytes = 0
    · subst h0; rfl
    · rw [if_neg (by omega), if_neg h0]; rfl
  · rw [if_neg hn]
    obtain ⟨t, u, q, f, h1, h2, h3, h4, h5, h6⟩ := Throughput.C45_goodput_partial bytes ns hb (Nat.pos_of_ne_zero hn)
    rw [h1]
    exact ⟨u, q, f, rfl, h2, h3, h4, h5, h6⟩

private theorem near_kB (n : Nat) : Near (shown (binary64 (binary64 n / 10 ^ 3))) ((n : ℚ) / 10 ^ 3) :=
  near_shown (by decide) (by positivity) (quotient_rel n (by norm_num))

/-- **C95 (fixed pipeline)** The text that the fixed pipeline prints after fetching an object from a consistent producer can be read back.
It tells the elapsed time and the size of the object, up to six millionths, the exact number of its segments, and the goodput. -/
theorem C95_fixed {N : Nat} {R : Int} {segs : List Bytes} {es s} (hN : 0 < N) (h : (Fixed.netMachine N R segs).Run es s)
    (hc : Fixed.Obs.complete ∈ s.log) (ns : Nat) (hb : 8 * (segs.map List.length).sum < 2 ^ 64) :
    ∃ b, readSummary (summaryText binary64 ns s.summary) = some b ∧ Near b.elapsed ((ns : ℚ) / 10 ^ 9) ∧ b.segments = segs.length ∧
      Near b.kB (((segs.map List.length).sum : ℚ) / 10 ^ 3) ∧ GoodputOf b.goodput (segs.map List.length).sum ns := by
  rw [Fixed.C78_fixed hN h hc]
  exact ⟨_, summary_read ns _, near_seconds ns, rfl, near_kB _, goodput_of hb⟩

/-- **C95 (adaptive pipelines)** The text that an adaptive pipeline prints after fetching an object from a consistent producer can be read
back. It tells the elapsed time and the size of the object, up to six millionths, the number of its segments, the goodput, and the exact
counters; the share of repeated Interests up to six millionths, not more than 100, and 0 only if none was repeated; and the RTT, if it
was measured. -/
theorem C95_adaptive {segs : List Bytes} {es s} (h : (Adaptive.netMachine A o w v segs).Run es s) (hc : Adaptive.Obs.complete ∈ s.log)
    (ns : Nat) (rtts : Option Rtts) (hb : 8 * (segs.map List.length).sum < 2 ^ 64) :
    ∃ b, readAdaptive (adaptiveText binary64 ns s.summary s.nSent rtts) = some b ∧ Near b.elapsed ((ns : ℚ) / 10 ^ 9) ∧
      b.segments = segs.length ∧ Near b.kB (((segs.map List.length).sum : ℚ) / 10 ^ 3) ∧
      GoodputOf b.goodput (segs.map List.length).sum ns ∧
      b.marks = s.log.countP isMarked ∧ b.markDecr = s.log.countP isMarkDecrease ∧
      b.timeouts = Adaptive.timeouts A o (Adaptive.start A o w v) es ∧ b.lossDecr = s.log.countP isLossDecrease ∧
      b.retx = s.log.countP isRepeat ∧ b.skipped = s.nSkippedRetx ∧
      Near b.percent (b.retx * 100 / (s.log.countP isInterest : ℚ)) ∧ b.percent ≤ 100 ∧ (b.percent = 0 ↔ b.retx = 0) ∧
      Option.Rel RttsOf b.rtts rtts := by
  have hr : (Adaptive.machine A o w v).Run es s := by
    clear hc
    induction h with
    | nil => exact .nil
    | snoc e _ he ih => exact ih.snoc e he.1
  obtain ⟨h1, h2⟩ := Adaptive.C78_size h hc
  obtain ⟨c1, c2, c3, c4, -, -, c7⟩ := Adaptive.C48_counters hr
  have hle : s.nRetransmitted ≤ s.nSent := by
    rw [c1, c2]
    refine List.countP_mono_left ?_
    intro x _ hx
    cases x <;> first | rfl | cases hx
  refine ⟨_, adaptive_read ns s.summary s.nSent rtts, near_seconds ns, h1, ?_, ?_, ?_, ?_, Adaptive.C78_timeouts hr, ?_, ?_, rfl, ?_,
    percent_le hle, percent_zero hle, ?_⟩
  · rw [← h2]; exact near_kB _
  · rw [← h2] at hb ⊢; exact goodput_of hb
  · refine c7.trans (List.countP_congr ?_)
    intro x _; cases x <;> simp [isMarked]
  · refine c4.trans (List.countP_congr ?_)
    intro x _; unfold isMarkDecrease; rfl
  · refine c3.trans (List.countP_congr ?_)
    intro x _; unfold isLossDecrease; rfl
  · refine c2.trans (List.countP_congr ?_)
    intro x _; unfold isRepeat; rfl
  · have e1 : s.log.countP isInterest = s.nSent := by
      refine Eq.symm (c1.trans (List.countP_congr ?_))
      intro x _; unfold isInterest; rfl
    rw [e1]
    have := percent_near s.nRetransmitted s.nSent
    have e2 : (if s.nSent = 0 then (0 : ℚ) else s.nRetransmitted * 100 / s.nSent) = s.nRetransmitted * 100 / s.nSent := by
      split
      · rename_i h0; rw [h0]; simp
      · rfl
    rw [e2] at this
    exact this
  · cases rtts with
    | none => exact .none
    | some t =>
      refine .some ⟨shown3_millis _, shown3_millis _, shown3_millis _, fun hx => ?_, fun hx => ?_⟩
      · exact shown3_mono (quotient_mono hx (by norm_num))
      · exact shown3_mono (quotient_mono hx (by norm_num))

/-- Beside `C95_fixed`: the transfer beside C78, in one second and a half. -/
example : summaryText binary64 1500000000 ⟨3, 6⟩ = text ("\n\nAll segments have been received.\nTime elapsed: 1.5 seconds\n" ++
    "Segments received: 3\nTransferred size: 0.006 kB\nGoodput: 32.000000 bit/s\n") := by decide +kernel

/-- A whole second is written in the singular. -/
example : summaryText binary64 1000000000 ⟨3, 1234567⟩ = text ("\n\nAll segments have been received.\nTime elapsed: 1 second\n" ++
    "Segments received: 3\nTransferred size: 1234.57 kB\nGoodput: 9.876536 Mbit/s\n") := by decide +kernel

instance (A : Adaptive.Alg σ ε) (o : Adaptive.Opts) (w : σ) (v : Adaptive.Env ε) (segs : List Bytes) (s : Adaptive.St σ)
    (e : Adaptive.Ev ε) : Decidable ((Adaptive.netMachine A o w v segs).enabled s e) :=
  inferInstanceAs (Decidable (s.enabled e ∧ Adaptive.ConsistentEv segs e))

/-- Beside `C95_adaptive`: the transfer beside C78; three of nine Interests are repeated. -/
example : ∃ s, (Adaptive.netMachine Adaptive.halving ⟨3, false, false⟩ 4 ⟨0, 10, ()⟩ [[0], [1], [2], [3], [4], [5]]).Run
      Adaptive.exampleEvents s ∧ Adaptive.Obs.complete ∈ s.log ∧
    adaptiveText binary64 250000000 s.summary s.nSent (some ⟨4000400, 5000600, 6999999⟩) =
      text ("\n\nAll segments have been received.\nTime elapsed: 0.25 seconds\n" ++
        "Segments received: 6\nTransferred size: 0.006 kB\nGoodput: 192.000000 bit/s\n" ++
        "Congestion marks: 2 (caused 1 window decreases)\nTimeouts: 3 (caused 1 window decreases)\n" ++
        "Retransmitted segments: 3 (33.3333%), skipped: 0\nRTT min/avg/max = 4.000/5.001/7.000 ms\n") := by
  let M := Adaptive.netMachine Adaptive.halving ⟨3, false, false⟩ 4 ⟨0, 10, ()⟩ [[0], [1], [2], [3], [4], [5]]
  exact ⟨_, Machine.exec_run (M := M) (s := (M.exec M.init Adaptive.exampleEvents).get (by decide +kernel)) (Option.some_get _).symm,
    by decide +kernel, by decide +kernel⟩

end Verif.Report
