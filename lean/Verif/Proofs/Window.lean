import Verif.Model.Window
import Verif.Proofs.AdaptiveMore
import Mathlib.Tactic.Linarith
import Mathlib.Tactic.Positivity
import Mathlib.Tactic.NormNum
import Mathlib.Tactic.FieldSimp
import Mathlib.Tactic.Ring

/-! # Lemmas about the window algorithms -/

namespace Verif.Window

open Verif.Adaptive

/-! ## AIMD -/

namespace Aimd

theorem floor_pos {x : ℚ} (h : 1 ≤ x) : (1 : ℚ) ≤ (⌊x⌋ : ℚ) := by
  exact_mod_cast Int.le_floor.mpr (by exact_mod_cast h)

theorem increase_bounds {o : AimdOpts} {s : Aimd} (h2 : 0 ≤ o.aiStep) (h : 1 ≤ s.cwnd) :
    s.cwnd ≤ (s.increase o).cwnd ∧ (s.increase o).cwnd ≤ s.cwnd + o.aiStep ∧
    (s.increase o).ssthresh = s.ssthresh := by
  have hf := floor_pos h
  unfold increase
  split
  · exact ⟨by dsimp only; linarith, le_refl _, rfl⟩
  · refine ⟨?_, ?_, rfl⟩
    · have : 0 ≤ o.aiStep / (⌊s.cwnd⌋ : ℚ) := by positivity
      dsimp only; linarith
    · have : o.aiStep / (⌊s.cwnd⌋ : ℚ) ≤ o.aiStep := div_le_self h2 hf
      dsimp only; linarith

theorem reach_one {o : AimdOpts} (h1 : 1 ≤ o.initCwnd) (h2 : 0 ≤ o.aiStep) {s : Aimd}
    (h : Reach (alg o) (init o) s) : 1 ≤ s.cwnd := by
  induction h with
  | init => exact h1
  | inc e _ ih => exact le_trans ih (increase_bounds h2 ih).1
  | dec e _ ih =>
    simp only [alg, decrease]
    split
    · exact h1
    · exact le_trans (by norm_num [minSsthresh]) (le_max_left _ _)

theorem slots_one {s : Aimd} (h : 1 ≤ s.cwnd) : 1 ≤ s.slots := by
  unfold slots
  rw [if_pos (by linarith)]
  exact Int.le_floor.mpr (by exact_mod_cast h)

/-- `n` increases in congestion avoidance. -/
theorem avoidance {o : AimdOpts} (h2 : 0 ≤ o.aiStep) : ∀ (n : Nat) (s : Aimd), 1 ≤ s.cwnd → s.ssthresh ≤ s.cwnd →
    s.cwnd ≤ ((increase o)^[n] s).cwnd ∧ ((increase o)^[n] s).ssthresh = s.ssthresh ∧
    ((increase o)^[n] s).cwnd ≤ s.cwnd + n * (o.aiStep / (⌊s.cwnd⌋ : ℚ)) := by
  intro n
  induction n with
  | zero => intro s _ _; simp
  | succ n ih =>
    intro s h1 hs
    rw [Function.iterate_succ_apply']
    obtain ⟨a, b, c⟩ := ih s h1 hs
    generalize (increase o)^[n] s = t at a b c
    have ht : 1 ≤ t.cwnd := le_trans h1 a
    obtain ⟨d, _, f⟩ := increase_bounds (o := o) h2 ht
    refine ⟨le_trans a d, f.trans b, ?_⟩
    have hfl : (⌊s.cwnd⌋ : ℚ) ≤ (⌊t.cwnd⌋ : ℚ) := by exact_mod_cast Int.floor_mono a
    have hf := floor_pos h1
    have hstep : o.aiStep / (⌊t.cwnd⌋ : ℚ) ≤ o.aiStep / (⌊s.cwnd⌋ : ℚ) :=
      div_le_div_of_nonneg_left h2 (by linarith) hfl
    have : (t.increase o).cwnd = t.cwnd + o.aiStep / (⌊t.cwnd⌋ : ℚ) := by
      unfold increase
      rw [if_neg (by rw [b]; linarith)]
    rw [this]
    push_cast
    linarith

/-- `n` increases in slow start. -/
theorem slowStart {o : AimdOpts} (h2 : 0 ≤ o.aiStep) : ∀ (n : Nat) (s : Aimd),
    (∀ i < n, s.cwnd + i * o.aiStep < s.ssthresh) →
    ((increase o)^[n] s).cwnd = s.cwnd + n * o.aiStep ∧ ((increase o)^[n] s).ssthresh = s.ssthresh := by
  intro n
  induction n with
  | zero => intro s _; simp
  | succ n ih =>
    intro s hs
    rw [Function.iterate_succ_apply']
    obtain ⟨a, b⟩ := ih s (fun i hi => hs i (by omega))
    have := hs n (by omega)
    generalize (increase o)^[n] s = t at a b
    unfold increase
    rw [if_pos (by rw [a, b]; exact this)]
    refine ⟨?_, b⟩
    dsimp only
    rw [a]
    push_cast
    ring

end Aimd

/-! ## CUBIC -/

theorem cbrt_cube {x : ℝ} (h : 0 ≤ x) : cbrt x ^ 3 = x := by
  unfold cbrt
  rw [if_pos h, ← Real.rpow_natCast, ← Real.rpow_mul h]
  norm_num

namespace Cubic

theorem avoid_bounds {o : CubicOpts} {e : CubicEnv} {s : Cubic} (h : 1 ≤ s.cwnd) :
    s.cwnd ≤ (avoid o e s).cwnd ∧
    (e.rtt ≠ 0 →
      let target := max (wCubic o s.wmax (e.now - s.lastDecrease)) (wEst o s.wmax (e.now - s.lastDecrease) e.rtt)
      (avoid o e s).cwnd ≤ max s.cwnd target ∧
      (target ≤ s.cwnd → (avoid o e s).cwnd = s.cwnd) ∧
      (s.cwnd ≤ target → s.cwnd * ((avoid o e s).cwnd - s.cwnd) = target - s.cwnd) ∧
      (avoid o e s).infinite = s.infinite) := by
  have hpos : 0 < s.cwnd := by linarith
  have key : ∀ target : ℝ, s.cwnd ≤ s.cwnd + max 0 (target - s.cwnd) / s.cwnd ∧
      s.cwnd + max 0 (target - s.cwnd) / s.cwnd ≤ max s.cwnd target := by
    intro target
    refine ⟨?_, ?_⟩
    · have : 0 ≤ max 0 (target - s.cwnd) / s.cwnd := div_nonneg (le_max_left _ _) hpos.le
      linarith
    · have h1 : max 0 (target - s.cwnd) / s.cwnd ≤ max 0 (target - s.cwnd) :=
        div_le_self (le_max_left _ _) h
      rcases le_total target s.cwnd with hc | hc
      · rw [max_eq_left (by linarith)] at h1 ⊢
        rw [zero_div, add_zero]; exact le_max_left _ _
      · rw [max_eq_right (by linarith)] at h1 ⊢
        refine le_trans ?_ (le_max_right _ _)
        linarith
  unfold avoid
  dsimp only
  refine ⟨(key _).1, ?_⟩
  intro hr
  rw [if_neg hr]
  generalize max (wCubic o s.wmax (e.now - s.lastDecrease)) (wEst o s.wmax (e.now - s.lastDecrease) e.rtt) = target
  refine ⟨(key _).2, ?_, ?_, by simp [hr]⟩
  · intro ht
    rw [max_eq_left (by linarith)]; simp
  · intro ht
    rw [max_eq_right (by linarith)]
    field_simp
    ring

theorem increase_le {o : CubicOpts} (h1 : 1 ≤ o.initCwnd) {s : Cubic} (h : o.initCwnd ≤ s.cwnd) (e : CubicEnv) :
    s.cwnd ≤ (s.increase o e).cwnd := by
  unfold increase
  split
  · dsimp only; linarith
  · split
    · exact (avoid_bounds (o := o) (e := e) (s := { s with wmax := s.cwnd }) (le_trans h1 h)).1
    · exact (avoid_bounds (le_trans h1 h)).1

theorem reach_init {o : CubicOpts} {now : ℝ} (h1 : 1 ≤ o.initCwnd) {s : Cubic}
    (h : Reach (alg o) (init o now) s) : o.initCwnd ≤ s.cwnd := by
  induction h with
  | init => exact le_refl _
  | inc e _ ih => exact le_trans ih (increase_le h1 ih e)
  | dec e _ ih => exact le_max_left _ _

theorem slots_one {s : Cubic} (h : 1 ≤ s.cwnd) : 1 ≤ s.slots := by
  unfold slots
  rw [if_pos (by linarith)]
  exact Int.le_floor.mpr (by exact_mod_cast h)

end Cubic
end Verif.Window

namespace Verif.Adaptive

variable {σ ε : Type}

/-! ## The first Interest -/

theorem out_send {o : Opts} {v : Env ε} (s : St σ) (k : Nat) :
    ∃ l, (s.sendInterest o v k false).out = s.out ++ l := by
  unfold St.sendInterest
  split
  · exact ⟨[], by simp⟩
  split
  · exact ⟨[], by simp⟩
  split
  · exact ⟨[], by simp⟩
  split
  · contradiction
  · exact ⟨[k], rfl⟩

theorem out_schedNew {o : Opts} {v : Env ε} : ∀ (n : Nat) (s : St σ), ∃ l, (St.schedNew o v n s).out = s.out ++ l
  | 0, s => ⟨[], by simp [St.schedNew]⟩
  | n + 1, s => by
    unfold St.schedNew
    obtain ⟨l1, h1⟩ := out_send (o := o) (v := v) { s with nextSegmentNo := s.nextSegmentNo + 1 } s.nextSegmentNo
    obtain ⟨l2, h2⟩ := out_schedNew (o := o) (v := v) n
      ({ s with nextSegmentNo := s.nextSegmentNo + 1 }.sendInterest o v s.nextSegmentNo false)
    exact ⟨l1 ++ l2, by rw [h2, h1]; simp⟩

theorem start_out {A : Alg σ ε} {o : Opts} {w : σ} {v : Env ε} (h : 1 ≤ A.slots w) :
    0 ∈ (start A o w v).out := by
  unfold start St.schedulePackets
  dsimp only
  have hn : ∃ n, (A.slots w - 0).toNat = n + 1 := ⟨(A.slots w - 0).toNat - 1, by omega⟩
  obtain ⟨n, hn⟩ := hn
  rw [hn]
  unfold St.schedRetx
  dsimp only
  unfold St.schedNew
  dsimp only
  obtain ⟨l, hl⟩ := out_schedNew (o := o) (v := v) n
    (St.sendInterest { win := w, timer := true, nextSegmentNo := 0 + 1, assertFailed := false || decide ((0:Int) < 0) } o v 0 false)
  rw [hl]
  simp [St.sendInterest, St.transmit]

theorem schedNew_keeps {o : Opts} {v : Env ε} (k : Nat) : ∀ (n : Nat) (s : St σ), (get s.info k).isSome = true →
    s.hasFinalBlockId = false → s.isStopping = false → s.hasFailure = false →
    (get (St.schedNew o v n s).info k).isSome = true ∧ (St.schedNew o v n s).hasFinalBlockId = false ∧
    (St.schedNew o v n s).isStopping = false ∧ (St.schedNew o v n s).threw = s.threw ∧
    (St.schedNew o v n s).ub = s.ub
  | 0, s, h, h1, h2, _ => ⟨h, h1, h2, rfl, rfl⟩
  | n + 1, s, h, h1, h2, h3 => by
    unfold St.schedNew
    have he : ({ s with nextSegmentNo := s.nextSegmentNo + 1 }.sendInterest o v s.nextSegmentNo false) =
        { s with nextSegmentNo := s.nextSegmentNo + 1 }.transmit v s.nextSegmentNo false := by
      simp [St.sendInterest, h1, h2, h3]
    rw [he]
    refine schedNew_keeps k n _ ?_ h1 h2 h3
    simp only [St.transmit]
    rw [get_put]
    split
    · rfl
    · exact h

/-- What is known about the state after `run()` if the window allows a segment. -/
theorem start_facts {A : Alg σ ε} {o : Opts} {w : σ} {v : Env ε} (h : 1 ≤ A.slots w) :
    (get (start A o w v).info 0).isSome = true ∧ (start A o w v).hasFinalBlockId = false ∧
    (start A o w v).isStopping = false ∧ (start A o w v).threw = none ∧ (start A o w v).ub = false ∧
    (start A o w v).win = w := by
  have hw : (start A o w v).win = w := (schedulePackets_window A o v _).1
  obtain ⟨n, hn⟩ : ∃ n, (A.slots w - 0).toNat = n + 1 := ⟨(A.slots w - 0).toNat - 1, by omega⟩
  suffices hs : (get (start A o w v).info 0).isSome = true ∧ (start A o w v).hasFinalBlockId = false ∧
    (start A o w v).isStopping = false ∧ (start A o w v).threw = none ∧ (start A o w v).ub = false by
    exact ⟨hs.1, hs.2.1, hs.2.2.1, hs.2.2.2.1, hs.2.2.2.2, hw⟩
  unfold start St.schedulePackets
  dsimp only
  rw [hn]
  unfold St.schedRetx
  dsimp only
  unfold St.schedNew
  dsimp only
  exact schedNew_keeps (o := o) (v := v) 0 n
    (St.sendInterest { win := w, timer := true, nextSegmentNo := 0 + 1, assertFailed := false || decide ((0:Int) < 0) } o v 0 false)
    (by simp [St.sendInterest, St.transmit, put, get]) rfl rfl rfl

/-- Unmarked Data without FinalBlockId for a tracked segment increases the window. -/
theorem data_increases {A : Alg σ ε} {o : Opts} {s : St σ} {k : Nat} {v : Env ε} {c : Bytes}
    (hi : (get s.info k).isSome = true) (h1 : s.isStopping = false)
    (h2 : s.threw = none) (h3 : s.ub = false) :
    (s.step A o (.data k { content := c } false v)).win = A.inc s.win v.win := by
  unfold St.step
  rw [if_neg (by simp [h2, h3])]
  dsimp only
  have hi' : (get (s.called k).info k).isSome = true := by
    cases hg : get (s.called k).info k with
    | none => rw [get_called_none.mp hg] at hi; cases hi
    | some x => rfl
  obtain ⟨x, hx⟩ := Option.isSome_iff_exists.mp hi'
  have hw : (s.called k).win = s.win := rfl
  have hs : (s.called k).isStopping = false := h1
  rw [← hw]
  generalize s.called k = t at hx hs
  unfold St.handleData
  rw [if_neg (by simp [hs])]
  have hf : t.handleFinal { content := c } = (t, true) := by
    unfold St.handleFinal
    split <;> rfl
  rw [hf]
  dsimp only
  rw [if_pos rfl]
  unfold St.handleSeg
  rw [hx]
  dsimp only
  rw [if_neg (by simp)]
  have ha : (t.adapt A o v k x { content := c }).win = A.inc t.win v.win := by
    unfold St.adapt
    simp
  have hd : ∀ u : St σ, (u.deliver k x { content := c }).win = u.win := by
    intro u; unfold St.deliver St.onData St.emit; dsimp only; split <;> rfl
  unfold St.finish
  dsimp only
  split
  · unfold St.cancel St.emit
    split
    · exact (hd _).trans ha
    · exact (hd _).trans ha
  · rw [(schedulePackets_window A o v _).1]
    exact (hd _).trans ha

/-! ## A window below one segment -/

structure Mute (A : Alg σ ε) (w : σ) (s : St σ) : Prop where
  log : s.log = []
  out : s.out = []
  info : s.info = []
  queue : s.retxQueue = []
  posted : s.posted = []
  win : s.win = w
  flight : s.nInFlight = 0

theorem mute_sched {A : Alg σ ε} {o : Opts} {w : σ} {v : Env ε} (h : A.slots w ≤ 0) {s : St σ} (hm : Mute A w s) :
    Mute A w (s.schedulePackets A o v) := by
  unfold St.schedulePackets
  dsimp only
  have : (A.slots s.win - s.nInFlight).toNat = 0 := by rw [hm.win, hm.flight]; omega
  rw [this]
  have h0 : ∀ q (t : St σ), St.schedRetx o v q 0 t = (t, 0) := by
    intro q t; cases q <;> rfl
  rw [h0]
  exact ⟨hm.log, hm.out, hm.info, hm.queue, hm.posted, hm.win, hm.flight⟩

theorem mute_run {A : Alg σ ε} {o : Opts} {w : σ} {v : Env ε} (h : A.slots w ≤ 0) {es s}
    (hr : (machine A o w v).Run es s) : Mute A w s := by
  refine Machine.Run.invariant (P := Mute A w) ?_ ?_ hr
  · exact mute_sched h ⟨rfl, rfl, rfl, rfl, rfl, rfl, rfl⟩
  · intro s e hm he
    dsimp only [machine]
    unfold St.step
    split
    · exact hm
    cases e with
    | data k p c v => have : k ∈ s.out := he; rw [hm.out] at this; cases this
    | nack k r v => have : k ∈ s.out := he; rw [hm.out] at this; cases this
    | expire k v => have : k ∈ s.out := he; rw [hm.out] at this; cases this
    | check order v =>
      have ho : order = [] := by have := he.2; rw [hm.info] at this; simpa using this
      subst ho
      dsimp only
      unfold St.checkRto
      split
      · exact ⟨hm.log, hm.out, hm.info, hm.queue, hm.posted, hm.win, hm.flight⟩
      · simp only [St.expired, List.filter_nil, ne_eq, not_true_eq_false, if_false, List.foldl_nil]
        exact ⟨hm.log, hm.out, hm.info, hm.queue, hm.posted, hm.win, hm.flight⟩
    | cancel =>
      dsimp only
      unfold St.cancel
      split
      · exact hm
      · exact ⟨hm.log, hm.out, rfl, hm.queue, hm.posted, hm.win, hm.flight⟩
    | posted => exact absurd hm.posted he

end Verif.Adaptive
