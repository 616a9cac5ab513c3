import Verif.Proofs.Window

/-! # C19, C20, C53: the window algorithms AIMD and CUBIC -/

namespace Verif.Window

open Verif.Adaptive

/-! ## C19: AIMD -/

/-- **C19** The initial window is at least 1 and the additive step is not negative. Whatever the sequence
of increases and decreases, the window is at least 1 (and allows at least one segment). A decrease
leaves the threshold at least 2; without reset-to-initial the window becomes the threshold and, if
the factor is between 0 and 1, does not get larger than it was, or than 2; with reset-to-initial it
becomes the initial window. An increase does not lower the window, grows it by at most the step, and
keeps the threshold. -/
theorem C19_aimd_laws {o : AimdOpts} (h1 : 1 ≤ o.initCwnd) (h2 : 0 ≤ o.aiStep) {s : Aimd}
    (h : Reach (Aimd.alg o) (Aimd.init o) s) :
    1 ≤ s.cwnd ∧ 1 ≤ s.slots ∧
    2 ≤ (s.decrease o).ssthresh ∧
    (o.resetCwndToInit = false → (s.decrease o).cwnd = (s.decrease o).ssthresh ∧
      (0 ≤ o.mdCoef → o.mdCoef ≤ 1 → s.cwnd * o.mdCoef ≤ (s.decrease o).cwnd ∧
        (s.decrease o).cwnd ≤ max 2 s.cwnd)) ∧
    (o.resetCwndToInit = true → (s.decrease o).cwnd = o.initCwnd) ∧
    s.cwnd ≤ (s.increase o).cwnd ∧ (s.increase o).cwnd ≤ s.cwnd + o.aiStep ∧
    (s.increase o).ssthresh = s.ssthresh := by
  have hc := Aimd.reach_one h1 h2 h
  obtain ⟨i1, i2, i3⟩ := Aimd.increase_bounds (o := o) h2 hc
  refine ⟨hc, Aimd.slots_one hc, le_max_left _ _, ?_, ?_, i1, i2, i3⟩
  · intro hr
    have he : (s.decrease o).cwnd = max minSsthresh (s.cwnd * o.mdCoef) := by simp [Aimd.decrease, hr]
    refine ⟨by rw [he]; rfl, fun hm0 hm => ?_⟩
    rw [he]
    refine ⟨le_max_right _ _, max_le_max (le_refl _) ?_⟩
    nlinarith
  · intro hr
    simp [Aimd.decrease, hr]

/-- **C19 (rate of growth)** In slow start every increase adds the step: `n` increases add `n` steps. In
congestion avoidance as many increases as the window has segments add at most one step. -/
theorem C19_aimd_growth {o : AimdOpts} (h2 : 0 ≤ o.aiStep) (s : Aimd) (n : Nat) :
    ((∀ i < n, s.cwnd + i * o.aiStep < s.ssthresh) →
      ((Aimd.increase o)^[n] s).cwnd = s.cwnd + n * o.aiStep) ∧
    (1 ≤ s.cwnd → s.ssthresh ≤ s.cwnd → (n : ℤ) ≤ s.slots →
      ((Aimd.increase o)^[n] s).cwnd ≤ s.cwnd + o.aiStep) := by
  refine ⟨fun h => (Aimd.slowStart h2 n s h).1, ?_⟩
  intro h1 hs hn
  obtain ⟨_, _, hc⟩ := Aimd.avoidance h2 n s h1 hs
  refine le_trans hc ?_
  have hf := Aimd.floor_pos h1
  have hn' : (n : ℚ) ≤ (⌊s.cwnd⌋ : ℚ) := by
    unfold Aimd.slots at hn
    rw [if_pos (by linarith)] at hn
    exact_mod_cast hn
  have : (n : ℚ) * (o.aiStep / (⌊s.cwnd⌋ : ℚ)) ≤ o.aiStep := by
    rw [← mul_div_assoc, div_le_iff₀ (by linarith)]
    nlinarith
  linarith

private theorem example_reach (o : AimdOpts) :
    Reach (Aimd.alg o) (Aimd.init o) (((((Aimd.init o).increase o).increase o).increase o).decrease o) :=
  Reach.dec () (Reach.inc () (Reach.inc () (Reach.inc () Reach.init)))

/-- Beside C19: the default options; two increases in slow start from 2, a decrease, and an increase in
congestion avoidance. -/
example :
    let o : AimdOpts := ⟨2, 100, 1, 1 / 2, false⟩
    let s := ((((Aimd.init o).increase o).increase o).increase o).decrease o
    Reach (Aimd.alg o) (Aimd.init o) s ∧ s.cwnd = 5 / 2 ∧ s.ssthresh = 5 / 2 ∧ (s.increase o).cwnd = 3 ∧
    (s.slots = 2) := by
  intro o s
  refine ⟨?_, ?_⟩
  · exact example_reach o
  · have h : s = ⟨5 / 2, 5 / 2⟩ := by
      simp only [s, o, Aimd.init, Aimd.increase, Aimd.decrease, minSsthresh]
      norm_num
    rw [h]
    simp only [Aimd.increase, Aimd.slots, o]
    norm_num

/-! ## C20: CUBIC -/

/-- **C20 (what does hold)** The initial window is at least 1. Whatever the timing of losses, the RTT
values and the sequence of increases and decreases: the window never drops below the initial window.
An increase does not lower it; in slow start it adds 1; in congestion avoidance, if an RTT was
measured, it does not exceed the larger one of the window and the target (the larger one of the cubic
function and the estimate of Reno): a window's worth of increases is the distance to the target, and
a target below the window has no effect. A decrease does not raise it; it becomes the larger one of the
initial window and `beta` times the window. Missing from the claim C20: no RTT measured, see
`C20_infinite_window`. -/
theorem C20_cubic_laws_partial {o : CubicOpts} {t0 : ℝ} (h1 : 1 ≤ o.initCwnd) {s : Cubic}
    (h : Reach (Cubic.alg o) (Cubic.init o t0) s) (e : CubicEnv) :
    o.initCwnd ≤ s.cwnd ∧ 1 ≤ s.slots ∧ s.cwnd ≤ (s.increase o e).cwnd ∧
    (s.cwnd < s.ssthresh → (s.increase o e).cwnd = s.cwnd + 1 ∧ (s.increase o e).infinite = s.infinite) ∧
    (s.ssthresh ≤ s.cwnd → e.rtt ≠ 0 →
      let wmax := if s.wmax < o.initCwnd then s.cwnd else s.wmax
      let t := e.now - s.lastDecrease
      let target := max (Cubic.wCubic o wmax t) (Cubic.wEst o wmax t e.rtt)
      (s.increase o e).cwnd ≤ max s.cwnd target ∧
      (target ≤ s.cwnd → (s.increase o e).cwnd = s.cwnd) ∧
      (s.cwnd ≤ target → s.cwnd * ((s.increase o e).cwnd - s.cwnd) = target - s.cwnd) ∧
      (s.increase o e).infinite = s.infinite) ∧
    (s.decrease o e).cwnd = max o.initCwnd (s.cwnd * o.beta) ∧
    (o.beta ≤ 1 → (s.decrease o e).cwnd ≤ s.cwnd) := by
  have hc := Cubic.reach_init h1 h
  have hc1 : 1 ≤ s.cwnd := le_trans h1 hc
  refine ⟨hc, Cubic.slots_one hc1, ?_, ?_, ?_, rfl, ?_⟩
  · exact (Cubic.increase_le h1 hc e)
  · intro hs
    simp [Cubic.increase, hs]
  · intro hs hr
    dsimp only
    unfold Cubic.increase
    rw [if_neg (by linarith)]
    split
    · exact (Cubic.avoid_bounds (o := o) (e := e) (s := { s with wmax := s.cwnd }) hc1).2 hr
    · exact (Cubic.avoid_bounds hc1).2 hr
  · intro hb
    refine max_le hc ?_
    nlinarith

/-- **C20 (shape of the target)** With `beta` at most 1 the cubic function starts, right after a
decrease, at `beta` times the window before the decrease, never decreases with time, and reaches the
window before the decrease exactly at the time `K`, being below it before and above it after. -/
theorem C20_cubic_target {o : CubicOpts} (hb : o.beta ≤ 1) {wmax : ℝ} (hw : 0 ≤ wmax) :
    Cubic.wCubic o wmax 0 = o.beta * wmax ∧
    (∀ t t', t ≤ t' → Cubic.wCubic o wmax t ≤ Cubic.wCubic o wmax t') ∧
    ∃ K, 0 ≤ K ∧ 0.4 * K ^ 3 = wmax * (1 - o.beta) ∧ Cubic.wCubic o wmax K = wmax ∧
      (∀ t < K, Cubic.wCubic o wmax t < wmax) ∧ (∀ t > K, wmax < Cubic.wCubic o wmax t) := by
  have hC : (0 : ℝ) < cubicC := by norm_num [cubicC]
  have hx : 0 ≤ wmax * (1 - o.beta) / cubicC := by
    apply div_nonneg _ hC.le
    exact mul_nonneg hw (by linarith)
  have hk := cbrt_cube hx
  have hk0 : 0 ≤ cbrt (wmax * (1 - o.beta) / cubicC) := by
    unfold cbrt; rw [if_pos hx]; exact Real.rpow_nonneg hx _
  have hCk : cubicC * cbrt (wmax * (1 - o.beta) / cubicC) ^ 3 = wmax * (1 - o.beta) := by
    rw [hk]; field_simp
  have hmono : ∀ a b : ℝ, a ≤ b → a ^ 3 ≤ b ^ 3 := fun a b hab => Odd.strictMono_pow (by decide : Odd 3) |>.monotone hab
  have hsm : ∀ a b : ℝ, a < b → a ^ 3 < b ^ 3 := fun a b hab => Odd.strictMono_pow (by decide : Odd 3) hab
  unfold Cubic.wCubic
  dsimp only
  refine ⟨?_, ?_, _, hk0, hCk, ?_, ?_, ?_⟩
  · have : (0 - cbrt (wmax * (1 - o.beta) / cubicC)) ^ 3 = - cbrt (wmax * (1 - o.beta) / cubicC) ^ 3 := by ring
    rw [this]; linarith
  · intro t t' htt
    have := hmono (t - cbrt (wmax * (1 - o.beta) / cubicC)) (t' - cbrt (wmax * (1 - o.beta) / cubicC)) (by linarith)
    nlinarith
  · simp
  · intro t ht
    have := hsm (t - cbrt (wmax * (1 - o.beta) / cubicC)) 0 (by linarith)
    nlinarith
  · intro t ht
    have := hsm 0 (t - cbrt (wmax * (1 - o.beta) / cubicC)) (by linarith)
    nlinarith

/-- **C20 (fast convergence)** A decrease remembers the window as the new plateau, or, with fast
convergence when the window had not reached the previous plateau again, a value between `beta` times
the window and the window. -/
theorem C20_cubic_plateau {o : CubicOpts} (hb : o.beta ≤ 1) (s : Cubic) (hs : 0 ≤ s.cwnd)
    (e : CubicEnv) :
    ((s.decrease o e).wmax = s.cwnd ∨ (o.fastConv = true ∧ s.cwnd < s.lastWmax)) ∧
    s.cwnd * o.beta ≤ (s.decrease o e).wmax ∧ (s.decrease o e).wmax ≤ s.cwnd ∧
    (s.decrease o e).lastWmax = s.cwnd ∧ (s.decrease o e).lastDecrease = e.now := by
  unfold Cubic.decrease
  dsimp only
  split
  · rename_i hc
    exact ⟨Or.inr hc, by nlinarith, by nlinarith, rfl, rfl⟩
  · exact ⟨Or.inl rfl, by nlinarith, le_refl _, rfl, rfl⟩

/-- **C20 (estimate of Reno)** The estimate starts, right after a decrease, at `beta` times the window before it, and grows
linearly, by `a` per round-trip time, where `a` is such that a flow with increase `a` and factor `beta` sends as much as
one with increase 1 and factor 1/2: `a (1 + beta) / (2 (1 - beta)) = 3 / 2`. -/
theorem C20_reno_estimate {o : CubicOpts} (hb0 : 0 < o.beta) (hb : o.beta < 1) (wmax rtt : ℝ) (hr : 0 < rtt) :
    Cubic.wEst o wmax 0 rtt = o.beta * wmax ∧
    ∃ a, 0 < a ∧ a * (1 + o.beta) / (2 * (1 - o.beta)) = 3 / 2 ∧
      ∀ t n : ℝ, Cubic.wEst o wmax (t + n * rtt) rtt = Cubic.wEst o wmax t rtt + n * a := by
  have h1 : (1 + o.beta) ≠ 0 := by linarith
  have h2 : (1 - o.beta) ≠ 0 := by linarith
  refine ⟨by simp [Cubic.wEst, mul_comm], 3 * (1 - o.beta) / (1 + o.beta), ?_, ?_, ?_⟩
  · apply div_pos <;> linarith
  · field_simp
  · intro t n
    unfold Cubic.wEst
    field_simp
    ring

/-- **C20 (slow start ends with the first decrease)** After a decrease the window is at the threshold; until the next one, and
after further ones, it is never below the threshold again, so that it grows towards the target only. -/
theorem C20_no_slow_start_again {o : CubicOpts} (h1 : 1 ≤ o.initCwnd) {s s' : Cubic} (e : CubicEnv) (h' : Reach (Cubic.alg o) (s.decrease o e) s') :
    s'.ssthresh ≤ s'.cwnd ∧ o.initCwnd ≤ s'.ssthresh := by
  have : s'.ssthresh ≤ s'.cwnd ∧ o.initCwnd ≤ s'.ssthresh := by
    induction h' with
    | init => exact ⟨le_refl _, le_max_left _ _⟩
    | inc e' _ ih =>
      refine ⟨le_trans ?_ (Cubic.increase_le h1 (le_trans ih.2 ih.1) e'), ?_⟩
      · simp only [Cubic.alg, Cubic.increase, Cubic.avoid]; split
        · exact ih.1
        · split <;> exact ih.1
      · simp only [Cubic.alg, Cubic.increase, Cubic.avoid]; split
        · exact ih.2
        · split <;> exact ih.2
    | dec e' _ ih => exact ⟨le_refl _, le_max_left _ _⟩
  exact this

/-- **C20 (refuted)** The options are accepted by the program: initial window at least 1, initial threshold
not above it, `beta` between 0 and 1. The first Data packet arrives, without congestion mark, before
any RTT was measured (the measurement is made after the window was increased). Then the window is
infinite. -/
theorem C20_infinite_window {o : CubicOpts} {po : Opts} {v v' : Env CubicEnv} {c : Bytes}
    (h1 : 1 ≤ o.initCwnd) (h2 : o.initSsthresh ≤ o.initCwnd) (hb0 : 0 < o.beta) (hb : o.beta < 1)
    (hnow : v.win.now < v'.win.now) (hrtt : v'.win.rtt = 0) :
    ∃ s, (machine (Cubic.alg o) po (Cubic.init o v.win.now) v).Run [.data 0 { content := c } false v'] s ∧
      s.win.infinite = true := by
  have hsl : 1 ≤ (Cubic.alg o).slots (Cubic.init o v.win.now) := Cubic.slots_one h1
  obtain ⟨f1, f2, f3, f4, f5, f6⟩ := start_facts (A := Cubic.alg o) (o := po) (v := v) hsl
  refine ⟨_, Machine.Run.snoc (M := machine (Cubic.alg o) po (Cubic.init o v.win.now) v) (es := []) _
    Machine.Run.nil (start_out hsl), ?_⟩
  have := data_increases (A := Cubic.alg o) (o := po) (v := v') (c := c) f1 f3 f4 f5
  dsimp only [machine]
  rw [this, f6]
  simp only [Cubic.alg, Cubic.increase, Cubic.init]
  rw [if_neg (by linarith)]
  have hfac : 0 < 3 * (1 - o.beta) / (1 + o.beta) * (v'.win.now - v.win.now) := by
    apply mul_pos
    · apply div_pos <;> linarith
    · linarith
  split <;> simp [Cubic.avoid, hrtt, hfac]

/-- Beside `C20_no_slow_start_again`: a decrease and an increase after it. -/
example : Reach (Cubic.alg ⟨2, 100, 7 / 10, true⟩)
    ((Cubic.init ⟨2, 100, 7 / 10, true⟩ 0).decrease ⟨2, 100, 7 / 10, true⟩ ⟨1, 1⟩)
    (((Cubic.init ⟨2, 100, 7 / 10, true⟩ 0).decrease ⟨2, 100, 7 / 10, true⟩ ⟨1, 1⟩).increase ⟨2, 100, 7 / 10, true⟩ ⟨2, 1⟩) :=
  .inc (A := Cubic.alg ⟨2, 100, 7 / 10, true⟩) ⟨2, 1⟩ .init

/-- Beside C20: the options of the refutation, and a reachable state with a loss. -/
example :
    let o : CubicOpts := ⟨2, 1, 7 / 10, false⟩
    1 ≤ o.initCwnd ∧ o.initSsthresh ≤ o.initCwnd ∧ 0 < o.beta ∧ o.beta < 1 ∧
    let s := ((Cubic.init ⟨2, 100, 7 / 10, true⟩ 0).increase ⟨2, 100, 7 / 10, true⟩ ⟨1, 1⟩).decrease
      ⟨2, 100, 7 / 10, true⟩ ⟨2, 1⟩
    Reach (Cubic.alg ⟨2, 100, 7 / 10, true⟩) (Cubic.init ⟨2, 100, 7 / 10, true⟩ 0) s ∧
    s.cwnd = 21 / 10 ∧ s.wmax = 3 := by
  intro o
  refine ⟨by norm_num [o], by norm_num [o], by norm_num [o], by norm_num [o], ?_, ?_, ?_⟩
  · exact .dec (A := Cubic.alg ⟨2, 100, 7 / 10, true⟩) ⟨2, 1⟩ (.inc (A := Cubic.alg ⟨2, 100, 7 / 10, true⟩) ⟨1, 1⟩ .init)
  · simp only [Cubic.init, Cubic.increase, Cubic.decrease]; norm_num
  · simp only [Cubic.init, Cubic.increase, Cubic.decrease]; norm_num

/-! ## C53: progress with the accepted options -/

/-- **C53 (refuted)** `main` accepts every initial window. With an initial window below 1 the adaptive
pipeline, AIMD or CUBIC, never sends an Interest and never reports anything: nothing happens, ever. -/
theorem C53_small_window_hangs {po : Opts} :
    (∀ (o : AimdOpts) v es s, o.initCwnd < 1 →
      (machine (Aimd.alg o) po (Aimd.init o) v).Run es s → s.log = [] ∧ s.out = [] ∧ s.posted = []) ∧
    (∀ (o : CubicOpts) v es s, o.initCwnd < 1 →
      (machine (Cubic.alg o) po (Cubic.init o v.win.now) v).Run es s → s.log = [] ∧ s.out = [] ∧ s.posted = []) := by
  refine ⟨?_, ?_⟩
  · intro o v es s h hr
    have hs : (Aimd.alg o).slots (Aimd.init o) ≤ 0 := by
      simp only [Aimd.alg, Aimd.init, Aimd.slots]
      split
      · have : ⌊o.initCwnd⌋ < 1 := Int.floor_lt.mpr (by exact_mod_cast h)
        omega
      · exact Int.ceil_le.mpr (by push_cast; linarith)
    have := mute_run hs hr
    exact ⟨this.log, this.out, this.posted⟩
  · intro o v es s h hr
    have hs : (Cubic.alg o).slots (Cubic.init o v.win.now) ≤ 0 := by
      simp only [Cubic.alg, Cubic.init, Cubic.slots]
      split
      · have : ⌊o.initCwnd⌋ < 1 := Int.floor_lt.mpr (by exact_mod_cast h)
        omega
      · exact Int.ceil_le.mpr (by push_cast; linarith)
    have := mute_run hs hr
    exact ⟨this.log, this.out, this.posted⟩

/-- **C53 (what does hold)** With an initial window of at least 1 the pipeline requests segment 0 at
once, and (with a step that is not negative) the window allows a segment forever, so that the
statement about stalls `C16_no_stall_partial` applies to both algorithms. -/
theorem C53_progress_partial {po : Opts} :
    (∀ (o : AimdOpts) v, 1 ≤ o.initCwnd → 0 ≤ o.aiStep →
      0 ∈ (start (Aimd.alg o) po (Aimd.init o) v).out ∧
      ∀ w, Reach (Aimd.alg o) (Aimd.init o) w → 1 ≤ (Aimd.alg o).slots w) ∧
    (∀ (o : CubicOpts) v, 1 ≤ o.initCwnd →
      0 ∈ (start (Cubic.alg o) po (Cubic.init o v.win.now) v).out ∧
      ∀ w, Reach (Cubic.alg o) (Cubic.init o v.win.now) w → 1 ≤ (Cubic.alg o).slots w) := by
  refine ⟨fun o v h1 h2 => ⟨start_out (Aimd.slots_one h1), fun w hw => ?_⟩,
    fun o v h1 => ⟨start_out (Cubic.slots_one h1), fun w hw => ?_⟩⟩
  · exact Aimd.slots_one (Aimd.reach_one h1 h2 hw)
  · exact Cubic.slots_one (le_trans h1 (Cubic.reach_init h1 hw))

/-- Beside C53: the window 1/2 is below 1, the default window 2 is not. -/
example : (Aimd.init ⟨1 / 2, 100, 1, 1 / 2, false⟩).cwnd < 1 ∧ 1 ≤ (Aimd.init ⟨2, 100, 1, 1 / 2, false⟩).cwnd := by
  norm_num [Aimd.init]

end Verif.Window
