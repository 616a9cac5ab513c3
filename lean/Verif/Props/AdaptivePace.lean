import Verif.Proofs.AdaptivePace
import Verif.Props.AdaptiveFair
import Verif.Props.Adaptive

/-! # C100: a transfer with an adaptive pipeline ends in time -/

namespace Verif.AdaptiveTime

open Adaptive

variable {σ ε : Type} {d maxRto : Nat} {A : Alg σ ε} {o : Opts} {interval : Nat} {w : σ} {v : Env ε} {segs : List Bytes}

private theorem check_enabled (hv : v.rto ≤ maxRto) {es s} (h : (servedTimed d maxRto A o interval w v segs).Run es s)
    (ha : Alive s.p) : ∃ e, (servedTimed d maxRto A o interval w v segs).enabled s e := by
  obtain ⟨h1, -⟩ := served_plain h
  have ht : s.p.timer = true := (run_ticks h1).resolve_left (by rw [ha.1]; simp)
  have hl := (run_timer h1).late ha d rfl
  refine ⟨⟨.check (s.p.info.map (·.1)) ⟨max s.now s.due, v.rto, v.win⟩, max s.now s.due, 0, 0⟩, ⟨⟨ht, .refl _⟩, ?_, ?_, ?_, ?_⟩,
    ⟨⟨⟨ht, .refl _⟩, trivial, trivial, trivial, trivial⟩, trivial⟩, hv⟩
  · exact Nat.le_max_left ..
  · simp [env?]
  · intro _; exact Nat.le_max_right ..
  · intro d' hd' _
    cases hd'
    exact Nat.max_le.mpr ⟨hl, Nat.le_add_right ..⟩

/-- **C100 (what does hold)** The window always allows a segment, and as long as it is only decreased from its initial value it allows as
many segments as initially. The object is served, no existing segment is lost more often than the retry limit permits, the RTO check is
never later than `d`, and the RTO never above `maxRto`. Then nothing happens later than `(segments + losses + 1) (maxRto + interval + d)`
after the start, and at every moment the transfer has completed, with each segment delivered once, or something can still happen.
Missing from the claim C100: other windows, see `C100_stalls`. -/
theorem C100_completes_partial (hv : v.rto ≤ maxRto) (hsegs : segs ≠ []) (hslots : ∀ w', Reach A w w' → 1 ≤ A.slots w')
    (hdec : ∀ w', Decs A w w' → A.slots w' = A.slots w) {es s} (h : (servedTimed d maxRto A o interval w v segs).Run es s)
    (hf : FewLosses A o w v segs (es.map (·.ev))) :
    s.now ≤ v.now + (segs.length + losses A o w v segs.length (es.map (·.ev)) + 1) * (maxRto + interval + d) ∧
    ((Obs.complete ∈ s.p.log ∧ (received s.p.log).Perm (List.range segs.length)) ∨
      ∃ e, (servedTimed d maxRto A o interval w v segs).enabled s e) := by
  refine ⟨served_time hv hsegs hslots hdec h hf, ?_⟩
  obtain ⟨-, h2⟩ := served_plain h
  have hi := served_inv hslots hdec h2
  cases hs : s.p.isStopping with
  | false => exact .inr (check_enabled hv h ⟨hs, hi.threw, hi.ub⟩)
  | true =>
    left
    have hc := (served_stopped hsegs hslots hdec h2 hf hs).1
    refine ⟨hc, ?_⟩
    obtain ⟨pre, post, hp⟩ := List.append_of_mem hc
    have hnet : (netMachine A o w v segs).Run (es.map (·.ev)) s.p := by
      generalize es.map (·.ev) = es' at h2
      generalize s.p = p at h2
      clear * - h2
      induction h2 with
      | nil => exact .nil
      | snoc e _ he ih => exact .snoc (M := netMachine A o w v segs) e ih ⟨he.1.1, he.1.2.1⟩
    obtain ⟨g1, -, g2, -⟩ := C13_adaptive_completion hnet hp
    have e1 : received (pre ++ [Obs.complete]) = received pre := by rw [received_append]; exact List.append_nil _
    rw [hp, g2, e1]
    exact g1

/-- **C100 (CUBIC)** With CUBIC, whatever its initial window of at least 1, nothing is missing. -/
theorem C100_cubic {co : Window.CubicOpts} {t0 : ℝ} (h1 : 1 ≤ co.initCwnd) (hb : co.beta ≤ 1) {v : Env Window.CubicEnv}
    (hv : v.rto ≤ maxRto) (hsegs : segs ≠ []) {es s}
    (h : (servedTimed d maxRto (Window.Cubic.alg co) o interval (Window.Cubic.init co t0) v segs).Run es s)
    (hf : FewLosses (Window.Cubic.alg co) o (Window.Cubic.init co t0) v segs (es.map (·.ev))) :
    s.now ≤ v.now + (segs.length + losses (Window.Cubic.alg co) o (Window.Cubic.init co t0) v segs.length (es.map (·.ev)) + 1) *
        (maxRto + interval + d) ∧
    ((Obs.complete ∈ s.p.log ∧ (received s.p.log).Perm (List.range segs.length)) ∨
      ∃ e, (servedTimed d maxRto (Window.Cubic.alg co) o interval (Window.Cubic.init co t0) v segs).enabled s e) := by
  obtain ⟨g1, g2⟩ := C73_cubic_windows (t0 := t0) h1 hb
  exact C100_completes_partial hv hsegs g1 g2 h hf

/-- **C100 (AIMD)** The same for AIMD, if the window is reset to its initial value on every decrease, or its initial value is at least 2
(the default) and less than 3. -/
theorem C100_aimd_partial {co : Window.AimdOpts} (h2 : 0 ≤ co.aiStep)
    (hw : co.resetCwndToInit = true ∧ 1 ≤ co.initCwnd ∨ 2 ≤ co.initCwnd ∧ co.initCwnd < 3 ∧ 0 ≤ co.mdCoef ∧ co.mdCoef ≤ 1)
    {v : Env Unit} (hv : v.rto ≤ maxRto) (hsegs : segs ≠ []) {es s}
    (h : (servedTimed d maxRto (Window.Aimd.alg co) o interval (Window.Aimd.init co) v segs).Run es s)
    (hf : FewLosses (Window.Aimd.alg co) o (Window.Aimd.init co) v segs (es.map (·.ev))) :
    s.now ≤ v.now + (segs.length + losses (Window.Aimd.alg co) o (Window.Aimd.init co) v segs.length (es.map (·.ev)) + 1) *
        (maxRto + interval + d) ∧
    ((Obs.complete ∈ s.p.log ∧ (received s.p.log).Perm (List.range segs.length)) ∨
      ∃ e, (servedTimed d maxRto (Window.Aimd.alg co) o interval (Window.Aimd.init co) v segs).enabled s e) := by
  obtain ⟨g1, g2⟩ := C73_aimd_windows h2 hw
  exact C100_completes_partial hv hsegs g1 g2 h hf

/-- **C100 (in terms of the retry limit)** With at most `R` retries that is `segments (1 + max 1 R) + 1` times
`maxRto + interval + d`. -/
theorem C100_limit_partial (hR : 0 ≤ o.maxRetries) (hv : v.rto ≤ maxRto) (hsegs : segs ≠ [])
    (hslots : ∀ w', Reach A w w' → 1 ≤ A.slots w') (hdec : ∀ w', Decs A w w' → A.slots w' = A.slots w) {es s}
    (h : (servedTimed d maxRto A o interval w v segs).Run es s) (hf : FewLosses A o w v segs (es.map (·.ev))) :
    s.now ≤ v.now + (segs.length * (1 + max 1 o.maxRetries.toNat) + 1) * (maxRto + interval + d) := by
  have h' := (C100_completes_partial hv hsegs hslots hdec h hf).1
  rcases hf with hf | hf
  · omega
  have h1 : ∀ n ≤ segs.length, losses A o w v n (es.map (·.ev)) ≤ n * max 1 o.maxRetries.toNat := by
    intro n hn
    induction n with
    | zero => simp [losses]
    | succ n ih =>
      have h2 := ih (by omega)
      have h3 := hf n (by omega)
      unfold losses at h2 ⊢
      rw [List.range_succ, List.map_append, List.sum_append, Nat.add_mul, Nat.one_mul]
      simp only [List.map_cons, List.map_nil, List.sum_cons, List.sum_nil, Nat.add_zero]
      omega
  have h2 := h1 segs.length (Nat.le_refl _)
  refine Nat.le_trans h' (Nat.add_le_add_left (Nat.mul_le_mul_right _ ?_) _)
  rw [Nat.mul_add, Nat.mul_one]
  omega

/-- The instances of `halving` with window 2. -/
theorem halving_windows :
    (∀ w', Reach halving 2 w' → 1 ≤ halving.slots w') ∧ (∀ w', Decs halving 2 w' → halving.slots w' = halving.slots 2) := by
  constructor
  · intro w' h
    have : 2 ≤ w' := by
      induction h with
      | init => exact Nat.le_refl 2
      | inc _ _ ih => exact ih
      | dec _ _ _ => exact Nat.le_max_left ..
    simp only [halving]; omega
  · intro w' h
    have : w' = 2 := by
      induction h with
      | init => rfl
      | dec _ _ ih => rw [ih]; rfl
    rw [this]

/-- Beside the theorems above: three segments, RTO 10, a check every 20. Segment 1 arrives at once, the Interests for 0 and 2 are lost
once, which is found at 20. At 38 the transfer is complete, within the `(3 + 2 + 1) 30` of `C100_completes_partial`. -/
example :
    let es : List (Ev Unit) :=
      [⟨.data 1 { content := [2], final := .seg 2 } false ⟨5, 10, ()⟩, 5, 0, 0⟩, ⟨.check [0, 2] ⟨20, 10, ()⟩, 20, 0, 0⟩,
        ⟨.data 0 { content := [1], final := .seg 2 } false ⟨25, 10, ()⟩, 25, 0, 0⟩,
        ⟨.data 2 { content := [3], final := .seg 2 } false ⟨38, 10, ()⟩, 38, 0, 0⟩]
    let M := servedTimed 0 10 halving ⟨1, false, false⟩ 20 2 ⟨0, 10, ()⟩ [[1], [2], [3]]
    ∃ s s', M.Run (es.take 3) s ∧ s.now = 25 ∧ s.p.isStopping = false ∧ M.Run es s' ∧ s'.now = 38 ∧ Obs.complete ∈ s'.p.log ∧
      FewLosses halving ⟨1, false, false⟩ 2 ⟨0, 10, ()⟩ [[1], [2], [3]] (es.map (·.ev)) ∧
      losses halving ⟨1, false, false⟩ 2 ⟨0, 10, ()⟩ 3 (es.map (·.ev)) = 2 ∧ s'.now ≤ 0 + (3 * (1 + max 1 1) + 1) * (10 + 20 + 0) := by
  intro es M
  have r : M.Run es ((M.exec M.init es).get (by decide +kernel)) := Machine.exec_run (M := M) (Option.some_get _).symm
  have hf : FewLosses halving ⟨1, false, false⟩ 2 ⟨0, 10, ()⟩ [[1], [2], [3]] (es.map (·.ev)) := .inr (by decide +kernel)
  exact ⟨_, _, Machine.exec_run (M := M) (s := (M.exec M.init (es.take 3)).get (by decide +kernel)) (Option.some_get _).symm,
    by decide +kernel, by decide +kernel, r, by decide +kernel, by decide +kernel, hf, by decide +kernel,
    C100_limit_partial (d := 0) (by decide) (by decide) (by decide) halving_windows.1 halving_windows.2 r hf⟩

/-! ## Larger initial windows -/

private abbrev stallAlg : Alg Window.Aimd Unit := Window.Aimd.alg ⟨4, 1000, 1, 1 / 2, false⟩
private abbrev stallOpts : Opts := ⟨15, false, false⟩
private abbrev stallM : Machine (St Window.Aimd) (Ev Unit) := servedTimed 0 10 stallAlg stallOpts 20 ⟨4, 1000⟩ ⟨0, 10, ()⟩ [[1], [2]]

/-- The events of `servedStall`, then `n` RTO checks, one every 20. -/
private def stallEvents (n : Nat) : List (Ev Unit) :=
  [⟨.expire 1 ⟨5, 10, ()⟩, 5, 0, 0⟩, ⟨.expire 0 ⟨6, 10, ()⟩, 6, 0, 0⟩, ⟨.nack 2 .none ⟨7, 10, ()⟩, 7, 0, 0⟩] ++
    (List.range n).map fun i => ⟨.check [0, 1] ⟨20 * (i + 1), 10, ()⟩, 20 * (i + 1), 0, 0⟩

private theorem stalled_check {p : Adaptive.St Window.Aimd}
    (hinfo : p.info = [(0, ⟨0, 10, .inRetxQueue, false⟩), (1, ⟨0, 10, .inRetxQueue, false⟩)]) (hs : p.isStopping = false)
    (ht : p.timer = true) (u : Env Unit) : p.step stallAlg stallOpts (.check [0, 1] u) = p := by
  unfold Adaptive.St.step
  split
  · rfl
  have hidle : ({ p with timer := false } : Adaptive.St Window.Aimd).expired u [0, 1] = [] := by
    unfold St.expired
    dsimp only
    rw [hinfo]
    rfl
  dsimp only
  unfold St.checkRto
  rw [if_neg (by simp [hs])]
  dsimp only
  rw [checkLoop_idle u _ [0, 1] hidle, hidle]
  simp only [List.foldl_nil, List.isEmpty_nil, if_true]
  cases p
  cases ht
  rfl

/-- **C100 (refuted for larger initial windows)** AIMD with initial window 4, at most 15 retries, an object of two segments, each lost
once: for every `B` there is an execution in which later than `B` nothing has been delivered, nor has the pipeline stopped; after the
time 7 nothing was sent. -/
theorem C100_stalls (B : Nat) : ∃ es s, stallM.Run es s ∧
    FewLosses stallAlg stallOpts ⟨4, 1000⟩ ⟨0, 10, ()⟩ [[1], [2]] (es.map (·.ev)) ∧
    losses stallAlg stallOpts ⟨4, 1000⟩ ⟨0, 10, ()⟩ 2 (es.map (·.ev)) = 2 ∧
    B < s.now ∧ received s.p.log = [] ∧ s.p.isStopping = false ∧ s.p.threw = none ∧ s.p.ub = false ∧ (∀ x ∈ s.hist, x.time ≤ 7) ∧
    ∀ k p c u, Adaptive.Ev.data k p c u ∉ es.map (·.ev) := by
  let s0 : St Window.Aimd := (stallM.exec stallM.init (stallEvents 0)).get (by decide +kernel)
  have r0 : stallM.Run (stallEvents 0) s0 := Machine.exec_run (M := stallM) (Option.some_get _).symm
  have hinfo : s0.p.info = [(0, ⟨0, 10, .inRetxQueue, false⟩), (1, ⟨0, 10, .inRetxQueue, false⟩)] := by decide +kernel
  have hst : s0.p.isStopping = false ∧ s0.p.timer = true ∧ s0.now = 7 ∧ s0.due = 20 := by decide +kernel
  have hrec : received s0.p.log = [] ∧ s0.p.threw = none ∧ s0.p.ub = false ∧ ∀ x ∈ s0.hist, x.time ≤ 7 := by decide +kernel
  have hl0 : ∀ k < 2, lossCount stallAlg stallOpts k (start stallAlg stallOpts ⟨4, 1000⟩ ⟨0, 10, ()⟩) ((stallEvents 0).map (·.ev)) = 1 := by
    decide +kernel
  have hev : ∀ n, stallEvents (n + 1) = stallEvents n ++ [⟨.check [0, 1] ⟨20 * (n + 1), 10, ()⟩, 20 * (n + 1), 0, 0⟩] := by
    intro n
    unfold stallEvents
    rw [List.range_succ, List.map_append, ← List.append_assoc]
    rfl
  have key : ∀ n, ∃ s, stallM.Run (stallEvents n) s ∧ s.p = s0.p ∧ s.hist = s0.hist ∧ s.due = 20 * (n + 1) ∧ s.now ≤ 20 * n + 7 ∧ 20 * n ≤ s.now ∧
      ∀ k < 2, lossCount stallAlg stallOpts k (start stallAlg stallOpts ⟨4, 1000⟩ ⟨0, 10, ()⟩) ((stallEvents n).map (·.ev)) = 1 := by
    intro n
    induction n with
    | zero => exact ⟨s0, r0, rfl, rfl, hst.2.2.2, by omega, by omega, hl0⟩
    | succ n ih =>
      obtain ⟨s, r, hp, hh, hdue, hnow, hnow', hl⟩ := ih
      have hstep : s.p.step stallAlg stallOpts (.check [0, 1] ⟨20 * (n + 1), 10, ()⟩) = s.p := by
        rw [hp]; exact stalled_check hinfo hst.1 hst.2.1 _
      have hen : stallM.enabled s ⟨.check [0, 1] ⟨20 * (n + 1), 10, ()⟩, 20 * (n + 1), 0, 0⟩ := by
        have hperm : s.p.enabled (.check [0, 1] (⟨20 * (n + 1), 10, ()⟩ : Env Unit)) := by
          rw [hp]
          refine ⟨hst.2.1, ?_⟩
          rw [hinfo]
          exact .refl _
        refine ⟨⟨hperm, ?_, ?_, ?_, ?_⟩, ⟨⟨hperm, trivial, trivial, trivial, trivial⟩, trivial⟩, Nat.le_refl _⟩
        · show s.now ≤ 20 * (n + 1); omega
        · simp [env?]
        · intro _; show s.due ≤ 20 * (n + 1); omega
        · intro d hd _; show 20 * (n + 1) ≤ s.due + d; omega
      refine ⟨_, by rw [hev]; exact .snoc _ r hen, hstep.trans hp, ?_, rfl, ?_, ?_, ?_⟩
      · show s.hist ++ (List.drop s.p.log.length (s.p.step stallAlg stallOpts (.check [0, 1] ⟨20 * (n + 1), 10, ()⟩)).log).map _ = s0.hist
        rw [hstep, List.drop_length, List.map_nil, List.append_nil, hh]
      · show 20 * (n + 1) ≤ _; omega
      · show _ ≤ 20 * (n + 1); omega
      · intro k hk
        rw [hev, List.map_append, lossCount_append, hl k hk]
        have hfold : ((stallEvents n).map (·.ev)).foldl (Adaptive.St.step stallAlg stallOpts) (start stallAlg stallOpts ⟨4, 1000⟩ ⟨0, 10, ()⟩) = s.p :=
          (run_demand k (proj (served_plain r).1)).1.symm
        rw [hfold]
        simp only [List.map_cons, List.map_nil, lossCount, Nat.add_zero]
        have : ¬ LossFor s.p k (.check [0, 1] (⟨20 * (n + 1), 10, ()⟩ : Env Unit)) := by
          rw [hp]
          rintro ⟨x, hx, hx1, -⟩
          rw [hinfo] at hx
          match k, hk with
          | 0, _ => cases hx; exact hx1 rfl
          | 1, _ => cases hx; exact hx1 rfl
        rw [if_neg this]
  obtain ⟨s, r, hp, hh, -, -, hnow, hl⟩ := key (B + 1)
  refine ⟨_, s, r, .inr ?_, ?_, by omega, by rw [hp]; exact hrec.1, by rw [hp]; exact hst.1,
    by rw [hp]; exact hrec.2.1, by rw [hp]; exact hrec.2.2.1, by rw [hh]; exact hrec.2.2.2, ?_⟩
  · intro k hk
    rw [hl k hk]
    show (1 : Int) ≤ max 1 15
    omega
  · unfold losses
    have e : List.range 2 = [0, 1] := rfl
    rw [e]
    simp only [List.map_cons, List.map_nil, List.sum_cons, List.sum_nil, Nat.add_zero]
    rw [hl 0 (by omega), hl 1 (by omega)]
  · intro k p c u hx
    simp [stallEvents] at hx

/-! ## Any producer and network -/

/-- **C100 (the pace)** Whatever producer and network do: once a delivered packet has told the final segment number - or as long as there
was no fatal Nack and there is no retry limit - a running pipeline has sent an Interest at most `maxRto + interval + d` ago. -/
theorem C100_pace_partial (hv : v.rto ≤ maxRto) (hslots : ∀ w', Reach A w w' → 1 ≤ A.slots w') {es s}
    (h : (promptTimed d maxRto A o interval w v).Run es s) (h1 : s.p.isStopping = false) (h2 : s.p.threw = none) (h3 : s.p.ub = false)
    (hc : (∃ k p, Obs.data k p ∈ s.p.log ∧ p.final ≠ .absent) ∨
      (o.maxRetries = -1 ∧ ∀ k r v, Adaptive.Ev.nack k r v ∈ es.map (·.ev) → r = .duplicate ∨ r = .congestion)) :
    ∃ x ∈ s.hist, x.isInterest = true ∧ s.now ≤ x.time + (maxRto + interval + d) := by
  obtain ⟨g1, g2⟩ := prompt_plain h
  obtain ⟨g3, -⟩ := C16_no_stall_partial hslots g2 h1 h2 h3 hc
  have hwf : WF s.p := run_wf (proj g1)
  obtain ⟨k, x, hx, hst⟩ := (inFlight_pos hwf.nodup).mp g3
  obtain ⟨y, hy, ⟨b, hb⟩, ht, -⟩ := tracked_entry g1 hx
  have h4 := (flight_soon g1 (prompt_bounded hv h) ⟨h1, h2, h3⟩ hx hst).1
  exact ⟨y, hy, by unfold Entry.isInterest; rw [hb], by omega⟩

/-- **C100 (refuted: the pace)** Therefore the pace is not kept, whatever the bound. -/
theorem C100_pace_false (T : Nat) : ¬ KeepsSending stallM T := by
  intro hk
  obtain ⟨es, s, r, -, -, hn, -, h1, h2, h3, h4, -⟩ := C100_stalls (T + 7)
  obtain ⟨x, hx, -, ht⟩ := hk es s r h1 h2 h3
  have := h4 x hx
  omega

/-- Beside `C100_pace_partial`: the end is known, the segments 0 and 2 are in flight, the last Interest was sent at 20. -/
example :
    let es : List (Ev Unit) :=
      [⟨.data 1 { content := [2], final := .seg 2 } false ⟨5, 10, ()⟩, 5, 0, 0⟩, ⟨.check [0, 2] ⟨20, 10, ()⟩, 20, 0, 0⟩]
    let M := servedTimed 0 10 halving ⟨-1, false, false⟩ 20 2 ⟨0, 10, ()⟩ [[1], [2], [3]]
    ∃ s, M.Run es s ∧ (promptTimed 0 10 halving ⟨-1, false, false⟩ 20 2 ⟨0, 10, ()⟩).Run es s ∧
      s.p.isStopping = false ∧ s.p.threw = none ∧ s.p.ub = false ∧ (∃ k p, Obs.data k p ∈ s.p.log ∧ p.final ≠ .absent) ∧
      (s.hist.filter Entry.isInterest).map (·.time) = [0, 0, 5, 20, 20] := by
  intro es M
  have r : M.Run es ((M.exec M.init es).get (by decide +kernel)) := Machine.exec_run (M := M) (Option.some_get _).symm
  refine ⟨_, r, ?_, by decide +kernel, by decide +kernel, by decide +kernel, ⟨1, { content := [2], final := .seg 2 }, by decide +kernel, by decide⟩,
    by decide +kernel⟩
  generalize (M.exec M.init es).get _ = s at r
  clear_value es
  induction r with
  | nil => exact .nil
  | @snoc es s e h he ih =>
    refine .snoc e ih ⟨he.1, ?_, he.2.2⟩
    refine ⟨he.1.1, he.2.1.1.2.2.2.1, ?_⟩
    have hc := he.2.1.1.2.1
    cases hev : e.ev with
    | data k p c u =>
      rw [hev] at hc
      intro n hn
      have h1 : k < 3 := (List.getElem?_eq_some_iff.mp hc.1).1
      rcases hc.2 with h2 | h2
      · rw [hn] at h2; cases h2
      · rw [hn] at h2; cases h2; show k ≤ 3 - 1; omega
    | _ => trivial

end Verif.AdaptiveTime
