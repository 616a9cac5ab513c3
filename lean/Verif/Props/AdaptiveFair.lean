import Verif.Proofs.AdaptiveProgress
import Verif.Proofs.Window

/-! # C73: the adaptive pipelines over a network that does not lose too much -/

namespace Verif.Adaptive

variable {σ ε : Type}

/-- **C73 (no failure)** The object exists and its last segment announces itself; Nacks that are not answered by
a retransmission hit only segments that do not exist; and every segment that exists is lost at most as often as
the retry limit permits repeating its Interest (at least once), or there is no limit. Then the failure callback is
never called, nor scheduled, whatever happens to Interests for segments that do not exist, whenever
Interests are cancelled, and also if the user cancels. -/
theorem C73_no_failure {A : Alg σ ε} {o : Opts} {w : σ} {v : Env ε} {segs : List Bytes} {es s}
    (hsegs : segs ≠ []) (h : (beyondMachine A o w v segs).Run es s) (hf : FewLosses A o w v segs es) :
    s.posted = [] ∧ ∀ m, Obs.failure m ∉ s.log := by
  have hr : ARun A o w v ⟨fun k p => Consistent segs k p ∧ (k + 1 = segs.length → p.final ≠ .absent), True, True,
      False, fun k r => r = .duplicate ∨ r = .congestion ∨ segs.length ≤ k⟩ es s := by
    refine arun_of h (fun _ _ he => he.1) ?_
    intro s e _ he
    refine ⟨?_, fun _ _ _ => trivial, fun h => h.elim, ?_⟩
    · rintro k p c v rfl
      exact ⟨⟨he.2.1, he.2.2⟩, fun _ => trivial⟩
    · rintro k r v rfl
      exact he.2.2
  exact (few_harm hsegs (fun h => False.elim h) hf (fun _ _ h => h) (fun _ _ h => h) hr).quiet

/-- Beside `C73_no_failure`: one retry is permitted, segment 0 is lost once, segment 2, which does not exist, fails;
the transfer completes. -/
example :
    let es : List (Ev Unit) := [.expire 0 ⟨5, 10, ()⟩, .nack 2 .noRoute ⟨6, 10, ()⟩,
      .data 1 { content := [2], final := .seg 1 } false ⟨7, 10, ()⟩,
      .data 0 { content := [1] } false ⟨8, 10, ()⟩]
    ∃ s, (beyondMachine halving ⟨1, false, false⟩ 3 ⟨0, 10, ()⟩ [[1], [2]]).Run es s ∧ Obs.complete ∈ s.log ∧
      FewLosses halving ⟨1, false, false⟩ 3 ⟨0, 10, ()⟩ [[1], [2]] es ∧
      lossCount halving ⟨1, false, false⟩ 0 (start halving ⟨1, false, false⟩ 3 ⟨0, 10, ()⟩) es = 1 := by
  let M := politeBeyondMachine halving ⟨1, false, false⟩ 3 ⟨0, 10, ()⟩ [[1], [2]]
  have hsub : ∀ {es s}, M.Run es s → (beyondMachine halving ⟨1, false, false⟩ 3 ⟨0, 10, ()⟩ [[1], [2]]).Run es s := by
    intro es s h
    induction h with
    | nil => exact .nil
    | snoc e _ he ih => exact .snoc (M := beyondMachine _ _ _ _ _) e ih ⟨he.1, he.2.1, he.2.2.1⟩
  exact ⟨_, hsub (Machine.exec_run (M := M) (s := (M.exec M.init
    [.expire 0 ⟨5, 10, ()⟩, .nack 2 .noRoute ⟨6, 10, ()⟩,
      .data 1 { content := [2], final := .seg 1 } false ⟨7, 10, ()⟩,
      .data 0 { content := [1] } false ⟨8, 10, ()⟩]).get (by decide)) (Option.some_get _).symm),
    by decide, Or.inr (by decide), by decide⟩

/-- The limit in `C73_no_failure` cannot be raised: with one retry permitted, a segment that is lost twice fails. -/
example :
    let es : List (Ev Unit) := [.data 1 { content := [2], final := .seg 1 } false ⟨1, 10, ()⟩,
      .expire 0 ⟨5, 10, ()⟩, .expire 0 ⟨6, 10, ()⟩]
    ∃ s, (servedMachine halving ⟨1, false, false⟩ 2 ⟨0, 10, ()⟩ [[1], [2]]).Run es s ∧ s.posted ≠ [] ∧
      lossCount halving ⟨1, false, false⟩ 0 (start halving ⟨1, false, false⟩ 2 ⟨0, 10, ()⟩) es = 2 := by
  let M := servedMachine halving ⟨1, false, false⟩ 2 ⟨0, 10, ()⟩ [[1], [2]]
  exact ⟨_, Machine.exec_run (M := M) (s := (M.exec M.init
    [.data 1 { content := [2], final := .seg 1 } false ⟨1, 10, ()⟩,
      .expire 0 ⟨5, 10, ()⟩, .expire 0 ⟨6, 10, ()⟩]).get (by decide)) (Option.some_get _).symm, by decide, by decide⟩

/-- **C73 (the transfer can complete, what does hold)** The window always allows a segment, and as long as it is
only decreased from its initial value it allows as many segments as initially. All Data announce the final
segment, fatal Nacks hit only segments that do not exist, Interests are cancelled promptly, the user does not
cancel. Whatever happened before, if no segment that exists was lost more often than the limit permits (and, with
a limit, no Duplicate Nack hit such a segment), then the transfer can be completed, by the arrival of Data for
existing segments whose Interests are outstanding; without a limit on retries, possibly after one RTO
check. Missing from the claim C73: initial windows that a decrease makes smaller, see `C73_stalls`. -/
theorem C73_can_complete_partial {A : Alg σ ε} {o : Opts} {w : σ} {v : Env ε} {segs : List Bytes} {es s}
    (hsegs : segs ≠ []) (hslots : ∀ w', Reach A w w' → 1 ≤ A.slots w')
    (hdec : ∀ w', Decs A w w' → A.slots w' = A.slots w)
    (h : (servedMachine A o w v segs).Run es s) (hf : FewLosses A o w v segs es) (hd : NoDuplicates o segs es)
    (v' : Env ε) :
    ∃ es' s', (servedMachine A o w v segs).RunFrom s es' s' ∧ Obs.complete ∈ s'.log ∧
      ((∀ e ∈ es', ∃ k < segs.length, ∃ p, segs[k]? = some p.content ∧ e = .data k p false v') ∨
       (o.maxRetries = -1 ∧ ∃ order v'' es'', es' = .check order v'' :: es'' ∧
         ∀ e ∈ es'', ∃ k < segs.length, ∃ p, segs[k]? = some p.content ∧ e = .data k p false v')) := by
  have hans : ∀ {es' : List (Ev ε)}, (∀ e ∈ es', ∃ k < segs.length, e = .data k (answer segs k) false v') →
      ∀ e ∈ es', ∃ k < segs.length, ∃ p, segs[k]? = some p.content ∧ e = .data k p false v' := by
    intro es' h e he
    obtain ⟨k, hk, rfl⟩ := h e he
    exact ⟨k, hk, answer segs k, by simp [answer, List.getElem?_eq_getElem hk], rfl⟩
  obtain ⟨es', s', r, hcc, hall⟩ := served_can_complete hsegs hslots hdec h hf hd v'
  refine ⟨es', s', r, hcc, ?_⟩
  rcases hall with hall | ⟨hR, order, v'', es'', he, hall⟩
  · exact Or.inl (hans hall)
  · exact Or.inr ⟨hR, order, v'', es'', he, hans hall⟩

/-- The assumptions of `C73_can_complete_partial` about the window, for AIMD: the initial window is reset to on
every decrease, or it is at least 2 (the default) and less than 3. -/
theorem C73_aimd_windows {o : Window.AimdOpts} (h2 : 0 ≤ o.aiStep)
    (h : o.resetCwndToInit = true ∧ 1 ≤ o.initCwnd ∨ 2 ≤ o.initCwnd ∧ o.initCwnd < 3 ∧ 0 ≤ o.mdCoef ∧ o.mdCoef ≤ 1) :
    (∀ w', Reach (Window.Aimd.alg o) (Window.Aimd.init o) w' → 1 ≤ (Window.Aimd.alg o).slots w') ∧
    (∀ w', Decs (Window.Aimd.alg o) (Window.Aimd.init o) w' →
      (Window.Aimd.alg o).slots w' = (Window.Aimd.alg o).slots (Window.Aimd.init o)) := by
  have h1 : 1 ≤ o.initCwnd := by
    rcases h with h | h
    · exact h.2
    · linarith [h.1]
  refine ⟨fun w' hr => Window.Aimd.slots_one (Window.Aimd.reach_one h1 h2 hr), ?_⟩
  intro w' hr
  rcases h with ⟨hr0, _⟩ | ⟨g1, g2, g3, g4⟩
  · have : w'.cwnd = o.initCwnd := by
      cases hr with
      | init => rfl
      | dec e _ => simp [Window.Aimd.alg, Window.Aimd.decrease, hr0]
    simp [Window.Aimd.alg, Window.Aimd.slots, this, Window.Aimd.init]
  · cases hb : o.resetCwndToInit with
    | true =>
      have : w'.cwnd = o.initCwnd := by
        cases hr with
        | init => rfl
        | dec e _ => simp [Window.Aimd.alg, Window.Aimd.decrease, hb]
      simp [Window.Aimd.alg, Window.Aimd.slots, this, Window.Aimd.init]
    | false =>
      have key : 2 ≤ w'.cwnd ∧ w'.cwnd < 3 := by
        induction hr with
        | init => exact ⟨g1, g2⟩
        | @dec w1 e _ ih =>
          have he : ((Window.Aimd.alg o).dec w1 e).cwnd = max 2 (w1.cwnd * o.mdCoef) := by
            simp [Window.Aimd.alg, Window.Aimd.decrease, hb, Window.minSsthresh]
          rw [he]
          refine ⟨le_max_left _ _, max_lt (by norm_num) ?_⟩
          nlinarith
      have hfl : ∀ x : ℚ, 2 ≤ x → x < 3 → (if 0 ≤ x then ⌊x⌋ else ⌈x⌉) = 2 := by
        intro x hx hx3
        rw [if_pos (by linarith)]
        rw [Int.floor_eq_iff]
        constructor
        · exact_mod_cast hx
        · push_cast; linarith
      simp only [Window.Aimd.alg, Window.Aimd.slots, Window.Aimd.init]
      rw [hfl _ key.1 key.2, hfl _ g1 g2]

/-- The same for CUBIC, with any initial window. -/
theorem C73_cubic_windows {o : Window.CubicOpts} {t0 : ℝ} (h1 : 1 ≤ o.initCwnd) (hb : o.beta ≤ 1) :
    (∀ w', Reach (Window.Cubic.alg o) (Window.Cubic.init o t0) w' → 1 ≤ (Window.Cubic.alg o).slots w') ∧
    (∀ w', Decs (Window.Cubic.alg o) (Window.Cubic.init o t0) w' →
      (Window.Cubic.alg o).slots w' = (Window.Cubic.alg o).slots (Window.Cubic.init o t0)) := by
  refine ⟨fun w' hr => Window.Cubic.slots_one (le_trans h1 (Window.Cubic.reach_init h1 hr)), ?_⟩
  intro w' hr
  have key : w'.cwnd = o.initCwnd := by
    induction hr with
    | init => rfl
    | @dec w1 e _ ih =>
      have he : ((Window.Cubic.alg o).dec w1 e).cwnd = max o.initCwnd (w1.cwnd * o.beta) := rfl
      rw [he, ih]
      refine max_eq_left ?_
      nlinarith
  simp [Window.Cubic.alg, Window.Cubic.slots, key, Window.Cubic.init]

/-- Beside `C73_can_complete_partial`: after losses of both requested segments all hypotheses hold and the
transfer is not complete; it can be. -/
example :
    let es : List (Ev Unit) := [.expire 1 ⟨5, 10, ()⟩, .expire 0 ⟨6, 10, ()⟩]
    let M := servedMachine halving ⟨1, false, false⟩ 2 ⟨0, 10, ()⟩ [[1], [2], [3]]
    ∃ s, M.Run es s ∧ Obs.complete ∉ s.log ∧ FewLosses halving ⟨1, false, false⟩ 2 ⟨0, 10, ()⟩ [[1], [2], [3]] es ∧
      ∃ es' s', M.RunFrom s es' s' ∧ Obs.complete ∈ s'.log := by
  intro es M
  have r : M.Run es ((M.exec M.init es).get (by decide)) := Machine.exec_run (M := M) (Option.some_get _).symm
  have hf : FewLosses halving ⟨1, false, false⟩ 2 ⟨0, 10, ()⟩ [[1], [2], [3]] es := Or.inr (by decide)
  refine ⟨_, r, by decide, hf, ?_⟩
  have h1 : ∀ w', Reach halving 2 w' → 1 ≤ halving.slots w' := by
    intro w' h
    have : 2 ≤ w' := by
      induction h with
      | init => exact Nat.le_refl 2
      | inc _ _ ih => exact ih
      | dec _ _ _ => exact Nat.le_max_left ..
    simp only [halving]; omega
  have h2 : ∀ w', Decs halving 2 w' → halving.slots w' = halving.slots 2 := by
    intro w' h
    have : w' = 2 := by
      induction h with
      | init => rfl
      | dec _ _ ih => rw [ih]; rfl
    rw [this]
  obtain ⟨es', s', h, hc, _⟩ := C73_can_complete_partial (by decide) h1 h2 r hf
    (Or.inr (by intro k _ v hv; simp [es] at hv)) ⟨0, 0, ()⟩
  exact ⟨es', s', h, hc⟩

/-- Beside `C73_aimd_windows` and `C73_cubic_windows`: the default options. -/
example :
    let o : Window.AimdOpts := ⟨2, 1000, 1, 1 / 2, false⟩
    let c : Window.CubicOpts := ⟨2, 1000, 0.7, false⟩
    (0 ≤ o.aiStep ∧ 2 ≤ o.initCwnd ∧ o.initCwnd < 3 ∧ 0 ≤ o.mdCoef ∧ o.mdCoef ≤ 1) ∧ 1 ≤ c.initCwnd ∧ c.beta ≤ 1 := by
  norm_num

/-! ## Larger initial windows -/

/-- The events of the stall below: the Interests for both segments of the object are lost once, and the producer
answers the Interest for segment 2, which does not exist, by a Nack. -/
def servedStall : List (Ev Unit) := [.expire 1 ⟨5, 10, ()⟩, .expire 0 ⟨6, 10, ()⟩, .nack 2 .none ⟨7, 10, ()⟩]

/-- **C73 (refuted for larger initial windows)** AIMD with initial window 4 and multiplicative decrease 1/2, at
most 15 retries, an object of two segments. Both segments are lost once, which halves the window, so
that their retransmissions have to wait; the Nack for segment 2 cancels the other Interests
without scheduling anything. From then on nothing happens, ever, although both segments are available and
were lost once only: no Interest, no Data, no failure. -/
theorem C73_stalls :
    let o : Opts := ⟨15, false, false⟩
    let A := Window.Aimd.alg ⟨4, 1000, 1, 1 / 2, false⟩
    let w : Window.Aimd := ⟨4, 1000⟩
    ∃ s, (servedMachine A o w ⟨0, 10, ()⟩ [[1], [2]]).Run servedStall s ∧
    FewLosses A o w ⟨0, 10, ()⟩ [[1], [2]] servedStall ∧ NoDuplicates o [[1], [2]] servedStall ∧
    s.isStopping = false ∧ s.threw = none ∧ s.retxQueue = [1, 0] ∧ s.nInFlight = 0 ∧ A.slots s.win = 2 ∧
    ∀ es' s', (servedMachine A o w ⟨0, 10, ()⟩ [[1], [2]]).RunFrom s es' s' →
      s'.log = s.log ∧ s'.isStopping = false ∧ s'.posted = [] := by
  intro o A w
  let M := servedMachine A o w ⟨0, 10, ()⟩ [[1], [2]]
  have r : M.Run servedStall ((M.exec M.init servedStall).get (by decide +kernel)) :=
    Machine.exec_run (M := M) (Option.some_get _).symm
  refine ⟨_, r, Or.inr (by decide +kernel), Or.inr ?_, by decide +kernel, by decide +kernel, by decide +kernel,
    by decide +kernel, by decide +kernel, ?_⟩
  · intro k hk v hv
    simp [servedStall] at hv
  intro es' s' h'
  generalize hs0 : (M.exec M.init servedStall).get (by decide +kernel) = s0 at h' r
  have hinfo : s0.info = [(0, ⟨0, 10, .inRetxQueue, false⟩), (1, ⟨0, 10, .inRetxQueue, false⟩)] := by
    subst hs0; decide +kernel
  have h0 : s0.isStopping = false ∧ s0.posted = [] := by subst hs0; decide +kernel
  have : s'.log = s0.log ∧ s'.isStopping = false ∧ s'.posted = [] ∧
      s'.info = [(0, ⟨0, 10, .inRetxQueue, false⟩), (1, ⟨0, 10, .inRetxQueue, false⟩)] := by
    refine Machine.RunFrom.invariant (P := fun s' : St Window.Aimd => s'.log = s0.log ∧
      s'.isStopping = false ∧ s'.posted = [] ∧
      s'.info = [(0, ⟨0, 10, .inRetxQueue, false⟩), (1, ⟨0, 10, .inRetxQueue, false⟩)])
      ⟨rfl, h0.1, h0.2, hinfo⟩ ?_ h'
    rintro s1 e1 ⟨g1, g2, g3, g4⟩ ⟨⟨he, _, _, hp, hc⟩, _⟩
    have hno : ∀ k, ¬ waitsFor s1 k := by
      rintro k ⟨x, hx, hx1⟩
      rw [g4] at hx
      simp only [get, List.find?_cons, List.find?_nil] at hx
      split at hx
      · simp at hx; rw [← hx] at hx1; simp at hx1
      · split at hx
        · simp at hx; rw [← hx] at hx1; simp at hx1
        · simp at hx
    show (s1.step A o e1).log = _ ∧ (s1.step A o e1).isStopping = _ ∧ (s1.step A o e1).posted = _ ∧
      (s1.step A o e1).info = _
    unfold St.step
    split
    · exact ⟨g1, g2, g3, g4⟩
    cases e1 with
    | data k p c v => exact absurd hp (hno k)
    | nack k r v => exact absurd hp (hno k)
    | expire k v => exact absurd hp (hno k)
    | check order v =>
      have hidle : ({ s1 with timer := false } : St Window.Aimd).expired v order = [] := by
        unfold St.expired
        rw [List.filter_eq_nil_iff]
        intro k _
        dsimp only
        rw [g4]
        have hg : get [(0, (⟨0, 10, .inRetxQueue, false⟩ : Seg)), (1, ⟨0, 10, .inRetxQueue, false⟩)] k = none ∨
            get [(0, (⟨0, 10, .inRetxQueue, false⟩ : Seg)), (1, ⟨0, 10, .inRetxQueue, false⟩)] k =
              some ⟨0, 10, .inRetxQueue, false⟩ := by
          match k with
          | 0 => right; rfl
          | 1 => right; rfl
          | n + 2 => left; rfl
        rcases hg with hg | hg <;> rw [hg] <;> simp
      dsimp only
      unfold St.checkRto
      rw [if_neg (by simp [g2])]
      dsimp only
      rw [checkLoop_idle v _ order hidle, hidle]
      exact ⟨g1, g2, g3, g4⟩
    | cancel => exact absurd hc (fun h => h)
    | posted => exact absurd g3 he
  exact ⟨this.1, this.2.1, this.2.2.1⟩

end Verif.Adaptive
