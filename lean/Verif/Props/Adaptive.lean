import Verif.Proofs.AdaptiveBlame

/-! # C11 - C18, C46 - C49: the adaptive pipelines -/

namespace Verif.Adaptive

variable {σ ε : Type}

/-! ## Executions in special environments -/

private theorem noClean {o : Opts} : Allow.all.clean → o.maxRetries = -1 := fun h => False.elim h

private theorem net_run {A : Alg σ ε} {o : Opts} {w : σ} {v : Env ε} {segs es s}
    (h : (netMachine A o w v segs).Run es s) :
    ARun A o w v ⟨Consistent segs, True, True, False, fun _ _ => True⟩ es s := by
  refine arun_of h (fun _ _ he => he.1) ?_
  intro s e _ he
  refine ⟨?_, fun _ _ _ => trivial, fun h => h.elim, fun _ _ _ _ => trivial⟩
  rintro k p c v rfl
  exact ⟨he.2, fun _ => trivial⟩

private theorem noFalse {P : Prop} : False → P := fun h => h.elim

private theorem noDup {α : Type} {l : List α} {x : α} (h : ∀ pre post, l = pre ++ x :: post → x ∉ pre) :
    [DecidableEq α] → l.count x ≤ 1 := by
  intro _
  by_cases hm : x ∈ l
  · obtain ⟨pre, post, e⟩ := List.append_of_mem hm
    have h1 := h pre post e
    have h2 : x ∉ post := by
      intro hx
      obtain ⟨a, b, e2⟩ := List.append_of_mem hx
      exact h (pre ++ x :: a) b (by rw [e, e2]; simp) (by simp)
    rw [e, List.count_append, List.count_cons_self]
    have := List.count_eq_zero.mpr h1
    have := List.count_eq_zero.mpr h2
    omega
  · rw [List.count_eq_zero.mpr hm]; omega

/-- **C11 (adaptive pipelines)** The failure callback is called at most once, nothing becomes visible
after it, and nothing becomes visible after the completion. After `cancel()` nothing but an already
posted failure callback becomes visible; and if `cancel()` was what stopped the pipeline, nothing
at all does. -/
theorem C11_adaptive_one_failure {A : Alg σ ε} {o : Opts} {w : σ} {v : Env ε} {es s}
    (h : (machine A o w v).Run es s) :
    s.log.countP Obs.isFailure ≤ 1 ∧
    (∀ pre m post, s.log = pre ++ Obs.failure m :: post → post = []) ∧
    (∀ pre post, s.log = pre ++ Obs.complete :: post → post = [] ∧ ∀ m, Obs.failure m ∉ pre) ∧
    (∀ es' s', Ev.cancel ∈ es → (machine A o w v).RunFrom s es' s' →
      ∃ l, s'.log = s.log ++ l ∧ ∀ x ∈ l, ∃ m, x = Obs.failure m) ∧
    (∀ es' s', s.isStopping = false → (machine A o w v).RunFrom (s.step A o .cancel) es' s' →
      s'.log = s.log) := by
  have hh := run_hist noClean (run_all h)
  refine ⟨?_, ?_, ?_, ?_, ?_⟩
  · have := hh.once; omega
  · intro pre m post e
    obtain ⟨pre', m', e'⟩ := hh.fails ⟨m, by rw [e]; simp⟩
    rcases List.eq_nil_or_concat post with rfl | ⟨post', x, rfl⟩
    · rfl
    · exfalso
      have h1 := hh.once
      rw [e] at e'
      simp only [List.concat_eq_append] at e'
      rw [show pre ++ Obs.failure m :: (post' ++ [x]) = (pre ++ Obs.failure m :: post') ++ [x] by simp] at e'
      have := List.append_inj' e' rfl
      simp only [List.cons.injEq, and_true] at this
      rw [e] at h1
      simp [List.countP_append, List.countP_cons, this.2, Obs.isFailure] at h1
      omega
  · intro pre post e
    obtain ⟨_, h2, pre', e', h4⟩ := hh.compl (by rw [e]; simp)
    rcases List.eq_nil_or_concat post with rfl | ⟨post', x, rfl⟩
    · exact ⟨rfl, fun m hm => h2 m (by rw [e]; simp [hm])⟩
    · exfalso
      rw [e] at e'
      simp only [List.concat_eq_append] at e'
      rw [show pre ++ Obs.complete :: (post' ++ [x]) = (pre ++ Obs.complete :: post') ++ [x] by simp] at e'
      have := List.append_inj' e' rfl
      apply h4; rw [← this.1]; simp
  · intro es' s' hc h'
    obtain ⟨_, l, h1, h2, _⟩ := ended_frozen (run_wf h) (ended_of_cancel h hc) h'
    exact ⟨l, h1, h2⟩
  · intro es' s' hst h'
    have hw : WF (s.step A o .cancel) := run_wf (Machine.Run.snoc (M := machine A o w v) Ev.cancel h trivial)
    obtain ⟨_, l, h1, _, h3⟩ := ended_frozen hw (ended_cancel s) h'
    rw [(step_cancel_log s).2, (hh.quiet hst).1] at h3
    simp only [List.length_nil, Nat.add_eq_zero_iff, List.length_eq_zero_iff] at h3
    rw [h1, (step_cancel_log s).1, h3.1, List.append_nil]

/-- **C12** No segment reaches the data callback twice; a segment reaches it only after an Interest
for it was sent; Interests for new segments go out in increasing order, without gaps, once per
segment; Interests are repeated only after the first one and before the segment was delivered; and
once the final segment number is known nothing beyond it is requested or delivered. This holds for
every window algorithm, every producer, every network and every use of `cancel()`. -/
theorem C12_adaptive_once_in_order {A : Alg σ ε} {o : Opts} {w : σ} {v : Env ε} {es s}
    (h : (machine A o w v).Run es s) :
    (∀ pre k p post, s.log = pre ++ Obs.data k p :: post →
      Obs.interest k false ∈ pre ∧ (∀ p', Obs.data k p' ∉ pre) ∧ (∀ p', Obs.data k p' ∉ post)) ∧
    (∀ pre k post, s.log = pre ++ Obs.interest k false :: post →
      (∀ j < k, Obs.interest j false ∈ pre) ∧ Obs.interest k false ∉ pre) ∧
    (∀ pre k post, s.log = pre ++ Obs.interest k true :: post →
      Obs.interest k false ∈ pre ∧ ∀ p, Obs.data k p ∉ pre) ∧
    (s.hasFinalBlockId = true → ∀ es' s', (machine A o w v).RunFrom s es' s' →
      s'.lastSegmentNo = s.lastSegmentNo ∧
      ∃ l, s'.log = s.log ++ l ∧ (∀ k b, Obs.interest k b ∈ l → k ≤ s.lastSegmentNo) ∧
        ∀ k p, Obs.data k p ∈ l → k ≤ s.lastSegmentNo) := by
  have hc := run_core noClean (run_all h)
  refine ⟨?_, hc.order, ?_, ?_⟩
  · intro pre k p post e
    refine ⟨hc.dreq pre k p post e, ?_⟩
    have hnd := hc.rnodup
    have hsplit : received s.log = received pre ++ k :: received post := by
      rw [e]; simp [received]
    rw [hsplit, List.nodup_append] at hnd
    obtain ⟨_, hnd2, hnd3⟩ := hnd
    refine ⟨fun p' hm => ?_, fun p' hm => ?_⟩
    · exact hnd3 k (mem_received.mpr ⟨p', hm⟩) k (by simp) rfl
    · exact (List.nodup_cons.mp hnd2).1 (mem_received.mpr ⟨p', hm⟩)
  · intro pre k post e
    obtain ⟨h1, h2⟩ := hc.again pre k post e
    exact ⟨h1, fun p hp => h2 (mem_received.mpr ⟨p, hp⟩)⟩
  · intro hf es' s' h'
    exact (bounded_steps (run_within noClean (run_all h)) hf (runFrom_steps (run_wf h) h')).2.2

/-- **C12 (seen from outside)** With a consistent producer of `segs`: after Data with a FinalBlockId
was delivered, no Interest for a segment that does not exist is sent. -/
theorem C12_adaptive_nothing_beyond {A : Alg σ ε} {o : Opts} {w : σ} {v : Env ε} {segs es s}
    (h : (netMachine A o w v segs).Run es s) {pre k p post}
    (e : s.log = pre ++ Obs.data k p :: post) (hp : p.final ≠ .absent) :
    ∀ j b, Obs.interest j b ∈ post → j < segs.length := by
  intro j b hj
  have hfh := run_finalHist noFalse (net_run h)
  have hh := run_hist noFalse (net_run h)
  have h1 := hfh.after pre k p post e hp j b hj
  obtain ⟨k', p', h2, h3⟩ := hh.fin (hfh.known k p (by rw [e]; simp) hp)
  obtain ⟨h4, h5⟩ := h2
  rw [h3] at h5
  simp at h5
  have h6 : k' < segs.length := by
    rcases Nat.lt_or_ge k' segs.length with h | h
    · exact h
    · rw [List.getElem?_eq_none h] at h4; cases h4
  omega

/-- **C13** Completion. With a consistent producer, when the end of the transfer is announced every
segment was delivered exactly once and with the right content, and nothing happens afterwards. -/
theorem C13_adaptive_completion {A : Alg σ ε} {o : Opts} {w : σ} {v : Env ε} {segs : List Bytes} {es s}
    (h : (netMachine A o w v segs).Run es s) {pre post} (e : s.log = pre ++ Obs.complete :: post) :
    (received pre).Perm (List.range segs.length) ∧
    (∀ k p, Obs.data k p ∈ pre → segs[k]? = some p.content) ∧
    post = [] ∧ s.posted = [] := by
  have hh := run_hist noFalse (net_run h)
  have hc := run_core noFalse (net_run h)
  have hst := run_stats noFalse (net_run h)
  have hm : Obs.complete ∈ s.log := by rw [e]; simp
  obtain ⟨h1, h2, pre', e', h3⟩ := hh.compl hm
  have hpost : post = [] ∧ pre = pre' := by
    rcases List.eq_nil_or_concat post with rfl | ⟨post', x, rfl⟩
    · rw [e] at e'
      exact ⟨rfl, (List.append_inj' e' rfl).1⟩
    · exfalso
      rw [e] at e'
      simp only [List.concat_eq_append] at e'
      rw [show pre ++ Obs.complete :: (post' ++ [x]) = (pre ++ Obs.complete :: post') ++ [x] by simp] at e'
      have := List.append_inj' e' rfl
      apply h3; rw [← this.1]; simp
  obtain ⟨rfl, rfl⟩ := hpost
  have hlt : ∀ {k p}, Consistent segs k p → k < segs.length := by
    intro k p hk
    rcases Nat.lt_or_ge k segs.length with h | h
    · exact h
    · have := hk.1; rw [List.getElem?_eq_none h] at this; cases this
  have hrec : received s.log = received pre := by rw [e]; simp [received]
  obtain ⟨h4, h5⟩ := hh.all hm
  obtain ⟨k', p', h6, h7⟩ := hh.fin h4
  have h8 := h6.2
  rw [h7] at h8
  simp at h8
  have hpos := hlt h6
  rw [hst.recv, hrec] at h5
  have hnd := hc.rnodup
  rw [hrec] at hnd
  refine ⟨?_, ?_, rfl, h1⟩
  · have hsub : (received pre).Subperm (List.range segs.length) := by
      refine List.Nodup.subperm hnd (fun x hx => ?_)
      obtain ⟨p, hp⟩ := mem_received.mp hx
      exact List.mem_range.mpr (hlt (hh.net x p (by rw [e]; simp [hp])))
    exact hsub.perm_of_length_le (by simp; omega)
  · intro k p hk
    exact (hh.net k p (by rw [e]; simp [hk])).1

/-! ## C14: the in-flight counter -/

/-- The events of the counterexample to C14: window 4; all four segments are found expired, the window
shrinks to 2, segments 0 and 1 are sent again, 2 and 3 wait; now Nacks (congestion) for the first
Interests of 2 and 3 arrive, and the counter is decremented again for each. -/
def doubleDecrement : List (Ev Unit) :=
  [.check [0, 1, 2, 3] ⟨20, 10, ()⟩, .nack 2 .congestion ⟨21, 10, ()⟩]

/-- **C14 (refuted)** The counter is not exact: in the run above the counter is 2 when three segments
are in flight, although the environment is as friendly as can be. -/
theorem C14_counter_not_exact :
    ¬ CounterExact halving ⟨3, false, false⟩ 4 ⟨0, 10, ()⟩ (List.replicate 9 [7]) := by
  intro h
  let M := politeMachine halving ⟨3, false, false⟩ 4 ⟨0, 10, ()⟩ (List.replicate 9 [7])
  have r : M.Run doubleDecrement ((M.exec M.init doubleDecrement).get (by decide)) :=
    Machine.exec_run (by simp)
  have := h _ _ r (by decide)
  revert this
  decide

/-- **C14 (refuted)** The window is not respected: the Nack makes the pipeline send segment 2, after
which three segments are in flight in a window of two. -/
theorem C14_window_not_respected :
    ¬ WindowRespected halving ⟨3, false, false⟩ 4 ⟨0, 10, ()⟩ (List.replicate 9 [7]) := by
  intro h
  let M := politeMachine halving ⟨3, false, false⟩ 4 ⟨0, 10, ()⟩ (List.replicate 9 [7])
  let e1 : Ev Unit := .check [0, 1, 2, 3] ⟨20, 10, ()⟩
  let e2 : Ev Unit := .nack 2 .congestion ⟨21, 10, ()⟩
  have r : M.Run [e1] (M.step M.init e1) :=
    Machine.Run.snoc (M := M) (es := []) e1 Machine.Run.nil (by decide)
  have := h _ _ e2 r (by decide) ⟨[.interest 2 true], by decide, 2, true, by decide⟩
  revert this
  decide

/-- **C14 (refuted)** The counter even becomes negative, so that an assertion fails: after the events
above segment 2 arrives, and then the three remaining segments expire while the counter is 2. -/
theorem C14_assertion_fails : ∃ es s,
    (politeMachine halving ⟨3, false, false⟩ 4 ⟨0, 10, ()⟩ (List.replicate 9 [7])).Run es s ∧
    s.assertFailed = true := by
  let M := politeMachine halving ⟨3, false, false⟩ 4 ⟨0, 10, ()⟩ (List.replicate 9 [7])
  let es := doubleDecrement ++ [.data 2 { content := [7] } false ⟨22, 10, ()⟩, .check [0, 1, 3] ⟨50, 10, ()⟩]
  exact ⟨es, (M.exec M.init es).get (by decide), Machine.exec_run (Option.some_get _).symm, by decide⟩

/-- **C14 (what holds always)** The counter never exceeds the number of segments in flight, and after
an event that sends Interests the counter does not exceed the window. Missing from the claim C14:
equality, see `C14_counter_not_exact`. -/
theorem C14_counter_partial {A : Alg σ ε} {o : Opts} {w : σ} {v : Env ε} {es s}
    (h : (machine A o w v).Run es s) :
    (s.isStopping = false → s.nInFlight ≤ inFlight s.info) ∧
    (∀ e, s.enabled e → Sends A o s e → (s.step A o e).nInFlight ≤ A.slots (s.step A o e).win) := by
  refine ⟨?_, ?_⟩
  · intro hs
    have hf := run_flow noClean (run_all h)
    have h1 := hf.le hs
    have h2 := waiting_le (run_wf h).nodup (hf.waits hs)
    omega
  · rintro e he ⟨l, h1, k, b, h2⟩
    exact sends_window (run_wf h) he (allowed_all o s e) h1 h2

/-- **C14 (in a clean environment)** Without a retry limit, and when losses hit only segments that are
not already waiting for retransmission, the counter is exact, no assertion fails, and after an
event that sends Interests the number of segments in flight is at most the window. -/
theorem C14_exact_when_clean_partial {A : Alg σ ε} {o : Opts} {w : σ} {v : Env ε} {es s}
    (hR : o.maxRetries = -1) (h : (cleanMachine A o w v).Run es s) :
    s.assertFailed = false ∧
    (s.isStopping = false → s.nInFlight = inFlight s.info) ∧
    (∀ e, (cleanMachine A o w v).enabled s e → Sends A o s e → (s.step A o e).isStopping = false →
      (inFlight (s.step A o e).info : Int) ≤ A.slots (s.step A o e).win) := by
  have key : ∀ {es s}, (cleanMachine A o w v).Run es s →
      s.assertFailed = false ∧ (s.isStopping = false → s.nInFlight = inFlight s.info) := by
    intro es s h
    have hr : ARun A o w v ⟨fun _ _ => True, False, True, True, fun _ _ => True⟩ es s := by
      refine arun_of h (fun _ _ he => he.1) ?_
      intro s e _ he
      refine ⟨fun _ _ _ _ _ => ⟨trivial, fun _ => trivial⟩, ?_, fun _ => ⟨he.2.2, hR⟩, fun _ _ _ _ => trivial⟩
      rintro k (⟨r, v, rfl⟩ | ⟨v, rfl⟩) hk
      · have : (get s.info k).isSome = true := he.2.1
        rw [hk] at this; cases this
      · have : (get s.info k).isSome = true := he.2.1
        rw [hk] at this; cases this
    have hx := run_exact hR trivial (fun h => h) hr
    have hf := run_flow (fun _ => hR) hr
    refine ⟨hx.asserts, fun hs => ?_⟩
    have hw := run_wf (run_weaken h (fun _ _ he => he.1))
    have h1 := hx.eq hs
    have h2 := inFlight_eq hw.nodup (hx.qnodup hs)
      (fun k x hk => ⟨hf.waits hs k x hk, hx.queued hs k x hk⟩)
    omega
  refine ⟨(key h).1, (key h).2, ?_⟩
  rintro e he ⟨l, h1, k, b, h2⟩ hs
  have hw := run_wf (run_weaken h (fun _ _ he => he.1))
  have h3 := sends_window (A := A) hw he.1 (allowed_all o s e) h1 h2
  have h4 := (key (Machine.Run.snoc (M := cleanMachine A o w v) e h he)).2 hs
  exact h4 ▸ h3

/-! ## C15: the retry limit -/

/-- **C15 (refuted)** With limit 0 a segment is requested twice. -/
theorem C15_limit_zero_not_respected :
    ¬ RetryLimitRespected halving ⟨0, false, false⟩ 2 ⟨0, 10, ()⟩ [[1], [2], [3]] := by
  intro h
  let M := politeMachine halving ⟨0, false, false⟩ 2 ⟨0, 10, ()⟩ [[1], [2], [3]]
  have r : M.Run [.expire 0 ⟨20, 10, ()⟩] (M.step M.init (.expire 0 ⟨20, 10, ()⟩)) :=
    Machine.Run.snoc (M := M) (es := []) _ Machine.Run.nil (by decide)
  have := h _ _ r 0
  revert this
  decide

/-- **C15 (what does hold)** A segment is requested at most `1 + max(1, R)` times, therefore at most
`1 + R` times if `R` is not 0. Missing from the claim C15: `R = 0`, see
`C15_limit_zero_not_respected`. -/
theorem C15_limit_partial {A : Alg σ ε} {o : Opts} {w : σ} {v : Env ε} {es s}
    (hR : 0 ≤ o.maxRetries) (h : (machine A o w v).Run es s) (k : Nat) :
    (nSends s.log k : Int) ≤ 1 + max 1 o.maxRetries ∧
    (o.maxRetries ≠ 0 → (nSends s.log k : Int) ≤ 1 + o.maxRetries) := by
  have h1 := (run_budget noClean (run_all h)).bound (by omega) k
  have h2 : s.log.count (.interest k false) ≤ 1 :=
    noDup (fun pre post e => ((run_core noClean (run_all h)).order pre k post e).2)
  unfold budget nRetx at h1
  unfold nSends
  omega

/-- **C15 (the limit ends the transfer)** The final segment number is known and segment `k`, which is
not beyond it, was requested again as often as the limit allows; when its Interest expires and the
window, decreased if the expiry decreases it, has room, the pipeline stops and reports exactly this. -/
theorem C15_limit_fails {A : Alg σ ε} {o : Opts} {w : σ} {v : Env ε} {es s}
    (h : (machine A o w v).Run es s) (hs : s.isStopping = false) (ht : s.threw = none) (hu : s.ub = false)
    (hR : 0 ≤ o.maxRetries) (hf : s.hasFinalBlockId = true) {k : Nat} {v' : Env ε}
    (hk : (get s.info k).isSome = true) (hq : s.retxQueue = [])
    (hn : max 1 o.maxRetries ≤ (nRetx s.log k : Int))
    (hw : s.nInFlight ≤ A.slots s.win)
    (hw' : o.disableCwa = true ∨ k > s.recPoint → s.nInFlight ≤ A.slots (A.dec s.win v'.win)) :
    (s.step A o (.expire k v')).isStopping = true ∧
    (s.step A o (.expire k v')).posted = [.maxRetries o.maxRetries k] := by
  have hb := run_budget noClean (run_all h)
  have hin := run_within noClean (run_all h)
  have hq' := (run_hist noClean (run_all h)).quiet hs
  exact expire_fails hs ht hu (by omega) hf hk hq (by rw [← hb.count hs k hk]; exact hn) hw hw'
    (hin hf k hk) hq'.1

/-! ## C16: no stall -/

/-- **C16 (refuted)** Window 2, segments 0 and 1 in flight, the final segment number is unknown: a Nack
for segment 0 makes the pipeline forget both segments without reporting a failure. Afterwards,
whatever happens, the pipeline does nothing and reports nothing, for ever. -/
theorem C16_stalls : ∃ es s,
    (politeMachine halving ⟨3, false, false⟩ 2 ⟨0, 10, ()⟩ [[1], [2]]).Run es s ∧
    s.isStopping = false ∧ s.threw = none ∧ s.posted = [] ∧ inFlight s.info = 0 ∧
    ∀ es' s', (politeMachine halving ⟨3, false, false⟩ 2 ⟨0, 10, ()⟩ [[1], [2]]).RunFrom s es' s' →
      s'.log = s.log ∧ s'.isStopping = false ∧ s'.posted = [] := by
  let M := politeMachine halving ⟨3, false, false⟩ 2 ⟨0, 10, ()⟩ [[1], [2]]
  let e : Ev Unit := .nack 0 .noRoute ⟨20, 10, ()⟩
  have r : M.Run [e] (M.step M.init e) :=
    Machine.Run.snoc (M := M) (es := []) _ Machine.Run.nil (by decide)
  refine ⟨_, _, r, by decide, by decide, by decide, by decide, ?_⟩
  intro es' s' h'
  have : s'.log = (M.step M.init e).log ∧ s'.isStopping = false ∧ s'.posted = [] ∧ s'.info = [] := by
    refine Machine.RunFrom.invariant (P := fun s' : St Nat => s'.log = (M.step M.init e).log ∧
      s'.isStopping = false ∧ s'.posted = [] ∧ s'.info = []) ⟨rfl, by decide, by decide, by decide⟩ ?_ h'
    rintro s1 e1 ⟨g1, g2, g3, g4⟩ ⟨he, _, hp, hc⟩
    dsimp only [politeMachine]
    have hno : ∀ k, ¬ waitsFor s1 k := by
      rintro k ⟨x, hx, _⟩; rw [g4] at hx; cases hx
    unfold St.step
    split
    · exact ⟨g1, g2, g3, g4⟩
    cases e1 with
    | data k p c v => exact absurd hp (hno k)
    | nack k r v => exact absurd hp (hno k)
    | expire k v => exact absurd hp (hno k)
    | check order v =>
      have ho : order = [] := by
        have := he.2; rw [g4] at this; simpa using this
      subst ho
      simp [St.checkRto, g2, St.expired, g1, g3, g4]
    | cancel => exact absurd hc (fun h => h)
    | posted => exact absurd g3 he
  exact ⟨this.1, this.2.1, this.2.2.1⟩

/-- **C16 (refuted)** In particular the claim is false. -/
theorem C16_claim_false : ¬ NeverStalls halving ⟨3, false, false⟩ 2 ⟨0, 10, ()⟩ [[1], [2]] := by
  intro h
  obtain ⟨es, s, h1, h2, h3, _, h4, _⟩ := C16_stalls
  have := h es s h1 h2 h3
  omega

private theorem prompt_run {A : Alg σ ε} {o : Opts} {w : σ} {v : Env ε} {es s}
    (h : (promptMachine A o w v).Run es s) :
    ARun A o w v ⟨fun _ _ => True, False, True, False, fun k r => ∃ v, Ev.nack k r v ∈ es⟩ es s := by
  refine arun_of h (fun _ _ he => he.1) ?_
  intro s e hm he
  refine ⟨fun _ _ _ _ _ => ⟨trivial, fun _ => trivial⟩, ?_, fun h => h.elim, ?_⟩
  · rintro k (⟨r, v, rfl⟩ | ⟨v, rfl⟩) hk <;>
    · obtain ⟨x, hx, _⟩ : waitsFor s k := he.2.1
      rw [hk] at hx; cases hx
  · rintro k r v rfl
    exact ⟨v, hm⟩

/-- **C16 (what does hold)** The window allows at least one segment. Once a delivered packet has told
the final segment number - or as long as there was no fatal Nack and there is no retry limit - a
pipeline that was not stopped has a segment in flight and its RTO check is scheduled. Missing from
the claim C16: failures before the final segment number is known, see `C16_stalls`; callbacks of
cancelled Interests. -/
theorem C16_no_stall_partial {A : Alg σ ε} {o : Opts} {w : σ} {v : Env ε} {es s}
    (hslots : ∀ w', Reach A w w' → 1 ≤ A.slots w') (h : (promptMachine A o w v).Run es s)
    (h1 : s.isStopping = false) (h2 : s.threw = none) (h3 : s.ub = false)
    (hc : (∃ k p, Obs.data k p ∈ s.log ∧ p.final ≠ .absent) ∨
      (o.maxRetries = -1 ∧ ∀ k r v, Ev.nack k r v ∈ es → r = .duplicate ∨ r = .congestion)) :
    0 < inFlight s.info ∧ s.timer = true := by
  have hr := prompt_run h
  have hprog := prompt_prog hslots h
  rcases hprog with (hp | hp | hp) | hp
  · rw [h1] at hp; cases hp
  · rw [h2] at hp; cases hp
  · rw [h3] at hp; cases hp
  refine ⟨?_, hp.timer⟩
  rcases hp.live with hl | hl
  · exfalso
    rcases hc with ⟨k, p, hk, hf⟩ | ⟨hR, hn⟩
    · have := hp.ff ((run_finalHist noFalse hr).known k p hk hf)
      rw [this] at hl; cases hl
    · have : s.hasFailure = false := arun_inv (P := fun s => s.hasFailure = false) noFalse hr rfl
        (fun _ _ _ hc hm => hasFailure_micro hR (by rintro k r ⟨v, hv⟩; exact hn k r v hv) hc hm)
      rw [this] at hl; cases hl
  · exact hl

/-! ## C17, C18: window decreases and RTT samples -/

/-- **C17** With conservative window adaptation: between two decreases of the window the segment that
causes the later one was requested for the first time. For a loss it is the lost segment (see
`C17_cause`); for a congestion mark it is a segment received before, or the one that carries the
mark. -/
theorem C17_one_decrease_per_rtt {A : Alg σ ε} {o : Opts} {w : σ} {v : Env ε} {es s}
    (ho : o.disableCwa = false) (h : (machine A o w v).Run es s) {a j b' c k b post}
    (e : s.log = a ++ Obs.decr j b' :: c ++ Obs.decr k b :: post) :
    Obs.interest k false ∈ c ∧ Obs.interest k false ∉ a ∧
    (b = true → ∃ i p post', post = Obs.data i p :: post' ∧ p.congMark = true ∧
      (k = i ∨ k ∈ received (a ++ Obs.decr j b' :: c))) := by
  obtain ⟨h1, h2⟩ := (run_rec noClean (run_all h)).one ho _ k b post e
  have h3 := h2 a j b' c rfl
  refine ⟨?_, h3, ?_⟩
  · rcases List.mem_append.mp h1 with h1 | h1
    · exact absurd h1 h3
    · rcases List.mem_cons.mp h1 with h1 | h1
      · cases h1
      · exact h1
  · rintro rfl
    exact run_markData noClean (run_all h) _ k post e

/-- **C17 (cause of a decrease)** A decrease during a timeout or Nack event names the segment of the
event; a decrease during the RTO check names a segment in flight whose RTO has passed. -/
theorem C17_cause {A : Alg σ ε} {o : Opts} {s : St σ} {l : List Obs} {j : Nat} {b : Bool}
    (hd : Obs.decr j b ∈ l) :
    (∀ k v, (s.step A o (.expire k v)).log = s.log ++ l → j = k ∧ b = false) ∧
    (∀ k r v, (s.step A o (.nack k r v)).log = s.log ++ l → j = k ∧ b = false ∧ r = .congestion) ∧
    (∀ order v, (s.step A o (.check order v)).log = s.log ++ l →
      b = false ∧ j ∈ order ∧ ∃ x, get s.info j = some x ∧ x.state ≠ .inRetxQueue ∧
        v.now > x.timeSent + x.rto) := by
  exact ⟨fun k v => cause_expire hd, fun k r v => cause_nack hd, fun order v => cause_check hd⟩

/-- **C18** An RTT sample is taken right when the segment is delivered; for such a segment exactly one
Interest is ever sent and there is exactly one sample. -/
theorem C18_karn {A : Alg σ ε} {o : Opts} {w : σ} {v : Env ε} {es s}
    (h : (machine A o w v).Run es s) {pre k post} (e : s.log = pre ++ Obs.sample k :: post) :
    (∃ pre' p, pre = pre' ++ [Obs.data k p]) ∧ nSends s.log k = 1 ∧
    Obs.sample k ∉ pre ∧ Obs.sample k ∉ post := by
  have hk := run_karn noClean (run_all h)
  have hc := run_core noClean (run_all h)
  obtain ⟨pre', p, hp⟩ := hk.after pre k post e
  refine ⟨⟨pre', p, hp⟩, ?_, ?_⟩
  · have h1 : s.log.count (.interest k false) ≤ 1 := noDup (fun pre post e => (hc.order pre k post e).2)
    have h2 : Obs.interest k false ∈ s.log := by
      have := hc.dreq pre' k p (Obs.sample k :: post) (by rw [e, hp]; simp)
      rw [e, hp]; simp [this]
    have h3 := List.count_pos_iff.mpr h2
    have h4 : s.log.count (.interest k true) = 0 :=
      List.count_eq_zero.mpr (hk.pure k (by rw [e]; simp))
    unfold nSends
    omega
  · have hnd := hk.sub.nodup hc.rnodup
    rw [e] at hnd
    rw [samples_append, show samples (Obs.sample k :: post) = k :: samples post from rfl,
      List.nodup_append] at hnd
    obtain ⟨_, h2, h3⟩ := hnd
    refine ⟨fun hm => h3 k (mem_samples.mpr hm) k (by simp) rfl, fun hm => ?_⟩
    exact (List.nodup_cons.mp h2).1 (mem_samples.mpr hm)

/-! ## C46, C47: undefined behaviour and exceptions -/

/-- **C46 (adaptive pipelines, refuted)** A data callback that cancels the pipeline causes undefined
behaviour. -/
theorem C46_adaptive_undefined : ∃ es s,
    (machine halving ⟨3, false, false⟩ 2 ⟨0, 10, ()⟩).Run es s ∧ s.ub = true := by
  let M := machine halving ⟨3, false, false⟩ 2 ⟨0, 10, ()⟩
  let es : List (Ev Unit) := [.data 0 { content := [1] } true ⟨5, 10, ()⟩]
  exact ⟨es, (M.exec M.init es).get (by decide), Machine.exec_run (Option.some_get _).symm, by decide⟩

/-- **C46 (adaptive pipelines, what does hold)** If the data callback never cancels, there is no
undefined behaviour. -/
theorem C46_adaptive_partial {A : Alg σ ε} {o : Opts} {w : σ} {v : Env ε} {es s}
    (h : (machine A o w v).Run es s) (hc : ∀ k p v, Ev.data k p true v ∉ es) : s.ub = false := by
  have hr : ARun A o w v ⟨fun _ _ => True, True, False, False, fun _ _ => True⟩ es s := by
    refine arun_of h (fun _ _ he => he) ?_
    intro s e hm _
    refine ⟨?_, fun _ _ _ => trivial, fun h => h.elim, fun _ _ _ _ => trivial⟩
    rintro k p c v rfl
    refine ⟨trivial, ?_⟩
    rintro rfl
    exact hc k p v hm
  exact arun_inv (P := fun s => s.ub = false) noFalse hr rfl (fun _ _ _ hc hm => ub_micro (fun h => h) hc hm)

/-- **C47 (refuted)** Segment 3's Interest was cancelled because the final segment number turned out
to be 1; its timeout callback, which was already on its way, makes the pipeline throw. -/
theorem C47_late_callback_throws : ∃ es s,
    (netMachine halving ⟨3, false, false⟩ 4 ⟨0, 10, ()⟩ [[1], [2]]).Run es s ∧
    s.threw = some (.outOfRange 3) := by
  let M := netMachine halving ⟨3, false, false⟩ 4 ⟨0, 10, ()⟩ [[1], [2]]
  let e1 : Ev Unit := .data 0 { content := [1], final := .seg 1 } false ⟨5, 10, ()⟩
  let e2 : Ev Unit := .expire 3 ⟨6, 10, ()⟩
  have r1 : M.Run [e1] (M.step M.init e1) :=
    Machine.Run.snoc (M := M) (es := []) e1 Machine.Run.nil ⟨by decide, by decide⟩
  have r2 : M.Run [e1, e2] (M.step (M.step M.init e1) e2) :=
    Machine.Run.snoc (M := M) e2 r1 ⟨by decide, by decide⟩
  exact ⟨_, _, r2, by decide⟩

/-- **C47 (what does hold)** If Nacks and timeouts are reported only for segments that the pipeline
tracks, `at` never throws. Late Data is ignored in any case, as long as it does not announce the
final segment number. -/
theorem C47_tracked_partial {A : Alg σ ε} {o : Opts} {w : σ} {v : Env ε} {es s}
    (h : (trackedMachine A o w v).Run es s) :
    (∀ k, s.threw ≠ some (.outOfRange k)) ∧
    (∀ k p c v', get s.info k = none → (s.hasFinalBlockId = true ∨ p.final = .absent) →
      (s.step A o (.data k p c v')).log = s.log ∧ (s.step A o (.data k p c v')).threw = s.threw ∧
      (s.step A o (.data k p c v')).info = s.info) := by
  have hr : ARun A o w v ⟨fun _ _ => True, False, True, False, fun _ _ => True⟩ es s := by
    refine arun_of h (fun _ _ he => he.1) ?_
    intro s e hm he
    refine ⟨fun _ _ _ _ _ => ⟨trivial, fun _ => trivial⟩, ?_, fun h => h.elim, fun _ _ _ _ => trivial⟩
    rintro k (⟨r, v, rfl⟩ | ⟨v, rfl⟩) hk <;>
    · have : (get s.info k).isSome = true := he.2
      rw [hk] at this; cases this
  refine ⟨arun_inv (P := fun s => ∀ k, s.threw ≠ some (.outOfRange k)) noFalse hr (by simp [initial])
    (fun _ _ _ hc hm => threw_micro (fun h => h) hc hm), ?_⟩
  intro k p c v' hk hf
  exact late_data hk hf

/-! ## C48, C49: statistics and failure messages -/

/-- **C48** The numbers that the summary prints are true: they count what happened. -/
theorem C48_counters {A : Alg σ ε} {o : Opts} {w : σ} {v : Env ε} {es s}
    (h : (machine A o w v).Run es s) :
    s.nSent = s.log.countP (fun x => match x with | .interest _ _ => true | _ => false) ∧
    s.nRetransmitted = s.log.countP (fun x => match x with | .interest _ true => true | _ => false) ∧
    s.nLossDecr = s.log.countP (fun x => match x with | .decr _ false => true | _ => false) ∧
    s.nMarkDecr = s.log.countP (fun x => match x with | .decr _ true => true | _ => false) ∧
    s.nReceived = (received s.log).length ∧
    s.receivedSize = (s.log.map (fun x => match x with | .data _ p => p.content.length | _ => 0)).sum ∧
    s.nCongMarks = s.log.countP (fun x => match x with | .data _ p => p.congMark | _ => false) := by
  have hs := run_stats noClean (run_all h)
  exact ⟨hs.sent, hs.retx, hs.loss, hs.mark, hs.recv, hs.size, hs.cong⟩

/-- **C49** The message of a failure tells the truth about the history: see `Truth`. -/
theorem C49_failure_message_true {A : Alg σ ε} {o : Opts} {w : σ} {v : Env ε} {es s}
    (h : (machine A o w v).Run es s) {m} (hm : Obs.failure m ∈ s.log) :
    Truth (fun k r => ∃ v, Ev.nack k r v ∈ es) o s.log m := by
  have hr : ARun A o w v ⟨fun _ _ => True, True, True, False, fun k r => ∃ v, Ev.nack k r v ∈ es⟩ es s := by
    refine arun_of h (fun _ _ he => he) ?_
    intro s e hm _
    refine ⟨fun _ _ _ _ _ => ⟨trivial, fun _ => trivial⟩, fun _ _ _ => trivial, fun h => h.elim, ?_⟩
    rintro k r v rfl
    exact ⟨v, hm⟩
  exact (run_blame noFalse hr).log m hm

/-! ## Concrete cases -/

/-- Six segments, window 4. Segment 1 arrives; 0, 2 and 3 expire and are sent again as the window
allows; segment 0 tells the last segment number; a congestion mark on segment 4, which was on its
way before the decrease, has no effect, the one on segment 5 has. -/
def exampleEvents : List (Ev Unit) :=
  [.data 1 { content := [1] } false ⟨5, 10, ()⟩,
   .check [0, 2, 3, 4] ⟨12, 10, ()⟩,
   .data 0 { content := [0], final := .seg 5 } false ⟨14, 10, ()⟩,
   .data 4 { content := [4], congMark := true } false ⟨15, 10, ()⟩,
   .data 2 { content := [2] } false ⟨16, 10, ()⟩,
   .data 5 { content := [5], congMark := true } false ⟨17, 10, ()⟩,
   .data 3 { content := [3], final := .seg 5 } false ⟨18, 10, ()⟩]

/-- The example is an execution in the friendliest environment, hence in all others. Its history has
a completion (C11, C13), repeated Interests and a FinalBlockId (C12), two decreases (C17) and
three samples (C18); the counters are not zero (C48). -/
example : ∃ s, (politeMachine halving ⟨3, false, false⟩ 4 ⟨0, 10, ()⟩
      [[0], [1], [2], [3], [4], [5]]).Run exampleEvents s ∧
    s.log = [.interest 0 false, .interest 1 false, .interest 2 false, .interest 3 false,
      .incr, .data 1 { content := [1] }, .sample 1, .interest 4 false,
      .decr 3 false, .interest 0 true,
      .incr, .data 0 { content := [0], final := .seg 5 }, .interest 2 true,
      .data 4 { content := [4], congMark := true }, .sample 4, .interest 3 true,
      .incr, .data 2 { content := [2] }, .interest 5 false,
      .decr 5 true, .data 5 { content := [5], congMark := true }, .sample 5,
      .incr, .data 3 { content := [3], final := .seg 5 }, .complete] ∧
    s.nSent = 9 ∧ s.nRetransmitted = 3 ∧ s.nCongMarks = 2 ∧ s.receivedSize = 6 := by
  refine ⟨_, Machine.exec_run (s := ((politeMachine halving ⟨3, false, false⟩ 4 ⟨0, 10, ()⟩
      [[0], [1], [2], [3], [4], [5]]).exec (politeMachine halving ⟨3, false, false⟩ 4 ⟨0, 10, ()⟩
      [[0], [1], [2], [3], [4], [5]]).init exampleEvents).get (by decide)) (Option.some_get _).symm, ?_⟩
  decide

/-- The friendliest environment is a special case of `machine`, `netMachine` and `promptMachine`. -/
example {A : Alg σ ε} {o : Opts} {w : σ} {v : Env ε} {segs es s}
    (h : (politeMachine A o w v segs).Run es s) :
    (machine A o w v).Run es s ∧ (netMachine A o w v segs).Run es s ∧
    (promptMachine A o w v).Run es s := by
  have hfin : ∀ e : Ev ε, ConsistentEv segs e → FinalNotBefore e := by
    intro e he
    cases e with
    | data k p c v =>
      intro n hn
      obtain ⟨h1, h2⟩ := he
      rw [hn] at h2
      simp at h2
      have : k < segs.length := by
        rcases Nat.lt_or_ge k segs.length with h | h
        · exact h
        · rw [List.getElem?_eq_none h] at h1; cases h1
      omega
    | _ => trivial
  induction h with
  | nil => exact ⟨.nil, .nil, .nil⟩
  | snoc e _ he ih =>
    exact ⟨.snoc (M := machine A o w v) e ih.1 he.1,
      .snoc (M := netMachine A o w v segs) e ih.2.1 ⟨he.1, he.2.1⟩,
      .snoc (M := promptMachine A o w v) e ih.2.2 ⟨he.1, he.2.2.1, hfin e he.2.1⟩⟩

/-- The window of `halving` allows at least one segment (C16). -/
example : ∀ w', Reach halving 4 w' → 1 ≤ halving.slots w' := by
  intro w' h
  have : 2 ≤ w' := by
    induction h with
    | init => omega
    | inc e _ ih => exact ih
    | dec e _ ih => simp only [halving]; omega
  simp only [halving]
  omega

/-- A run that stops because of the retry limit 1, and then reports it (C11, C15, C49). -/
example : ∃ s, (politeMachine halving ⟨1, false, false⟩ 4 ⟨0, 10, ()⟩ [[0], [1], [2], [3], [4], [5]]).Run
      [.data 1 { content := [1], final := .seg 5 } false ⟨5, 10, ()⟩, .expire 0 ⟨6, 10, ()⟩,
       .expire 0 ⟨7, 10, ()⟩, .posted] s ∧
    s.log = [.interest 0 false, .interest 1 false, .interest 2 false, .interest 3 false,
      .incr, .data 1 { content := [1], final := .seg 5 }, .sample 1, .interest 4 false,
      .interest 0 true, .failure (.maxRetries 1 0)] := by
  let M := politeMachine halving ⟨1, false, false⟩ 4 ⟨0, 10, ()⟩ [[0], [1], [2], [3], [4], [5]]
  exact ⟨_, Machine.exec_run (M := M) (s := (M.exec M.init
    [.data 1 { content := [1], final := .seg 5 } false ⟨5, 10, ()⟩, .expire 0 ⟨6, 10, ()⟩,
       .expire 0 ⟨7, 10, ()⟩, .posted]).get (by decide)) (Option.some_get _).symm, by decide⟩

/-- The state before the second expiry meets the hypotheses of `C15_limit_fails`. -/
example : ∃ es s, (machine halving ⟨1, false, false⟩ 4 ⟨0, 10, ()⟩).Run es s ∧
    s.isStopping = false ∧ s.threw = none ∧ s.ub = false ∧ s.hasFinalBlockId = true ∧
    (get s.info 0).isSome = true ∧ s.retxQueue = [] ∧ max 1 (1 : Int) ≤ (nRetx s.log 0 : Int) ∧
    s.nInFlight ≤ halving.slots s.win ∧ ¬ (false = true ∨ 0 > s.recPoint) := by
  let M := machine halving ⟨1, false, false⟩ 4 ⟨0, 10, ()⟩
  exact ⟨_, _, Machine.exec_run (M := M) (s := (M.exec M.init
    [.data 1 { content := [1], final := .seg 5 } false ⟨5, 10, ()⟩, .expire 0 ⟨6, 10, ()⟩]).get
      (by decide)) (Option.some_get _).symm, by decide⟩

/-- A run that is cancelled after a fatal Nack and Data (C11), and a fatal Nack reported (C49). -/
example : ∃ s, (machine halving ⟨1, false, false⟩ 2 ⟨0, 10, ()⟩).Run
      [.data 1 { content := [1], final := .seg 5 } false ⟨5, 10, ()⟩, .nack 0 .noRoute ⟨6, 10, ()⟩,
       .cancel, .posted] s ∧
    s.log = [.interest 0 false, .interest 1 false, .incr,
      .data 1 { content := [1], final := .seg 5 }, .sample 1, .interest 2 false,
      .failure (.segNack 0 .noRoute)] := by
  let M := machine halving ⟨1, false, false⟩ 2 ⟨0, 10, ()⟩
  exact ⟨_, Machine.exec_run (M := M) (s := (M.exec M.init
    [.data 1 { content := [1], final := .seg 5 } false ⟨5, 10, ()⟩, .nack 0 .noRoute ⟨6, 10, ()⟩,
       .cancel, .posted]).get (by decide)) (Option.some_get _).symm, by decide⟩

/-- A clean execution with losses (C14, and C47): all four segments expire, two of them are sent
again; the timeout of a segment that is in flight follows. -/
example : ∃ s, (cleanMachine halving ⟨-1, false, false⟩ 4 ⟨0, 10, ()⟩).Run
      [.check [0, 1, 2, 3] ⟨20, 10, ()⟩, .expire 0 ⟨21, 10, ()⟩] s ∧
    s.nInFlight = 2 ∧ s.retxQueue = [3, 0] := by
  let M := cleanMachine halving ⟨-1, false, false⟩ 4 ⟨0, 10, ()⟩
  have r1 := Machine.Run.snoc (M := M) (.check [0, 1, 2, 3] ⟨20, 10, ()⟩) Machine.Run.nil
    ⟨by decide, trivial, trivial⟩
  have r2 := Machine.Run.snoc (M := M) (.expire 0 ⟨21, 10, ()⟩) r1
    ⟨by decide, by decide, by
      intro x hx
      have : get (M.step M.init (.check [0, 1, 2, 3] ⟨20, 10, ()⟩)).info 0 =
        some ⟨20, 10, .retransmitted, true⟩ := by decide
      rw [this] at hx
      cases hx
      decide⟩
  exact ⟨_, r2, by decide, by decide⟩

end Verif.Adaptive
