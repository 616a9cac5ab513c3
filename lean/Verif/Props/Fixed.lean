import Verif.Proofs.FixedNet

/-! # C05 - C11, C46: the fixed-window pipeline -/

namespace Verif.Fixed

open Verif.DataFetcher (Fetcher)

/-- **C05** No segment reaches the data callback twice; a segment reaches it only after an Interest
for it was sent; and Interests for new segments go out in increasing order without gaps. This
holds for every producer, every network and every use of `cancel()`. -/
theorem C05_fixed_once_in_order {N : Nat} {R : Int} {es s} (hN : 0 < N)
    (h : (machine N R).Run es s) :
    (∀ pre k p post, s.log = pre ++ Obs.data k p :: post →
      Obs.interest k ∈ pre ∧ (∀ p', Obs.data k p' ∉ pre) ∧ (∀ p', Obs.data k p' ∉ post)) ∧
    (∀ pre k post, s.log = pre ++ Obs.interest k :: post → ∀ j < k, Obs.interest j ∈ pre) := by
  have hi := (run_inv hN h).core
  refine ⟨?_, hi.order⟩
  intro pre k p post e
  refine ⟨hi.dreq pre k p post e, ?_⟩
  have hnd := hi.rnodup
  have hsplit : received s.log = received pre ++ k :: received post := by
    rw [e]; simp [received]
  rw [hsplit] at hnd
  have hmem : ∀ l p', Obs.data k p' ∈ l → k ∈ received l := by
    intro l p' hm
    simp only [received, List.mem_filterMap]
    exact ⟨_, hm, rfl⟩
  rw [List.nodup_append] at hnd
  obtain ⟨_, hnd2, hnd3⟩ := hnd
  refine ⟨fun p' hm => ?_, fun p' hm => ?_⟩
  · exact hnd3 k (hmem _ _ hm) k (by simp) rfl
  · exact (List.nodup_cons.mp hnd2).1 (hmem _ _ hm)

/-- **C06** At most `maxPipelineSize` segments are being fetched at any time, each by one fetcher,
and none of them has been delivered before. -/
theorem C06_fixed_window {N : Nat} {R : Int} {es s} (hN : 0 < N) (h : (machine N R).Run es s) :
    s.nRunning ≤ N ∧
    (∀ (i j : Nat) f g k, s.slots[i]? = some (some (f, k)) → s.slots[j]? = some (some (g, k)) → i = j) ∧
    (∀ (i : Nat) f k, s.slots[i]? = some (some (f, k)) → f.isRunning = true →
      Obs.interest k ∈ s.log ∧ ∀ p, Obs.data k p ∉ s.log) := by
  have hi := (run_inv hN h).core
  refine ⟨?_, fun i j f g k => hi.uniq i j f g k, ?_⟩
  · unfold St.nRunning
    refine Nat.le_trans List.countP_le_length ?_
    cases hs : s.isStopping with
    | true => simp [hi.stop hs]
    | false => exact Nat.le_of_eq (hi.len hs)
  · intro i f k ha hr
    refine ⟨hi.req i f k ha, fun p hm => hi.live i f k ha (Or.inl hr) ?_⟩
    simp only [received, List.mem_filterMap]
    exact ⟨_, hm, rfl⟩

/-- **C07** Completion. With a consistent producer, when the end of the transfer is announced every
segment was delivered exactly once and with the right content, and nothing happens afterwards: no
Interest, no data callback, no failure callback. -/
theorem C07_fixed_completion {N : Nat} {R : Int} {segs : List Bytes} {es s} (hN : 0 < N)
    (h : (netMachine N R segs).Run es s) {pre post} (e : s.log = pre ++ Obs.complete :: post) :
    (received pre).Perm (List.range segs.length) ∧
    (∀ k p, Obs.data k p ∈ pre → segs[k]? = some p.content) ∧
    post = [] ∧ s.posted = [] := by
  have hi := run_inv hN (net_run h)
  have hh := run_hist (net_run h)
  have hc := net_consistent h
  have hm : Obs.complete ∈ s.log := by rw [e]; simp
  obtain ⟨⟨pre', e', hn'⟩, hp⟩ := net_ends hN h hm
  have hpost : post = [] ∧ pre = pre' := by
    rcases snoc_split (e'.symm.trans e) with ⟨h1, _, h2⟩ | ⟨post', h1, h2⟩
    · exact ⟨h1, h2⟩
    · exfalso; apply hn'; rw [h2]; simp
  obtain ⟨rfl, rfl⟩ := hpost
  obtain ⟨_, hlen, hall⟩ := none_running hi hh hc hm
  have hrec : received s.log = received pre := by rw [e]; simp
  refine ⟨?_, ?_, rfl, hp⟩
  · rw [← hrec]
    have hsub : (List.range segs.length).Subperm (received s.log) :=
      List.Nodup.subperm List.nodup_range (fun x hx => hall x (List.mem_range.mp hx))
    exact (hsub.perm_of_length_le (by simp [hlen])).symm
  · intro k p hk
    exact (hc k p (by rw [e]; simp [hk])).1

/-- **C08** No stall. A pipeline that was neither stopped nor hit by an exception, and has not
announced the end, is fetching some segment, for which an Interest or a timer is outstanding. -/
theorem C08_fixed_no_stall {N : Nat} {R : Int} {es s} (hN : 0 < N) (h : (machine N R).Run es s)
    (h1 : s.isStopping = false) (h2 : s.threw = none) (h3 : Obs.complete ∉ s.log) :
    ∃ (i : Nat) (f : Fetcher) (k : Nat), s.slots[i]? = some (some (f, k)) ∧ f.isRunning = true ∧
      ((f.pending = 1 ∧ f.timer = none) ∨ (f.pending = 0 ∧ ∃ b, f.timer = some b)) := by
  have hi := run_inv hN h
  obtain ⟨i, f, k, ha, hr⟩ := no_stall hi (run_announced h) h1 h2 h3
  refine ⟨i, f, k, ha, hr, ?_⟩
  simpa [Option.isSome_iff_exists] using (hi.core.fet i f k ha).one hr

/-- **C09** Termination. With a finite retry limit `R` and a consistent producer of `L` segments, at
most `3(R+1)(N+L)` events reach a running fetch, whatever the network does; and when that many
have, the pipeline has stopped with an error or announced the end. -/
theorem C09_fixed_terminates {N : Nat} {R : Int} {segs : List Bytes} {es s} (hN : 0 < N) (hR : 0 ≤ R)
    (h : (netMachine N R segs).Run es s) :
    (activeCount (start N R) es : Int) ≤ 3 * (R + 1) * (N + segs.length) ∧
    ((activeCount (start N R) es : Int) = 3 * (R + 1) * (N + segs.length) →
      s.isStopping = true ∨ Obs.complete ∈ s.log) := by
  have h1 := net_count hN hR h
  have h2 := start_phi (N := N) (R := R) segs.length
  have hfull : (full R : Int) = 3 * (R + 1) := by unfold full; omega
  have h3 : ((full R * (N + segs.length) : Nat) : Int) = 3 * (R + 1) * (N + segs.length) := by
    push_cast
    rw [hfull]
  refine ⟨by omega, ?_⟩
  intro heq
  by_contra hc
  simp only [not_or, Bool.not_eq_true] at hc
  obtain ⟨i, f, k, ha, hr⟩ := no_stall (run_inv hN (net_run h)) (run_announced (net_run h)) hc.1
    (net_threw hN h) hc.2
  have h4 := phi_running hR ((run_inv hN (net_run h)).core.fet i f k ha) hr
  have h5 := slotSum_pos (R := R) ha
  have h6 : slotSum R s.slots ≤ Phi R segs.length s := by unfold Phi; omega
  omega

/-- **C10 (refuted)** A failed request for a segment beyond the end makes the whole transfer fail:
pipeline size 3, no retries, an object of two segments. The Interest for the non-existent segment
2 times out, then segment 0 arrives and announces that segment 1 is the last one; the pipeline
fails although segment 1 would still arrive. -/
theorem C10_beyond_end_not_harmless : ¬ BeyondEndHarmless 3 0 [[1], [2]] := by
  intro h
  let M := beyondEndMachine 3 0 [[1], [2]]
  let s0 := M.init
  let e1 : Ev := .timeout 2
  let e2 : Ev := .data 0 ⟨[1], .seg 1, false, false, true⟩ false
  let e3 : Ev := .posted
  have r1 : M.Run [e1] (M.step s0 e1) := by
    refine Machine.Run.snoc (M := M) (es := []) e1 Machine.Run.nil ⟨by decide, trivial, ?_, by simp [e1], by simp [e1]⟩
    intro _ i f k hi ha
    simp only [e1, Ev.pipe, Option.some.injEq] at hi
    subst hi
    have : (M.init).slots[2]? = some (some ((DataFetcher.fetch 0 0).1, 2)) := by decide
    rw [this] at ha
    simp at ha
    simp [← ha.2]
  have r2 : M.Run [e1, e2] (M.step (M.step s0 e1) e2) := by
    refine Machine.Run.snoc (M := M) e2 r1 ⟨by decide, ?_, by simp [e2, Ev.isLoss], by simp [e2], by simp [e2]⟩
    intro f k ha
    have : (M.step s0 e1).slots[0]? = some (some ((DataFetcher.fetch 0 0).1, 0)) := by decide
    rw [this] at ha
    simp at ha
    rw [← ha.2]
    exact ⟨rfl, Or.inr rfl⟩
  have r3 : M.Run [e1, e2, e3] (M.step (M.step (M.step s0 e1) e2) e3) :=
    Machine.Run.snoc (M := M) e3 r2 ⟨by decide, trivial, by simp [e3, Ev.isLoss], by simp [e3], by simp [e3]⟩
  exact h _ _ r3 .noFinal (by decide)

/-- **C10 (what does hold)** If Nacks and timeouts hit only segments beyond the end, and only after
some Data with a FinalBlockId was delivered, then the pipeline never fails or stops. Missing from
the claim C10: failures that arrive while the final segment number is unknown, see
`C10_beyond_end_not_harmless`. -/
theorem C10_late_loss_harmless_partial {N : Nat} {R : Int} {segs : List Bytes} {es s} (hN : 0 < N)
    (h : (lateLossMachine N R segs).Run es s) :
    s.isStopping = false ∧ s.posted = [] ∧ ∀ m, Obs.failure m ∉ s.log := by
  have := late_good hN h
  exact ⟨this.stop, this.posted, this.log⟩

/-- **C11 (fixed pipeline)** The failure callback is called at most once and nothing follows it. After
`cancel()` nothing but an already posted failure callback becomes visible; and if `cancel()` was
what stopped the pipeline, nothing at all does. -/
theorem C11_fixed_one_failure {N : Nat} {R : Int} {es s} (hN : 0 < N) (h : (machine N R).Run es s) :
    s.log.countP Obs.isFailure ≤ 1 ∧
    (∀ pre m post, s.log = pre ++ Obs.failure m :: post → post = []) ∧
    (∀ es' s', (machine N R).RunFrom s es' s' →
      (Ev.cancel ∈ es ∨ ∃ m, Obs.failure m ∈ s.log) →
      ∃ l, s'.log = s.log ++ l ∧ ∀ o ∈ l, ∃ m, o = Obs.failure m) ∧
    (∀ es' s', s.isStopping = false → (machine N R).RunFrom (s.step .cancel) es' s' →
      s'.log = s.log) := by
  have hfail : ∀ o : Obs, o.isFailure = true → ∃ m, o = Obs.failure m := by
    intro o ho; cases o <;> simp_all [Obs.isFailure]
  refine ⟨?_, ?_, ?_, ?_⟩
  · have := (run_hist h).once; omega
  · intro pre m post e
    induction h generalizing pre post with
    | nil =>
      exfalso
      have hq := ((hist_start N R).quiet ((good_start N R).stop)).2 m
      simp only [machine] at e
      rw [e] at hq
      simp at hq
    | @snoc es0 s0 ev hr he ih =>
      by_cases hm : Obs.failure m ∈ s0.log
      · have hf := frozen_of_failure (run_hist hr) hm
        obtain ⟨_, ⟨l, e2, hl⟩, _⟩ := frozen_run hN hr hf
          (Machine.RunFrom.snoc (M := machine N R) ev Machine.RunFrom.nil he)
        have hcnt := (run_hist (Machine.Run.snoc (M := machine N R) ev hr he)).once
        obtain ⟨a, b, hab⟩ := List.append_of_mem hm
        have hb := ih a b hab
        subst hb
        have hlnil : l = [] := by
          cases l with
          | nil => rfl
          | cons o rest =>
            exfalso
            obtain ⟨m', hm'⟩ := hfail o (hl o (by simp))
            rw [e2, hab] at hcnt
            simp [List.countP_append, List.countP_cons, hm', Obs.isFailure] at hcnt
            omega
        subst hlnil
        rw [List.append_nil] at e2
        rw [e2] at e
        exact ih pre post e
      · have hst : s0.isStopping = true ∨ s0.isStopping = false := by cases s0.isStopping <;> simp
        -- the failure callback was called by this very event
        have key : ∀ ev, (∃ i e' p c, s0.step ev = s0.fetcherEvent i e' p c) →
            Obs.failure m ∉ (s0.step ev).log := by
          rintro ev ⟨i, e', p, c, heq⟩
          rw [heq]
          exact fetcherEvent_failure hm
        simp only [machine] at e
        have hcontra : ∀ ev, (∃ i e' p c, s0.step ev = s0.fetcherEvent i e' p c) →
            (s0.step ev).log = pre ++ Obs.failure m :: post → post = [] := by
          intro ev h1 h2
          exact absurd (by rw [h2]; simp) (key ev h1)
        by_cases hx : (s0.threw.isSome || s0.ub) = true
        · exfalso
          simp only [St.step, hx, if_true] at e
          apply hm; rw [e]; simp
        cases ev with
        | data i p c => exact hcontra _ ⟨i, _, _, _, by simp only [St.step]; rw [if_neg hx]⟩ e
        | nack i r => exact hcontra _ ⟨i, _, _, _, by simp only [St.step]; rw [if_neg hx]⟩ e
        | timeout i => exact hcontra _ ⟨i, _, _, _, by simp only [St.step]; rw [if_neg hx]⟩ e
        | timer i => exact hcontra _ ⟨i, _, _, _, by simp only [St.step]; rw [if_neg hx]⟩ e
        | cancel =>
          exfalso
          apply hm
          simp only [St.step] at e
          rw [if_neg hx] at e
          have : s0.cancel.log = s0.log := by unfold St.cancel; split <;> rfl
          rw [← this, e]; simp
        | posted =>
          simp only [St.step] at e
          rw [if_neg hx] at e
          cases hpo : s0.posted with
          | nil => rw [hpo] at e; dsimp only at e; exfalso; apply hm; rw [e]; simp
          | cons m' rest =>
            rw [hpo] at e
            simp only [St.emit] at e
            rcases snoc_split e with ⟨h1, _, _⟩ | ⟨post', _, h2⟩
            · exact h1
            · exfalso; apply hm; rw [h2]; simp
  · intro es' s' h' hc
    have hf : Frozen s := by
      rcases hc with hc | ⟨m, hm⟩
      · exact frozen_of_cancel hN h hc
      · exact frozen_of_failure (run_hist h) hm
    obtain ⟨_, ⟨l, e, hl⟩, _⟩ := frozen_run hN h hf h'
    exact ⟨l, e, fun o ho => hfail o (hl o ho)⟩
  · intro es' s' hst h'
    have hr := Machine.Run.snoc (M := machine N R) Ev.cancel h trivial
    have hp : (s.step .cancel).posted = [] ∧ (s.step .cancel).log = s.log := by
      have := (run_hist h).quiet hst
      unfold St.step St.cancel
      split
      · exact ⟨this.1, rfl⟩
      · dsimp only
        split <;> exact ⟨this.1, rfl⟩
    obtain ⟨_, _, h3⟩ := frozen_run hN hr step_frozen_of_cancel h'
    exact (h3 hp.1).2.trans hp.2

/-- **C46 (fixed pipeline)** Whatever the data callback does - in particular when it calls
`cancel()` on the pipeline that is invoking it - no out-of-range access happens and no assertion
fails. After a data callback that cancelled, the only further visible effect of that event can be
the announcement of the end, and the pipeline is stopped. -/
theorem C46_fixed_cancel_in_callback {N : Nat} {R : Int} {es s} (hN : 0 < N)
    (h : (machine N R).Run es s) :
    s.ub = false ∧ s.assertFailed = false ∧
    ∀ (i : Nat) f k p, s.slots[i]? = some (some (f, k)) → f.isRunning = true → 0 < f.pending →
      s.threw = none →
      (s.step (.data i p true)).isStopping = true ∧
      ((s.step (.data i p true)).log = s.log ++ [.data k p] ∨
       (s.step (.data i p true)).log = s.log ++ [.data k p, .complete]) := by
  have hi := (run_inv hN h).core
  refine ⟨hi.noub, hi.noassert, ?_⟩
  intro i f k p ha hr hpend hth
  have hns := not_stopping hi ha
  obtain ⟨_, hE⟩ := DataFetcher.step_running (hi.fet i f k ha) hr (e := .data) hpend
  have hst : s.step (.data i p true) = s.fetcherEvent i .data p true := by
    simp [St.step, hth, hi.noub]
  rw [hst]
  unfold St.fetcherEvent
  rw [ha]
  dsimp only
  generalize (f.step .data).1 = f' at *
  generalize (f.step .data).2 = outs at *
  cases hE
  simp only [List.foldl_cons, List.foldl_nil, St.react, St.handleData]
  rw [if_neg (by simp [hns])]
  exact afterOnData_cancelled hns

/-! ## Concrete cases -/

/-- Object of three segments, pipeline size 2: segment 1 arrives first, segment 0 announces the
last segment number, one timeout, segment 2 completes the transfer. -/
def exampleEvents : List Ev :=
  [.data 1 ⟨[2], .absent, false, false, true⟩ false, .timeout 1,
   .data 0 ⟨[1], .seg 2, false, false, true⟩ false, .data 1 ⟨[3], .seg 2, false, false, true⟩ false]

/-- The example is an execution and ends with the announcement; C05 - C09, C11 apply to it. -/
example : ∃ s, (machine 2 1).Run exampleEvents s ∧
    s.log = [.interest 0, .interest 1, .data 1 ⟨[2], .absent, false, false, true⟩, .interest 2,
      .interest 2, .data 0 ⟨[1], .seg 2, false, false, true⟩,
      .data 2 ⟨[3], .seg 2, false, false, true⟩, .complete] := by
  refine ⟨_, Machine.exec_run (s := ((machine 2 1).exec (machine 2 1).init exampleEvents).get (by decide))
    (by simp), by decide⟩

/-- It is also an execution with a consistent producer: the hypotheses of C07 and C09. -/
example : ∃ s, (netMachine 2 1 [[1], [2], [3]]).Run exampleEvents s ∧ Obs.complete ∈ s.log := by
  let M := netMachine 2 1 [[1], [2], [3]]
  have key : ∀ (s : St) (i : Nat) p c f k, s.slots[i]? = some (some (f, k)) → Consistent [[1], [2], [3]] k p →
      ConsistentEv [[1], [2], [3]] s (.data i p c) := by
    intro s i p c f k h1 h2 f' k' h3
    rw [h1] at h3; simp at h3; rw [← h3.2]; exact h2
  have r1 := Machine.Run.snoc (M := M) (.data 1 ⟨[2], .absent, false, false, true⟩ false) Machine.Run.nil
    ⟨by decide, key _ _ _ _ (DataFetcher.fetch 1 1).1 1 (by decide) (by decide)⟩
  have r2 := Machine.Run.snoc (M := M) (.timeout 1) r1 ⟨by decide, trivial⟩
  have r3 := Machine.Run.snoc (M := M) (.data 0 ⟨[1], .seg 2, false, false, true⟩ false) r2
    ⟨by decide, key _ _ _ _ (DataFetcher.fetch 1 1).1 0 (by decide) (by decide)⟩
  have r4 := Machine.Run.snoc (M := M) (.data 1 ⟨[3], .seg 2, false, false, true⟩ false) r3
    ⟨by decide, key _ _ _ _ ((DataFetcher.fetch 1 1).1.step .timeout).1 2 (by decide) (by decide)⟩
  exact ⟨_, r4, by decide⟩

/-- A run with a failure callback, then silence (C11): a fatal Nack for segment 0 with nothing else
in flight below it. -/
example : ∃ s, (machine 2 1).Run [.nack 0 .noRoute, .posted, .cancel] s ∧
    s.log = [.interest 0, .interest 1, .failure .noFinal] := by
  refine ⟨_, Machine.exec_run (s := ((machine 2 1).exec (machine 2 1).init
    [.nack 0 .noRoute, .posted, .cancel]).get (by decide)) (by simp), by decide⟩

/-- A run in which the data callback cancels (C46). -/
example : ∃ s, (machine 2 1).Run [.data 1 ⟨[2], .absent, false, false, true⟩ true] s ∧
    s.isStopping = true := by
  refine ⟨_, Machine.exec_run (s := ((machine 2 1).exec (machine 2 1).init
    [.data 1 ⟨[2], .absent, false, false, true⟩ true]).get (by decide)) (by simp), by decide⟩

/-- The hypothesis of `C10_late_loss_harmless_partial` allows losses: two existing segments,
pipeline size 3, segment 1 arrives with the FinalBlockId, and then the Interest for segment 2
times out. -/
example : ∃ s, (lateLossMachine 3 0 [[1], [2]]).Run
    [.data 1 ⟨[2], .seg 1, false, false, true⟩ false, .timeout 2] s := by
  let M := lateLossMachine 3 0 [[1], [2]]
  have r1 := Machine.Run.snoc (M := M) (.data 1 ⟨[2], .seg 1, false, false, true⟩ false) Machine.Run.nil
    ⟨by decide, by
      intro f k ha
      have : (M.init).slots[1]? = some (some ((DataFetcher.fetch 0 0).1, 1)) := by decide
      rw [this] at ha
      simp at ha
      rw [← ha.2]
      exact ⟨rfl, Or.inr rfl⟩, ⟨by simp [Ev.isLoss], by simp, by simp⟩, by simp [Ev.isLoss]⟩
  have r2 := Machine.Run.snoc (M := M) (.timeout 2) r1
    ⟨by decide, trivial, ⟨by
      intro _ i f k hi ha
      simp only [Ev.pipe, Option.some.injEq] at hi
      subst hi
      have : (M.step M.init (.data 1 ⟨[2], .seg 1, false, false, true⟩ false)).slots[2]? =
        some (some ((DataFetcher.fetch 0 0).1.cancel, 2)) := by decide
      rw [this] at ha
      simp at ha
      simp [← ha.2], by simp, by simp⟩, fun _ => ⟨1, ⟨[2], .seg 1, false, false, true⟩, by decide, by decide⟩⟩
  exact ⟨_, r2⟩

end Verif.Fixed
