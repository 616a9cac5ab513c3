import Verif.Proofs.AdaptiveMore

/-! # C18 (converse), C50 - C52: more about the adaptive pipelines -/

namespace Verif.Adaptive

variable {σ ε : Type}

private theorem notClean {o : Opts} : Allow.all.clean → o.maxRetries = -1 := fun h => False.elim h

/-- **C18 (converse)** When a segment is delivered for which no Interest was repeated, an RTT sample is
taken right away. -/
theorem C18_sampled {A : Alg σ ε} {o : Opts} {w : σ} {v : Env ε} {es s}
    (h : (machine A o w v).Run es s) (hu : s.ub = false) {pre k p post}
    (e : s.log = pre ++ Obs.data k p :: post) (hn : Obs.interest k true ∉ pre) :
    ∃ post', post = Obs.sample k :: post' :=
  (run_samp notClean (run_all h)).smp hu pre k p post e hn

/-- Beside `C18_sampled`: segment 1 is delivered at once, segment 0 after a retransmission. -/
example : ∃ s, (machine halving ⟨3, false, false⟩ 2 ⟨0, 10, ()⟩).Run
      [.data 1 { content := [1] } false ⟨5, 10, ()⟩, .expire 0 ⟨6, 10, ()⟩,
       .data 0 { content := [0] } false ⟨7, 10, ()⟩] s ∧ s.ub = false ∧
    s.log = [.interest 0 false, .interest 1 false] ++ .incr :: .data 1 { content := [1] } ::
      [.sample 1, .interest 2 false, .interest 0 true, .incr, .data 0 { content := [0] },
       .interest 3 false] := by
  let M := machine halving ⟨3, false, false⟩ 2 ⟨0, 10, ()⟩
  exact ⟨_, Machine.exec_run (M := M) (s := (M.exec M.init
    [.data 1 { content := [1] } false ⟨5, 10, ()⟩, .expire 0 ⟨6, 10, ()⟩,
       .data 0 { content := [0] } false ⟨7, 10, ()⟩]).get (by decide)) (Option.some_get _).symm, by decide⟩

/-! ## C50: failures beyond the end -/

private theorem beyond_run {A : Alg σ ε} {o : Opts} {w : σ} {v : Env ε} {segs es s}
    (h : (beyondMachine A o w v segs).Run es s) :
    ARun A o w v ⟨fun k p => Consistent segs k p ∧ (k + 1 = segs.length → p.final ≠ .absent), True, True, False,
      fun k r => r = .duplicate ∨ r = .congestion ∨ segs.length ≤ k⟩ es s := by
  refine arun_of h (fun _ _ he => he.1) ?_
  intro s e _ he
  refine ⟨?_, fun _ _ _ => trivial, fun h => h.elim, ?_⟩
  · rintro k p c v rfl
    exact ⟨⟨he.2.1, he.2.2⟩, fun _ => trivial⟩
  · rintro k r v rfl
    exact he.2.2

/-- **C50 (no report)** The object exists and its last segment announces itself, there is no limit on
retransmissions, and Nacks that are not answered by a retransmission hit only segments that do not
exist. Then the failure callback is never called, nor scheduled. -/
theorem C50_beyond_end_no_failure_partial {A : Alg σ ε} {o : Opts} {w : σ} {v : Env ε} {segs : List Bytes} {es s}
    (hsegs : segs ≠ []) (hR : o.maxRetries = -1) (h : (beyondMachine A o w v segs).Run es s) :
    s.posted = [] ∧ ∀ m, Obs.failure m ∉ s.log := by
  refine (run_harm hsegs (fun _ => hR) (Or.inl hR) ?_ ?_ (beyond_run h)).quiet
  · exact fun k p hp => hp
  · rintro k r (hk | hk | hk) h1 h2
    · exact absurd hk h1
    · exact absurd hk h2
    · exact hk

/-- The events of the stall below. Window 4, object of two segments. Segment 0 arrives (4 is requested),
the Interest for segment 1 expires, which halves the window so that the retransmission has to wait;
a Nack arrives for segment 2, which does not exist. -/
def beyondStall : List (Ev Unit) :=
  [.data 0 { content := [1] } false ⟨5, 10, ()⟩, .expire 1 ⟨6, 10, ()⟩, .nack 2 .noRoute ⟨7, 10, ()⟩]

/-- **C50 (refuted: the transfer stalls)** A Nack for a segment that does not exist cancels the Interests
for all later segments without scheduling anything, although segment 1, which does exist, waits for its
retransmission and the window is empty. From then on nothing happens, ever: no Interest, no
Data, no failure. -/
theorem C50_beyond_end_stalls : ∃ s,
    (politeBeyondMachine halving ⟨-1, false, false⟩ 4 ⟨0, 10, ()⟩ [[1], [2]]).Run beyondStall s ∧
    s.isStopping = false ∧ s.threw = none ∧ s.retxQueue = [1] ∧ inFlight s.info = 0 ∧
    s.nInFlight < halving.slots s.win ∧
    ∀ es' s', (politeBeyondMachine halving ⟨-1, false, false⟩ 4 ⟨0, 10, ()⟩ [[1], [2]]).RunFrom s es' s' →
      s'.log = s.log ∧ s'.isStopping = false ∧ s'.posted = [] := by
  let M := politeBeyondMachine halving ⟨-1, false, false⟩ 4 ⟨0, 10, ()⟩ [[1], [2]]
  have r : M.Run beyondStall ((M.exec M.init beyondStall).get (by decide)) :=
    Machine.exec_run (M := M) (Option.some_get _).symm
  refine ⟨_, r, by decide, by decide, by decide, by decide, by decide, ?_⟩
  intro es' s' h'
  generalize hs0 : (M.exec M.init beyondStall).get (by decide) = s0 at h' r
  have hinfo : s0.info = [(1, ⟨0, 10, .inRetxQueue, false⟩)] := by subst hs0; decide
  have h0 : s0.isStopping = false ∧ s0.posted = [] := by subst hs0; decide
  have : s'.log = s0.log ∧ s'.isStopping = false ∧ s'.posted = [] ∧
      s'.info = [(1, ⟨0, 10, .inRetxQueue, false⟩)] := by
    refine Machine.RunFrom.invariant (P := fun s' : St Nat => s'.log = s0.log ∧
      s'.isStopping = false ∧ s'.posted = [] ∧ s'.info = [(1, ⟨0, 10, .inRetxQueue, false⟩)])
      ⟨rfl, h0.1, h0.2, hinfo⟩ ?_ h'
    rintro s1 e1 ⟨g1, g2, g3, g4⟩ ⟨he, _, _, hp, hc⟩
    dsimp only [politeBeyondMachine]
    have hno : ∀ k, ¬ waitsFor s1 k := by
      rintro k ⟨x, hx, hx1⟩
      rw [g4] at hx
      simp only [get, List.find?_cons, List.find?_nil] at hx
      split at hx
      · simp at hx; rw [← hx] at hx1; simp at hx1
      · simp at hx
    unfold St.step
    split
    · exact ⟨g1, g2, g3, g4⟩
    cases e1 with
    | data k p c v => exact absurd hp (hno k)
    | nack k r v => exact absurd hp (hno k)
    | expire k v => exact absurd hp (hno k)
    | check order v =>
      have ho : order = [1] := by
        have := he.2; rw [g4] at this; simpa using this
      subst ho
      simp [St.checkRto, g2, St.expired, St.checkOne, g1, g3, g4, get]
    | cancel => exact absurd hc (fun h => h)
    | posted => exact absurd g3 he
  exact ⟨this.1, this.2.1, this.2.2.1⟩

/-- Beside `C50_beyond_end_no_failure_partial`: in the friendlier environment with three segments in
flight, a Nack for segment 2, which does not exist, is followed by the completion. -/
example : ∃ s, (politeBeyondMachine halving ⟨-1, false, false⟩ 3 ⟨0, 10, ()⟩ [[1], [2]]).Run
      [.nack 2 .noRoute ⟨5, 10, ()⟩, .data 0 { content := [1] } false ⟨6, 10, ()⟩,
       .data 1 { content := [2], final := .seg 1 } false ⟨7, 10, ()⟩] s ∧
    Obs.complete ∈ s.log := by
  let M := politeBeyondMachine halving ⟨-1, false, false⟩ 3 ⟨0, 10, ()⟩ [[1], [2]]
  exact ⟨_, Machine.exec_run (M := M) (s := (M.exec M.init
    [.nack 2 .noRoute ⟨5, 10, ()⟩, .data 0 { content := [1] } false ⟨6, 10, ()⟩,
       .data 1 { content := [2], final := .seg 1 } false ⟨7, 10, ()⟩]).get (by decide))
       (Option.some_get _).symm, by decide⟩

/-- The friendlier environment is a special case. -/
example {A : Alg σ ε} {o : Opts} {w : σ} {v : Env ε} {segs es s}
    (h : (politeBeyondMachine A o w v segs).Run es s) : (beyondMachine A o w v segs).Run es s := by
  induction h with
  | nil => exact .nil
  | snoc e _ he ih => exact .snoc (M := beyondMachine A o w v segs) e ih ⟨he.1, he.2.1, he.2.2.1⟩

/-! ## C51: retransmissions have causes -/

/-- **C51** An Interest for segment `k` is repeated at most as often as the loss of an Interest for `k`
was indicated: by the expiry of its lifetime, by a congestion Nack, or by an RTO check that found
it in flight for longer than its RTO. -/
theorem C51_retransmissions_caused {A : Alg σ ε} {o : Opts} {w : σ} {v : Env ε} {es s}
    (h : (machine A o w v).Run es s) (k : Nat) :
    nRetx s.log k ≤ lossCount A o k (start A o w v) es :=
  Nat.le_trans (Nat.le_add_right _ _) (run_repeats k h).2

/-- Beside `C51_retransmissions_caused`: segment 0 is late at the first check, is sent again, is not yet
late at the second check, and expires. Two losses, two retransmissions. -/
example :
    let es : List (Ev Unit) := [.check [0, 1] ⟨11, 10, ()⟩, .check [0, 1] ⟨20, 10, ()⟩, .expire 0 ⟨21, 10, ()⟩]
    ∃ s, (machine halving ⟨3, false, false⟩ 2 ⟨0, 10, ()⟩).Run es s ∧ nRetx s.log 0 = 2 ∧
      lossCount halving ⟨3, false, false⟩ 0 (start halving ⟨3, false, false⟩ 2 ⟨0, 10, ()⟩) es = 2 := by
  let M := machine halving ⟨3, false, false⟩ 2 ⟨0, 10, ()⟩
  exact ⟨_, Machine.exec_run (M := M) (s := (M.exec M.init
    [.check [0, 1] ⟨11, 10, ()⟩, .check [0, 1] ⟨20, 10, ()⟩, .expire 0 ⟨21, 10, ()⟩]).get (by decide))
       (Option.some_get _).symm, by decide⟩

/-! ## C52: the window reacts to losses -/

private theorem react_lossOf {A : Alg σ ε} {o : Opts} {v : Env ε} {s : St σ} {k : Nat}
    (ht : s.threw = none) (hi : (get s.info k).isSome = true) (hk : o.disableCwa = true ∨ k > s.recPoint) :
    (s.lossOf A o v k).win = A.dec s.win v.win ∧
    ∃ l, (s.lossOf A o v k).log = s.log ++ Obs.decr k false :: l := by
  obtain ⟨x, hx⟩ := Option.isSome_iff_exists.mp hi
  unfold St.lossOf
  dsimp only
  have h1 : (s.enqueueForRetransmission k).threw = none := by
    unfold St.enqueueForRetransmission; dsimp only; rw [hx]; exact ht
  obtain ⟨f1, f2, f3, f4, f5, f6, f7, f8, f9, f10, f11, f12, f13, -⟩ := enqueue_fields s k
  rw [if_neg (by simp [h1])]
  have hw := (schedulePackets_window A o v ((s.enqueueForRetransmission k).recordTimeout A o v k)).1
  obtain ⟨l, hl, _⟩ := schedulePackets_log A o v ((s.enqueueForRetransmission k).recordTimeout A o v k)
  have hwin : (s.enqueueForRetransmission k).win = s.win := by
    unfold St.enqueueForRetransmission; dsimp only; rw [hx]
  have hr : (o.disableCwa || decide (k > (s.enqueueForRetransmission k).recPoint)) = true := by
    rw [f12]; simpa using hk
  unfold St.recordTimeout at hw hl ⊢
  rw [if_pos hr] at hw hl ⊢
  refine ⟨hw.trans (by simp only [hwin]), l, hl.trans ?_⟩
  simp only [f8, List.append_assoc, List.singleton_append]

/-- **C52 (what does hold)** Segment `k`, other than segment 0, is tracked, and either it was requested
for the first time after the latest decrease of the window, or conservative window adaptation is
disabled. When the Interest for `k` expires, or a congestion Nack for it arrives, the window is
decreased. Missing from the claim C52: segment 0, see `C52_segment0_ignored`. -/
theorem C52_loss_decreases_partial {A : Alg σ ε} {o : Opts} {w : σ} {v : Env ε} {es s}
    (h : (machine A o w v).Run es s) (h1 : s.isStopping = false) (h2 : s.threw = none) (h3 : s.ub = false)
    {k : Nat} (hi : (get s.info k).isSome = true)
    (hk : o.disableCwa = true ∨ (k ≠ 0 ∧ ∀ pre j b post, s.log = pre ++ Obs.decr j b :: post →
      Obs.interest k false ∉ pre)) (v' : Env ε) {e : Ev ε}
    (he : e = .expire k v' ∨ e = .nack k .congestion v') :
    (s.step A o e).win = A.dec s.win v'.win ∧
    ∃ l, (s.step A o e).log = s.log ++ Obs.decr k false :: l := by
  have hrp : o.disableCwa = true ∨ k > s.recPoint := by
    rcases hk with hk | ⟨hk0, hk⟩
    · exact Or.inl hk
    · right
      rcases (run_rpoint notClean (run_all h)).rp with hr | ⟨pre, j, b, post, e, hr⟩
      · omega
      · by_contra hc
        apply hk pre j b post e
        obtain ⟨a, c, e2⟩ := List.append_of_mem hr
        rcases Nat.lt_or_eq_of_le (Nat.le_of_not_lt hc) with hlt | heq
        · have := ((run_core notClean (run_all h)).order a s.recPoint (c ++ Obs.decr j b :: post)
            (by rw [e, e2]; simp)).1 k hlt
          rw [e2]; exact List.mem_append_left _ this
        · rw [heq]; exact hr
  have hi' : (get (s.called k).info k).isSome = true := by
    cases hg : get (s.called k).info k with
    | none => rw [get_called_none.mp hg] at hi; cases hi
    | some x => rfl
  unfold St.step
  rw [if_neg (by simp [h2, h3])]
  rcases he with rfl | rfl
  · dsimp only
    unfold St.handleLifetimeExpiration
    rw [if_neg (by simp [St.called, h1])]
    exact react_lossOf (s := { s.called k with nTimeouts := (s.called k).nTimeouts + 1 }) h2 hi' hrp
  · dsimp only
    unfold St.handleNack
    rw [if_neg (by simp [St.called, h1])]
    exact react_lossOf (s := s.called k) h2 hi' hrp

/-- **C52 (refuted for segment 0)** With conservative window adaptation the expiry of the Interest for
segment 0, and a congestion Nack for it, never decrease the window, whatever happened before. -/
theorem C52_segment0_ignored {A : Alg σ ε} {o : Opts} (s : St σ) (ho : o.disableCwa = false) (v' : Env ε) {e : Ev ε}
    (he : e = .expire 0 v' ∨ e = .nack 0 .congestion v') :
    (s.step A o e).win = s.win := by
  have key : ∀ t : St σ, (t.lossOf A o v' 0).win = t.win := by
    intro t
    have hw : (t.enqueueForRetransmission 0).win = t.win := by
      unfold St.enqueueForRetransmission; dsimp only; split <;> rfl
    unfold St.lossOf
    dsimp only
    split
    · exact hw
    · rw [(schedulePackets_window A o v' _).1]
      unfold St.recordTimeout
      rw [if_neg (by simp [ho])]
      exact hw
  unfold St.step
  split
  · rfl
  rcases he with rfl | rfl
  · dsimp only
    unfold St.handleLifetimeExpiration
    split
    · rfl
    · rw [key]; rfl
  · dsimp only
    unfold St.handleNack
    split
    · rfl
    · dsimp only; rw [key]; rfl

/-- Beside `C52_loss_decreases_partial`: after a decrease caused by segment 1 the window decreases again
for segment 4, which was requested after it. -/
example : ∃ s, (machine halving ⟨3, false, false⟩ 4 ⟨0, 10, ()⟩).Run
      [.expire 1 ⟨5, 10, ()⟩, .data 0 { content := [0] } false ⟨6, 10, ()⟩,
       .data 2 { content := [0] } false ⟨6, 10, ()⟩, .data 3 { content := [0] } false ⟨6, 10, ()⟩] s ∧
    s.isStopping = false ∧ s.threw = none ∧ s.ub = false ∧ (get s.info 4).isSome = true ∧
    s.log = [.interest 0 false, .interest 1 false, .interest 2 false, .interest 3 false, .decr 1 false,
      .incr, .data 0 { content := [0] }, .sample 0, .incr, .data 2 { content := [0] }, .sample 2,
      .interest 1 true, .incr, .data 3 { content := [0] }, .sample 3, .interest 4 false] := by
  let M := machine halving ⟨3, false, false⟩ 4 ⟨0, 10, ()⟩
  exact ⟨_, Machine.exec_run (M := M) (s := (M.exec M.init
    [.expire 1 ⟨5, 10, ()⟩, .data 0 { content := [0] } false ⟨6, 10, ()⟩,
       .data 2 { content := [0] } false ⟨6, 10, ()⟩, .data 3 { content := [0] } false ⟨6, 10, ()⟩]).get (by decide))
       (Option.some_get _).symm, by decide⟩

/-- Beside `C52_segment0_ignored`: segment 0 is in flight and expires; it is sent again and the window
stays. -/
example :
    let s := start halving ⟨3, false, false⟩ 4 ⟨0, 10, ()⟩
    let s' := s.step halving ⟨3, false, false⟩ (.expire 0 ⟨5, 10, ()⟩)
    (get s.info 0).isSome = true ∧ s'.log = s.log ++ [.interest 0 true] ∧ s'.win = 4 := by
  decide

end Verif.Adaptive
