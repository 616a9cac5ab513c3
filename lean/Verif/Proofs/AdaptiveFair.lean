import Verif.Proofs.AdaptiveMore

/-! # The adaptive pipeline over a network that does not lose too much: nothing fails -/

namespace Verif.Adaptive

set_option linter.unusedSimpArgs false

variable {σ ε : Type}

/-! ## Demands for retransmission -/

/-- Demands for a retransmission of segment `k`, answered or still waiting in the queue. -/
def demand (s : St σ) (k : Nat) : Nat := s.retxCount k + s.retxQueue.count k

theorem demand_congr {s t : St σ} (h1 : t.retxCount = s.retxCount) (h2 : t.retxQueue = s.retxQueue) (k : Nat) :
    demand t k = demand s k := by simp only [demand, h1, h2]

theorem demand_onFailure (s : St σ) (m : FailMsg) (k : Nat) : demand (s.onFailure m) k = demand s k := by
  unfold St.onFailure St.cancel
  split
  · rfl
  · exact demand_congr rfl rfl k

theorem demand_handleFail (s : St σ) (j : Nat) (m : FailMsg) (k : Nat) :
    demand (s.handleFail j m) k = demand s k := by
  unfold St.handleFail
  split
  · rfl
  split
  · exact demand_onFailure ..
  split
  · dsimp only
    split
    · rw [demand_onFailure]; exact demand_congr rfl rfl k
    · exact demand_congr rfl rfl k
  · rfl

theorem demand_send {o : Opts} {v : Env ε} (s : St σ) (j : Nat) (b : Bool) (k : Nat) :
    demand (s.sendInterest o v j b) k ≤ demand s k + if j = k ∧ b = true then 1 else 0 := by
  have hb : ∀ (f : Nat → Nat), f = (fun i => if i = j then s.retxCount j + 1 else s.retxCount i) →
      f k ≤ s.retxCount k + if j = k then 1 else 0 := by
    rintro f rfl
    dsimp only
    by_cases h : k = j
    · subst h; simp
    · rw [if_neg h]; omega
  unfold St.sendInterest
  split
  · omega
  split
  · omega
  split
  · omega
  split
  · rename_i hbt
    simp only [hbt, and_true]
    unfold St.sendAgain
    dsimp only
    have := hb _ rfl
    split
    · rw [demand_handleFail]
      simp only [demand]
      omega
    · simp only [demand, St.transmit]
      omega
  · exact Nat.le_add_right (demand s k) _

theorem demand_schedRetx {o : Opts} {v : Env ε} (k : Nat) : ∀ (q : List Nat) (n : Nat) (s : St σ),
    s.retxQueue = q → demand (St.schedRetx o v q n s).1 k ≤ demand s k
  | q, 0, s, _ => by unfold St.schedRetx; exact Nat.le_refl _
  | [], n + 1, s, _ => by unfold St.schedRetx; exact Nat.le_refl _
  | j :: q, n + 1, s, hq => by
    unfold St.schedRetx
    dsimp only
    have h0 : demand { s with retxQueue := q } k + (if j = k then 1 else 0) = demand s k := by
      simp only [demand, hq, List.count_cons, beq_iff_eq]; omega
    split
    · have hq' : ({ s with retxQueue := q }.sendInterest o v j true).retxQueue = q :=
        (sendInterest_queue { s with retxQueue := q } o v j true).trans rfl
      refine Nat.le_trans (demand_schedRetx k q n _ hq') ?_
      have := demand_send (o := o) (v := v) { s with retxQueue := q } j true k
      simp only [and_true] at this
      omega
    · refine Nat.le_trans (demand_schedRetx k q (n + 1) _ rfl) ?_
      have : demand { s with retxQueue := q, nSkippedRetx := s.nSkippedRetx + 1 } k =
        demand { s with retxQueue := q } k := demand_congr rfl rfl k
      omega

theorem demand_schedNew {o : Opts} {v : Env ε} (k : Nat) : ∀ (n : Nat) (s : St σ),
    demand (St.schedNew o v n s) k ≤ demand s k
  | 0, s => by unfold St.schedNew; exact Nat.le_refl _
  | n + 1, s => by
    unfold St.schedNew
    refine Nat.le_trans (demand_schedNew k n _) ?_
    have := demand_send (o := o) (v := v) { s with nextSegmentNo := s.nextSegmentNo + 1 } s.nextSegmentNo false k
    simp only [Bool.false_eq_true, and_false, if_false] at this
    refine Nat.le_trans this ?_
    exact Nat.le_of_eq (demand_congr rfl rfl k)

theorem demand_schedulePackets {A : Alg σ ε} {o : Opts} {v : Env ε} (s : St σ) (k : Nat) :
    demand (s.schedulePackets A o v) k ≤ demand s k := by
  unfold St.schedulePackets
  dsimp only
  refine Nat.le_trans (demand_schedNew k _ _) ?_
  exact Nat.le_trans (demand_schedRetx k _ _ _ rfl) (Nat.le_of_eq (demand_congr rfl rfl k))

theorem demand_recordTimeout {A : Alg σ ε} {o : Opts} {v : Env ε} (s : St σ) (j k : Nat) :
    demand (s.recordTimeout A o v j) k = demand s k := by
  unfold St.recordTimeout
  split <;> rfl

theorem demand_enqueue (s : St σ) (j k : Nat) :
    demand (s.enqueueForRetransmission j) k = demand s k + if j = k then 1 else 0 := by
  unfold St.enqueueForRetransmission
  dsimp only
  split <;> simp only [demand, List.count_append, List.count_cons, List.count_nil, beq_iff_eq] <;> omega

theorem demand_checkOne {v : Env ε} (s : St σ) (j k : Nat) (b : Nat) (hb : late s v k → b = 1) :
    ∃ b' ≤ b, (late (s.checkOne v j) v k → b' = 1) ∧ demand (s.checkOne v j) k + b' ≤ demand s k + b := by
  unfold St.checkOne
  split
  · exact ⟨b, Nat.le_refl _, hb, Nat.le_refl _⟩
  rename_i x hx
  split
  · rename_i hc
    rw [demand_enqueue]
    have hr : demand { s with nTimeouts := s.nTimeouts + 1 } k = demand s k := demand_congr rfl rfl k
    rw [hr]
    by_cases hjk : j = k
    · subst hjk
      refine ⟨0, Nat.zero_le _, ?_, ?_⟩
      · rintro ⟨y, hy, hy1, _⟩
        exfalso
        apply hy1
        unfold St.enqueueForRetransmission at hy
        dsimp only at hy
        rw [hx] at hy
        dsimp only at hy
        rw [get_put, if_pos rfl] at hy
        cases hy; rfl
      · have := hb ⟨x, hx, hc⟩
        simp [this]
    · refine ⟨b, Nat.le_refl _, ?_, by simp [hjk]⟩
      rintro ⟨y, hy, hy1⟩
      apply hb
      unfold St.enqueueForRetransmission at hy
      dsimp only at hy
      rw [hx] at hy
      dsimp only at hy
      rw [get_put, if_neg (Ne.symm hjk)] at hy
      exact ⟨y, hy, hy1⟩
  · exact ⟨b, Nat.le_refl _, hb, Nat.le_refl _⟩

theorem demand_loop {v : Env ε} (k : Nat) : ∀ (order : List Nat) (s : St σ) (b : Nat),
    (late s v k → b = 1) → demand (order.foldl (St.checkOne v) s) k ≤ demand s k + b
  | [], s, b, _ => by simp
  | j :: order, s, b, hb => by
    simp only [List.foldl_cons]
    obtain ⟨b', h1, h2, h3⟩ := demand_checkOne s j k b hb
    have := demand_loop k order _ b' h2
    omega

theorem demand_lossOf {A : Alg σ ε} {o : Opts} {v : Env ε} (s : St σ) (j k : Nat) :
    demand (s.lossOf A o v j) k ≤ demand s k + if j = k then 1 else 0 := by
  unfold St.lossOf
  dsimp only
  split
  · exact Nat.le_of_eq (demand_enqueue s j k)
  · refine Nat.le_trans (demand_schedulePackets _ k) ?_
    rw [demand_recordTimeout]
    exact Nat.le_of_eq (demand_enqueue s j k)

theorem demand_called (s : St σ) (j k : Nat) : demand (s.called j) k = demand s k := demand_congr rfl rfl k

theorem demand_handleSeg {A : Alg σ ε} {o : Opts} {v : Env ε} (s : St σ) (j : Nat) (p : Pkt) (c : Bool) (k : Nat) :
    demand (s.handleSeg A o v j p c) k ≤ demand s k := by
  unfold St.handleSeg
  split
  · omega
  rename_i x _
  have ha : demand (s.adapt A o v j x p) k = demand s k := by
    unfold St.adapt
    dsimp only
    split
    · split <;> rfl
    · rfl
  have hd : ∀ t : St σ, demand (t.deliver j x p) k = demand t k := by
    intro t; unfold St.deliver; dsimp only; split <;> rfl
  dsimp only
  split
  · exact Nat.le_of_eq ha
  · unfold St.finish
    dsimp only
    have h1 := hd (s.adapt A o v j x p)
    rw [ha] at h1
    split
    · rw [← h1]
      unfold St.cancel
      split <;> exact Nat.le_refl _
    · refine Nat.le_trans (demand_schedulePackets _ k) ?_
      rw [← h1]
      exact Nat.le_refl _

theorem demand_step {A : Alg σ ε} {o : Opts} (s : St σ) (e : Ev ε) (k : Nat) :
    demand (s.step A o e) k ≤ demand s k + if LossFor s k e then 1 else 0 := by
  unfold St.step
  split
  · omega
  cases e with
  | data j p c v =>
    dsimp only
    rw [← demand_called s j k]
    refine Nat.le_trans ?_ (Nat.le_add_right _ _)
    unfold St.handleData
    split
    · omega
    have hf : demand ((s.called j).handleFinal p).1 k = demand (s.called j) k := by
      unfold St.handleFinal
      split
      · rfl
      split
      · rfl
      · exact demand_congr rfl rfl k
      · dsimp only
        split
        · rw [demand_onFailure]; exact demand_congr rfl rfl k
        · exact demand_congr rfl rfl k
    dsimp only
    rw [← hf]
    split
    · exact demand_handleSeg ..
    · exact Nat.le_refl _
  | nack j r v =>
    dsimp only
    rw [← demand_called s j k]
    unfold St.handleNack
    split
    · omega
    split
    · omega
    · refine Nat.le_trans (demand_lossOf _ j k) ?_
      simp only [LossFor, and_true]
      exact Nat.le_refl _
    · rw [demand_handleFail]; omega
  | expire j v =>
    dsimp only
    rw [← demand_called s j k]
    unfold St.handleLifetimeExpiration
    split
    · omega
    · refine Nat.le_trans (demand_lossOf _ j k) ?_
      simp only [LossFor]
      exact Nat.le_of_eq (congrArg (· + _) (demand_congr rfl rfl k))
  | check order v =>
    dsimp only
    unfold St.checkRto
    split
    · exact Nat.le_add_right (demand s k) _
    · dsimp only
      have hl := demand_loop (v := v) k order { s with timer := false } (if LossFor s k (.check order v) then 1 else 0)
        (fun h => if_pos h)
      have h0 : demand { s with timer := false } k = demand s k := demand_congr rfl rfl k
      rw [h0] at hl
      refine Nat.le_trans ?_ hl
      refine Nat.le_trans (Nat.le_of_eq (demand_congr (s := ite _ _ _) rfl rfl k)) ?_
      split
      · refine Nat.le_trans (demand_schedulePackets _ k) ?_
        exact Nat.le_of_eq (demand_recordTimeout ..)
      · exact Nat.le_refl _
  | cancel =>
    dsimp only
    unfold St.cancel
    split
    · omega
    · exact Nat.le_add_right (demand s k) _
  | posted =>
    dsimp only
    split
    · omega
    · exact Nat.le_add_right (demand s k) _

theorem run_demand {A : Alg σ ε} {o : Opts} {w : σ} {v : Env ε} {es s} (k : Nat)
    (h : (machine A o w v).Run es s) :
    s = es.foldl (St.step A o) (start A o w v) ∧ demand s k ≤ lossCount A o k (start A o w v) es := by
  induction h with
  | nil =>
    refine ⟨rfl, ?_⟩
    show demand (start A o w v) k ≤ 0
    exact Nat.le_trans (demand_schedulePackets _ k) (Nat.le_of_eq (by simp [demand]))
  | @snoc es s e _ _ ih =>
    obtain ⟨h1, h2⟩ := ih
    refine ⟨by rw [List.foldl_append, ← h1]; rfl, ?_⟩
    rw [lossCount_append, ← h1]
    have := demand_step (A := A) (o := o) s e k
    simp only [lossCount, Nat.add_zero]
    exact Nat.le_trans this (by omega)

end Verif.Adaptive
