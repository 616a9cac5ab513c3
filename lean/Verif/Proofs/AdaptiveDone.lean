import Verif.Proofs.AdaptiveProgress

/-! # Once the transfer is complete the RTO check is not scheduled any more -/

namespace Verif.Adaptive

variable {σ ε : Type}

/-- The change does not report completion. -/
def NoComp (s t : St σ) : Prop := Obs.complete ∈ t.log → Obs.complete ∈ s.log

theorem noComp_of {s t : St σ} (h : OnlySends s t) : NoComp s t := by
  intro hc
  rcases h _ hc with h | ⟨k, c, h⟩
  · exact h
  · cases h

theorem noComp_schedRetx (o : Opts) (v : Env ε) : ∀ (q : List Nat) (n : Nat) (s : St σ),
    NoComp s (St.schedRetx o v q n s).1
  | _, 0, s => by unfold St.schedRetx; exact id
  | [], n + 1, s => by unfold St.schedRetx; exact id
  | k :: q, n + 1, s => by
    unfold St.schedRetx
    dsimp only
    split
    · intro h
      exact noComp_of (sends_send { s with retxQueue := q } o v k true) (noComp_schedRetx o v q n _ h)
    · intro h
      exact noComp_schedRetx o v q (n + 1) { s with retxQueue := q, nSkippedRetx := s.nSkippedRetx + 1 } h

theorem noComp_sched (s : St σ) (A : Alg σ ε) (o : Opts) (v : Env ε) : NoComp s (s.schedulePackets A o v) := by
  unfold St.schedulePackets
  dsimp only
  intro h
  have h1 := noComp_of (sends_schedNew o v _ _) h
  have h2 := noComp_schedRetx o v _ _ _ h1
  exact h2

theorem noComp_record (s : St σ) (A : Alg σ ε) (o : Opts) (v : Env ε) (k) : NoComp s (s.recordTimeout A o v k) := by
  unfold St.recordTimeout
  split
  · intro h; simpa using h
  · exact id

theorem noComp_enqueue (s : St σ) (k) : NoComp s (s.enqueueForRetransmission k) := by
  unfold St.enqueueForRetransmission
  dsimp only
  split <;> exact id

theorem noComp_lossOf (s : St σ) (A : Alg σ ε) (o : Opts) (v : Env ε) (k) : NoComp s (s.lossOf A o v k) := by
  unfold St.lossOf
  dsimp only
  split
  · exact noComp_enqueue s k
  · exact fun h => noComp_enqueue s k (noComp_record _ A o v k (noComp_sched _ A o v h))

theorem noComp_checkLoop (v : Env ε) : ∀ (order : List Nat) (s : St σ), NoComp s (order.foldl (St.checkOne v) s)
  | [], _ => id
  | k :: l, s => by
    intro h
    have := noComp_checkLoop v l _ h
    unfold St.checkOne at this
    split at this
    · exact this
    · split at this
      · have h2 := noComp_enqueue _ k this
        exact h2
      · exact this

theorem noComp_final (s : St σ) (p) : NoComp s (s.handleFinal p).1 := by
  unfold St.handleFinal
  split
  · exact id
  split
  · exact id
  · exact id
  · dsimp only
    split
    · exact noComp_of (s := { s with lastSegmentNo := _, hasFinalBlockId := true }.cancelGreater _) (sends_onFailure _ _)
    · exact id

theorem noComp_adapt (s : St σ) (A : Alg σ ε) (o : Opts) (v : Env ε) (k x p) : NoComp s (s.adapt A o v k x p) := by
  unfold St.adapt
  dsimp only
  split
  · split
    · intro h; simpa using h
    · exact id
  · intro h; simpa using h

theorem noComp_deliver (s : St σ) (k x p) : NoComp s (s.deliver k x p) := by
  unfold St.deliver
  dsimp only
  split <;> (intro h; simpa [St.onData, St.emit] using h)

/-- Completion cancels the check. -/
def Done (s : St σ) : Prop := Obs.complete ∈ s.log → s.timer = false

theorem done_step {A : Alg σ ε} {o : Opts} {s : St σ} {e : Ev ε} (h : Done s)
    (hs : Obs.complete ∈ s.log → s.isStopping = true) (he : s.enabled e) (hc : NoCancel e) : Done (s.step A o e) := by
  by_cases hcm : Obs.complete ∈ s.log
  · intro _
    have ht := h hcm
    have hst := hs hcm
    have hst' : ∀ k, (s.called k).isStopping = true := fun _ => hst
    unfold St.step
    split
    · exact ht
    cases e with
    | data k p c v => dsimp only; unfold St.handleData; rw [if_pos (hst' k)]; exact ht
    | nack k r v => dsimp only; unfold St.handleNack; rw [if_pos (hst' k)]; exact ht
    | expire k v => dsimp only; unfold St.handleLifetimeExpiration; rw [if_pos (hst' k)]; exact ht
    | check order v => have := he.1; rw [ht] at this; cases this
    | cancel => exact hc.elim
    | posted =>
      dsimp only
      split
      · exact ht
      · exact ht
  · intro h'
    unfold St.step at h' ⊢
    split at h'
    · exact absurd h' hcm
    rename_i hne
    rw [if_neg hne]
    have hcall : ∀ k, NoComp s (s.called k) := fun _ => id
    cases e with
    | data k p c v =>
      have hc' : c = false := hc
      subst hc'
      dsimp only at h' ⊢
      unfold St.handleData at h' ⊢
      split at h'
      · exact absurd h' hcm
      rename_i hst
      rw [if_neg hst]
      dsimp only at h' ⊢
      split at h'
      case isFalse => exact absurd (noComp_final _ _ h') hcm
      rename_i hr
      rw [if_pos hr]
      have hn := noComp_final (s.called k) p
      have hns : ((s.called k).handleFinal p).1.isStopping = false := by
        have hst0 : (s.called k).isStopping = false := by simpa using hst
        unfold St.handleFinal at hr ⊢
        split
        · exact hst0
        · rename_i hh
          rw [if_neg hh] at hr
          cases hp : p.final with
          | absent => rw [hp] at hr; exact hst0
          | notSegment => rw [hp] at hr; cases hr
          | seg n =>
            rw [hp] at hr
            dsimp only at hr ⊢
            split at hr
            · cases hr
            · rename_i h3; rw [if_neg h3]; exact hst0
      generalize ((s.called k).handleFinal p).1 = t at h' hn hns ⊢
      unfold St.handleSeg at h' ⊢
      cases hx : get t.info k with
      | none => rw [hx] at h'; exact absurd (hn h') hcm
      | some x =>
        rw [hx] at h'
        dsimp only at h' ⊢
        simp only [Bool.false_eq_true, if_false] at h' ⊢
        have hn2 : NoComp s ((t.adapt A o v k x p).deliver k x p) :=
          fun g => hn (noComp_adapt t A o v k x p (noComp_deliver _ k x p g))
        have hns2 : ((t.adapt A o v k x p).deliver k x p).isStopping = false := by
          have : (t.adapt A o v k x p).isStopping = false := by
            unfold St.adapt
            dsimp only
            split
            · split <;> exact hns
            · exact hns
          unfold St.deliver
          dsimp only
          split <;> exact this
        generalize (t.adapt A o v k x p).deliver k x p = u at h' hn2 hns2 ⊢
        unfold St.finish at h' ⊢
        dsimp only at h' ⊢
        split at h'
        · rename_i ha
          rw [if_pos ha]
          simp [St.cancel, St.emit, hns2]
        · have h2 := noComp_sched _ A o v h'
          exact absurd (hn2 h2) hcm
    | nack k r v =>
      exfalso
      dsimp only at h'
      unfold St.handleNack at h'
      split at h'
      · exact hcm h'
      split at h'
      · exact hcm h'
      · have h2 := noComp_lossOf _ A o v k h'
        exact hcm h2
      · have h2 := noComp_of (sends_handleFail _ _ _) h'
        exact hcm h2
    | expire k v =>
      exfalso
      dsimp only at h'
      unfold St.handleLifetimeExpiration at h'
      split at h'
      · exact hcm h'
      · have h2 := noComp_lossOf _ A o v k h'
        exact hcm h2
    | check order v =>
      exfalso
      dsimp only at h'
      unfold St.checkRto at h'
      split at h'
      · exact hcm h'
      dsimp only at h'
      split at h'
      · have h2 := noComp_checkLoop v order _ (noComp_record _ A o v _ (noComp_sched _ A o v h'))
        exact hcm h2
      · have h2 := noComp_checkLoop v order _ h'
        exact hcm h2
    | cancel => exact hc.elim
    | posted =>
      exfalso
      dsimp only at h'
      split at h'
      · exact hcm h'
      · simp [St.emit] at h'; exact hcm h'

theorem served_done {A : Alg σ ε} {o : Opts} {w : σ} {v : Env ε} {segs es s}
    (h : (servedMachine A o w v segs).Run es s) : Done s := by
  induction h with
  | nil =>
    intro hc
    obtain ⟨k, c, h⟩ := start_log A o w v _ hc
    cases h
  | @snoc es s e hr he ih =>
    refine done_step ih ?_ he.1.1 he.1.2.2.2.2
    intro hc
    have hh := run_hist (fun h => False.elim h) (served_run hr)
    cases hst : s.isStopping with
    | true => rfl
    | false => exact absurd hc (hh.quiet hst).2.2

theorem served_threw {A : Alg σ ε} {o : Opts} {w : σ} {v : Env ε} {segs es s}
    (h : (servedMachine A o w v segs).Run es s) : s.threw = none ∧ s.ub = false := by
  have hcl : (servedAllow segs).clean → o.maxRetries = -1 := fun h => h.elim
  refine ⟨?_, arun_inv (P := fun s => s.ub = false) hcl (served_run h) rfl (fun _ _ _ hc hm => ub_micro (fun h => h) hc hm)⟩
  refine arun_inv (P := fun s => s.threw = none) hcl (served_run h) rfl
    (fun _ _ _ hc hm => threw_none_micro (fun h => h) ?_ hc hm)
  rintro k p ⟨⟨_, hp⟩, _⟩
  rcases hp with hp | hp <;> rw [hp] <;> simp

end Verif.Adaptive
