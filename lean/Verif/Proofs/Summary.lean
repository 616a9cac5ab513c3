import Verif.Model.Summary
import Verif.Spec.Summary
import Verif.Props.Adaptive
import Verif.Props.Fixed

/-! # Lemmas for `Props/Summary` -/

namespace Verif

/-! ## Sizes -/

theorem sum_perm {l m : List Nat} (h : l.Perm m) (f : Nat → Nat) : (l.map f).sum = (m.map f).sum :=
  (h.map f).sum_nat

theorem sum_range (segs : List Bytes) :
    ((List.range segs.length).map (fun k => (segs[k]?.getD []).length)).sum = (segs.map List.length).sum := by
  congr 1
  apply List.ext_getElem
  · simp
  · intro i h1 h2
    simp only [List.length_map, List.length_range] at h1
    simp [List.getElem?_eq_getElem h1]

namespace Fixed

/-- The size of what an entry of the history delivers. -/
def dlen : Obs → Nat
  | .data _ p => p.content.length
  | _ => 0

def Size (s : St) : Prop := s.receivedSize = (s.log.map dlen).sum

theorem Size.emit {s : St} (h : Size s) {x : Obs} (hx : dlen x = 0) : Size (s.emit x) := by
  unfold Size St.emit
  rw [List.map_append, List.sum_append, List.map_singleton, List.sum_singleton, hx, Nat.add_zero]
  exact h

theorem Size.of {s t : St} (h : Size s) (h1 : t.receivedSize = s.receivedSize) (h2 : t.log = s.log) : Size t := by
  unfold Size; rw [h1, h2]; exact h

theorem Size.cancel {s : St} (h : Size s) : Size s.cancel := by
  unfold St.cancel; split
  · exact h
  · exact h

theorem Size.onFailure {s : St} (h : Size s) (m) : Size (s.onFailure m) := by
  unfold St.onFailure; split
  · exact h
  · exact Size.of h.cancel rfl rfl

theorem Size.fetch {s : St} (h : Size s) (i) : Size (s.fetchNextSegment i).1 := by
  unfold St.fetchNextSegment
  split
  · exact h
  split
  · exact h.onFailure _
  dsimp only
  split
  · exact h
  have h' : Size (({ s with nextSegmentNo := s.nextSegmentNo + 1 } : St).emit (.interest s.nextSegmentNo)) :=
    Size.emit (Size.of h rfl rfl) rfl
  split
  · exact Size.of h' rfl rfl
  · exact Size.of h' rfl rfl

theorem Size.run {s : St} (h : Size s) (i n) : Size (s.doRunLoop i n) := by
  induction n generalizing s i with
  | zero => exact h
  | succ n ih =>
    unfold St.doRunLoop
    dsimp only
    split
    · exact ih (h.fetch i) _
    · exact h.fetch i

theorem Size.onData {s : St} (h : Size s) (k p c) : Size (s.onData k p c) := by
  have h' : Size (({ s with nReceived := s.nReceived + 1, receivedSize := s.receivedSize + p.content.length } : St).emit
      (.data k p)) := by
    unfold Size St.emit
    rw [List.map_append, List.sum_append, List.map_singleton, List.sum_singleton]
    show s.receivedSize + _ = _
    rw [h]; rfl
  unfold St.onData
  dsimp only
  split
  · exact h'.cancel
  · exact h'

theorem Size.finish {s : St} (h : Size s) (i) : Size (s.finish i) := by
  unfold St.finish
  split
  · exact h.emit rfl
  · exact h.fetch i

theorem Size.after {s : St} (h : Size s) (i p) : Size (s.afterOnData i p) := by
  unfold St.afterOnData
  split
  · split
    · exact h.finish i
    · exact h
    · dsimp only
      split
      · refine Size.onFailure ?_ _; exact h
      · refine Size.finish ?_ _; exact h
  · exact h.finish i

theorem Size.failed {s : St} (h : Size s) (m i) : Size (s.handleFail m i) := by
  unfold St.handleFail
  split
  · exact h
  split
  · exact h
  · unfold St.handleFailSeg
    split
    · exact h.onFailure _
    split
    · dsimp only
      split
      · refine Size.onFailure ?_ _; exact h
      · exact h
    · exact h

theorem Size.react {s : St} (h : Size s) (i k p c o) : Size (s.react i k p c o) := by
  cases o with
  | interest => exact h.emit rfl
  | onData =>
    show Size (s.handleData i k p c)
    unfold St.handleData
    split
    · exact h
    · exact (h.onData k p c).after i p
  | onNack m => exact h.failed m i
  | onTimeout m => exact h.failed m i

theorem Size.fetcherEvent {s : St} (h : Size s) (i e p c) : Size (s.fetcherEvent i e p c) := by
  unfold St.fetcherEvent
  split
  · rename_i f k _
    dsimp only
    have h0 : Size { s with slots := s.slots.set i (some ((f.step e).1, k)) } := Size.of h rfl rfl
    generalize (f.step e).2 = outs
    revert h0
    generalize ({ s with slots := s.slots.set i (some ((f.step e).1, k)) } : St) = t
    intro h0
    induction outs generalizing t with
    | nil => exact h0
    | cons x xs ih => exact ih _ (h0.react i k p c x)
  · exact h

theorem size_run {N : Nat} {R : Int} {es s} (h : (machine N R).Run es s) : Size s := by
  refine h.invariant (P := Size) ?_ ?_
  · show Size (start N R)
    unfold start
    exact Size.run (s := { maxPipelineSize := N, maxRetries := R, slots := List.replicate N none }) rfl _ _
  · intro s e h _
    show Size (s.step e)
    unfold St.step
    split
    · exact h
    cases e with
    | data i p c => exact h.fetcherEvent ..
    | nack i r => exact h.fetcherEvent ..
    | timeout i => exact h.fetcherEvent ..
    | timer i => exact h.fetcherEvent ..
    | cancel => exact h.cancel
    | posted =>
      dsimp only
      split
      · exact h
      · exact Size.emit (Size.of h rfl rfl) rfl

theorem sum_log {segs : List Bytes} {l : List Obs} (h : ∀ k p, Obs.data k p ∈ l → segs[k]? = some p.content) :
    (l.map dlen).sum = ((received l).map (fun k => (segs[k]?.getD []).length)).sum := by
  induction l with
  | nil => rfl
  | cons x l ih =>
    have ih := ih (fun k p hk => h k p (List.mem_cons_of_mem _ hk))
    rw [List.map_cons, List.sum_cons, ih]
    cases x with
    | data k p =>
      have := h k p List.mem_cons_self
      rw [show received (Obs.data k p :: l) = k :: received l from rfl, List.map_cons, List.sum_cons, this]
      rfl
    | interest k => exact Nat.zero_add _
    | failure m => exact Nat.zero_add _
    | complete => exact Nat.zero_add _

end Fixed

namespace Adaptive

variable {σ ε : Type}

/-- Retransmitted, skipped, and still waiting. -/
def acc (s : St σ) : Nat := s.nRetransmitted + s.nSkippedRetx + s.retxQueue.length

/-- The counters are the same. -/
structure Same (s t : St σ) : Prop where
  loss : t.nLossDecr = s.nLossDecr
  tmo : t.nTimeouts = s.nTimeouts
  retx : t.nRetransmitted = s.nRetransmitted
  skip : t.nSkippedRetx = s.nSkippedRetx
  queue : t.retxQueue = s.retxQueue

/-- Retransmissions may have been made. -/
structure Less (s t : St σ) : Prop where
  loss : t.nLossDecr = s.nLossDecr
  tmo : t.nTimeouts = s.nTimeouts
  acc : acc t ≤ acc s

theorem Same.less {s t : St σ} (h : Same s t) : Less s t :=
  ⟨h.loss, h.tmo, by unfold Adaptive.acc; rw [h.retx, h.skip, h.queue]⟩

theorem Less.trans {s t u : St σ} (h : Less s t) (h' : Less t u) : Less s u :=
  ⟨h'.loss.trans h.loss, h'.tmo.trans h.tmo, Nat.le_trans h'.acc h.acc⟩

theorem same_cancel (s : St σ) : Same s s.cancel := by
  unfold St.cancel; split <;> exact ⟨rfl, rfl, rfl, rfl, rfl⟩

theorem same_onFailure (s : St σ) (m) : Same s (s.onFailure m) := by
  unfold St.onFailure; split
  · exact ⟨rfl, rfl, rfl, rfl, rfl⟩
  · have := same_cancel s
    exact ⟨this.loss, this.tmo, this.retx, this.skip, this.queue⟩

theorem same_handleFail (s : St σ) (k m) : Same s (s.handleFail k m) := by
  unfold St.handleFail
  split
  · exact ⟨rfl, rfl, rfl, rfl, rfl⟩
  split
  · exact same_onFailure s m
  split
  · dsimp only
    split
    · have := same_onFailure ({ s with info := del s.info k, nInFlight := s.nInFlight - 1 } : St σ) .noFinal
      exact ⟨this.loss, this.tmo, this.retx, this.skip, this.queue⟩
    · exact ⟨rfl, rfl, rfl, rfl, rfl⟩
  · exact ⟨rfl, rfl, rfl, rfl, rfl⟩

theorem send_new (s : St σ) (o) (v : Env ε) (k) : Same s (s.sendInterest o v k false) := by
  unfold St.sendInterest
  split
  · exact ⟨rfl, rfl, rfl, rfl, rfl⟩
  split
  · exact ⟨rfl, rfl, rfl, rfl, rfl⟩
  split
  · exact ⟨rfl, rfl, rfl, rfl, rfl⟩
  · exact ⟨rfl, rfl, rfl, rfl, rfl⟩

theorem send_again (s : St σ) (o) (v : Env ε) (k) :
    let t := s.sendInterest o v k true
    t.nLossDecr = s.nLossDecr ∧ t.nTimeouts = s.nTimeouts ∧ t.nRetransmitted ≤ s.nRetransmitted + 1 ∧
      t.nSkippedRetx = s.nSkippedRetx ∧ t.retxQueue = s.retxQueue := by
  dsimp only
  unfold St.sendInterest
  split
  · exact ⟨rfl, rfl, Nat.le_succ _, rfl, rfl⟩
  split
  · exact ⟨rfl, rfl, Nat.le_succ _, rfl, rfl⟩
  split
  · exact ⟨rfl, rfl, Nat.le_succ _, rfl, rfl⟩
  · simp only [if_true]
    unfold St.sendAgain
    dsimp only
    split
    · have := same_handleFail ({ s with retxCount := fun j => if j = k then s.retxCount k + 1 else s.retxCount j } : St σ) k
        (.maxRetries o.maxRetries k)
      exact ⟨this.loss, this.tmo, by rw [this.retx]; exact Nat.le_succ _, this.skip, this.queue⟩
    · exact ⟨rfl, rfl, Nat.le_refl _, rfl, rfl⟩

theorem less_schedRetx (o : Opts) (v : Env ε) (q : List Nat) (n : Nat) (s : St σ) (hq : s.retxQueue = q) :
    Less s (St.schedRetx o v q n s).1 := by
  induction q generalizing n s with
  | nil =>
    cases n with
    | zero => exact ⟨rfl, rfl, Nat.le_refl _⟩
    | succ n => exact ⟨rfl, rfl, Nat.le_refl _⟩
  | cons k q ih =>
    cases n with
    | zero => exact ⟨rfl, rfl, Nat.le_refl _⟩
    | succ n =>
      unfold St.schedRetx
      dsimp only
      have hlen : s.retxQueue.length = q.length + 1 := by rw [hq]; rfl
      split
      · obtain ⟨h1, h2, h3, h4, h5⟩ := send_again ({ s with retxQueue := q } : St σ) o v k
        refine Less.trans ⟨h1, h2, ?_⟩ (ih n _ h5)
        unfold acc
        rw [h4, h5, hlen]
        dsimp only at h3 ⊢
        omega
      · refine Less.trans (t := { s with retxQueue := q, nSkippedRetx := s.nSkippedRetx + 1 }) ⟨rfl, rfl, ?_⟩ (ih (n + 1) _ rfl)
        unfold acc
        rw [hlen]
        dsimp only
        omega

theorem less_schedNew (o : Opts) (v : Env ε) (n : Nat) (s : St σ) : Less s (St.schedNew o v n s) := by
  induction n generalizing s with
  | zero => exact ⟨rfl, rfl, Nat.le_refl _⟩
  | succ n ih =>
    unfold St.schedNew
    have := send_new ({ s with nextSegmentNo := s.nextSegmentNo + 1 } : St σ) o v s.nextSegmentNo
    exact Less.trans (Same.less ⟨this.loss, this.tmo, this.retx, this.skip, this.queue⟩) (ih _)

theorem less_sched (A : Alg σ ε) (o : Opts) (v : Env ε) (s : St σ) : Less s (s.schedulePackets A o v) := by
  unfold St.schedulePackets
  dsimp only
  refine Less.trans ?_ (less_schedNew o v _ _)
  refine Less.trans (t := { s with assertFailed := s.assertFailed || decide (s.nInFlight < 0) }) ⟨rfl, rfl, Nat.le_refl _⟩ ?_
  exact less_schedRetx o v _ _ _ rfl

theorem loss_record (A : Alg σ ε) (o : Opts) (v : Env ε) (s : St σ) (k) :
    let t := s.recordTimeout A o v k
    t.nLossDecr ≤ s.nLossDecr + 1 ∧ t.nTimeouts = s.nTimeouts ∧ acc t = acc s := by
  dsimp only
  unfold St.recordTimeout
  split
  · exact ⟨Nat.le_refl _, rfl, rfl⟩
  · exact ⟨Nat.le_succ _, rfl, rfl⟩

theorem enq (s : St σ) (k) :
    (s.enqueueForRetransmission k).nLossDecr = s.nLossDecr ∧ (s.enqueueForRetransmission k).nTimeouts = s.nTimeouts ∧
    acc (s.enqueueForRetransmission k) = acc s + 1 := by
  unfold St.enqueueForRetransmission
  dsimp only
  split <;> refine ⟨rfl, rfl, ?_⟩ <;> unfold acc <;> dsimp only <;> rw [List.length_append] <;> rfl

theorem lossOf_cnt (A : Alg σ ε) (o : Opts) (v : Env ε) (s : St σ) (k) :
    let t := s.lossOf A o v k
    t.nLossDecr ≤ s.nLossDecr + 1 ∧ t.nTimeouts = s.nTimeouts ∧ acc t ≤ acc s + 1 := by
  dsimp only
  obtain ⟨h1, h2, h3⟩ := enq s k
  unfold St.lossOf
  dsimp only
  split
  · exact ⟨by rw [h1]; exact Nat.le_succ _, h2, Nat.le_of_eq h3⟩
  · obtain ⟨h4, h5, h6⟩ := loss_record A o v (s.enqueueForRetransmission k) k
    have h7 := less_sched A o v ((s.enqueueForRetransmission k).recordTimeout A o v k)
    refine ⟨?_, ?_, ?_⟩
    · rw [h7.loss]; rw [h1] at h4; exact h4
    · rw [h7.tmo, h5, h2]
    · exact Nat.le_trans h7.acc (by rw [h6, h3])

/-- The segment has timed out. -/
def exp (s : St σ) (v : Env ε) (k : Nat) : Bool :=
  match get s.info k with
  | none => false
  | some x => decide (x.state ≠ .inRetxQueue ∧ v.now > x.timeSent + x.rto)

theorem exp_enqueue (s : St σ) (v : Env ε) {j k} (h : j ≠ k) :
    exp (s.enqueueForRetransmission k) v j = exp s v j := by
  have e : get (s.enqueueForRetransmission k).info j = get s.info j := by
    unfold St.enqueueForRetransmission
    dsimp only
    split
    · rfl
    · dsimp only; rw [get_put, if_neg h]
  unfold exp
  rw [e]

theorem loop_cnt (v : Env ε) (order : List Nat) (s : St σ) (hn : order.Nodup) :
    let t := order.foldl (St.checkOne v) s
    t.nLossDecr = s.nLossDecr ∧ t.nTimeouts = s.nTimeouts + order.countP (exp s v) ∧
      acc t = acc s + order.countP (exp s v) := by
  induction order generalizing s with
  | nil => exact ⟨rfl, rfl, rfl⟩
  | cons k l ih =>
    rw [List.nodup_cons] at hn
    rw [List.foldl_cons, List.countP_cons]
    by_cases hk : exp s v k = true
    · have e : s.checkOne v k = { s with nTimeouts := s.nTimeouts + 1 }.enqueueForRetransmission k := by
        unfold St.checkOne
        unfold exp at hk
        split at hk
        · cases hk
        · rename_i x hx
          try rw [hx]
          try dsimp only
          rw [if_pos (of_decide_eq_true hk)]
      obtain ⟨h1, h2, h3⟩ := enq ({ s with nTimeouts := s.nTimeouts + 1 } : St σ) k
      obtain ⟨h4, h5, h6⟩ := ih (s.checkOne v k) hn.2
      have hc : l.countP (exp (s.checkOne v k) v) = l.countP (exp s v) := by
        refine List.countP_congr ?_
        intro j hj
        have hjk : j ≠ k := by intro h; rw [h] at hj; exact hn.1 hj
        rw [e, exp_enqueue _ v hjk]
        exact Iff.rfl
      rw [hc] at h5 h6
      rw [if_pos hk]
      refine ⟨?_, ?_, ?_⟩
      · rw [h4, e, h1]
      · rw [h5, e, h2]; show s.nTimeouts + 1 + _ = _; omega
      · rw [h6, e, h3]; show acc s + 1 + _ = _; omega
    · have e : s.checkOne v k = s := by
        unfold St.checkOne
        unfold exp at hk
        split at hk
        · rename_i hx; simp only [hx]
        · rename_i x hx
          try rw [hx]
          try dsimp only
          rw [if_neg (by simpa using hk)]
      rw [e, if_neg hk]
      exact ih s hn.2

theorem expired_eq (s : St σ) (v : Env ε) (order : List Nat) : s.expired v order = order.filter (exp s v) := rfl

theorem count_info (s : St σ) (v : Env ε) (hn : (s.info.map (·.1)).Nodup) {order : List Nat}
    (hp : order.Perm (s.info.map (·.1))) :
    order.countP (exp s v) =
      s.info.countP (fun e => decide (e.2.state ≠ .inRetxQueue ∧ v.now - e.2.timeSent > e.2.rto)) := by
  rw [hp.countP_eq, List.countP_map]
  have hg : ∀ e ∈ s.info, get s.info e.1 = some e.2 := by
    generalize s.info = l at hn
    induction l with
    | nil => intro e he; cases he
    | cons x l ih =>
      rw [List.map_cons, List.nodup_cons] at hn
      intro e he
      rw [get_cons]
      rcases List.mem_cons.mp he with rfl | he
      · rw [if_pos rfl]
      · rw [if_neg]
        · exact ih hn.2 e he
        · intro h; exact hn.1 (h ▸ List.mem_map_of_mem he)
  refine List.countP_congr ?_
  intro e he
  show exp s v e.1 = true ↔ _
  unfold exp
  rw [hg e he]
  dsimp only
  simp only [decide_eq_true_eq]
  constructor
  · rintro ⟨h1, h2⟩; exact ⟨h1, by omega⟩
  · rintro ⟨h1, h2⟩; exact ⟨h1, by omega⟩

theorem called_cnt (s : St σ) (k) : Same s (s.called k) := ⟨rfl, rfl, rfl, rfl, rfl⟩

theorem same_final (s : St σ) (p) : Same s (s.handleFinal p).1 := by
  unfold St.handleFinal
  split
  · exact ⟨rfl, rfl, rfl, rfl, rfl⟩
  split
  · exact ⟨rfl, rfl, rfl, rfl, rfl⟩
  · exact ⟨rfl, rfl, rfl, rfl, rfl⟩
  · rename_i n _
    dsimp only
    split
    · have := same_onFailure (({ s with lastSegmentNo := n, hasFinalBlockId := true } : St σ).cancelGreater n) s.failureReason
      exact ⟨this.loss, this.tmo, this.retx, this.skip, this.queue⟩
    · exact ⟨rfl, rfl, rfl, rfl, rfl⟩

theorem same_adapt (s : St σ) (A : Alg σ ε) (o : Opts) (v : Env ε) (k x p) : Same s (s.adapt A o v k x p) := by
  unfold St.adapt
  dsimp only
  split
  · split <;> exact ⟨rfl, rfl, rfl, rfl, rfl⟩
  · exact ⟨rfl, rfl, rfl, rfl, rfl⟩

theorem Same.trans {s t u : St σ} (h : Same s t) (h' : Same t u) : Same s u :=
  ⟨h'.loss.trans h.loss, h'.tmo.trans h.tmo, h'.retx.trans h.retx, h'.skip.trans h.skip, h'.queue.trans h.queue⟩

theorem same_deliver (s : St σ) (k x p) : Same s (s.deliver k x p) := by
  unfold St.deliver
  dsimp only
  split <;> exact ⟨rfl, rfl, rfl, rfl, rfl⟩

theorem less_finish (s : St σ) (A : Alg σ ε) (o : Opts) (v : Env ε) (k) : Less s (s.finish A o v k) := by
  have h0 : Same s ({ s with info := del s.info k } : St σ) := ⟨rfl, rfl, rfl, rfl, rfl⟩
  unfold St.finish
  dsimp only
  split
  · have := h0.trans (same_cancel _)
    exact Same.less ⟨this.loss, this.tmo, this.retx, this.skip, this.queue⟩
  · exact h0.less.trans (less_sched A o v _)

theorem less_data (s : St σ) (A : Alg σ ε) (o : Opts) (v : Env ε) (k p c) : Less s (s.handleData A o v k p c) := by
  unfold St.handleData
  split
  · exact ⟨rfl, rfl, Nat.le_refl _⟩
  dsimp only
  have h := same_final s p
  split
  · refine h.less.trans ?_
    generalize (s.handleFinal p).1 = s
    unfold St.handleSeg
    split
    · exact ⟨rfl, rfl, Nat.le_refl _⟩
    · rename_i x _
      dsimp only
      split
      · have := same_adapt s A o v k x p
        exact Same.less ⟨this.loss, this.tmo, this.retx, this.skip, this.queue⟩
      · refine ((same_adapt s A o v k x p).trans (same_deliver _ k x p)).less.trans ?_
        exact less_finish _ A o v k
  · exact h.less

/-- What one event does to the counters. -/
theorem step_cnt {A : Alg σ ε} {o : Opts} {s : St σ} {e : Ev ε} (hw : WF s) (he : s.enabled e) :
    let t := s.step A o e
    let c := if e.isCongestion then 1 else 0
    t.nTimeouts = s.nTimeouts + timeoutsIn s e ∧
    t.nLossDecr ≤ s.nLossDecr + timeoutsIn s e + c ∧ acc t ≤ acc s + timeoutsIn s e + c := by
  dsimp only
  have less : ∀ {t : St σ}, Less s t → timeoutsIn s e = 0 →
      t.nTimeouts = s.nTimeouts + timeoutsIn s e ∧
      t.nLossDecr ≤ s.nLossDecr + timeoutsIn s e + (if e.isCongestion then 1 else 0) ∧
      acc t ≤ acc s + timeoutsIn s e + (if e.isCongestion then 1 else 0) := by
    intro t h h0
    have h1 := h.loss
    have h2 := h.tmo
    have h3 := h.acc
    rw [h0]
    omega
  unfold St.step
  split
  · rename_i hend
    have hend : s.isStopping = true ∨ s.threw.isSome = true ∨ s.ub = true := by
      rw [Bool.or_eq_true] at hend; exact Or.inr hend
    refine less ⟨rfl, rfl, Nat.le_refl _⟩ ?_
    cases e <;> first | rfl | exact if_pos hend
  rename_i hend
  rw [Bool.or_eq_true, not_or] at hend
  cases e with
  | data k p c v => exact less ((called_cnt s k).less.trans (less_data _ A o v k p c)) rfl
  | cancel => exact less (same_cancel s).less rfl
  | posted =>
    refine less ?_ rfl
    dsimp only
    split
    · exact ⟨rfl, rfl, Nat.le_refl _⟩
    · exact ⟨rfl, rfl, Nat.le_refl _⟩
  | nack k r v =>
    show ((s.called k).handleNack A o v k r).nTimeouts = _ ∧ ((s.called k).handleNack A o v k r).nLossDecr ≤ _ ∧
      acc ((s.called k).handleNack A o v k r) ≤ _
    unfold St.handleNack
    split
    · exact less (called_cnt s k).less rfl
    split
    · exact less (called_cnt s k).less rfl
    · obtain ⟨h1, h2, h3⟩ := lossOf_cnt A o v (s.called k) k
      refine ⟨h2, h1, h3⟩
    · exact less ((called_cnt s k).trans (same_handleFail _ k _)).less rfl
  | expire k v =>
    show ((s.called k).handleLifetimeExpiration A o v k).nTimeouts = _ ∧
      ((s.called k).handleLifetimeExpiration A o v k).nLossDecr ≤ _ ∧
      acc ((s.called k).handleLifetimeExpiration A o v k) ≤ _
    unfold St.handleLifetimeExpiration
    split
    · rename_i hst
      exact less (called_cnt s k).less (if_pos (Or.inl hst))
    · rename_i hst
      have h1 : timeoutsIn s (.expire k v) = 1 :=
        if_neg (by rintro (h | h | h); exacts [hst h, hend.1 h, hend.2 h])
      obtain ⟨h2, h3, h4⟩ := lossOf_cnt A o v ({ s.called k with nTimeouts := (s.called k).nTimeouts + 1 } : St σ) k
      rw [h1]
      exact ⟨h3, h2, h4⟩
  | check order v =>
    show (({ s with timer := false } : St σ).checkRto A o v order).nTimeouts = _ ∧
      (({ s with timer := false } : St σ).checkRto A o v order).nLossDecr ≤ _ ∧
      acc (({ s with timer := false } : St σ).checkRto A o v order) ≤ _
    unfold St.checkRto
    split
    · rename_i hst
      exact less ⟨rfl, rfl, Nat.le_refl _⟩ (if_pos (Or.inl hst))
    · rename_i hst
      obtain ⟨_, hp⟩ := he
      have h1 : timeoutsIn s (.check order v) = order.countP (exp s v) := by
        rw [count_info s v hw.nodup hp]
        exact if_neg (by rintro (h | h | h); exacts [hst h, hend.1 h, hend.2 h])
      obtain ⟨h2, h3, h4⟩ := loop_cnt v order ({ s with timer := false } : St σ) (hp.nodup_iff.mpr hw.nodup)
      have hx : order.countP (exp ({ s with timer := false } : St σ) v) = order.countP (exp s v) := rfl
      rw [hx] at h3 h4
      have ha : acc ({ s with timer := false } : St σ) = acc s := rfl
      rw [ha] at h4
      rw [h1]
      dsimp only
      split
      · rename_i hne
        have hpos : 0 < order.countP (exp s v) := by
          rw [List.countP_eq_length_filter]
          exact List.length_pos_iff.mpr hne
        obtain ⟨h5, h6, h7⟩ := loss_record A o v (order.foldl (St.checkOne v) ({ s with timer := false } : St σ))
          ((({ s with timer := false } : St σ).expired v order).foldl max 0)
        have h8 := less_sched A o v ((order.foldl (St.checkOne v) ({ s with timer := false } : St σ)).recordTimeout A o v
          ((({ s with timer := false } : St σ).expired v order).foldl max 0))
        have e1 := h8.loss
        have e2 := h8.tmo
        have e3 := h8.acc
        refine ⟨?_, ?_, ?_⟩
        · exact e2.trans (h6.trans h3)
        · refine Nat.le_trans (Nat.le_of_eq e1) ?_
          have h2' : (order.foldl (St.checkOne v) ({ s with timer := false } : St σ)).nLossDecr = s.nLossDecr := h2
          omega
        · refine Nat.le_trans (m := acc (order.foldl (St.checkOne v) ({ s with timer := false } : St σ))) ?_ (by omega)
          exact Nat.le_trans e3 (Nat.le_of_eq h7)
      · refine ⟨h3, ?_, ?_⟩
        · have h2' : (order.foldl (St.checkOne v) ({ s with timer := false } : St σ)).nLossDecr = s.nLossDecr := h2
          show (order.foldl (St.checkOne v) ({ s with timer := false } : St σ)).nLossDecr ≤ _
          omega
        · show acc (order.foldl (St.checkOne v) ({ s with timer := false } : St σ)) ≤ _
          omega

theorem timeouts_append (A : Alg σ ε) (o : Opts) (s : St σ) (es : List (Ev ε)) (e : Ev ε) :
    timeouts A o s (es ++ [e]) = timeouts A o s es + timeoutsIn (es.foldl (St.step A o) s) e := by
  induction es generalizing s with
  | nil => show timeoutsIn s e + 0 = 0 + _; rw [Nat.zero_add]; rfl
  | cons x es ih =>
    show timeoutsIn s x + timeouts A o (s.step A o x) (es ++ [e]) = timeoutsIn s x + timeouts A o (s.step A o x) es + _
    rw [ih, Nat.add_assoc]; rfl

theorem run_foldl {A : Alg σ ε} {o : Opts} {w : σ} {v : Env ε} {es s} (h : (machine A o w v).Run es s) :
    es.foldl (St.step A o) (start A o w v) = s := by
  induction h with
  | nil => rfl
  | snoc e _ _ ih => rw [List.foldl_append, ih]; rfl

theorem bounds {A : Alg σ ε} {o : Opts} {w : σ} {v : Env ε} {es s} (h : (machine A o w v).Run es s) :
    s.nLossDecr ≤ s.nTimeouts + es.countP Ev.isCongestion ∧ acc s ≤ s.nTimeouts + es.countP Ev.isCongestion := by
  induction h with
  | nil =>
    have h1 := less_sched A o v ({ win := w, timer := true } : St σ)
    refine ⟨Nat.le_trans (Nat.le_of_eq h1.loss) (Nat.zero_le _), Nat.le_trans h1.acc (Nat.zero_le _)⟩
  | snoc e hr he ih =>
    rename_i es s
    obtain ⟨h1, h2, h3⟩ := step_cnt (A := A) (o := o) (run_wf hr) he
    have hst : (machine A o w v).step s e = s.step A o e := rfl
    rw [hst, List.countP_append, List.countP_singleton, h1]
    omega

/-- The size of what an entry of the history delivers. -/
def dlen : Obs → Nat
  | .data _ p => p.content.length
  | _ => 0

theorem sum_log {segs : List Bytes} {l : List Obs} (h : ∀ k p, Obs.data k p ∈ l → segs[k]? = some p.content) :
    (l.map dlen).sum = ((received l).map (fun k => (segs[k]?.getD []).length)).sum := by
  induction l with
  | nil => rfl
  | cons x l ih =>
    have ih := ih (fun k p hk => h k p (List.mem_cons_of_mem _ hk))
    rw [List.map_cons, List.sum_cons, ih]
    cases x with
    | data k p =>
      have := h k p List.mem_cons_self
      rw [show received (Obs.data k p :: l) = k :: received l from rfl, List.map_cons, List.sum_cons, this]
      rfl
    | interest k r => exact Nat.zero_add _
    | failure m => exact Nat.zero_add _
    | complete => exact Nat.zero_add _
    | sample k => exact Nat.zero_add _
    | incr => exact Nat.zero_add _
    | decr k m => exact Nat.zero_add _

theorem marks_le {A : Alg σ ε} {o : Opts} {w : σ} {v : Env ε} {es s} (h : (machine A o w v).Run es s) :
    s.nMarkDecr ≤ s.nCongMarks := by
  refine run_micro_inv (P := fun s => s.nMarkDecr ≤ s.nCongMarks) h ?_ ?_
  · exact Nat.le_refl _
  · intro s s' _ hi m
    cases m with
    | enqueue k x hx hs hcl =>
      have f := enqueue_fields s k
      dsimp only at f
      simp only [f]; exact hi
    | throwRange k hx _ hs hk =>
      have f := enqueue_fields s k
      dsimp only at f
      simp only [f]; exact hi
    | deliver s1 k x p hs hx hn ha =>
      cases ha <;> dsimp only at hi ⊢ <;> (first | (split <;> omega) | (simp_all; omega) | simp_all)
    | ub s1 k x p n hs hx hn hc ha =>
      cases ha <;> dsimp only at hi ⊢ <;> (first | (split <;> omega) | (simp_all; omega) | simp_all)
    | complete hs ha =>
      simp only [St.cancel, St.emit, hs]; exact hi
    | _ => exact hi

end Adaptive
end Verif
