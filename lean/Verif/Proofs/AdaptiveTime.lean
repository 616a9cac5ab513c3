import Verif.Spec.AdaptiveTime
import Verif.Proofs.AdaptiveMicro

/-! # Proofs about the adaptive pipeline with a clock -/

namespace Verif.AdaptiveTime

open Adaptive

variable {σ ε : Type}

/-! ## What sending does -/

/-- The pipeline forgets segments and does nothing visible. -/
structure Less (s s' : Adaptive.St σ) : Prop where
  log : s'.log = s.log
  win : s'.win = s.win
  queue : s'.retxQueue = s.retxQueue
  next : s'.nextSegmentNo = s.nextSegmentNo
  info : ∀ j x, get s'.info j = some x → get s.info j = some x

theorem Less.rfl' (s : Adaptive.St σ) : Less s s := ⟨rfl, rfl, rfl, rfl, fun _ _ h => h⟩

theorem Less.trans {s s' s'' : Adaptive.St σ} (h : Less s s') (h' : Less s' s'') : Less s s'' :=
  ⟨h'.log.trans h.log, h'.win.trans h.win, h'.queue.trans h.queue, h'.next.trans h.next, fun j x hx => h.info j x (h'.info j x hx)⟩

theorem less_cancel (s : Adaptive.St σ) : Less s s.cancel := by
  unfold St.cancel
  split
  · exact Less.rfl' s
  · exact ⟨rfl, rfl, rfl, rfl, fun j x h => by simp at h⟩

theorem less_onFailure (s : Adaptive.St σ) (m) : Less s (s.onFailure m) := by
  unfold St.onFailure
  split
  · exact Less.rfl' s
  · have := less_cancel s
    exact ⟨this.log, this.win, this.queue, this.next, this.info⟩

theorem less_cancelGreater (s : Adaptive.St σ) (k) : Less s (s.cancelGreater k) := by
  refine ⟨rfl, rfl, rfl, rfl, fun j x h => ?_⟩
  simp only [St.cancelGreater] at h
  rw [get_filter] at h
  split at h
  · exact h
  · simp at h

theorem less_handleFail (s : Adaptive.St σ) (k m) : Less s (s.handleFail k m) := by
  unfold St.handleFail
  split
  · exact Less.rfl' s
  split
  · exact less_onFailure s m
  split
  · have h1 : Less s { s with info := del s.info k, nInFlight := s.nInFlight - 1 } := by
      refine ⟨rfl, rfl, rfl, rfl, fun j x h => ?_⟩
      dsimp only at h
      rw [get_del] at h
      split at h
      · simp at h
      · exact h
    dsimp only
    split
    · exact h1.trans (less_onFailure _ _)
    · have h2 := h1.trans (less_cancelGreater _ k)
      exact ⟨h2.log, h2.win, h2.queue, h2.next, h2.info⟩
  · exact Less.rfl' s

/-- How the entries of the segment map come about: they were there, or an Interest was sent. -/
def InfoRel (v : Env ε) (s s' : Adaptive.St σ) (l : List Obs) : Prop :=
  ∀ k x', get s'.info k = some x' → (get s.info k = some x' ∧ ∀ b, Obs.interest k b ∉ l) ∨
    (x'.timeSent = v.now ∧ x'.rto = v.rto ∧ x'.state ≠ .inRetxQueue ∧ ∃ b, Obs.interest k b ∈ l)

theorem InfoRel.trans {v : Env ε} {s s' s'' : Adaptive.St σ} {l l'} (h : InfoRel v s s' l) (h' : InfoRel v s' s'' l') :
    InfoRel v s s'' (l ++ l') := by
  intro k x hx
  rcases h' k x hx with ⟨h1, h2⟩ | ⟨h1, h2, h3, b, h4⟩
  · rcases h k x h1 with ⟨h3, h4⟩ | ⟨h3, h4, h5, b, h6⟩
    · exact .inl ⟨h3, fun b hb => (List.mem_append.mp hb).elim (h4 b) (h2 b)⟩
    · exact .inr ⟨h3, h4, h5, b, List.mem_append_left _ h6⟩
  · exact .inr ⟨h1, h2, h3, b, List.mem_append_right _ h4⟩

theorem Less.infoRel (v : Env ε) {s s' : Adaptive.St σ} (h : Less s s') : InfoRel v s s' [] :=
  fun k x hx => .inl ⟨h.info k x hx, fun _ => by simp⟩

/-- `sendInterest` sends one Interest, or nothing. -/
theorem send_cases (s : Adaptive.St σ) (o : Opts) (v : Env ε) (k b) :
    Less s (s.sendInterest o v k b) ∨
    ((s.sendInterest o v k b).log = s.log ++ [.interest k b] ∧ (s.sendInterest o v k b).win = s.win ∧
      (s.sendInterest o v k b).retxQueue = s.retxQueue ∧ (s.sendInterest o v k b).nextSegmentNo = s.nextSegmentNo ∧
      ∃ x, x.timeSent = v.now ∧ x.rto = v.rto ∧ x.state ≠ SegState.inRetxQueue ∧
        (s.sendInterest o v k b).info = put s.info k x) := by
  unfold St.sendInterest
  split
  · exact .inl (Less.rfl' s)
  split
  · exact .inl (Less.rfl' s)
  split
  · exact .inl (Less.rfl' s)
  split
  · unfold St.sendAgain
    dsimp only
    split
    · refine .inl (Less.trans ?_ (less_handleFail _ k _))
      exact ⟨rfl, rfl, rfl, rfl, fun _ _ h => h⟩
    · rename_i hb _
      subst hb
      exact .inr ⟨rfl, rfl, rfl, rfl, _, rfl, rfl, by simp, rfl⟩
  · rename_i hb
    simp only [Bool.not_eq_true] at hb
    subst hb
    exact .inr ⟨rfl, rfl, rfl, rfl, _, rfl, rfl, by simp, rfl⟩

theorem infoRel_put {v : Env ε} {s s' : Adaptive.St σ} {k b} {x : Seg} (hx : x.timeSent = v.now ∧ x.rto = v.rto ∧ x.state ≠ .inRetxQueue)
    (h : s'.info = put s.info k x) : InfoRel v s s' [.interest k b] := by
  intro j y hy
  rw [h, get_put] at hy
  split at hy
  · rename_i hj
    cases hy
    exact .inr ⟨hx.1, hx.2.1, hx.2.2, b, by rw [hj]; simp⟩
  · rename_i hj
    exact .inl ⟨hy, fun b' hb' => by simp at hb'; exact hj hb'.1⟩

theorem sent_or_not (s : Adaptive.St σ) (o : Opts) (v : Env ε) (k b) :
    ∃ l, (l = [] ∨ l = [Obs.interest k b]) ∧ (s.sendInterest o v k b).log = s.log ++ l ∧ (s.sendInterest o v k b).win = s.win ∧
      (s.sendInterest o v k b).retxQueue = s.retxQueue ∧ (s.sendInterest o v k b).nextSegmentNo = s.nextSegmentNo ∧
      InfoRel v s (s.sendInterest o v k b) l := by
  rcases send_cases s o v k b with h | ⟨h1, h2, h3, h4, x, h5, h6, h7, h8⟩
  · exact ⟨[], .inl rfl, by rw [h.log]; simp, h.win, h.queue, h.next, h.infoRel v⟩
  · exact ⟨_, .inr rfl, h1, h2, h3, h4, infoRel_put ⟨h5, h6, h7⟩ h8⟩

theorem schedRetx_spec (o : Opts) (v : Env ε) (q : List Nat) (n : Nat) (s : Adaptive.St σ) (hq : s.retxQueue = q) :
    ∃ popped q' : List Nat, (St.schedRetx o v q n s).1.log = s.log ++ q'.map (Obs.interest · true) ∧
      q = popped ++ (St.schedRetx o v q n s).1.retxQueue ∧ q'.Sublist popped ∧
      (∀ k ∈ q', (get s.info k).isSome = true) ∧ (St.schedRetx o v q n s).1.win = s.win ∧
      (St.schedRetx o v q n s).1.nextSegmentNo = s.nextSegmentNo ∧
      InfoRel v s (St.schedRetx o v q n s).1 (q'.map (Obs.interest · true)) := by
  have triv : ∀ s : Adaptive.St σ, InfoRel v s s [] := fun s => (Less.rfl' s).infoRel v
  induction q generalizing n s with
  | nil => cases n <;> exact ⟨[], [], by simp [St.schedRetx], by simp [St.schedRetx, hq], by simp, by simp, by simp [St.schedRetx], by simp [St.schedRetx], by simpa [St.schedRetx] using triv s⟩
  | cons k q ih =>
    cases n with
    | zero => exact ⟨[], [], by simp [St.schedRetx], by simp [St.schedRetx, hq], by simp, by simp, by simp [St.schedRetx], by simp [St.schedRetx], by simpa [St.schedRetx] using triv s⟩
    | succ n =>
      unfold St.schedRetx
      dsimp only
      split
      · rename_i hk
        obtain ⟨l, hl, h1, h2, h3, h4, h5⟩ := sent_or_not { s with retxQueue := q } o v k true
        obtain ⟨po, q', g1, g2, g3, g4, g5, g6, g7⟩ := ih n ({ s with retxQueue := q }.sendInterest o v k true) h3
        have back : ∀ j, (get ({ s with retxQueue := q }.sendInterest o v k true).info j).isSome = true → (get s.info j).isSome = true := by
          intro j hj
          obtain ⟨x, hx⟩ := Option.isSome_iff_exists.mp hj
          rcases h5 j x hx with ⟨h, -⟩ | ⟨-, -, -, b, h⟩
          · rw [show get s.info j = _ from h]; rfl
          · rcases hl with rfl | rfl
            · simp at h
            · simp at h
              rw [h.1]; exact hk
        rcases hl with rfl | rfl
        · refine ⟨k :: po, q', by rw [g1, h1]; simp, by simpa using g2, g3.cons _, fun j hj => back j (g4 j hj), g5.trans h2,
            g6.trans h4, ?_⟩
          exact (InfoRel.trans (s := s) h5 g7)
        · refine ⟨k :: po, k :: q', by rw [g1, h1]; simp, by simpa using g2, g3.cons_cons k, ?_, g5.trans h2,
            g6.trans h4, ?_⟩
          · intro j hj
            rcases List.mem_cons.mp hj with rfl | hj
            · exact hk
            · exact back j (g4 j hj)
          · exact (InfoRel.trans (s := s) h5 g7)
      · obtain ⟨po, q', g1, g2, g3, g4, g5, g6, g7⟩ := ih (n + 1) { s with retxQueue := q, nSkippedRetx := s.nSkippedRetx + 1 } rfl
        exact ⟨k :: po, q', g1, by simpa using g2, g3.cons _, g4, g5, g6, g7⟩

theorem schedNew_spec (o : Opts) (v : Env ε) (n : Nat) (s : Adaptive.St σ) :
    ∃ ns : List Nat, (St.schedNew o v n s).log = s.log ++ ns.map (Obs.interest · false) ∧ (St.schedNew o v n s).retxQueue = s.retxQueue ∧
      (∀ k ∈ ns, s.nextSegmentNo ≤ k) ∧ (St.schedNew o v n s).win = s.win ∧ s.nextSegmentNo ≤ (St.schedNew o v n s).nextSegmentNo ∧
      InfoRel v s (St.schedNew o v n s) (ns.map (Obs.interest · false)) := by
  induction n generalizing s with
  | zero => exact ⟨[], by simp [St.schedNew], rfl, by simp, rfl, Nat.le_refl _, (Less.rfl' s).infoRel v⟩
  | succ n ih =>
    unfold St.schedNew
    obtain ⟨l, hl, h1, h2, h3, h4, h5⟩ := sent_or_not { s with nextSegmentNo := s.nextSegmentNo + 1 } o v s.nextSegmentNo false
    obtain ⟨ns, g1, g2, g3, g4, g5, g6⟩ := ih ({ s with nextSegmentNo := s.nextSegmentNo + 1 }.sendInterest o v s.nextSegmentNo false)
    rw [h4] at g3 g5
    dsimp only at g3 g5
    have g7 : InfoRel v s _ _ := InfoRel.trans (s := s) h5 g6
    rcases hl with rfl | rfl
    · exact ⟨ns, by rw [g1, h1]; simp, g2.trans h3, fun k hk => by have := g3 k hk; omega, g4.trans h2, by omega, g7⟩
    · refine ⟨s.nextSegmentNo :: ns, by rw [g1, h1]; simp, g2.trans h3, ?_, g4.trans h2, by omega, g7⟩
      intro k hk
      rcases List.mem_cons.mp hk with rfl | hk
      · exact Nat.le_refl _
      · have := g3 k hk; omega

/-- What `schedulePackets` does: first some of the waiting segments are requested again, then new ones. -/
structure Sched (v : Env ε) (s s' : Adaptive.St σ) (popped again new : List Nat) : Prop where
  log : s'.log = s.log ++ (again.map (Obs.interest · true) ++ new.map (Obs.interest · false))
  queue : s.retxQueue = popped ++ s'.retxQueue
  sub : again.Sublist popped
  tracked : ∀ k ∈ again, (get s.info k).isSome = true
  win : s'.win = s.win
  next : s.nextSegmentNo ≤ s'.nextSegmentNo
  fresh : ∀ k ∈ new, s.nextSegmentNo ≤ k
  info : InfoRel v s s' (again.map (Obs.interest · true) ++ new.map (Obs.interest · false))

theorem schedulePackets_spec (A : Alg σ ε) (o : Opts) (v : Env ε) (s : Adaptive.St σ) :
    ∃ popped again new, Sched v s (s.schedulePackets A o v) popped again new := by
  unfold St.schedulePackets
  dsimp only
  generalize hs0 : { s with assertFailed := s.assertFailed || decide (s.nInFlight < 0) } = s0
  have e1 : s0.log = s.log := by rw [← hs0]
  have e2 : s0.info = s.info := by rw [← hs0]
  have e3 : s0.retxQueue = s.retxQueue := by rw [← hs0]
  have e4 : s0.win = s.win := by rw [← hs0]
  have e5 : s0.nextSegmentNo = s.nextSegmentNo := by rw [← hs0]
  obtain ⟨po, q', g1, g2, g3, g4, g5, g6, g7⟩ := schedRetx_spec o v s.retxQueue (A.slots s.win - s.nInFlight).toNat s0 e3
  obtain ⟨ns, f1, f2, f3, f4, f5, f6⟩ := schedNew_spec o v (St.schedRetx o v s.retxQueue (A.slots s.win - s.nInFlight).toNat s0).2
    (St.schedRetx o v s.retxQueue (A.slots s.win - s.nInFlight).toNat s0).1
  refine ⟨po, q', ns, ⟨?_, ?_, g3, ?_, ?_, ?_, ?_, ?_⟩⟩
  · rw [f1, g1, e1, List.append_assoc]
  · rw [f2]; exact g2
  · rw [← e2]; exact g4
  · rw [f4, g5, e4]
  · rw [g6, e5] at f5; exact f5
  · rw [g6, e5] at f3; exact f3
  · have := g7.trans f6
    intro k x hx
    have := this k x hx
    rw [e2] at this
    exact this

/-- Nothing is sent. -/
theorem sched_less (v : Env ε) {s s' : Adaptive.St σ} (h : Less s s') : Sched v s s' [] [] [] :=
  ⟨by rw [h.log]; simp, by rw [h.queue]; simp, by simp, by simp, h.win, Nat.le_of_eq h.next.symm, by simp, h.infoRel v⟩

theorem Sched.more {v : Env ε} {s s' s'' : Adaptive.St σ} {p a n} (h : Sched v s s' p a n) (h' : Less s' s'') : Sched v s s'' p a n := by
  refine ⟨by rw [h'.log]; exact h.log, by rw [h'.queue]; exact h.queue, h.sub, h.tracked, h'.win.trans h.win,
    by rw [h'.next]; exact h.next, h.fresh, ?_⟩
  intro k x hx
  exact h.info k x (h'.info k x hx)

/-! ## What happens before sending -/

/-- The window is changed. -/
def chg : Obs → Bool
  | .incr => true
  | .decr _ _ => true
  | _ => false

/-- The part of an event before `schedulePackets`: nothing is sent, the segments `m` are put into the queue. -/
structure Pre (A : Alg σ ε) (e : Adaptive.Ev ε) (s s1 : Adaptive.St σ) (l : List Obs) (m : List Nat) : Prop where
  log : s1.log = s.log ++ l
  noInt : ∀ k b, Obs.interest k b ∉ l
  queue : s1.retxQueue = s.retxQueue ++ m
  nodup : m.Nodup
  loss : ∀ k ∈ m, LossFor s k e
  next : s1.nextSegmentNo = s.nextSegmentNo
  info : ∀ k x1, get s1.info k = some x1 → ∃ x, get s.info k = some x ∧ x1.timeSent = x.timeSent ∧ x1.rto = x.rto ∧
    if k ∈ m then x1.state = .inRetxQueue else x1.state = x.state
  win : ((∀ c ∈ l, chg c = false) ∧ s1.win = s.win) ∨
    ∃ a c b, l = a ++ c :: b ∧ Follows A s.win c s1.win ∧ (∀ c ∈ a, chg c = false) ∧ ∀ c ∈ b, chg c = false
  sample : ∀ k, Obs.sample k ∈ l → (∃ x, get s.info k = some x) ∧ ∃ p, Obs.data k p ∈ l

theorem Pre.less {A : Alg σ ε} {e : Adaptive.Ev ε} {s s1 s2 : Adaptive.St σ} {l m} (h : Pre A e s s1 l m) (h' : Less s1 s2) :
    Pre A e s s2 l m := by
  refine ⟨by rw [h'.log]; exact h.log, h.noInt, by rw [h'.queue]; exact h.queue, h.nodup, h.loss, h'.next.trans h.next, ?_,
    by rw [h'.win]; exact h.win, h.sample⟩
  intro k x hx
  exact h.info k x (h'.info k x hx)

theorem pre_refl (A : Alg σ ε) (e : Adaptive.Ev ε) (s : Adaptive.St σ) : Pre A e s s [] [] :=
  ⟨by simp, by simp, by simp, by simp, by simp, rfl, fun k x h => ⟨x, h, rfl, rfl, by simp⟩, .inl ⟨by simp, rfl⟩, by simp⟩

theorem pre_called (A : Alg σ ε) (e : Adaptive.Ev ε) (s : Adaptive.St σ) (k : Nat) : Pre A e s (s.called k) [] [] := by
  refine ⟨by simp [St.called], by simp, by simp [St.called], by simp, by simp, rfl, ?_, .inl ⟨by simp, rfl⟩, by simp⟩
  intro j x hx
  rw [get_called] at hx
  split at hx
  · rename_i hj
    subst hj
    cases h : get s.info j with
    | none => rw [h] at hx; simp at hx
    | some y =>
      rw [h] at hx
      simp at hx
      subst hx
      exact ⟨y, rfl, rfl, rfl, by simp⟩
  · exact ⟨x, hx, rfl, rfl, by simp⟩

theorem get_enqueue {s : Adaptive.St σ} {k j : Nat} {x} (h : get (s.enqueueForRetransmission k).info j = some x) :
    ∃ y, get s.info j = some y ∧ x.timeSent = y.timeSent ∧ x.rto = y.rto ∧
      if j = k then x.state = .inRetxQueue else x.state = y.state := by
  unfold St.enqueueForRetransmission at h
  dsimp only at h
  cases hk : get s.info k with
  | none =>
    rw [hk] at h
    dsimp only at h
    have hj : j ≠ k := by rintro rfl; rw [hk] at h; cases h
    exact ⟨x, h, rfl, rfl, by rw [if_neg hj]⟩
  | some y =>
    rw [hk] at h
    dsimp only at h
    rw [get_put] at h
    split at h
    · rename_i hj
      subst hj
      cases h
      exact ⟨y, hk, rfl, rfl, by rw [if_pos rfl]⟩
    · rename_i hj
      exact ⟨x, h, rfl, rfl, by rw [if_neg hj]⟩

theorem enqueue_queue (s : Adaptive.St σ) (k : Nat) : (s.enqueueForRetransmission k).retxQueue = s.retxQueue ++ [k] := by
  unfold St.enqueueForRetransmission; dsimp only; split <;> rfl

theorem enqueue_win (s : Adaptive.St σ) (k : Nat) : (s.enqueueForRetransmission k).win = s.win := by
  unfold St.enqueueForRetransmission; dsimp only; split <;> rfl

theorem enqueue_next (s : Adaptive.St σ) (k : Nat) : (s.enqueueForRetransmission k).nextSegmentNo = s.nextSegmentNo := by
  unfold St.enqueueForRetransmission; dsimp only; split <;> rfl

theorem pre_record {A : Alg σ ε} {e : Adaptive.Ev ε} {s s1 : Adaptive.St σ} {l m} (h : Pre A e s s1 l m) (hl : l = [])
    (o : Opts) (v : Env ε) (k : Nat) : ∃ l', Pre A e s (s1.recordTimeout A o v k) l' m := by
  subst hl
  unfold St.recordTimeout
  split
  · have hw : s1.win = s.win := by
      rcases h.win with h | ⟨a, c, b, h, -⟩
      · exact h.2
      · simp at h
    refine ⟨[.decr k false], ⟨by rw [h.log]; simp, by simp, h.queue, h.nodup, h.loss, h.next, h.info, .inr ⟨[], _, [], rfl, ?_, by simp, by simp⟩,
      by simp⟩⟩
    rw [← hw]
    exact .inr ⟨k, false, rfl, v.win, rfl⟩
  · exact ⟨[], h⟩

/-- The loss of the Interest for one segment. -/
theorem phases_lossOf (A : Alg σ ε) (o : Opts) (v : Env ε) (s : Adaptive.St σ) (k : Nat) (e : Adaptive.Ev ε) (n : Nat) (he : LossFor s k e) :
    ∃ s1 l m, Pre A e s s1 l m ∧ ∃ p a ns, Sched v s1 ({ s.called k with nTimeouts := n }.lossOf A o v k) p a ns := by
  have h0 : Pre A e s ({ s.called k with nTimeouts := n }.enqueueForRetransmission k) [] [k] := by
    have hc := pre_called A e s k
    refine ⟨?_, by simp, ?_, by simp, ?_, ?_, ?_, .inl ⟨by simp, ?_⟩, by simp⟩
    · rw [enqueue_log]; exact hc.log
    · rw [enqueue_queue]; rfl
    · intro j hj
      rw [List.mem_singleton] at hj
      subst hj; exact he
    · rw [enqueue_next]; rfl
    · intro j x hx
      obtain ⟨y, h1, h2, h3, h4⟩ := get_enqueue hx
      obtain ⟨z, g1, g2, g3, g4⟩ := hc.info j y h1
      refine ⟨z, g1, h2.trans g2, h3.trans g3, ?_⟩
      simp only [List.mem_singleton]
      simp only [List.not_mem_nil, if_false] at g4
      split at h4
      · rename_i hj; rw [if_pos hj]; exact h4
      · rename_i hj; rw [if_neg hj]; exact h4.trans g4
    · rw [enqueue_win]; rfl
  unfold St.lossOf
  dsimp only
  split
  · exact ⟨_, _, _, h0, _, _, _, sched_less v (Less.rfl' _)⟩
  · obtain ⟨l', h1⟩ := pre_record h0 rfl o v k
    obtain ⟨p, a, ns, h2⟩ := schedulePackets_spec A o v (St.recordTimeout ({ s.called k with nTimeouts := n }.enqueueForRetransmission k) A o v k)
    exact ⟨_, _, _, h1, p, a, ns, h2⟩

/-! ## The RTO check -/

theorem checkOne_get (v : Env ε) (s : Adaptive.St σ) (k j : Nat) (hj : j ≠ k) : get (s.checkOne v k).info j = get s.info j := by
  unfold St.checkOne
  split
  · rfl
  split
  · rename_i x hx hc
    unfold St.enqueueForRetransmission
    dsimp only
    rw [hx]
    dsimp only
    rw [get_put, if_neg hj]
  · rfl

theorem expired_congr (v : Env ε) {s s' : Adaptive.St σ} {order : List Nat} (h : ∀ k ∈ order, get s'.info k = get s.info k) :
    s'.expired v order = s.expired v order := by
  unfold St.expired
  apply List.filter_congr
  intro k hk
  rw [h k hk]

/-- The loop of `checkRto`. -/
theorem checkLoop_spec (v : Env ε) (order : List Nat) (hn : order.Nodup) (s : Adaptive.St σ) :
    (order.foldl (St.checkOne v) s).log = s.log ∧ (order.foldl (St.checkOne v) s).win = s.win ∧
    (order.foldl (St.checkOne v) s).nextSegmentNo = s.nextSegmentNo ∧
    (order.foldl (St.checkOne v) s).retxQueue = s.retxQueue ++ s.expired v order ∧
    ∀ k, get (order.foldl (St.checkOne v) s).info k =
      (get s.info k).map fun x => if k ∈ s.expired v order then { x with state := .inRetxQueue } else x := by
  induction order generalizing s with
  | nil => exact ⟨rfl, rfl, rfl, by simp [St.expired], fun k => by simp [St.expired]⟩
  | cons k l ih =>
    rw [List.nodup_cons] at hn
    obtain ⟨h1, h2, h3, h4, h5⟩ := ih hn.2 (s.checkOne v k)
    rw [List.foldl_cons]
    have hc : (s.checkOne v k).expired v l = s.expired v l :=
      expired_congr v fun j hj => checkOne_get v s k j (by rintro rfl; exact hn.1 hj)
    rw [hc] at h4 h5
    have hkl : k ∉ s.expired v l := fun h => hn.1 (List.mem_of_mem_filter h)
    rw [h1, h2, h3, h4]
    cases hx : get s.info k with
    | none =>
      have e1 : s.checkOne v k = s := by unfold St.checkOne; rw [hx]
      have e2 : s.expired v (k :: l) = s.expired v l := by
        unfold St.expired
        rw [List.filter_cons, if_neg (by rw [hx]; simp)]
      rw [e1] at h5 ⊢
      rw [e2]
      exact ⟨rfl, rfl, rfl, rfl, h5⟩
    | some x =>
      by_cases hc : x.state ≠ .inRetxQueue ∧ v.now > x.timeSent + x.rto
      · have e1 : s.checkOne v k = { s with nTimeouts := s.nTimeouts + 1 }.enqueueForRetransmission k := by
          unfold St.checkOne; rw [hx]; dsimp only; rw [if_pos hc]
        have e2 : s.expired v (k :: l) = k :: s.expired v l := by
          unfold St.expired
          rw [List.filter_cons, if_pos (by rw [hx]; simpa using hc)]
        rw [e1] at h5 ⊢
        rw [e2]
        refine ⟨enqueue_log _ _, enqueue_win _ _, enqueue_next _ _, by rw [enqueue_queue]; simp, ?_⟩
        intro j
        rw [h5 j]
        have hg : get ({ s with nTimeouts := s.nTimeouts + 1 }.enqueueForRetransmission k).info j =
            if j = k then some { x with state := .inRetxQueue } else get s.info j := by
          unfold St.enqueueForRetransmission
          dsimp only
          rw [hx]
          dsimp only
          rw [get_put]
        rw [hg]
        by_cases hj : j = k
        · subst hj
          rw [if_pos rfl, hx, Option.map_some, Option.map_some, if_neg hkl, if_pos (by simp)]
        · rw [if_neg hj]
          simp [hj]
      · have e1 : s.checkOne v k = s := by unfold St.checkOne; rw [hx]; dsimp only; rw [if_neg hc]
        have e2 : s.expired v (k :: l) = s.expired v l := by
          unfold St.expired
          rw [List.filter_cons, if_neg (by rw [hx]; simpa using hc)]
        rw [e1] at h5 ⊢
        rw [e2]
        exact ⟨rfl, rfl, rfl, rfl, h5⟩

theorem mem_expired {v : Env ε} {s : Adaptive.St σ} {order : List Nat} {k : Nat} :
    k ∈ s.expired v order ↔ k ∈ order ∧ ∃ x, get s.info k = some x ∧ x.state ≠ .inRetxQueue ∧ v.now > x.timeSent + x.rto := by
  unfold St.expired
  rw [List.mem_filter]
  cases get s.info k <;> simp

/-- `checkRto` in two phases; afterwards no segment is in flight for longer than its RTO, unless it was sent now. -/
theorem phases_checkRto (A : Alg σ ε) (o : Opts) (v : Env ε) (s : Adaptive.St σ) (b : Bool) (order : List Nat) (hn : order.Nodup)
    (hp : ∀ k, (get s.info k).isSome = true → k ∈ order) (hs : s.isStopping = false) :
    ∃ s1 l m, Pre A (.check order v) s s1 l m ∧
      (∃ p a ns, Sched v s1 ({ s with timer := b }.checkRto A o v order) p a ns) ∧
      ∀ k x, get s1.info k = some x → x.state ≠ .inRetxQueue → v.now ≤ x.timeSent + x.rto := by
  unfold St.checkRto
  rw [if_neg (by simp [hs])]
  dsimp only
  obtain ⟨h1, h2, h3, h4, h5⟩ := checkLoop_spec v order hn { s with timer := b }
  generalize ht : order.foldl (St.checkOne v) { s with timer := b } = t at h1 h2 h3 h4 h5
  have hexp : ({ s with timer := b } : Adaptive.St σ).expired v order = s.expired v order := rfl
  rw [hexp] at h4 h5 ⊢
  dsimp only at h1 h2 h3 h4 h5
  have hpre : Pre A (.check order v) s t [] (s.expired v order) := by
    refine ⟨by rw [h1]; simp, by simp, h4, hn.filter _, ?_, h3, ?_, .inl ⟨by simp, h2⟩, by simp⟩
    · intro k hk
      exact (mem_expired.mp hk).2
    · intro k x hx
      rw [h5] at hx
      cases hg : get s.info k with
      | none => rw [hg] at hx; simp at hx
      | some y =>
        rw [hg, Option.map_some] at hx
        cases hx
        refine ⟨y, rfl, ?_⟩
        by_cases hm : k ∈ s.expired v order
        · simp [hm]
        · simp [hm]
  have hdead : ∀ k x, get t.info k = some x → x.state ≠ .inRetxQueue → v.now ≤ x.timeSent + x.rto := by
    intro k x hx hst
    rw [h5] at hx
    cases hg : get s.info k with
    | none => rw [hg] at hx; simp at hx
    | some y =>
      rw [hg, Option.map_some] at hx
      by_cases hm : k ∈ s.expired v order
      · rw [if_pos hm] at hx
        cases hx
        exact absurd rfl hst
      · rw [if_neg hm] at hx
        cases hx
        by_contra hlt
        exact hm (mem_expired.mpr ⟨hp k (by rw [hg]; rfl), x, hg, hst, by omega⟩)
  split
  · obtain ⟨l', g1⟩ := pre_record hpre rfl o v ((s.expired v order).foldl max 0)
    obtain ⟨p, a, ns, g2⟩ := schedulePackets_spec A o v (t.recordTimeout A o v ((s.expired v order).foldl max 0))
    refine ⟨_, l', _, g1, ⟨p, a, ns, g2.more ⟨rfl, rfl, rfl, rfl, fun _ _ h => h⟩⟩, ?_⟩
    intro k x hx
    apply hdead k x
    unfold St.recordTimeout at hx
    split at hx <;> exact hx
  · exact ⟨t, [], _, hpre, ⟨[], [], [], sched_less v ⟨rfl, rfl, rfl, rfl, fun _ _ h => h⟩⟩, hdead⟩

/-! ## Data -/

theorem less_handleFinal (s : Adaptive.St σ) (p : Pkt) : Less s (s.handleFinal p).1 := by
  unfold St.handleFinal
  split
  · exact Less.rfl' s
  split
  · exact Less.rfl' s
  · exact ⟨rfl, rfl, rfl, rfl, fun _ _ h => h⟩
  · rename_i n hn
    have h1 : Less s ({ s with lastSegmentNo := n, hasFinalBlockId := true }.cancelGreater n) :=
      Less.trans (s' := { s with lastSegmentNo := n, hasFinalBlockId := true }) ⟨rfl, rfl, rfl, rfl, fun _ _ h => h⟩ (less_cancelGreater _ n)
    dsimp only
    split
    · exact h1.trans (less_onFailure _ _)
    · exact ⟨h1.log, h1.win, h1.queue, h1.next, h1.info⟩

/-- The window adaptation. -/
theorem adapt_spec (A : Alg σ ε) (o : Opts) (v : Env ε) (s : Adaptive.St σ) (k x p) :
    (s.adapt A o v k x p).info = s.info ∧ (s.adapt A o v k x p).retxQueue = s.retxQueue ∧
    (s.adapt A o v k x p).nextSegmentNo = s.nextSegmentNo ∧
    (((s.adapt A o v k x p).log = s.log ∧ (s.adapt A o v k x p).win = s.win) ∨
      ∃ c, (s.adapt A o v k x p).log = s.log ++ [c] ∧ Follows A s.win c (s.adapt A o v k x p).win ∧ chg c = true) := by
  unfold St.adapt
  dsimp only
  split
  · split
    · exact ⟨rfl, rfl, rfl, .inr ⟨_, rfl, .inr ⟨_, _, rfl, v.win, rfl⟩, rfl⟩⟩
    · exact ⟨rfl, rfl, rfl, .inl ⟨rfl, rfl⟩⟩
  · exact ⟨rfl, rfl, rfl, .inr ⟨_, rfl, .inl ⟨rfl, v.win, rfl⟩, rfl⟩⟩

theorem phases_handleSeg (A : Alg σ ε) (o : Opts) (v : Env ε) (s t : Adaptive.St σ) (e : Adaptive.Ev ε) (k p c)
    (h : Pre A e s t [] []) :
    ∃ s1 l m, Pre A e s s1 l m ∧ ∃ q a ns, Sched v s1 (t.handleSeg A o v k p c) q a ns := by
  unfold St.handleSeg
  cases hx : get t.info k with
  | none => exact ⟨_, _, _, h, _, _, _, sched_less v (Less.rfl' _)⟩
  | some x =>
    dsimp only
    obtain ⟨y, hy, -⟩ := h.info k x hx
    have hw : t.win = s.win := by
      rcases h.win with h | ⟨a, c, b, h, -⟩
      · exact h.2
      · simp at h
    have hlog : t.log = s.log := by rw [h.log]; simp
    obtain ⟨h1, h2, h3, h4⟩ := adapt_spec A o v t k x p
    generalize t.adapt A o v k x p = u at h1 h2 h3 h4
    -- a state that differs from `u` in the history and in fewer entries
    have key : ∀ (w : Adaptive.St σ) (d : List Obs), w.log = u.log ++ d → w.win = u.win → w.retxQueue = u.retxQueue →
        w.nextSegmentNo = u.nextSegmentNo → (∀ j z, get w.info j = some z → get u.info j = some z) →
        (∀ c ∈ d, chg c = false) → (∀ j b, Obs.interest j b ∉ d) → (∀ j, Obs.sample j ∈ d → j = k ∧ .data k p ∈ d) → ∃ l, Pre A e s w l [] := by
      intro w d w1 w2 w3 w4 w5 d1 d2 d3
      rcases h4 with ⟨h4, h5⟩ | ⟨c', h4, h5, h6⟩
      · refine ⟨d, ⟨by rw [w1, h4, hlog], d2, by rw [w3, h2, h.queue], by simp, by simp, by rw [w4, h3, h.next], ?_,
          .inl ⟨d1, by rw [w2, h5, hw]⟩, ?_⟩⟩
        · intro j z hz
          have := w5 j z hz
          rw [h1] at this
          exact h.info j z this
        · intro j hj
          rw [(d3 j hj).1]
          exact ⟨⟨y, hy⟩, p, (d3 j hj).2⟩
      · refine ⟨c' :: d, ⟨by rw [w1, h4, hlog]; simp, ?_, by rw [w3, h2, h.queue], by simp, by simp, by rw [w4, h3, h.next], ?_,
          .inr ⟨[], c', d, rfl, by rw [w2, ← hw]; exact h5, by simp, d1⟩, ?_⟩⟩
        · intro j b hj
          rcases List.mem_cons.mp hj with hj | hj
          · rw [← hj] at h6; cases h6
          · exact d2 j b hj
        · intro j z hz
          have := w5 j z hz
          rw [h1] at this
          exact h.info j z this
        · intro j hj
          rcases List.mem_cons.mp hj with hj | hj
          · rw [← hj] at h6; cases h6
          · rw [(d3 j hj).1]
            exact ⟨⟨y, hy⟩, p, List.mem_cons_of_mem _ (d3 j hj).2⟩
    split
    · obtain ⟨l, hl⟩ := key { u.onData k p with isStopping := true, timer := false, info := [], ub := true } [.data k p] rfl rfl rfl rfl
        (fun j z hz => by simp at hz) (by simp [chg]) (by simp) (by simp)
      exact ⟨_, _, _, hl, _, _, _, sched_less v (Less.rfl' _)⟩
    · unfold St.finish
      dsimp only
      have hd : ∃ d, (u.deliver k x p).log = u.log ++ d ∧ (u.deliver k x p).win = u.win ∧ (u.deliver k x p).retxQueue = u.retxQueue ∧
          (u.deliver k x p).nextSegmentNo = u.nextSegmentNo ∧ (u.deliver k x p).info = u.info ∧
          (d = [.data k p] ∨ d = [.data k p, .sample k]) := by
        unfold St.deliver
        dsimp only
        split
        · exact ⟨_, by simp [St.emit, St.onData], rfl, rfl, rfl, rfl, .inr rfl⟩
        · exact ⟨_, by simp [St.onData], rfl, rfl, rfl, rfl, .inl rfl⟩
      obtain ⟨d, d1, d2, d3, d4, d5, d6⟩ := hd
      generalize u.deliver k x p = w at d1 d2 d3 d4 d5
      have hdel : ∀ j z, get (del w.info k) j = some z → get u.info j = some z := by
        intro j z hz
        rw [d5, get_del] at hz
        split at hz
        · cases hz
        · exact hz
      have hchg : ∀ c ∈ d, chg c = false := by rcases d6 with rfl | rfl <;> simp [chg]
      have hint : ∀ j b, Obs.interest j b ∉ d := by rcases d6 with rfl | rfl <;> simp
      have hsmp : ∀ j, Obs.sample j ∈ d → j = k ∧ .data k p ∈ d := by rcases d6 with rfl | rfl <;> simp
      split
      · have hl := less_cancel { w with info := del w.info k }
        obtain ⟨l, hpre⟩ := key (({ w with info := del w.info k }.cancel).emit .complete) (d ++ [.complete])
          (by simp only [St.emit]; rw [hl.log]; dsimp only; rw [d1, List.append_assoc])
          (by simp only [St.emit]; rw [hl.win]; exact d2) (by simp only [St.emit]; rw [hl.queue]; exact d3)
          (by simp only [St.emit]; rw [hl.next]; exact d4)
          (fun j z hz => hdel j z (hl.info j z hz))
          (fun c hc => by
            rcases List.mem_append.mp hc with hc | hc
            · exact hchg c hc
            · rw [List.mem_singleton.mp hc]; rfl)
          (fun j b hc => by
            rcases List.mem_append.mp hc with hc | hc
            · exact hint j b hc
            · simp at hc)
          (fun j hc => by
            rcases List.mem_append.mp hc with hc | hc
            · exact ⟨(hsmp j hc).1, List.mem_append_left _ (hsmp j hc).2⟩
            · simp at hc)
        exact ⟨_, _, _, hpre, _, _, _, sched_less v (Less.rfl' _)⟩
      · obtain ⟨l, hpre⟩ := key { w with info := del w.info k } d d1 d2 d3 d4 hdel hchg hint hsmp
        obtain ⟨q, a, ns, hs⟩ := schedulePackets_spec A o v { w with info := del w.info k }
        exact ⟨_, _, _, hpre, q, a, ns, hs⟩

/-! ## Every event -/

theorem phases (A : Alg σ ε) (o : Opts) (v0 : Env ε) {s : Adaptive.St σ} (hwf : WF s) (e : Adaptive.Ev ε) (he : s.enabled e) :
    ∃ s1 l m, Pre A e s s1 l m ∧ (∃ q a ns, Sched ((env? e).getD v0) s1 (s.step A o e) q a ns) ∧
      (isCheck e = true → s.isStopping = false → s.threw = none → s.ub = false →
        ∀ k x, get s1.info k = some x → x.state ≠ .inRetxQueue → ((env? e).getD v0).now ≤ x.timeSent + x.rto) := by
  unfold Adaptive.St.step
  split
  · rename_i h
    refine ⟨s, [], [], pre_refl A e s, ⟨[], [], [], sched_less _ (Less.rfl' s)⟩, fun _ _ h1 h2 => ?_⟩
    rw [h1, h2] at h
    simp at h
  rename_i hg
  cases e with
  | data k p c v =>
    dsimp only [env?, Option.getD_some]
    have key : ∃ s1 l m, Pre A (.data k p c v) s s1 l m ∧ ∃ q a ns, Sched v s1 ((s.called k).handleData A o v k p c) q a ns := by
      unfold St.handleData
      split
      · exact ⟨_, _, _, pre_called A _ s k, _, _, _, sched_less v (Less.rfl' _)⟩
      dsimp only
      have h1 := (pre_called A (.data k p c v) s k).less (less_handleFinal (s.called k) p)
      split
      · exact phases_handleSeg A o v s _ _ k p c h1
      · exact ⟨_, _, _, h1, _, _, _, sched_less v (Less.rfl' _)⟩
    obtain ⟨s1, l, m, h1, h2⟩ := key
    exact ⟨s1, l, m, h1, h2, fun h => by cases h⟩
  | nack k r v =>
    dsimp only [env?, Option.getD_some]
    have key : ∃ s1 l m, Pre A (.nack k r v) s s1 l m ∧ ∃ q a ns, Sched v s1 ((s.called k).handleNack A o v k r) q a ns := by
      unfold St.handleNack
      have hc := pre_called A (.nack k r v) s k
      split
      · exact ⟨_, _, _, hc, _, _, _, sched_less v (Less.rfl' _)⟩
      split
      · exact ⟨_, _, _, hc, _, _, _, sched_less v (Less.rfl' _)⟩
      · exact phases_lossOf A o v s k _ (s.called k).nTimeouts ⟨rfl, rfl⟩
      · exact ⟨_, _, _, hc, _, _, _, sched_less v (less_handleFail _ _ _)⟩
    obtain ⟨s1, l, m, h1, h2⟩ := key
    exact ⟨s1, l, m, h1, h2, fun h => by cases h⟩
  | expire k v =>
    dsimp only [env?, Option.getD_some]
    have key : ∃ s1 l m, Pre A (.expire k v) s s1 l m ∧ ∃ q a ns, Sched v s1 ((s.called k).handleLifetimeExpiration A o v k) q a ns := by
      unfold St.handleLifetimeExpiration
      split
      · exact ⟨_, _, _, pre_called A (.expire k v) s k, _, _, _, sched_less v (Less.rfl' _)⟩
      · exact phases_lossOf A o v s k _ ((s.called k).nTimeouts + 1) rfl
    obtain ⟨s1, l, m, h1, h2⟩ := key
    exact ⟨s1, l, m, h1, h2, fun h => by cases h⟩
  | check order v =>
    dsimp only [env?, Option.getD_some]
    have hperm : order.Perm (s.info.map (·.1)) := he.2
    rcases Bool.eq_false_or_eq_true s.isStopping with hs | hs
    · refine ⟨s, [], [], pre_refl A _ s, ⟨[], [], [], sched_less v ?_⟩, fun _ h => by rw [hs] at h; cases h⟩
      unfold St.checkRto
      rw [if_pos (by exact hs)]
      exact ⟨rfl, rfl, rfl, rfl, fun _ _ h => h⟩
    · obtain ⟨s1, l, m, h1, h2, h3⟩ := phases_checkRto A o v s false order (hperm.nodup_iff.mpr hwf.nodup)
        (fun k hk => hperm.mem_iff.mpr (get_isSome.mp hk)) hs
      exact ⟨s1, l, m, h1, h2, fun _ _ _ _ => h3⟩
  | cancel => exact ⟨s, [], [], pre_refl A _ s, ⟨[], [], [], sched_less _ (less_cancel s)⟩, fun h => by cases h⟩
  | posted =>
    dsimp only
    split
    · exact ⟨s, [], [], pre_refl A _ s, ⟨[], [], [], sched_less _ (Less.rfl' s)⟩, fun h => by cases h⟩
    · rename_i msg rest hp
      refine ⟨{ s with posted := rest }.emit (.failure msg), [.failure msg], [], ?_, ⟨[], [], [], sched_less _ (Less.rfl' _)⟩, fun h => by cases h⟩
      exact ⟨rfl, by simp, by simp [St.emit], by simp, by simp, rfl, fun k x h => ⟨x, h, rfl, rfl, by simp⟩, .inl ⟨by simp [chg], rfl⟩, by simp⟩

end Verif.AdaptiveTime
