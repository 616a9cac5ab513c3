import Verif.Proofs.AdaptiveFair
import Verif.Proofs.CatchunksPipes

/-! # The adaptive pipeline over a network that does not lose too much: it can complete -/

namespace Verif.Adaptive

set_option linter.unusedSimpArgs false

variable {σ ε : Type} {L : Nat}

/-! ## Interests that were not answered are outstanding -/

def PendOut (s : St σ) : Prop := ∀ k x, get s.info k = some x → x.pending = true → k ∈ s.out

theorem pendOut_micro {A : Alg σ ε} {o : Opts} {al : Allow} {s s' : St σ} (h : PendOut s)
    (m : Micro A o al s s') : PendOut s' := by
  have hput : ∀ {t : St σ} {k y l}, t.out = s.out ++ l → get t.info = get (put s.info k y) →
      (y.pending = true → k ∈ s.out ++ l) → PendOut t := by
    intro t k y l e1 e2 e3 j x hx hp
    rw [e2, get_put] at hx
    rw [e1]
    split at hx
    · rename_i hjk; subst hjk
      cases hx
      exact e3 hp
    · exact List.mem_append_left _ (h j x hx hp)
  cases m with
  | called k hk =>
    intro j x hx hp
    rw [get_called] at hx
    split at hx
    · cases hg : get s.info k with
      | none => rw [hg] at hx; cases hx
      | some y => rw [hg] at hx; cases hx; cases hp
    · rename_i hjk
      exact (List.mem_erase_of_ne hjk).mpr (h j x hx hp)
  | stop => intro k x hx; cases hx
  | complete hs ha => intro k x hx; simp [St.cancel, St.emit, hs] at hx
  | new v hs hf hl => exact hput (l := [s.nextSegmentNo]) rfl rfl (by simp)
  | resend v k q hq hs hh hl hm => exact hput (l := [k]) rfl rfl (by simp)
  | fail k m q rc hs hf hk he hcl hl hq hm =>
    intro j x hx hp
    simp only [St.cancelGreater] at hx ⊢
    rw [get_filter, get_del] at hx
    split at hx
    · split at hx
      · cases hx
      · exact h j x hx hp
    · cases hx
  | enqueue k x hx hs hcl =>
    intro j y hy hp
    have e : (s.enqueueForRetransmission k).out = s.out := by
      unfold St.enqueueForRetransmission; dsimp only; split <;> rfl
    rw [get_enqueue hx] at hy
    rw [e]
    split at hy
    · rename_i hjk; subst hjk; cases hy; exact h j x hx hp
    · exact h j y hy hp
  | throwRange k hx hl hs hk =>
    intro j y hy hp
    unfold St.enqueueForRetransmission at hy ⊢
    dsimp only at hy ⊢
    rw [hx] at hy ⊢
    exact h j y hy hp
  | final k p n hs hf hn hp hcl =>
    intro j y hy hp
    simp only [St.cancelGreater] at hy ⊢
    rw [get_filter] at hy
    split at hy
    · exact h j y hy hp
    · cases hy
  | deliver s1 k x p hs hx hn ha hfin =>
    obtain ⟨_, _, _, e1, e2, _, _⟩ := adapts_frame ha
    intro j y hy hp
    dsimp only at hy ⊢
    rw [e1, get_del] at hy
    rw [e2]
    split at hy
    · cases hy
    · exact h j y hy hp
  | ub => intro k x hx; cases hx
  | _ => exact h

/-! ## Without Duplicate Nacks, segments in flight are outstanding -/

/-- Every segment in flight, of those below `L`, has an outstanding Interest. -/
def Flying (L : Nat) (s : St σ) : Prop :=
  ∀ k x, get s.info k = some x → (x.state ≠ .inRetxQueue ∧ k < L) → x.pending = true

theorem flying_of {s t : St σ} (h : Flying L s) (hi : ∀ k x, get t.info k = some x → get s.info k = some x) : Flying L t :=
  fun k x hx hs => h k x (hi k x hx) hs

theorem flying_onFailure {s : St σ} (h : Flying L s) (m) : Flying L (s.onFailure m) := by
  unfold St.onFailure St.cancel
  split
  · exact h
  · intro k x hx; cases hx

theorem flying_handleFail {s : St σ} (h : Flying L s) (k m) : Flying L (s.handleFail k m) := by
  have hd : ∀ j x, get (del s.info k) j = some x → get s.info j = some x := by
    intro j x hx
    rw [get_del] at hx
    split at hx
    · cases hx
    · exact hx
  unfold St.handleFail
  split
  · exact h
  split
  · exact flying_onFailure h m
  split
  · dsimp only
    split
    · exact flying_onFailure (flying_of h hd) _
    · refine flying_of h ?_
      intro j x hx
      simp only [St.cancelGreater] at hx
      rw [get_filter] at hx
      split at hx
      · exact hd j x hx
      · cases hx
  · exact h

theorem flying_transmit {s : St σ} (h : Flying L s) (v : Env ε) (k b) : Flying L (s.transmit v k b) := by
  intro j x hx hs
  simp only [St.transmit] at hx
  rw [get_put] at hx
  split at hx
  · cases hx; rfl
  · exact h j x hx hs

theorem flying_send {s : St σ} (h : Flying L s) (o : Opts) (v : Env ε) (k b) : Flying L (s.sendInterest o v k b) := by
  unfold St.sendInterest
  split
  · exact h
  split
  · exact h
  split
  · exact h
  split
  · unfold St.sendAgain
    dsimp only
    split
    · refine flying_handleFail ?_ _ _; exact h
    · refine flying_transmit ?_ _ _ _; exact h
  · exact flying_transmit h _ _ _

theorem flying_schedRetx (o : Opts) (v : Env ε) : ∀ (q : List Nat) (n : Nat) (s : St σ), Flying L s →
    Flying L (St.schedRetx o v q n s).1
  | _, 0, s, h => by unfold St.schedRetx; exact h
  | [], n + 1, s, h => by unfold St.schedRetx; exact h
  | k :: q, n + 1, s, h => by
    unfold St.schedRetx
    dsimp only
    split
    · exact flying_schedRetx o v q n _ (flying_send (s := { s with retxQueue := q }) h o v k true)
    · exact flying_schedRetx o v q (n + 1) _ h

theorem flying_schedNew (o : Opts) (v : Env ε) : ∀ (n : Nat) (s : St σ), Flying L s → Flying L (St.schedNew o v n s)
  | 0, s, h => by unfold St.schedNew; exact h
  | n + 1, s, h => by
    unfold St.schedNew
    exact flying_schedNew o v n _ (flying_send (s := { s with nextSegmentNo := s.nextSegmentNo + 1 }) h o v _ false)

theorem flying_schedulePackets {s : St σ} (h : Flying L s) (A : Alg σ ε) (o : Opts) (v : Env ε) :
    Flying L (s.schedulePackets A o v) := by
  unfold St.schedulePackets
  exact flying_schedNew o v _ _ (flying_schedRetx o v _ _ _ h)

theorem flying_recordTimeout {s : St σ} (h : Flying L s) (A : Alg σ ε) (o : Opts) (v : Env ε) (k) :
    Flying L (s.recordTimeout A o v k) := by
  unfold St.recordTimeout
  split <;> exact h

/-- Every segment in flight, except possibly `k`, has an outstanding Interest. -/
def FlyingBut (L k : Nat) (s : St σ) : Prop :=
  ∀ j x, get s.info j = some x → j ≠ k → (x.state ≠ .inRetxQueue ∧ j < L) → x.pending = true

theorem flyingBut_called {s : St σ} (h : Flying L s) (k) : FlyingBut L k (s.called k) := by
  intro j x hx hjk hs
  rw [get_called, if_neg hjk] at hx
  exact h j x hx hs

theorem flying_enqueue {s : St σ} {k} (h : FlyingBut L k s) : Flying L (s.enqueueForRetransmission k) := by
  intro j x hx hs
  cases hg : get s.info k with
  | none =>
    unfold St.enqueueForRetransmission at hx
    dsimp only at hx
    rw [hg] at hx
    dsimp only at hx
    have hjk : j ≠ k := by rintro rfl; rw [hg] at hx; cases hx
    exact h j x hx hjk hs
  | some y =>
    rw [get_enqueue hg] at hx
    split at hx
    · cases hx; exact absurd rfl hs.1
    · rename_i hjk; exact h j x hx hjk hs

theorem flying_lossOf {s : St σ} {k} (h : FlyingBut L k s) (A : Alg σ ε) (o : Opts) (v : Env ε) :
    Flying L (s.lossOf A o v k) := by
  unfold St.lossOf
  dsimp only
  split
  · exact flying_enqueue h
  · exact flying_schedulePackets (flying_recordTimeout (flying_enqueue h) _ _ _ _) _ _ _

theorem flying_checkOne {s : St σ} (h : Flying L s) (v : Env ε) (k) : Flying L (s.checkOne v k) := by
  unfold St.checkOne
  split
  · exact h
  · split
    · exact flying_enqueue (s := { s with nTimeouts := s.nTimeouts + 1 }) (fun j x hx _ hs => h j x hx hs)
    · exact h

theorem flying_checkLoop (v : Env ε) : ∀ (order : List Nat) (s : St σ), Flying L s →
    Flying L (order.foldl (St.checkOne v) s)
  | [], _, h => h
  | k :: l, s, h => flying_checkLoop v l _ (flying_checkOne h v k)

/-- `checkOne` finds every segment of `l` in flight that has no outstanding Interest. -/
theorem flying_rescue (v : Env ε) : ∀ (order : List Nat) (s : St σ),
    (∀ k x, get s.info k = some x → (x.state ≠ .inRetxQueue ∧ k < L) → x.pending = true ∨
      (k ∈ order ∧ v.now > x.timeSent + x.rto)) →
    Flying L (order.foldl (St.checkOne v) s)
  | [], s, h => by
    intro k x hx hs
    rcases h k x hx hs with h | h
    · exact h
    · simp at h
  | j :: l, s, h => by
    simp only [List.foldl_cons]
    apply flying_rescue v l
    intro k x hx hs
    unfold St.checkOne at hx
    cases hg : get s.info j with
    | none =>
      rw [hg] at hx
      dsimp only at hx
      have hkj : k ≠ j := by rintro rfl; rw [hg] at hx; cases hx
      rcases h k x hx hs with h | ⟨h1, h2⟩
      · exact Or.inl h
      · exact Or.inr ⟨(List.mem_cons.mp h1).resolve_left hkj, h2⟩
    | some y =>
      rw [hg] at hx
      dsimp only at hx
      split at hx
      · rw [get_enqueue (s := { s with nTimeouts := s.nTimeouts + 1 }) hg] at hx
        split at hx
        · cases hx; exact absurd rfl hs.1
        · rename_i hkj
          rcases h k x hx hs with h | ⟨h1, h2⟩
          · exact Or.inl h
          · exact Or.inr ⟨(List.mem_cons.mp h1).resolve_left hkj, h2⟩
      · rename_i hc
        rcases h k x hx hs with h | ⟨h1, h2⟩
        · exact Or.inl h
        · rcases List.mem_cons.mp h1 with h1 | h1
          · subst h1
            rw [hg] at hx
            cases hx
            exact absurd ⟨hs.1, h2⟩ hc
          · exact Or.inr ⟨h1, h2⟩

theorem flying_check {s : St σ} {A : Alg σ ε} {o : Opts} {v : Env ε} {order : List Nat}
    (h : ∀ k x, get s.info k = some x → (x.state ≠ .inRetxQueue ∧ k < L) → x.pending = true ∨
      (k ∈ order ∧ v.now > x.timeSent + x.rto)) (hs : s.isStopping = false) : Flying L (s.checkRto A o v order) := by
  unfold St.checkRto
  rw [if_neg (by simp [hs])]
  dsimp only
  have h1 := flying_rescue v order s h
  split
  · exact flying_schedulePackets (flying_recordTimeout h1 _ _ _ _) _ _ _
  · exact h1

theorem flying_handleFinal {s : St σ} {k} (h : FlyingBut L k s) (p : Pkt) : FlyingBut L k (s.handleFinal p).1 := by
  have hon : ∀ {t : St σ} m, FlyingBut L k t → FlyingBut L k (t.onFailure m) := by
    intro t m ht
    unfold St.onFailure St.cancel
    split
    · exact ht
    · intro j x hx; cases hx
  unfold St.handleFinal
  split
  · exact h
  split
  · exact h
  · exact h
  · rename_i n _
    have h1 : FlyingBut L k ({ s with lastSegmentNo := n, hasFinalBlockId := true }.cancelGreater n) := by
      intro j x hx hjk hs
      simp only [St.cancelGreater] at hx
      rw [get_filter] at hx
      split at hx
      · exact h j x hx hjk hs
      · cases hx
    dsimp only
    split
    · exact hon _ h1
    · exact h1

theorem flying_handleSeg {s : St σ} {k} (h : FlyingBut L k s) (A : Alg σ ε) (o : Opts) (v : Env ε) (p : Pkt) (c : Bool) :
    Flying L (s.handleSeg A o v k p c) := by
  unfold St.handleSeg
  cases hg : get s.info k with
  | none =>
    intro j x hx hs
    exact h j x hx (by rintro rfl; dsimp only at hx; rw [hg] at hx; cases hx) hs
  | some y =>
    dsimp only
    have ha : (s.adapt A o v k y p).info = s.info := by
      unfold St.adapt; dsimp only; split
      · split <;> rfl
      · rfl
    split
    · intro j x hx; cases hx
    · unfold St.finish
      dsimp only
      have hd : ((s.adapt A o v k y p).deliver k y p).info = s.info := by
        unfold St.deliver; dsimp only; split <;> exact ha
      generalize (s.adapt A o v k y p).deliver k y p = t at hd
      have h2 : Flying L { t with info := del t.info k } := by
        intro j x hx hs
        dsimp only at hx
        rw [hd, get_del] at hx
        split at hx
        · cases hx
        · rename_i hjk; exact h j x hx hjk hs
      split
      · unfold St.cancel
        split
        · exact h2
        · intro j x hx; cases hx
      · exact flying_schedulePackets h2 _ _ _

/-- No event other than a Duplicate Nack leaves a segment in flight without outstanding Interest, unless the
pipeline ends. -/
theorem flying_step {A : Alg σ ε} {o : Opts} {s : St σ} {e : Ev ε} (h : Flying L s) (hin : Within s)
    (hc : NoCancel e) (hd : ∀ k v, e = .nack k .duplicate v → k < L → get s.info k = none) :
    Flying L (s.step A o e) ∨ Ended (s.step A o e) := by
  unfold St.step
  split
  · exact Or.inl h
  rename_i hne
  cases e with
  | data k p c v =>
    dsimp only
    have h0 := flyingBut_called h k
    unfold St.handleData
    split
    · rename_i hs; exact Or.inr (Or.inl hs)
    · dsimp only
      have h1 := flying_handleFinal h0 p
      split
      · exact Or.inl (flying_handleSeg h1 _ _ _ _ _)
      · rename_i hs hb
        right
        unfold St.handleFinal at hb ⊢
        split at hb
        · simp at hb
        · rename_i hf
          rw [if_neg hf]
          split at hb
          · simp at hb
          · exact Or.inr (Or.inl rfl)
          · rename_i n hp
            dsimp only at hb ⊢
            split at hb
            · rename_i hcc
              rw [if_pos hcc]
              exact Or.inl (onFailure_stops _ _)
            · simp at hb
  | nack k r v =>
    dsimp only
    have h0 := flyingBut_called h k
    unfold St.handleNack
    split
    · rename_i hs; exact Or.inr (Or.inl hs)
    rename_i hs
    split
    · left
      have := hd k v rfl
      intro j x hx hst
      rw [get_called] at hx
      split at hx
      · rename_i hjk; subst hjk; rw [this hst.2] at hx; cases hx
      · exact h j x hx hst
    · exact Or.inl (flying_lossOf h0 _ _ _)
    · rename_i hr1 hr2
      unfold St.handleFail
      split
      · rename_i hs'; exact Or.inr (Or.inl hs')
      split
      · right; left; exact onFailure_stops _ _
      have hdel : Flying L { s.called k with info := del (s.called k).info k } := by
        intro j x hx hst
        dsimp only at hx
        rw [get_del] at hx
        split at hx
        · cases hx
        · rename_i hjk; exact h0 j x hx hjk hst
      split
      · dsimp only
        split
        · right; left; exact onFailure_stops _ _
        · left
          intro j x hx hst
          simp only [St.cancelGreater] at hx
          rw [get_filter] at hx
          split at hx
          · exact hdel j x hx hst
          · cases hx
      · rename_i h1 h2
        left
        intro j x hx hst
        by_cases hjk : j = k
        · subst hjk
          exfalso
          have hf : s.hasFinalBlockId = true := by
            have : (s.called j).hasFinalBlockId = true := by simpa using h2
            exact this
          have hk : (get s.info j).isSome = true := by
            cases hg : get s.info j with
            | none => rw [get_called_none.mpr hg] at hx; cases hx
            | some y => rfl
          exact h1 ⟨hf, hin hf j hk⟩
        · exact h0 j x hx hjk hst
  | expire k v =>
    dsimp only
    have h0 := flyingBut_called h k
    unfold St.handleLifetimeExpiration
    split
    · rename_i hs; exact Or.inr (Or.inl hs)
    · left
      exact flying_lossOf (s := { s.called k with nTimeouts := (s.called k).nTimeouts + 1 }) h0 _ _ _
  | check order v =>
    dsimp only
    by_cases hs : s.isStopping = true
    · right; left; unfold St.checkRto; rw [if_pos hs]; exact hs
    · left
      exact flying_check (s := { s with timer := false }) (fun k x hx hst => Or.inl (h k x hx hst)) (by simpa using hs)
  | cancel => exact hc.elim
  | posted =>
    dsimp only
    split
    · exact Or.inl h
    · exact Or.inl h

/-! ## Before the final segment is known, nothing waits for retransmission -/

theorem schedRetx_queue (o : Opts) (v : Env ε) : ∀ (q : List Nat) (n : Nat) (s : St σ), s.retxQueue = q →
    q.length ≤ n → (St.schedRetx o v q n s).1.retxQueue = []
  | [], 0, s, h, _ => by unfold St.schedRetx; exact h
  | [], n + 1, s, h, _ => by unfold St.schedRetx; exact h
  | k :: q, 0, s, _, h2 => by simp at h2
  | k :: q, n + 1, s, h, h2 => by
    simp only [List.length_cons] at h2
    unfold St.schedRetx
    dsimp only
    split
    · exact schedRetx_queue o v q n _ (sendInterest_queue ..) (by omega)
    · exact schedRetx_queue o v q (n + 1) _ rfl (by omega)

theorem schedNew_queue (o : Opts) (v : Env ε) : ∀ (n : Nat) (s : St σ), (St.schedNew o v n s).retxQueue = s.retxQueue
  | 0, s => by unfold St.schedNew; rfl
  | n + 1, s => by
    unfold St.schedNew
    rw [schedNew_queue o v n]
    exact sendInterest_queue ..

theorem schedulePackets_drains {A : Alg σ ε} {o : Opts} {v : Env ε} {s : St σ}
    (h : (s.retxQueue.length : Int) + s.nInFlight ≤ A.slots s.win) :
    (s.schedulePackets A o v).retxQueue = [] ∧ (s.schedulePackets A o v).nInFlight ≤ A.slots s.win := by
  unfold St.schedulePackets
  dsimp only
  have h1 := schedRetx_queue o v s.retxQueue (A.slots s.win - s.nInFlight).toNat
    { s with assertFailed := s.assertFailed || decide (s.nInFlight < 0) } rfl (by omega)
  have h2 := (schedRetx_win o v s.retxQueue (A.slots s.win - s.nInFlight).toNat
    { s with assertFailed := s.assertFailed || decide (s.nInFlight < 0) }).2
  generalize St.schedRetx o v s.retxQueue (A.slots s.win - s.nInFlight).toNat
    { s with assertFailed := s.assertFailed || decide (s.nInFlight < 0) } = r at h1 h2
  have h3 := (schedNew_win o v r.2 r.1).2
  refine ⟨by rw [schedNew_queue]; exact h1, ?_⟩
  dsimp only at h2
  omega

/-- Before the final segment number is known: no segment waits for retransmission. -/
structure Early (A : Alg σ ε) (w : σ) (s : St σ) : Prop where
  queue : s.retxQueue = []
  window : s.nInFlight ≤ A.slots w
  decs : Decs A w s.win

theorem early_sched {A : Alg σ ε} {o : Opts} {v : Env ε} {w : σ} {s : St σ}
    (hdec : ∀ w', Decs A w w' → A.slots w' = A.slots w) (hw : Decs A w s.win)
    (h : (s.retxQueue.length : Int) + s.nInFlight ≤ A.slots w) : Early A w (s.schedulePackets A o v) := by
  obtain ⟨h1, h2⟩ := schedulePackets_drains (o := o) (v := v) (by rw [hdec _ hw]; exact h)
  exact ⟨h1, by rw [hdec _ hw] at h2; exact h2, by rw [(schedulePackets_window A o v s).1]; exact hw⟩

theorem early_record {A : Alg σ ε} {o : Opts} {v : Env ε} {w : σ} {s : St σ} (k)
    (hdec : ∀ w', Decs A w w' → A.slots w' = A.slots w) (hw : Decs A w s.win)
    (h : (s.retxQueue.length : Int) + s.nInFlight ≤ A.slots w) :
    Early A w ((s.recordTimeout A o v k).schedulePackets A o v) := by
  unfold St.recordTimeout
  split
  · exact early_sched hdec (Decs.dec _ hw) h
  · exact early_sched hdec hw h

theorem early_lossOf {A : Alg σ ε} {o : Opts} {v : Env ε} {w : σ} {s : St σ} {k}
    (hdec : ∀ w', Decs A w w' → A.slots w' = A.slots w) (h : Early A w s) :
    (s.lossOf A o v k).threw.isSome = true ∨ Early A w (s.lossOf A o v k) := by
  have f := enqueue_fields s k
  dsimp only at f
  unfold St.lossOf
  dsimp only
  split
  · left; assumption
  · right
    refine early_record k hdec (by rw [f.2.2.2.2.2.2.2.2.2.2.2.2.2.2.2.2.2.2.2.2.2.1]; exact h.decs) ?_
    obtain ⟨-, -, -, -, -, -, -, -, -, -, -, -, -, -, -, -, -, -, -, -, -, -, -, f1, f2⟩ := f
    rw [f1, f2, h.queue]
    have := h.window
    simp only [List.nil_append, List.length_singleton]
    omega

theorem early_checkLoop {A : Alg σ ε} (v : Env ε) {w : σ} : ∀ (order : List Nat) (s : St σ), Decs A w s.win →
    (s.retxQueue.length : Int) + s.nInFlight ≤ A.slots w →
    Decs A w (order.foldl (St.checkOne v) s).win ∧
    ((order.foldl (St.checkOne v) s).retxQueue.length : Int) + (order.foldl (St.checkOne v) s).nInFlight ≤ A.slots w
  | [], s, h1, h2 => ⟨h1, h2⟩
  | k :: l, s, h1, h2 => by
    simp only [List.foldl_cons]
    have key : Decs A w (s.checkOne v k).win ∧
        ((s.checkOne v k).retxQueue.length : Int) + (s.checkOne v k).nInFlight ≤ A.slots w := by
      unfold St.checkOne
      split
      · exact ⟨h1, h2⟩
      · split
        · have f := enqueue_fields { s with nTimeouts := s.nTimeouts + 1 } k
          dsimp only at f
          obtain ⟨-, -, -, -, -, -, -, -, -, -, -, -, -, -, -, -, -, -, -, -, -, f0, -, f1, f2⟩ := f
          rw [f0, f1, f2]
          simp only [List.length_append, List.length_singleton]
          exact ⟨h1, by omega⟩
        · exact ⟨h1, h2⟩
    exact early_checkLoop v l _ key.1 key.2

theorem checkLoop_idle (v : Env ε) (s : St σ) : ∀ (order : List Nat), s.expired v order = [] →
    order.foldl (St.checkOne v) s = s
  | [], _ => rfl
  | k :: l, h => by
    unfold St.expired at h
    rw [List.filter_eq_nil_iff] at h
    simp only [List.foldl_cons]
    have : s.checkOne v k = s := by
      unfold St.checkOne
      have hk := h k (by simp)
      cases hx : get s.info k with
      | none => rfl
      | some x =>
        rw [hx] at hk
        dsimp only at hk ⊢
        rw [if_neg (fun hc => hk (by simpa using hc))]
    rw [this]
    apply checkLoop_idle v s l
    unfold St.expired
    rw [List.filter_eq_nil_iff]
    exact fun j hj => h j (by simp [hj])

theorem early_check {A : Alg σ ε} {o : Opts} {v : Env ε} {w : σ} {s : St σ} {order}
    (hdec : ∀ w', Decs A w w' → A.slots w' = A.slots w) (h : Early A w s) : Early A w (s.checkRto A o v order) := by
  unfold St.checkRto
  split
  · exact h
  dsimp only
  split
  · have := early_checkLoop v order s h.decs (by rw [h.queue]; simpa using h.window)
    have := early_record (o := o) (v := v) ((s.expired v order).foldl max 0) hdec this.1 this.2
    exact ⟨this.queue, this.window, this.decs⟩
  · rename_i hl
    rw [checkLoop_idle v s order (by simpa using hl)]
    exact ⟨h.queue, h.window, h.decs⟩

theorem early_onFailure {A : Alg σ ε} {w : σ} {s : St σ} (h : Early A w s) (m) : Early A w (s.onFailure m) := by
  unfold St.onFailure St.cancel
  split <;> exact ⟨h.queue, h.window, h.decs⟩

theorem early_handleFail {A : Alg σ ε} {w : σ} {s : St σ} (h : Early A w s) (k m) : Early A w (s.handleFail k m) := by
  unfold St.handleFail
  split
  · exact h
  split
  · exact early_onFailure h m
  split
  · dsimp only
    have := h.window
    split
    · exact early_onFailure (s := { s with info := del s.info k, nInFlight := s.nInFlight - 1 })
        ⟨h.queue, (by dsimp only; omega), h.decs⟩ _
    · refine ⟨h.queue, ?_, h.decs⟩
      simp only [St.cancelGreater]
      have := List.length_filter_le (fun e => decide (e.1 ≤ k)) (del s.info k)
      omega
  · exact h

theorem final_handleSeg {A : Alg σ ε} {o : Opts} {v : Env ε} {s : St σ} {k p c} (h : s.hasFinalBlockId = true) :
    (s.handleSeg A o v k p c).hasFinalBlockId = true := by
  unfold St.handleSeg
  split
  · exact h
  · rename_i x hx
    dsimp only
    have ha : (s.adapt A o v k x p).hasFinalBlockId = true := by
      unfold St.adapt; dsimp only; split
      · split <;> exact h
      · exact h
    split
    · exact ha
    · unfold St.finish
      dsimp only
      have hd : ((s.adapt A o v k x p).deliver k x p).hasFinalBlockId = true := by
        unfold St.deliver; dsimp only; split <;> exact ha
      split
      · unfold St.cancel
        split <;> exact hd
      · exact (kept_schedulePackets A o v _).2.1.trans hd

theorem early_step {A : Alg σ ε} {o : Opts} {w : σ} {s : St σ} {e : Ev ε}
    (hdec : ∀ w', Decs A w w' → A.slots w' = A.slots w) (hc : NoCancel e) (ha : Announced e)
    (h : s.hasFinalBlockId = true ∨ Ended s ∨ Early A w s)
    (hf : s.hasFinalBlockId = true → (s.step A o e).hasFinalBlockId = true)
    (he : Ended s → Ended (s.step A o e)) :
    (s.step A o e).hasFinalBlockId = true ∨ Ended (s.step A o e) ∨ Early A w (s.step A o e) := by
  rcases h with h | h | h
  · exact Or.inl (hf h)
  · exact Or.inr (Or.inl (he h))
  have hcall : ∀ k, Early A w (s.called k) := fun k => ⟨h.queue, h.window, h.decs⟩
  unfold St.step
  split
  · exact Or.inr (Or.inr h)
  cases e with
  | data k p c v =>
    dsimp only
    unfold St.handleData
    split
    · exact Or.inr (Or.inr (hcall k))
    · dsimp only
      have key : ((s.called k).handleFinal p).1.hasFinalBlockId = true ∨
          Ended ((s.called k).handleFinal p).1 ∧ ((s.called k).handleFinal p).2 = false := by
        unfold St.handleFinal
        split
        · left; assumption
        · split
          · rename_i hp; exact absurd hp ha
          · right; exact ⟨Or.inr (Or.inl rfl), rfl⟩
          · dsimp only
            split
            · right; exact ⟨Or.inl (onFailure_stops _ _), rfl⟩
            · left; rfl
      rcases key with key | ⟨key, k2⟩
      · left
        split
        · exact final_handleSeg key
        · exact key
      · right; left
        rw [if_neg (by simp [k2])]
        exact key
  | nack k r v =>
    dsimp only
    unfold St.handleNack
    right
    split
    · exact Or.inr (hcall k)
    split
    · exact Or.inr (hcall k)
    · rcases early_lossOf (o := o) (v := v) (k := k) hdec (hcall k) with h | h
      · exact Or.inl (Or.inr (Or.inl h))
      · exact Or.inr h
    · exact Or.inr (early_handleFail (hcall k) _ _)
  | expire k v =>
    dsimp only
    unfold St.handleLifetimeExpiration
    right
    split
    · exact Or.inr (hcall k)
    · rcases early_lossOf (A := A) (w := w) (o := o) (v := v) (k := k)
          (s := { s.called k with nTimeouts := (s.called k).nTimeouts + 1 }) hdec ⟨h.queue, h.window, h.decs⟩ with h | h
      · exact Or.inl (Or.inr (Or.inl h))
      · exact Or.inr h
  | check order v =>
    dsimp only
    exact Or.inr (Or.inr (early_check (s := { s with timer := false }) hdec ⟨h.queue, h.window, h.decs⟩))
  | cancel => exact hc.elim
  | posted =>
    dsimp only
    right; right
    split
    · exact h
    · exact ⟨h.queue, h.window, h.decs⟩

/-! ## The served pipeline -/

def servedAllow (segs : List Bytes) : Allow :=
  ⟨fun k p => Consistent segs k p ∧ p.final ≠ .absent, False, False, False,
    fun k r => r = .duplicate ∨ r = .congestion ∨ segs.length ≤ k⟩

theorem served_allowed {A : Alg σ ε} {o : Opts} {w : σ} {v : Env ε} {segs : List Bytes} {s : St σ} {e : Ev ε}
    (he : (servedMachine A o w v segs).enabled s e) : Allowed (servedAllow segs) o s e := by
  obtain ⟨⟨h1, h2, h3, h4, h5⟩, h6⟩ := he
  refine ⟨?_, ?_, fun h => h.elim, ?_⟩
  · rintro k p c v rfl
    refine ⟨⟨h2, h6⟩, fun hc => ?_⟩
    have : c = false := h5
    rw [this] at hc; cases hc
  · rintro k (⟨r, v, rfl⟩ | ⟨v, rfl⟩) hk <;>
    · obtain ⟨x, hx, _⟩ : waitsFor s k := h4
      rw [hk] at hx; cases hx
  · rintro k r v rfl
    exact h3

theorem served_run {A : Alg σ ε} {o : Opts} {w : σ} {v : Env ε} {segs es s}
    (h : (servedMachine A o w v segs).Run es s) : ARun A o w v (servedAllow segs) es s :=
  arun_of h (fun _ _ he => he.1.1) (fun _ _ _ he => served_allowed he)

theorem served_prompt {A : Alg σ ε} {o : Opts} {w : σ} {v : Env ε} {segs es s}
    (h : (servedMachine A o w v segs).Run es s) : (promptMachine A o w v).Run es s := by
  induction h with
  | nil => exact .nil
  | @snoc es s e _ he ih =>
    refine .snoc (M := promptMachine A o w v) e ih ⟨he.1.1, he.1.2.2.2.1, ?_⟩
    cases e with
    | data k p c v =>
      intro n hn
      obtain ⟨h1, h2⟩ : Consistent segs k p := he.1.2.1
      have hk : k < segs.length := by
        rcases Nat.lt_or_ge k segs.length with h | h
        · exact h
        · rw [List.getElem?_eq_none h] at h1; cases h1
      rcases h2 with h2 | h2
      · rw [h2] at hn; cases hn
      · rw [h2] at hn; cases hn; omega
    | _ => trivial

theorem threw_none_micro {A : Alg σ ε} {o : Opts} {al : Allow} {s s' : St σ} (hc : ¬ al.late)
    (hn : ∀ k p, al.net k p → p.final ≠ .notSegment)
    (h : s.threw = none) (m : Micro A o al s s') : s'.threw = none := by
  cases m with
  | complete hs ha => simpa [St.cancel, St.emit, hs] using h
  | enqueue k x hx hs hcl =>
    unfold St.enqueueForRetransmission; dsimp only; rw [hx]; exact h
  | throwRange k hx hl hs hk => exact absurd hl hc
  | throwFinal k p hs hnet hp => exact absurd hp (hn k p hnet)
  | deliver s1 k x p hs hx hn ha hf =>
    have : s1.threw = s.threw := by cases ha <;> rfl
    dsimp only; rw [this]; exact h
  | ub s1 k x p n hs hx hn hcc ha hf =>
    have : s1.threw = s.threw := by cases ha <;> rfl
    dsimp only; rw [this]; exact h
  | _ => exact h

theorem start_first {A : Alg σ ε} {o : Opts} {w : σ} {v : Env ε} (h : 1 ≤ A.slots w) :
    Obs.interest 0 false ∈ (start A o w v).log := by
  unfold start St.schedulePackets
  dsimp only
  obtain ⟨n, hn⟩ : ∃ n, (A.slots w - 0).toNat = n + 1 := ⟨(A.slots w - 0).toNat - 1, by omega⟩
  rw [hn]
  unfold St.schedRetx
  dsimp only
  unfold St.schedNew
  obtain ⟨l, hl, _⟩ := schedNew_log o v n
    ({ win := w, timer := true, assertFailed := false || decide ((0 : Int) < 0), nextSegmentNo := 0 + 1 : St σ }.sendInterest o v 0 false)
  dsimp only at hl ⊢
  rw [hl]
  simp [St.sendInterest, St.transmit]

/-- What holds in every state of the served pipeline, whatever is lost. -/
structure Served (A : Alg σ ε) (w : σ) (segs : List Bytes) (s : St σ) : Prop where
  wf : WF s
  core : Core s
  within : Within s
  flow : Flow s
  final : FinalHist s
  pend : PendOut s
  threw : s.threw = none
  ub : s.ub = false
  net : ∀ k p, Obs.data k p ∈ s.log → Consistent segs k p ∧ p.final ≠ .absent
  why : Why true s
  prog : Ended s ∨ Prog s
  early : s.hasFinalBlockId = true ∨ Ended s ∨ Early A w s
  first : Obs.interest 0 false ∈ s.log

theorem served_inv {A : Alg σ ε} {o : Opts} {w : σ} {v : Env ε} {segs es s}
    (hslots : ∀ w', Reach A w w' → 1 ≤ A.slots w') (hdec : ∀ w', Decs A w w' → A.slots w' = A.slots w)
    (h : (servedMachine A o w v segs).Run es s) : Served A w segs s := by
  have hr := served_run h
  have hcl : (servedAllow segs).clean → o.maxRetries = -1 := fun h => h.elim
  refine ⟨wf_steps (wf_initial w) (run_steps hcl hr), run_core hcl hr, run_within hcl hr, run_flow hcl hr,
    run_finalHist hcl hr, ?_, ?_, ?_, (run_hist hcl hr).net, ?_, prompt_prog hslots (served_prompt h), ?_, ?_⟩
  · refine arun_inv (P := PendOut) hcl hr ?_ (fun _ _ _ hc hm => pendOut_micro hc hm)
    intro k x hx; cases hx
  · refine arun_inv (P := fun s => s.threw = none) hcl hr rfl (fun _ _ _ hc hm => threw_none_micro (fun h => h) ?_ hc hm)
    rintro k p ⟨⟨_, hp⟩, _⟩
    rcases hp with hp | hp <;> rw [hp] <;> simp
  · exact arun_inv (P := fun s => s.ub = false) hcl hr rfl (fun _ _ _ hc hm => ub_micro (fun h => h) hc hm)
  · refine Machine.Run.invariant (M := servedMachine A o w v segs) (P := Why true) ?_ (fun s e hs he => why_step hs he.1.2.2.2.2) h
    have h0 : Why true ({ win := w, timer := true } : St σ) := ⟨Or.inr rfl, fun h => by cases h⟩
    exact why_schedulePackets h0 A o v
  · have : ∀ {es s}, (servedMachine A o w v segs).Run es s → s.hasFinalBlockId = true ∨ Ended s ∨ Early A w s := by
      intro es s h
      induction h with
      | nil =>
        right; right
        refine early_sched hdec .init ?_
        have := hslots w .init
        simp
        omega
      | @snoc es s e hr' he ih =>
        have hw := wf_steps (wf_initial w) (run_steps hcl (served_run hr'))
        have hst := steps_step (A := A) hw he.1.1 (served_allowed he)
        refine early_step hdec he.1.2.2.2.2 he.2 ih ?_ (ended_step hw he.1.1)
        intro hf
        exact steps_inv (P := fun s => s.hasFinalBlockId = true) (fun _ _ h m => micro_final m h) hf hst
    exact this h
  · refine Machine.Run.invariant (P := fun s => WF s ∧ Obs.interest 0 false ∈ s.log) ?_ ?_ h |>.2
    · exact ⟨wf_steps (wf_initial w) (run_steps hcl (served_run (.nil (M := servedMachine A o w v segs)))),
        start_first (hslots w .init)⟩
    · rintro s e ⟨hw, hs⟩ he
      have hst := steps_step (A := A) hw he.1.1 (served_allowed he)
      exact ⟨wf_steps hw hst, (steps_ext hst).subset hs⟩

/-- A tracked segment that arrives is delivered, unless the pipeline fails. -/
theorem data_received {A : Alg σ ε} {o : Opts} {s : St σ} {k : Nat} {p : Pkt} {v : Env ε} {n : Nat}
    (hk : (get s.info k).isSome = true) (ht : s.threw = none) (hu : s.ub = false) (hp : p.final = .seg n)
    (hn : k ≤ n) (hs : s.isStopping = false) :
    (s.step A o (.data k p false v)).isStopping = true ∨
    received (s.step A o (.data k p false v)).log = received s.log ++ [k] := by
  have hcalled : (get (s.called k).info k).isSome = true := by
    rw [isSome_called]; exact hk
  unfold St.step
  rw [if_neg (by simp [ht, hu])]
  dsimp only
  unfold St.handleData
  rw [if_neg (by simp [St.called, hs])]
  dsimp only
  have key : ((s.called k).handleFinal p).1.isStopping = true ∧ ((s.called k).handleFinal p).2 = false ∨
      ((s.called k).handleFinal p).2 = true ∧ (get ((s.called k).handleFinal p).1.info k).isSome = true ∧
      ((s.called k).handleFinal p).1.log = s.log := by
    unfold St.handleFinal
    split
    · right; exact ⟨rfl, hcalled, rfl⟩
    · rw [hp]
      dsimp only
      split
      · left; exact ⟨onFailure_stops _ _, rfl⟩
      · right
        refine ⟨rfl, ?_, rfl⟩
        simp only [St.cancelGreater]
        rw [get_filter, if_pos (by simpa using hn)]
        exact hcalled
  rcases key with ⟨h1, h2⟩ | ⟨h1, h2, h3⟩
  · left; rw [if_neg (by simp [h2])]; exact h1
  · rw [if_pos h1]
    generalize ((s.called k).handleFinal p).1 = t at h2 h3
    obtain ⟨x, hx⟩ := Option.isSome_iff_exists.mp h2
    right
    unfold St.handleSeg
    rw [hx]
    dsimp only
    have ha : received (t.adapt A o v k x p).log = received s.log := by
      unfold St.adapt; dsimp only; split
      · split
        · dsimp only; rw [received_append, h3]; simp [received]
        · exact congrArg _ h3
      · dsimp only; rw [received_append, h3]; simp [received]
    have hd : received ((t.adapt A o v k x p).deliver k x p).log = received s.log ++ [k] := by
      unfold St.deliver
      dsimp only
      split
      · simp only [St.emit, St.onData, received_append, ha]; simp [received]
      · simp only [St.onData, received_append, ha]; simp [received]
    rw [if_neg (by simp)]
    unfold St.finish
    dsimp only
    split
    · simp only [St.emit, received_append]
      have : ∀ u : St σ, u.cancel.log = u.log := by intro u; unfold St.cancel; split <;> rfl
      rw [this]
      dsimp only
      rw [hd]; simp [received]
    · obtain ⟨l, hl, hl2⟩ := schedulePackets_log A o v
        { ((t.adapt A o v k x p).deliver k x p) with info := del ((t.adapt A o v k x p).deliver k x p).info k }
      rw [hl, received_append]
      dsimp only
      rw [hd]
      have : received l = [] := by
        unfold received
        rw [List.filterMap_eq_nil_iff]
        intro y hy
        obtain ⟨j, b, rfl⟩ := hl2 y hy
        rfl
      rw [this]; simp

/-- A network that does not lose too much does not make the pipeline fail. -/
theorem few_harm {A : Alg σ ε} {o : Opts} {al : Allow} {segs : List Bytes} {w : σ} {v : Env ε} {es s}
    (hL : segs ≠ []) (hcl : al.clean → o.maxRetries = -1) (hf : FewLosses A o w v segs es)
    (hnet : ∀ k p, al.net k p → Consistent segs k p ∧ (k + 1 = segs.length → p.final ≠ .absent))
    (hnk : ∀ k r, al.nacked k r → r = .duplicate ∨ r = .congestion ∨ segs.length ≤ k)
    (h : ARun A o w v al es s) : Harm segs.length s := by
  refine run_harm hL hcl ?_ hnet (fun k r hk h1 h2 => ?_) h
  · rcases hf with hf | hf
    · exact Or.inl hf
    · refine Or.inr fun k hk => ?_
      rcases Nat.lt_or_ge k segs.length with hlt | hge
      · have h1 := hf k hlt
        have h2 := (run_demand k (run_weaken h (fun _ _ he => he.1))).2
        have h3 : s.retxCount k ≤ demand s k := Nat.le_add_right _ _
        omega
      · exact hge
  · rcases hnk k r hk with hk | hk | hk
    · exact absurd hk h1
    · exact absurd hk h2
    · exact hk

/-- The packet of the consistent producer for segment `k`. -/
def answer (segs : List Bytes) (k : Nat) : Pkt :=
  { content := (segs[k]?).getD [], final := .seg (segs.length - 1) }

theorem served_next {A : Alg σ ε} {o : Opts} {w : σ} {v : Env ε} {segs : List Bytes} {s : St σ}
    (hL : segs ≠ []) (hi : Served A w segs s) (hh : Harm segs.length s) (hfl : Flying segs.length s)
    (hc : Obs.complete ∉ s.log) (v' : Env ε) :
    s.isStopping = false ∧ ∃ k, k < segs.length ∧ (get s.info k).isSome = true ∧
      (servedMachine A o w v segs).enabled s (.data k (answer segs k) false v') := by
  have hpos : 0 < segs.length := List.length_pos_iff.mpr hL
  have hs : s.isStopping = false := by
    cases hs : s.isStopping with
    | false => rfl
    | true =>
      rcases hi.why.stop hs with h | ⟨m, h⟩ | h
      · exact absurd hh.quiet.1 h
      · exact absurd h (hh.quiet.2 m)
      · exact absurd h hc
  have hne : ¬ Ended s := by
    rintro (h | h | h)
    · rw [hs] at h; cases h
    · rw [hi.threw] at h; cases h
    · rw [hi.ub] at h; cases h
  have hprog := hi.prog.resolve_left hne
  have key : ∃ k x, get s.info k = some x ∧ k < segs.length ∧ x.state ≠ .inRetxQueue := by
    by_cases hf : s.hasFinalBlockId = true
    · have hin : 0 < inFlight s.info := by
        rcases hprog.live with h | h
        · rw [hprog.ff hf] at h; cases h
        · exact h
      obtain ⟨k, x, hx, hst⟩ := (inFlight_pos hi.wf.nodup).mp hin
      refine ⟨k, x, hx, ?_, hst⟩
      have h1 := hi.within hf k (by rw [hx]; rfl)
      have h2 := hh.fin hf
      omega
    · have he := (hi.early.resolve_left hf).resolve_left hne
      have h0 : 0 ∉ received s.log := by
        intro h0
        obtain ⟨p, hp⟩ := mem_received.mp h0
        exact hf (hi.final.known 0 p hp (hi.net 0 p hp).2)
      obtain ⟨x, hx⟩ := Option.isSome_iff_exists.mp (hh.kept hs 0 hpos hi.first h0)
      refine ⟨0, x, hx, hpos, fun hst => ?_⟩
      have := hi.flow.waits hs 0 x hx hst
      rw [he.queue] at this
      cases this
  obtain ⟨k, x, hx, hk, hst⟩ := key
  have hp := hfl k x hx ⟨hst, hk⟩
  refine ⟨hs, k, hk, by rw [hx]; rfl, ⟨hi.pend k x hx hp, ⟨?_, Or.inr rfl⟩, ?_, ⟨x, hx, hp⟩, rfl⟩, ?_⟩
  · simp [answer, List.getElem?_eq_getElem hk]
  · intro _; simp [answer]
  · simp [Announced, answer]

theorem few_data {A : Alg σ ε} {o : Opts} {w : σ} {v : Env ε} {segs : List Bytes} {es : List (Ev ε)} {k p c v'}
    (h : FewLosses A o w v segs es) : FewLosses A o w v segs (es ++ [.data k p c v']) := by
  rcases h with h | h
  · exact Or.inl h
  · refine Or.inr fun j hj => ?_
    rw [lossCount_append]
    simp only [lossCount, LossFor, if_false, Nat.add_zero]
    exact h j hj

theorem served_harm {A : Alg σ ε} {o : Opts} {w : σ} {v : Env ε} {segs : List Bytes} {es s} (hL : segs ≠ [])
    (h : (servedMachine A o w v segs).Run es s) (hf : FewLosses A o w v segs es) : Harm segs.length s :=
  few_harm (al := servedAllow segs) hL (fun h => h.elim) hf (fun _ _ h => ⟨h.1, fun _ => h.2⟩) (fun _ _ h => h)
    (served_run h)

/-- Data for the segments that are in flight complete the transfer. -/
theorem served_completes {A : Alg σ ε} {o : Opts} {w : σ} {v : Env ε} {segs : List Bytes} {es s}
    (hL : segs ≠ []) (hslots : ∀ w', Reach A w w' → 1 ≤ A.slots w')
    (hdec : ∀ w', Decs A w w' → A.slots w' = A.slots w) (h : (servedMachine A o w v segs).Run es s)
    (hf : FewLosses A o w v segs es) (hfl : Flying segs.length s ∨ Ended s) (v' : Env ε) :
    ∃ es' s', (servedMachine A o w v segs).RunFrom s es' s' ∧ Obs.complete ∈ s'.log ∧
      ∀ e ∈ es', ∃ k < segs.length, e = .data k (answer segs k) false v' := by
  generalize hm : segs.length - (received s.log).length = m
  induction m using Nat.strong_induction_on generalizing es s with
  | _ m ih =>
    have hi := served_inv hslots hdec h
    have hh := served_harm hL h hf
    by_cases hc : Obs.complete ∈ s.log
    · exact ⟨[], s, .nil, hc, by simp⟩
    have hfl' : Flying segs.length s := by
      rcases hfl with hfl | hfl | hfl | hfl
      · exact hfl
      · exfalso
        rcases hi.why.stop hfl with h | ⟨m, h⟩ | h
        · exact absurd hh.quiet.1 h
        · exact absurd h (hh.quiet.2 m)
        · exact hc h
      · rw [hi.threw] at hfl; cases hfl
      · rw [hi.ub] at hfl; cases hfl
    obtain ⟨hs, k, hk, htr, hen⟩ := served_next (o := o) (v := v) hL hi hh hfl' hc v'
    have h2 := Machine.Run.snoc (M := servedMachine A o w v segs) _ h hen
    have hf2 := few_data (k := k) (p := answer segs k) (c := false) (v' := v') hf
    have hi2 := served_inv hslots hdec h2
    have hh2 := served_harm hL h2 hf2
    have hfl2 : Flying segs.length ((servedMachine A o w v segs).step s (.data k (answer segs k) false v')) ∨
        Ended ((servedMachine A o w v segs).step s (.data k (answer segs k) false v')) :=
      flying_step hfl' hi.within rfl (fun _ _ h => by cases h)
    have hlt : ∀ j ∈ received ((servedMachine A o w v segs).step s (.data k (answer segs k) false v')).log,
        j < segs.length := by
      intro j hj
      obtain ⟨p, hp⟩ := mem_received.mp hj
      have h1 := (hi2.net j p hp).1.1
      rcases Nat.lt_or_ge j segs.length with h | h
      · exact h
      · rw [List.getElem?_eq_none h] at h1; cases h1
    have hle := Fixed.nodup_length_le hi2.core.rnodup hlt
    rcases data_received (A := A) (o := o) (v := v') (p := answer segs k) htr hi.threw hi.ub rfl
      (show k ≤ segs.length - 1 by omega) hs with hst | hrec
    · refine ⟨[_], _, Machine.RunFrom.cons _ hen .nil, ?_, ?_⟩
      · rcases hi2.why.stop hst with h | ⟨m, h⟩ | h
        · exact absurd hh2.quiet.1 h
        · exact absurd h (hh2.quiet.2 m)
        · exact h
      · intro e he
        rw [List.mem_singleton.mp he]
        exact ⟨k, hk, rfl⟩
    · have hrec' : (received ((servedMachine A o w v segs).step s (.data k (answer segs k) false v')).log).length =
          (received s.log).length + 1 := by
        rw [show (servedMachine A o w v segs).step s (.data k (answer segs k) false v') =
          s.step A o (.data k (answer segs k) false v') from rfl, hrec]
        simp
      obtain ⟨es', s', r, hcc, hall⟩ := ih _ (by omega) h2 hf2 hfl2 rfl
      refine ⟨_ :: es', s', Machine.RunFrom.cons _ hen r, hcc, ?_⟩
      intro e he
      rcases List.mem_cons.mp he with rfl | he
      · exact ⟨k, hk, rfl⟩
      · exact hall e he

/-- With a retry limit and without Duplicate Nacks, the segments in flight are outstanding. -/
theorem served_flying {A : Alg σ ε} {o : Opts} {w : σ} {v : Env ε} {segs : List Bytes} {es s}
    (h : (servedMachine A o w v segs).Run es s)
    (hd : ∀ k < segs.length, ∀ v, Ev.nack k .duplicate v ∉ es) : Flying segs.length s ∨ Ended s := by
  have hcl : (servedAllow segs).clean → o.maxRetries = -1 := fun h => h.elim
  induction h with
  | nil =>
    left
    refine flying_schedulePackets ?_ A o v
    intro k x hx; cases hx
  | @snoc es s e hr he ih =>
    rcases ih (fun k hk v hm => hd k hk v (by simp [hm])) with ih | ih
    · refine flying_step ih (run_within hcl (served_run hr)) he.1.2.2.2.2 ?_
      rintro k v rfl hk
      exact absurd (by simp) (hd k hk v)
    · exact Or.inr (ended_step (wf_steps (wf_initial w) (run_steps hcl (served_run hr))) he.1.1 ih)

theorem exists_late (l : List (Nat × Seg)) : ∃ t : Nat, ∀ e ∈ l, t > e.2.timeSent + e.2.rto := by
  induction l with
  | nil => exact ⟨0, by simp⟩
  | cons e l ih =>
    obtain ⟨t, ht⟩ := ih
    refine ⟨max t (e.2.timeSent + e.2.rto + 1), ?_⟩
    intro e' he'
    rcases List.mem_cons.mp he' with rfl | he'
    · omega
    · have := ht e' he'; omega

theorem served_can_complete {A : Alg σ ε} {o : Opts} {w : σ} {v : Env ε} {segs : List Bytes} {es s}
    (hsegs : segs ≠ []) (hslots : ∀ w', Reach A w w' → 1 ≤ A.slots w')
    (hdec : ∀ w', Decs A w w' → A.slots w' = A.slots w)
    (h : (servedMachine A o w v segs).Run es s) (hf : FewLosses A o w v segs es) (hd : NoDuplicates o segs es)
    (v' : Env ε) :
    ∃ es' s', (servedMachine A o w v segs).RunFrom s es' s' ∧ Obs.complete ∈ s'.log ∧
      ((∀ e ∈ es', ∃ k < segs.length, e = .data k (answer segs k) false v') ∨
       (o.maxRetries = -1 ∧ ∃ order v'' es'', es' = .check order v'' :: es'' ∧
         ∀ e ∈ es'', ∃ k < segs.length, e = .data k (answer segs k) false v')) := by
  rcases hd with hd | hd
  · have hi := served_inv hslots hdec h
    have hh := served_harm hsegs h hf
    by_cases hc : Obs.complete ∈ s.log
    · exact ⟨[], s, .nil, hc, Or.inl (by simp)⟩
    have hs : s.isStopping = false := by
      cases hs : s.isStopping with
      | false => rfl
      | true =>
        rcases hi.why.stop hs with h | ⟨m, h⟩ | h
        · exact absurd hh.quiet.1 h
        · exact absurd h (hh.quiet.2 m)
        · exact absurd h hc
    obtain ⟨t, ht⟩ := exists_late s.info
    have hen : (servedMachine A o w v segs).enabled s (.check (s.info.map (·.1)) ⟨t, v.rto, v.win⟩) := by
      refine ⟨⟨⟨?_, List.Perm.refl _⟩, trivial, trivial, trivial, trivial⟩, trivial⟩
      rcases hi.why.tim with h | h
      · rw [hs] at h; cases h
      · exact h
    have h2 := Machine.Run.snoc (M := servedMachine A o w v segs) _ h hen
    have hfl : Flying segs.length ((servedMachine A o w v segs).step s (.check (s.info.map (·.1)) ⟨t, v.rto, v.win⟩)) := by
      show Flying segs.length (s.step A o _)
      unfold St.step
      rw [if_neg (by simp [hi.threw, hi.ub])]
      refine flying_check (s := { s with timer := false }) ?_ hs
      intro k x hx _
      right
      have hm := mem_of_get hx
      exact ⟨List.mem_map.mpr ⟨_, hm, rfl⟩, ht _ hm⟩
    obtain ⟨es', s', r, hcc, hall⟩ := served_completes hsegs hslots hdec h2 (Or.inl hd) (Or.inl hfl) v'
    exact ⟨_ :: es', s', Machine.RunFrom.cons _ hen r, hcc, Or.inr ⟨hd, _, _, es', rfl, hall⟩⟩
  · obtain ⟨es', s', r, hcc, hall⟩ := served_completes hsegs hslots hdec h hf (served_flying h hd) v'
    exact ⟨es', s', r, hcc, Or.inl (hall)⟩

end Verif.Adaptive
