import Verif.Proofs.AdaptiveLive

/-! # The effect of one event: at most one call of `schedulePackets`, at the end (C14, C16) -/

namespace Verif.Adaptive

set_option linter.unusedSimpArgs false

variable {σ ε : Type}

/-- The same segments are tracked, in the same states. -/
def SameInfo (s s' : St σ) : Prop := ∀ j, (get s'.info j).map (·.state) = (get s.info j).map (·.state)

/-- The flag `hasFailure` did not change, or it is not set together with a known final segment. -/
def FailKept (s t : St σ) : Prop :=
  (t.hasFinalBlockId = true → t.hasFailure = false) ∨
  (t.hasFailure = s.hasFailure ∧ t.hasFinalBlockId = s.hasFinalBlockId)

inductive Shape (A : Alg σ ε) (o : Opts) (al : Allow) (s : St σ) (e : Ev ε) (s' : St σ) : Prop
  | quiet : NoSend s s' →
      (Prompt s e → FinalNotBefore e → s'.isStopping = true ∨ s'.threw.isSome = true ∨ s'.ub = true ∨
        (s'.allSegmentsReceived = s.allSegmentsReceived ∧ (s'.timer = true ∨ s'.timer = s.timer) ∧
          ((s'.hasFailure = true ∧ s'.hasFinalBlockId = false) ∨
            (s'.hasFailure = s.hasFailure ∧ s'.hasFinalBlockId = s.hasFinalBlockId ∧ SameInfo s s')))) →
      Shape A o al s e s'
  | sched (t : St σ) (v : Env ε) (b : Bool) : Steps A o al s t → NoSend s t → t.isStopping = false →
      (t.allSegmentsReceived = false ∨ t.allSegmentsReceived = s.allSegmentsReceived) → FailKept s t →
      (b = true ∨ (b = (t.schedulePackets A o v).timer ∧ t.timer = s.timer)) →
      s' = { t.schedulePackets A o v with timer := b } →
      Shape A o al s e s'

theorem same_called (s : St σ) (k) : SameInfo s (s.called k) := by
  intro j
  rw [get_called]
  split
  · rename_i h; subst h; cases get s.info j <;> rfl
  · rfl

theorem all_of {s t : St σ} (h1 : t.nReceived = s.nReceived) (h2 : t.hasFinalBlockId = s.hasFinalBlockId)
    (h3 : t.lastSegmentNo = s.lastSegmentNo) : t.allSegmentsReceived = s.allSegmentsReceived := by
  unfold St.allSegmentsReceived; rw [h1, h2, h3]

theorem recordTimeout_fields (A : Alg σ ε) (o : Opts) (v : Env ε) (s : St σ) (k) :
    (s.recordTimeout A o v k).nReceived = s.nReceived ∧
    (s.recordTimeout A o v k).hasFinalBlockId = s.hasFinalBlockId ∧
    (s.recordTimeout A o v k).lastSegmentNo = s.lastSegmentNo ∧
    (s.recordTimeout A o v k).timer = s.timer ∧ NoSend s (s.recordTimeout A o v k) ∧
    (s.recordTimeout A o v k).hasFailure = s.hasFailure := by
  unfold St.recordTimeout
  split
  · exact ⟨rfl, rfl, rfl, rfl, ⟨[.decr k false], rfl, by simp⟩, rfl⟩
  · exact ⟨rfl, rfl, rfl, rfl, NoSend.refl s, rfl⟩

theorem enqueue_more (s : St σ) (k) :
    (s.enqueueForRetransmission k).nReceived = s.nReceived ∧
    (s.enqueueForRetransmission k).hasFinalBlockId = s.hasFinalBlockId ∧
    (s.enqueueForRetransmission k).lastSegmentNo = s.lastSegmentNo ∧
    (s.enqueueForRetransmission k).timer = s.timer ∧
    (s.enqueueForRetransmission k).hasFailure = s.hasFailure := by
  unfold St.enqueueForRetransmission
  dsimp only
  split <;> exact ⟨rfl, rfl, rfl, rfl, rfl⟩

theorem checkOne_more (v : Env ε) (s : St σ) (k) :
    (s.checkOne v k).nReceived = s.nReceived ∧
    (s.checkOne v k).hasFinalBlockId = s.hasFinalBlockId ∧
    (s.checkOne v k).lastSegmentNo = s.lastSegmentNo ∧
    (s.checkOne v k).hasFailure = s.hasFailure := by
  unfold St.checkOne
  split
  · exact ⟨rfl, rfl, rfl, rfl⟩
  · split
    · have := enqueue_more { s with nTimeouts := s.nTimeouts + 1 } k
      exact ⟨this.1, this.2.1, this.2.2.1, this.2.2.2.2⟩
    · exact ⟨rfl, rfl, rfl, rfl⟩

theorem checkLoop_more (v : Env ε) (order : List Nat) (s : St σ) :
    (order.foldl (St.checkOne v) s).nReceived = s.nReceived ∧
    (order.foldl (St.checkOne v) s).hasFinalBlockId = s.hasFinalBlockId ∧
    (order.foldl (St.checkOne v) s).lastSegmentNo = s.lastSegmentNo ∧
    (order.foldl (St.checkOne v) s).hasFailure = s.hasFailure := by
  induction order generalizing s with
  | nil => exact ⟨rfl, rfl, rfl, rfl⟩
  | cons k l ih =>
    obtain ⟨h1, h2, h3, h7⟩ := checkOne_more v s k
    obtain ⟨h4, h5, h6, h8⟩ := ih (s.checkOne v k)
    exact ⟨h4.trans h1, h5.trans h2, h6.trans h3, h8.trans h7⟩

theorem expired_nil {v : Env ε} {order : List Nat} {s : St σ} (h : s.expired v order = []) :
    order.foldl (St.checkOne v) s = s := by
  induction order with
  | nil => rfl
  | cons k l ih =>
    rw [List.foldl_cons]
    have h' : s.expired v l = [] := by
      unfold St.expired at h ⊢
      rw [List.filter_eq_nil_iff] at h ⊢
      exact fun a ha => h a (List.mem_cons_of_mem _ ha)
    have hk : ¬ (match get s.info k with
        | none => false
        | some x => decide (x.state ≠ .inRetxQueue ∧ v.now > x.timeSent + x.rto)) = true := by
      unfold St.expired at h
      rw [List.filter_eq_nil_iff] at h
      exact h k (by simp)
    have : s.checkOne v k = s := by
      unfold St.checkOne
      cases hx : get s.info k with
      | none => rfl
      | some x =>
        rw [hx] at hk
        dsimp only at hk ⊢
        rw [if_neg (by simpa using hk)]
    rw [this]
    exact ih h'

/-- What a fatal failure of a segment leaves. -/
theorem handleFail_shape (s : St σ) (k m) :
    (s.handleFail k m).log = s.log ∧
    ((s.handleFail k m).isStopping = true ∨
      ((s.handleFail k m).allSegmentsReceived = s.allSegmentsReceived ∧ (s.handleFail k m).timer = s.timer ∧
        (((s.handleFail k m).hasFailure = true ∧ (s.handleFail k m).hasFinalBlockId = false) ∨
          s.handleFail k m = s))) := by
  refine ⟨(handleFail_win s k m).2.2, ?_⟩
  unfold St.handleFail
  split
  · left; assumption
  split
  · left; exact onFailure_stops _ _
  split
  · rename_i hf
    dsimp only
    split
    · left; exact onFailure_stops _ _
    · right; exact ⟨rfl, rfl, Or.inl ⟨rfl, by simpa [St.cancelGreater] using hf⟩⟩
  · right; exact ⟨rfl, rfl, Or.inr rfl⟩

theorem shape_lossOf {A : Alg σ ε} {o : Opts} {al : Allow} {s0 s : St σ} {e : Ev ε} {v : Env ε} {k}
    (h0 : Steps A o al s0 s) (hw : WF s) (hs : s.isStopping = false) (hk : Obs.interest k false ∈ s.log)
    (hl : get s.info k = none → al.late)
    (hcl : al.clean → ∀ x, get s.info k = some x → x.state ≠ .inRetxQueue)
    (hlog : s.log = s0.log) (htimer : s.timer = s0.timer) (hfail : s.hasFailure = s0.hasFailure)
    (hfinal : s.hasFinalBlockId = s0.hasFinalBlockId)
    (hall : s.allSegmentsReceived = s0.allSegmentsReceived) :
    Shape A o al s0 e (s.lossOf A o v k) := by
  unfold St.lossOf
  have h1 := steps_enqueue A o al s k hs hl hcl hk
  have m1 := enqueue_more s k
  have l1 := enqueue_log s k
  dsimp only
  split
  · rename_i ht
    refine .quiet (.of_log (by rw [l1, hlog])) (fun _ _ => Or.inr (Or.inl ht))
  · have h2 := steps_recordTimeout A o al v (s.enqueueForRetransmission k) k
      (by rw [enqueue_stopping, hs]) (by rw [enqueue_log]; exact hk)
    have m2 := recordTimeout_fields A o v (s.enqueueForRetransmission k) k
    refine .sched _ v _ ((h0.trans h1).trans h2) ?_ (by rw [recordTimeout_stopping, enqueue_stopping]; exact hs)
      (Or.inr ?_) (Or.inr ⟨?_, ?_⟩) (Or.inr ⟨rfl, ?_⟩) rfl
    · exact (NoSend.of_log (by rw [l1, hlog])).trans m2.2.2.2.2.1
    · rw [← hall]
      exact all_of (m2.1.trans m1.1) (m2.2.1.trans m1.2.1) (m2.2.2.1.trans m1.2.2.1)
    · rw [m2.2.2.2.2.2, m1.2.2.2.2, hfail]
    · rw [m2.2.1, m1.2.1, hfinal]
    · rw [m2.2.2.2.1, m1.2.2.2.1, htimer]

theorem handleFinal_shape (s : St σ) (p : Pkt) :
    (s.handleFinal p).1.log = s.log ∧
    ((s.handleFinal p).2 = false → (s.handleFinal p).1.isStopping = true ∨ (s.handleFinal p).1.threw.isSome = true) ∧
    ((s.handleFinal p).2 = true → (s.handleFinal p).1.timer = s.timer ∧ FailKept s (s.handleFinal p).1 ∧
      ∀ k, (∀ n, p.final = .seg n → k ≤ n) → (get s.info k).isSome = true →
        (get (s.handleFinal p).1.info k).isSome = true) := by
  unfold St.handleFinal
  split
  · exact ⟨rfl, by simp, fun _ => ⟨rfl, Or.inr ⟨rfl, rfl⟩, fun k _ h => h⟩⟩
  split
  · exact ⟨rfl, by simp, fun _ => ⟨rfl, Or.inr ⟨rfl, rfl⟩, fun k _ h => h⟩⟩
  · exact ⟨rfl, by simp, by simp⟩
  · rename_i n hn
    dsimp only
    split
    · refine ⟨?_, fun _ => Or.inl (onFailure_stops _ _), by simp⟩
      exact (onFailure_win _ _).2.2
    · refine ⟨rfl, by simp, fun _ => ⟨rfl, Or.inl (fun _ => rfl), ?_⟩⟩
      intro k hk h
      simp only [St.cancelGreater]
      rw [get_filter, if_pos (hk n hn)]
      exact h

theorem adapts_timer {A : Alg σ ε} {o : Opts} {s s1 : St σ} {k p} (h : Adapts A o s k p s1) :
    s1.timer = s.timer ∧ s1.hasFailure = s.hasFailure ∧ s1.hasFinalBlockId = s.hasFinalBlockId := by
  cases h <;> exact ⟨rfl, rfl, rfl⟩

theorem shape_handleData {A : Alg σ ε} {o : Opts} {al : Allow} {s : St σ} {v : Env ε} {k p c} (hw : WF s)
    (he : k ∈ s.out) (hR : al.clean → o.maxRetries = -1) (hnet : al.net k p) (hc : c = true → al.cancels)
    (hcl : al.clean → s.hasFinalBlockId = false → ∀ n, p.final = .seg n →
      ∀ j x, get s.info j = some x → n < j → x.state ≠ .inRetxQueue) :
    Shape A o al s (.data k p c v) ((s.called k).handleData A o v k p c) := by
  have h1 := one (Micro.called (A := A) (o := o) (al := al) s k he)
  have hw1 := wf_steps hw h1
  have hlog1 : (s.called k).log = s.log := rfl
  have htimer1 : (s.called k).timer = s.timer := rfl
  unfold St.handleData
  split
  · rename_i hs
    exact .quiet (.of_log rfl) (fun _ _ => Or.inl hs)
  rename_i hs
  simp only [Bool.not_eq_true] at hs
  obtain ⟨h2, h3⟩ := steps_handleFinal A o al (s.called k) k p hs hnet (by
    intro hc hf n hp j x hx hj
    obtain ⟨y, hy, hyx⟩ := get_called_state hx
    rw [← hyx]
    exact hcl hc hf n hp j y hy hj)
  obtain ⟨g1, g2, g3⟩ := handleFinal_shape (s.called k) p
  dsimp only
  generalize (s.called k).handleFinal p = r at h2 h3 g1 g2 g3
  split
  · rename_i hr
    obtain ⟨g4, gf, g5⟩ := g3 hr
    obtain ⟨hs1, hfin⟩ := h3 hr
    have hw2 := wf_steps hw1 h2
    have hns : NoSend s r.1 := .of_log (by rw [g1, hlog1])
    unfold St.handleSeg
    cases hx : get r.1.info k with
    | none =>
      refine .quiet hns (fun hp hf => ?_)
      exfalso
      obtain ⟨x, hx', _⟩ := hp
      have := g5 k hf (by rw [isSome_called, hx']; rfl)
      rw [hx] at this
      cases this
    | some x =>
      dsimp only
      obtain ⟨s1, ha, h4⟩ := adapts_adapt A o v r.1 k x p
      obtain ⟨l, e0, hnl, e1, e2, e3, e4⟩ := adapts_frame ha
      have h5 : s1.isStopping = false := by rw [e4, hs1]
      rw [h4]
      split
      · refine .quiet (hns.trans ⟨l ++ [.data k p], ?_, ?_⟩) (fun _ _ => Or.inr (Or.inr (Or.inl rfl)))
        · simp [St.onData, e0]
        · intro j b hj
          rcases List.mem_append.mp hj with hj | hj
          · exact hnl j b hj
          · simp at hj
      · unfold St.finish
        dsimp only
        have h6 := Micro.deliver (al := al) r.1 s1 k x p hs1 hx hnet ha hfin
        rw [deliver_eq]
        have hns2 : ∀ tl : List Obs, (∀ j b, Obs.interest j b ∉ tl) → ∀ u : St σ, u.log = s1.log ++ tl → NoSend s u := by
          intro tl htl u hu
          refine hns.trans ⟨l ++ tl, by rw [hu, e0]; simp, ?_⟩
          intro j b hj
          rcases List.mem_append.mp hj with hj | hj
          · exact hnl j b hj
          · exact htl j b hj
        have htl : ∀ j b, Obs.interest j b ∉ (Obs.data k p ::
            if x.state ≠ SegState.retransmitted ∧ s1.retxCount k = 0 then [Obs.sample k] else []) := by
          intro j b; split <;> simp
        generalize htle : (Obs.data k p ::
            if x.state ≠ SegState.retransmitted ∧ s1.retxCount k = 0 then [Obs.sample k] else []) = tl at h6 htl
        generalize hs2 : ({ s1 with
              nReceived := s1.nReceived + 1, receivedSize := s1.receivedSize + p.content.length,
              nInFlight := if x.state ≠ SegState.inRetxQueue then s1.nInFlight - 1 else s1.nInFlight,
              info := del s1.info k,
              log := s1.log ++ tl } : St σ) = s2 at h6
        have h8 : s2.isStopping = false := by rw [← hs2]; exact h5
        have hlog2 : s2.log = s1.log ++ tl := by rw [← hs2]
        split
        · refine .quiet (hns2 (tl ++ [.complete]) ?_ _ ?_) (fun _ _ => Or.inl ?_)
          · intro j b; simp [htl j b]
          · simp [St.cancel, St.emit, h8, hlog2]
          · simp [St.cancel, St.emit, h8]
        · rename_i hna
          refine .sched s2 v _ ((h1.trans h2).trans (one h6)) (hns2 tl htl _ hlog2) h8 (Or.inl (by simpa using hna))
            ?_ (Or.inr ⟨rfl, ?_⟩) rfl
          · rw [← hs2]
            unfold FailKept at gf ⊢
            dsimp only
            rw [(adapts_timer ha).2.1, (adapts_timer ha).2.2]
            exact gf
          · rw [← hs2]
            dsimp only
            rw [(adapts_timer ha).1, g4, htimer1]
  · rename_i hr
    refine .quiet (.of_log (by rw [g1, hlog1])) (fun _ _ => ?_)
    rcases g2 (by simpa using hr) with h | h
    · exact Or.inl h
    · exact Or.inr (Or.inl h)

theorem step_shape {A : Alg σ ε} {o : Opts} {al : Allow} {s : St σ} {e : Ev ε} (hw : WF s)
    (he : s.enabled e) (hal : Allowed al o s e) : Shape A o al s e (s.step A o e) := by
  have hR : al.clean → o.maxRetries = -1 := fun hc => (hal.clean hc).2
  unfold St.step
  split
  · rename_i hx
    refine .quiet (.refl s) (fun _ _ => ?_)
    simp only [Bool.or_eq_true] at hx
    rcases hx with hx | hx
    · exact Or.inr (Or.inl hx)
    · exact Or.inr (Or.inr (Or.inl hx))
  cases e with
  | data k p c v =>
    obtain ⟨hn, hcc⟩ := hal.net k p c v rfl
    exact shape_handleData hw he hR hn hcc (fun hc => (hal.clean hc).1)
  | nack k r v =>
    have h1 := one (Micro.called (A := A) (o := o) (al := al) s k he)
    have hw1 := wf_steps hw h1
    have hk : Obs.interest k false ∈ (s.called k).log := hw.out k he
    have hl : get (s.called k).info k = none → al.late := by
      intro h; exact hal.late k (Or.inl ⟨r, v, rfl⟩) (get_called_none.mp h)
    simp only [St.handleNack]
    split
    · rename_i hs; exact .quiet (.of_log rfl) (fun _ _ => Or.inl hs)
    rename_i hs
    simp only [Bool.not_eq_true] at hs
    split
    · exact .quiet (.of_log rfl) (fun _ _ => Or.inr (Or.inr (Or.inr ⟨rfl, Or.inr rfl, Or.inr ⟨rfl, rfl, same_called s k⟩⟩)))
    · refine shape_lossOf h1 hw1 hs hk hl ?_ rfl rfl rfl rfl rfl
      intro hc x hx
      obtain ⟨y, hy, hyx⟩ := get_called_state hx
      rw [← hyx]
      exact (hal.clean hc).1.2 y hy
    · obtain ⟨f1, f2⟩ := handleFail_shape (s.called k) k (.segNack k r)
      refine .quiet (.of_log (by rw [f1]; rfl)) (fun _ _ => ?_)
      rcases f2 with f2 | ⟨f2, f3, f4⟩
      · exact Or.inl f2
      · refine Or.inr (Or.inr (Or.inr ⟨f2, Or.inr f3, ?_⟩))
        rcases f4 with f4 | f4
        · exact Or.inl f4
        · right; rw [f4]; exact ⟨rfl, rfl, same_called s k⟩
  | expire k v =>
    have h1 := one (Micro.called (A := A) (o := o) (al := al) s k he)
    have hw1 := wf_steps hw h1
    have hk : Obs.interest k false ∈ (s.called k).log := hw.out k he
    simp only [St.handleLifetimeExpiration]
    split
    · rename_i hs; exact .quiet (.of_log rfl) (fun _ _ => Or.inl hs)
    rename_i hs
    simp only [Bool.not_eq_true] at hs
    have h2 : Steps A o al (s.called k) { s.called k with nTimeouts := (s.called k).nTimeouts + 1 } :=
      one (Micro.stat _ (s.called k).timer _ (s.called k).assertFailed Or.inl)
    refine shape_lossOf (h1.trans h2) (wf_steps hw1 h2) hs hk ?_ ?_ rfl rfl rfl rfl rfl
    · intro h; exact hal.late k (Or.inr ⟨v, rfl⟩) (get_called_none.mp h)
    · intro hc x hx
      obtain ⟨y, hy, hyx⟩ := get_called_state hx
      rw [← hyx]
      exact (hal.clean hc).1 y hy
  | check order v =>
    have h1 : Steps A o al s { s with timer := false } :=
      one (Micro.stat s false s.nTimeouts s.assertFailed Or.inl)
    have hw1 := wf_steps hw h1
    simp only [St.checkRto]
    split
    · rename_i hs; exact .quiet (.of_log rfl) (fun _ _ => Or.inl hs)
    rename_i hs
    simp only [Bool.not_eq_true] at hs
    obtain ⟨h2, h3, h4⟩ := steps_checkLoop A o al v order { s with timer := false } hw1 hs
    have hw2 := wf_steps hw1 h2
    have hmore := checkLoop_more v order { s with timer := false }
    have hnil := expired_nil (v := v) (order := order) (s := { s with timer := false })
    split
    · rename_i hne
      have hm := foldl_max_mem' hne
      have hk : Obs.interest ((St.expired { s with timer := false } v order).foldl max 0) false ∈ s.log := by
        generalize (St.expired { s with timer := false } v order).foldl max 0 = k at hm
        unfold St.expired at hm
        rw [List.mem_filter] at hm
        apply hw.has
        revert hm
        dsimp only
        cases get s.info k <;> simp
      generalize (St.expired { s with timer := false } v order).foldl max 0 = k at hk
      generalize order.foldl (St.checkOne v) { s with timer := false } = t at h2 h3 h4 hw2 hmore
      have h5 := steps_recordTimeout A o al v t k h3 (by rw [h4]; exact hk)
      have m2 := recordTimeout_fields A o v t k
      refine .sched _ v true ((h1.trans h2).trans h5) ?_ (by rw [recordTimeout_stopping]; exact h3) (Or.inr ?_)
        (Or.inr ⟨?_, ?_⟩) (Or.inl rfl) rfl
      · exact (NoSend.of_log (by rw [h4])).trans m2.2.2.2.2.1
      · exact all_of (m2.1.trans hmore.1) (m2.2.1.trans hmore.2.1) (m2.2.2.1.trans hmore.2.2.1)
      · exact m2.2.2.2.2.2.trans hmore.2.2.2
      · exact m2.2.1.trans hmore.2.1
    · rename_i hne
      rw [hnil (by simpa using hne)]
      exact .quiet (.of_log rfl)
        (fun _ _ => Or.inr (Or.inr (Or.inr ⟨rfl, Or.inl rfl, Or.inr ⟨rfl, rfl, fun _ => rfl⟩⟩)))
  | cancel =>
    refine .quiet (.of_log (cancel_win s).2.2) (fun _ _ => Or.inl ?_)
    dsimp only
    unfold St.cancel
    split <;> simp_all
  | posted =>
    dsimp only
    split
    · exact .quiet (.refl s) (fun _ _ => Or.inr (Or.inr (Or.inr ⟨rfl, Or.inr rfl, Or.inr ⟨rfl, rfl, fun _ => rfl⟩⟩)))
    · rename_i m rest hp
      exact .quiet ⟨[.failure m], rfl, by simp⟩
        (fun _ _ => Or.inr (Or.inr (Or.inr ⟨rfl, Or.inr rfl, Or.inr ⟨rfl, rfl, fun _ => rfl⟩⟩)))

/-! ## `schedulePackets` and the timer -/

/-- What `schedulePackets` leaves alone, unless it stops the pipeline. -/
def Kept (s t : St σ) : Prop :=
  t.nReceived = s.nReceived ∧ t.hasFinalBlockId = s.hasFinalBlockId ∧ t.lastSegmentNo = s.lastSegmentNo ∧
  t.threw = s.threw ∧ t.ub = s.ub ∧ (t.isStopping = true ∨ t.timer = s.timer) ∧
  (s.hasFinalBlockId = true → t.hasFailure = s.hasFailure)

theorem Kept.refl (s : St σ) : Kept s s := ⟨rfl, rfl, rfl, rfl, rfl, Or.inr rfl, fun _ => rfl⟩

theorem kept_onFailure (s : St σ) (m) : Kept s (s.onFailure m) := by
  refine ⟨?_, ?_, ?_, ?_, ?_, Or.inl (onFailure_stops s m), fun _ => ?_⟩ <;>
  · cases hs : s.isStopping with
    | true => simp [St.onFailure, hs]
    | false => rw [onFailure_eq hs]

theorem kept_handleFail (s : St σ) (k m) : Kept s (s.handleFail k m) := by
  unfold St.handleFail
  split
  · exact .refl s
  split
  · exact kept_onFailure s m
  split
  · rename_i hf
    dsimp only
    split
    · have := kept_onFailure { s with info := del s.info k, nInFlight := s.nInFlight - 1 } .noFinal
      exact this
    · exact ⟨rfl, rfl, rfl, rfl, rfl, Or.inr rfl, fun h => by simp [h] at hf⟩
  · exact .refl s

theorem kept_send (s : St σ) (o) (v : Env ε) (k b) : Kept s (s.sendInterest o v k b) := by
  unfold St.sendInterest
  split
  · exact .refl s
  split
  · exact .refl s
  split
  · exact .refl s
  split
  · unfold St.sendAgain
    dsimp only
    split
    · have := kept_handleFail { s with retxCount := fun j => if j = k then s.retxCount k + 1 else s.retxCount j } k
        (.maxRetries o.maxRetries k)
      exact this
    · exact ⟨rfl, rfl, rfl, rfl, rfl, Or.inr rfl, fun _ => rfl⟩
  · exact ⟨rfl, rfl, rfl, rfl, rfl, Or.inr rfl, fun _ => rfl⟩

theorem send_stopping {s : St σ} (hs : s.isStopping = true) (o) (v : Env ε) (k b) :
    s.sendInterest o v k b = s := by
  unfold St.sendInterest; rw [if_pos hs]

theorem Kept.trans {s t u : St σ} (h1 : Kept s t) (h2 : Kept t u)
    (hs : t.isStopping = true → u.isStopping = true) : Kept s u := by
  obtain ⟨a1, a2, a3, a4, a5, a6, a7⟩ := h1
  obtain ⟨b1, b2, b3, b4, b5, b6, b7⟩ := h2
  refine ⟨b1.trans a1, b2.trans a2, b3.trans a3, b4.trans a4, b5.trans a5, ?_,
    fun h => (b7 (a2.trans h)).trans (a7 h)⟩
  rcases a6 with a6 | a6
  · exact Or.inl (hs a6)
  · rcases b6 with b6 | b6
    · exact Or.inl b6
    · exact Or.inr (b6.trans a6)

theorem kept_schedRetx (o : Opts) (v : Env ε) (q : List Nat) (n : Nat) (s : St σ) :
    Kept s (St.schedRetx o v q n s).1 ∧ (s.isStopping = true → (St.schedRetx o v q n s).1.isStopping = true) := by
  induction q generalizing n s with
  | nil => cases n <;> exact ⟨.refl s, id⟩
  | cons k q ih =>
    cases n with
    | zero => exact ⟨.refl s, id⟩
    | succ n =>
      unfold St.schedRetx
      dsimp only
      split
      · obtain ⟨h1, h2⟩ := ih n ({ s with retxQueue := q }.sendInterest o v k true)
        have h3 : Kept s ({ s with retxQueue := q }.sendInterest o v k true) := by
          have := kept_send { s with retxQueue := q } o v k true; exact this
        refine ⟨Kept.trans (t := { s with retxQueue := q }.sendInterest o v k true) h3 h1 h2, ?_⟩
        intro hs
        apply h2
        rw [send_stopping (by exact hs)]
        exact hs
      · exact ih (n + 1) { s with retxQueue := q, nSkippedRetx := s.nSkippedRetx + 1 }

theorem kept_schedNew (o : Opts) (v : Env ε) (n : Nat) (s : St σ) :
    Kept s (St.schedNew o v n s) ∧ (s.isStopping = true → (St.schedNew o v n s).isStopping = true) := by
  induction n generalizing s with
  | zero => exact ⟨.refl s, id⟩
  | succ n ih =>
    unfold St.schedNew
    obtain ⟨h1, h2⟩ := ih ({ s with nextSegmentNo := s.nextSegmentNo + 1 }.sendInterest o v s.nextSegmentNo false)
    have h3 : Kept s ({ s with nextSegmentNo := s.nextSegmentNo + 1 }.sendInterest o v s.nextSegmentNo false) := by
      have := kept_send { s with nextSegmentNo := s.nextSegmentNo + 1 } o v s.nextSegmentNo false; exact this
    refine ⟨Kept.trans (t := { s with nextSegmentNo := s.nextSegmentNo + 1 }.sendInterest o v s.nextSegmentNo false)
      h3 h1 h2, ?_⟩
    intro hs
    apply h2
    rw [send_stopping (by exact hs)]
    exact hs

theorem kept_schedulePackets (A : Alg σ ε) (o : Opts) (v : Env ε) (s : St σ) : Kept s (s.schedulePackets A o v) := by
  unfold St.schedulePackets
  dsimp only
  obtain ⟨h1, h2⟩ := kept_schedRetx o v s.retxQueue (A.slots s.win - s.nInFlight).toNat
    { s with assertFailed := s.assertFailed || decide (s.nInFlight < 0) }
  generalize St.schedRetx o v s.retxQueue (A.slots s.win - s.nInFlight).toNat
    { s with assertFailed := s.assertFailed || decide (s.nInFlight < 0) } = r at h1 h2
  obtain ⟨h3, h4⟩ := kept_schedNew o v r.2 r.1
  exact Kept.trans (t := r.1) h1 h3 h4

/-! ## Progress -/

/-- What the progress argument knows at the end of every event. -/
structure Prog (s : St σ) : Prop where
  timer : s.timer = true
  all : s.allSegmentsReceived = false
  live : s.hasFailure = true ∨ 0 < inFlight s.info
  ff : s.hasFinalBlockId = true → s.hasFailure = false

def Ended (s : St σ) : Prop := s.isStopping = true ∨ s.threw.isSome = true ∨ s.ub = true

theorem inFlight_same {s s' : St σ} (h : SameInfo s s') (hw : WF s) (hw' : WF s')
    (hp : 0 < inFlight s.info) : 0 < inFlight s'.info := by
  rw [inFlight_pos hw'.nodup]
  obtain ⟨k, x, hx, hst⟩ := (inFlight_pos hw.nodup).mp hp
  have := h k
  rw [hx] at this
  cases hy : get s'.info k with
  | none => rw [hy] at this; cases this
  | some y =>
    rw [hy] at this
    simp at this
    exact ⟨k, y, hy, by rw [this]; exact hst⟩

theorem prog_sched {A : Alg σ ε} {o : Opts} {w : σ} {v : Env ε} {t : St σ} {b : Bool}
    (hslots : ∀ w', Reach A w w' → 1 ≤ A.slots w') (h : Good A w t) (hs : t.isStopping = false)
    (hall : t.allSegmentsReceived = false) (hff : t.hasFinalBlockId = true → t.hasFailure = false)
    (hb : b = true ∨ (b = (t.schedulePackets A o v).timer ∧ t.timer = true)) :
    Ended { t.schedulePackets A o v with timer := b } ∨ Prog { t.schedulePackets A o v with timer := b } := by
  have ha := schedulePackets_alive o v h hs (hslots _ h.reach) hall
  obtain ⟨k1, k2, k3, _, _, k6, k7⟩ := kept_schedulePackets A o v t
  rcases ha with ha | ha
  · left; left; exact ha
  rcases k6 with k6 | k6
  · left; left; exact k6
  · right
    refine ⟨?_, ?_, ha, fun h => by
      have h' := k2.symm.trans h
      exact (k7 h').trans (hff h')⟩
    · rcases hb with hb | ⟨hb, ht⟩
      · exact hb
      · dsimp only; rw [hb, k6, ht]
    · rw [← hall]
      exact all_of k1 k2 k3

theorem prog_step {A : Alg σ ε} {o : Opts} {al : Allow} {w : σ} {s : St σ} {e : Ev ε} (hlate : ¬ al.late)
    (hslots : ∀ w', Reach A w w' → 1 ≤ A.slots w') (hg : Good A w s)
    (he : s.enabled e) (hal : Allowed al o s e) (hp : Prompt s e) (hf : FinalNotBefore e)
    (h : Ended s ∨ Prog s) (hg' : Good A w (s.step A o e))
    (hend : Ended s → Ended (s.step A o e)) :
    Ended (s.step A o e) ∨ Prog (s.step A o e) := by
  rcases h with h | h
  · exact Or.inl (hend h)
  have hsh := step_shape (A := A) hg.wf he hal
  generalize s.step A o e = s' at hsh hg'
  cases hsh with
  | quiet _ hq =>
    rcases hq hp hf with h1 | h1 | h1 | ⟨h1, h2, h3⟩
    · exact Or.inl (Or.inl h1)
    · exact Or.inl (Or.inr (Or.inl h1))
    · exact Or.inl (Or.inr (Or.inr h1))
    · right
      refine ⟨?_, by rw [h1, h.all], ?_, ?_⟩
      · rcases h2 with h2 | h2
        · exact h2
        · rw [h2, h.timer]
      · rcases h3 with h3 | ⟨h3, _, h4⟩
        · exact Or.inl h3.1
        · rcases h.live with h5 | h5
          · left; rw [h3]; exact h5
          · right; exact inFlight_same h4 hg.wf hg'.wf h5
      · rcases h3 with h3 | ⟨h3, h4, _⟩
        · intro hx; rw [h3.2] at hx; cases hx
        · rw [h3, h4]; exact h.ff
  | sched t v b h1 _ h3 h4 hfk h5 h6 =>
    subst h6
    have hgt := good_steps hlate hg h1
    refine prog_sched hslots hgt h3 ?_ ?_ ?_
    · rcases h4 with h4 | h4
      · exact h4
      · rw [h4, h.all]
    · rcases hfk with hfk | ⟨hfk, hfk2⟩
      · exact hfk
      · rw [hfk, hfk2]; exact h.ff
    · rcases h5 with h5 | ⟨h5, h6⟩
      · exact Or.inl h5
      · exact Or.inr ⟨h5, by rw [h6, h.timer]⟩

/-- Once ended, always ended. -/
theorem ended_step {A : Alg σ ε} {o : Opts} {s : St σ} {e : Ev ε} (hw : WF s) (he : s.enabled e)
    (h : Ended s) : Ended (s.step A o e) := by
  rcases h with h | h | h
  · exact Or.inl (frozen_steps h (steps_step (al := Allow.all) hw he (allowed_all o s e))).1
  · right; left
    unfold St.step
    rw [if_pos (by simp [h])]
    exact h
  · right; right
    unfold St.step
    rw [if_pos (by simp [h])]
    exact h

end Verif.Adaptive
