import Verif.Proofs.AdaptiveShape

/-! # Invariants of the adaptive pipeline: the final segment in the history, truthful failure messages -/

namespace Verif.Adaptive

set_option linter.unusedSimpArgs false

variable {σ ε : Type}

/-- Delivered Data is either older or was delivered with the final segment number in mind. -/
theorem micro_data {A : Alg σ ε} {o : Opts} {al : Allow} {s s' : St σ} (m : Micro A o al s s') {k p}
    (h : Obs.data k p ∈ s'.log) :
    Obs.data k p ∈ s.log ∨ (s'.hasFinalBlockId = true ∨ p.final = .absent) := by
  have hd : ∀ {s1 : St σ} {j p'} {tl : List Obs}, Adapts A o s j p' s1 →
      (∀ k p, Obs.data k p ∉ tl) →
      (s.hasFinalBlockId = true ∨ p'.final = .absent) → Obs.data k p ∈ s1.log ++ (.data j p' :: tl) →
      Obs.data k p ∈ s.log ∨ (s1.hasFinalBlockId = true ∨ p.final = .absent) := by
    intro s1 j p' tl ha htl hf hm
    obtain ⟨ad, e1, e2, e3⟩ := adapts_log ha
    rw [(adapts_timer ha).2.2]
    rw [e1] at hm
    simp only [List.append_assoc, List.mem_append, List.mem_cons] at hm
    rcases hm with hm | hm | hm | hm
    · exact Or.inl hm
    · exfalso; rcases e3 with rfl | rfl | ⟨rfl, _⟩ <;> simp at hm
    · right; cases hm; exact hf
    · exact absurd hm (htl k p)
  cases m with
  | complete hs ha => left; simpa [St.cancel, St.emit, hs] using h
  | new v hs hf hfin => left; simpa [St.transmit] using h
  | resend v k q hq hs hh hl hm => left; simpa [St.transmit] using h
  | loss k e hc hk hs => left; simpa using h
  | enqueue k x hx hs hcl => rw [enqueue_log] at h; exact Or.inl h
  | throwRange k hx hl hs hk => rw [enqueue_log] at h; exact Or.inl h
  | deliver s1 k x p hs hx hn ha hf =>
    have := hd (tl := if x.state ≠ SegState.retransmitted ∧ s1.retxCount k = 0 then [Obs.sample k] else []) ha
      (by intro k p; split <;> simp) hf h
    exact this
  | ub s1 k x p n hs hx hn hc ha hf =>
    have := hd (tl := []) ha (by simp) hf h
    exact this
  | posted m rest hp => left; simpa using h
  | _ => left; exact h

theorem micro_final {A : Alg σ ε} {o : Opts} {al : Allow} {s s' : St σ} (m : Micro A o al s s')
    (h : s.hasFinalBlockId = true) : s'.hasFinalBlockId = true := by
  cases m with
  | complete hs ha => simp [St.cancel, St.emit, hs, h]
  | enqueue k x hx hs hcl => have f := enqueue_fields s k; dsimp only at f; simp [f, h]
  | throwRange k hx _ hs hk => have f := enqueue_fields s k; dsimp only at f; simp [f, h]
  | deliver s1 k x p hs hx hn ha hf => exact (adapts_timer ha).2.2.trans h
  | ub s1 k x p n hs hx hn hc ha hf => exact (adapts_timer ha).2.2.trans h
  | final k p n hs hf hn hp hcl => rfl
  | _ => exact h

/-- The final segment number and the history. -/
structure FinalHist (s : St σ) : Prop where
  known : ∀ k p, Obs.data k p ∈ s.log → p.final ≠ .absent → s.hasFinalBlockId = true
  after : ∀ pre k p post, s.log = pre ++ Obs.data k p :: post → p.final ≠ .absent →
    ∀ j b, Obs.interest j b ∈ post → j ≤ s.lastSegmentNo

theorem finalHist_initial (w : σ) : FinalHist (initial w) := by
  constructor <;> simp [initial]

theorem finalHist_micro {A : Alg σ ε} {o : Opts} {al : Allow} {s s' : St σ} (hin : Within s)
    (h : FinalHist s) (m : Micro A o al s s') : FinalHist s' := by
  constructor
  · intro k p hk hp
    rcases micro_data m hk with h1 | h1 | h1
    · exact micro_final m (h.known k p h1 hp)
    · exact h1
    · exact absurd h1 hp
  · intro pre k p post e hp j b hj
    obtain ⟨l, hl, hadd⟩ := micro_adds m
    rw [hl] at e
    rcases split_append e with ⟨post', e1, e2⟩ | ⟨pre', e1, e2⟩
    · have hf := h.known k p (by rw [e1]; simp) hp
      obtain ⟨_, b2, l', b3, b4, _⟩ := bounded_micro hin hf m
      have : l' = l := by rw [hl] at b3; exact (List.append_cancel_left b3).symm
      subst this
      rw [b2]
      rw [e2] at hj
      rcases List.mem_append.mp hj with hj | hj
      · exact h.after pre k p post' e1 hp j b hj
      · exact b4 j b hj
    · exfalso
      cases hadd with
      | data k' x p' ad sm hs hx hnet had hsm hgone =>
        rcases had with rfl | rfl | ⟨rfl, _⟩ <;> rcases hsm with rfl | ⟨rfl, _⟩ <;>
          (have : Obs.interest j b ∈ pre' ++ Obs.data k p :: post := by simp [hj]) <;>
          rw [← e2] at this <;> simp at this
      | nil => simp at e2
      | complete _ _ _ _ => have := single_split e2; simp at this
      | new _ _ _ => have := single_split e2; simp at this
      | resend _ _ _ _ _ => have := single_split e2; simp at this
      | loss _ _ _ _ => have := single_split e2; simp at this
      | failure _ _ _ _ _ => have := single_split e2; simp at this

theorem run_finalHist {A : Alg σ ε} {o : Opts} {al : Allow} {w : σ} {v : Env ε} {es s}
    (hR : al.clean → o.maxRetries = -1) (h : ARun A o w v al es s) : FinalHist s := by
  have := arun_inv (P := fun s => Within s ∧ FinalHist s) hR h ⟨within_initial w, finalHist_initial w⟩
    (fun _ _ _ hc hm => ⟨within_micro hc.1 hm, finalHist_micro hc.1 hc.2 hm⟩)
  exact this.2

/-! ## Truthful failure messages -/

structure Blame (al : Allow) (o : Opts) (s : St σ) : Prop where
  posted : ∀ m ∈ s.posted, Truth al.nacked o s.log m
  log : ∀ m, Obs.failure m ∈ s.log → Truth al.nacked o s.log m
  kept : s.hasFailure = true → s.isStopping = false → s.failureReason ≠ .noFinal ∧
    Truth al.nacked o s.log s.failureReason
  gone : s.hasFailure = true → s.isStopping = false → ∀ n k, s.failureReason = .maxRetries n k →
    get s.info k = none

theorem truth_mono {P : Nat → NackReason → Prop} {o : Opts} {l l' : List Obs} {m : FailMsg}
    (h : Truth P o l m) (h1 : m ≠ .noFinal ∨ ∀ k p, Obs.data k p ∉ l')
    (h2 : ∀ n k, m = .maxRetries n k → k ∉ received l') : Truth P o (l ++ l') m := by
  cases m with
  | noFinal =>
    intro k p hk
    rcases List.mem_append.mp hk with hk | hk
    · exact h k p hk
    · rcases h1 with h1 | h1
      · exact absurd rfl h1
      · exact absurd hk (h1 k p)
  | segNack k r => exact ⟨h.1, h.2.1, h.2.2.1, by simp [h.2.2.2]⟩
  | maxRetries n k =>
    obtain ⟨g1, g2, g3, g4, g5⟩ := h
    refine ⟨g1, g2, ?_, by simp [g4], ?_⟩
    · rw [nRetx_append]; push_cast; omega
    · rw [received_append, List.mem_append, not_or]; exact ⟨g5, h2 n k rfl⟩
  | nack r => exact h.elim
  | maxNackRetries n => exact h.elim
  | maxTimeoutRetries n => exact h.elim
  | segment n => exact h.elim

/-- No Data among `l`. -/
theorem noData_received {l : List Obs} (h : ∀ k p, Obs.data k p ∉ l) (k) : k ∉ received l := by
  rw [mem_received]; rintro ⟨p, hp⟩; exact h k p hp

theorem msgOf_truth {al : Allow} {o : Opts} {s : St σ} {m : FailMsg} {rc k} (hw : WF s) (hc : Core s)
    (hbud : Budget o s) (hs : s.isStopping = false) (hm : MsgOf al o s rc k m) :
    Truth al.nacked o s.log m := by
  rcases hm with ⟨r, rfl, h1, h2, h3, h4⟩ | ⟨rfl, h1, h2, _⟩
  · exact ⟨h3, h1, h2, h4⟩
  · refine ⟨rfl, h1.2.1, ?_, hw.has k h2, hc.live k h2⟩
    rw [hbud.count hs k h2]
    obtain ⟨g1, _, g3⟩ := h1
    omega

theorem msg_truth {al : Allow} {o : Opts} {s : St σ} {m : FailMsg} {rc} (hw : WF s) (hc : Core s) (hbud : Budget o s)
    (hfh : FinalHist s) (hs : s.isStopping = false) (h : Blame al o s) (hm : Msg al o s rc m) :
    Truth al.nacked o s.log m := by
  rcases hm with ⟨rfl, h1, _⟩ | ⟨k, h1, _⟩ | ⟨h1, rfl, _⟩
  · intro k p hk
    by_contra hp
    have := hfh.known k p hk hp
    rw [h1] at this; cases this
  · exact msgOf_truth hw hc hbud hs h1
  · exact (h.kept h1 hs).2

theorem blame_micro {A : Alg σ ε} {o : Opts} {al : Allow} {s s' : St σ} (hw : WF s) (hc : Core s)
    (hbud : Budget o s) (hfh : FinalHist s) (hh : Hist al s) (h : Blame al o s) (m : Micro A o al s s') :
    Blame al o s' := by
  -- a change that is not a failure, while running
  have hrun : ∀ {t : St σ}, s.isStopping = false → ∀ l, t.log = s.log ++ l → (∀ m, Obs.failure m ∉ l) →
      t.posted = s.posted → t.hasFailure = s.hasFailure → t.failureReason = s.failureReason →
      (∀ k, get s.info k = none → k ∉ received l) →
      (t.isStopping = false → ∀ k, Obs.interest k false ∈ s.log → get s.info k = none → get t.info k = none) →
      Blame al o t := by
    intro t hs l hl hnf hp e1 e2 hrec hget
    obtain ⟨q1, q2, q3⟩ := hh.quiet hs
    have hnl : ∀ m, Obs.failure m ∉ t.log := by
      intro m hm; rw [hl] at hm
      rcases List.mem_append.mp hm with hm | hm
      · exact q2 m hm
      · exact hnf m hm
    refine ⟨?_, fun m hm => absurd hm (hnl m), ?_, ?_⟩
    · rw [hp, q1]; simp
    · intro hf hst
      rw [e1] at hf
      obtain ⟨g1, g2⟩ := h.kept hf hs
      rw [e2, hl]
      exact ⟨g1, truth_mono g2 (Or.inl g1) (fun n k hk => hrec k (h.gone hf hs n k hk))⟩
    · intro hf hst n k hk
      rw [e1] at hf
      rw [e2] at hk
      apply hget hst k ?_ (h.gone hf hs n k hk)
      have := (h.kept hf hs).2
      rw [hk] at this
      exact this.2.2.2.1
  -- a change of nothing relevant
  have hsame : ∀ {t : St σ}, t.log = s.log → t.posted = s.posted → t.hasFailure = s.hasFailure →
      t.failureReason = s.failureReason → t.isStopping = s.isStopping →
      (∀ k, get s.info k = none → get t.info k = none) → Blame al o t := by
    intro t hl hp e1 e2 e3 hget
    refine ⟨by rw [hp, hl]; exact h.posted, by rw [hl]; exact h.log, ?_, ?_⟩
    · rw [e1, e2, e3, hl]; exact h.kept
    · rw [e1, e2, e3]; intro hf hs n k hk; exact hget k (h.gone hf hs n k hk)
  have hput : ∀ {k x}, (get s.info k).isSome = true → ∀ j, get s.info j = none → get (put s.info k x) j = none := by
    intro k x hk j hj
    rw [get_put]
    split
    · rename_i hjk; subst hjk; rw [hj] at hk; cases hk
    · exact hj
  cases m with
  | called k hk => exact hsame rfl rfl rfl rfl rfl (fun j hj => get_called_none.mpr hj)
  | stat t n a ha => exact hsame rfl rfl rfl rfl rfl (fun _ h => h)
  | stop rc q n posted' hs hp hrc =>
    refine ⟨?_, h.log, by simp, by simp⟩
    intro m hm
    dsimp only at hm ⊢
    rcases hp with rfl | ⟨m', rfl, hmsg⟩
    · exact h.posted m hm
    · rcases List.mem_append.mp hm with hm | hm
      · exact h.posted m hm
      · simp at hm; subst hm; exact msg_truth hw hc hbud hfh hs h hmsg
  | complete hs ha =>
    refine hrun hs [.complete] (by simp [St.cancel, St.emit, hs]) (by simp) (by simp [St.cancel, St.emit, hs])
      (by simp [St.cancel, St.emit, hs]) (by simp [St.cancel, St.emit, hs]) (by simp [received]) ?_
    simp [St.cancel, St.emit, hs]
  | new v hs hf hfin =>
    refine hrun hs [.interest s.nextSegmentNo false] rfl (by simp) rfl rfl rfl (by simp [received]) ?_
    intro _ k hk hg
    simp only [St.transmit]
    rw [get_put, if_neg]
    · exact hg
    · have := hw.next k false hk; omega
  | skip _ => exact hsame rfl rfl rfl rfl rfl (fun _ h => h)
  | pop k q n _ _ => exact hsame rfl rfl rfl rfl rfl (fun _ h => h)
  | resend v k q hq hs hg hl hm =>
    refine hrun hs [.interest k true] rfl (by simp) rfl rfl rfl (by simp [received]) ?_
    intro _ j _ hj
    exact hput hg j hj
  | fail k m q rc hs hf hk he hcl hl hqq hmsg =>
    obtain ⟨q1, q2, q3⟩ := hh.quiet hs
    have ht := msgOf_truth hw hc hbud hs hmsg
    have hget : ∀ j, j = k ∨ get s.info j = none →
        get (del s.info k |>.filter (fun e => decide (e.1 ≤ k))) j = none := by
      intro j hj
      rw [get_filter, get_del]
      rcases hj with rfl | hj
      · simp
      · split
        · split
          · rfl
          · exact hj
        · rfl
    refine ⟨?_, fun m hm => absurd hm (q2 m), ?_, ?_⟩
    · simp only [St.cancelGreater]; rw [q1]; simp
    · intro _ _
      refine ⟨?_, ht⟩
      -- `noFinal` is never stored as the reason
      dsimp only
      intro hm0
      subst hm0
      rcases hmsg with ⟨_, h1, _⟩ | ⟨h1, _⟩ <;> cases h1
    · intro _ _ n j hj
      dsimp only at hj ⊢
      apply hget
      rcases hmsg with ⟨r, h1, _⟩ | ⟨h1, _⟩
      · rw [h1] at hj; cases hj
      · rw [h1] at hj; cases hj; exact Or.inl rfl
  | loss k e hc hk hs => exact hrun hs [.decr k false] rfl (by simp) rfl rfl rfl (by simp [received]) (fun _ _ _ h => h)
  | enqueue k x hx hs hcl =>
    have f := enqueue_fields s k
    dsimp only at f
    refine hsame (enqueue_log s k) (by simp [f]) (by simp [f]) ?_ (by simp [f]) ?_
    · unfold St.enqueueForRetransmission; dsimp only; split <;> rfl
    · intro j hj
      rw [get_enqueue hx]
      split
      · rename_i hjk; subst hjk; rw [hj] at hx; cases hx
      · exact hj
  | throwRange k hx hl hs hk =>
    have f := enqueue_fields s k
    dsimp only at f
    refine hsame (enqueue_log s k) (by simp [f]) (by simp [f]) ?_ (by simp [f]) ?_
    · unfold St.enqueueForRetransmission; dsimp only; split <;> rfl
    · intro j hj
      rw [info_enqueue_none hx]; exact hj
  | throwFinal k p hs hnet hp => exact hsame rfl rfl rfl rfl rfl (fun _ h => h)
  | final k p n hs hf hn hp hcl =>
    refine hsame rfl rfl rfl rfl rfl ?_
    intro j hj
    simp only [St.cancelGreater]
    rw [get_filter]
    split
    · exact hj
    · rfl
  | clear hs hf hcl => exact ⟨h.posted, h.log, by simp, by simp⟩
  | deliver s1 k x p hs hx hn ha hf =>
    obtain ⟨ad, e1, e2, e3⟩ := adapts_log ha
    have f := adapts_fields ha
    have g1 : s1.failureReason = s.failureReason := by cases ha <;> rfl
    obtain ⟨_, _, _, ei, _, _, _⟩ := adapts_frame ha
    refine hrun hs (ad ++ .data k p :: if x.state ≠ .retransmitted ∧ s1.retxCount k = 0 then [.sample k] else [])
      (by dsimp only; rw [e1]; simp) ?_ f.2.2.2.2.1 (adapts_timer ha).2.1 g1 ?_ ?_
    · intro m; rcases e3 with rfl | rfl | ⟨rfl, _⟩ <;> split <;> simp
    · intro j hj hm
      have : j = k := by
        rw [mem_received] at hm
        obtain ⟨p', hp'⟩ := hm
        rcases e3 with rfl | rfl | ⟨rfl, _⟩ <;> split at hp' <;> simp at hp' <;> exact hp'.1
      subst this; rw [hj] at hx; cases hx
    · intro _ j _ hj
      dsimp only
      rw [ei, get_del]
      split
      · rfl
      · exact hj
  | ub s1 k x p n hs hx hn hcc ha hf =>
    obtain ⟨ad, e1, e2, e3⟩ := adapts_log ha
    have f := adapts_fields ha
    have g1 : s1.failureReason = s.failureReason := by cases ha <;> rfl
    refine hrun hs (ad ++ [.data k p]) (by dsimp only; rw [e1]; simp) ?_ f.2.2.2.2.1 (adapts_timer ha).2.1 g1 ?_ ?_
    · intro m; rcases e3 with rfl | rfl | ⟨rfl, _⟩ <;> simp
    · intro j hj hm
      have : j = k := by
        rw [mem_received] at hm
        obtain ⟨p', hp'⟩ := hm
        rcases e3 with rfl | rfl | ⟨rfl, _⟩ <;> simp at hp' <;> exact hp'.1
      subst this; rw [hj] at hx; cases hx
    · intro hcon; dsimp only at hcon; cases hcon
  | posted m rest hp =>
    have hno : ∀ k p, Obs.data k p ∉ [Obs.failure m] := by simp
    have hext : ∀ m', Truth al.nacked o s.log m' → Truth al.nacked o (s.log ++ [Obs.failure m]) m' :=
      fun m' ht => truth_mono ht (Or.inr hno) (fun _ k _ => noData_received hno k)
    refine ⟨?_, ?_, ?_, ?_⟩
    · intro m' hm'
      exact hext m' (h.posted m' (by rw [hp]; simp [hm']))
    · intro m' hm'
      dsimp only at hm' ⊢
      rcases List.mem_append.mp hm' with hm' | hm'
      · exact hext m' (h.log m' hm')
      · simp at hm'; subst hm'; exact hext m' (h.posted m' (by rw [hp]; simp))
    · intro hf hs
      obtain ⟨g1, g2⟩ := h.kept hf hs
      exact ⟨g1, hext _ g2⟩
    · exact h.gone

theorem blame_initial (al : Allow) (o : Opts) (w : σ) : Blame al o (initial w) := by
  constructor <;> simp [initial]

theorem run_blame {A : Alg σ ε} {o : Opts} {al : Allow} {w : σ} {v : Env ε} {es s}
    (hR : al.clean → o.maxRetries = -1) (h : ARun A o w v al es s) : Blame al o s := by
  have := arun_inv (P := fun s => Core s ∧ Budget o s ∧ Within s ∧ FinalHist s ∧ Hist al s ∧ Blame al o s) hR h
    ⟨core_initial w, budget_initial o w, within_initial w, finalHist_initial w, hist_initial al w, blame_initial al o w⟩
    (fun _ _ hw ⟨c, b, i, f, hh, bl⟩ hm => ⟨core_micro hw c hm, budget_micro hw b hm, within_micro i hm,
      finalHist_micro i f hm, hist_micro hh hm, blame_micro hw c b f hh bl hm⟩)
  exact this.2.2.2.2.2

/-! ## Failures, exceptions and undefined behaviour only when allowed -/

theorem hasFailure_micro {A : Alg σ ε} {o : Opts} {al : Allow} {s s' : St σ} (hR : o.maxRetries = -1)
    (hn : ∀ k r, al.nacked k r → r = .duplicate ∨ r = .congestion)
    (h : s.hasFailure = false) (m : Micro A o al s s') : s'.hasFailure = false := by
  cases m with
  | complete hs ha => simp [St.cancel, St.emit, hs, h]
  | enqueue k x hx hs hcl => have f := enqueue_fields s k; dsimp only at f; simp [f, h]
  | throwRange k hx _ hs hk => have f := enqueue_fields s k; dsimp only at f; simp [f, h]
  | deliver s1 k x p hs hx hn ha hf => exact (adapts_timer ha).2.1.trans h
  | ub s1 k x p n hs hx hn hc ha hf => exact (adapts_timer ha).2.1.trans h
  | clear hs hf hcl => rfl
  | fail k m q rc hs hf hk he hcl hl hqq hmsg =>
    exfalso
    rcases hmsg with ⟨r, _, h1, h2, h3, _⟩ | ⟨_, h1, _⟩
    · rcases hn k r h3 with h4 | h4
      · exact h1 h4
      · exact h2 h4
    · exact h1.2.1 hR
  | _ => exact h

theorem ub_micro {A : Alg σ ε} {o : Opts} {al : Allow} {s s' : St σ} (hc : ¬ al.cancels)
    (h : s.ub = false) (m : Micro A o al s s') : s'.ub = false := by
  cases m with
  | complete hs ha => simp [St.cancel, St.emit, hs, h]
  | enqueue k x hx hs hcl => unfold St.enqueueForRetransmission; dsimp only; split <;> exact h
  | throwRange k hx _ hs hk => unfold St.enqueueForRetransmission; dsimp only; split <;> exact h
  | deliver s1 k x p hs hx hn ha hf =>
    have : s1.ub = s.ub := by cases ha <;> rfl
    exact this.trans h
  | ub s1 k x p n hs hx hn hcc ha hf => exact absurd hcc hc
  | _ => exact h

theorem threw_micro {A : Alg σ ε} {o : Opts} {al : Allow} {s s' : St σ} (hc : ¬ al.late)
    (h : ∀ k, s.threw ≠ some (.outOfRange k)) (m : Micro A o al s s') :
    ∀ k, s'.threw ≠ some (.outOfRange k) := by
  cases m with
  | complete hs ha => simpa [St.cancel, St.emit, hs] using h
  | enqueue k x hx hs hcl =>
    unfold St.enqueueForRetransmission; dsimp only; rw [hx]; exact h
  | throwRange k hx hl hs hk => exact absurd hl hc
  | throwFinal k p hs hnet hp => simp
  | deliver s1 k x p hs hx hn ha hf =>
    have : s1.threw = s.threw := by cases ha <;> rfl
    dsimp only; rw [this]; exact h
  | ub s1 k x p n hs hx hn hcc ha hf =>
    have : s1.threw = s.threw := by cases ha <;> rfl
    dsimp only; rw [this]; exact h
  | _ => exact h

/-- Once ended, only failure callbacks that were posted before become visible. -/
theorem ended_frozen {A : Alg σ ε} {o : Opts} {w : σ} {v : Env ε} {s es' s'} (hw : WF s) (h : Ended s)
    (h' : (machine A o w v).RunFrom s es' s') :
    Ended s' ∧ ∃ l, s'.log = s.log ++ l ∧ (∀ x ∈ l, ∃ m, x = Obs.failure m) ∧
      l.length + s'.posted.length = s.posted.length := by
  induction h' with
  | nil => exact ⟨h, [], by simp, by simp, by simp⟩
  | @snoc es0 s0 e hr he ih =>
    obtain ⟨g1, l, g2, g3, g4⟩ := ih
    have hw0 := wf_steps hw (runFrom_steps hw hr)
    refine ⟨ended_step hw0 he g1, ?_⟩
    have hst := steps_step (A := A) (al := Allow.all) hw0 he (allowed_all o s0 e)
    rcases g1 with g1 | g1
    · obtain ⟨_, l', k2, k3, k4⟩ := frozen_steps g1 hst
      refine ⟨l ++ l', by dsimp only [machine]; rw [k2, g2]; simp, ?_, by dsimp only [machine]; simp; omega⟩
      intro x hx
      rcases List.mem_append.mp hx with hx | hx
      · exact g3 x hx
      · exact k3 x hx
    · have : (machine A o w v).step s0 e = s0 := by
        dsimp only [machine]
        unfold St.step
        rw [if_pos (by rcases g1 with g1 | g1 <;> simp [g1])]
      rw [this]
      exact ⟨l, g2, g3, g4⟩

/-- After `cancel()` the pipeline has ended. -/
theorem ended_cancel {A : Alg σ ε} {o : Opts} (s : St σ) : Ended (s.step A o .cancel) := by
  unfold St.step
  split
  · rename_i h
    rcases Bool.or_eq_true_iff.mp h with h | h
    · exact Or.inr (Or.inl h)
    · exact Or.inr (Or.inr h)
  · left
    dsimp only
    unfold St.cancel
    split
    · assumption
    · rfl

theorem ended_of_cancel {A : Alg σ ε} {o : Opts} {w : σ} {v : Env ε} {es s}
    (h : (machine A o w v).Run es s) (hc : Ev.cancel ∈ es) : Ended s := by
  induction h with
  | nil => simp at hc
  | @snoc es0 s0 e hr he ih =>
    rcases List.mem_append.mp hc with hc | hc
    · exact ended_step (run_wf hr) he (ih hc)
    · simp at hc; subst hc; exact ended_cancel (A := A) (o := o) s0

theorem step_cancel_log {A : Alg σ ε} {o : Opts} (s : St σ) :
    (s.step A o .cancel).log = s.log ∧ (s.step A o .cancel).posted = s.posted := by
  unfold St.step
  split
  · exact ⟨rfl, rfl⟩
  · dsimp only
    unfold St.cancel
    split <;> exact ⟨rfl, rfl⟩

/-- `schedulePackets` makes only Interests visible. -/
theorem handleFail_log (s : St σ) (k m) : (s.handleFail k m).log = s.log := by
  unfold St.handleFail
  split
  · rfl
  split
  · exact (onFailure_win s m).2.2
  split
  · dsimp only
    split
    · exact (onFailure_win _ _).2.2
    · rfl
  · rfl

theorem sendInterest_log (s : St σ) (o) (v : Env ε) (k b) :
    (s.sendInterest o v k b).log = s.log ∨ (s.sendInterest o v k b).log = s.log ++ [.interest k b] := by
  unfold St.sendInterest
  split
  · exact Or.inl rfl
  split
  · exact Or.inl rfl
  split
  · exact Or.inl rfl
  split
  · rename_i hb; subst hb
    unfold St.sendAgain
    dsimp only
    split
    · left; exact handleFail_log _ _ _
    · right; rfl
  · rename_i hb
    simp only [Bool.not_eq_true] at hb; subst hb
    right; rfl

theorem schedRetx_log (o : Opts) (v : Env ε) (q : List Nat) (n : Nat) (s : St σ) :
    ∃ l, (St.schedRetx o v q n s).1.log = s.log ++ l ∧ ∀ x ∈ l, ∃ k b, x = Obs.interest k b := by
  induction q generalizing n s with
  | nil => cases n <;> exact ⟨[], by simp [St.schedRetx], by simp⟩
  | cons k q ih =>
    cases n with
    | zero => exact ⟨[], by simp [St.schedRetx], by simp⟩
    | succ n =>
      simp only [St.schedRetx]
      split
      · obtain ⟨l, h1, h2⟩ := ih n ({ s with retxQueue := q }.sendInterest o v k true)
        rcases sendInterest_log { s with retxQueue := q } o v k true with h | h
        · rw [h] at h1; exact ⟨l, h1, h2⟩
        · rw [h] at h1
          refine ⟨.interest k true :: l, by rw [h1]; simp, ?_⟩
          intro x hx
          rcases List.mem_cons.mp hx with rfl | hx
          · exact ⟨_, _, rfl⟩
          · exact h2 x hx
      · exact ih (n + 1) _

theorem schedNew_log (o : Opts) (v : Env ε) (n : Nat) (s : St σ) :
    ∃ l, (St.schedNew o v n s).log = s.log ++ l ∧ ∀ x ∈ l, ∃ k b, x = Obs.interest k b := by
  induction n generalizing s with
  | zero => exact ⟨[], by simp [St.schedNew], by simp⟩
  | succ n ih =>
    simp only [St.schedNew]
    obtain ⟨l, h1, h2⟩ := ih ({ s with nextSegmentNo := s.nextSegmentNo + 1 }.sendInterest o v s.nextSegmentNo false)
    rcases sendInterest_log { s with nextSegmentNo := s.nextSegmentNo + 1 } o v s.nextSegmentNo false with h | h
    · rw [h] at h1; exact ⟨l, h1, h2⟩
    · rw [h] at h1
      refine ⟨.interest s.nextSegmentNo false :: l, by rw [h1]; simp, ?_⟩
      intro x hx
      rcases List.mem_cons.mp hx with rfl | hx
      · exact ⟨_, _, rfl⟩
      · exact h2 x hx

theorem schedulePackets_log (A : Alg σ ε) (o : Opts) (v : Env ε) (s : St σ) :
    ∃ l, (s.schedulePackets A o v).log = s.log ++ l ∧ ∀ x ∈ l, ∃ k b, x = Obs.interest k b := by
  unfold St.schedulePackets
  dsimp only
  obtain ⟨l1, h1, h2⟩ := schedRetx_log o v s.retxQueue (A.slots s.win - s.nInFlight).toNat
    { s with assertFailed := s.assertFailed || decide (s.nInFlight < 0) }
  generalize St.schedRetx o v s.retxQueue (A.slots s.win - s.nInFlight).toNat
    { s with assertFailed := s.assertFailed || decide (s.nInFlight < 0) } = r at h1 h2
  obtain ⟨l2, h3, h4⟩ := schedNew_log o v r.2 r.1
  refine ⟨l1 ++ l2, by rw [h3, h1]; simp, ?_⟩
  intro x hx
  rcases List.mem_append.mp hx with hx | hx
  · exact h2 x hx
  · exact h4 x hx

theorem recordTimeout_log (A : Alg σ ε) (o : Opts) (v : Env ε) (s : St σ) (k) :
    (s.recordTimeout A o v k).log = s.log ∨ (s.recordTimeout A o v k).log = s.log ++ [.decr k false] := by
  unfold St.recordTimeout
  split
  · exact Or.inr rfl
  · exact Or.inl rfl

/-- The visible effects of a loss: a decrease that names the segment, and Interests. -/
theorem recordSched_log (A : Alg σ ε) (o : Opts) (v : Env ε) (s : St σ) (k) :
    ∃ l, ((s.recordTimeout A o v k).schedulePackets A o v).log = s.log ++ l ∧
      ∀ x ∈ l, x = .decr k false ∨ ∃ j b, x = Obs.interest j b := by
  obtain ⟨l, h1, h2⟩ := schedulePackets_log A o v (s.recordTimeout A o v k)
  rcases recordTimeout_log A o v s k with h | h
  · exact ⟨l, by rw [h1, h], fun x hx => Or.inr (h2 x hx)⟩
  · refine ⟨.decr k false :: l, by rw [h1, h]; simp, ?_⟩
    intro x hx
    rcases List.mem_cons.mp hx with rfl | hx
    · exact Or.inl rfl
    · exact Or.inr (h2 x hx)

theorem lossOf_log (A : Alg σ ε) (o : Opts) (v : Env ε) (s : St σ) (k) :
    ∃ l, (s.lossOf A o v k).log = s.log ++ l ∧ ∀ x ∈ l, x = .decr k false ∨ ∃ j b, x = Obs.interest j b := by
  unfold St.lossOf
  dsimp only
  split
  · exact ⟨[], by rw [enqueue_log]; simp, by simp⟩
  · obtain ⟨l, h1, h2⟩ := recordSched_log A o v (s.enqueueForRetransmission k) k
    exact ⟨l, by rw [h1, enqueue_log], h2⟩

/-- Executions with stronger assumptions about the environment. -/
theorem arun_of {A : Alg σ ε} {o : Opts} {al : Allow} {w : σ} {v : Env ε} {en : St σ → Ev ε → Prop} {es s}
    (h : Machine.Run ⟨start A o w v, St.step A o, en⟩ es s) (hen : ∀ s e, en s e → s.enabled e)
    (hal : ∀ s e, e ∈ es → en s e → Allowed al o s e) : ARun A o w v al es s := by
  induction h with
  | nil => exact Machine.Run.nil
  | snoc e _ he ih =>
    exact Machine.Run.snoc (M := ⟨start A o w v, St.step A o, _⟩) e
      (ih (fun s e' h' => hal s e' (by simp [h']))) ⟨hen _ _ he, hal _ e (by simp) he⟩

/-- Weaker assumptions about the environment. -/
theorem run_weaken {A : Alg σ ε} {o : Opts} {w : σ} {v : Env ε} {en : St σ → Ev ε → Prop} {es s}
    (h : Machine.Run ⟨start A o w v, St.step A o, en⟩ es s) (hen : ∀ s e, en s e → s.enabled e) :
    (machine A o w v).Run es s := by
  induction h with
  | nil => exact Machine.Run.nil
  | snoc e _ he ih => exact Machine.Run.snoc (M := machine A o w v) e ih (hen _ _ he)

/-! ## Lemmas about single events -/

/-- After an event that sends, the counter does not exceed the window. -/
theorem sends_window {A : Alg σ ε} {o : Opts} {al : Allow} {s : St σ} {e : Ev ε} (hw : WF s)
    (he : s.enabled e) (hal : Allowed al o s e) {l k b} (h1 : (s.step A o e).log = s.log ++ l)
    (h2 : Obs.interest k b ∈ l) : (s.step A o e).nInFlight ≤ A.slots (s.step A o e).win := by
  have hsh := step_shape (A := A) hw he hal
  generalize s.step A o e = s' at hsh h1
  cases hsh with
  | quiet hq _ =>
    exfalso
    obtain ⟨l', h3, h4⟩ := hq
    rw [h1] at h3
    rw [List.append_cancel_left h3] at h2
    exact h4 k b h2
  | sched t v b' _ hns _ _ _ _ h6 =>
    subst h6
    obtain ⟨g1, g2⟩ := schedulePackets_window A o v t
    rcases g2 with g2 | g2
    · exfalso
      obtain ⟨l', h3, h4⟩ := hns
      dsimp only at h1
      rw [g2, h3] at h1
      rw [← List.append_cancel_left h1] at h2
      exact h4 k b h2
    · exact g2

theorem prompt_prog {A : Alg σ ε} {o : Opts} {w : σ} {v : Env ε} {es s}
    (hslots : ∀ w', Reach A w w' → 1 ≤ A.slots w') (h : (promptMachine A o w v).Run es s) :
    Ended s ∨ Prog s := by
  let al : Allow := ⟨fun _ _ => True, False, True, False, fun _ _ => True⟩
  have hal : ∀ s e, (promptMachine A o w v).enabled s e → Allowed al o s e := by
    intro s e he
    refine ⟨fun _ _ _ _ _ => ⟨trivial, fun _ => trivial⟩, ?_, fun h => h.elim, fun _ _ _ _ => trivial⟩
    rintro k (⟨r, v, rfl⟩ | ⟨v, rfl⟩) hk <;>
    · obtain ⟨x, hx, _⟩ : waitsFor s k := he.2.1
      rw [hk] at hx; cases hx
  have hlate : ¬ al.late := fun h => h
  have : Good A w s ∧ (Ended s ∨ Prog s) := by
    refine Machine.Run.invariant (P := fun s => Good A w s ∧ (Ended s ∨ Prog s)) ?_ ?_ h
    · have hg : Good A w (initial w) := good_initial A w
      have hst := steps_schedulePackets A o al v (initial w) (wf_initial w) rfl (fun h => h.elim)
      refine ⟨good_steps hlate hg hst, ?_⟩
      have := prog_sched (o := o) (v := v) (b := ((initial w).schedulePackets A o v).timer) hslots hg rfl rfl
        (fun _ => rfl) (Or.inr ⟨rfl, rfl⟩)
      exact this
    · rintro s e ⟨hg, hp⟩ he
      have hg' := good_steps hlate hg (steps_step hg.wf he.1 (hal s e he))
      exact ⟨hg', prog_step hlate hslots hg he.1 (hal s e he) he.2.1 he.2.2 hp hg' (ended_step hg.wf he.1)⟩
  exact this.2

theorem schedNew_stopped {s : St σ} (hs : s.isStopping = true) (o : Opts) (v : Env ε) (n : Nat) :
    (St.schedNew o v n s).isStopping = true ∧ (St.schedNew o v n s).posted = s.posted := by
  induction n generalizing s with
  | zero => exact ⟨hs, rfl⟩
  | succ n ih =>
    simp only [St.schedNew]
    rw [send_stopping (by exact hs)]
    have := ih (s := { s with nextSegmentNo := s.nextSegmentNo + 1 }) hs
    exact this

theorem expire_fails {A : Alg σ ε} {o : Opts} {s : St σ} {k : Nat} {v : Env ε} (hs : s.isStopping = false)
    (ht : s.threw = none) (hu : s.ub = false) (hR : o.maxRetries ≠ -1) (hf : s.hasFinalBlockId = true)
    (hk : (get s.info k).isSome = true) (hq : s.retxQueue = []) (hn : max 1 o.maxRetries ≤ (s.retxCount k : Int))
    (hw : s.nInFlight ≤ A.slots s.win) (hw' : o.disableCwa = true ∨ k > s.recPoint → s.nInFlight ≤ A.slots (A.dec s.win v.win))
    (hl : k ≤ s.lastSegmentNo) (hp : s.posted = []) :
    (s.step A o (.expire k v)).isStopping = true ∧
    (s.step A o (.expire k v)).posted = [.maxRetries o.maxRetries k] := by
  obtain ⟨x, hx⟩ : ∃ x, get (s.called k).info k = some x := by
    have := isSome_called s k k
    rw [hk] at this
    exact Option.isSome_iff_exists.mp this
  unfold St.step
  rw [if_neg (by simp [ht, hu])]
  dsimp only
  unfold St.handleLifetimeExpiration
  rw [if_neg (by simp [St.called, hs])]
  unfold St.lossOf
  dsimp only
  rw [if_neg (by rw [enqueue_threw _ _ (by dsimp only; rw [hx]; rfl)]; simp [St.called, ht])]
  -- the state before `recordTimeout`
  generalize hs1 : ({ s.called k with nTimeouts := (s.called k).nTimeouts + 1 }).enqueueForRetransmission k = s1
  have e1 : s1.isStopping = false ∧ s1.retxQueue = [k] ∧ (get s1.info k).isSome = true ∧
      s1.retxCount = s.retxCount ∧ s1.nInFlight = s.nInFlight - 1 ∧ s1.win = s.win ∧
      s1.hasFinalBlockId = true ∧ s1.lastSegmentNo = s.lastSegmentNo ∧ s1.posted = [] ∧ s1.recPoint = s.recPoint := by
    rw [← hs1]
    unfold St.enqueueForRetransmission
    dsimp only
    rw [hx]
    dsimp only
    refine ⟨hs, by simp [St.called, hq], ?_, rfl, rfl, rfl, hf, rfl, hp, rfl⟩
    rw [get_put]; simp
  clear hs1
  obtain ⟨a1, a2, a3, a4, a5, a6, a7, a8, a9, a10⟩ := e1
  generalize hs2 : s1.recordTimeout A o v k = s2
  have e2 : s2.isStopping = false ∧ s2.retxQueue = [k] ∧ (get s2.info k).isSome = true ∧
      s2.retxCount = s.retxCount ∧ s2.nInFlight + 1 ≤ A.slots s2.win ∧
      s2.hasFinalBlockId = true ∧ s2.lastSegmentNo = s.lastSegmentNo ∧ s2.posted = [] := by
    rw [← hs2]
    unfold St.recordTimeout
    split
    · rename_i hc
      have := hw' (by simpa [a10] using hc)
      exact ⟨a1, a2, a3, a4, by dsimp only; rw [a5, a6]; omega, a7, a8, a9⟩
    · exact ⟨a1, a2, a3, a4, by rw [a5, a6]; omega, a7, a8, a9⟩
  clear hs2
  obtain ⟨b1, b2, b3, b4, b5, b7, b8, b9⟩ := e2
  unfold St.schedulePackets
  dsimp only
  rw [b2]
  obtain ⟨n, hn'⟩ : ∃ n, (A.slots s2.win - s2.nInFlight).toNat = n + 1 := ⟨(A.slots s2.win - s2.nInFlight).toNat - 1, by omega⟩
  rw [hn']
  simp only [St.schedRetx]
  rw [if_pos b3]
  unfold St.sendInterest
  rw [if_neg (by simp [b1]), if_neg (by simp [b7, b8]; omega)]
  simp only [Bool.not_true, Bool.false_and, Bool.false_eq_true, if_false, if_true]
  unfold St.sendAgain
  dsimp only
  rw [if_pos (by rw [b4]; refine ⟨by omega, hR, by omega⟩)]
  unfold St.handleFail
  rw [if_neg (by simp [b1]), if_pos (by simp [b7, b8]; omega), onFailure_eq (by exact b1)]
  have hx : ∀ (t : St σ), (St.schedRetx o v [] n t).1 = t := by
    intro t; cases n <;> rfl
  rw [hx]
  have := schedNew_stopped (s := { s2 with assertFailed := s2.assertFailed || decide (s2.nInFlight < 0), retxQueue := [], retxCount := (fun j => if j = k then s2.retxCount k + 1 else s2.retxCount j), isStopping := true, timer := false, info := [], posted := s2.posted ++ [FailMsg.maxRetries o.maxRetries k] }) rfl o v
  exact ⟨(this _).1, (this _).2.trans (by simp [b9])⟩

theorem cause_loss {A : Alg σ ε} {o : Opts} {s t : St σ} {v : Env ε} {k l j b} (hd : Obs.decr j b ∈ l)
    (ht : t.log = s.log) (h : (t.lossOf A o v k).log = s.log ++ l) : j = k ∧ b = false := by
  obtain ⟨l', h1, h2⟩ := lossOf_log A o v t k
  rw [h1, ht] at h
  rw [← List.append_cancel_left h] at hd
  rcases h2 _ hd with h3 | ⟨_, _, h3⟩
  · cases h3; exact ⟨rfl, rfl⟩
  · cases h3

theorem no_new {s t : St σ} {l : List Obs} {x} (hd : x ∈ l) (ht : t.log = s.log) (h : t.log = s.log ++ l) : False := by
  rw [ht] at h
  have := List.self_eq_append_right.mp h
  rw [this] at hd; cases hd

theorem cause_expire {A : Alg σ ε} {o : Opts} {s : St σ} {v : Env ε} {k l j b} (hd : Obs.decr j b ∈ l)
    (h : (s.step A o (.expire k v)).log = s.log ++ l) : j = k ∧ b = false := by
  unfold St.step at h
  split at h
  · exact (no_new hd rfl h).elim
  dsimp only at h
  unfold St.handleLifetimeExpiration at h
  split at h
  · exact (no_new hd rfl h).elim
  · exact cause_loss hd rfl h

theorem cause_nack {A : Alg σ ε} {o : Opts} {s : St σ} {v : Env ε} {k r l j b} (hd : Obs.decr j b ∈ l)
    (h : (s.step A o (.nack k r v)).log = s.log ++ l) : j = k ∧ b = false ∧ r = .congestion := by
  unfold St.step at h
  split at h
  · exact (no_new hd rfl h).elim
  dsimp only at h
  unfold St.handleNack at h
  split at h
  · exact (no_new hd rfl h).elim
  cases r with
  | duplicate => exact (no_new hd rfl h).elim
  | congestion =>
    obtain ⟨h1, h2⟩ := cause_loss hd rfl h
    exact ⟨h1, h2, rfl⟩
  | none => exact (no_new hd (handleFail_log _ _ _) h).elim
  | noRoute => exact (no_new hd (handleFail_log _ _ _) h).elim

theorem checkLoop_log (v : Env ε) (order : List Nat) (s : St σ) : (order.foldl (St.checkOne v) s).log = s.log := by
  induction order generalizing s with
  | nil => rfl
  | cons k order ih =>
    rw [List.foldl_cons, ih]
    unfold St.checkOne
    split
    · rfl
    · split
      · rw [enqueue_log]
      · rfl

theorem cause_check {A : Alg σ ε} {o : Opts} {s : St σ} {v : Env ε} {order l j b} (hd : Obs.decr j b ∈ l)
    (h : (s.step A o (.check order v)).log = s.log ++ l) :
    b = false ∧ j ∈ order ∧ ∃ x, get s.info j = some x ∧ x.state ≠ .inRetxQueue ∧
        v.now > x.timeSent + x.rto := by
  unfold St.step at h
  split at h
  · exact (no_new hd rfl h).elim
  dsimp only at h
  unfold St.checkRto at h
  split at h
  · exact (no_new hd rfl h).elim
  dsimp only at h
  have hlog := checkLoop_log v order { s with timer := false }
  split at h
  · rename_i hne
    have hmem := foldl_max_mem' hne
    obtain ⟨l', h1, h2⟩ := recordSched_log A o v (order.foldl (St.checkOne v) { s with timer := false })
      ((St.expired { s with timer := false } v order).foldl max 0)
    rw [h1, hlog] at h
    rw [← List.append_cancel_left h] at hd
    rcases h2 _ hd with h3 | ⟨_, _, h3⟩
    · cases h3
      refine ⟨rfl, ?_⟩
      generalize (St.expired { s with timer := false } v order).foldl max 0 = j at hmem
      unfold St.expired at hmem
      obtain ⟨g1, g2⟩ := List.mem_filter.mp hmem
      refine ⟨g1, ?_⟩
      dsimp only at g2
      split at g2
      · cases g2
      · rename_i x hx
        have := of_decide_eq_true g2
        exact ⟨x, hx, this.1, this.2⟩
    · cases h3
  · exact (no_new hd hlog h).elim

theorem late_data {A : Alg σ ε} {o : Opts} {s : St σ} {v : Env ε} {k p c} (hk : get s.info k = none)
    (hf : s.hasFinalBlockId = true ∨ p.final = .absent) :
    (s.step A o (.data k p c v)).log = s.log ∧ (s.step A o (.data k p c v)).threw = s.threw ∧
      (s.step A o (.data k p c v)).info = s.info := by
  have hc : (s.called k).info = s.info := by unfold St.called; dsimp only; rw [hk]
  unfold St.step
  split
  · exact ⟨rfl, rfl, rfl⟩
  dsimp only
  unfold St.handleData
  split
  · exact ⟨rfl, rfl, hc⟩
  dsimp only
  have : (s.called k).handleFinal p = (s.called k, true) := by
    unfold St.handleFinal
    split
    · rfl
    · rename_i hn
      rcases hf with hf | hf
      · exact absurd hf hn
      · rw [hf]
  rw [this]
  simp only [if_true]
  unfold St.handleSeg
  rw [hc, hk]
  exact ⟨rfl, rfl, hc⟩

end Verif.Adaptive
