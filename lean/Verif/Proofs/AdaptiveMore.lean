import Verif.Proofs.AdaptiveBlame

/-! # Further invariants of the adaptive pipeline: samples, harmless failures, causes of retransmission -/

namespace Verif.Adaptive

set_option linter.unusedSimpArgs false

variable {σ ε : Type}

/-! ## Every segment that was requested once yields a sample -/

structure Samp (s : St σ) : Prop where
  cnt : s.isStopping = false → ∀ k, s.retxCount k ≠ 0 → Obs.interest k true ∈ s.log
  ret : ∀ k x, get s.info k = some x → x.state = .retransmitted → Obs.interest k true ∈ s.log
  smp : s.ub = false → ∀ pre k p post, s.log = pre ++ Obs.data k p :: post →
    Obs.interest k true ∉ pre → ∃ post', post = Obs.sample k :: post'

theorem samp_initial (w : σ) : Samp (initial w) := by
  constructor <;> simp [initial]

theorem samp_ext {s t : St σ} (h : Samp s) {l} (hl : t.log = s.log ++ l) (hd : ∀ k p, Obs.data k p ∉ l)
    (hu : t.ub = s.ub) (hc : t.isStopping = false → s.isStopping = false ∧
      ∀ k, t.retxCount k ≠ 0 → s.retxCount k ≠ 0 ∨ Obs.interest k true ∈ l)
    (hi : ∀ k x, get t.info k = some x → x.state = .retransmitted →
      Obs.interest k true ∈ l ∨ ∃ y, get s.info k = some y ∧ y.state = .retransmitted) : Samp t := by
  refine ⟨?_, ?_, ?_⟩
  · intro hs k hk
    rw [hl]
    obtain ⟨h1, h2⟩ := hc hs
    rcases h2 k hk with h3 | h3
    · exact List.mem_append_left _ (h.cnt h1 k h3)
    · exact List.mem_append_right _ h3
  · intro k x hx hr
    rw [hl]
    rcases hi k x hx hr with h3 | ⟨y, h3, h4⟩
    · exact List.mem_append_right _ h3
    · exact List.mem_append_left _ (h.ret k y h3 h4)
  · intro hub pre k p post e hn
    rw [hl] at e
    rcases split_append e with ⟨post', e1, e2⟩ | ⟨pre', e1, e2⟩
    · obtain ⟨q, hq⟩ := h.smp (by rw [← hu]; exact hub) pre k p post' e1 hn
      exact ⟨q ++ l, by rw [e2, hq]; rfl⟩
    · exact absurd (by rw [e2]; simp) (hd k p)

theorem samp_micro {A : Alg σ ε} {o : Opts} {al : Allow} {s s' : St σ} (h : Samp s)
    (m : Micro A o al s s') : Samp s' := by
  cases m with
  | called k hk =>
    refine samp_ext h (l := []) (by simp [St.called]) (by simp) rfl (fun hs => ⟨hs, fun k hk => Or.inl hk⟩) ?_
    intro j x hx hr
    obtain ⟨y, hy, hyx⟩ := get_called_state hx
    exact Or.inr ⟨y, hy, by rw [hyx, hr]⟩
  | stat t n a _ =>
    exact samp_ext h (l := []) (by simp) (by simp) rfl (fun hs => ⟨hs, fun k hk => Or.inl hk⟩)
      (fun k x hx hr => Or.inr ⟨x, hx, hr⟩)
  | stop rc q n posted' hs hp hrc =>
    exact samp_ext h (l := []) (by simp) (by simp) rfl (by simp) (by simp)
  | complete hs ha =>
    refine samp_ext h (l := [.complete]) (by simp [St.cancel, St.emit, hs]) (by simp)
      (by simp [St.cancel, St.emit, hs]) (by simp [St.cancel, St.emit, hs]) (by simp [St.cancel, St.emit, hs])
  | new v hs hf hl =>
    refine samp_ext h (l := [.interest s.nextSegmentNo false]) rfl (by simp) rfl
      (fun hs => ⟨hs, fun k hk => Or.inl hk⟩) ?_
    intro k x hx hr
    simp only [St.transmit] at hx
    rw [get_put] at hx
    split at hx
    · simp at hx; rw [← hx] at hr; simp at hr
    · exact Or.inr ⟨x, hx, hr⟩
  | skip _ =>
    exact samp_ext h (l := []) (by simp) (by simp) rfl (fun hs => ⟨hs, fun k hk => Or.inl hk⟩)
      (fun k x hx hr => Or.inr ⟨x, hx, hr⟩)
  | pop k q n _ _ =>
    exact samp_ext h (l := []) (by simp) (by simp) rfl (fun hs => ⟨hs, fun k hk => Or.inl hk⟩)
      (fun k x hx hr => Or.inr ⟨x, hx, hr⟩)
  | resend v k q hq hs hh hl hm =>
    refine samp_ext h (l := [.interest k true]) rfl (by simp) rfl ?_ ?_
    · intro hs
      refine ⟨hs, fun j hj => ?_⟩
      simp only [St.transmit, bump] at hj
      by_cases hjk : j = k
      · right; simp [hjk]
      · left; simpa [hjk] using hj
    · intro j x hx hr
      simp only [St.transmit] at hx
      rw [get_put] at hx
      split at hx
      · rename_i hj; left; simp [hj]
      · exact Or.inr ⟨x, hx, hr⟩
  | fail k m q rc hs hf hk he hcl hl hq hmsg =>
    refine samp_ext h (l := []) (by simp [St.cancelGreater]) (by simp) rfl ?_ ?_
    · intro hs
      refine ⟨hs, fun j hj => Or.inl ?_⟩
      simp only [St.cancelGreater] at hj
      rcases hq with ⟨_, rfl⟩ | ⟨_, rfl, _, hlim⟩
      · exact hj
      · simp only [bump] at hj
        by_cases hjk : j = k
        · rw [hjk]; exact hlim.1
        · simpa [hjk] using hj
    · intro j x hx hr
      simp only [St.cancelGreater] at hx
      rw [get_filter, get_del] at hx
      split at hx
      · split at hx
        · simp at hx
        · exact Or.inr ⟨x, hx, hr⟩
      · simp at hx
  | loss k e hc hk hs =>
    exact samp_ext h (l := [.decr k false]) rfl (by simp) rfl (fun hs => ⟨hs, fun k hk => Or.inl hk⟩)
      (fun k x hx hr => Or.inr ⟨x, hx, hr⟩)
  | enqueue k x hx hs hcl =>
    have hf := enqueue_fields s k
    refine samp_ext h (l := []) (by rw [enqueue_log]; simp) (by simp) ?_ ?_ ?_
    · unfold St.enqueueForRetransmission; dsimp only; rw [hx]
    · intro hs'
      unfold St.enqueueForRetransmission at hs' ⊢
      dsimp only at hs' ⊢
      rw [hx] at hs' ⊢
      exact ⟨hs', fun j hj => Or.inl hj⟩
    · intro j y hy hr
      unfold St.enqueueForRetransmission at hy
      dsimp only at hy
      rw [hx] at hy
      dsimp only at hy
      rw [get_put] at hy
      split at hy
      · simp at hy; rw [← hy] at hr; simp at hr
      · exact Or.inr ⟨y, hy, hr⟩
  | throwRange k hx hl hs hk =>
    unfold St.enqueueForRetransmission
    dsimp only
    rw [hx]
    exact samp_ext h (l := []) (by simp) (by simp) rfl (fun hs => ⟨hs, fun k hk => Or.inl hk⟩)
      (fun k x hx hr => Or.inr ⟨x, hx, hr⟩)
  | throwFinal k p hs hnet hp =>
    exact samp_ext h (l := []) (by simp) (by simp) rfl (fun hs => ⟨hs, fun k hk => Or.inl hk⟩)
      (fun k x hx hr => Or.inr ⟨x, hx, hr⟩)
  | final k p n hs hf hn hp hcl =>
    refine samp_ext h (l := []) (by simp [St.cancelGreater]) (by simp) rfl (fun hs => ⟨hs, fun k hk => Or.inl hk⟩) ?_
    intro j x hx hr
    simp only [St.cancelGreater] at hx
    rw [get_filter] at hx
    split at hx
    · exact Or.inr ⟨x, hx, hr⟩
    · simp at hx
  | clear _ _ _ =>
    exact samp_ext h (l := []) (by simp) (by simp) rfl (fun hs => ⟨hs, fun k hk => Or.inl hk⟩)
      (fun k x hx hr => Or.inr ⟨x, hx, hr⟩)
  | deliver s1 k x p hs hx hn ha hfin =>
    obtain ⟨ad, had, hrc, hadd⟩ := adapts_log ha
    obtain ⟨_, _, _, e1, _, _, _⟩ := adapts_frame ha
    have hub := (adapts_fields ha).2.2.2.2.2.2.2.2.2.2.2.2.1
    have hnod : ∀ j q, Obs.data j q ∉ ad := by
      intro j q hm
      rcases hadd with rfl | rfl | ⟨rfl, _⟩ <;> simp at hm
    have hint : ∀ j b, Obs.interest j b ∉ ad := by
      intro j q hm
      rcases hadd with rfl | rfl | ⟨rfl, _⟩ <;> simp at hm
    refine ⟨?_, ?_, ?_⟩
    · intro _ j hj
      dsimp only at hj ⊢
      rw [hrc] at hj
      rw [had]
      simp only [List.mem_append]
      exact Or.inl (Or.inl (h.cnt hs j hj))
    · intro j y hy hr
      dsimp only at hy ⊢
      rw [e1, get_del] at hy
      split at hy
      · simp at hy
      · rw [had]
        simp only [List.mem_append]
        exact Or.inl (Or.inl (h.ret j y hy hr))
    · intro hu pre j q post e hnr
      dsimp only at hu e
      rw [had, List.append_assoc] at e
      rcases split_append e with ⟨post', e2, e3⟩ | ⟨pre', e2, e3⟩
      · obtain ⟨z, hz⟩ := h.smp (by rw [← hub]; exact hu) pre j q post' e2 hnr
        exact ⟨_, by rw [e3, hz]; rfl⟩
      · rcases split_append e3 with ⟨_, e4, _⟩ | ⟨pre'', e4, e5⟩
        · exact absurd (by rw [e4]; simp) (hnod j q)
        · cases pre'' with
          | cons y l =>
            simp only [List.cons_append, List.cons.injEq] at e5
            exfalso
            have := congrArg (fun l => Obs.data j q ∈ l) e5.2
            split at this <;> simp at this
          | nil =>
            simp only [List.nil_append, List.cons.injEq, Obs.data.injEq] at e5
            obtain ⟨⟨rfl, rfl⟩, e6⟩ := e5
            have hn' : Obs.interest k true ∉ s.log := fun hm => hnr (by rw [e2]; simp [hm])
            have c1 : x.state ≠ .retransmitted := fun hc => hn' (h.ret k x hx hc)
            have c2 : s1.retxCount k = 0 := by
              rw [hrc]; by_contra hc; exact hn' (h.cnt hs k hc)
            rw [if_pos ⟨c1, c2⟩] at e6
            exact ⟨[], e6.symm⟩
  | ub s1 k x p n hs hx hn hc ha =>
    obtain ⟨ad, had, hrc, hadd⟩ := adapts_log ha
    refine ⟨by simp, by simp, by simp⟩
  | posted m rest hp =>
    exact samp_ext h (l := [.failure m]) rfl (by simp) rfl (fun hs => ⟨hs, fun k hk => Or.inl hk⟩)
      (fun k x hx hr => Or.inr ⟨x, hx, hr⟩)

theorem run_samp {A : Alg σ ε} {o : Opts} {al : Allow} {w : σ} {v : Env ε} {es s}
    (hR : al.clean → o.maxRetries = -1) (h : ARun A o w v al es s) : Samp s :=
  arun_inv (P := Samp) hR h (samp_initial w) (fun _ _ _ hc hm => samp_micro hc hm)

/-! ## Failures beyond the end -/

structure Harm (L : Nat) (s : St σ) : Prop where
  quiet : s.posted = [] ∧ ∀ m, Obs.failure m ∉ s.log
  kept : s.isStopping = false → ∀ j < L, Obs.interest j false ∈ s.log → j ∉ received s.log →
    (get s.info j).isSome = true
  failed : s.hasFailure = true → L ≤ s.failedSegNo
  opn : s.hasFinalBlockId = false → L - 1 ∉ received s.log
  fin : s.hasFinalBlockId = true → s.lastSegmentNo = L - 1

theorem harm_initial (L : Nat) (w : σ) : Harm L (initial w) := by
  constructor <;> simp [initial, received]

theorem harm_ext {L} {s t : St σ} (h : Harm L s) {l} (hl : t.log = s.log ++ l) (hf : ∀ m, Obs.failure m ∉ l)
    (hr : received l = []) (hp : t.posted = s.posted) (h1 : t.hasFailure = s.hasFailure)
    (h2 : t.failedSegNo = s.failedSegNo) (h3 : t.hasFinalBlockId = s.hasFinalBlockId)
    (h4 : t.lastSegmentNo = s.lastSegmentNo)
    (hk : t.isStopping = false → s.isStopping = false ∧ ∀ j < L,
      ((get s.info j).isSome = true ∨ Obs.interest j false ∈ l) → (get t.info j).isSome = true) : Harm L t := by
  refine ⟨?_, ?_, ?_, ?_, ?_⟩
  · rw [hp, hl]
    refine ⟨h.quiet.1, fun m hm => ?_⟩
    rcases List.mem_append.mp hm with hm | hm
    · exact h.quiet.2 m hm
    · exact hf m hm
  · intro hs j hj hi hn
    rw [hl, received_append, hr, List.append_nil] at hn
    obtain ⟨g1, g2⟩ := hk hs
    rw [hl] at hi
    rcases List.mem_append.mp hi with hi | hi
    · exact g2 j hj (Or.inl (h.kept g1 j hj hi hn))
    · exact g2 j hj (Or.inr hi)
  · rw [h1, h2]; exact h.failed
  · rw [h3, hl, received_append, hr, List.append_nil]; exact h.opn
  · rw [h3, h4]; exact h.fin

/-- The retransmission counters never decrease. -/
theorem retxCount_micro {A : Alg σ ε} {o : Opts} {al : Allow} {s s' : St σ} (m : Micro A o al s s') (j : Nat) :
    s.retxCount j ≤ s'.retxCount j := by
  have hb : ∀ k, s.retxCount j ≤ bump s k j := by
    intro k; unfold bump; split
    · rename_i h; subst h; omega
    · exact Nat.le_refl _
  cases m with
  | stop rc q n posted' hs hp hrc =>
    rcases hrc with rfl | ⟨k, rfl⟩
    · exact Nat.le_refl _
    · exact hb k
  | complete hs ha => simp [St.cancel, St.emit, hs]
  | resend v k q hq hs hh hl hm => exact hb k
  | fail k m q rc hs hf hk he hcl hl hq hm =>
    rcases hq with ⟨_, rfl⟩ | ⟨_, rfl, _⟩
    · exact Nat.le_refl _
    · exact hb k
  | enqueue k x hx hs hcl =>
    unfold St.enqueueForRetransmission; dsimp only; split <;> exact Nat.le_refl _
  | throwRange k hx _ hs hk =>
    unfold St.enqueueForRetransmission; dsimp only; split <;> exact Nat.le_refl _
  | deliver s1 k x p hs hx hn ha => cases ha <;> exact Nat.le_refl _
  | ub s1 k x p n hs hx hn hc ha => cases ha <;> exact Nat.le_refl _
  | _ => exact Nat.le_refl _

theorem retxCount_steps {A : Alg σ ε} {o : Opts} {al : Allow} {s s' : St σ} (m : Steps A o al s s') (j : Nat) :
    s.retxCount j ≤ s'.retxCount j := by
  induction m with
  | refl => exact Nat.le_refl _
  | tail _ hm ih => exact Nat.le_trans ih (retxCount_micro hm j)

theorem harm_micro {A : Alg σ ε} {o : Opts} {al : Allow} {segs : List Bytes} {s s' : St σ} (hL : segs ≠ [])
    (hR : o.maxRetries = -1 ∨ ∀ k, max 1 o.maxRetries < s'.retxCount k → segs.length ≤ k)
    (hnet : ∀ k p, al.net k p → Consistent segs k p ∧ (k + 1 = segs.length → p.final ≠ .absent))
    (hnk : ∀ k r, al.nacked k r → r ≠ .duplicate → r ≠ .congestion → segs.length ≤ k)
    (hw : WF s) (hc : Core s) (h : Harm segs.length s)
    (m : Micro A o al s s') : Harm segs.length s' := by
  have hpos : 0 < segs.length := List.length_pos_iff.mpr hL
  have hmsg : ∀ rc k m, rc = s'.retxCount → MsgOf al o s rc k m →
      segs.length ≤ k ∧ Obs.interest k false ∈ s.log := by
    intro rc k m he hm
    rcases hm with ⟨r, _, h1, h2, h3, h4⟩ | ⟨_, h1, h2, h3⟩
    · exact ⟨hnk k r h3 h1 h2, h4⟩
    · rcases hR with hR | hR
      · exact absurd hR h1.2.1
      · refine ⟨hR k ?_, hw.has k h2⟩
        rw [← he, h3]
        obtain ⟨g1, g2, g3⟩ := h1
        simp only [bump, if_pos]
        omega
  cases m with
  | called k hk =>
    refine harm_ext h (l := []) (by simp [St.called]) (by simp) rfl rfl rfl rfl rfl rfl ?_
    intro hs
    refine ⟨hs, fun j _ hj => ?_⟩
    simp only [List.not_mem_nil, or_false] at hj
    have := get_called_none (s := s) (k := k) (j := j)
    cases h1 : get (s.called k).info j with
    | none => rw [this.mp h1] at hj; simp at hj
    | some x => rfl
  | stat t n a _ =>
    exact harm_ext h (l := []) (by simp) (by simp) rfl rfl rfl rfl rfl rfl (fun hs => ⟨hs, by simp⟩)
  | stop rc q n posted' hs hp hrc =>
    rcases hp with rfl | ⟨m, rfl, hm⟩
    · exact harm_ext h (l := []) (by simp) (by simp) rfl rfl rfl rfl rfl rfl (by simp)
    · exfalso
      rcases hm with ⟨_, h1, k, m', h2, h3⟩ | ⟨k, h1, h2, h3⟩ | ⟨h1, _, hf, h3⟩
      · obtain ⟨g1, g2⟩ := hmsg rc k m' rfl h2
        obtain ⟨pre, post, e⟩ := List.append_of_mem g2
        have g3 : Obs.interest (segs.length - 1) false ∈ s.log := by
          rw [e]; exact List.mem_append_left _ ((hc.order pre k post e).1 _ (by omega))
        have g4 := h.kept hs (segs.length - 1) (by omega) g3 (h.opn h1)
        have g5 := isEmpty_iff_get.mp h3 (segs.length - 1)
        rw [get_del, if_neg (by omega)] at g5
        rw [g5] at g4
        simp at g4
      · have g1 := (hmsg rc k m rfl h1).1
        have := h.fin h2
        omega
      · have g1 := h.failed h1
        have := h.fin hf
        omega
  | complete hs ha =>
    refine harm_ext h (l := [.complete]) (by simp [St.cancel, St.emit, hs]) (by simp) rfl
      (by simp [St.cancel, St.emit, hs]) (by simp [St.cancel, St.emit, hs]) (by simp [St.cancel, St.emit, hs])
      (by simp [St.cancel, St.emit, hs]) (by simp [St.cancel, St.emit, hs]) (by simp [St.cancel, St.emit, hs])
  | new v hs hf hl =>
    refine harm_ext h (l := [.interest s.nextSegmentNo false]) rfl (by simp) rfl rfl rfl rfl rfl rfl ?_
    intro _
    refine ⟨hs, fun j _ hj => ?_⟩
    simp only [St.transmit]
    rw [get_put]
    split
    · rfl
    · rename_i hne
      rcases hj with hj | hj
      · exact hj
      · simp at hj; exact absurd hj hne
  | skip _ =>
    exact harm_ext h (l := []) (by simp) (by simp) rfl rfl rfl rfl rfl rfl (fun hs => ⟨hs, by simp⟩)
  | pop k q n _ _ =>
    exact harm_ext h (l := []) (by simp) (by simp) rfl rfl rfl rfl rfl rfl (fun hs => ⟨hs, by simp⟩)
  | resend v k q hq hs hh hl hm =>
    refine harm_ext h (l := [.interest k true]) rfl (by simp) rfl rfl rfl rfl rfl rfl ?_
    intro _
    refine ⟨hs, fun j _ hj => ?_⟩
    simp only [St.transmit]
    rw [get_put]
    split
    · rfl
    · simpa using hj
  | fail k m q rc hs hf hk he hcl hl hq hm =>
    obtain ⟨g1, _⟩ := hmsg rc k m rfl hm
    refine ⟨?_, ?_, fun _ => g1, ?_, ?_⟩
    · simpa [St.cancelGreater] using h.quiet
    · intro _ j hj hi hn
      have := h.kept hs j hj (by simpa [St.cancelGreater] using hi) (by simpa [St.cancelGreater] using hn)
      simp only [St.cancelGreater]
      rw [get_filter, get_del, if_pos (by omega), if_neg (by omega)]
      exact this
    · simpa [St.cancelGreater] using h.opn
    · simpa [St.cancelGreater] using h.fin
  | loss k e hcc hk hs =>
    exact harm_ext h (l := [.decr k false]) rfl (by simp) rfl rfl rfl rfl rfl rfl
      (fun hs => ⟨hs, fun j _ hj => by simpa using hj⟩)
  | enqueue k x hx hs hcl =>
    obtain ⟨f1, f2, f3, f4, f5, f6, f7, f8, -⟩ := enqueue_fields s k
    refine harm_ext h (l := []) (by rw [f8]; simp) (by simp) rfl f5 f3 f4 f1 f2 ?_
    intro _
    refine ⟨hs, fun j _ hj => ?_⟩
    simp only [List.not_mem_nil, or_false] at hj
    unfold St.enqueueForRetransmission
    dsimp only
    rw [hx]
    dsimp only
    rw [get_put]
    split
    · rfl
    · exact hj
  | throwRange k hx hl hs hk =>
    unfold St.enqueueForRetransmission
    dsimp only
    rw [hx]
    exact harm_ext h (l := []) (by simp) (by simp) rfl rfl rfl rfl rfl rfl (fun hs => ⟨hs, by simp⟩)
  | throwFinal k p hs hnet hp =>
    exact harm_ext h (l := []) (by simp) (by simp) rfl rfl rfl rfl rfl rfl (fun hs => ⟨hs, by simp⟩)
  | final k p n hs hf hn hp hcl =>
    obtain ⟨⟨_, g1⟩, _⟩ := hnet k p hn
    have hn' : n = segs.length - 1 := by
      rcases g1 with g1 | g1 <;> rw [hp] at g1
      · cases g1
      · simpa using g1
    refine ⟨?_, ?_, ?_, ?_, ?_⟩
    · simpa [St.cancelGreater] using h.quiet
    · intro _ j hj hi hnn
      have := h.kept hs j hj (by simpa [St.cancelGreater] using hi) (by simpa [St.cancelGreater] using hnn)
      simp only [St.cancelGreater]
      rw [get_filter, if_pos (by omega)]
      exact this
    · simpa [St.cancelGreater] using h.failed
    · simp [St.cancelGreater]
    · simp [St.cancelGreater, hn']
  | clear _ _ _ =>
    obtain ⟨a1, a2, a3, a4, a5⟩ := h
    exact ⟨a1, a2, by simp, a4, a5⟩
  | deliver s1 k x p hs hx hn ha hfin =>
    obtain ⟨ad, had, hrc, hadd⟩ := adapts_log ha
    obtain ⟨_, _, _, e1, _, _, e4⟩ := adapts_frame ha
    obtain ⟨f1, f2, f3, f4, f5, -⟩ := adapts_fields ha
    have hsm : ∀ sm, sm = (if x.state ≠ SegState.retransmitted ∧ s1.retxCount k = 0 then [Obs.sample k] else []) →
        received sm = [] ∧ (∀ m, Obs.failure m ∉ sm) ∧ ∀ j, Obs.interest j false ∉ sm := by
      intro sm h
      split at h <;> subst h <;> simp [received]
    generalize hg : (if x.state ≠ SegState.retransmitted ∧ s1.retxCount k = 0 then [Obs.sample k] else []) = sm
    obtain ⟨g1, g2, g3⟩ := hsm sm hg.symm
    have hrec : received (s1.log ++ (Obs.data k p :: sm)) = received s.log ++ [k] := by
      rw [received_append, received_cons_data, g1, had, received_append, received_adds hadd]
      simp
    have hint : ∀ j, Obs.interest j false ∉ ad := by
      intro j hm
      rcases hadd with rfl | rfl | ⟨rfl, _⟩ <;> simp at hm
    have hnf : ∀ j, Obs.failure j ∉ ad := by
      intro j hm
      rcases hadd with rfl | rfl | ⟨rfl, _⟩ <;> simp at hm
    refine ⟨⟨?_, ?_⟩, ?_, ?_, ?_, ?_⟩
    · dsimp only; rw [f5]; exact h.quiet.1
    · intro m hm
      dsimp only at hm
      rw [had] at hm
      simp only [List.mem_append, List.mem_cons] at hm
      rcases hm with (hm | hm) | hm | hm
      · exact h.quiet.2 m hm
      · exact hnf m hm
      · cases hm
      · exact g2 m hm
    · intro _ j hj hi hnn
      dsimp only at hi hnn ⊢
      rw [hrec] at hnn
      simp only [List.mem_append, List.mem_singleton, not_or] at hnn
      rw [e1, get_del, if_neg hnn.2]
      apply h.kept hs j hj ?_ hnn.1
      rw [had] at hi
      simp only [List.mem_append, List.mem_cons] at hi
      rcases hi with (hi | hi) | hi | hi
      · exact hi
      · exact absurd hi (hint j)
      · cases hi
      · exact absurd hi (g3 j)
    · dsimp only; rw [f3, f4]; exact h.failed
    · dsimp only
      rw [f1, hrec]
      intro hff
      simp only [List.mem_append, List.mem_singleton, not_or]
      refine ⟨h.opn hff, fun hk => ?_⟩
      have := (hnet k p hn).2 (by omega)
      rcases hfin with hfin | hfin
      · rw [hff] at hfin; cases hfin
      · exact this hfin
    · dsimp only; rw [f1, f2]; exact h.fin
  | ub s1 k x p n hs hx hn hcc ha hfin =>
    obtain ⟨ad, had, hrc, hadd⟩ := adapts_log ha
    obtain ⟨f1, f2, f3, f4, f5, -⟩ := adapts_fields ha
    have hnf : ∀ j, Obs.failure j ∉ ad := by
      intro j hm
      rcases hadd with rfl | rfl | ⟨rfl, _⟩ <;> simp at hm
    have hrec : received (s1.log ++ [Obs.data k p]) = received s.log ++ [k] := by
      rw [received_append, received_cons_data, had, received_append, received_adds hadd]
      simp [received]
    refine ⟨⟨?_, ?_⟩, by simp, ?_, ?_, ?_⟩
    · dsimp only; rw [f5]; exact h.quiet.1
    · intro m hm
      dsimp only at hm
      rw [had] at hm
      simp only [List.mem_append, List.mem_singleton] at hm
      rcases hm with (hm | hm) | hm
      · exact h.quiet.2 m hm
      · exact hnf m hm
      · cases hm
    · dsimp only; rw [f3, f4]; exact h.failed
    · dsimp only
      rw [f1, hrec]
      intro hff
      simp only [List.mem_append, List.mem_singleton, not_or]
      refine ⟨h.opn hff, fun hk => ?_⟩
      have := (hnet k p hn).2 (by omega)
      rcases hfin with hfin | hfin
      · rw [hff] at hfin; cases hfin
      · exact this hfin
    · dsimp only; rw [f1, f2]; exact h.fin
  | posted m rest hp =>
    rw [h.quiet.1] at hp; cases hp

theorem run_harm {A : Alg σ ε} {o : Opts} {al : Allow} {segs : List Bytes} {w : σ} {v : Env ε} {es s}
    (hL : segs ≠ []) (hcl : al.clean → o.maxRetries = -1)
    (hR : o.maxRetries = -1 ∨ ∀ k, max 1 o.maxRetries < s.retxCount k → segs.length ≤ k)
    (hnet : ∀ k p, al.net k p → Consistent segs k p ∧ (k + 1 = segs.length → p.final ≠ .absent))
    (hnk : ∀ k r, al.nacked k r → r ≠ .duplicate → r ≠ .congestion → segs.length ≤ k)
    (h : ARun A o w v al es s) : Harm segs.length s := by
  have hst := run_steps hcl h
  have key : ∀ {t : St σ}, Steps A o al (initial w) t → Steps A o al t s →
      WF t ∧ Core t ∧ Harm segs.length t := by
    intro t ht
    induction ht with
    | refl => exact fun _ => ⟨wf_initial w, core_initial w, harm_initial _ w⟩
    | @tail a b _ hm ih =>
      intro hr
      obtain ⟨h1, h2, h3⟩ := ih (Relation.ReflTransGen.head hm hr)
      refine ⟨wf_micro h1 hm, core_micro h1 h2 hm, harm_micro hL ?_ hnet hnk h1 h2 h3 hm⟩
      rcases hR with hR | hR
      · exact Or.inl hR
      · refine Or.inr fun k hk => hR k ?_
        have := retxCount_steps hr k
        omega
  exact (key hst .refl).2.2

/-! ## The recovery point -/

structure RPoint (s : St σ) : Prop where
  hi : s.highInterest = 0 ∨ Obs.interest s.highInterest false ∈ s.log
  rp : s.recPoint = 0 ∨ ∃ pre j b post, s.log = pre ++ Obs.decr j b :: post ∧
    Obs.interest s.recPoint false ∈ pre

theorem rpoint_initial (w : σ) : RPoint (initial w) := by
  constructor <;> simp [initial]

theorem rpoint_ext {s t : St σ} (h : RPoint s) {l} (hl : t.log = s.log ++ l)
    (h1 : t.highInterest = s.highInterest ∨ Obs.interest t.highInterest false ∈ l)
    (h2 : t.recPoint = s.recPoint) : RPoint t := by
  refine ⟨?_, ?_⟩
  · rcases h1 with h1 | h1
    · rw [h1, hl]
      rcases h.hi with h3 | h3
      · exact Or.inl h3
      · exact Or.inr (List.mem_append_left _ h3)
    · right; rw [hl]; exact List.mem_append_right _ h1
  · rw [h2]
    rcases h.rp with h3 | ⟨pre, j, b, post, e, h4⟩
    · exact Or.inl h3
    · exact Or.inr ⟨pre, j, b, post ++ l, by rw [hl, e]; simp, h4⟩

theorem rpoint_decr {s t : St σ} (h : RPoint s) {j b l} (hl : t.log = s.log ++ Obs.decr j b :: l)
    (h1 : t.highInterest = s.highInterest) (h2 : t.recPoint = s.highInterest) : RPoint t := by
  refine ⟨?_, ?_⟩
  · rw [h1, hl]
    rcases h.hi with h3 | h3
    · exact Or.inl h3
    · exact Or.inr (List.mem_append_left _ h3)
  · rw [h2]
    rcases h.hi with h3 | h3
    · exact Or.inl h3
    · exact Or.inr ⟨s.log, j, b, l, hl, h3⟩

theorem rpoint_adapts {A : Alg σ ε} {o : Opts} {s s1 : St σ} {k p} (h : RPoint s) (ha : Adapts A o s k p s1) :
    RPoint s1 := by
  cases ha with
  | decr e _ _ _ => exact rpoint_decr h (l := []) rfl rfl rfl
  | keep _ _ _ => exact rpoint_ext h (l := []) (by simp) (Or.inl rfl) rfl
  | incr e _ => exact rpoint_ext h (l := [.incr]) rfl (Or.inl rfl) rfl

theorem rpoint_micro {A : Alg σ ε} {o : Opts} {al : Allow} {s s' : St σ} (h : RPoint s)
    (m : Micro A o al s s') : RPoint s' := by
  cases m with
  | complete hs ha =>
    exact rpoint_ext h (l := [.complete]) (by simp [St.cancel, St.emit, hs])
      (by simp [St.cancel, St.emit, hs]) (by simp [St.cancel, St.emit, hs])
  | new v hs hf hl =>
    exact rpoint_ext h (l := [.interest s.nextSegmentNo false]) rfl (by simp [St.transmit]) rfl
  | resend v k q hq hs hh hl hm =>
    exact rpoint_ext h (l := [.interest k true]) rfl (by simp [St.transmit]) rfl
  | loss k e hcc hk hs => exact rpoint_decr h (l := []) rfl rfl rfl
  | enqueue k x hx hs hcl =>
    obtain ⟨f1, f2, f3, f4, f5, f6, f7, f8, f9, f10, f11, f12, -⟩ := enqueue_fields s k
    exact rpoint_ext h (l := []) (by rw [f8]; simp) (Or.inl f11) f12
  | throwRange k hx hl hs hk =>
    obtain ⟨f1, f2, f3, f4, f5, f6, f7, f8, f9, f10, f11, f12, -⟩ := enqueue_fields s k
    exact rpoint_ext h (l := []) (by rw [f8]; simp) (Or.inl f11) f12
  | deliver s1 k x p hs hx hn ha hfin =>
    exact rpoint_ext (rpoint_adapts h ha) rfl (Or.inl rfl) rfl
  | ub s1 k x p n hs hx hn hcc ha hfin =>
    exact rpoint_ext (rpoint_adapts h ha) rfl (Or.inl rfl) rfl
  | posted m rest hp => exact rpoint_ext h (l := [.failure m]) rfl (Or.inl rfl) rfl
  | _ => exact rpoint_ext h (l := []) (by simp [St.called, St.cancelGreater]) (Or.inl rfl) rfl

theorem run_rpoint {A : Alg σ ε} {o : Opts} {al : Allow} {w : σ} {v : Env ε} {es s}
    (hR : al.clean → o.maxRetries = -1) (h : ARun A o w v al es s) : RPoint s :=
  arun_inv (P := RPoint) hR h (rpoint_initial w) (fun _ _ _ hc hm => rpoint_micro hc hm)

/-! ## What causes retransmissions -/

/-- Repeated Interests for segment `k`, sent or still waiting in the queue. -/
def repeats (s : St σ) (k : Nat) : Nat := nRetx s.log k + s.retxQueue.count k

theorem repeats_congr {s t : St σ} (h1 : t.log = s.log) (h2 : t.retxQueue = s.retxQueue) (k : Nat) :
    repeats t k = repeats s k := by simp only [repeats, h1, h2]

theorem repeats_onFailure (s : St σ) (m : FailMsg) (k : Nat) : repeats (s.onFailure m) k = repeats s k := by
  unfold St.onFailure St.cancel
  split
  · rfl
  · exact repeats_congr rfl rfl k

theorem repeats_handleFail (s : St σ) (j : Nat) (m : FailMsg) (k : Nat) :
    repeats (s.handleFail j m) k = repeats s k := by
  unfold St.handleFail
  split
  · rfl
  split
  · exact repeats_onFailure ..
  split
  · dsimp only
    split
    · rw [repeats_onFailure]; exact repeats_congr rfl rfl k
    · exact repeats_congr rfl rfl k
  · rfl

theorem nRetx_snoc (l : List Obs) (ob : Obs) (k : Nat) :
    nRetx (l ++ [ob]) k = nRetx l k + if ob = .interest k true then 1 else 0 := by
  simp only [nRetx, List.count_append, List.count_cons, List.count_nil, Nat.zero_add, beq_iff_eq]

theorem repeats_send {o : Opts} {v : Env ε} (s : St σ) (j : Nat) (b : Bool) (k : Nat) :
    repeats (s.sendInterest o v j b) k ≤ repeats s k + if j = k ∧ b = true then 1 else 0 := by
  unfold St.sendInterest
  split
  · omega
  split
  · omega
  split
  · omega
  split
  · unfold St.sendAgain
    dsimp only
    split
    · rw [repeats_handleFail]
      exact Nat.le_add_right (repeats s k) _
    · rename_i hb _
      simp only [repeats, St.transmit, nRetx_snoc, Obs.interest.injEq, and_true, hb]
      omega
  · simp only [repeats, St.transmit, nRetx_snoc, Obs.interest.injEq, and_false, Bool.false_eq_true,
      if_false, reduceCtorEq]
    omega

theorem repeats_schedRetx {o : Opts} {v : Env ε} (k : Nat) : ∀ (q : List Nat) (n : Nat) (s : St σ),
    s.retxQueue = q → repeats (St.schedRetx o v q n s).1 k ≤ repeats s k
  | q, 0, s, _ => by unfold St.schedRetx; exact Nat.le_refl _
  | [], n + 1, s, _ => by unfold St.schedRetx; exact Nat.le_refl _
  | j :: q, n + 1, s, hq => by
    unfold St.schedRetx
    dsimp only
    have h0 : repeats { s with retxQueue := q } k + (if j = k then 1 else 0) = repeats s k := by
      simp only [repeats, hq, List.count_cons, beq_iff_eq]; omega
    split
    · have hq' : ({ s with retxQueue := q }.sendInterest o v j true).retxQueue = q :=
        (sendInterest_queue { s with retxQueue := q } o v j true).trans rfl
      refine Nat.le_trans (repeats_schedRetx k q n _ hq') ?_
      have := repeats_send (o := o) (v := v) { s with retxQueue := q } j true k
      simp only [and_true] at this
      omega
    · refine Nat.le_trans (repeats_schedRetx k q (n + 1) _ rfl) ?_
      have : repeats { s with retxQueue := q, nSkippedRetx := s.nSkippedRetx + 1 } k =
        repeats { s with retxQueue := q } k := repeats_congr rfl rfl k
      omega

theorem repeats_schedNew {o : Opts} {v : Env ε} (k : Nat) : ∀ (n : Nat) (s : St σ),
    repeats (St.schedNew o v n s) k ≤ repeats s k
  | 0, s => by unfold St.schedNew; exact Nat.le_refl _
  | n + 1, s => by
    unfold St.schedNew
    refine Nat.le_trans (repeats_schedNew k n _) ?_
    have := repeats_send (o := o) (v := v) { s with nextSegmentNo := s.nextSegmentNo + 1 } s.nextSegmentNo false k
    simp only [Bool.false_eq_true, and_false, if_false] at this
    refine Nat.le_trans this ?_
    exact Nat.le_of_eq (repeats_congr rfl rfl k)

theorem repeats_schedulePackets {A : Alg σ ε} {o : Opts} {v : Env ε} (s : St σ) (k : Nat) :
    repeats (s.schedulePackets A o v) k ≤ repeats s k := by
  unfold St.schedulePackets
  dsimp only
  refine Nat.le_trans (repeats_schedNew k _ _) ?_
  exact Nat.le_trans (repeats_schedRetx k _ _ _ rfl) (Nat.le_of_eq (repeats_congr rfl rfl k))

theorem repeats_recordTimeout {A : Alg σ ε} {o : Opts} {v : Env ε} (s : St σ) (j k : Nat) :
    repeats (s.recordTimeout A o v j) k = repeats s k := by
  unfold St.recordTimeout
  split
  · simp [repeats, nRetx_snoc]
  · rfl

theorem repeats_enqueue (s : St σ) (j k : Nat) :
    repeats (s.enqueueForRetransmission j) k = repeats s k + if j = k then 1 else 0 := by
  unfold St.enqueueForRetransmission
  dsimp only
  split <;> simp only [repeats, List.count_append, List.count_cons, List.count_nil, beq_iff_eq] <;> omega

/-- Segment `k` is in flight and its RTO has passed. -/
def late (s : St σ) (v : Env ε) (k : Nat) : Prop :=
  ∃ x, get s.info k = some x ∧ x.state ≠ .inRetxQueue ∧ v.now > x.timeSent + x.rto

theorem repeats_checkOne {v : Env ε} (s : St σ) (j k : Nat) (b : Nat) (hb : late s v k → b = 1) :
    ∃ b' ≤ b, (late (s.checkOne v j) v k → b' = 1) ∧ repeats (s.checkOne v j) k + b' ≤ repeats s k + b := by
  unfold St.checkOne
  split
  · exact ⟨b, Nat.le_refl _, hb, Nat.le_refl _⟩
  rename_i x hx
  split
  · rename_i hc
    rw [repeats_enqueue]
    have hr : repeats { s with nTimeouts := s.nTimeouts + 1 } k = repeats s k := repeats_congr rfl rfl k
    rw [hr]
    by_cases hjk : j = k
    · subst hjk
      refine ⟨0, Nat.zero_le _, ?_, ?_⟩
      · rintro ⟨y, hy, hy1, _⟩
        exfalso
        apply hy1
        unfold St.enqueueForRetransmission at hy
        dsimp only at hy
        rw [hx] at hy
        dsimp only at hy
        rw [get_put, if_pos rfl] at hy
        cases hy; rfl
      · have := hb ⟨x, hx, hc⟩
        simp [this]
    · refine ⟨b, Nat.le_refl _, ?_, by simp [hjk]⟩
      rintro ⟨y, hy, hy1⟩
      apply hb
      unfold St.enqueueForRetransmission at hy
      dsimp only at hy
      rw [hx] at hy
      dsimp only at hy
      rw [get_put, if_neg (Ne.symm hjk)] at hy
      exact ⟨y, hy, hy1⟩
  · exact ⟨b, Nat.le_refl _, hb, Nat.le_refl _⟩

theorem repeats_loop {v : Env ε} (k : Nat) : ∀ (order : List Nat) (s : St σ) (b : Nat),
    (late s v k → b = 1) → repeats (order.foldl (St.checkOne v) s) k ≤ repeats s k + b
  | [], s, b, _ => by simp
  | j :: order, s, b, hb => by
    simp only [List.foldl_cons]
    obtain ⟨b', h1, h2, h3⟩ := repeats_checkOne s j k b hb
    have := repeats_loop k order _ b' h2
    omega

theorem repeats_lossOf {A : Alg σ ε} {o : Opts} {v : Env ε} (s : St σ) (j k : Nat) :
    repeats (s.lossOf A o v j) k ≤ repeats s k + if j = k then 1 else 0 := by
  unfold St.lossOf
  dsimp only
  split
  · exact Nat.le_of_eq (repeats_enqueue s j k)
  · refine Nat.le_trans (repeats_schedulePackets _ k) ?_
    rw [repeats_recordTimeout]
    exact Nat.le_of_eq (repeats_enqueue s j k)

theorem repeats_called (s : St σ) (j k : Nat) : repeats (s.called j) k = repeats s k := repeats_congr rfl rfl k

theorem repeats_handleSeg {A : Alg σ ε} {o : Opts} {v : Env ε} (s : St σ) (j : Nat) (p : Pkt) (c : Bool) (k : Nat) :
    repeats (s.handleSeg A o v j p c) k ≤ repeats s k := by
  unfold St.handleSeg
  split
  · omega
  rename_i x _
  have ha : repeats (s.adapt A o v j x p) k = repeats s k := by
    unfold St.adapt
    dsimp only
    split
    · split <;> simp [repeats, nRetx_snoc]
    · simp [repeats, nRetx_snoc]
  have hd : ∀ t : St σ, repeats (t.onData j p) k = repeats t k := by
    intro t; simp [repeats, St.onData, nRetx_snoc]
  dsimp only
  split
  · have := hd (s.adapt A o v j x p)
    rw [ha] at this
    exact Nat.le_of_eq this
  · have h1 : repeats ((s.adapt A o v j x p).deliver j x p) k = repeats s k := by
      rw [← ha, ← hd (s.adapt A o v j x p)]
      unfold St.deliver
      dsimp only
      split
      · simp [St.emit, repeats, nRetx_snoc]
      · rfl
    unfold St.finish
    dsimp only
    split
    · rw [← h1]
      unfold St.cancel
      split <;> simp [St.emit, repeats, nRetx_snoc]
    · refine Nat.le_trans (repeats_schedulePackets _ k) ?_
      rw [← h1]
      exact Nat.le_of_eq (repeats_congr rfl rfl k)

theorem repeats_step {A : Alg σ ε} {o : Opts} (s : St σ) (e : Ev ε) (k : Nat) :
    repeats (s.step A o e) k ≤ repeats s k + if LossFor s k e then 1 else 0 := by
  unfold St.step
  split
  · omega
  cases e with
  | data j p c v =>
    dsimp only
    rw [← repeats_called s j k]
    refine Nat.le_trans ?_ (Nat.le_add_right _ _)
    unfold St.handleData
    split
    · omega
    have hf : repeats ((s.called j).handleFinal p).1 k = repeats (s.called j) k := by
      unfold St.handleFinal
      split
      · rfl
      split
      · rfl
      · exact repeats_congr rfl rfl k
      · dsimp only
        split
        · rw [repeats_onFailure]; exact repeats_congr rfl rfl k
        · exact repeats_congr rfl rfl k
    dsimp only
    rw [← hf]
    split
    · exact repeats_handleSeg ..
    · exact Nat.le_refl _
  | nack j r v =>
    dsimp only
    rw [← repeats_called s j k]
    unfold St.handleNack
    split
    · omega
    split
    · omega
    · refine Nat.le_trans (repeats_lossOf _ j k) ?_
      simp only [LossFor, and_true]
      exact Nat.le_refl _
    · rw [repeats_handleFail]; omega
  | expire j v =>
    dsimp only
    rw [← repeats_called s j k]
    unfold St.handleLifetimeExpiration
    split
    · omega
    · refine Nat.le_trans (repeats_lossOf _ j k) ?_
      simp only [LossFor]
      exact Nat.le_of_eq (congrArg (· + _) (repeats_congr rfl rfl k))
  | check order v =>
    dsimp only
    unfold St.checkRto
    split
    · exact Nat.le_add_right (repeats s k) _
    · dsimp only
      have hl := repeats_loop (v := v) k order { s with timer := false } (if LossFor s k (.check order v) then 1 else 0)
        (fun h => if_pos h)
      have h0 : repeats { s with timer := false } k = repeats s k := repeats_congr rfl rfl k
      rw [h0] at hl
      refine Nat.le_trans ?_ hl
      refine Nat.le_trans (Nat.le_of_eq (repeats_congr (s := ite _ _ _) rfl rfl k)) ?_
      split
      · refine Nat.le_trans (repeats_schedulePackets _ k) ?_
        exact Nat.le_of_eq (repeats_recordTimeout ..)
      · exact Nat.le_refl _
  | cancel =>
    dsimp only
    unfold St.cancel
    split
    · omega
    · exact Nat.le_add_right (repeats s k) _
  | posted =>
    dsimp only
    split
    · omega
    · simp [St.emit, repeats, nRetx_snoc]

theorem lossCount_append (A : Alg σ ε) (o : Opts) (k : Nat) : ∀ (es es' : List (Ev ε)) (s : St σ),
    lossCount A o k s (es ++ es') = lossCount A o k s es + lossCount A o k (es.foldl (St.step A o) s) es'
  | [], es', s => by simp [lossCount]
  | e :: es, es', s => by
    simp only [List.cons_append, lossCount, List.foldl_cons]
    rw [lossCount_append A o k es es']
    omega

theorem run_repeats {A : Alg σ ε} {o : Opts} {w : σ} {v : Env ε} {es s} (k : Nat)
    (h : (machine A o w v).Run es s) :
    s = es.foldl (St.step A o) (start A o w v) ∧ repeats s k ≤ lossCount A o k (start A o w v) es := by
  induction h with
  | nil =>
    refine ⟨rfl, ?_⟩
    show repeats (start A o w v) k ≤ 0
    exact Nat.le_trans (repeats_schedulePackets _ k) (Nat.le_of_eq (by simp [repeats, nRetx]))
  | @snoc es s e _ _ ih =>
    obtain ⟨h1, h2⟩ := ih
    refine ⟨by rw [List.foldl_append, ← h1]; rfl, ?_⟩
    rw [lossCount_append, ← h1]
    have := repeats_step (A := A) (o := o) s e k
    simp only [lossCount, Nat.add_zero]
    exact Nat.le_trans this (by omega)

end Verif.Adaptive
