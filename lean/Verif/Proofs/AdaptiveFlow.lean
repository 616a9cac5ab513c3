import Verif.Proofs.AdaptiveHist
import Mathlib.Data.List.Nodup

/-! # Invariants of the adaptive pipeline: the in-flight counter (C14) -/

namespace Verif.Adaptive

set_option linter.unusedSimpArgs false

variable {σ ε : Type}

/-! ## Sizes -/

theorem length_put (l k x) :
    (put l k x).length = if (get l k).isSome then l.length else l.length + 1 := by
  unfold put; split <;> simp

theorem del_eq_self {l k} (h : get l k = none) : del l k = l := by
  unfold del
  rw [List.filter_eq_self]
  intro e he
  have := get_none.mp h
  have hne : e.1 ≠ k := by
    intro h'; apply this; rw [← h']; exact List.mem_map_of_mem he
  simpa using hne

theorem length_del {l : List (Nat × Seg)} {k} (hnd : (l.map (·.1)).Nodup) (h : (get l k).isSome = true) :
    (del l k).length + 1 = l.length := by
  induction l with
  | nil => simp at h
  | cons e l ih =>
    simp only [List.map_cons, List.nodup_cons] at hnd
    unfold del
    rw [List.filter_cons]
    rw [get_cons] at h
    by_cases he : e.1 = k
    · have h1 : get l k = none := by rw [get_none, ← he]; exact hnd.1
      have h2 := del_eq_self h1
      unfold del at h2
      rw [if_neg (by simp [he]), h2]
      simp
    · rw [if_neg he] at h
      rw [if_pos (by simpa using he)]
      have := ih hnd.2 h
      unfold del at this
      simp [this]

/-- The number of occurrences in the retransmission queue of segments that are still tracked. -/
def tracked (q : List Nat) (l : List (Nat × Seg)) : Nat := q.countP (fun k => (get l k).isSome)

theorem tracked_congr {q l l'} (h : ∀ k ∈ q, (get l k).isSome = (get l' k).isSome) :
    tracked q l = tracked q l' := by
  unfold tracked
  apply List.countP_congr
  intro k hk
  rw [h k hk]

theorem tracked_mono {q l l'} (h : ∀ k ∈ q, (get l k).isSome = true → (get l' k).isSome = true) :
    tracked q l ≤ tracked q l' := by
  unfold tracked
  exact List.countP_mono_left h

theorem tracked_del {q l k} (h : (get l k).isSome = true) :
    tracked q (del l k) + q.count k = tracked q l := by
  induction q with
  | nil => simp [tracked]
  | cons j q ih =>
    unfold tracked at ih ⊢
    rw [List.countP_cons, List.countP_cons, List.count_cons, get_del]
    by_cases hj : j = k
    · subst hj; simp [h]; omega
    · simp only [hj, if_false, beq_iff_eq]; omega

theorem tracked_append (q q' l) : tracked (q ++ q') l = tracked q l + tracked q' l := List.countP_append


theorem get_of_mem {l : List (Nat × Seg)} (hnd : (l.map (·.1)).Nodup) {e} (h : e ∈ l) : get l e.1 = some e.2 := by
  induction l with
  | nil => simp at h
  | cons a l ih =>
    simp only [List.map_cons, List.nodup_cons] at hnd
    rw [get_cons]
    rcases List.mem_cons.mp h with rfl | h
    · simp
    · have : a.1 ≠ e.1 := by
        intro hc; apply hnd.1; rw [hc]; exact List.mem_map_of_mem h
      rw [if_neg this]; exact ih hnd.2 h

theorem mem_of_get {l : List (Nat × Seg)} {k x} (h : get l k = some x) : (k, x) ∈ l := by
  induction l with
  | nil => simp at h
  | cons a l ih =>
    rw [get_cons] at h
    split at h
    · rename_i hk; simp at h; subst h; subst hk; simp
    · exact List.mem_cons_of_mem _ (ih h)

theorem waiting_le {l : List (Nat × Seg)} {q} (hnd : (l.map (·.1)).Nodup)
    (h : ∀ k x, get l k = some x → x.state = .inRetxQueue → k ∈ q) :
    l.length ≤ inFlight l + tracked q l := by
  have h1 : l.length = inFlight l + (l.filter (fun e => decide (e.2.state = .inRetxQueue))).length := by
    rw [List.length_eq_countP_add_countP (fun e => decide (e.2.state ≠ .inRetxQueue))]
    unfold inFlight
    rw [← List.countP_eq_length_filter]
    congr 1
    apply List.countP_congr
    intro e _
    simp
  have h2 : (l.filter (fun e => decide (e.2.state = .inRetxQueue))).length ≤ tracked q l := by
    unfold tracked
    rw [List.countP_eq_length_filter]
    have h3 : ((l.filter (fun e => decide (e.2.state = .inRetxQueue))).map (·.1)).Subperm
        (q.filter (fun k => (get l k).isSome)) := by
      apply List.Nodup.subperm (nodup_filter _ hnd)
      intro k hk
      rw [List.mem_map] at hk
      obtain ⟨e, he, rfl⟩ := hk
      rw [List.mem_filter] at he
      have hg := get_of_mem hnd he.1
      rw [List.mem_filter]
      exact ⟨h e.1 e.2 hg (by simpa using he.2), by simp [hg]⟩
    simpa using h3.length_le
  omega

theorem tracked_le {l : List (Nat × Seg)} {q : List Nat} (hq : q.Nodup) : tracked q l ≤ l.length := by
  unfold tracked
  rw [List.countP_eq_length_filter]
  have : (q.filter (fun k => (get l k).isSome)).Subperm (l.map (·.1)) := by
    apply List.Nodup.subperm (hq.filter _)
    intro k hk
    rw [List.mem_filter] at hk
    exact get_isSome.mp hk.2
  simpa using this.length_le

theorem inFlight_eq {l : List (Nat × Seg)} {q : List Nat} (hnd : (l.map (·.1)).Nodup) (hq : q.Nodup)
    (h1 : ∀ k x, get l k = some x → (x.state = .inRetxQueue ↔ k ∈ q)) :
    l.length = inFlight l + tracked q l := by
  apply Nat.le_antisymm (waiting_le hnd (fun k x hx => (h1 k x hx).mp))
  have h2 : l.length = inFlight l + (l.filter (fun e => decide (e.2.state = .inRetxQueue))).length := by
    rw [List.length_eq_countP_add_countP (fun e => decide (e.2.state ≠ .inRetxQueue))]
    unfold inFlight
    rw [← List.countP_eq_length_filter]
    congr 1
    apply List.countP_congr
    intro e _
    simp
  have h3 : tracked q l ≤ (l.filter (fun e => decide (e.2.state = .inRetxQueue))).length := by
    unfold tracked
    rw [List.countP_eq_length_filter]
    have : (q.filter (fun k => (get l k).isSome)).Subperm
        ((l.filter (fun e => decide (e.2.state = .inRetxQueue))).map (·.1)) := by
      apply List.Nodup.subperm (hq.filter _)
      intro k hk
      rw [List.mem_filter] at hk
      obtain ⟨x, hx⟩ := Option.isSome_iff_exists.mp hk.2
      rw [List.mem_map]
      refine ⟨(k, x), ?_, rfl⟩
      rw [List.mem_filter]
      exact ⟨mem_of_get hx, by simpa using (h1 k x hx).mpr hk.1⟩
    simpa using this.length_le
  omega

/-! ## The counter never counts too much -/

structure Flow (s : St σ) : Prop where
  waits : s.isStopping = false → ∀ k x, get s.info k = some x → x.state = .inRetxQueue → k ∈ s.retxQueue
  below : s.isStopping = false → ∀ k ∈ s.retxQueue, k < s.nextSegmentNo
  le : s.isStopping = false → s.nInFlight + tracked s.retxQueue s.info ≤ s.info.length

theorem flow_initial (w : σ) : Flow (initial w) := by
  constructor <;> simp [initial, tracked]

theorem get_enqueue {s : St σ} {k x} (hx : get s.info k = some x) (j) :
    get (s.enqueueForRetransmission k).info j =
      if j = k then some { x with state := .inRetxQueue } else get s.info j := by
  unfold St.enqueueForRetransmission
  dsimp only
  rw [hx]
  dsimp only
  rw [get_put]

theorem length_enqueue {s : St σ} {k x} (hx : get s.info k = some x) :
    (s.enqueueForRetransmission k).info.length = s.info.length := by
  unfold St.enqueueForRetransmission
  dsimp only
  rw [hx]
  dsimp only
  rw [length_put, if_pos (by simp [hx])]

theorem info_enqueue_none {s : St σ} {k} (hx : get s.info k = none) :
    (s.enqueueForRetransmission k).info = s.info := by
  unfold St.enqueueForRetransmission
  dsimp only
  rw [hx]

theorem length_called (s : St σ) (k) : (s.called k).info.length = s.info.length := by
  unfold St.called
  dsimp only
  split
  · rfl
  · rename_i x hx; rw [length_put, if_pos (by simp [hx])]

theorem isSome_called (s : St σ) (k j) : (get (s.called k).info j).isSome = (get s.info j).isSome := by
  have := get_called_none (s := s) (k := k) (j := j)
  cases h1 : get (s.called k).info j <;> cases h2 : get s.info j <;> simp_all

theorem flow_micro {A : Alg σ ε} {o : Opts} {al : Allow} {s s' : St σ} (hw : WF s) (hin : Within s)
    (h : Flow s) (m : Micro A o al s s') : Flow s' := by
  obtain ⟨h1, h2, h3⟩ := h
  have hst : ∀ {t : St σ}, t.isStopping = true → Flow t := by
    intro t ht
    constructor <;> intro h <;> rw [ht] at h <;> cases h
  cases m with
  | called k hk =>
    refine ⟨?_, h2, ?_⟩
    · intro hs j x hx hxs
      obtain ⟨y, hy, hyx⟩ := get_called_state hx
      exact h1 hs j y hy (hyx.trans hxs)
    · intro hs
      have := h3 hs
      rw [length_called, show (s.called k).nInFlight = s.nInFlight from rfl,
        show (s.called k).retxQueue = s.retxQueue from rfl,
        tracked_congr (l' := s.info) (fun j _ => isSome_called s k j)]
      exact this
  | stat t n a _ => exact ⟨h1, h2, h3⟩
  | stop rc q n posted' hs hp hrc => exact hst rfl
  | complete hs ha => exact hst (by simp [St.cancel, St.emit, hs])
  | new v hs hf hfin =>
    have hnone : get s.info s.nextSegmentNo = none := by
      cases hg : get s.info s.nextSegmentNo with
      | none => rfl
      | some x => have := hw.next _ _ (hw.has s.nextSegmentNo (by simp [hg])); omega
    refine ⟨?_, ?_, ?_⟩
    · intro _ j x hx hxs
      simp only [St.transmit] at hx ⊢
      rw [get_put] at hx
      split at hx
      · simp at hx; rw [← hx] at hxs; simp at hxs
      · exact h1 hs j x hx hxs
    · intro _ j hj
      simp only [St.transmit] at hj ⊢
      have := h2 hs j hj; omega
    · intro _
      simp only [St.transmit]
      rw [length_put, hnone]
      have h4 : tracked s.retxQueue (put s.info s.nextSegmentNo
          { timeSent := v.now, rto := v.rto, pending := true, state := .firstTimeSent }) =
          tracked s.retxQueue s.info := by
        apply tracked_congr
        intro j hj
        have := h2 hs j hj
        rw [get_put, if_neg (by omega)]
      have := h3 hs
      simp at h4 ⊢
      rw [h4]
      omega
  | skip _ =>
    refine ⟨h1, ?_, h3⟩
    intro hs j hj
    exact Nat.lt_succ_of_lt (h2 hs j hj)
  | pop k q n hq hc =>
    have hnone : s.isStopping = false → get s.info k = none := by
      intro hs
      rcases hc with hc | hc | hc
      · exact hc
      · rw [hs] at hc; cases hc
      · cases hg : get s.info k with
        | none => rfl
        | some x => have := hin hc.1 k (by simp [hg]); omega
    refine ⟨?_, ?_, ?_⟩
    · intro hs j x hx hxs
      have := h1 hs j x hx hxs
      rw [hq] at this
      rcases List.mem_cons.mp this with rfl | this
      · rw [hnone hs] at hx; cases hx
      · exact this
    · intro hs j hj
      exact h2 hs j (by rw [hq]; exact List.mem_cons_of_mem _ hj)
    · intro hs
      have := h3 hs
      rw [hq] at this
      unfold tracked at this ⊢
      rw [List.countP_cons, hnone hs] at this
      simpa using this
  | resend v k q hq hs hh hlast hm =>
    refine ⟨?_, ?_, ?_⟩
    · intro _ j x hx hxs
      simp only [St.transmit] at hx ⊢
      rw [get_put] at hx
      split at hx
      · simp at hx; rw [← hx] at hxs; simp at hxs
      · have := h1 hs j x hx hxs
        rw [hq] at this
        rcases List.mem_cons.mp this with rfl | this
        · contradiction
        · exact this
    · intro _ j hj
      simp only [St.transmit] at hj ⊢
      exact h2 hs j (by rw [hq]; exact List.mem_cons_of_mem _ hj)
    · intro _
      have := h3 hs
      rw [hq] at this
      simp only [St.transmit]
      rw [length_put, hh]
      have h4 : ∀ x, tracked q (put s.info k x) = tracked q s.info := by
        intro x
        apply tracked_congr
        intro j hj
        rw [get_put]
        split
        · rename_i hjk; rw [hjk, hh]; rfl
        · rfl
      rw [h4]
      unfold tracked at this ⊢
      rw [List.countP_cons, hh] at this
      simp at this ⊢
      omega
  | fail k m q rc hs hf hk he hcl hl hqq =>
    have hsub : ∀ j, j ∈ q → j ∈ s.retxQueue := by
      intro j hj
      rcases hqq with ⟨rfl, _⟩ | ⟨e, _⟩
      · exact hj
      · rw [e]; exact List.mem_cons_of_mem _ hj
    have hle : ∀ l, tracked q l ≤ tracked s.retxQueue l := by
      intro l
      rcases hqq with ⟨rfl, _⟩ | ⟨e, _⟩
      · exact Nat.le_refl _
      · rw [e]; unfold tracked; rw [List.countP_cons]; omega
    refine ⟨?_, ?_, ?_⟩
    · intro _ j x hx hxs
      simp only [St.cancelGreater] at hx ⊢
      rw [get_filter, get_del] at hx
      split at hx
      · split at hx
        · cases hx
        · rename_i hne
          have := h1 hs j x hx hxs
          rcases hqq with ⟨rfl, _⟩ | ⟨e, _⟩
          · exact this
          · rw [e] at this
            rcases List.mem_cons.mp this with h | h
            · exact absurd h hne
            · exact h
      · cases hx
    · intro _ j hj; exact h2 hs j (hsub j hj)
    · intro _
      have h5 := h3 hs
      simp only [St.cancelGreater]
      have h6 : tracked q ((del s.info k).filter (fun e => decide (e.1 ≤ k))) ≤ tracked s.retxQueue s.info := by
        refine Nat.le_trans (tracked_mono (l' := s.info) ?_) (hle _)
        intro j _ hj
        rw [get_filter, get_del] at hj
        split at hj
        · split at hj
          · simp at hj
          · exact hj
        · simp at hj
      have h7 : s.info.length ≤ (del s.info k).length + 1 := by
        cases hg : get s.info k with
        | none => rw [del_eq_self hg]; omega
        | some x => exact Nat.le_of_eq (length_del hw.nodup (by simp [hg])).symm
      by_cases hg : (get s.info k).isSome = true
      · have h8 := length_del hw.nodup hg
        omega
      · have h8 := del_eq_self (by simpa using hg : get s.info k = none)
        rw [h8] at h6 ⊢
        omega
  | loss k e hc hk hs => exact ⟨h1, h2, h3⟩
  | enqueue k x hx hs hcl =>
    have f := enqueue_fields s k
    dsimp only at f
    refine ⟨?_, ?_, ?_⟩
    · intro _ j y hy hys
      rw [get_enqueue hx] at hy
      simp only [f]
      split at hy
      · rename_i hjk; simp [hjk]
      · exact List.mem_append_left _ (h1 hs j y hy hys)
    · intro _ j hj
      simp only [f] at hj ⊢
      rcases List.mem_append.mp hj with hj | hj
      · exact h2 hs j hj
      · simp at hj; rw [hj]; exact hw.next _ _ (hw.has k (by simp [hx]))
    · intro _
      have h5 := h3 hs
      rw [length_enqueue hx]
      have h6 : tracked (s.retxQueue ++ [k]) (s.enqueueForRetransmission k).info = tracked s.retxQueue s.info + 1 := by
        rw [tracked_congr (l' := s.info)]
        · rw [tracked_append]; simp [tracked, hx]
        · intro j _
          rw [get_enqueue hx]
          split
          · rename_i hjk; rw [hjk, hx]; rfl
          · rfl
      simp only [f]
      rw [h6]
      push_cast
      omega
  | throwRange k hx _ hs hk =>
    have f := enqueue_fields s k
    dsimp only at f
    have hi := info_enqueue_none hx
    refine ⟨?_, ?_, ?_⟩
    · intro _ j y hy hys
      rw [hi] at hy
      simp only [f]
      exact List.mem_append_left _ (h1 hs j y hy hys)
    · intro _ j hj
      simp only [f] at hj ⊢
      rcases List.mem_append.mp hj with hj | hj
      · exact h2 hs j hj
      · simp at hj; rw [hj]; exact hw.next _ _ hk
    · intro _
      have h5 := h3 hs
      simp only [f]
      rw [hi, tracked_append]
      have : tracked [k] s.info = 0 := by simp [tracked, hx]
      rw [this]
      omega
  | throwFinal k p hs hnet hp => exact ⟨h1, h2, h3⟩
  | final k p n hs hf hn hp hcl =>
    refine ⟨?_, h2, ?_⟩
    · intro _ j x hx hxs
      simp only [St.cancelGreater] at hx ⊢
      rw [get_filter] at hx
      split at hx
      · exact h1 hs j x hx hxs
      · cases hx
    · intro _
      have h5 := h3 hs
      simp only [St.cancelGreater]
      have h6 : tracked s.retxQueue (s.info.filter (fun e => decide (e.1 ≤ n))) ≤ tracked s.retxQueue s.info := by
        apply tracked_mono
        intro j _ hj
        rw [get_filter] at hj
        split at hj
        · exact hj
        · simp at hj
      omega
  | clear hs hf hcl => exact ⟨h1, h2, h3⟩
  | deliver s1 k x p hs hx hn ha =>
    obtain ⟨_, _, _, e1, e2, e3, e4⟩ := adapts_frame ha
    have f := adapts_fields ha
    refine ⟨?_, ?_, ?_⟩
    · intro _ j y hy hys
      dsimp only at hy ⊢
      rw [e1, get_del] at hy
      split at hy
      · cases hy
      · rw [f.2.2.2.2.2.1]; exact h1 hs j y hy hys
    · intro _ j hj
      dsimp only at hj ⊢
      rw [f.2.2.2.2.2.1] at hj
      rw [e3]
      exact h2 hs j hj
    · intro _
      have h5 := h3 hs
      dsimp only
      rw [e1, f.2.2.2.2.2.1, f.2.2.2.2.2.2.2.1]
      have h6 := length_del hw.nodup (k := k) (by simp [hx])
      have h7 := tracked_del (q := s.retxQueue) (l := s.info) (k := k) (by simp [hx])
      split
      · omega
      · rename_i hxs
        have h8 : 0 < s.retxQueue.count k := List.count_pos_iff.mpr (h1 hs k x hx (by simpa using hxs))
        omega
  | ub s1 k x p n hs hx hn hc ha => exact hst rfl
  | posted m rest hp => exact ⟨h1, h2, h3⟩

theorem run_flow {A : Alg σ ε} {o : Opts} {al : Allow} {w : σ} {v : Env ε} {es s}
    (hR : al.clean → o.maxRetries = -1) (h : ARun A o w v al es s) : Flow s := by
  have := arun_inv (P := fun s => Within s ∧ Flow s) hR h ⟨within_initial w, flow_initial w⟩
    (fun _ _ hw hc hm => ⟨within_micro hc.1 hm, flow_micro hw hc.1 hc.2 hm⟩)
  exact this.2

/-! ## The counter is exact in a clean environment -/

structure Exact (s : St σ) : Prop where
  queued : s.isStopping = false → ∀ k x, get s.info k = some x → k ∈ s.retxQueue → x.state = .inRetxQueue
  qnodup : s.isStopping = false → s.retxQueue.Nodup
  eq : s.isStopping = false → s.nInFlight + tracked s.retxQueue s.info = s.info.length
  asserts : s.assertFailed = false

theorem exact_initial (w : σ) : Exact (initial w) := by
  constructor <;> simp [initial, tracked]

theorem exact_micro {A : Alg σ ε} {o : Opts} {al : Allow} {s s' : St σ} (hw : WF s) (hin : Within s)
    (hfl : Flow s) (hcl : al.clean) (hlt : ¬ al.late) (h : Exact s) (m : Micro A o al s s') : Exact s' := by
  obtain ⟨h1, h2, h3, h4⟩ := h
  have hst : ∀ {t : St σ}, t.isStopping = true → t.assertFailed = false → Exact t := by
    intro t ht ha
    refine ⟨?_, ?_, ?_, ha⟩ <;> intro h <;> rw [ht] at h <;> cases h
  cases m with
  | called k hk =>
    refine ⟨?_, h2, ?_, h4⟩
    · intro hs j x hx hj
      obtain ⟨y, hy, hyx⟩ := get_called_state hx
      exact hyx ▸ h1 hs j y hy hj
    · intro hs
      have := h3 hs
      rw [length_called, show (s.called k).nInFlight = s.nInFlight from rfl,
        show (s.called k).retxQueue = s.retxQueue from rfl,
        tracked_congr (l' := s.info) (fun j _ => isSome_called s k j)]
      exact this
  | stat t n a ha =>
    refine ⟨h1, h2, h3, ?_⟩
    cases a with
    | false => rfl
    | true =>
      exfalso
      rcases ha rfl with ha | ⟨ha, hs⟩
      · rw [h4] at ha; cases ha
      · have := h3 hs
        have := tracked_le (l := s.info) (h2 hs)
        omega
  | stop rc q n posted' hs hp hrc => exact hst rfl h4
  | complete hs ha => exact hst (by simp [St.cancel, St.emit, hs]) (by simp [St.cancel, St.emit, hs, h4])
  | new v hs hf hfin =>
    have hnone : get s.info s.nextSegmentNo = none := by
      cases hg : get s.info s.nextSegmentNo with
      | none => rfl
      | some x => have := hw.next _ _ (hw.has s.nextSegmentNo (by simp [hg])); omega
    refine ⟨?_, fun _ => h2 hs, ?_, h4⟩
    · intro _ j x hx hj
      simp only [St.transmit] at hx hj
      rw [get_put] at hx
      split at hx
      · rename_i hjn
        have := hfl.below hs j hj
        omega
      · exact h1 hs j x hx hj
    · intro _
      simp only [St.transmit]
      rw [length_put, hnone]
      have h5 : tracked s.retxQueue (put s.info s.nextSegmentNo
          { timeSent := v.now, rto := v.rto, pending := true, state := .firstTimeSent }) =
          tracked s.retxQueue s.info := by
        apply tracked_congr
        intro j hj
        have := hfl.below hs j hj
        rw [get_put, if_neg (by omega)]
      have := h3 hs
      simp at h5 ⊢
      rw [h5]
      omega
  | skip _ => exact ⟨h1, h2, h3, h4⟩
  | pop k q n hq hc =>
    have hnone : s.isStopping = false → get s.info k = none := by
      intro hs
      rcases hc with hc | hc | hc
      · exact hc
      · rw [hs] at hc; cases hc
      · cases hg : get s.info k with
        | none => rfl
        | some x => have := hin hc.1 k (by simp [hg]); omega
    refine ⟨?_, ?_, ?_, h4⟩
    · intro hs j x hx hj
      exact h1 hs j x hx (by rw [hq]; exact List.mem_cons_of_mem _ hj)
    · intro hs
      have := h2 hs
      rw [hq] at this
      exact (List.nodup_cons.mp this).2
    · intro hs
      have := h3 hs
      rw [hq] at this
      unfold tracked at this ⊢
      rw [List.countP_cons, hnone hs] at this
      simpa using this
  | resend v k q hq hs hh hlast hm =>
    have hnd := h2 hs
    rw [hq, List.nodup_cons] at hnd
    refine ⟨?_, fun _ => hnd.2, ?_, h4⟩
    · intro _ j x hx hj
      simp only [St.transmit] at hx hj
      rw [get_put] at hx
      split at hx
      · rename_i hjk; rw [hjk] at hj; exact absurd hj hnd.1
      · exact h1 hs j x hx (by rw [hq]; exact List.mem_cons_of_mem _ hj)
    · intro _
      have := h3 hs
      rw [hq] at this
      simp only [St.transmit]
      rw [length_put, hh]
      have h5 : ∀ x, tracked q (put s.info k x) = tracked q s.info := by
        intro x
        apply tracked_congr
        intro j hj
        rw [get_put]
        split
        · rename_i hjk; rw [hjk, hh]; rfl
        · rfl
      rw [h5]
      unfold tracked at this ⊢
      rw [List.countP_cons, hh] at this
      simp at this ⊢
      omega
  | fail k m q rc hs hf hk he hcl' hl hqq => exact absurd hcl hcl'
  | loss k e hc hk hs => exact ⟨h1, h2, h3, h4⟩
  | enqueue k x hx hs hcl' =>
    have hxs := hcl' hcl
    have hkq : k ∉ s.retxQueue := fun hk => hxs (h1 hs k x hx hk)
    have f := enqueue_fields s k
    dsimp only at f
    have hnd : (k :: s.retxQueue).Nodup := List.nodup_cons.mpr ⟨hkq, h2 hs⟩
    refine ⟨?_, ?_, ?_, ?_⟩
    · intro _ j y hy hj
      rw [get_enqueue hx] at hy
      split at hy
      · simp at hy; rw [← hy]
      · rename_i hjk
        simp only [f, List.mem_append, List.mem_singleton] at hj
        rcases hj with hj | hj
        · exact h1 hs j y hy hj
        · exact absurd hj hjk
    · intro _
      simp only [f]
      rw [List.nodup_append]
      refine ⟨h2 hs, by simp, ?_⟩
      intro a ha b hb
      simp at hb
      subst hb
      intro hab; subst hab; exact hkq ha
    · intro _
      have h5 := h3 hs
      rw [length_enqueue hx]
      have h6 : tracked (s.retxQueue ++ [k]) (s.enqueueForRetransmission k).info = tracked s.retxQueue s.info + 1 := by
        rw [tracked_congr (l' := s.info)]
        · rw [tracked_append]; simp [tracked, hx]
        · intro j _
          rw [get_enqueue hx]
          split
          · rename_i hjk; rw [hjk, hx]; rfl
          · rfl
      simp only [f]
      rw [h6]
      push_cast
      omega
    · have h5 := h3 hs
      have h6 := tracked_le (l := s.info) hnd
      have h7 : tracked (k :: s.retxQueue) s.info = tracked s.retxQueue s.info + 1 := by
        unfold tracked; rw [List.countP_cons, hx]; simp
      unfold St.enqueueForRetransmission
      dsimp only
      rw [hx]
      simp only [h4, Bool.false_or, decide_eq_false_iff_not]
      omega
  | throwRange k hx hl hs hk => exact absurd hl hlt
  | throwFinal k p hs hnet hp => exact ⟨h1, h2, h3, h4⟩
  | final k p n hs hf hn hp hcl' =>
    have hkeep := hcl' hcl
    refine ⟨?_, h2, ?_, h4⟩
    · intro _ j x hx hj
      simp only [St.cancelGreater] at hx hj
      rw [get_filter] at hx
      split at hx
      · exact h1 hs j x hx hj
      · cases hx
    · intro _
      have h5 := h3 hs
      simp only [St.cancelGreater]
      have h6 : tracked s.retxQueue (s.info.filter (fun e => decide (e.1 ≤ n))) = tracked s.retxQueue s.info := by
        apply tracked_congr
        intro j hj
        rw [get_filter]
        split
        · rfl
        · rename_i hjn
          cases hg : get s.info j with
          | none => rfl
          | some x => exact absurd (h1 hs j x hg hj) (hkeep j x hg (by omega))
      rw [h6]
      omega
  | clear hs hf hc => exact ⟨h1, h2, h3, h4⟩
  | deliver s1 k x p hs hx hn ha =>
    obtain ⟨_, _, _, e1, e2, e3, e4⟩ := adapts_frame ha
    have f := adapts_fields ha
    refine ⟨?_, ?_, ?_, ?_⟩
    · intro _ j y hy hj
      dsimp only at hy hj
      rw [e1, get_del] at hy
      rw [f.2.2.2.2.2.1] at hj
      split at hy
      · cases hy
      · exact h1 hs j y hy hj
    · intro _
      dsimp only
      rw [f.2.2.2.2.2.1]
      exact h2 hs
    · intro _
      have h5 := h3 hs
      dsimp only
      rw [e1, f.2.2.2.2.2.1, f.2.2.2.2.2.2.2.1]
      have h6 := length_del hw.nodup (k := k) (by simp [hx])
      have h7 := tracked_del (q := s.retxQueue) (l := s.info) (k := k) (by simp [hx])
      split
      · rename_i hxs
        have : s.retxQueue.count k = 0 := List.count_eq_zero.mpr (fun hk => hxs (h1 hs k x hx hk))
        omega
      · rename_i hxs
        have h8 : s.retxQueue.count k = 1 :=
          List.count_eq_one_of_mem (h2 hs) (hfl.waits hs k x hx (by simpa using hxs))
        omega
    · dsimp only; rw [f.2.2.2.2.2.2.2.2.2.2.2.1]; exact h4
  | ub s1 k x p n hs hx hn hc ha =>
    have f := adapts_fields ha
    exact hst rfl (by dsimp only; rw [f.2.2.2.2.2.2.2.2.2.2.2.1]; exact h4)
  | posted m rest hp => exact ⟨h1, h2, h3, h4⟩

theorem run_exact {A : Alg σ ε} {o : Opts} {al : Allow} {w : σ} {v : Env ε} {es s}
    (hR : o.maxRetries = -1) (hcl : al.clean) (hlt : ¬ al.late) (h : ARun A o w v al es s) : Exact s := by
  have := arun_inv (P := fun s => Within s ∧ Flow s ∧ Exact s) (fun _ => hR) h
    ⟨within_initial w, flow_initial w, exact_initial w⟩
    (fun _ _ hw hc hm => ⟨within_micro hc.1 hm, flow_micro hw hc.1 hc.2.1 hm,
      exact_micro hw hc.1 hc.2.1 hcl hlt hc.2.2 hm⟩)
  exact this.2.2

/-! ## The window -/

/-- No Interest was sent between `s` and `s'`. -/
def NoSend (s s' : St σ) : Prop := ∃ l, s'.log = s.log ++ l ∧ ∀ k b, Obs.interest k b ∉ l

theorem NoSend.refl (s : St σ) : NoSend s s := ⟨[], by simp, by simp⟩

theorem NoSend.trans {s t u : St σ} (h1 : NoSend s t) (h2 : NoSend t u) : NoSend s u := by
  obtain ⟨l, e1, n1⟩ := h1
  obtain ⟨l', e2, n2⟩ := h2
  refine ⟨l ++ l', by rw [e2, e1]; simp, ?_⟩
  intro k b hk
  rcases List.mem_append.mp hk with hk | hk
  · exact n1 k b hk
  · exact n2 k b hk

theorem NoSend.of_log {s t : St σ} (h : t.log = s.log) : NoSend s t := ⟨[], by simp [h], by simp⟩

theorem cancel_win (s : St σ) : s.cancel.win = s.win ∧ s.cancel.nInFlight = s.nInFlight ∧ s.cancel.log = s.log := by
  unfold St.cancel; split <;> exact ⟨rfl, rfl, rfl⟩

theorem onFailure_win (s : St σ) (m) :
    (s.onFailure m).win = s.win ∧ (s.onFailure m).nInFlight = s.nInFlight ∧ (s.onFailure m).log = s.log := by
  unfold St.onFailure
  split
  · exact ⟨rfl, rfl, rfl⟩
  · exact cancel_win s

theorem filter_le (s : St σ) (k) : (s.cancelGreater k).nInFlight ≤ s.nInFlight := by
  simp only [St.cancelGreater]
  have := List.length_filter_le (fun e : Nat × Seg => decide (e.1 ≤ k)) s.info
  omega

theorem handleFail_win (s : St σ) (k m) :
    (s.handleFail k m).win = s.win ∧ (s.handleFail k m).nInFlight ≤ s.nInFlight ∧
    (s.handleFail k m).log = s.log := by
  unfold St.handleFail
  split
  · exact ⟨rfl, Int.le_refl _, rfl⟩
  split
  · obtain ⟨h1, h2, h3⟩ := onFailure_win s m
    exact ⟨h1, Int.le_of_eq h2, h3⟩
  split
  · dsimp only
    split
    · obtain ⟨h1, h2, h3⟩ := onFailure_win { s with info := del s.info k, nInFlight := s.nInFlight - 1 } .noFinal
      exact ⟨h1, by rw [h2]; dsimp only; omega, h3⟩
    · refine ⟨rfl, ?_, rfl⟩
      have := filter_le { s with info := del s.info k, nInFlight := s.nInFlight - 1 } k
      dsimp only at this ⊢
      omega
  · exact ⟨rfl, Int.le_refl _, rfl⟩

theorem sendInterest_win (s : St σ) (o) (v : Env ε) (k b) :
    (s.sendInterest o v k b).win = s.win ∧ (s.sendInterest o v k b).nInFlight ≤ s.nInFlight + 1 := by
  unfold St.sendInterest
  split
  · exact ⟨rfl, by omega⟩
  split
  · exact ⟨rfl, by omega⟩
  split
  · exact ⟨rfl, by omega⟩
  split
  · unfold St.sendAgain
    dsimp only
    split
    · obtain ⟨h1, h2, _⟩ := handleFail_win
        { s with retxCount := fun j => if j = k then s.retxCount k + 1 else s.retxCount j } k (.maxRetries o.maxRetries k)
      exact ⟨h1, by dsimp only at h2; omega⟩
    · exact ⟨rfl, Int.le_refl _⟩
  · exact ⟨rfl, Int.le_refl _⟩

theorem schedRetx_win (o : Opts) (v : Env ε) (q : List Nat) (n : Nat) (s : St σ) :
    (St.schedRetx o v q n s).1.win = s.win ∧
    (St.schedRetx o v q n s).1.nInFlight + (St.schedRetx o v q n s).2 ≤ s.nInFlight + n := by
  induction q generalizing n s with
  | nil => cases n <;> exact ⟨rfl, Int.le_refl _⟩
  | cons k q ih =>
    cases n with
    | zero => exact ⟨rfl, Int.le_refl _⟩
    | succ n =>
      unfold St.schedRetx
      dsimp only
      split
      · obtain ⟨h1, h2⟩ := ih n ({ s with retxQueue := q }.sendInterest o v k true)
        obtain ⟨h3, h4⟩ := sendInterest_win { s with retxQueue := q } o v k true
        refine ⟨h1.trans h3, ?_⟩
        dsimp only at h4
        push_cast
        omega
      · obtain ⟨h1, h2⟩ := ih (n + 1) { s with retxQueue := q, nSkippedRetx := s.nSkippedRetx + 1 }
        exact ⟨h1, h2⟩

theorem schedNew_win (o : Opts) (v : Env ε) (n : Nat) (s : St σ) :
    (St.schedNew o v n s).win = s.win ∧ (St.schedNew o v n s).nInFlight ≤ s.nInFlight + n := by
  induction n generalizing s with
  | zero => exact ⟨rfl, by simp [St.schedNew]⟩
  | succ n ih =>
    unfold St.schedNew
    obtain ⟨h1, h2⟩ := ih ({ s with nextSegmentNo := s.nextSegmentNo + 1 }.sendInterest o v s.nextSegmentNo false)
    obtain ⟨h3, h4⟩ := sendInterest_win { s with nextSegmentNo := s.nextSegmentNo + 1 } o v s.nextSegmentNo false
    refine ⟨h1.trans h3, ?_⟩
    dsimp only at h4
    push_cast
    omega

theorem schedRetx_zero (o : Opts) (v : Env ε) (q : List Nat) (s : St σ) : St.schedRetx o v q 0 s = (s, 0) := by
  cases q <;> rfl

theorem schedulePackets_window (A : Alg σ ε) (o : Opts) (v : Env ε) (s : St σ) :
    (s.schedulePackets A o v).win = s.win ∧
    ((s.schedulePackets A o v).log = s.log ∨
      (s.schedulePackets A o v).nInFlight ≤ A.slots (s.schedulePackets A o v).win) := by
  unfold St.schedulePackets
  dsimp only
  generalize hn : (A.slots s.win - s.nInFlight).toNat = n
  cases n with
  | zero =>
    rw [schedRetx_zero]
    exact ⟨rfl, Or.inl rfl⟩
  | succ n =>
    obtain ⟨h1, h2⟩ := schedRetx_win o v s.retxQueue (n + 1)
      { s with assertFailed := s.assertFailed || decide (s.nInFlight < 0) }
    generalize St.schedRetx o v s.retxQueue (n + 1)
      { s with assertFailed := s.assertFailed || decide (s.nInFlight < 0) } = r at h1 h2
    obtain ⟨h3, h4⟩ := schedNew_win o v r.2 r.1
    refine ⟨h3.trans h1, Or.inr ?_⟩
    rw [h3, h1]
    dsimp only at h2 ⊢
    omega

end Verif.Adaptive
