import Verif.Proofs.AdaptiveFlow
import Verif.Spec.Adaptive

/-! # Invariants of the adaptive pipeline: progress (C16) -/

namespace Verif.Adaptive

set_option linter.unusedSimpArgs false

variable {σ ε : Type}

/-! ## Every requested segment is accounted for -/

structure Acct (s : St σ) : Prop where
  acc : s.isStopping = false → ∀ j, Obs.interest j false ∈ s.log →
    (get s.info j).isSome = true ∨ j ∈ received s.log ∨
    (s.hasFailure = true ∧ s.failedSegNo ≤ j) ∨ (s.hasFinalBlockId = true ∧ s.lastSegmentNo < j)
  low : s.hasFailure = true → ∀ j, (get s.info j).isSome = true → j < s.failedSegNo
  req : s.isStopping = false → s.hasFailure = false → ∀ j, j < s.nextSegmentNo →
    (s.hasFinalBlockId = true → j ≤ s.lastSegmentNo) → Obs.interest j false ∈ s.log
  freq : s.hasFailure = true → Obs.interest s.failedSegNo false ∈ s.log

theorem acct_initial (w : σ) : Acct (initial w) := by
  constructor <;> simp [initial]

theorem acct_ext {s t : St σ} (h : Acct s) {l} (hl : t.log = s.log ++ l) (hn : ∀ k, Obs.interest k false ∉ l)
    (hi : ∀ j, (get t.info j).isSome = (get s.info j).isSome) (e1 : t.isStopping = s.isStopping)
    (e2 : t.hasFailure = s.hasFailure) (e3 : t.failedSegNo = s.failedSegNo)
    (e4 : t.hasFinalBlockId = s.hasFinalBlockId) (e5 : t.lastSegmentNo = s.lastSegmentNo)
    (e6 : t.nextSegmentNo = s.nextSegmentNo) : Acct t := by
  have hmem : ∀ k, Obs.interest k false ∈ t.log ↔ Obs.interest k false ∈ s.log := by
    intro k; rw [hl, List.mem_append]; simp [hn k]
  have hrec : ∀ k, k ∈ received s.log → k ∈ received t.log := by
    intro k hk; rw [hl, received_append]; simp [hk]
  refine ⟨?_, ?_, ?_, ?_⟩
  · intro hs j hj
    rw [hmem] at hj
    rw [hi, e2, e3, e4, e5]
    rcases h.acc (by rw [← e1]; exact hs) j hj with h1 | h1 | h1 | h1
    · exact Or.inl h1
    · exact Or.inr (Or.inl (hrec j h1))
    · exact Or.inr (Or.inr (Or.inl h1))
    · exact Or.inr (Or.inr (Or.inr h1))
  · rw [e2, e3]; intro hf j hj; rw [hi] at hj; exact h.low hf j hj
  · rw [e1, e2, e4, e5, e6]; intro hs hf j hj hjl; rw [hmem]; exact h.req hs hf j hj hjl
  · rw [e2, e3, hmem]; exact h.freq

theorem acct_micro {A : Alg σ ε} {o : Opts} {al : Allow} {s s' : St σ} (hw : WF s) (hc : Core s)
    (hlate : ¬ al.late) (h : Acct s) (m : Micro A o al s s') : Acct s' := by
  cases m with
  | called k hk =>
    exact acct_ext h (l := []) (by simp [St.called]) (by simp) (isSome_called s k) rfl rfl rfl rfl rfl rfl
  | stat t n a ha => exact acct_ext h (l := []) (by simp) (by simp) (fun _ => rfl) rfl rfl rfl rfl rfl rfl
  | stop rc q n posted' hs hp hrc => exact ⟨by simp, by simp, by simp, h.freq⟩
  | complete hs ha =>
    refine ⟨by simp [St.cancel, St.emit, hs], by simp [St.cancel, St.emit, hs], by simp [St.cancel, St.emit, hs], ?_⟩
    simp [St.cancel, St.emit, hs]
    exact h.freq
  | new v hs hf hfin =>
    refine ⟨?_, ?_, ?_, ?_⟩
    · intro _ j hj
      simp only [St.transmit] at hj ⊢
      rw [get_put]
      rcases List.mem_append.mp hj with hj | hj
      · split
        · left; rfl
        · rw [received_append]
          rcases h.acc hs j hj with h1 | h1 | h1 | h1
          · exact Or.inl h1
          · exact Or.inr (Or.inl (by simp [h1]))
          · exact Or.inr (Or.inr (Or.inl h1))
          · exact Or.inr (Or.inr (Or.inr h1))
      · simp at hj; subst hj; simp
    · intro hff; simp only [St.transmit] at hff; rw [hf] at hff; cases hff
    · intro _ _ j hj hjl
      simp only [St.transmit] at hj hjl ⊢
      by_cases hjn : j = s.nextSegmentNo
      · subst hjn; simp
      · have := h.req hs hf j (by omega) hjl; simp [this]
    · intro hff; simp only [St.transmit] at hff; rw [hf] at hff; cases hff
  | skip hsk =>
    refine ⟨h.acc, h.low, ?_, h.freq⟩
    intro hs hf j hj hjl
    dsimp only at hs hf hj hjl ⊢
    apply h.req hs hf j _ hjl
    rcases hsk with h1 | h1 | ⟨h1, h2⟩
    · rw [hs] at h1; cases h1
    · rw [hf] at h1; cases h1
    · have := hjl h1; omega
  | pop k q n _ _ => exact acct_ext h (l := []) (by simp) (by simp) (fun _ => rfl) rfl rfl rfl rfl rfl rfl
  | resend v k q hq hs hh hl hm =>
    refine acct_ext h (l := [.interest k true]) rfl (by simp) ?_ rfl rfl rfl rfl rfl rfl
    intro j
    simp only [St.transmit]
    rw [get_put]
    split
    · rename_i hjk; subst hjk; simp [hh]
    · rfl
  | fail k m q rc hs hf hk he hcl hl hqq =>
    have hkk : (get s.info k).isSome = true := by
      cases hg : get s.info k with
      | none => exact absurd (hl hg) hlate
      | some x => rfl
    have hget : ∀ j, get (del s.info k |>.filter (fun e => decide (e.1 ≤ k))) j =
        if j < k then get s.info j else none := by
      intro j
      rw [get_filter, get_del]
      by_cases h1 : j < k
      · rw [if_pos (by omega), if_neg (by omega), if_pos h1]
      · rw [if_neg h1]
        split
        · split
          · rfl
          · omega
        · rfl
    refine ⟨?_, ?_, by simp, ?_⟩
    · intro _ j hj
      simp only [St.cancelGreater] at hj ⊢
      rw [hget]
      by_cases hjk : j < k
      · rw [if_pos hjk]
        rcases h.acc hs j hj with h1 | h1 | h1 | h1
        · exact Or.inl h1
        · exact Or.inr (Or.inl h1)
        · exfalso
          have := h.low h1.1 k hkk
          omega
        · rw [hf] at h1; cases h1.1
      · exact Or.inr (Or.inr (Or.inl ⟨trivial, by omega⟩))
    · intro _ j hj
      simp only [St.cancelGreater] at hj ⊢
      rw [hget] at hj
      split at hj
      · assumption
      · cases hj
    · intro _; exact hk
  | loss k e hc hk hs => exact acct_ext h rfl (by simp) (fun _ => rfl) rfl rfl rfl rfl rfl rfl
  | enqueue k x hx hs hcl =>
    have f := enqueue_fields s k
    dsimp only at f
    refine acct_ext h (l := []) (by simp [f]) (by simp) ?_ (by simp [f]) (by simp [f]) (by simp [f]) (by simp [f])
      (by simp [f]) (by simp [f])
    intro j
    rw [get_enqueue hx]
    split
    · rename_i hjk; subst hjk; simp [hx]
    · rfl
  | throwRange k hx hl hs hk => exact absurd hl hlate
  | throwFinal k p hs hnet hp => exact acct_ext h (l := []) (by simp) (by simp) (fun _ => rfl) rfl rfl rfl rfl rfl rfl
  | final k p n hs hf hn hp hcl =>
    refine ⟨?_, ?_, ?_, h.freq⟩
    · intro _ j hj
      simp only [St.cancelGreater] at hj ⊢
      rw [get_filter]
      by_cases hjn : j ≤ n
      · rw [if_pos hjn]
        rcases h.acc hs j hj with h1 | h1 | h1 | h1
        · exact Or.inl h1
        · exact Or.inr (Or.inl h1)
        · exact Or.inr (Or.inr (Or.inl h1))
        · rw [hf] at h1; cases h1.1
      · exact Or.inr (Or.inr (Or.inr ⟨trivial, by omega⟩))
    · intro hff j hj
      simp only [St.cancelGreater] at hj hff ⊢
      rw [get_filter] at hj
      split at hj
      · exact h.low hff j hj
      · cases hj
    · intro _ hff j hj _
      exact h.req hs hff j hj (by simp [hf])
  | clear hs hf hcl =>
    cases hff : s.hasFailure with
    | false =>
      refine acct_ext h (l := []) (by simp) (by simp) (fun _ => rfl) rfl ?_ rfl rfl rfl rfl
      simp [hff]
    | true =>
      have hlt := hcl hff
      refine ⟨?_, by simp, ?_, by simp⟩
      · intro _ j hj
        dsimp only at hj ⊢
        rcases h.acc hs j hj with h1 | h1 | h1 | h1
        · exact Or.inl h1
        · exact Or.inr (Or.inl h1)
        · exact Or.inr (Or.inr (Or.inr ⟨hf, by omega⟩))
        · exact Or.inr (Or.inr (Or.inr h1))
      · intro _ _ j hj hjl
        dsimp only at hj hjl ⊢
        have hj' := hjl hf
        obtain ⟨a, b, hab⟩ := List.append_of_mem (h.freq hff)
        have := (hc.order a s.failedSegNo b hab).1 j (by omega)
        rw [hab]; simp [this]
  | deliver s1 k x p hs hx hn ha =>
    obtain ⟨l, e0, hnl, e1, e2, e3, e4⟩ := adapts_frame ha
    have f := adapts_fields ha
    have hmem : ∀ (tl : List Obs) j, (∀ j, Obs.interest j false ∉ tl) →
        (Obs.interest j false ∈ s1.log ++ tl ↔ Obs.interest j false ∈ s.log) := by
      intro tl j htl
      rw [e0]
      simp [hnl j false, htl j]
    have htl : ∀ j, Obs.interest j false ∉ (Obs.data k p ::
        if x.state ≠ .retransmitted ∧ s1.retxCount k = 0 then [Obs.sample k] else []) := by
      intro j; split <;> simp
    have hrec : ∀ (tl : List Obs), k ∈ received (s1.log ++ (Obs.data k p :: tl)) ∧
        ∀ j, j ∈ received s.log → j ∈ received (s1.log ++ (Obs.data k p :: tl)) := by
      intro tl
      refine ⟨?_, ?_⟩
      · rw [mem_received]; exact ⟨p, by simp⟩
      · intro j hj
        rw [mem_received] at hj ⊢
        obtain ⟨p', hp'⟩ := hj
        exact ⟨p', by rw [e0]; simp [hp']⟩
    have g1 : s1.hasFailure = s.hasFailure ∧ s1.failedSegNo = s.failedSegNo := by
      cases ha <;> exact ⟨rfl, rfl⟩
    refine ⟨?_, ?_, ?_, ?_⟩
    · intro _ j hj
      dsimp only at hj ⊢
      rw [hmem _ _ htl] at hj
      rw [e1, get_del, g1.1, g1.2, f.1, f.2.1]
      by_cases hjk : j = k
      · subst hjk; exact Or.inr (Or.inl (hrec _).1)
      · rw [if_neg hjk]
        rcases h.acc hs j hj with h1 | h1 | h1 | h1
        · exact Or.inl h1
        · exact Or.inr (Or.inl ((hrec _).2 j h1))
        · exact Or.inr (Or.inr (Or.inl h1))
        · exact Or.inr (Or.inr (Or.inr h1))
    · intro hff j hj
      dsimp only at hff hj ⊢
      rw [g1.1] at hff
      rw [e1, get_del] at hj
      rw [g1.2]
      split at hj
      · cases hj
      · exact h.low hff j hj
    · intro _ hff j hj hjl
      dsimp only at hff hj hjl ⊢
      rw [hmem _ _ htl]
      rw [g1.1] at hff
      rw [f.1, f.2.1] at hjl
      rw [e3] at hj
      exact h.req hs hff j hj hjl
    · intro hff
      dsimp only at hff ⊢
      rw [g1.1] at hff
      rw [hmem _ _ htl, g1.2]
      exact h.freq hff
  | ub s1 k x p n hs hx hn hc ha =>
    obtain ⟨l, e0, hnl, e1, e2, e3, e4⟩ := adapts_frame ha
    have g1 : s1.hasFailure = s.hasFailure ∧ s1.failedSegNo = s.failedSegNo := by
      cases ha <;> exact ⟨rfl, rfl⟩
    refine ⟨by simp, by simp, by simp, ?_⟩
    dsimp only
    rw [g1.1, g1.2, e0]
    intro hff
    simp [h.freq hff]
  | posted m rest hp => exact acct_ext h rfl (by simp) (fun _ => rfl) rfl rfl rfl rfl rfl rfl

/-! ## Reachable windows -/

theorem reach_micro {A : Alg σ ε} {o : Opts} {al : Allow} {w : σ} {s s' : St σ} (h : Reach A w s.win)
    (m : Micro A o al s s') : Reach A w s'.win := by
  have hadapt : ∀ {k p} {s1 : St σ}, Adapts A o s k p s1 → Reach A w s1.win := by
    intro k p s1 ha
    cases ha with
    | decr e _ _ _ => exact .dec e h
    | keep _ _ _ => exact h
    | incr e _ => exact .inc e h
  cases m with
  | complete hs ha => simpa [St.cancel, St.emit, hs] using h
  | loss k e hc hk hs => exact .dec e h
  | enqueue k x hx hs hcl =>
    have : (s.enqueueForRetransmission k).win = s.win := by
      unfold St.enqueueForRetransmission; dsimp only; split <;> rfl
    rw [this]; exact h
  | throwRange k hx _ hs hk =>
    have : (s.enqueueForRetransmission k).win = s.win := by
      unfold St.enqueueForRetransmission; dsimp only; split <;> rfl
    rw [this]; exact h
  | deliver s1 k x p hs hx hn ha => have := hadapt ha; exact this
  | ub s1 k x p n hs hx hn hc ha => have := hadapt ha; exact this
  | _ => exact h

/-- All invariants that the progress argument uses. -/
structure Good (A : Alg σ ε) (w : σ) (s : St σ) : Prop where
  wf : WF s
  core : Core s
  within : Within s
  flow : Flow s
  acct : Acct s
  stats : Stats s
  reach : Reach A w s.win

theorem good_micro {A : Alg σ ε} {o : Opts} {al : Allow} {w : σ} {s s' : St σ} (hlate : ¬ al.late)
    (h : Good A w s) (m : Micro A o al s s') : Good A w s' :=
  ⟨wf_micro h.wf m, core_micro h.wf h.core m, within_micro h.within m, flow_micro h.wf h.within h.flow m,
   acct_micro h.wf h.core hlate h.acct m, stats_micro h.stats m, reach_micro h.reach m⟩

theorem good_steps {A : Alg σ ε} {o : Opts} {al : Allow} {w : σ} {s s' : St σ} (hlate : ¬ al.late)
    (h : Good A w s) (m : Steps A o al s s') : Good A w s' :=
  steps_inv (P := Good A w) (fun _ _ h m => good_micro hlate h m) h m

theorem good_initial (A : Alg σ ε) (w : σ) : Good A w (initial w) :=
  ⟨wf_initial w, core_initial w, within_initial w, flow_initial w, acct_initial w,
   by constructor <;> simp [initial, received], .init⟩

/-! ## `schedulePackets` leaves something in flight -/

/-- Some segment is in flight, or there is a reason why not. -/
def Alive (s : St σ) : Prop := s.isStopping = true ∨ s.hasFailure = true ∨ 0 < inFlight s.info

theorem inFlight_pos {l : List (Nat × Seg)} (hnd : (l.map (·.1)).Nodup) :
    0 < inFlight l ↔ ∃ k x, get l k = some x ∧ x.state ≠ .inRetxQueue := by
  unfold inFlight
  rw [List.countP_pos_iff]
  constructor
  · rintro ⟨e, he, h⟩
    exact ⟨e.1, e.2, get_of_mem hnd he, by simpa using h⟩
  · rintro ⟨k, x, h, h2⟩
    exact ⟨(k, x), mem_of_get h, by simpa using h2⟩

theorem inFlight_put {l : List (Nat × Seg)} {k x} (hnd : (l.map (·.1)).Nodup) (hx : x.state ≠ .inRetxQueue) :
    0 < inFlight (put l k x) := by
  rw [inFlight_pos (nodup_put hnd)]
  exact ⟨k, x, by rw [get_put]; simp, hx⟩

theorem transmit_inFlight {s : St σ} (hnd : (s.info.map (·.1)).Nodup) (v : Env ε) (k b) :
    0 < inFlight (s.transmit v k b).info := by
  unfold St.transmit
  apply inFlight_put hnd
  cases b <;> simp

theorem onFailure_stops (s : St σ) (m) : (s.onFailure m).isStopping = true := by
  cases hs : s.isStopping with
  | true => simp [St.onFailure, hs]
  | false => rw [onFailure_eq hs]

/-- A retransmission of a tracked segment. -/
theorem sendAgain_alive {s : St σ} (hnd : (s.info.map (·.1)).Nodup) (o : Opts) (v : Env ε) (k)
    (hk : ¬ (s.hasFinalBlockId = true ∧ k > s.lastSegmentNo)) : Alive (s.sendAgain o v k) := by
  unfold St.sendAgain
  dsimp only
  split
  · unfold St.handleFail
    split
    · left; assumption
    split
    · left; exact onFailure_stops _ _
    split
    · dsimp only
      split
      · left; exact onFailure_stops _ _
      · right; left; rfl
    · rename_i h1 h2
      exfalso
      simp only [Bool.not_eq_true', Bool.not_eq_false] at h2
      dsimp only at h1 h2
      simp only [h2, true_and] at h1 hk
      omega
  · right; right; exact transmit_inFlight (s := { s with retxCount := fun j => if j = k then s.retxCount k + 1 else s.retxCount j }) hnd v k true

theorem alive_send {s : St σ} (hnd : (s.info.map (·.1)).Nodup) (o : Opts) (v : Env ε) (k b)
    (h : Alive s) : Alive (s.sendInterest o v k b) := by
  unfold St.sendInterest
  split
  · exact h
  split
  · exact h
  split
  · exact h
  split
  · rename_i hk _ _; exact sendAgain_alive hnd o v k hk
  · right; right; exact transmit_inFlight hnd v k false

theorem nodup_handleFail {s : St σ} (hnd : (s.info.map (·.1)).Nodup) (k m) :
    ((s.handleFail k m).info.map (·.1)).Nodup := by
  have hof : ∀ {s : St σ}, (s.info.map (·.1)).Nodup → ∀ m, ((s.onFailure m).info.map (·.1)).Nodup := by
    intro s h m
    cases hs : s.isStopping with
    | true => simpa [St.onFailure, hs] using h
    | false => rw [onFailure_eq hs]; simp
  unfold St.handleFail
  split
  · exact hnd
  split
  · exact hof hnd m
  split
  · dsimp only
    split
    · exact hof (s := { s with info := del s.info k, nInFlight := s.nInFlight - 1 }) (nodup_del hnd) _
    · exact nodup_filter _ (nodup_del hnd)
  · exact hnd

theorem nodup_send {s : St σ} (hnd : (s.info.map (·.1)).Nodup) (o : Opts) (v : Env ε) (k b) :
    ((s.sendInterest o v k b).info.map (·.1)).Nodup := by
  unfold St.sendInterest
  split
  · exact hnd
  split
  · exact hnd
  split
  · exact hnd
  split
  · unfold St.sendAgain
    dsimp only
    split
    · have := @nodup_handleFail σ { s with retxCount := fun j => if j = k then s.retxCount k + 1 else s.retxCount j } hnd
      exact this _ _
    · exact nodup_put hnd
  · exact nodup_put hnd

theorem alive_schedRetx (o : Opts) (v : Env ε) (q : List Nat) (n : Nat) (s : St σ)
    (hnd : (s.info.map (·.1)).Nodup) (h : Alive s) :
    Alive (St.schedRetx o v q n s).1 ∧ ((St.schedRetx o v q n s).1.info.map (·.1)).Nodup := by
  induction q generalizing n s with
  | nil => cases n <;> exact ⟨h, hnd⟩
  | cons k q ih =>
    cases n with
    | zero => exact ⟨h, hnd⟩
    | succ n =>
      unfold St.schedRetx
      dsimp only
      split
      · exact ih n _ (nodup_send (s := { s with retxQueue := q }) hnd o v k true)
          (alive_send (s := { s with retxQueue := q }) hnd o v k true h)
      · exact ih (n + 1) { s with retxQueue := q, nSkippedRetx := s.nSkippedRetx + 1 } hnd h

theorem alive_schedNew (o : Opts) (v : Env ε) (n : Nat) (s : St σ)
    (hnd : (s.info.map (·.1)).Nodup) (h : Alive s) : Alive (St.schedNew o v n s) := by
  induction n generalizing s with
  | zero => exact h
  | succ n ih =>
    unfold St.schedNew
    exact ih _ (nodup_send (s := { s with nextSegmentNo := s.nextSegmentNo + 1 }) hnd o v _ false)
      (alive_send (s := { s with nextSegmentNo := s.nextSegmentNo + 1 }) hnd o v _ false h)

/-- With at least one slot, the retransmission loop sends something or finds that the queue has
nothing to send. -/
theorem schedRetx_cases (o : Opts) (v : Env ε) (q : List Nat) (n : Nat) (s : St σ)
    (hnd : (s.info.map (·.1)).Nodup) (hs : s.isStopping = false) (hin : Within s) :
    (Alive (St.schedRetx o v q (n + 1) s).1 ∧ ((St.schedRetx o v q (n + 1) s).1.info.map (·.1)).Nodup) ∨
    ((∀ k ∈ q, get s.info k = none) ∧
      ∃ q' m, St.schedRetx o v q (n + 1) s = ({ s with retxQueue := q', nSkippedRetx := m }, n + 1)) := by
  induction q generalizing s with
  | nil => right; exact ⟨by simp, s.retxQueue, s.nSkippedRetx, rfl⟩
  | cons k q ih =>
    unfold St.schedRetx
    dsimp only
    split
    · rename_i hk
      left
      have hkl : ¬ (s.hasFinalBlockId = true ∧ k > s.lastSegmentNo) := by
        rintro ⟨h1, h2⟩
        have := hin h1 k hk
        omega
      apply alive_schedRetx
      · exact nodup_send (s := { s with retxQueue := q }) hnd o v k true
      · unfold St.sendInterest
        rw [if_neg (by simp [hs]), if_neg hkl]
        simp only [Bool.not_true, Bool.false_and, Bool.false_eq_true, if_false, if_true]
        exact sendAgain_alive (s := { s with retxQueue := q }) hnd o v k hkl
    · rename_i hk
      have hnone : get s.info k = none := by simpa using hk
      rcases ih { s with retxQueue := q, nSkippedRetx := s.nSkippedRetx + 1 } hnd hs hin with h1 | ⟨h1, q', m, h2⟩
      · left; exact h1
      · right
        refine ⟨?_, q', m, h2⟩
        intro j hj
        rcases List.mem_cons.mp hj with rfl | hj
        · exact hnone
        · exact h1 j hj

theorem all_received {A : Alg σ ε} {w : σ} {s : St σ} (h : Good A w s) (hs : s.isStopping = false)
    (hf : s.hasFailure = false) (hi : s.info = []) (hfin : s.hasFinalBlockId = true)
    (hn : s.nextSegmentNo > s.lastSegmentNo) : s.allSegmentsReceived = true := by
  have hall : ∀ j, j ≤ s.lastSegmentNo → j ∈ received s.log := by
    intro j hj
    have h1 := h.acct.req hs hf j (by omega) (fun _ => hj)
    rcases h.acct.acc hs j h1 with h2 | h2 | h2 | h2
    · rw [hi] at h2; simp at h2
    · exact h2
    · rw [hf] at h2; cases h2.1
    · omega
  have hsub : (List.range (s.lastSegmentNo + 1)).Subperm (received s.log) :=
    List.Nodup.subperm List.nodup_range (fun x hx => hall x (by have := List.mem_range.mp hx; omega))
  have hlen := hsub.length_le
  rw [List.length_range, ← h.stats.recv] at hlen
  unfold St.allSegmentsReceived
  simp only [hfin, Bool.and_true, Bool.and_eq_true, decide_eq_true_eq]
  omega

theorem schedulePackets_alive {A : Alg σ ε} {w : σ} {s : St σ} (o : Opts) (v : Env ε) (h : Good A w s)
    (hs : s.isStopping = false) (hslots : 1 ≤ A.slots s.win) (hall : s.allSegmentsReceived = false) :
    Alive (s.schedulePackets A o v) := by
  unfold St.schedulePackets
  dsimp only
  generalize hs1 : ({ s with assertFailed := s.assertFailed || decide (s.nInFlight < 0) } : St σ) = s1
  have e : s1.info = s.info ∧ s1.isStopping = false ∧ s1.hasFailure = s.hasFailure ∧
      s1.nextSegmentNo = s.nextSegmentNo ∧ s1.hasFinalBlockId = s.hasFinalBlockId ∧
      s1.lastSegmentNo = s.lastSegmentNo := by
    subst hs1; exact ⟨rfl, hs, rfl, rfl, rfl, rfl⟩
  by_cases hal : Alive s
  · have hal1 : Alive s1 := by subst hs1; exact hal
    obtain ⟨h1, h2⟩ := alive_schedRetx o v s.retxQueue (A.slots s.win - s.nInFlight).toNat s1
      (by rw [e.1]; exact h.wf.nodup) hal1
    exact alive_schedNew o v _ _ h2 h1
  · unfold Alive at hal
    rw [not_or, not_or] at hal
    obtain ⟨_, hff, hnf⟩ := hal
    have hff : s.hasFailure = false := by simpa using hff
    have hz : inFlight s.info = 0 := by omega
    have hle := h.flow.le hs
    have hwl := waiting_le (q := s.retxQueue) h.wf.nodup (h.flow.waits hs)
    have hn0 : s.nInFlight ≤ 0 := by omega
    obtain ⟨n, hn⟩ : ∃ n, (A.slots s.win - s.nInFlight).toNat = n + 1 :=
      ⟨(A.slots s.win - s.nInFlight).toNat - 1, by omega⟩
    rw [hn]
    have hin1 : Within s1 := by subst hs1; exact h.within
    rcases schedRetx_cases o v s.retxQueue n s1 (by rw [e.1]; exact h.wf.nodup) e.2.1 hin1 with
      ⟨h1, h2⟩ | ⟨h1, q', m, h2⟩
    · exact alive_schedNew o v _ _ h2 h1
    · rw [h2]
      dsimp only
      have hinfo : s.info = [] := by
        have htr : tracked s.retxQueue s.info = 0 := by
          unfold tracked
          rw [List.countP_eq_zero]
          intro k hk
          have := h1 k hk
          rw [e.1] at this
          simp [this]
        have : s.info.length = 0 := by omega
        exact List.eq_nil_of_length_eq_zero this
      have hfin : ¬ (s.hasFinalBlockId = true ∧ s.nextSegmentNo > s.lastSegmentNo) := by
        rintro ⟨g1, g2⟩
        have := all_received h hs hff hinfo g1 g2
        rw [hall] at this; cases this
      unfold St.schedNew
      apply alive_schedNew
      · exact nodup_send (s := { s1 with retxQueue := q', nSkippedRetx := m, nextSegmentNo := s1.nextSegmentNo + 1 })
          (by dsimp only; rw [e.1]; exact h.wf.nodup) o v _ false
      · right; right
        unfold St.sendInterest
        dsimp only
        rw [if_neg (by simp [e.2.1]), if_neg (by rw [e.2.2.2.2.1, e.2.2.2.1, e.2.2.2.2.2]; exact hfin),
          if_neg (by simp [e.2.2.1, hff]), if_neg (by simp)]
        exact transmit_inFlight
          (s := { s1 with retxQueue := q', nSkippedRetx := m, nextSegmentNo := s1.nextSegmentNo + 1 })
          (by dsimp only; rw [e.1]; exact h.wf.nodup) v _ false

end Verif.Adaptive
