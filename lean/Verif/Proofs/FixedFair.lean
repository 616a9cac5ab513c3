import Verif.Proofs.FixedNet

/-! # The fixed pipeline over a network that does not lose too much -/

namespace Verif.Fixed

set_option linter.unusedSimpArgs false

open Verif.DataFetcher (Fetcher)

/-- Every Nack and every timeout of a running fetch was preceded by an Interest. -/
def Tally (R : Int) (s : St) : Prop :=
  ∀ i f k, At s i f k → f.isRunning = true → R ≠ -1 →
    f.nNacks + f.nTimeouts + (f.pending : Int) ≤ (s.log.count (.interest k) : Int)

theorem tally_mono {R} {s s' : St} (h : Tally R s)
    (hs : ∀ i f k, At s' i f k → f.isRunning = true → At s i f k)
    (hl : ∀ k, s.log.count (.interest k) ≤ s'.log.count (.interest k)) : Tally R s' := by
  intro i f k ha hr hR
  have := h i f k (hs i f k ha hr) hr hR
  have := hl k
  omega

theorem tally_nil {R} {s : St} (h : s.slots = []) : Tally R s := by
  intro i f k ha; simp [At, h] at ha

theorem tally_cancel {R} {s : St} (h : Tally R s) : Tally R s.cancel := by
  unfold St.cancel
  split
  · exact h
  · exact tally_nil rfl

theorem tally_onFailure {R} {s : St} (h : Tally R s) (m) : Tally R (s.onFailure m) := by
  unfold St.onFailure
  split
  · exact h
  · exact tally_mono (tally_cancel h) (fun _ _ _ ha _ => ha) (fun _ => Nat.le_refl _)

theorem tally_fetchNext {R} {s : St} (h : Tally R s) (i) : Tally R (s.fetchNextSegment i).1 := by
  unfold St.fetchNextSegment
  split
  · exact h
  split
  · exact tally_onFailure h _
  dsimp only
  split
  · exact h
  simp only [St.emit]
  split
  · exact tally_mono h (fun _ _ _ ha _ => ha) (fun _ => by simp)
  · intro j f k ha hr hR
    simp only [At, List.getElem?_set] at ha
    split at ha
    · split at ha
      · simp at ha
        obtain ⟨rfl, rfl⟩ := ha
        simp [DataFetcher.fetch, Fetcher.expressInterest]
      · simp at ha
    · have := h j f k ha hr hR
      have h2 : s.log.count (.interest k) ≤ (s.log ++ [Obs.interest s.nextSegmentNo]).count (.interest k) := by simp
      dsimp only
      omega

theorem tally_finish {R} {s : St} (h : Tally R s) (i) : Tally R (s.finish i) := by
  unfold St.finish
  split
  · exact tally_mono h (fun _ _ _ ha _ => ha) (fun _ => by simp [St.emit])
  · exact tally_fetchNext h i

theorem cancelled_running {f g : Fetcher} {b : Nat} {m : Nat} (h : g = if b < m then f.cancel else f)
    (hr : g.isRunning = true) : g = f := by
  split at h
  · rw [h, cancel_running] at hr; cases hr
  · exact h

theorem tally_map {R} {s s' : St} {b : Nat} (h : Tally R s) (hs : s'.slots = s.slots.map (cancelAbove b))
    (hl : s'.log = s.log) : Tally R s' := by
  refine tally_mono h ?_ (fun _ => by rw [hl])
  intro i g m ha hr
  obtain ⟨f, hf, e⟩ := (At_map hs i g m).mp ha
  rw [cancelled_running e hr]
  exact hf

theorem tally_afterOnData {R} {s : St} (h : Tally R s) (hn : ∀ i f k, At s i f k → f.hasError = false) (i p) :
    Tally R (s.afterOnData i p) := by
  unfold St.afterOnData
  split
  · split
    · exact tally_finish h i
    · exact h
    · rename_i n _
      dsimp only
      rcases hx : finalLoop n s.slots with ⟨l', o⟩
      cases o with
      | some e =>
        exfalso
        obtain ⟨_, f, hm, he⟩ := finalLoop_some hx
        obtain ⟨j, hj⟩ := List.mem_iff_getElem?.mp hm
        have := hn j f e hj
        simp [this] at he
      | none =>
        obtain ⟨rfl, _⟩ := finalLoop_none hx
        refine tally_finish (tally_map (s := s) (b := n) h ?_ ?_) i <;> rfl
  · exact tally_finish h i

theorem tally_doRunLoop {R} {s : St} (h : Tally R s) (i n) : Tally R (s.doRunLoop i n) := by
  induction n generalizing s i with
  | zero => exact h
  | succ n ih =>
    unfold St.doRunLoop
    have hf := tally_fetchNext h i
    rcases hx : s.fetchNextSegment i with ⟨s', ok⟩
    rw [hx] at hf
    dsimp only at hf ⊢
    split
    · exact ih hf _
    · exact hf

theorem tally_start (N R R') : Tally R' (start N R) := by
  refine tally_doRunLoop ?_ _ _
  intro i f k ha
  simp [At, construct, List.getElem?_replicate] at ha

/-- The slot changes, and perhaps an Interest is sent. -/
theorem tally_set {R} {s s' : St} {i f f' k} (h : Tally R s) (ha : At s i f k)
    (hs : s'.slots = s.slots.set i (some (f', k)))
    (hl : s'.log = s.log ∨ s'.log = s.log ++ [.interest k])
    (hf : f'.isRunning = true → R ≠ -1 → f.isRunning = true ∧ f'.nNacks + f'.nTimeouts + (f'.pending : Int) ≤
      f.nNacks + f.nTimeouts + f.pending + (if s'.log = s.log then 0 else 1)) : Tally R s' := by
  have hmono : ∀ m, s.log.count (.interest m) ≤ s'.log.count (.interest m) := by
    intro m; rcases hl with hl | hl <;> rw [hl] <;> simp
  intro j g m hg hr hR
  simp only [At, hs, List.getElem?_set] at hg
  split at hg
  · split at hg
    · simp at hg
      obtain ⟨rfl, rfl⟩ := hg
      obtain ⟨h1, h2⟩ := hf hr hR
      have h3 := h i f k ha h1 hR
      rcases hl with hl | hl
      · rw [if_pos hl] at h2
        rw [hl]; omega
      · rw [if_neg (by rw [hl]; simp)] at h2
        rw [hl]; simp; omega
    · simp at hg
  · have := h j g m hg hr hR
    have := hmono m
    omega

theorem tally_idle {N : Nat} {R s i e p c} (h : Inv N R s) (ht : Tally R s) (he : s.slotEnabled i e)
    (hn : ∀ f k, At s i f k → f.isRunning = false) : Tally R (s.fetcherEvent i e p c) := by
  unfold St.slotEnabled at he
  split at he
  case h_2 => exact absurd he (by simp)
  rename_i f k ha
  have ha' : At s i f k := ha
  obtain ⟨h1, h2⟩ := DataFetcher.step_idle (h.core.fet i f k ha') (hn f k ha') he
  unfold St.fetcherEvent
  rw [ha]
  dsimp only
  rw [h1]
  refine tally_set ht ha' rfl (Or.inl rfl) ?_
  intro hr
  rw [h2.1] at hr; cases hr

/-- A loss after which the Interest may be sent again. -/
theorem soft_event {N : Nat} {R s i e p} (h : Inv N R s) (hg : Good s) (ht : Tally R s)
    (he : s.slotEnabled i e) (hsoft : e = .timeout ∨ e = .nack .duplicate ∨ e = .nack .congestion)
    (hb : ∀ f k, At s i f k → f.isRunning = true → R = -1 ∨ (s.log.count (.interest k) : Int) ≤ R) :
    Good (s.fetcherEvent i e p false) ∧ Tally R (s.fetcherEvent i e p false) := by
  have he2 := he
  unfold St.slotEnabled at he
  split at he
  case h_2 => exact absurd he (by simp)
  rename_i f k ha
  have ha' : At s i f k := ha
  by_cases hr : f.isRunning = true
  case neg =>
    simp only [Bool.not_eq_true] at hr
    have hn : ∀ f' k', At s i f' k' → f'.isRunning = false := by
      intro f' k' h'
      unfold At at ha' h'
      rw [ha'] at h'
      simp at h'
      rw [← h'.1]; exact hr
    refine ⟨?_, tally_idle h ht he2 hn⟩
    obtain ⟨h1, h2, h3, h4, h5, h6⟩ := hg
    obtain ⟨g1, g2, g3, g4, g5, g6⟩ := fetcherEvent_idle (p := p) (c := false) h he2 hn
    refine ⟨by rw [g3, h1], by rw [g2, h2], by rw [g4, h3], ?_, by rw [g1]; exact h5, by rw [g1, g5]; exact h6⟩
    intro j g m hgm
    obtain ⟨g', hg', heq⟩ := g6 j g m hgm
    rw [heq]; exact h4 j g' m hg'
  have hI := h.core.fet i f k ha'
  obtain ⟨hI', hE⟩ := DataFetcher.step_running hI hr he
  have hbud := hb f k ha' hr
  have htal := ht i f k ha' hr
  have hn0 := hI.nn0
  have ht0 := hI.nt0
  unfold St.fetcherEvent
  rw [ha]
  dsimp only
  generalize hf' : (f.step e).1 = f' at *
  generalize ho : (f.step e).2 = outs at *
  have keep : ∀ s' : St, s'.slots = s.slots.set i (some (f', k)) → f'.hasError = false →
      (s'.log = s.log ∨ s'.log = s.log ++ [.interest k]) → s'.isStopping = s.isStopping →
      s'.posted = s.posted → s'.hasFailure = s.hasFailure → s'.hasFinalBlockId = s.hasFinalBlockId → Good s' := by
    intro s' hs hfe hl e1 e2 e3 e4
    obtain ⟨h1, h2, h3, h4, h5, h6⟩ := hg
    refine ⟨by rw [e1, h1], by rw [e2, h2], by rw [e3, h3], ?_, ?_, ?_⟩
    · intro j g m hgm
      simp only [At, hs, List.getElem?_set] at hgm
      split at hgm
      · split at hgm
        · simp at hgm
          obtain ⟨rfl, rfl⟩ := hgm
          exact hfe
        · simp at hgm
      · exact h4 j g m hgm
    · rcases hl with hl | hl <;> rw [hl]
      · exact h5
      · simpa using h5
    · rcases hl with hl | hl <;> rw [hl, e4]
      · exact h6
      · simpa using h6
  have herr : f'.isRunning = true → f'.hasError = false := fun hx => (running_flags hx).2
  cases hE with
  | data => simp at hsoft
  | cancel => simp at hsoft
  | timer => simp at hsoft
  | retryTimeout _ g1 g2 g3 g4 g5 =>
    simp only [List.foldl_cons, List.foldl_nil, St.react]
    refine ⟨keep _ rfl (herr g1) (Or.inr rfl) rfl rfl rfl rfl, ?_⟩
    refine tally_set ht ha' rfl (Or.inr rfl) ?_
    intro _ hR
    refine ⟨hr, ?_⟩
    rw [if_neg (by simp [St.emit]), g3, g4, g2, (g5 hR).1]; omega
  | failTimeout _ g1 g2 g3 g4 g5 =>
    exfalso
    have := htal g4
    rcases hbud with h1 | h1
    · exact g4 h1
    · omega
  | duplicate _ g1 g2 g3 g4 g5 =>
    simp only [List.foldl_cons, List.foldl_nil, St.react]
    refine ⟨keep _ rfl (herr g1) (Or.inr rfl) rfl rfl rfl rfl, ?_⟩
    refine tally_set ht ha' rfl (Or.inr rfl) ?_
    intro _ hR
    refine ⟨hr, ?_⟩
    rw [if_neg (by simp [St.emit]), g3, g4, g2, (g5 hR).1]; omega
  | congestion _ g1 g2 g3 g4 g5 =>
    simp only [List.foldl_nil]
    refine ⟨keep _ rfl (herr g1) (Or.inl rfl) rfl rfl rfl rfl, ?_⟩
    refine tally_set ht ha' rfl (Or.inl rfl) ?_
    intro _ hR
    refine ⟨hr, ?_⟩
    rw [if_pos rfl, g3, g4, g2, (g5 hR).1]; omega
  | fatal _ r g1 g2 g3 g4 g5 g6 => simp [g5, g6] at hsoft
  | failNack _ r g1 g2 g3 g4 g5 =>
    exfalso
    have := htal g4
    rcases hbud with h1 | h1
    · exact g4 h1
    · omega

/-- Fetches beyond the end are over once the end is known. -/
theorem beyond_idle {N : Nat} {R segs s} (h : Inv N R s) (hh : Hist s) (hcs : AllConsistent segs s)
    (hg : Good s) {j p} (hm : Obs.data j p ∈ s.log) (hp : p.final ≠ .absent) {i f k} (ha : At s i f k)
    (hk : segs.length ≤ k) : f.isRunning = false := by
  have hfin : s.hasFinalBlockId = true := by
    by_contra hc
    simp only [Bool.not_eq_true] at hc
    exact hp (hg.fin hc j p hm)
  obtain ⟨k1, p1, hm1, hp1⟩ := hh.final hfin
  have hc1 := hcs _ _ hm1
  have hlast : s.lastSegmentNo = segs.length - 1 := by
    rcases hc1.2 with h | h
    · rw [hp1] at h; simp at h
    · rw [hp1] at h; simpa using h
  have hpos := consistent_lt hc1
  exact (h.core.fin hfin i f k ha).1 (by omega)

theorem at_unique {s : St} {i f k f' k'} (h : At s i f k) (h' : At s i f' k') : f' = f ∧ k' = k := by
  unfold At at h h'
  rw [h] at h'
  simp at h'
  exact ⟨h'.1.symm, h'.2.symm⟩

theorem tally_timer {N : Nat} {R s i p} (h : Inv N R s) (ht : Tally R s) (he : s.slotEnabled i .timer) :
    Tally R (s.fetcherEvent i .timer p false) := by
  have he2 := he
  unfold St.slotEnabled at he
  split at he
  case h_2 => exact absurd he (by simp)
  rename_i f k ha
  have ha' : At s i f k := ha
  by_cases hr : f.isRunning = true
  case neg =>
    simp only [Bool.not_eq_true] at hr
    exact tally_idle h ht he2 (fun f' k' h' => by rw [(at_unique ha' h').1]; exact hr)
  unfold St.fetcherEvent
  rw [ha]
  simp only [Fetcher.step, Fetcher.expressInterest, List.foldl_cons, List.foldl_nil, St.react]
  refine tally_set ht ha' rfl (Or.inr rfl) ?_
  intro _ hR
  refine ⟨hr, ?_⟩
  rw [if_neg (by simp [St.emit])]
  simp; omega

theorem tally_data {N : Nat} {R s i p} (h : Inv N R s) (hg : Good s) (ht : Tally R s)
    (he : s.slotEnabled i .data) : Tally R (s.fetcherEvent i .data p false) := by
  have he2 := he
  unfold St.slotEnabled at he
  split at he
  case h_2 => exact absurd he (by simp)
  rename_i f k ha
  have ha' : At s i f k := ha
  by_cases hr : f.isRunning = true
  case neg =>
    simp only [Bool.not_eq_true] at hr
    exact tally_idle h ht he2 (fun f' k' h' => by rw [(at_unique ha' h').1]; exact hr)
  obtain ⟨_, hE⟩ := DataFetcher.step_running (h.core.fet i f k ha') hr he
  unfold St.fetcherEvent
  rw [ha]
  dsimp only
  generalize hf' : (f.step .data).1 = f' at *
  generalize ho : (f.step .data).2 = outs at *
  cases hE with
  | data _ g1 g2 g4 g5 g6 =>
    simp only [List.foldl_cons, List.foldl_nil, St.react]
    unfold St.handleData
    split
    · exact tally_set ht ha' rfl (Or.inl rfl) (fun hx => by rw [g1] at hx; cases hx)
    · apply tally_afterOnData
      · refine tally_mono (tally_set (s' := { s with slots := s.slots.set i (some (f', k)) }) ht ha' rfl (Or.inl rfl)
          (fun hx => by rw [g1] at hx; cases hx)) (fun _ _ _ h _ => h) ?_
        intro m; rw [onData_log]; simp
      · intro j g m hgm
        simp only [At, St.onData, St.emit, Bool.false_eq_true, if_false, List.getElem?_set] at hgm
        split at hgm
        · split at hgm
          · simp at hgm
            obtain ⟨rfl, rfl⟩ := hgm
            exact g6
          · simp at hgm
        · exact hg.noerr j g m hgm

theorem fair_step {N : Nat} {R segs s e} (h : Inv N R s) (hh : Hist s) (hcs : AllConsistent segs s)
    (hg : Good s) (ht : Tally R s) (hen : (fairMachine N R segs).enabled s e) :
    Good (s.step e) ∧ Tally R (s.step e) := by
  obtain ⟨he, hce, hc1, hc2, hl⟩ := hen
  have same : (s.threw.isSome || s.ub) = true → Good (s.step e) ∧ Tally R (s.step e) := by
    intro hx
    have : s.step e = s := by unfold St.step; rw [if_pos hx]
    rw [this]; exact ⟨hg, ht⟩
  by_cases hx : (s.threw.isSome || s.ub) = true
  · exact same hx
  have loss : ∀ i ev, e.isLoss = true → e.pipe = some i → s.slotEnabled i ev →
      (e.isSoft = true → ev = .timeout ∨ ev = .nack .duplicate ∨ ev = .nack .congestion) →
      s.step e = s.fetcherEvent i ev ⟨[], .absent, false, false, true⟩ false → Good (s.step e) ∧ Tally R (s.step e) := by
    intro i ev hls hi hse hsoft hstep
    have hse2 := hse
    unfold St.slotEnabled at hse
    split at hse
    case h_2 => exact absurd hse (by simp)
    rename_i f k ha
    have ha' : At s i f k := ha
    rcases hl hls i f k hi ha with ⟨hk, j, p, hm, hp⟩ | ⟨hso, hb⟩
    · refine ⟨good_step h hh hcs hg ⟨he, hce, ⟨?_, hc1, hc2⟩, fun _ => ⟨j, p, hm, hp⟩⟩, ?_⟩
      · intro _ i' f' k' hi' ha2
        rw [hi] at hi'
        cases hi'
        rw [(at_unique ha' ha2).2]; exact hk
      · rw [hstep]
        refine tally_idle h ht hse2 ?_
        intro f' k' ha2
        rw [(at_unique ha' ha2).1]
        exact beyond_idle h hh hcs hg hm hp ha' hk
    · rw [hstep]
      refine soft_event h hg ht hse2 (hsoft hso) ?_
      intro f' k' ha2 _
      rw [(at_unique ha' ha2).2]; exact hb
  have good : e.isLoss = false → Good (s.step e) := by
    intro hnl
    refine good_step (segs := segs) h hh hcs hg ⟨he, hce, ⟨?_, hc1, hc2⟩, ?_⟩
    · intro hc; rw [hnl] at hc; cases hc
    · intro hc; rw [hnl] at hc; cases hc
  cases e with
  | nack i r =>
    refine loss i (.nack r) rfl rfl he ?_ (by unfold St.step; rw [if_neg hx])
    cases r <;> simp [Ev.isSoft]
  | timeout i => exact loss i .timeout rfl rfl he (fun _ => Or.inl rfl) (by unfold St.step; rw [if_neg hx])
  | cancel => exact absurd rfl hc1
  | posted => exact absurd hg.posted he
  | timer i =>
    refine ⟨good rfl, ?_⟩
    unfold St.step; rw [if_neg hx]
    exact tally_timer h ht he
  | data i p c =>
    refine ⟨good rfl, ?_⟩
    have hcf : c = false := by
      cases c with
      | false => rfl
      | true => exact absurd rfl (hc2 i p)
    subst hcf
    unfold St.step; rw [if_neg hx]
    exact tally_data h hg ht he

theorem fair_net {N : Nat} {R segs es s} (h : (fairMachine N R segs).Run es s) : (netMachine N R segs).Run es s := by
  induction h with
  | nil => exact Machine.Run.nil
  | snoc e _ he ih => exact Machine.Run.snoc (M := netMachine N R segs) e ih ⟨he.1, he.2.1⟩

theorem fair_good {N : Nat} {R segs es s} (hN : 0 < N) (h : (fairMachine N R segs).Run es s) :
    Good s ∧ Tally R s := by
  induction h with
  | nil => exact ⟨good_start N R, tally_start N R R⟩
  | snoc e hr he ih =>
    have hn := fair_net hr
    exact fair_step (run_inv hN (net_run hn)) (run_hist (net_run hn)) (net_consistent hn) ih.1 ih.2 he

/-- Progress: an existing segment is being fetched, if all Data so far carried the FinalBlockId. -/
theorem fair_progress {N : Nat} {R segs es s} (hN : 0 < N) (h : (fairMachine N R segs).Run es s)
    (hall : ∀ k p, Obs.data k p ∈ s.log → p.final ≠ .absent) (hseg : 0 < segs.length)
    (hc : Obs.complete ∉ s.log) :
    ∃ i f k, At s i f k ∧ f.isRunning = true ∧ k < segs.length := by
  obtain ⟨hg, _⟩ := fair_good hN h
  have hn := fair_net h
  have hi := run_inv hN (net_run hn)
  have hh := run_hist (net_run hn)
  obtain ⟨i, f, k, ha, hr⟩ := no_stall hi (run_announced (net_run hn)) hg.stop (net_threw hN hn) hc
  by_cases hf : s.hasFinalBlockId = true
  · refine ⟨i, f, k, ha, hr, ?_⟩
    by_contra hk
    obtain ⟨k1, p1, hm1, hp1⟩ := hh.final hf
    have := beyond_idle hi hh (net_consistent hn) hg hm1 (by rw [hp1]; simp) ha (by omega)
    rw [this] at hr; cases hr
  · simp only [Bool.not_eq_true] at hf
    have hnone : received s.log = [] := by
      rw [received, List.filterMap_eq_nil_iff]
      intro o ho
      cases o with
      | data k p => exact absurd (hg.fin hf k p ho) (hall k p ho)
      | _ => rfl
    have hpos : 0 < s.nextSegmentNo := by have := hi.core.lt i f k ha; omega
    rcases hi.core.cover hg.stop 0 hpos (fun hc => by rw [hf] at hc; cases hc) with h1 | ⟨i0, f0, h1, h2⟩
    · rw [hnone] at h1; cases h1
    · rcases h2 with h2 | h2 | ⟨j, g, m, h2, h3, _⟩
      · exact ⟨i0, f0, 0, h1, h2, hseg⟩
      · have := hg.noerr _ _ _ h1; rw [this] at h2; cases h2
      · omega

end Verif.Fixed
