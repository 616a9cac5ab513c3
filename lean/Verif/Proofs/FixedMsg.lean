import Verif.Spec.FixedMsg
import Verif.Proofs.FixedNet

/-! # Invariants about the messages of the fixed pipeline -/

namespace Verif.Fixed

open Verif.DataFetcher (Fetcher)

/-- What the messages claim, with the weaker claim for `noFinal`. -/
def Claim (R : Int) (h : List (Nat × Happened)) (log : List Obs) (m : FailMsg) : Prop :=
  match m with
  | .noFinal => BeyondFailed R h log
  | m => Truth R h log m

def Happened.ev : Happened → DataFetcher.Ev
  | .data => .data
  | .nack r => .nack r
  | .timeout => .timeout
  | .resend => .timer

structure Base (R : Int) (h : List (Nat × Happened)) (s : St) : Prop where
  cnt : ∀ i f k, At s i f k →
    (R ≠ -1 → f.nNacks = nackCount k h ∧ f.nTimeouts = timeoutCount k h) ∧ (f.hasError = true → Failed R h k)
  lt : ∀ x ∈ h, x.1 < s.nextSegmentNo
  bad : s.isStopping = false → s.hasFailure = true → ∃ i f k, At s i f k ∧ f.hasError = true

def Ann (s : St) : Prop := announced s.log = if s.hasFinalBlockId then some s.lastSegmentNo else none

def Quiet (s : St) : Prop := s.posted = [] ∧ ∀ m, Obs.failure m ∉ s.log

structure Msgs (R : Int) (h : List (Nat × Happened)) (s : St) : Prop where
  base : Base R h s
  ann : Ann s
  msg : ∀ m, m ∈ s.posted ∨ Obs.failure m ∈ s.log → s.isStopping = true ∧ Claim R h s.log m

theorem Quiet.msgs {R h s} (q : Quiet s) (b : Base R h s) (a : Ann s) : Msgs R h s :=
  ⟨b, a, fun m hm => by
    rcases hm with hm | hm
    · rw [q.1] at hm; cases hm
    · exact absurd hm (q.2 m)⟩

theorem announced_append (a b : List Obs) : announced (a ++ b) = (announced a).or (announced b) := by
  unfold announced
  rw [List.filterMap_append, List.head?_append]

theorem Base.stopped {R h s} {s' : St} (b : Base R h s) (hs : s'.isStopping = true) (hl : s'.slots = [])
    (hn : s'.nextSegmentNo = s.nextSegmentNo) : Base R h s' :=
  ⟨fun i f k ha => by simp [At, hl] at ha, by rw [hn]; exact b.lt, fun h => by rw [hs] at h; cases h⟩

theorem msgs_onFailure {R h s m} (b : Base R h s) (a : Ann s) (q : Quiet s) (hs : s.isStopping = false) (hm : Claim R h s.log m) :
    Msgs R h (s.onFailure m) := by
  have e : s.onFailure m = { s with isStopping := true, slots := [], posted := s.posted ++ [m] } := by
    simp [St.onFailure, St.cancel, hs]
  rw [e]
  refine ⟨b.stopped rfl rfl rfl, a, ?_⟩
  intro m' h'
  refine ⟨rfl, ?_⟩
  dsimp only at h' ⊢
  rw [q.1, List.nil_append, List.mem_singleton] at h'
  rcases h' with rfl | h'
  · exact hm
  · exact absurd h' (q.2 m')

theorem count_zero {h : List (Nat × Happened)} {k : Nat} (hlt : ∀ x ∈ h, x.1 < k) : nackCount k h = 0 ∧ timeoutCount k h = 0 := by
  constructor <;>
  · refine List.countP_eq_zero.mpr ?_
    intro x hx
    have := hlt x hx
    have hne : ¬ x.1 = k := by omega
    simp [hne]

theorem msgs_fetchNext {N R h s} (i : Nat) (c : Core N R s) (b : Base R h s) (a : Ann s) (q : Quiet s) :
    Msgs R h (s.fetchNextSegment i).1 := by
  unfold St.fetchNextSegment
  split
  · exact q.msgs b a
  rename_i hst
  simp only [Bool.not_eq_true] at hst
  split
  · rename_i hf
    obtain ⟨j, f, k, ha, he⟩ := b.bad hst hf
    refine msgs_onFailure b a q hst ⟨k, (b.cnt j f k ha).2 he, ⟨c.req j f k ha, c.live j f k ha (Or.inr he)⟩, ?_⟩
    intro n hn
    unfold Ann at a
    rw [a] at hn
    cases hfin : s.hasFinalBlockId with
    | false => rw [hfin] at hn; cases hn
    | true =>
      rw [hfin] at hn
      injection hn with hn
      subst hn
      by_contra hc
      have := (c.fin hfin j f k ha).2 (by omega)
      rw [he] at this; cases this
  · rename_i hnf
    simp only [Bool.not_eq_true] at hnf
    dsimp only
    split
    · refine Quiet.msgs (s := { s with nextSegmentNo := s.nextSegmentNo + 1 }) q
        ⟨b.cnt, fun x hx => Nat.lt_succ_of_lt (b.lt x hx), fun _ h2 => ?_⟩ a
      dsimp only at h2
      rw [hnf] at h2; cases h2
    · have q' : ∀ s' : St, s'.posted = s.posted → s'.log = s.log ++ [.interest s.nextSegmentNo] → Quiet s' := by
        intro s' h1 h2
        refine ⟨by rw [h1]; exact q.1, fun m hm => ?_⟩
        rw [h2] at hm
        rcases List.mem_append.mp hm with hm | hm
        · exact q.2 m hm
        · simp at hm
      have a' : ∀ s' : St, s'.log = s.log ++ [.interest s.nextSegmentNo] → s'.hasFinalBlockId = s.hasFinalBlockId →
          s'.lastSegmentNo = s.lastSegmentNo → Ann s' := by
        intro s' h1 h2 h3
        unfold Ann at a ⊢
        rw [h1, h2, h3, announced_append, a]
        simp [announced]
      simp only [St.emit]
      split
      · refine Quiet.msgs (q' _ rfl rfl) ⟨?_, fun x hx => Nat.lt_succ_of_lt (b.lt x hx), ?_⟩ (a' _ rfl rfl rfl)
        · exact b.cnt
        · intro _ h2
          dsimp only at h2
          rw [hnf] at h2; cases h2
      · refine Quiet.msgs (q' _ rfl rfl) ⟨?_, fun x hx => Nat.lt_succ_of_lt (b.lt x hx), ?_⟩ (a' _ rfl rfl rfl)
        · intro j f k ha
          unfold At at ha
          dsimp only at ha
          rw [List.getElem?_set] at ha
          by_cases hij : i = j
          · rw [if_pos hij] at ha
            split at ha
            · simp only [Option.some.injEq, Prod.mk.injEq] at ha
              obtain ⟨rfl, rfl⟩ := ha
              obtain ⟨z1, z2⟩ := count_zero b.lt
              rw [z1, z2]
              simp [DataFetcher.fetch, Fetcher.expressInterest]
            · cases ha
          · rw [if_neg hij] at ha
            exact b.cnt j f k ha
        · intro _ h2
          dsimp only at h2
          rw [hnf] at h2; cases h2

theorem msgs_finish {N R h s} (i : Nat) (c : Core N R s) (b : Base R h s) (a : Ann s) (q : Quiet s) : Msgs R h (s.finish i) := by
  unfold St.finish
  split
  · refine Quiet.msgs ⟨q.1, fun m hm => ?_⟩ ⟨b.cnt, b.lt, b.bad⟩ ?_
    · rcases List.mem_append.mp hm with hm | hm
      · exact q.2 m hm
      · simp at hm
    · unfold Ann at a ⊢
      simp only [St.emit]
      rw [announced_append, a]
      simp only [announced, List.filterMap_cons, List.filterMap_nil, List.head?_nil, Option.or_none]
      rfl
  · exact msgs_fetchNext i c b a q

theorem cancel_counts (f : Fetcher) : f.cancel.nNacks = f.nNacks ∧ f.cancel.nTimeouts = f.nTimeouts ∧ f.cancel.hasError = f.hasError := by
  unfold Fetcher.cancel; split <;> exact ⟨rfl, rfl, rfl⟩

theorem Base.mapped {R h s} {s' : St} {b : Nat} (hb : Base R h s) (hs : s'.slots = s.slots.map (cancelAbove b))
    (hn : s'.nextSegmentNo = s.nextSegmentNo) (hst : s'.isStopping = s.isStopping)
    (hf : s'.hasFailure = true → s.hasFailure = true ∨ ∃ i f k, At s i f k ∧ f.hasError = true) : Base R h s' := by
  have keep : ∀ i f k, At s i f k → f.hasError = true → ∃ i f k, At s' i f k ∧ f.hasError = true := by
    intro i f k ha he
    refine ⟨i, _, k, (At_map hs i _ k).2 ⟨f, ha, rfl⟩, ?_⟩
    split
    · rw [(cancel_counts f).2.2]; exact he
    · exact he
  refine ⟨?_, by rw [hn]; exact hb.lt, ?_⟩
  · intro i g k ha
    obtain ⟨f, ha', rfl⟩ := (At_map hs i g k).1 ha
    have := hb.cnt i f k ha'
    split
    · rw [(cancel_counts f).1, (cancel_counts f).2.1, (cancel_counts f).2.2]; exact this
    · exact this
  · intro h1 h2
    rw [hst] at h1
    rcases hf h2 with h2 | ⟨i, f, k, ha, he⟩
    · obtain ⟨i, f, k, ha, he⟩ := hb.bad h1 h2
      exact keep i f k ha he
    · exact keep i f k ha he

theorem msgs_afterOnData {N R h s i} (c : Core N R s) (b : Base R h s) (q : Quiet s) (p : Pkt)
    (a : announced s.log = if s.hasFinalBlockId then some s.lastSegmentNo else match p.final with | .seg n => some n | _ => none) :
    Msgs R h (s.afterOnData i p) := by
  unfold St.afterOnData
  cases hfin : s.hasFinalBlockId with
  | true =>
    rw [if_neg (by simp)]
    refine msgs_finish i c b ?_ q
    unfold Ann; rw [a, hfin, if_pos rfl, if_pos rfl]
  | false =>
    rw [if_pos (by simp)]
    rw [hfin] at a
    cases hp : p.final with
    | absent =>
      dsimp only
      refine msgs_finish i c b ?_ q
      unfold Ann; rw [a, hp]; simp [hfin]
    | notSegment =>
      refine Quiet.msgs q ⟨b.cnt, b.lt, b.bad⟩ ?_
      unfold Ann; dsimp only; rw [a, hp]
    | seg n =>
      dsimp only
      rw [hp] at a
      have q' : Quiet { s with lastSegmentNo := n, hasFinalBlockId := true, slots := (finalLoop n s.slots).1 } := q
      have a' : Ann { s with lastSegmentNo := n, hasFinalBlockId := true, slots := (finalLoop n s.slots).1 } := a
      rcases hloop : finalLoop n s.slots with ⟨sl, err⟩
      rw [hloop] at q' a'
      dsimp only at q' a'
      cases err with
      | none =>
        dsimp only
        obtain ⟨h1, h2⟩ := finalLoop_none hloop
        have hcf := core_final (s' := { s with lastSegmentNo := n, hasFinalBlockId := true, slots := sl })
          c hfin (fun j g m hj hm => h2 g m (List.mem_of_getElem? hj) hm) h1 rfl
        exact msgs_finish i hcf (b.mapped h1 rfl rfl (fun h => Or.inl h)) a' q'
      | some e =>
        dsimp only
        obtain ⟨h1, f, h2, h3⟩ := finalLoop_some hloop
        obtain ⟨j, hj⟩ := List.mem_iff_getElem?.mp h2
        have hnst : s.isStopping = false := not_stopping c hj
        have hb : Base R h { s with lastSegmentNo := n, hasFinalBlockId := true, slots := ([] : List Slot), isStopping := true } :=
          b.stopped rfl rfl rfl
        have e2 : St.onFailure { s with lastSegmentNo := n, hasFinalBlockId := true, slots := sl } (.segment e) =
            { s with lastSegmentNo := n, hasFinalBlockId := true, slots := [], isStopping := true, posted := s.posted ++ [.segment e] } := by
          simp [St.onFailure, St.cancel, hnst]
        rw [e2]
        refine ⟨⟨hb.cnt, hb.lt, hb.bad⟩, a', ?_⟩
        intro m hm
        refine ⟨rfl, ?_⟩
        dsimp only at hm ⊢
        rw [q.1, List.nil_append, List.mem_singleton] at hm
        rcases hm with rfl | hm
        · exact ⟨(b.cnt j f e hj).2 h3, ⟨c.req j f e hj, c.live j f e hj (Or.inr h3)⟩, n, a, h1⟩
        · exact absurd hm (q.2 m)

theorem counts_other {h : List (Nat × Happened)} {k m : Nat} (x : Happened) (hne : m ≠ k) :
    nackCount m (h ++ [(k, x)]) = nackCount m h ∧ timeoutCount m (h ++ [(k, x)]) = timeoutCount m h := by
  have : ¬ k = m := fun e => hne e.symm
  simp [nackCount, timeoutCount, List.countP_append, List.countP_cons, this]

theorem counts_same {h : List (Nat × Happened)} {k : Nat} (x : Happened) :
    nackCount k (h ++ [(k, x)]) = nackCount k h + (if x.ev.isNack then 1 else 0) ∧
    timeoutCount k (h ++ [(k, x)]) = timeoutCount k h + (if x.ev = .timeout then 1 else 0) := by
  cases x <;> simp [nackCount, timeoutCount, List.countP_append, List.countP_cons, Happened.ev, DataFetcher.Ev.isNack]

theorem failed_other {R} {h : List (Nat × Happened)} {k m : Nat} (x : Happened) (hne : m ≠ k) (hf : Failed R h m) :
    Failed R (h ++ [(k, x)]) m := by
  unfold Failed
  rw [(counts_other x hne).1, (counts_other x hne).2]
  rcases hf with ⟨r, h1, h2⟩ | hf
  · exact Or.inl ⟨r, List.mem_append_left _ h1, h2⟩
  · exact Or.inr hf

/-- What an event for a running fetcher does, in terms of the story. -/
theorem fetcher_story {R : Int} (hR : -1 ≤ R) {h f f' o k} {x : Happened} (hi : DataFetcher.Inv R R f) (hr : f.isRunning = true)
    (hc : R ≠ -1 → f.nNacks = nackCount k h ∧ f.nTimeouts = timeoutCount k h) (heff : DataFetcher.Effect R R f x.ev f' o) :
    (R ≠ -1 → f'.nNacks = nackCount k (h ++ [(k, x)]) ∧ f'.nTimeouts = timeoutCount k (h ++ [(k, x)])) ∧
    (∀ m, DataFetcher.Out.onNack m ∈ o →
      (∃ r, m = .nack r ∧ FatalNack (h ++ [(k, x)]) k r) ∨ (m = .maxNackRetries R ∧ Exceeded R (nackCount k (h ++ [(k, x)])))) ∧
    (∀ m, DataFetcher.Out.onTimeout m ∈ o → m = .maxTimeoutRetries R ∧ Exceeded R (timeoutCount k (h ++ [(k, x)]))) := by
  have hcnt : R ≠ -1 → f'.nNacks = nackCount k (h ++ [(k, x)]) ∧ f'.nTimeouts = timeoutCount k (h ++ [(k, x)]) := by
    intro hne
    rw [DataFetcher.eff_nacks heff hne, DataFetcher.eff_timeouts heff hne, (counts_same x).1, (counts_same x).2,
      (hc hne).1, (hc hne).2]
    constructor <;> split <;> simp
  refine ⟨hcnt, ?_, ?_⟩
  · intro m hm
    obtain ⟨_, _, _, h4, h5⟩ := DataFetcher.eff_rep heff
    rcases h5 m hm with ⟨r, rfl⟩ | ⟨n, rfl⟩
    · obtain ⟨e, h6, h7⟩ := h4 r hm
      refine Or.inl ⟨r, rfl, ?_, h6, h7⟩
      cases x <;> simp [Happened.ev] at e
      subst e
      simp
    · obtain ⟨h6, rfl, h7, h8⟩ := DataFetcher.eff_onNack heff hm
      refine Or.inr ⟨rfl, h6, ?_⟩
      rw [← (hcnt h6).1, DataFetcher.eff_nacks heff h6, h8]
      have := hi.nnl hr
      simp only [if_true]
      omega
  · intro m hm
    obtain ⟨h6, rfl, h7, h8⟩ := DataFetcher.eff_onTimeout heff hm
    refine ⟨rfl, h6, ?_⟩
    rw [← (hcnt h6).2, DataFetcher.eff_timeouts heff h6, h8]
    have := hi.ntl hr
    simp only [if_true]
    omega

/-- The slot of a running fetcher is updated after an event. -/
theorem Base.set {N R h s i f k} {f' : Fetcher} {x : Happened} {s' : St} (c : Core N R s) (b : Base R h s) (ha : At s i f k)
    (hr : f.isRunning = true)
    (hc : R ≠ -1 → f'.nNacks = nackCount k (h ++ [(k, x)]) ∧ f'.nTimeouts = timeoutCount k (h ++ [(k, x)]))
    (he : f'.hasError = true → Failed R (h ++ [(k, x)]) k)
    (hs : s'.slots = s.slots.set i (some (f', k))) (hn : s'.nextSegmentNo = s.nextSegmentNo)
    (hst : s'.isStopping = s.isStopping) (hf : s'.hasFailure = s.hasFailure) : Base R (h ++ [(k, x)]) s' := by
  have hA := At_set (At_lt ha) hs
  have hrf := running_flags hr
  have ne : ∀ j g m, j ≠ i → At s j g m → m ≠ k := by
    rintro j g m hj hg rfl
    exact hj (c.uniq j i g f m hg ha)
  refine ⟨?_, ?_, ?_⟩
  · intro j g m hg
    rcases (hA j g m).1 hg with ⟨rfl, rfl, rfl⟩ | ⟨h1, h2⟩
    · exact ⟨hc, he⟩
    · have hne := ne j g m h1 h2
      rw [(counts_other x hne).1, (counts_other x hne).2]
      have := b.cnt j g m h2
      exact ⟨this.1, fun h' => failed_other x hne (this.2 h')⟩
  · intro y hy
    rw [hn]
    rcases List.mem_append.mp hy with hy | hy
    · exact b.lt y hy
    · rw [List.mem_singleton] at hy
      subst hy
      exact c.lt i f k ha
  · intro h1 h2
    rw [hst] at h1
    rw [hf] at h2
    obtain ⟨j, g, m, hg, hge⟩ := b.bad h1 h2
    refine ⟨j, g, m, (hA j g m).2 (Or.inr ⟨?_, hg⟩), hge⟩
    rintro rfl
    have : g = f := by
      unfold At at hg ha; rw [hg] at ha; simpa using (congrArg (fun o => o.map (fun y => y.map Prod.fst)) ha)
    rw [this, hrf.2] at hge; cases hge

theorem quiet_of_running {N R h s i f k} (c : Core N R s) (m : Msgs R h s) (ha : At s i f k) : Quiet s := by
  have hst := not_stopping c ha
  refine ⟨?_, fun y hy => ?_⟩
  · cases hp : s.posted with
    | nil => rfl
    | cons y l =>
      have := (m.msg y (Or.inl (by simp [hp]))).1
      rw [hst] at this; cases this
  · have := (m.msg y (Or.inr hy)).1
    rw [hst] at this; cases this

theorem msgs_fetcherEvent {N R h s i f k p cb} {x : Happened} (hR : -1 ≤ R) (hi : Inv N R s) (hm : Msgs R h s)
    (he : s.slotEnabled i x.ev) (ha : At s i f k) (hr : f.isRunning = true) :
    Msgs R (h ++ [(k, x)]) (s.fetcherEvent i x.ev p cb) := by
  have ha0 : s.slots[i]? = some (some (f, k)) := ha
  simp only [St.slotEnabled, ha0] at he
  simp only [St.fetcherEvent, ha0]
  have hc := hi.core
  have hst := not_stopping hc ha
  have hfi := hc.fet _ _ _ ha
  have hq := quiet_of_running hc hm ha
  have hann := hm.ann
  obtain ⟨hi', heff⟩ := DataFetcher.step_running hfi hr he
  have hrf := running_flags hr
  obtain ⟨s1, s2, s3⟩ := fetcher_story hR hfi hr (hm.base.cnt i f k ha).1 heff
  have hnc : x.ev ≠ .cancel := by cases x <;> simp [Happened.ev]
  generalize (f.step x.ev).1 = f' at heff hi' s1 ⊢
  generalize (f.step x.ev).2 = o at heff s2 s3 ⊢
  -- the message of a failing fetcher is true once the end is known
  have fail : ∀ m : FailMsg, f'.hasError = true → f'.isStopped = false → f'.isRunning = false → Failed R (h ++ [(k, x)]) k →
      (Needed s.log k → Claim R (h ++ [(k, x)]) s.log m) →
      Msgs R (h ++ [(k, x)]) ({ s with slots := s.slots.set i (some (f', k)) }.handleFail m i) := by
    intro m e1 _ _ hfd hcl
    have hb : Base R (h ++ [(k, x)]) { s with slots := s.slots.set i (some (f', k)) } :=
      hm.base.set hc ha hr s1 (fun _ => hfd) rfl rfl rfl rfl
    have hmiss : Missing s.log k := ⟨hc.req i f k ha, hc.live i f k ha (Or.inl hr)⟩
    unfold St.handleFail
    rw [if_neg (by simp [hst])]
    have hget : (s.slots.set i (some (f', k)))[i]? = some (some (f', k)) := by
      simp [List.getElem?_set, At_lt ha]
    simp only [hget, slotSeg]
    unfold St.handleFailSeg
    dsimp only
    split
    · rename_i hl
      refine msgs_onFailure hb hann hq hst (hcl ⟨hmiss, s.lastSegmentNo, ?_, hl.2⟩)
      unfold Ann at hann
      rw [hann, if_pos hl.1]
    · rename_i hnf
      split
      · rename_i hf
        simp only [Bool.not_eq_true'] at hf
        obtain ⟨g1, g2⟩ := failLoop_eq k (s.slots.set i (some (f', k)))
        split
        · refine msgs_onFailure (s := { s with slots := (failLoop k (s.slots.set i (some (f', k)))).1 })
            (hb.mapped g1 rfl rfl (fun h => Or.inl h)) hann hq hst ⟨k, hfd, hmiss, ?_⟩
          intro n hn
          unfold Ann at hann
          dsimp only at hn
          rw [hann, hf] at hn
          cases hn
        · exact Quiet.msgs (s := { s with slots := (failLoop k (s.slots.set i (some (f', k)))).1, hasFailure := true }) hq
            (hb.mapped g1 rfl rfl (fun _ => Or.inr ⟨i, f', k, hget, e1⟩)) hann
      · rename_i hf
        simp only [Bool.not_eq_true', Bool.not_eq_false] at hf
        simp only [hf, true_and] at hnf
        have := (hc.fin hf _ _ _ ha).1 (by omega)
        simp [hr] at this
  rcases DataFetcher.eff_single heff with rfl | ⟨y, rfl⟩
  · simp only [List.foldl_nil]
    have hr' := DataFetcher.eff_silent heff hnc rfl
    have hrf' := running_flags hr'
    exact Quiet.msgs (s := { s with slots := s.slots.set i (some (f', k)) }) hq
      (hm.base.set hc ha hr s1 (fun e => by rw [hrf'.2] at e; cases e) rfl rfl rfl rfl) hann
  · simp only [List.foldl_cons, List.foldl_nil]
    cases y with
    | interest =>
      have hr' := DataFetcher.eff_interest heff (by simp)
      have hrf' := running_flags hr'
      refine Quiet.msgs (s := { s with slots := s.slots.set i (some (f', k)), log := s.log ++ [.interest k] }) ⟨hq.1, ?_⟩
        (hm.base.set hc ha hr s1 (fun e => by rw [hrf'.2] at e; cases e) rfl rfl rfl rfl) ?_
      · intro m h'
        rcases List.mem_append.mp h' with h' | h'
        · exact hq.2 m h'
        · simp at h'
      · unfold Ann at hann ⊢
        dsimp only
        rw [announced_append, hann]
        simp only [announced, List.filterMap_cons, List.filterMap_nil, List.head?_nil, Option.or_none]
    | onData =>
      obtain ⟨_, h2, h3⟩ := DataFetcher.eff_data heff (by simp)
      simp only [St.react]
      unfold St.handleData
      rw [if_neg (by simp [hst])]
      have hd := core_data (s' := ({ s with
          slots := s.slots.set i (some (f', k)), nReceived := s.nReceived + 1,
          receivedSize := s.receivedSize + p.content.length, log := s.log ++ [.data k p] } : St))
        hc ha hr hi' h3 h2 p rfl rfl rfl rfl
      have hb : Base R (h ++ [(k, x)]) ({ s with
          slots := s.slots.set i (some (f', k)), nReceived := s.nReceived + 1,
          receivedSize := s.receivedSize + p.content.length, log := s.log ++ [.data k p] } : St) :=
        hm.base.set hc ha hr s1 (fun e => by rw [h2] at e; cases e) rfl rfl rfl rfl
      have hq' : ∀ m, Obs.failure m ∉ s.log ++ [Obs.data k p] := by
        intro m h'
        rcases List.mem_append.mp h' with h' | h'
        · exact hq.2 m h'
        · simp at h'
      have ha' : announced (s.log ++ [Obs.data k p]) =
          if s.hasFinalBlockId then some s.lastSegmentNo else match p.final with | .seg n => some n | _ => none := by
        unfold Ann at hann
        rw [announced_append, hann]
        cases s.hasFinalBlockId with
        | true => simp
        | false => cases hp : p.final <;> simp [announced, hp]
      cases cb
      · exact msgs_afterOnData hd hb ⟨hq.1, hq'⟩ p ha'
      · have hcan : St.cancel ({ s with
            slots := s.slots.set i (some (f', k)), nReceived := s.nReceived + 1,
            receivedSize := s.receivedSize + p.content.length, log := s.log ++ [.data k p] } : St) =
            { s with
              slots := [], isStopping := true, nReceived := s.nReceived + 1,
              receivedSize := s.receivedSize + p.content.length, log := s.log ++ [.data k p] } := by
          simp [St.cancel, hst]
        have hd' := core_cancel hd
        rw [hcan] at hd'
        have e : (St.onData { s with slots := s.slots.set i (some (f', k)) } k p true) =
            { s with
              slots := [], isStopping := true, nReceived := s.nReceived + 1,
              receivedSize := s.receivedSize + p.content.length, log := s.log ++ [.data k p] } := by
          rw [← hcan]; rfl
        rw [e]
        exact msgs_afterOnData hd' (hb.stopped rfl rfl rfl) ⟨hq.1, hq'⟩ p ha'
    | onNack m =>
      obtain ⟨h1, h2, h3⟩ := DataFetcher.eff_fail heff (m := m) (by simp)
      rcases s2 m (by simp) with ⟨r, rfl, hf⟩ | ⟨rfl, hf⟩
      · exact fail _ h1 h2 h3 (Or.inl ⟨r, hf⟩) (fun hn => ⟨k, hf, hn⟩)
      · exact fail _ h1 h2 h3 (Or.inr (Or.inl hf)) (fun hn => ⟨rfl, k, hf, hn⟩)
    | onTimeout m =>
      obtain ⟨h1, h2, h3⟩ := DataFetcher.eff_fail heff (m := m) (by simp)
      obtain ⟨rfl, hf⟩ := s3 m (by simp)
      exact fail _ h1 h2 h3 (Or.inr (Or.inr hf)) (fun hn => ⟨rfl, k, hf, hn⟩)

theorem msgs_idleEvent {N R h s i f k e p cb} (hi : Inv N R s) (hm : Msgs R h s)
    (he : s.slotEnabled i e) (ha : At s i f k) (hr : f.isRunning = false) : Msgs R h (s.fetcherEvent i e p cb) := by
  have ha0 : s.slots[i]? = some (some (f, k)) := ha
  simp only [St.slotEnabled, ha0] at he
  simp only [St.fetcherEvent, ha0]
  obtain ⟨h1, _, _, _, h5, h6, _, _, _, h10⟩ := DataFetcher.step_idle (hi.core.fet _ _ _ ha) hr he
  rw [h1, List.foldl_nil]
  generalize (f.step e).1 = f' at h5 h6 h10 ⊢
  have hA := At_set (s := s) (x := (f', k)) (s' := { s with slots := s.slots.set i (some (f', k)) }) (At_lt ha) rfl
  refine ⟨⟨?_, hm.base.lt, ?_⟩, hm.ann, hm.msg⟩
  · intro j g m hg
    rcases (hA j g m).1 hg with ⟨rfl, rfl, rfl⟩ | ⟨_, h2⟩
    · rw [h5, h6, h10]; exact hm.base.cnt _ _ _ ha
    · exact hm.base.cnt j g m h2
  · intro g1 g2
    obtain ⟨j, g, m, hg, hge⟩ := hm.base.bad g1 g2
    by_cases hj : j = i
    · subst hj
      unfold At at hg
      rw [hg] at ha0
      simp only [Option.some.injEq, Prod.mk.injEq] at ha0
      obtain ⟨rfl, rfl⟩ := ha0
      exact ⟨j, f', m, (hA j f' m).2 (Or.inl ⟨rfl, rfl, rfl⟩), by rw [h10]; exact hge⟩
    · exact ⟨j, g, m, (hA j g m).2 (Or.inr ⟨hj, hg⟩), hge⟩

theorem msgs_slotEvent {N R h s i e p cb} {x : Happened} (hR : -1 ≤ R) (hi : Inv N R s) (hm : Msgs R h s)
    (he : s.slotEnabled i x.ev) (hp : e.pipe = some i) (hh : e.happened = some x) (ht : s.threw = none) :
    Msgs R (h ++ occurs s e) (s.fetcherEvent i x.ev p cb) := by
  obtain ⟨f, k, ha⟩ : ∃ f k, At s i f k := by
    unfold St.slotEnabled at he
    split at he
    · rename_i f k ha; exact ⟨f, k, ha⟩
    · exact absurd he (by simp)
  have ha0 : s.slots[i]? = some (some (f, k)) := ha
  unfold occurs
  rw [hp, hh]
  dsimp only
  rw [ha0]
  dsimp only
  cases hr : f.isRunning with
  | true =>
    rw [if_pos ⟨rfl, ht⟩]
    exact msgs_fetcherEvent hR hi hm he ha hr
  | false =>
    rw [if_neg (by simp), List.append_nil]
    exact msgs_idleEvent hi hm he ha hr

theorem msgs_step {N R h s e} (hR : -1 ≤ R) (hi : Inv N R s) (hm : Msgs R h s) (he : s.enabled e) :
    Msgs R (h ++ occurs s e) (s.step e) := by
  unfold St.step
  have hub := hi.core.noub
  cases ht : s.threw with
  | some t =>
    have : occurs s e = [] := by
      unfold occurs
      rw [ht]
      split
      · split <;> simp
      · rfl
    rw [this, List.append_nil]
    simp only [Option.isSome_some, Bool.true_or, if_true]
    exact hm
  | none =>
    rw [hub]
    simp only [Option.isSome_none, Bool.or_self, Bool.false_eq_true, if_false]
    cases e with
    | data i p c => exact msgs_slotEvent (x := .data) hR hi hm he rfl rfl ht
    | nack i r => exact msgs_slotEvent (x := .nack r) hR hi hm he rfl rfl ht
    | timeout i => exact msgs_slotEvent (x := .timeout) hR hi hm he rfl rfl ht
    | timer i => exact msgs_slotEvent (x := .resend) hR hi hm he rfl rfl ht
    | cancel =>
      simp only [occurs, Ev.pipe, List.append_nil]
      unfold St.cancel
      split
      · exact hm
      · exact ⟨hm.base.stopped rfl rfl rfl, hm.ann, fun m h' => ⟨rfl, (hm.msg m h').2⟩⟩
    | posted =>
      simp only [occurs, Ev.pipe, List.append_nil]
      split
      · exact hm
      · rename_i m rest hp
        have hlog : ∀ m', Claim R h s.log m' → Claim R h (s.log ++ [.failure m]) m' := by
          have e1 : announced (s.log ++ [.failure m]) = announced s.log := by
            rw [announced_append]; simp [announced]
          have e2 : ∀ k, Missing s.log k → Missing (s.log ++ [.failure m]) k := by
            intro k hk
            exact ⟨List.mem_append_left _ hk.1, by simpa using hk.2⟩
          have e3 : ∀ k, Needed s.log k → Needed (s.log ++ [.failure m]) k := by
            intro k hk
            refine ⟨e2 k hk.1, ?_⟩
            rw [e1]; exact hk.2
          intro m' hc
          cases m' with
          | noFinal =>
            obtain ⟨k, h1, h2, h3⟩ := hc
            refine ⟨k, h1, e2 k h2, ?_⟩
            rw [e1]; exact h3
          | nack r => obtain ⟨k, h1, h2⟩ := hc; exact ⟨k, h1, e3 k h2⟩
          | maxNackRetries n => obtain ⟨h0, k, h1, h2⟩ := hc; exact ⟨h0, k, h1, e3 k h2⟩
          | maxTimeoutRetries n => obtain ⟨h0, k, h1, h2⟩ := hc; exact ⟨h0, k, h1, e3 k h2⟩
          | segment k => obtain ⟨h1, h2⟩ := hc; exact ⟨h1, e3 k h2⟩
          | maxRetries n k => exact hc
          | segNack k r => exact hc
        have hstop := (hm.msg m (Or.inl (by simp [hp]))).1
        refine ⟨⟨hm.base.cnt, hm.base.lt, hm.base.bad⟩, ?_, ?_⟩
        · have := hm.ann
          unfold Ann at this ⊢
          simp only [St.emit]
          rw [announced_append, this]
          simp only [announced, List.filterMap_cons, List.filterMap_nil, List.head?_nil, Option.or_none]
          rfl
        · intro m' h'
          refine ⟨hstop, hlog m' ?_⟩
          simp only [St.emit] at h'
          rcases h' with h' | h'
          · exact (hm.msg m' (Or.inl (by rw [hp]; exact List.mem_cons_of_mem _ h'))).2
          · rcases List.mem_append.mp h' with h' | h'
            · exact (hm.msg m' (Or.inr h')).2
            · simp only [List.mem_singleton, Obs.failure.injEq] at h'
              subst h'
              exact (hm.msg m' (Or.inl (by simp [hp]))).2

theorem story_snoc (s : St) (es e) : story s (es ++ [e]) = story s es ++ occurs (es.foldl St.step s) e := by
  induction es generalizing s with
  | nil => simp [story]
  | cons a es ih => simp only [List.cons_append, story, ih, List.foldl_cons, List.append_assoc]

theorem msgs_doRunLoop {N R} (n : Nat) (s : St) (i : Nat) (hin : i + n = N) (h : Core N R s)
    (hempty : ∀ j, i ≤ j → ∀ f k, ¬ At s j f k) (hm : Msgs R [] s) (hs : s.isStopping = false) : Msgs R [] (s.doRunLoop i n) := by
  induction n generalizing s i with
  | zero => exact hm
  | succ n ih =>
    have hq : Quiet s := by
      refine ⟨?_, fun y hy => ?_⟩
      · cases hp : s.posted with
        | nil => rfl
        | cons y l =>
          have := (hm.msg y (Or.inl (by simp [hp]))).1
          rw [hs] at this; cases this
      · have := (hm.msg y (Or.inr hy)).1
        rw [hs] at this; cases this
    unfold St.doRunLoop
    have hf := core_fetchNext h (i := i) (by omega) (fun f k ha => absurd ha (hempty i (Nat.le_refl i) f k))
    have hm' := msgs_fetchNext i h hm.base hm.ann hq
    have hstop : (s.fetchNextSegment i).2 = true → (s.fetchNextSegment i).1.isStopping = false := by
      unfold St.fetchNextSegment
      rw [if_neg (by simp [hs])]
      split
      · intro h'; cases h'
      · dsimp only
        split
        · intro h'; cases h'
        · simp only [St.emit]
          split <;> exact fun _ => hs
    rcases hx : s.fetchNextSegment i with ⟨s', ok⟩
    rw [hx] at hf hm' hstop
    simp only at hf hm' hstop ⊢
    split
    · rename_i hok
      apply ih _ _ (by omega) hf.1 _ hm' (hstop hok)
      intro j hj f k hc
      have := fetchNext_other h (i := i) (j := j) (by omega) f k (by rw [hx]; exact hc)
      exact hempty j (by omega) f k this
    · exact hm'

theorem msgs_start (N : Nat) (R : Int) : Msgs R [] (start N R) := by
  have he : ∀ j f k, ¬ At (construct N R) j f k := by
    intro j f k h
    simp [At, construct, List.getElem?_replicate] at h
  refine msgs_doRunLoop N _ 0 (by omega) (core_construct N R) (fun j _ f k h => he j f k h) ?_ rfl
  refine Quiet.msgs ⟨rfl, fun m hm => by simp [construct] at hm⟩ ⟨fun i f k h => absurd h (he i f k), ?_, ?_⟩ rfl
  · intro x hx; cases hx
  · intro _ h; cases h

theorem run_msgs {N : Nat} {R es s} (hN : 0 < N) (hR : -1 ≤ R) (h : (machine N R).Run es s) :
    Msgs R (story (start N R) es) s := by
  induction h with
  | nil => exact msgs_start N R
  | snoc e hr he ih =>
    have h3 := run_foldl hr
    simp only [machine] at h3
    rw [story_snoc, ← h3]
    exact msgs_step hR (run_inv hN hr) ih he

end Verif.Fixed
