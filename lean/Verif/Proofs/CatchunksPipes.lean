import Verif.Spec.Catchunks
import Verif.Proofs.FixedNet
import Verif.Proofs.AdaptiveBlame

/-! # What the program needs to know about the two pipelines -/

/-! ## Fixed pipeline -/

namespace Verif.Fixed

theorem fetchNext_ext (s : St) (i) : s.log <+: (s.fetchNextSegment i).1.log := by
  obtain ⟨h1, _⟩ := fetchNext_effect s i
  rcases h1 with h1 | h1
  · simp only [h1, List.prefix_rfl]
  · rw [h1.1]; exact List.prefix_append _ _

theorem finish_ext (s : St) (i) : s.log <+: (s.finish i).log := by
  unfold St.finish
  split
  · exact List.prefix_append _ _
  · exact fetchNext_ext s i

theorem afterOnData_ext (s : St) (i p) : s.log <+: (s.afterOnData i p).log := by
  unfold St.afterOnData
  split
  · split
    · exact finish_ext s i
    · exact List.prefix_refl _
    · dsimp only
      split
      · simp only [onFailure_log, List.prefix_rfl]
      · exact List.IsPrefix.trans (by exact List.prefix_refl _) (finish_ext _ i)
  · exact finish_ext s i

theorem react_ext (s : St) (i k p c o) : s.log <+: (s.react i k p c o).log := by
  cases o with
  | interest => exact List.prefix_append _ _
  | onData =>
    simp only [St.react, St.handleData]
    split
    · exact List.prefix_refl _
    · refine List.IsPrefix.trans ?_ (afterOnData_ext _ i p)
      rw [onData_log]
      exact List.prefix_append _ _
  | onNack m => simp only [St.react, handleFail_log]; exact List.prefix_refl _
  | onTimeout m => simp only [St.react, handleFail_log]; exact List.prefix_refl _

theorem fetcherEvent_ext (s : St) (i e p c) : s.log <+: (s.fetcherEvent i e p c).log := by
  unfold St.fetcherEvent
  split
  · rename_i f k _
    dsimp only
    have : ∀ (outs : List DataFetcher.Out) (t : St),
        t.log <+: (outs.foldl (fun s o => s.react i k p c o) t).log := by
      intro outs
      induction outs with
      | nil => intro t; exact List.prefix_refl _
      | cons o rest ih => intro t; exact (react_ext t i k p c o).trans (ih _)
    exact this (f.step e).2 { s with slots := s.slots.set i (some ((f.step e).1, k)) }
  · exact List.prefix_refl _

theorem step_ext (s : St) (e) : s.log <+: (s.step e).log := by
  unfold St.step
  split
  · exact List.prefix_refl _
  · cases e with
    | data i p c => exact fetcherEvent_ext _ _ _ _ _
    | nack i r => exact fetcherEvent_ext _ _ _ _ _
    | timeout i => exact fetcherEvent_ext _ _ _ _ _
    | timer i => exact fetcherEvent_ext _ _ _ _ _
    | cancel =>
      simp only [St.cancel]
      split <;> exact List.prefix_refl _
    | posted =>
      dsimp only
      split
      · exact List.prefix_refl _
      · exact List.prefix_append _ _

/-- Data in the log came with an event. -/
theorem data_arrives {s : St} {e : Ev} {k p} (h : Obs.data k p ∈ (s.step e).log) (hold : Obs.data k p ∉ s.log) :
    ∃ i c f, e = .data i p c ∧ s.slots[i]? = some (some (f, k)) := by
  unfold St.step at h
  split at h
  · exact absurd h hold
  · cases e with
    | data i p' c =>
      obtain ⟨rfl, f, ha, _⟩ := fetcherEvent_data h hold
      exact ⟨i, c, f, rfl, ha⟩
    | nack i r =>
      obtain ⟨_, f, ha, ho⟩ := fetcherEvent_data h hold
      simpa using step_onData ho
    | timeout i =>
      obtain ⟨_, f, ha, ho⟩ := fetcherEvent_data h hold
      simpa using step_onData ho
    | timer i =>
      obtain ⟨_, f, ha, ho⟩ := fetcherEvent_data h hold
      simpa using step_onData ho
    | cancel =>
      simp only [St.cancel] at h
      split at h <;> exact absurd h hold
    | posted =>
      dsimp only at h
      split at h
      · exact absurd h hold
      · simp [St.emit] at h; exact absurd h hold

/-- A pipeline that stopped by itself has a reason. -/
def Why (s : St) : Prop := s.isStopping = true → s.posted ≠ [] ∨ ∃ m, Obs.failure m ∈ s.log

theorem why_same {s t : St} (h : Why s) (h1 : t.isStopping = s.isStopping) (h2 : t.posted = s.posted)
    (h3 : s.log <+: t.log) : Why t := by
  intro ht
  rw [h1] at ht
  rcases h ht with h | ⟨m, h⟩
  · left; rw [h2]; exact h
  · right; exact ⟨m, h3.subset h⟩

theorem why_onFailure {s : St} (h : Why s) (m) : Why (s.onFailure m) := by
  unfold St.onFailure
  split
  · exact h
  · intro _; left; simp

theorem why_fetchNext {s : St} (h : Why s) (i) : Why (s.fetchNextSegment i).1 := by
  obtain ⟨_, _, _, _, _, h6⟩ := fetchNext_effect s i
  rcases h6 with ⟨h6, h7⟩ | ⟨_, _, m, h6⟩
  · exact why_same h h7 h6 (fetchNext_ext s i)
  · intro _; left; rw [h6]; simp

theorem why_finish {s : St} (h : Why s) (i) : Why (s.finish i) := by
  unfold St.finish
  split
  · exact why_same h rfl rfl (List.prefix_append _ _)
  · exact why_fetchNext h i

theorem why_afterOnData {s : St} (h : Why s) (i p) : Why (s.afterOnData i p) := by
  unfold St.afterOnData
  split
  · split
    · exact why_finish h i
    · exact why_same h rfl rfl (List.prefix_refl _)
    · dsimp only
      split
      · exact why_onFailure (by exact why_same h rfl rfl (List.prefix_refl _)) _
      · exact why_finish (by exact why_same h rfl rfl (List.prefix_refl _)) i
  · exact why_finish h i

theorem why_handleFail {s : St} (h : Why s) (m i) : Why (s.handleFail m i) := by
  unfold St.handleFail
  split
  · exact h
  · split
    · exact why_same h rfl rfl (List.prefix_refl _)
    · unfold St.handleFailSeg
      split
      · exact why_onFailure h _
      · split
        · dsimp only
          split
          · exact why_onFailure (by exact why_same h rfl rfl (List.prefix_refl _)) _
          · exact why_same h rfl rfl (List.prefix_refl _)
        · exact h

theorem why_react {s : St} (h : Why s) (i k p o) : Why (s.react i k p false o) := by
  cases o with
  | interest => exact why_same h rfl rfl (List.prefix_append _ _)
  | onData =>
    simp only [St.react, St.handleData]
    split
    · exact h
    · refine why_afterOnData (why_same h ?_ ?_ ?_) i p <;> simp [St.onData, St.emit]
  | onNack m => exact why_handleFail h m i
  | onTimeout m => exact why_handleFail h m i

theorem why_fetcherEvent {s : St} (h : Why s) (i e p) : Why (s.fetcherEvent i e p false) := by
  unfold St.fetcherEvent
  split
  · rename_i f k _
    dsimp only
    have : ∀ (outs : List DataFetcher.Out) (t : St), Why t →
        Why (outs.foldl (fun s o => s.react i k p false o) t) := by
      intro outs
      induction outs with
      | nil => intro t h; exact h
      | cons o rest ih => intro t h; exact ih _ (why_react h i k p o)
    exact this _ _ (by exact why_same h rfl rfl (List.prefix_refl _))
  · exact h

theorem why_step {s : St} (h : Why s) {e} (h1 : e ≠ .cancel) (h2 : ∀ i p, e ≠ .data i p true) : Why (s.step e) := by
  unfold St.step
  split
  · exact h
  · cases e with
    | data i p c =>
      cases c with
      | true => exact absurd rfl (h2 i p)
      | false => exact why_fetcherEvent h _ _ _
    | nack i r => exact why_fetcherEvent h _ _ _
    | timeout i => exact why_fetcherEvent h _ _ _
    | timer i => exact why_fetcherEvent h _ _ _
    | cancel => exact absurd rfl h1
    | posted =>
      dsimp only
      split
      · exact h
      · rename_i m rest hp
        intro _; right; exact ⟨m, by simp [St.emit]⟩

theorem why_start (N R) : Why (start N R) := by
  have : ∀ n i (t : St), Why t → Why (t.doRunLoop i n) := by
    intro n
    induction n with
    | zero => intro i t h; exact h
    | succ n ih =>
      intro i t h
      unfold St.doRunLoop
      have hf := why_fetchNext h i
      rcases hx : t.fetchNextSegment i with ⟨s', ok⟩
      rw [hx] at hf
      dsimp only at hf ⊢
      split
      · exact ih _ _ hf
      · exact hf
  apply this
  intro h
  simp [construct] at h

theorem start_log (N R) : ∀ x ∈ (start N R).log, ∃ k, x = .interest k := by
  have : ∀ n i (t : St), (∀ x ∈ t.log, ∃ k, x = .interest k) → ∀ x ∈ (t.doRunLoop i n).log, ∃ k, x = .interest k := by
    intro n
    induction n with
    | zero => intro i t h; exact h
    | succ n ih =>
      intro i t h
      unfold St.doRunLoop
      have hf := (fetchNext_effect t i).1
      rcases hx : t.fetchNextSegment i with ⟨s', ok⟩
      rw [hx] at hf
      dsimp only at hf ⊢
      have hs' : ∀ x ∈ s'.log, ∃ k, x = .interest k := by
        rcases hf with hf | ⟨hf, _⟩
        · rw [hf]; exact h
        · rw [hf]; intro x hx
          rcases List.mem_append.mp hx with hx | hx
          · exact h x hx
          · exact ⟨_, List.mem_singleton.mp hx⟩
      split
      · exact ih _ _ hs'
      · exact hs'
  apply this
  simp [construct]

end Verif.Fixed

/-! ## Adaptive pipelines -/

namespace Verif.Adaptive

variable {σ ε : Type} {b : Bool}

theorem steps_ext {A : Alg σ ε} {o : Opts} {al : Allow} {s s' : St σ} (h : Steps A o al s s') : s.log <+: s'.log := by
  induction h with
  | refl => exact List.prefix_refl _
  | tail _ hm ih =>
    obtain ⟨l, hl, _⟩ := micro_adds hm
    refine ih.trans ?_
    rw [hl]; exact List.prefix_append _ _

/-- A pipeline that stopped by itself has a reason; one that did not has `checkRto` scheduled. -/
structure Why (b : Bool) (s : St σ) : Prop where
  tim : s.isStopping = true ∨ s.timer = b
  stop : s.isStopping = true → s.posted ≠ [] ∨ (∃ m, Obs.failure m ∈ s.log) ∨ Obs.complete ∈ s.log

theorem why_same {b : Bool} {s t : St σ} (h : Why b s) (h1 : t.isStopping = s.isStopping) (h2 : t.posted = s.posted)
    (h4 : t.timer = s.timer) (h3 : s.log <+: t.log) : Why b t := by
  refine ⟨by rw [h1, h4]; exact h.tim, fun ht => ?_⟩
  rw [h1] at ht
  rcases h.stop ht with h | ⟨m, h⟩ | h
  · left; rw [h2]; exact h
  · right; left; exact ⟨m, h3.subset h⟩
  · right; right; exact h3.subset h

theorem cancel_stops (s : St σ) : s.cancel.isStopping = true := by
  unfold St.cancel
  split
  · assumption
  · rfl

theorem why_onFailure {s : St σ} (h : Why b s) (m) : Why b (s.onFailure m) := by
  unfold St.onFailure
  split
  · exact h
  · exact ⟨Or.inl (cancel_stops _), fun _ => by left; simp⟩

theorem why_handleFail {s : St σ} (h : Why b s) (k m) : Why b (s.handleFail k m) := by
  unfold St.handleFail
  split
  · exact h
  split
  · exact why_onFailure h m
  split
  · dsimp only
    split
    · exact why_onFailure (by exact why_same h rfl rfl rfl (List.prefix_refl _)) _
    · exact why_same h rfl rfl rfl (List.prefix_refl _)
  · exact h

theorem why_send {s : St σ} (h : Why b s) (o) (v : Env ε) (k c) : Why b (s.sendInterest o v k c) := by
  unfold St.sendInterest
  split
  · exact h
  split
  · exact h
  split
  · exact h
  split
  · unfold St.sendAgain
    dsimp only
    split
    · exact why_handleFail (by exact why_same h rfl rfl rfl (List.prefix_refl _)) _ _
    · exact why_same h rfl rfl rfl (List.prefix_append _ _)
  · exact why_same h rfl rfl rfl (List.prefix_append _ _)

theorem why_schedRetx (o : Opts) (v : Env ε) (q : List Nat) : ∀ (n : Nat) (s : St σ), Why b s →
    Why b (St.schedRetx o v q n s).1 := by
  induction q with
  | nil => intro n s h; cases n <;> exact h
  | cons k q ih =>
    intro n s h
    cases n with
    | zero => exact h
    | succ n =>
      unfold St.schedRetx
      dsimp only
      split
      · exact ih _ _ (why_send (by exact why_same h rfl rfl rfl (List.prefix_refl _)) _ _ _ _)
      · exact ih _ _ (by exact why_same h rfl rfl rfl (List.prefix_refl _))

theorem why_schedNew (o : Opts) (v : Env ε) (n : Nat) : ∀ (s : St σ), Why b s → Why b (St.schedNew o v n s) := by
  induction n with
  | zero => intro s h; exact h
  | succ n ih =>
    intro s h
    unfold St.schedNew
    exact ih _ (why_send (by exact why_same h rfl rfl rfl (List.prefix_refl _)) _ _ _ _)

theorem why_schedulePackets {s : St σ} (h : Why b s) (A : Alg σ ε) (o : Opts) (v : Env ε) :
    Why b (s.schedulePackets A o v) := by
  unfold St.schedulePackets
  exact why_schedNew _ _ _ _ (why_schedRetx _ _ _ _ _ (by exact why_same h rfl rfl rfl (List.prefix_refl _)))

theorem why_recordTimeout {s : St σ} (h : Why b s) (A : Alg σ ε) (o : Opts) (v : Env ε) (k) :
    Why b (s.recordTimeout A o v k) := by
  unfold St.recordTimeout
  split
  · exact why_same h rfl rfl rfl (List.prefix_append _ _)
  · exact h

theorem why_enqueue {s : St σ} (h : Why b s) (k) : Why b (s.enqueueForRetransmission k) := by
  unfold St.enqueueForRetransmission
  dsimp only
  split <;> exact why_same h rfl rfl rfl (List.prefix_refl _)

theorem why_checkLoop (v : Env ε) (order : List Nat) : ∀ (s : St σ), Why b s → Why b (order.foldl (St.checkOne v) s) := by
  induction order with
  | nil => intro s h; exact h
  | cons k l ih =>
    intro s h
    refine ih _ ?_
    unfold St.checkOne
    split
    · exact h
    · split
      · exact why_enqueue (by exact why_same h rfl rfl rfl (List.prefix_refl _)) _
      · exact h

theorem why_lossOf {s : St σ} (h : Why b s) (A : Alg σ ε) (o : Opts) (v : Env ε) (k) : Why b (s.lossOf A o v k) := by
  unfold St.lossOf
  dsimp only
  split
  · exact why_enqueue h k
  · exact why_schedulePackets (why_recordTimeout (why_enqueue h k) _ _ _ _) _ _ _

theorem why_handleFinal {s : St σ} (h : Why b s) (p) : Why b (s.handleFinal p).1 := by
  unfold St.handleFinal
  split
  · exact h
  · split
    · exact h
    · exact why_same h rfl rfl rfl (List.prefix_refl _)
    · dsimp only
      split
      · exact why_onFailure (by exact why_same h rfl rfl rfl (List.prefix_refl _)) _
      · exact why_same h rfl rfl rfl (List.prefix_refl _)

theorem why_adapt {s : St σ} (h : Why b s) (A : Alg σ ε) (o : Opts) (v : Env ε) (k x p) : Why b (s.adapt A o v k x p) := by
  unfold St.adapt
  dsimp only
  split
  · split
    · exact why_same h rfl rfl rfl (List.prefix_append _ _)
    · exact why_same h rfl rfl rfl (List.prefix_refl _)
  · exact why_same h rfl rfl rfl (List.prefix_append _ _)

theorem why_deliver {s : St σ} (h : Why b s) (k x p) : Why b (s.deliver k x p) := by
  unfold St.deliver
  dsimp only
  split
  · exact why_same (s := s.onData k p) (by exact why_same h rfl rfl rfl (List.prefix_append _ _)) rfl rfl rfl (List.prefix_append _ _)
  · exact why_same h rfl rfl rfl (List.prefix_append _ _)

theorem why_finish {s : St σ} (h : Why b s) (A : Alg σ ε) (o : Opts) (v : Env ε) (k) : Why b (s.finish A o v k) := by
  unfold St.finish
  dsimp only
  split
  · exact ⟨Or.inl (cancel_stops _), fun _ => by right; right; simp [St.emit]⟩
  · exact why_schedulePackets (by exact why_same h rfl rfl rfl (List.prefix_refl _)) _ _ _

theorem why_step {A : Alg σ ε} {o : Opts} {s : St σ} (h : Why true s) {e : Ev ε} (hc : NoCancel e) : Why true (s.step A o e) := by
  unfold St.step
  split
  · exact h
  have hcall : ∀ k, Why true (s.called k) := fun k => why_same h rfl rfl rfl (List.prefix_refl _)
  cases e with
  | data k p c v =>
    have hc' : c = false := hc
    subst hc'
    simp only [St.handleData]
    split
    · exact hcall k
    · have h1 := why_handleFinal (hcall k) p
      split
      · generalize ((s.called k).handleFinal p).1 = t at h1
        unfold St.handleSeg
        split
        · exact h1
        · dsimp only
          exact why_finish (why_deliver (why_adapt h1 _ _ _ _ _ _) _ _ _) _ _ _ _
      · exact h1
  | nack k r v =>
    simp only [St.handleNack]
    split
    · exact hcall k
    · split
      · exact hcall k
      · exact why_lossOf (hcall k) _ _ _ _
      · exact why_handleFail (hcall k) _ _
  | expire k v =>
    simp only [St.handleLifetimeExpiration]
    split
    · exact hcall k
    · exact why_lossOf (by exact why_same h rfl rfl rfl (List.prefix_refl _)) _ _ _ _
  | check order v =>
    simp only [St.checkRto]
    split
    · rename_i hs
      exact ⟨Or.inl hs, h.stop⟩
    · have h0 : Why false { s with timer := false } := ⟨Or.inr rfl, h.stop⟩
      have h1 := why_checkLoop v order { s with timer := false } h0
      have hset : ∀ {t : St σ}, Why false t → Why true { t with timer := true } :=
        fun ht => ⟨Or.inr rfl, ht.stop⟩
      split
      · exact hset (why_schedulePackets (why_recordTimeout h1 A o v _) A o v)
      · exact hset h1
  | cancel => exact hc.elim
  | posted =>
    dsimp only
    split
    · exact h
    · rename_i m rest hp
      exact ⟨h.tim, fun _ => by right; left; exact ⟨m, by simp [St.emit]⟩⟩


/-- Only Interests become visible when the pipeline starts. -/
def OnlySends (s t : St σ) : Prop := ∀ x ∈ t.log, x ∈ s.log ∨ ∃ k c, x = Obs.interest k c

theorem OnlySends.trans {s t u : St σ} (h : OnlySends s t) (h' : OnlySends t u) : OnlySends s u := by
  intro x hx
  rcases h' x hx with h1 | h1
  · exact h x h1
  · exact Or.inr h1

theorem sends_onFailure (s : St σ) (m) : OnlySends s (s.onFailure m) := by
  intro x hx
  left
  unfold St.onFailure St.cancel at hx
  split at hx
  · exact hx
  · exact hx

theorem sends_handleFail (s : St σ) (k m) : OnlySends s (s.handleFail k m) := by
  unfold St.handleFail
  split
  · exact fun _ h => Or.inl h
  split
  · exact sends_onFailure s m
  split
  · dsimp only
    split
    · exact fun x h => by have := sends_onFailure _ _ x h; exact this
    · exact fun _ h => Or.inl h
  · exact fun _ h => Or.inl h

theorem sends_transmit (s : St σ) (v : Env ε) (k c) : OnlySends s (s.transmit v k c) := by
  intro x hx
  have : x ∈ s.log ++ [Obs.interest k c] := hx
  rcases List.mem_append.mp this with h | h
  · exact Or.inl h
  · exact Or.inr ⟨_, _, List.mem_singleton.mp h⟩

theorem sends_send (s : St σ) (o) (v : Env ε) (k c) : OnlySends s (s.sendInterest o v k c) := by
  unfold St.sendInterest
  split
  · exact fun _ h => Or.inl h
  split
  · exact fun _ h => Or.inl h
  split
  · exact fun _ h => Or.inl h
  split
  · unfold St.sendAgain
    dsimp only
    split
    · exact fun x h => by have := sends_handleFail _ _ _ x h; exact this
    · exact fun x h => by have := sends_transmit _ v _ _ x h; exact this
  · exact sends_transmit s v k _

theorem sends_schedNew (o : Opts) (v : Env ε) (n : Nat) : ∀ (s : St σ), OnlySends s (St.schedNew o v n s) := by
  induction n with
  | zero => intro s; exact fun _ h => Or.inl h
  | succ n ih =>
    intro s
    unfold St.schedNew
    refine OnlySends.trans ?_ (ih _)
    exact fun x h => by have := sends_send _ o v _ _ x h; exact this

theorem start_log (A : Alg σ ε) (o : Opts) (w : σ) (v : Env ε) :
    ∀ x ∈ (start A o w v).log, ∃ k c, x = Obs.interest k c := by
  intro x hx
  unfold start St.schedulePackets at hx
  dsimp only at hx
  have h0 : ∀ n (t : St σ), St.schedRetx o v [] n t = (t, n) ∨ (St.schedRetx o v [] n t).1.log = t.log := by
    intro n t; right; cases n <;> rfl
  rcases sends_schedNew o v _ _ x hx with h | h
  · exfalso
    generalize hg : St.schedRetx o v [] _ _ = r at h
    have : r.1.log = [] := by
      rw [← hg]
      generalize (A.slots w - 0).toNat = n
      cases n <;> rfl
    rw [this] at h
    cases h
  · exact h

end Verif.Adaptive
