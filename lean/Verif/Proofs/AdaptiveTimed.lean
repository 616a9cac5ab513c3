import Verif.Proofs.AdaptiveTime
import Verif.Proofs.AdaptiveFlow

/-! # Invariants of the adaptive pipeline with a clock -/

namespace Verif.AdaptiveTime

open Adaptive

variable {σ ε : Type} {late : Option Nat} {A : Alg σ ε} {o : Opts} {interval : Nat} {w : σ} {v : Env ε}

/-- Without the clock. -/
theorem proj {es s} (h : (machine late A o interval w v).Run es s) : (Adaptive.machine A o w v).Run (es.map (·.ev)) s.p := by
  induction h with
  | nil => exact .nil
  | snoc e _ he ih => rw [List.map_append]; exact .snoc e.ev ih he.1

theorem once_run {es s} (h : (onceMachine late A o interval w v).Run es s) : (machine late A o interval w v).Run es s := by
  induction h with
  | nil => exact .nil
  | snoc e _ he ih => exact .snoc e ih he.1

/-! ## The history of one event -/

theorem sends_append (a b : List Entry) (k : Nat) : sends (a ++ b) k = sends a k ++ sends b k := by simp [sends]

theorem sends_none {l : List Obs} {k t r : Nat} (h : ∀ b, Obs.interest k b ∉ l) : sends (l.map (Entry.mk t r)) k = [] := by
  unfold sends
  rw [List.filterMap_eq_nil_iff]
  intro e he
  obtain ⟨x, hx, rfl⟩ := List.mem_map.mp he
  cases x with
  | interest j b =>
    simp only [Entry.sent?]
    rw [if_neg]
    rintro rfl
    exact h b hx
  | _ => rfl

theorem sends_all {l : List Obs} {k t r : Nat} : ∀ y ∈ sends (l.map (Entry.mk t r)) k, y = (t, r) := by
  intro y hy
  obtain ⟨e, he, h⟩ := List.mem_filterMap.mp hy
  obtain ⟨x, -, rfl⟩ := List.mem_map.mp he
  cases x with
  | interest j b =>
    simp only [Entry.sent?] at h
    split at h
    · exact (Option.some.inj h).symm
    · cases h
  | _ => cases h

theorem lastSent_same {h : List Entry} {l : List Obs} {k t r : Nat} (hl : ∀ b, Obs.interest k b ∉ l) :
    lastSent (h ++ l.map (Entry.mk t r)) k = lastSent h k := by
  unfold lastSent
  rw [sends_append, sends_none hl, List.append_nil]

theorem lastSent_new {h : List Entry} {l : List Obs} {k t r : Nat} {b} (hl : Obs.interest k b ∈ l) :
    lastSent (h ++ l.map (Entry.mk t r)) k = some (t, r) := by
  unfold lastSent
  rw [sends_append]
  have hne : sends (l.map (Entry.mk t r)) k ≠ [] := by
    intro hn
    have := List.filterMap_eq_nil_iff.mp hn _ (List.mem_map.mpr ⟨_, hl, rfl⟩)
    simp [Entry.sent?] at this
  rw [List.getLast?_append_of_ne_nil _ hne, List.getLast?_eq_some_getLast hne]
  rw [sends_all _ (List.getLast_mem hne)]

theorem sends_length (h : List Entry) (k : Nat) : (sends h k).length = nSends (h.map (·.obs)) k := by
  induction h with
  | nil => rfl
  | cons e h ih =>
    unfold sends nSends at *
    rw [List.filterMap_cons, List.map_cons, List.count_cons, List.count_cons]
    rcases e with ⟨t, r, x⟩
    cases x with
    | interest j b =>
      simp only [Entry.sent?]
      by_cases hj : j = k
      · subst hj
        cases b <;> simp [ih] <;> omega
      · simp [hj, ih]
    | _ => simp [Entry.sent?, ih]

/-- The Interests of one event. -/
def ints (again fresh : List Nat) : List Obs := again.map (Obs.interest · true) ++ fresh.map (Obs.interest · false)

/-- What one event does. -/
structure Facts (A : Alg σ ε) (o : Opts) (interval start : Nat) (s : St σ) (e : Ev ε) (s1 : Adaptive.St σ) (l : List Obs) (m : List Nat)
    (u : Env ε) (q again fresh : List Nat) : Prop where
  now : u.now = e.t
  rto : u.rto = e.rto
  pre : Pre A e.ev s.p s1 l m
  sched : Sched u s1 (s.p.step A o e.ev) q again fresh
  hist : (s.step A o interval start e).hist = s.hist ++ (l ++ ints again fresh).map (Entry.mk e.t e.rto)
  cwnd : (s.step A o interval start e).cwnd = s.cwnd ++ (l ++ ints again fresh).filterMap (cwndRow start e.t (s.p.step A o e.ev).win)
  rtt : (s.step A o interval start e).rtt = s.rtt ++ (l ++ ints again fresh).filterMap (rttRow s.p.info e)
  check : isCheck e.ev = true → s.p.isStopping = false → s.p.threw = none → s.p.ub = false →
    ∀ k x, get s1.info k = some x → x.state ≠ .inRetxQueue → e.t ≤ x.timeSent + x.rto

theorem facts (start : Nat) {s : St σ} (hwf : WF s.p) (e : Ev ε) (he : s.enabled late e) (v : Env ε) :
    ∃ s1 l m u q again fresh, Facts A o interval start s e s1 l m u q again fresh := by
  obtain ⟨s1, l, m, h1, ⟨q, a, ns, h2⟩, h3⟩ := phases A o ⟨e.t, 0, v.win⟩ hwf e.ev he.1
  have hnow : ((env? e.ev).getD ⟨e.t, 0, v.win⟩).now = e.t ∧ ((env? e.ev).getD ⟨e.t, 0, v.win⟩).rto = e.rto := by
    have h := he.2.2.1
    unfold Ev.rto
    cases hev : env? e.ev with
    | none => exact ⟨rfl, rfl⟩
    | some u =>
      rw [hev] at h
      simp at h
      exact ⟨h, rfl⟩
  have hlog : (s.p.step A o e.ev).log = s.p.log ++ (l ++ ints a ns) := by
    rw [h2.log, h1.log, List.append_assoc]; rfl
  have hdrop : (s.p.step A o e.ev).log.drop s.p.log.length = l ++ ints a ns := by rw [hlog, List.drop_left]
  refine ⟨s1, l, m, _, q, a, ns, hnow.1, hnow.2, h1, h2, ?_, ?_, ?_, ?_⟩
  · unfold St.step; dsimp only; rw [hdrop]
  · unfold St.step; dsimp only; rw [hdrop]
  · unfold St.step; dsimp only; rw [hdrop]
  · intro c1 c2 c3 c4 k x hx hs
    have := h3 c1 c2 c3 c4 k x hx hs
    rw [hnow.1] at this
    exact this

theorem mem_ints {a ns : List Nat} {k b} : Obs.interest k b ∈ ints a ns ↔ (b = true ∧ k ∈ a) ∨ (b = false ∧ k ∈ ns) := by
  cases b <;> simp [ints]

/-! ## When the Interests were sent -/

theorem pairwise_all {α : Type} {R : α → α → Prop} (l : List α) (h : ∀ a b, R a b) : l.Pairwise R := by
  induction l with
  | nil => exact .nil
  | cons a l ih => exact .cons (fun b _ => h a b) ih

/-- The histories agree; the entries of the segment map tell when the latest Interest was sent. -/
structure Sent (s : St σ) : Prop where
  log : s.hist.map (·.obs) = s.p.log
  last : ∀ k x, get s.p.info k = some x → lastSent s.hist k = some (x.timeSent, x.rto) ∧ x.timeSent ≤ s.now
  times : ∀ e ∈ s.hist, e.time ≤ s.now
  sorted : s.hist.Pairwise (fun a b => a.time ≤ b.time)

theorem sched_start (A : Alg σ ε) (o : Opts) (w : σ) (v : Env ε) :
    ∃ q a ns, Sched v ({ win := w, timer := true } : Adaptive.St σ) (start A o w v) q a ns :=
  schedulePackets_spec A o v _

theorem map_obs (l : List Obs) (t r : Nat) : (l.map (Entry.mk t r)).map (·.obs) = l := by
  rw [List.map_map]
  exact (List.map_congr_left (fun _ _ => rfl)).trans (List.map_id l)

theorem sent_init : Sent (init A o interval w v) := by
  obtain ⟨q, a, ns, h⟩ := sched_start A o w v
  refine ⟨map_obs _ _ _, ?_, ?_, ?_⟩
  · intro k x hx
    have hl : (start A o w v).log = ints a ns := by rw [h.log]; simp [ints]
    rcases h.info k x hx with ⟨h1, -⟩ | ⟨h1, h2, -, b, h4⟩
    · simp [Adaptive.get] at h1
    · have := lastSent_new (h := []) (t := v.now) (r := v.rto) (hl ▸ h4 : Obs.interest k b ∈ (start A o w v).log)
      rw [h1, h2]
      exact ⟨this, Nat.le_refl _⟩
  · intro e he
    obtain ⟨x, -, rfl⟩ := List.mem_map.mp he
    exact Nat.le_refl _
  · simp only [init]
    rw [List.pairwise_map]
    exact pairwise_all _ (fun _ _ => Nat.le_refl _)

/-- The entries after the event. -/
theorem Facts.entry {start : Nat} {s : St σ} {e : Ev ε} {s1 l m u q again fresh} (f : Facts A o interval start s e s1 l m u q again fresh)
    {k x'} (hx : get (s.p.step A o e.ev).info k = some x') :
    (get s1.info k = some x' ∧ (∀ b, Obs.interest k b ∉ ints again fresh)) ∨
    (x'.timeSent = e.t ∧ x'.rto = e.rto ∧ x'.state ≠ .inRetxQueue ∧ ∃ b, Obs.interest k b ∈ ints again fresh) := by
  rcases f.sched.info k x' hx with h | h
  · exact .inl h
  · rw [f.now, f.rto] at h
    exact .inr h

theorem sent_step (start : Nat) {s : St σ} (hwf : WF s.p) (e : Ev ε) (he : s.enabled late e) (v : Env ε) (h : Sent s) :
    Sent (s.step A o interval start e) := by
  obtain ⟨s1, l, m, u, q, a, ns, f⟩ := facts (A := A) (o := o) (interval := interval) start hwf e he v
  have hn : s.now ≤ e.t := he.2.1
  refine ⟨?_, ?_, ?_, ?_⟩
  · rw [f.hist, List.map_append, h.log, map_obs, ← List.append_assoc, ← f.pre.log]
    exact f.sched.log.symm
  · intro k x hx
    rw [f.hist]
    show _ ∧ x.timeSent ≤ e.t
    rcases f.entry hx with ⟨h1, h2⟩ | ⟨h1, h2, -, b, h4⟩
    · obtain ⟨y, g1, g2, g3, -⟩ := f.pre.info k x h1
      obtain ⟨g4, g5⟩ := h.last k y g1
      rw [lastSent_same, g2, g3]
      · exact ⟨g4, by omega⟩
      · intro b hb
        rcases List.mem_append.mp hb with hb | hb
        · exact f.pre.noInt k b hb
        · exact h2 b hb
    · rw [h1, h2]
      exact ⟨lastSent_new (List.mem_append_right _ h4), Nat.le_refl _⟩
  · intro x hx
    rw [f.hist] at hx
    show x.time ≤ e.t
    rcases List.mem_append.mp hx with hx | hx
    · exact Nat.le_trans (h.times x hx) hn
    · obtain ⟨y, -, rfl⟩ := List.mem_map.mp hx
      exact Nat.le_refl _
  · rw [f.hist, List.pairwise_append]
    refine ⟨h.sorted, ?_, ?_⟩
    · rw [List.pairwise_map]
      exact pairwise_all _ (fun _ _ => Nat.le_refl _)
    · intro x hx y hy
      obtain ⟨z, -, rfl⟩ := List.mem_map.mp hy
      exact Nat.le_trans (h.times x hx) hn

theorem run_sent {es s} (h : (machine late A o interval w v).Run es s) : Sent s := by
  induction h with
  | nil => exact sent_init
  | snoc e h he ih => exact sent_step v.now (run_wf (proj h)) e he v ih

/-! ## When a loss is noticed -/

/-- The RTO check is scheduled, unless the pipeline has stopped. -/
def Ticks (s : Adaptive.St σ) : Prop := s.isStopping = true ∨ s.timer = true

theorem ticks_cancel {s : Adaptive.St σ} (h : Ticks s) : Ticks s.cancel := by
  unfold St.cancel; split
  · exact h
  · exact .inl rfl

theorem ticks_onFailure {s : Adaptive.St σ} (h : Ticks s) (m) : Ticks (s.onFailure m) := by
  unfold St.onFailure; split
  · exact h
  · exact ticks_cancel h

theorem ticks_handleFail {s : Adaptive.St σ} (h : Ticks s) (k m) : Ticks (s.handleFail k m) := by
  unfold St.handleFail
  split
  · exact h
  split
  · exact ticks_onFailure h m
  split
  · dsimp only
    split
    · refine ticks_onFailure ?_ _; exact h
    · exact h
  · exact h

theorem ticks_send {s : Adaptive.St σ} (h : Ticks s) (o : Opts) (v : Env ε) (k b) : Ticks (s.sendInterest o v k b) := by
  unfold St.sendInterest
  split
  · exact h
  split
  · exact h
  split
  · exact h
  split
  · unfold St.sendAgain
    dsimp only
    split
    · refine ticks_handleFail ?_ _ _; exact h
    · exact h
  · exact h

theorem ticks_schedRetx (o : Opts) (v : Env ε) (q : List Nat) (n : Nat) {s : Adaptive.St σ} (h : Ticks s) : Ticks (St.schedRetx o v q n s).1 := by
  induction q generalizing n s with
  | nil => cases n <;> exact h
  | cons k q ih =>
    cases n with
    | zero => exact h
    | succ n =>
      unfold St.schedRetx
      dsimp only
      split
      · exact ih n (ticks_send (s := { s with retxQueue := q }) h o v k true)
      · refine ih (n + 1) ?_; exact h

theorem ticks_schedNew (o : Opts) (v : Env ε) (n : Nat) {s : Adaptive.St σ} (h : Ticks s) : Ticks (St.schedNew o v n s) := by
  induction n generalizing s with
  | zero => exact h
  | succ n ih => exact ih (ticks_send (s := { s with nextSegmentNo := s.nextSegmentNo + 1 }) h o v _ false)

theorem ticks_sched (A : Alg σ ε) (o : Opts) (v : Env ε) {s : Adaptive.St σ} (h : Ticks s) : Ticks (s.schedulePackets A o v) :=
  ticks_schedNew o v _ (ticks_schedRetx o v _ _ (s := { s with assertFailed := _ }) h)

theorem ticks_enqueue {s : Adaptive.St σ} (h : Ticks s) (k) : Ticks (s.enqueueForRetransmission k) := by
  unfold St.enqueueForRetransmission; dsimp only; split <;> exact h

theorem ticks_lossOf (A : Alg σ ε) (o : Opts) (v : Env ε) {s : Adaptive.St σ} (h : Ticks s) (k) : Ticks (s.lossOf A o v k) := by
  unfold St.lossOf
  dsimp only
  have h1 := ticks_enqueue h k
  split
  · exact h1
  · apply ticks_sched
    unfold St.recordTimeout
    split <;> exact h1

theorem ticks_data (A : Alg σ ε) (o : Opts) (v : Env ε) {s : Adaptive.St σ} (h : Ticks s) (k p c) : Ticks (s.handleData A o v k p c) := by
  unfold St.handleData
  split
  · exact h
  dsimp only
  have h1 : Ticks (s.handleFinal p).1 := by
    unfold St.handleFinal
    split
    · exact h
    split
    · exact h
    · exact h
    · dsimp only
      split
      · refine ticks_onFailure ?_ _; exact h
      · exact h
  split
  · generalize (s.handleFinal p).1 = t at h1
    unfold St.handleSeg
    split
    · exact h1
    · dsimp only
      split
      · exact .inl rfl
      · rename_i x _ _
        have h2 : Ticks ((t.adapt A o v k x p).deliver k x p) := by
          have : Ticks (t.adapt A o v k x p) := by
            unfold St.adapt
            dsimp only
            split
            · split <;> exact h1
            · exact h1
          unfold St.deliver
          dsimp only
          split <;> exact this
        unfold St.finish
        dsimp only
        split
        · refine ticks_cancel (s := { ((t.adapt A o v k x p).deliver k x p) with info := _ }) ?_; exact h2
        · refine ticks_sched A o v ?_; exact h2
  · exact h1

theorem ticks_step (A : Alg σ ε) (o : Opts) {s : Adaptive.St σ} (h : Ticks s) (e : Adaptive.Ev ε) : Ticks (s.step A o e) := by
  unfold Adaptive.St.step
  split
  · exact h
  cases e with
  | data k p c v => exact ticks_data A o v (s := s.called k) h k p c
  | nack k r v =>
    dsimp only
    unfold St.handleNack
    split
    · exact h
    split
    · exact h
    · exact ticks_lossOf A o v (s := s.called k) h k
    · exact ticks_handleFail (s := s.called k) h _ _
  | expire k v =>
    dsimp only
    unfold St.handleLifetimeExpiration
    split
    · exact h
    · refine ticks_lossOf A o v ?_ k; exact h
  | check order v =>
    dsimp only
    unfold St.checkRto
    split
    · rename_i h'
      exact .inl h'
    · exact .inr rfl
  | cancel => exact ticks_cancel h
  | posted =>
    dsimp only
    split <;> exact h

theorem run_ticks {es s} (h : (machine late A o interval w v).Run es s) : Ticks s.p := by
  induction h with
  | nil => exact ticks_sched A o v (.inr rfl)
  | snoc e _ _ ih => exact ticks_step A o ih e.ev

/-- After the end nothing changes. -/
theorem step_ended {A : Alg σ ε} {o : Opts} {s : Adaptive.St σ} {e : Adaptive.Ev ε} (h : ¬ (s.threw = none ∧ s.ub = false)) :
    s.step A o e = s := by
  unfold Adaptive.St.step
  rw [if_pos]
  rw [Bool.or_eq_true]
  by_contra hc
  push_neg at hc
  apply h
  constructor
  · cases ht : s.threw with
    | none => rfl
    | some x => rw [ht] at hc; simp at hc
  · simpa using hc.2

theorem called_stop {s : Adaptive.St σ} (k) (h : s.isStopping = true) : (s.called k).isStopping = true := h

theorem step_stopped {A : Alg σ ε} {o : Opts} {s : Adaptive.St σ} {e : Adaptive.Ev ε} (h : s.isStopping = true) :
    (s.step A o e).isStopping = true := by
  unfold Adaptive.St.step
  split
  · exact h
  cases e with
  | data k p c v => dsimp only; unfold St.handleData; rw [if_pos (called_stop k h)]; exact h
  | nack k r v => dsimp only; unfold St.handleNack; rw [if_pos (called_stop k h)]; exact h
  | expire k v => dsimp only; unfold St.handleLifetimeExpiration; rw [if_pos (called_stop k h)]; exact h
  | check order v => dsimp only; unfold St.checkRto; rw [if_pos (by exact h)]; exact h
  | cancel => dsimp only; unfold St.cancel; rw [if_pos h]; exact h
  | posted => dsimp only; split <;> exact h

/-- The pipeline is running. -/
def Alive (s : Adaptive.St σ) : Prop := s.isStopping = false ∧ s.threw = none ∧ s.ub = false

theorem alive_before {A : Alg σ ε} {o : Opts} {s : Adaptive.St σ} {e : Adaptive.Ev ε} (h : Alive (s.step A o e)) : Alive s := by
  have h2 : s.threw = none ∧ s.ub = false := by
    by_contra hc
    rw [step_ended hc] at h
    exact hc h.2
  refine ⟨?_, h2⟩
  cases hs : s.isStopping with
  | false => rfl
  | true =>
    have := step_stopped (A := A) (o := o) (e := e) hs
    rw [h.1] at this
    cases this

/-- The timer of `checkRto`. -/
structure Timer (interval : Nat) (late : Option Nat) (s : St σ) : Prop where
  due : s.due ≤ s.now + interval
  flight : Alive s.p → ∀ k x, get s.p.info k = some x → x.state ≠ .inRetxQueue → s.due ≤ x.timeSent + x.rto + interval
  late : Alive s.p → ∀ d ∈ late, s.now ≤ s.due + d

theorem run_timer {es s} (h : (machine late A o interval w v).Run es s) : Timer interval late s := by
  induction h with
  | nil =>
    refine ⟨Nat.le_refl _, ?_, fun _ d _ => ?_⟩
    · intro _ k x hx _
      obtain ⟨q, a, ns, h⟩ := sched_start A o w v
      rcases h.info k x hx with ⟨h1, -⟩ | ⟨h1, -⟩
      · simp [Adaptive.get] at h1
      · rw [h1]
        show v.now + interval ≤ v.now + x.rto + interval
        omega
    · show v.now ≤ v.now + interval + d
      omega
  | @snoc es s e h he ih =>
    have hn : s.now ≤ e.t := he.2.1
    obtain ⟨s1, l, m, u, q, a, ns, f⟩ := facts (A := A) (o := o) (interval := interval) v.now (run_wf (proj h)) e he v
    have hdue := ih.due
    refine ⟨?_, ?_, ?_⟩
    · show (if isCheck e.ev then e.t + interval else s.due) ≤ e.t + interval
      split <;> omega
    · intro hal k x hx hst
      have hal0 := alive_before hal
      show (if isCheck e.ev then e.t + interval else s.due) ≤ x.timeSent + x.rto + interval
      rcases f.entry hx with ⟨h1, h2⟩ | ⟨h1, h2, -, b, h4⟩
      · split
        · rename_i hc
          have := f.check hc hal0.1 hal0.2.1 hal0.2.2 k x h1 hst
          omega
        · obtain ⟨y, g1, g2, g3, g4⟩ := f.pre.info k x h1
          split at g4
          · exact absurd g4 hst
          · rw [g4] at hst
            rw [g2, g3]
            exact ih.flight hal0 k y g1 hst
      · rw [h1]
        split <;> omega
    · intro hal d hd
      have hal0 := alive_before hal
      show e.t ≤ (if isCheck e.ev then e.t + interval else s.due) + d
      have ht : s.p.timer = true := (run_ticks h).resolve_left (by rw [hal0.1]; simp)
      have := he.2.2.2.2 d hd ht
      split <;> omega

end Verif.AdaptiveTime
