import Verif.Proofs.AdaptiveTimed

/-! # Why Interests are sent again, and the rows of the statistics files -/

namespace Verif.AdaptiveTime

open Adaptive

variable {σ ε : Type} {late : Option Nat} {A : Alg σ ε} {o : Opts} {interval : Nat} {w : σ} {v : Env ε}

/-! ## The retransmission queue when a loss is told once -/

/-- Tracked segments in the queue are there once, and are marked. -/
structure Once (s : Adaptive.St σ) : Prop where
  mark : ∀ k x, get s.info k = some x → k ∈ s.retxQueue → x.state = .inRetxQueue
  count : ∀ k x, get s.info k = some x → s.retxQueue.count k ≤ 1

theorem once_init (A : Alg σ ε) (o : Opts) (w : σ) (v : Env ε) : Once (start A o w v) := by
  obtain ⟨q, a, ns, h⟩ := sched_start A o w v
  have hq : (start A o w v).retxQueue = [] := by
    have := h.queue
    simp at this
    exact this.2
  constructor <;> simp [hq]

/-- The segments that the event puts into the queue were not waiting. -/
theorem loss_not_waiting {s : Adaptive.St σ} {e : Adaptive.Ev ε} (hn : NotWaiting s e) {k x} (h : LossFor s k e)
    (hx : get s.info k = some x) : x.state ≠ .inRetxQueue := by
  cases e with
  | nack j r v =>
    obtain ⟨rfl, hr⟩ := h
    exact hn hr x hx
  | expire j v =>
    have : j = k := h
    subst this
    exact hn x hx
  | check l v =>
    obtain ⟨y, hy, h1, -⟩ := h
    rw [hx] at hy
    cases hy
    exact h1
  | _ => exact h.elim

theorem Facts.once {start : Nat} {s : St σ} {e : Ev ε} {s1 l m u q again fresh} (f : Facts A o interval start s e s1 l m u q again fresh)
    (hn : NotWaiting s.p e.ev) (h : Once s.p) : Once s1 := by
  have hm : ∀ k ∈ m, ∀ x, get s.p.info k = some x → k ∉ s.p.retxQueue := fun k hk x hx hq =>
    loss_not_waiting hn (f.pre.loss k hk) hx (h.mark k x hx hq)
  constructor
  · intro k x1 hx hk
    obtain ⟨x, g1, -, -, g4⟩ := f.pre.info k x1 hx
    split at g4
    · exact g4
    · rename_i hkm
      rw [f.pre.queue] at hk
      rw [g4]
      exact h.mark k x g1 ((List.mem_append.mp hk).resolve_right hkm)
  · intro k x1 hx
    obtain ⟨x, g1, -, -, -⟩ := f.pre.info k x1 hx
    rw [f.pre.queue, List.count_append]
    by_cases hkm : k ∈ m
    · rw [List.count_eq_zero.mpr (hm k hkm x g1), List.count_eq_one_of_mem f.pre.nodup hkm]
      exact Nat.le_refl 1
    · rw [List.count_eq_zero.mpr hkm]
      exact h.count k x g1

/-- Segments with numbers that are still to come do not wait. -/
theorem Facts.fresh_queue {start : Nat} {s : St σ} {e : Ev ε} {s1 l m u q again fresh}
    (f : Facts A o interval start s e s1 l m u q again fresh) (hb : ∀ k ∈ s.p.retxQueue, k < s.p.nextSegmentNo)
    (hm : ∀ k ∈ m, k < s.p.nextSegmentNo) {k} (hk : k ∈ fresh) : k ∉ s1.retxQueue := by
  intro hq
  have h1 := f.sched.fresh k hk
  rw [f.pre.next] at h1
  rw [f.pre.queue] at hq
  rcases List.mem_append.mp hq with hq | hq
  · have := hb k hq; omega
  · have := hm k hq; omega

theorem loss_lt {s : Adaptive.St σ} (hwf : WF s) {e : Adaptive.Ev ε} (he : s.enabled e) {k} (h : LossFor s k e) : k < s.nextSegmentNo := by
  cases e with
  | nack j r v =>
    obtain ⟨rfl, -⟩ := h
    exact hwf.next _ _ (hwf.out _ he)
  | expire j v =>
    have : j = k := h
    subst this
    exact hwf.next _ _ (hwf.out _ he)
  | check l v =>
    obtain ⟨y, hy, -⟩ := h
    exact hwf.next _ _ (hwf.has k (by rw [hy]; rfl))
  | _ => exact h.elim

theorem told_later {M : Machine (St σ) (Ev ε)} {es a k} (h : LossTold M es a k) (e : Ev ε) : LossTold M (es ++ [e]) a k := by
  obtain ⟨es1, e', es2, s1, t0, r0, h1, h⟩ := h
  exact ⟨es1, e', es2 ++ [e], s1, t0, r0, by rw [h1]; simp, h⟩

theorem told_more {M : Machine (St σ) (Ev ε)} {es a k} (h : LossTold M es a k) {b} (hb : sends b k = []) : LossTold M es (a ++ b) k := by
  obtain ⟨es1, e', es2, s1, t0, r0, h1, h2, h3, h4, h5, h6⟩ := h
  refine ⟨es1, e', es2, s1, t0, r0, h1, h2, h3.trans (List.prefix_append a b), ?_, ?_, h6⟩
  · rw [sends_append, hb, List.append_nil, h4]
  · unfold lastSent at *
    rw [sends_append, hb, List.append_nil, h5]

theorem indicates_of_loss {s : St σ} {e : Ev ε} (he : s.enabled late e) {k x} (h : LossFor s.p k e.ev) (hx : get s.p.info k = some x) :
    Indicates k x.timeSent x.rto e := by
  have hnow := he.2.2.1
  unfold Indicates
  revert h hnow
  cases e.ev with
  | nack j r v =>
    rintro ⟨rfl, rfl⟩ -
    exact .inr (.inl ⟨v, rfl⟩)
  | expire j v =>
    intro h _
    have : j = k := h
    subst this
    exact .inl ⟨v, rfl⟩
  | check l v =>
    rintro ⟨y, hy, -, h1⟩ h2
    rw [hx] at hy
    cases hy
    simp [env?] at h2
    exact .inr (.inr ⟨rfl, by omega⟩)
  | _ => exact fun h => h.elim

/-- Why Interests were sent again. -/
structure Why (M : Machine (St σ) (Ev ε)) (es : List (Ev ε)) (s : St σ) : Prop where
  once : Once s.p
  told : ∀ k x, get s.p.info k = some x → x.state = .inRetxQueue → LossTold M es s.hist k
  past : ∀ a t r k b, s.hist = a ++ ⟨t, r, .interest k true⟩ :: b → LossTold M es a k

theorem count_again (again : List Nat) (k : Nat) : (again.map (Obs.interest · true)).count (.interest k true) = again.count k := by
  induction again with
  | nil => rfl
  | cons j l ih =>
    rw [List.map_cons, List.count_cons, List.count_cons, ih]
    simp

theorem ints_count (again fresh : List Nat) (k : Nat) : (ints again fresh).count (.interest k true) = again.count k := by
  unfold ints
  have h : (fresh.map (Obs.interest · false)).count (.interest k true) = 0 := List.count_eq_zero.mpr (by simp)
  rw [List.count_append, count_again, h, Nat.add_zero]

theorem run_why {es s} (h : (onceMachine late A o interval w v).Run es s) : Why (onceMachine late A o interval w v) es s := by
  induction h with
  | nil =>
    obtain ⟨q, a, ns, h⟩ := sched_start A o w v
    have hq : a = [] := by
      have := h.queue
      simp at this
      have h2 := h.sub
      rw [this.1] at h2
      exact List.sublist_nil.mp h2
    refine ⟨once_init A o w v, ?_, ?_⟩
    · intro k x hx hst
      rcases h.info k x hx with ⟨h1, -⟩ | ⟨-, -, h3, -⟩
      · simp [Adaptive.get] at h1
      · exact absurd hst h3
    · intro c t r k b hh
      have hmem : Entry.mk t r (.interest k true) ∈ (init A o interval w v).hist := by
        show _ ∈ (onceMachine late A o interval w v).init.hist
        rw [hh]; simp
      obtain ⟨x, hx, he⟩ := List.mem_map.mp hmem
      cases he
      rw [show (start A o w v).log = _ from h.log, hq] at hx
      simp at hx
  | @snoc es s e h he ih =>
    have hr := once_run h
    have hwf := run_wf (proj hr)
    obtain ⟨s1, l, m, u, q, a, ns, f⟩ := facts (A := A) (o := o) (interval := interval) v.now hwf e he.1 v
    have ho := f.once he.2 ih.once
    have hs := run_sent hr
    have hfl := run_flow (al := Allow.all) (fun h => False.elim h) (run_all (proj hr))
    -- a waiting segment
    have key : ∀ k x1, get s1.info k = some x1 → x1.state = .inRetxQueue → ∀ c : List Obs, (∀ b, Obs.interest k b ∉ c) →
        LossTold (onceMachine late A o interval w v) (es ++ [e]) (s.hist ++ c.map (Entry.mk e.t e.rto)) k := by
      intro k x1 hx hst c hc
      obtain ⟨x, g1, -, -, g4⟩ := f.pre.info k x1 hx
      split at g4
      · rename_i hkm
        refine ⟨es, e, [], s, x.timeSent, x.rto, rfl, h, List.prefix_append _ _, ?_, ?_, ?_⟩
        · rw [sends_append, sends_none hc, List.append_nil]
        · rw [lastSent_same hc]
          exact (hs.last k x g1).1
        · exact indicates_of_loss he.1 (f.pre.loss k hkm) g1
      · rw [hst] at g4
        exact told_more (told_later (ih.told k x g1 g4.symm) e) (sends_none hc)
    -- what is sent again
    have hagain : ∀ k ∈ a, ∃ x1, get s1.info k = some x1 ∧ x1.state = .inRetxQueue ∧ a.count k ≤ 1 ∧ k ∉ ns := by
      intro k hk
      obtain ⟨x1, hx⟩ := Option.isSome_iff_exists.mp (f.sched.tracked k hk)
      have hq : k ∈ s1.retxQueue := by
        rw [f.sched.queue]
        exact List.mem_append_left _ (f.sched.sub.subset hk)
      refine ⟨x1, hx, ho.mark k x1 hx hq, ?_, ?_⟩
      · have h1 := f.sched.sub.count_le k
        have h2 := ho.count k x1 hx
        rw [f.sched.queue, List.count_append] at h2
        omega
      · intro hn
        refine f.fresh_queue ?_ (fun j hj => loss_lt hwf he.1.1 (f.pre.loss j hj)) hn hq
        obtain ⟨x, g1, -⟩ := f.pre.info k x1 hx
        apply hfl.below
        cases hst : s.p.isStopping with
        | false => rfl
        | true =>
          rw [hwf.stop hst] at g1
          simp [Adaptive.get] at g1
    have hq' : ∀ k ∈ a, ∀ x', get (s.p.step A o e.ev).info k = some x' → k ∉ (s.p.step A o e.ev).retxQueue := by
      intro k hk x' _ hq
      obtain ⟨x1, hx, -⟩ := hagain k hk
      have h2 := ho.count k x1 hx
      rw [f.sched.queue, List.count_append] at h2
      have h3 := List.count_pos_iff.mpr hq
      have h4 := List.count_pos_iff.mpr (f.sched.sub.subset hk)
      omega
    have hwf' : WF (s.p.step A o e.ev) := run_wf (proj (once_run (Machine.Run.snoc e h he)))
    have hfr : ∀ k ∈ ns, ∀ x', get (s.p.step A o e.ev).info k = some x' → k ∉ s1.retxQueue := by
      intro k hk x' hx
      refine f.fresh_queue ?_ (fun j hj => loss_lt hwf he.1.1 (f.pre.loss j hj)) hk
      apply hfl.below
      cases hst : s.p.isStopping with
      | false => rfl
      | true =>
        rw [hwf'.stop (step_stopped hst)] at hx
        simp [Adaptive.get] at hx
    refine ⟨⟨?_, ?_⟩, ?_, ?_⟩
    · intro k x' hx hk
      rcases f.entry hx with ⟨h1, -⟩ | ⟨-, -, h3, b, h4⟩
      · exact ho.mark k x' h1 (by rw [f.sched.queue]; exact List.mem_append_right _ hk)
      · rcases mem_ints.mp h4 with ⟨-, h4⟩ | ⟨-, h4⟩
        · exact absurd hk (hq' k h4 x' hx)
        · exact absurd (by rw [f.sched.queue]; exact List.mem_append_right _ hk) (hfr k h4 x' hx)
    · intro k x' hx
      show (s.p.step A o e.ev).retxQueue.count k ≤ 1
      rcases f.entry hx with ⟨h1, -⟩ | ⟨-, -, h3, b, h4⟩
      · have := ho.count k x' h1
        rw [f.sched.queue, List.count_append] at this
        omega
      · rcases mem_ints.mp h4 with ⟨-, h4⟩ | ⟨-, h4⟩
        · rw [List.count_eq_zero.mpr (hq' k h4 x' hx)]
          omega
        · have h5 := hfr k h4 x' hx
          rw [f.sched.queue, List.mem_append] at h5
          rw [List.count_eq_zero.mpr (fun h => h5 (.inr h))]
          omega
    · intro k x' hx hst
      rcases f.entry hx with ⟨h1, h2⟩ | ⟨-, -, h3, -⟩
      · show LossTold _ _ (s.step A o interval v.now e).hist k
        rw [f.hist]
        apply key k x' h1 hst
        intro b hb
        rcases List.mem_append.mp hb with hb | hb
        · exact f.pre.noInt k b hb
        · exact h2 b hb
      · exact absurd hst h3
    · intro c t r k b hh
      change (s.step A o interval v.now e).hist = _ at hh
      rw [f.hist] at hh
      rcases List.append_eq_append_iff.mp hh with ⟨d, h1, h2⟩ | ⟨d, h1, h2⟩
      · obtain ⟨c0, r0, g1, g2, g3⟩ := List.map_eq_append_iff.mp h2
        obtain ⟨x, b0, g4, g5, g6⟩ := List.map_eq_cons_iff.mp g3
        cases g5
        rw [g4] at g1
        have hmem : Obs.interest k true ∈ l ++ ints a ns := by rw [g1]; simp
        have hka : k ∈ a := by
          rcases List.mem_append.mp hmem with hm | hm
          · exact absurd hm (f.pre.noInt k true)
          · rcases mem_ints.mp hm with ⟨-, hm⟩ | ⟨hm, -⟩
            · exact hm
            · cases hm
        obtain ⟨x1, hx1, hst, hcnt, hns⟩ := hagain k hka
        rw [h1, ← g2]
        apply key k x1 hx1 hst
        intro bb hbb
        have hmm : Obs.interest k bb ∈ l ++ ints a ns := by rw [g1]; exact List.mem_append_left _ hbb
        cases bb with
        | false =>
          rcases List.mem_append.mp hmm with hm | hm
          · exact absurd hm (f.pre.noInt k false)
          · rcases mem_ints.mp hm with ⟨hm, -⟩ | ⟨-, hm⟩
            · cases hm
            · exact hns hm
        | true =>
          have h3 : (l ++ ints a ns).count (.interest k true) ≤ 1 := by
            rw [List.count_append, ints_count, List.count_eq_zero.mpr (f.pre.noInt k true)]
            omega
          rw [g1, List.count_append, List.count_cons] at h3
          have h4 := List.count_pos_iff.mpr hbb
          simp at h3
          omega
      · cases d with
        | nil =>
          simp only [List.append_nil, List.nil_append] at h1 h2
          have hnil := h2.symm
          obtain ⟨x, b0, g4, g5, g6⟩ := List.map_eq_cons_iff.mp hnil
          cases g5
          have hmem : Obs.interest k true ∈ l ++ ints a ns := by rw [g4]; simp
          have hka : k ∈ a := by
            rcases List.mem_append.mp hmem with hm | hm
            · exact absurd hm (f.pre.noInt k true)
            · rcases mem_ints.mp hm with ⟨-, hm⟩ | ⟨hm, -⟩
              · exact hm
              · cases hm
          obtain ⟨x1, hx1, hst, -⟩ := hagain k hka
          have := key k x1 hx1 hst [] (by simp)
          rw [← h1]
          simpa using this
        | cons y d =>
          rw [List.cons_append] at h2
          injection h2 with h3 h4
          subst h3
          exact told_later (ih.past c t r k d h1) e

/-! ## The rows of the files -/

theorem filter_none {l : List Obs} {t r : Nat} (h : ∀ c ∈ l, chg c = false) : (l.map (Entry.mk t r)).filter Entry.isChange = [] := by
  rw [List.filter_eq_nil_iff]
  intro e he
  obtain ⟨x, hx, rfl⟩ := List.mem_map.mp he
  have := h x hx
  cases x <;> simp_all [chg, Entry.isChange]

theorem rows_none {l : List Obs} {start t : Nat} {w : σ} (h : ∀ c ∈ l, chg c = false) : l.filterMap (cwndRow start t w) = [] := by
  rw [List.filterMap_eq_nil_iff]
  intro x hx
  have := h x hx
  cases x <;> simp_all [chg, cwndRow]

theorem ints_chg (again fresh : List Nat) : ∀ c ∈ ints again fresh, chg c = false := by
  intro c hc
  unfold ints at hc
  rcases List.mem_append.mp hc with hc | hc <;> obtain ⟨x, -, rfl⟩ := List.mem_map.mp hc <;> rfl

private theorem noDup {α : Type} {l : List α} {x : α} (h : ∀ pre post, l = pre ++ x :: post → x ∉ pre) [DecidableEq α] : l.count x ≤ 1 := by
  by_contra hc
  obtain ⟨pre, post, e⟩ := List.append_of_mem (List.count_pos_iff.mp (by omega : 0 < l.count x))
  have h1 := h pre post e
  rw [e, List.count_append, List.count_cons_self, List.count_eq_zero.mpr h1] at hc
  obtain ⟨a, b, e2⟩ := List.append_of_mem (List.count_pos_iff.mp (by omega : 0 < post.count x))
  exact h (pre ++ x :: a) b (by rw [e, e2]; simp) (by simp)

theorem run_now {es s} (h : (machine late A o interval w v).Run es s) : v.now ≤ s.now := by
  induction h with
  | nil => exact Nat.le_refl _
  | snoc e _ he ih => exact Nat.le_trans ih he.2.1

theorem run_rows {es s} (h : (machine late A o interval w v).Run es s) :
    Rows A v.now w (s.hist.filter Entry.isChange) s.cwnd s.p.win := by
  induction h with
  | nil =>
    obtain ⟨q, a, ns, h⟩ := sched_start A o w v
    have h1 : (init A o interval w v).hist.filter Entry.isChange = [] := by
      apply filter_none
      rw [show (start A o w v).log = _ from h.log]
      exact ints_chg a ns
    show Rows A v.now w ((init A o interval w v).hist.filter Entry.isChange) [] (start A o w v).win
    rw [h1, h.win]
    exact .nil
  | @snoc es s e h he ih =>
    obtain ⟨s1, l, m, u, q, a, ns, f⟩ := facts (A := A) (o := o) (interval := interval) v.now (run_wf (proj h)) e he v
    show Rows A v.now w ((s.step A o interval v.now e).hist.filter Entry.isChange) (s.step A o interval v.now e).cwnd (s.p.step A o e.ev).win
    rw [f.hist, f.cwnd, List.filter_append, List.map_append, List.filter_append, filter_none (ints_chg a ns), List.filterMap_append,
      rows_none (ints_chg a ns), List.append_nil, List.append_nil, f.sched.win]
    rcases f.pre.win with ⟨h1, h2⟩ | ⟨b, c, d, h1, h2, h3, h4⟩
    · rw [filter_none h1, rows_none h1, h2, List.append_nil, List.append_nil]
      exact ih
    · have hc : chg c = true := by
        rcases h2 with ⟨rfl, -⟩ | ⟨k, m, rfl, -⟩ <;> rfl
      have e1 : Entry.isChange ⟨e.t, e.rto, c⟩ = true := by revert hc; cases c <;> simp [chg, Entry.isChange]
      have e2 : cwndRow v.now e.t s1.win c = some (e.t - v.now, s1.win) := by revert hc; cases c <;> simp [chg, cwndRow]
      rw [h1, List.map_append, List.map_cons, List.filter_append, List.filter_cons, if_pos e1, filter_none h3, filter_none h4,
        List.filterMap_append, List.filterMap_cons_some e2, rows_none h3, rows_none h4]
      exact .snoc (⟨e.t, e.rto, c⟩ : Entry) s1.win ih h2 (Nat.le_trans (run_now h) he.2.1)

/-- The entry is a measurement. -/
theorem run_rtt {es s} (h : (machine late A o interval w v).Run es s) :
    List.Forall₂ (RowFor s.hist) (s.hist.filter (·.sample?.isSome)) s.rtt := by
  induction h with
  | nil =>
    obtain ⟨q, a, ns, h⟩ := sched_start A o w v
    have h1 : (init A o interval w v).hist.filter (·.sample?.isSome) = [] := by
      rw [List.filter_eq_nil_iff]
      intro e he
      obtain ⟨x, hx, rfl⟩ := List.mem_map.mp he
      rw [show (start A o w v).log = _ from h.log] at hx
      simp only [List.nil_append] at hx
      rcases List.mem_append.mp hx with hx | hx <;> obtain ⟨y, -, rfl⟩ := List.mem_map.mp hx <;> simp [Entry.sample?]
    show List.Forall₂ _ ((init A o interval w v).hist.filter (·.sample?.isSome)) []
    rw [h1]
    exact .nil
  | @snoc es s e h he ih =>
    have h' := Machine.Run.snoc (M := machine late A o interval w v) e h he
    obtain ⟨s1, l, m, u, q, a, ns, f⟩ := facts (A := A) (o := o) (interval := interval) v.now (run_wf (proj h)) e he v
    have hs := run_sent h
    have hs' : Sent (s.step A o interval v.now e) := run_sent h'
    have hk : Karn (s.p.step A o e.ev) := run_karn (al := Allow.all) (fun h => False.elim h) (run_all (proj h'))
    have hcore : Core (s.p.step A o e.ev) := run_core (al := Allow.all) (fun h => False.elim h) (run_all (proj h'))
    -- a measured segment was requested once
    have hone : ∀ k, Obs.sample k ∈ (s.p.step A o e.ev).log → (sends (s.step A o interval v.now e).hist k).length ≤ 1 := by
      intro k hsm
      rw [sends_length, hs'.log]
      show nSends (s.p.step A o e.ev).log k ≤ 1
      unfold nSends
      rw [List.count_eq_zero.mpr (hk.pure k hsm), Nat.add_zero]
      exact noDup (fun pre post e => (hcore.order pre k post e).2)
    have hlog : (s.p.step A o e.ev).log = s.p.log ++ (l ++ ints a ns) := by
      rw [f.sched.log, f.pre.log, List.append_assoc]; rfl
    -- rows stay as they are
    have hold : ∀ y row, RowFor s.hist y row → y ∈ s.hist → RowFor (s.step A o interval v.now e).hist y row := by
      rintro y row ⟨k, t0, r0, h1, h2, h3, h4, h5, h6, p, h7⟩ hy
      refine ⟨k, t0, r0, h1, h2, ?_, h4, h5, h6, p, by rw [f.hist]; exact List.mem_append_left _ h7⟩
      have hm : Obs.sample k ∈ (s.p.step A o e.ev).log := by
        rw [hlog, ← hs.log]
        exact List.mem_append_left _ (List.mem_map.mpr ⟨y, hy, h1⟩)
      have := hone k hm
      rw [f.hist, sends_append, h3] at this ⊢
      simp at this
      simpa using this
    show List.Forall₂ (RowFor (s.step A o interval v.now e).hist) ((s.step A o interval v.now e).hist.filter (·.sample?.isSome))
      (s.step A o interval v.now e).rtt
    have hih : List.Forall₂ (RowFor (s.step A o interval v.now e).hist) (s.hist.filter (·.sample?.isSome)) s.rtt := by
      have : ∀ (l1 : List Entry) (l2 : List RttRow), (∀ y ∈ l1, y ∈ s.hist) → List.Forall₂ (RowFor s.hist) l1 l2 →
          List.Forall₂ (RowFor (s.step A o interval v.now e).hist) l1 l2 := by
        intro l1 l2 hm hf
        induction hf with
        | nil => exact .nil
        | cons hr _ ih => exact .cons (hold _ _ hr (hm _ (by simp))) (ih (fun y hy => hm y (List.mem_cons_of_mem _ hy)))
      exact this _ _ (fun y hy => List.mem_of_mem_filter hy) ih
    have hnew : ∀ x ∈ l ++ ints a ns, ∀ k, x = Obs.sample k → ∀ row, rttRow s.p.info e x = some row →
        RowFor (s.step A o interval v.now e).hist ⟨e.t, e.rto, x⟩ row := by
      rintro x hx k rfl row hrow
      have hl : Obs.sample k ∈ l := by
        rcases List.mem_append.mp hx with hx | hx
        · exact hx
        · unfold ints at hx
          rcases List.mem_append.mp hx with hx | hx <;> obtain ⟨y, -, hy⟩ := List.mem_map.mp hx <;> cases hy
      obtain ⟨⟨y, hy⟩, p, hp⟩ := f.pre.sample k hl
      obtain ⟨g1, g2⟩ := hs.last k y hy
      have h1 := hone k (by rw [hlog]; exact List.mem_append_right _ hx)
      rw [f.hist, sends_append] at h1
      have hne : sends s.hist k ≠ [] := by
        intro hn
        unfold lastSent at g1
        rw [hn] at g1
        cases g1
      have hsends : sends s.hist k = [(y.timeSent, y.rto)] := by
        unfold lastSent at g1
        have : (sends s.hist k).length ≤ 1 := by rw [List.length_append] at h1; omega
        match hh : sends s.hist k with
        | [] => exact absurd hh hne
        | [z] => rw [hh] at g1; simp at g1; rw [g1]
        | _ :: _ :: _ => rw [hh] at this; simp at this
      have hrow' : row = { seg := k, rtt := e.t - y.timeSent, rttVar := e.rttVar, sRtt := e.sRtt, rto := e.rto } := by
        simp only [rttRow] at hrow
        rw [hy] at hrow
        exact (Option.some.inj hrow).symm
      subst hrow'
      refine ⟨k, y.timeSent, y.rto, rfl, rfl, ?_, Nat.le_trans g2 he.2.1, rfl, rfl, p,
        by rw [f.hist]; exact List.mem_append_right _ (List.mem_map.mpr ⟨_, List.mem_append_left _ hp, rfl⟩)⟩
      rw [f.hist, sends_append]
      rw [hsends] at h1 ⊢
      simp at h1
      simpa using h1
    rw [f.hist, f.rtt, List.filter_append] at *
    refine List.rel_append hih ?_
    generalize s.hist ++ (l ++ ints a ns).map (Entry.mk e.t e.rto) = hh at hnew
    generalize l ++ ints a ns = z at hnew
    induction z with
    | nil => exact .nil
    | cons x z ihz =>
      have hz := ihz (fun x hx => hnew x (List.mem_cons_of_mem _ hx))
      cases x with
      | sample k => exact .cons (hnew _ (by simp) k rfl _ rfl) hz
      | _ => exact hz

end Verif.AdaptiveTime
