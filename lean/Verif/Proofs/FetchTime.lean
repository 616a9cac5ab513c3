import Verif.Spec.FetchTime
import Verif.Proofs.DataFetcher
import Verif.Proofs.FixedNet
import Mathlib.Tactic.Ring

/-! # How long a fetch takes -/

namespace Verif.FetchTime

open DataFetcher
open PingTime (ns)

/-- What `a` Nacks and `b` timeouts can cost. -/
def cost (life d a b : Nat) : Nat := (a + b) * (life + d) + a * (ns 1 + d)

/-- The waiting of the fetcher `f`, which began at `base`, is accounted for. -/
structure Acct (life d : Nat) (f : Fetcher) (sent set base : Nat) : Prop where
  wait : f.pending = 1 → sent ≤ base + cost life d f.nNacks.toNat f.nTimeouts.toNat
  pause : f.timer.isSome = true → set + (ns 1 + d) ≤ base + cost life d f.nNacks.toNat f.nTimeouts.toNat

theorem cost_le {life d a b n t : Nat} (ha : a ≤ n) (hb : b ≤ t) : cost life d a b + (life + d) ≤ limit life d n t := by
  unfold cost limit
  have h1 : (a + b) * (life + d) ≤ (n + t) * (life + d) := Nat.mul_le_mul_right _ (by omega)
  have h2 : a * (ns 1 + d) ≤ n * (ns 1 + d) := Nat.mul_le_mul_right _ ha
  have h3 : (1 + n + t) * (life + d) = (n + t) * (life + d) + (life + d) := by ring
  omega

theorem cost_nack (life d a b : Nat) : cost life d (a + 1) b = cost life d a b + (life + d) + (ns 1 + d) := by
  unfold cost; ring

theorem cost_timeout (life d a b : Nat) : cost life d a (b + 1) = cost life d a b + (life + d) := by
  unfold cost; ring

variable {life d n t : Nat} {f : Fetcher}

theorem running_counts (h : Inv n t f) (hr : f.isRunning = true) : f.nNacks.toNat ≤ n ∧ f.nTimeouts.toNat ≤ t := by
  have h1 := h.nnl hr
  have h2 := h.ntl hr
  omega

/-- The latest time for the next event, with what is already spent. -/
theorem acct_due' (h : Inv n t f) (hr : f.isRunning = true) {sent set base : Nat} (ha : Acct life d f sent set base) :
    (f.pending = 1 → dueAt life f sent set + d ≤ base + cost life d f.nNacks.toNat f.nTimeouts.toNat + (life + d)) ∧
    (f.pending = 0 → dueAt life f sent set + d ≤ base + cost life d f.nNacks.toNat f.nTimeouts.toNat) := by
  rcases h.one hr with ⟨h1, h2⟩ | ⟨h1, h2⟩
  · have := ha.wait h1
    unfold dueAt
    rw [h2]
    constructor
    · intro _; dsimp only; omega
    · omega
  · obtain ⟨b, hb⟩ := Option.isSome_iff_exists.mp h2
    have := ha.pause h2
    have hb1 := h.delay b hb
    subst hb1
    unfold dueAt
    rw [hb]
    constructor
    · omega
    · intro _; dsimp only; omega

theorem acct_due (h : Inv n t f) (hr : f.isRunning = true) {sent set base : Nat} (ha : Acct life d f sent set base) :
    dueAt life f sent set + d ≤ base + limit life d n t := by
  obtain ⟨h1, h2⟩ := acct_due' h hr ha
  obtain ⟨h3, h4⟩ := running_counts h hr
  have h5 := cost_le (life := life) (d := d) h3 h4
  rcases h.one hr with ⟨h6, _⟩ | ⟨h6, _⟩
  · have := h1 h6; omega
  · have := h2 h6; omega

theorem acct_step (h : Inv n t f) (hr : f.isRunning = true) {e : DataFetcher.Ev} (he : f.enabled e) {sent set base now : Nat}
    (ha : Acct life d f sent set base) (hnow : now ≤ dueAt life f sent set + d) (hr' : (f.step e).1.isRunning = true) :
    Acct life d (f.step e).1 (if (f.step e).2.contains .interest then now else sent)
      (if f.timer.isNone && (f.step e).1.timer.isSome then now else set) base := by
  obtain ⟨hi, hE⟩ := step_running h hr he
  obtain ⟨d1, d2⟩ := acct_due' h hr ha
  have hone := hi.one hr'
  have h0 := h.nn0
  have h1 := h.nt0
  generalize (f.step e).1 = f' at *
  generalize (f.step e).2 = outs at *
  cases hE with
  | data x _ _ _ _ => simp [*] at hr'
  | cancel x _ _ => simp [*] at hr'
  | failTimeout x _ _ _ _ _ _ _ => simp [*] at hr'
  | fatal r x _ _ _ _ _ _ => simp [*] at hr'
  | failNack r x _ _ _ _ _ _ => simp [*] at hr'
  | timer x hrun a b c g =>
    have := d2 a
    have ht : f'.timer = none := by
      rcases hone with h | h
      · exact h.2
      · omega
    refine ⟨fun _ => ?_, fun hs => by simp [ht] at hs⟩
    rw [c, g]
    simp
    omega
  | retryTimeout x hrun a b c g =>
    have := d1 a
    obtain ⟨g1, g2⟩ := g (by omega)
    have ht : f'.timer = none := by
      rcases hone with h | h
      · exact h.2
      · omega
    refine ⟨fun _ => ?_, fun hs => by simp [ht] at hs⟩
    have : f'.nTimeouts.toNat = f.nTimeouts.toNat + 1 := by omega
    rw [c, this, cost_timeout]
    simp
    omega
  | duplicate x hrun a b c g =>
    have := d1 a
    obtain ⟨g1, g2⟩ := g (by omega)
    have ht : f'.timer = none := by
      rcases hone with h | h
      · exact h.2
      · omega
    refine ⟨fun _ => ?_, fun hs => by simp [ht] at hs⟩
    have : f'.nNacks.toNat = f.nNacks.toNat + 1 := by omega
    rw [c, this, cost_nack]
    simp
    omega
  | congestion x hrun a b c g =>
    have := d1 a
    obtain ⟨g1, g2⟩ := g (by omega)
    have ht : f.timer = none := by
      rcases h.one hr with h | h
      · exact h.2
      · omega
    refine ⟨fun h => by omega, fun hs => ?_⟩
    have : f'.nNacks.toNat = f.nNacks.toNat + 1 := by omega
    rw [c, this, cost_nack]
    simp [ht, hs]
    omega

theorem acct_fetch (t0 set : Nat) : Acct life d (fetch n t).1 t0 set t0 := by
  constructor <;> simp [fetch, Fetcher.expressInterest, cost]

/-- What holds in every run of a fetch with a delay of at most `d`. -/
structure TInv (life d n t : Nat) (s : St) : Prop where
  inv : Inv n t s.f
  acct : s.f.isRunning = true → Acct life d s.f s.sent s.set 0
  now : s.f.isRunning = true → s.now ≤ limit life d n t
  rep : ∀ u o, (u, o) ∈ s.hist → o.isReport = true → u ≤ limit life d n t

theorem tinv_step {s : St} (h : TInv life d n t s) {e : Ev} (he : s.enabled (some d) life e) : TInv life d n t (s.step e) := by
  obtain ⟨e1, e2, e3, e4, e5⟩ := he
  have e6 := e5 d rfl
  have hstep : s.step e = { f := (s.f.step e.kind).1, now := e.t
                            sent := if (s.f.step e.kind).2.contains .interest then e.t else s.sent
                            set := if s.f.timer.isNone && (s.f.step e.kind).1.timer.isSome then e.t else s.set
                            hist := s.hist ++ (s.f.step e.kind).2.map fun o => (e.t, o) } := rfl
  rw [hstep]
  cases hr : s.f.isRunning with
  | false =>
    obtain ⟨g1, g2, -⟩ := step_idle h.inv hr e1
    refine ⟨inv_step h.inv e1, ?_, ?_, ?_⟩
    · intro hr'; rw [g2] at hr'; cases hr'
    · intro hr'; rw [g2] at hr'; cases hr'
    · dsimp only; rw [g1]; simpa using h.rep
  | true =>
    have ht : e.t ≤ limit life d n t := by
      have := acct_due h.inv hr (h.acct hr)
      have := e6 hr
      omega
    refine ⟨inv_step h.inv e1, fun hr' => acct_step h.inv hr e1 (h.acct hr) (e6 hr) hr', fun _ => ht, ?_⟩
    intro u o ho hi
    rcases List.mem_append.mp ho with ho | ho
    · exact h.rep u o ho hi
    · obtain ⟨o', _, heq⟩ := List.mem_map.mp ho
      cases heq
      exact ht

theorem run_tinv {es s} (h : (machine (some d) life n t).Run es s) : TInv life d n t s := by
  refine h.invariant (P := TInv life d n t) ?_ (fun _ _ h he => tinv_step h he)
  refine ⟨inv_fetch _ _, fun _ => acct_fetch 0 0, fun _ => Nat.zero_le _, ?_⟩
  intro u o ho _
  obtain ⟨o', _, heq⟩ := List.mem_map.mp ho
  cases heq
  exact Nat.zero_le _

/-- What holds without a bound for the delay: the timeouts that were counted took their time. -/
structure PInv (life : Nat) (n t : Int) (s : St) : Prop where
  inv : Inv n t s.f
  sent : s.f.nTimeouts.toNat * life ≤ s.sent ∨ s.f.isRunning = false
  le : s.sent ≤ s.now
  rep : ∀ u m, (u, Out.onTimeout m) ∈ s.hist → (t.toNat + 1) * life ≤ u

theorem pinv_step {late} {n t : Int} {s : St} (h : PInv life n t s) {e : Ev} (he : s.enabled late life e) :
    PInv life n t (s.step e) := by
  obtain ⟨e1, e2, e3, e4, -⟩ := he
  have hstep : s.step e = { f := (s.f.step e.kind).1, now := e.t
                            sent := if (s.f.step e.kind).2.contains .interest then e.t else s.sent
                            set := if s.f.timer.isNone && (s.f.step e.kind).1.timer.isSome then e.t else s.set
                            hist := s.hist ++ (s.f.step e.kind).2.map fun o => (e.t, o) } := rfl
  rw [hstep]
  have hle : (if (s.f.step e.kind).2.contains .interest then e.t else s.sent) ≤ e.t := by
    have := h.le
    split <;> omega
  cases hr : s.f.isRunning with
  | false =>
    obtain ⟨g1, g2, -⟩ := step_idle h.inv hr e1
    refine ⟨inv_step h.inv e1, .inr g2, hle, ?_⟩
    dsimp only; rw [g1]; simpa using h.rep
  | true =>
    obtain ⟨hi, hE⟩ := step_running h.inv hr e1
    have hs := h.sent.resolve_right (by simp [hr])
    have hle0 := h.le
    have h0 := h.inv.nn0
    have h1 := h.inv.nt0
    have hold := h.rep
    have hnti := h.inv.nti
    have hntl := h.inv.ntl hr
    have hfinti := hi.nti
    obtain ⟨s1, now, sent, set, hist⟩ := s
    obtain ⟨kind, u⟩ := e
    dsimp only at *
    generalize (s1.step kind).1 = f' at *
    generalize (s1.step kind).2 = outs at *
    have new : ∀ l : List Out, (∀ m, Out.onTimeout m ∉ l) → ∀ v m, (v, Out.onTimeout m) ∈ hist ++ l.map (fun o => (u, o)) →
        (t.toNat + 1) * life ≤ v := by
      intro l hl v m hm
      rcases List.mem_append.mp hm with hm | hm
      · exact hold v m hm
      · obtain ⟨o', ho, heq⟩ := List.mem_map.mp hm
        cases heq
        exact absurd ho (hl m)
    cases hE with
    | data x a b c g => exact ⟨hi, .inr a, hle, new _ (by simp)⟩
    | cancel x a b => exact ⟨hi, .inr a, hle, new _ (by simp)⟩
    | fatal r x a b c _ _ _ => exact ⟨hi, .inr a, hle, new _ (by simp)⟩
    | failNack r x a b c _ _ _ => exact ⟨hi, .inr a, hle, new _ (by simp)⟩
    | timer x hrun a b c g =>
      refine ⟨hi, .inl ?_, hle, new _ (by simp)⟩
      dsimp only; rw [g]; simp; omega
    | duplicate x hrun a b c g =>
      refine ⟨hi, .inl ?_, hle, new _ (by simp)⟩
      dsimp only; rw [c]; simp; omega
    | congestion x hrun a b c g =>
      refine ⟨hi, .inl ?_, hle, new _ (by simp)⟩
      dsimp only; rw [c]; simpa using hs
    | retryTimeout x hrun a b c g =>
      have hu := e3 rfl
      refine ⟨hi, .inl ?_, hle, new _ (by simp)⟩
      dsimp only
      simp
      by_cases ht : t = -1
      · rw [hfinti ht]; simp
      · have : f'.nTimeouts.toNat = s1.nTimeouts.toNat + 1 := by have := (g ht).1; omega
        rw [this, Nat.add_mul]; omega
    | failTimeout x a b c ht hlt hcnt _ _ =>
      have hu := e3 rfl
      refine ⟨hi, .inr a, hle, ?_⟩
      intro v m hm
      rcases List.mem_append.mp hm with hm | hm
      · exact hold v m hm
      · simp at hm
        obtain ⟨rfl, rfl⟩ := hm
        have : t.toNat ≤ s1.nTimeouts.toNat := by omega
        have := Nat.mul_le_mul_right life this
        rw [Nat.add_mul]
        omega

theorem run_pinv {late} {n t : Int} {es s} (h : (machine late life n t).Run es s) : PInv life n t s := by
  refine h.invariant (P := PInv life n t) ?_ (fun _ _ h he => pinv_step h he)
  refine ⟨inv_fetch _ _, .inl ?_, Nat.le_refl _, ?_⟩
  · simp [machine, fetch, Fetcher.expressInterest]
  · intro u m hm
    simp [machine, fetch, Fetcher.expressInterest] at hm

end Verif.FetchTime
