import Verif.Proofs.FixedTime

/-! # C96, C97: how long a fetch and the fixed pipeline take -/

namespace Verif.FetchTime

open DataFetcher
open PingTime (ns)

/-- **C96 (it ends)** With `n` tolerated Nacks and `t` tolerated timeouts, a fetch whose timers are at most `d` late has ended after
`(1+n+t)(life+d) + n(1ms+d)`: it runs at no later time, and its outcome is reported by then. -/
theorem C96_ends {d life n t : Nat} {es s} (h : (machine (some d) life n t).Run es s) :
    (s.f.isRunning = true → s.now ≤ limit life d n t) ∧
    (∀ u o, (u, o) ∈ s.hist → o.isReport = true → u ≤ limit life d n t) :=
  ⟨(run_tinv h).now, (run_tinv h).rep⟩

/-- **C96 (patience)** However late the timers are: no fetch gives up because of timeouts before `t + 1` lifetimes have passed. -/
theorem C96_patient {late : Option Nat} {life : Nat} {n t : Int} {es s} (h : (machine late life n t).Run es s) {u m}
    (hm : (u, .onTimeout m) ∈ s.hist) : (t.toNat + 1) * life ≤ u :=
  (run_pinv h).rep u m hm

/-- A fetcher that waits for the answer to its Interest after `i` Nacks and `j` timeouts. -/
private def waiting (n t : Int) (i j : Nat) : Fetcher := { (fetch n t).1 with nNacks := i, nTimeouts := j }

private theorem slow_nacks (d life n t i : Nat) (hi : i ≤ n) : ∃ es s, (machine (some d) life n t).Run es s ∧
    s.f = waiting n t i 0 ∧ s.now = i * ((life + d) + (ns 1 + d)) ∧ s.sent = s.now := by
  induction i with
  | zero => exact ⟨[], _, .nil, rfl, by simp [machine], rfl⟩
  | succ i ih =>
    obtain ⟨es, s, hr, hf, hn, hs⟩ := ih (by omega)
    have h1 : (Fetcher.step (waiting n t i 0) (.nack .congestion)) =
        ({ waiting n t (i + 1) 0 with pending := 0, nCongestionRetries := 1, timer := some 1 }, []) := by
      simp only [Fetcher.step, Fetcher.handleNack, waiting, fetch, Fetcher.expressInterest, Fetcher.isRunning, maxCongestionBackoffTime]
      have : (n : Int) ≠ -1 := by omega
      have h2 : ((i : Int) + 1 ≤ (n : Int)) := by omega
      simp [this, h2]
    have h2 : Fetcher.step { waiting n t (i + 1) 0 with pending := 0, nCongestionRetries := 1, timer := some 1 } .timer =
        (waiting n t (i + 1) 0, [.interest]) := rfl
    have e1 : (machine (some d) life n t).enabled s ⟨.nack .congestion, s.now + (life + d)⟩ := by
      refine ⟨?_, Nat.le_add_right _ _, by simp, by simp, ?_⟩
      · rw [hf]; exact Nat.one_pos
      · intro d' hd' _
        cases hd'
        rw [hf]
        simp [dueAt, waiting, fetch, Fetcher.expressInterest, hs]
        omega
    have r1 := Machine.Run.snoc _ hr e1
    have e2 : (machine (some d) life n t).enabled ((machine (some d) life n t).step s ⟨.nack .congestion, s.now + (life + d)⟩)
        ⟨.timer, s.now + (life + d) + (ns 1 + d)⟩ := by
      have hstep : (machine (some d) life n t).step s ⟨.nack .congestion, s.now + (life + d)⟩ =
          { f := { waiting n t (i + 1) 0 with pending := 0, nCongestionRetries := 1, timer := some 1 }
            now := s.now + (life + d), sent := s.sent, set := s.now + (life + d), hist := s.hist } := by
        simp only [machine, St.step, hf, h1]
        simp [waiting, fetch, Fetcher.expressInterest]
      rw [hstep]
      refine ⟨rfl, by simp, by simp, ?_, ?_⟩
      · intro _ b hb
        cases hb
        dsimp only; omega
      · intro d' hd' _
        cases hd'
        simp [dueAt]
        omega
    refine ⟨_, _, Machine.Run.snoc _ r1 e2, ?_, ?_, ?_⟩
    · simp only [machine, St.step, hf, h1, h2]
    · simp only [machine, St.step, hf, h1, h2, hn]
      ring
    · simp only [machine, St.step, hf, h1, h2]
      simp

private theorem slow_timeouts (d life n t j : Nat) (hj : j ≤ t) : ∃ es s, (machine (some d) life n t).Run es s ∧
    s.f = waiting n t n j ∧ s.now = n * ((life + d) + (ns 1 + d)) + j * (life + d) ∧ s.sent = s.now := by
  induction j with
  | zero =>
    obtain ⟨es, s, hr, hf, hn, hs⟩ := slow_nacks d life n t n (Nat.le_refl _)
    exact ⟨es, s, hr, hf, by simpa using hn, hs⟩
  | succ j ih =>
    obtain ⟨es, s, hr, hf, hn, hs⟩ := ih (by omega)
    have h1 : Fetcher.step (waiting n t n j) .timeout = (waiting n t n (j + 1), [.interest]) := by
      simp only [Fetcher.step, Fetcher.handleTimeout, waiting, fetch, Fetcher.expressInterest, Fetcher.isRunning]
      have : (t : Int) ≠ -1 := by omega
      have h2 : ((j : Int) + 1 ≤ (t : Int)) := by omega
      simp [this, h2]
    have e1 : (machine (some d) life n t).enabled s ⟨.timeout, s.now + (life + d)⟩ := by
      refine ⟨?_, Nat.le_add_right _ _, ?_, by simp, ?_⟩
      · rw [hf]; exact Nat.one_pos
      · intro _; dsimp only; omega
      · intro d' hd' _
        cases hd'
        rw [hf]
        simp [dueAt, waiting, fetch, Fetcher.expressInterest, hs]
        omega
    refine ⟨_, _, Machine.Run.snoc _ hr e1, ?_, ?_, ?_⟩
    · simp only [machine, St.step, hf, h1]
    · simp only [machine, St.step, hf, h1, hn]
      ring
    · simp only [machine, St.step, hf, h1]
      simp

/-- **C96 (the time is needed)** The bound of `C96_ends` is reached, for all settings: some fetch reports its failure at exactly that
time. -/
theorem C96_reached (d life n t : Nat) : ∃ es s, (machine (some d) life n t).Run es s ∧
    (limit life d n t, .onTimeout (.maxTimeoutRetries t)) ∈ s.hist := by
  obtain ⟨es, s, hr, hf, hn, hs⟩ := slow_timeouts d life n t t (Nat.le_refl _)
  have h1 : (Fetcher.step (waiting n t n t) .timeout).2 = [.onTimeout (.maxTimeoutRetries t)] := by
    simp only [Fetcher.step, Fetcher.handleTimeout, waiting, fetch, Fetcher.expressInterest, Fetcher.isRunning]
    have : (t : Int) ≠ -1 := by omega
    simp [this]
  have e1 : (machine (some d) life n t).enabled s ⟨.timeout, s.now + (life + d)⟩ := by
    refine ⟨?_, Nat.le_add_right _ _, ?_, by simp, ?_⟩
    · rw [hf]; exact Nat.one_pos
    · intro _; dsimp only; omega
    · intro d' hd' _
      cases hd'
      rw [hf]
      simp [dueAt, waiting, fetch, Fetcher.expressInterest, hs]
      omega
  refine ⟨_, _, Machine.Run.snoc _ hr e1, ?_⟩
  simp only [machine, St.step, hf, h1, hn]
  refine List.mem_append.mpr (.inr ?_)
  simp only [List.map_cons, List.map_nil, List.mem_singleton, Prod.mk.injEq, and_true]
  unfold limit
  ring

/-- **C96 (unlimited retries)** With unlimited timeouts (`-r -1`) there is no such bound, even if no timer is late. -/
theorem C96_unlimited (n : Int) {life : Nat} (hl : 0 < life) (T : Nat) : ∃ es s, (machine (some 0) life n (-1)).Run es s ∧
    s.f.isRunning = true ∧ T ≤ s.now := by
  have : ∀ k : Nat, ∃ es s, (machine (some 0) life n (-1)).Run es s ∧ s.f = (fetch n (-1)).1 ∧ s.now = k * life ∧ s.sent = s.now := by
    intro k
    induction k with
    | zero => exact ⟨[], _, .nil, rfl, by simp [machine], rfl⟩
    | succ k ih =>
      obtain ⟨es, s, hr, hf, hn, hs⟩ := ih
      have h1 : Fetcher.step (fetch n (-1)).1 .timeout = ((fetch n (-1)).1, [.interest]) := by
        simp [Fetcher.step, Fetcher.handleTimeout, fetch, Fetcher.expressInterest, Fetcher.isRunning]
      have e1 : (machine (some 0) life n (-1)).enabled s ⟨.timeout, s.now + life⟩ := by
        refine ⟨?_, Nat.le_add_right _ _, ?_, by simp, ?_⟩
        · rw [hf]; exact Nat.one_pos
        · intro _; dsimp only; omega
        · intro d' hd' _
          cases hd'
          rw [hf]
          simp [dueAt, fetch, Fetcher.expressInterest, hs]
      refine ⟨_, _, Machine.Run.snoc _ hr e1, ?_, ?_, ?_⟩
      · simp only [machine, St.step, hf, h1]
      · simp only [machine, St.step, hf, h1, hn]; ring
      · simp only [machine, St.step, hf, h1]; simp
  obtain ⟨es, s, hr, hf, hn, -⟩ := this T
  refine ⟨es, s, hr, by rw [hf]; rfl, ?_⟩
  rw [hn]
  exact Nat.le_mul_of_pos_right T hl

/-- Lifetime 4 s, one Nack and one timeout tolerated, timers up to 1 ms late: congestion, the pause, a timeout, and then the Data. -/
private abbrev demo : Machine St Ev := machine (some 1000000) 4000000000 1 1
private def demoEvs : List Ev :=
  [⟨.nack .congestion, 3000000000⟩, ⟨.timer, 3001500000⟩, ⟨.timeout, 7001600000⟩, ⟨.data, 11002000000⟩]

example : ∃ s, demo.Run demoEvs s ∧ s.hist = [(0, .interest), (3001500000, .interest), (7001600000, .interest), (11002000000, .onData)] ∧
    limit 4000000000 1000000 1 1 = 12005000000 :=
  ⟨(demo.exec demo.init demoEvs).get (by decide +kernel), Machine.exec_run (M := demo) (Option.some_get _).symm, by decide +kernel,
    by decide⟩

/-- The timer may not fire before 1 ms has passed, the timeout not before the lifetime, and the fetch does not wait longer. -/
example : demo.exec demo.init [⟨.nack .congestion, 3000000000⟩, ⟨.timer, 3000999999⟩] = none ∧
    demo.exec demo.init [⟨.timeout, 3999999999⟩] = none ∧ demo.exec demo.init [⟨.data, 4001000001⟩] = none := by decide +kernel

end Verif.FetchTime

namespace Verif.FixedTime

open Fixed
open FetchTime (limit)

private theorem net_proj {late life N R segs es s} (h : (netMachine late life N R segs).Run es s) :
    (machine late life N R).Run es s ∧ (Fixed.netMachine N R segs).Run (es.map (·.ev)) s.p := by
  induction h with
  | nil => exact ⟨.nil, .nil⟩
  | snoc e _ he ih =>
    refine ⟨.snoc (M := machine late life N R) e ih.1 he.1, ?_⟩
    rw [List.map_append]
    exact .snoc (M := Fixed.netMachine N R segs) e.ev ih.2 ⟨he.1.1, he.2⟩

private theorem proj {late life N R es s} (h : (machine late life N R).Run es s) : (Fixed.machine N R).Run (es.map (·.ev)) s.p := by
  induction h with
  | nil => exact .nil
  | snoc e _ he ih =>
    rw [List.map_append]
    exact .snoc (M := Fixed.machine N R) e.ev ih he.1

variable {life d N R : Nat}

/-- **C97 (a segment)** A segment that is being fetched was first requested at most `(1+2R)(life+d) + R(1ms+d)` ago. -/
theorem C97_segment (hN : 0 < N) {es s} (h : (machine (some d) life N R).Run es s) {i : Nat} {f : DataFetcher.Fetcher} {k : Nat}
    (ha : s.p.slots[i]? = some (some (f, k))) (hr : f.isRunning = true) :
    ∃ t0, (k, t0) ∈ s.sent ∧ (∀ u, (k, u) ∈ s.sent → t0 ≤ u) ∧ s.now ≤ t0 + limit life d R R := by
  obtain ⟨t0, hs⟩ := (run_finv hN h).slot i f k ha hr
  exact ⟨t0, hs.mem, hs.first, hs.now⟩

/-- The list `sent` of the model has the Interests of the history, the latest first. -/
theorem C97_sent (hN : 0 < N) {es s} (h : (machine (some d) life N R).Run es s) :
    s.sent.map (·.1) = (s.p.log.filterMap interest?).reverse ∧ ∀ x ∈ s.sent, x.2 ≤ s.now :=
  ⟨(run_finv hN h).keys, fun x hx => (run_finv hN h).past x.1 x.2 hx⟩

/-- **C97 (pace)** Whatever the producer and the network do: as long as the pipeline has not stopped, failed or announced the end, it has
received at least one segment in each such interval of time. -/
theorem C97_pace (hN : 0 < N) {es s} (h : (machine (some d) life N R).Run es s) (h1 : s.p.isStopping = false)
    (h2 : s.p.threw = none) (h3 : Obs.complete ∉ s.p.log) : s.now ≤ ((received s.p.log).length + 1) * limit life d R R := by
  have hf := run_finv hN h
  obtain ⟨i, f, k, ha, hr⟩ := no_stall hf.inv (run_announced (proj h)) h1 h2 h3
  obtain ⟨t0, hs⟩ := hf.slot i f k ha hr
  have hb := hs.base
  have hn := hs.now
  rw [hf.inv.core.cnt] at hb
  rw [Nat.add_mul]
  omega

/-- **C97 (it ends)** With a finite retry limit `R` and a consistent producer of `L` segments, after `L+1` such intervals of time the
pipeline has stopped with an error or announced the end. -/
theorem C97_ends (hN : 0 < N) {segs : List Bytes} {es s} (h : (netMachine (some d) life N R segs).Run es s)
    (ht : (segs.length + 1) * limit life d R R < s.now) : s.p.isStopping = true ∨ Obs.complete ∈ s.p.log := by
  obtain ⟨h1, h2⟩ := net_proj h
  by_contra hc
  simp only [not_or, Bool.not_eq_true] at hc
  have hp := C97_pace hN h1 hc.1 (net_threw hN h2) hc.2
  have hI := (run_finv hN h1).inv.core
  have hcons := net_consistent h2
  have hsub : (received s.p.log).Subperm (List.range segs.length) := by
    refine List.Nodup.subperm hI.rnodup ?_
    intro k hk
    unfold received at hk
    rw [List.mem_filterMap] at hk
    obtain ⟨o, ho, hoo⟩ := hk
    cases o with
    | data j p =>
      simp only [Option.some.injEq] at hoo
      subst hoo
      exact List.mem_range.mpr (consistent_lt (hcons j p ho))
    | interest _ => cases hoo
    | failure _ => cases hoo
    | complete => cases hoo
  have hle := hsub.length_le
  rw [List.length_range] at hle
  have := Nat.mul_le_mul_right (limit life d R R) (Nat.succ_le_succ hle)
  simp only [Nat.succ_eq_add_one] at this
  omega

/-- **C97 (unlimited retries)** With unlimited retries (`-r -1`) there is no such bound, whatever the object, even if no timer is late. -/
theorem C97_unlimited {life : Nat} (hl : 0 < life) (segs : List Bytes) (T : Nat) : ∃ es s,
    (netMachine (some 0) life 1 (-1) segs).Run es s ∧ s.p.isStopping = false ∧ s.p.threw = none ∧ Obs.complete ∉ s.p.log ∧ T ≤ s.now := by
  have : ∀ k : Nat, ∃ es s, (netMachine (some 0) life 1 (-1) segs).Run es s ∧
      s.p.slots = [some ((DataFetcher.fetch (-1) (-1)).1, 0)] ∧ s.p.isStopping = false ∧ s.p.threw = none ∧ s.p.ub = false ∧
      Obs.complete ∉ s.p.log ∧ s.now = k * life ∧ s.sentAt 0 = s.now := by
    intro k
    induction k with
    | zero =>
      exact ⟨[], _, .nil, rfl, rfl, rfl, rfl, (by decide : Obs.complete ∉ (Fixed.start 1 (-1)).log), by simp [netMachine, init], rfl⟩
    | succ k ih =>
      obtain ⟨es, s, hr, hsl, h1, h2, h3, h4, hn, hs⟩ := ih
      have hf : DataFetcher.Fetcher.step (DataFetcher.fetch (-1) (-1)).1 .timeout = ((DataFetcher.fetch (-1) (-1)).1, [.interest]) := by
        decide
      have hp : s.p.step (.timeout 0) = { s.p with log := s.p.log ++ [.interest 0] } := by
        unfold Fixed.St.step
        rw [h2, h3]
        simp only [Option.isSome_none, Bool.or_self, Bool.false_eq_true, if_false]
        unfold Fixed.St.fetcherEvent
        rw [hsl]
        simp only [List.getElem?_cons_zero, hf]
        simp [Fixed.St.react, Fixed.St.emit]
      have e1 : (netMachine (some 0) life 1 (-1) segs).enabled s ⟨.timeout 0, s.now + life⟩ := by
        refine ⟨⟨?_, Nat.le_add_right _ _, ?_⟩, trivial⟩
        · unfold Fixed.St.enabled Fixed.St.slotEnabled
          rw [hsl]
          exact Nat.one_pos
        · intro i f m ha
          rw [hsl] at ha
          have hi : i = 0 := by
            have := (List.getElem?_eq_some_iff.mp ha).1
            simpa using this
          subst hi
          simp only [List.getElem?_cons_zero, Option.some.injEq, Prod.mk.injEq] at ha
          obtain ⟨rfl, rfl⟩ := ha
          refine ⟨fun _ => ?_, by simp, ?_⟩
          · rw [hs]
          · intro d' hd' _
            cases hd'
            simp [FetchTime.dueAt, DataFetcher.fetch, DataFetcher.Fetcher.expressInterest, hs]
      have hst : (netMachine (some 0) life 1 (-1) segs).step s ⟨.timeout 0, s.now + life⟩ =
          { p := { s.p with log := s.p.log ++ [.interest 0] }, now := s.now + life, sent := (0, s.now + life) :: s.sent, set := s.set } := by
        simp only [netMachine, St.step, hp, List.drop_left]
        rfl
      refine ⟨_, _, Machine.Run.snoc _ hr e1, ?_⟩
      rw [hst]
      refine ⟨hsl, h1, h2, h3, ?_, ?_, ?_⟩
      · simpa using h4
      · dsimp only; rw [hn]; ring
      · simp [St.sentAt]
  obtain ⟨es, s, hr, -, h1, h2, -, h4, hn, -⟩ := this T
  refine ⟨es, s, hr, h1, h2, h4, ?_⟩
  rw [hn]
  exact Nat.le_mul_of_pos_right T hl

private def slotOk (late : Option Nat) (life : Nat) (s : St) (e : Ev) (i : Nat) : Fixed.Slot → Bool
  | some (f, k) => decide ((e.ev = .timeout i → s.sentAt k + life ≤ e.t) ∧
      (e.ev = .timer i → ∀ b ∈ f.timer, s.setAt i + PingTime.ns b ≤ e.t) ∧
      (∀ d ∈ late, f.isRunning = true → e.t ≤ FetchTime.dueAt life f (s.sentAt k) (s.setAt i) + d))
  | none => true

instance (late : Option Nat) (life : Nat) (s : St) (e : Ev) : Decidable (s.enabled late life e) :=
  decidable_of_iff (s.p.enabled e.ev ∧ s.now ≤ e.t ∧
      ∀ i ∈ List.range s.p.slots.length, (s.p.slots[i]?).all (slotOk late life s e i) = true) (by
    unfold St.enabled
    refine and_congr_right fun _ => and_congr_right fun _ => ⟨fun h i f k ha => ?_, fun h i _ => ?_⟩
    · have := h i (List.mem_range.mpr (List.getElem?_eq_some_iff.mp ha).1)
      rw [ha] at this
      exact of_decide_eq_true this
    · cases hx : s.p.slots[i]? with
      | none => rfl
      | some x =>
        cases x with
        | none => rfl
        | some y => exact decide_eq_true (h i y.1 y.2 hx))

private def dataOk (segs : List Bytes) (p : Pkt) : Fixed.Slot → Bool
  | some (_, k) => decide (Consistent segs k p)
  | none => true

instance (segs : List Bytes) (s : Fixed.St) (e : Fixed.Ev) : Decidable (ConsistentEv segs s e) := by
  cases e with
  | data i p c =>
    exact decidable_of_iff ((s.slots[i]?).all (dataOk segs p) = true) (by
      unfold ConsistentEv
      constructor
      · intro h f k ha; rw [ha] at h; exact of_decide_eq_true h
      · intro h
        cases hx : s.slots[i]? with
        | none => rfl
        | some x =>
          cases x with
          | none => rfl
          | some y => exact decide_eq_true (h y.1 y.2 hx))
  | _ => exact isTrue trivial

instance (late : Option Nat) (life N : Nat) (R : Int) (segs : List Bytes) (s : St) (e : Ev) :
    Decidable ((netMachine late life N R segs).enabled s e) :=
  inferInstanceAs (Decidable (s.enabled late life e ∧ ConsistentEv segs s.p e.ev))

/-- Lifetime 4 s, two slots, one retry, timers not late; two segments, the second one lost twice: the pipeline gives up after 8 s. -/
private abbrev demo : Machine St Ev := netMachine (some 0) 4000000000 2 1 [[1], [2]]
private def demoEvs : List Ev :=
  [⟨.data 0 ⟨[1], .seg 1, false, false, true⟩ false, 100⟩, ⟨.timeout 1, 4000000000⟩, ⟨.timeout 1, 8000000000⟩, ⟨.posted, 36003000001⟩]

example : limit 4000000000 0 1 1 = 12001000000 ∧ ∃ s, demo.Run demoEvs s ∧ ([[1], [2]] : List Bytes).length + 1 = 3 ∧
    3 * limit 4000000000 0 1 1 < s.now ∧ s.p.isStopping = true ∧
    s.sent = [(1, 4000000000), (1, 0), (0, 0)] :=
  ⟨by decide, (demo.exec demo.init demoEvs).get (by decide +kernel), Machine.exec_run (M := demo) (Option.some_get _).symm,
    by decide +kernel, by decide +kernel, by decide +kernel, by decide +kernel⟩

end Verif.FixedTime
