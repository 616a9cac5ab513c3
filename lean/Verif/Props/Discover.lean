import Verif.Proofs.Discover
import Verif.Props.DataFetcher

/-! # C24, C55: version discovery -/

namespace Verif.Discover

open Verif.DataFetcher (Fetcher Out)

/-- **C24 (not needed)** If discovery is disabled or the name ends with a version, the name is reported
unchanged at once, nothing else is reported and no Interest is sent. -/
theorem C24_not_needed {o : Opts} {pre : Name} (h : o.disable = true ∨ pre.endsWithVersion = true)
    {es s} (hr : (machine o pre).Run es s) : s.log = [.success pre] := by
  have h0 : start o pre = { fetcher := none, log := [.success pre] } := by
    unfold start
    rw [if_pos (by rcases h with h | h <;> simp [h])]
  have : s.fetcher = none ∧ s.log = [.success pre] := by
    induction hr with
    | nil => simp [machine, h0]
    | @snoc es s e _ he ih =>
      obtain ⟨⟨f, hf, _⟩, _⟩ := he
      rw [ih.1] at hf
      cases hf
  exact this.2

/-- **C24 (needed)** Otherwise at most one result is reported, as the last thing that happens; a name is
reported only if a well-formed metadata packet with this name in it arrived for the discovery
Interest, and the name ends with a version. -/
theorem C24_one_result {o : Opts} {pre : Name} (hd : o.disable = false) (hv : pre.endsWithVersion = false)
    {es s} (h : (machine o pre).Run es s) :
    (∀ a x b, s.log = a ++ x :: b → x.isReport = true → b = [] ∧ ∀ y ∈ a, y = .interest) ∧
    (∀ n, Obs.success n ∈ s.log →
      (∃ c v, n = c ++ [v] ∧ v.isVersion = true) ∧
      ∃ m, Ev.data m ∈ es ∧ WellFormed m n ∧ pre ++ [metadataComp] <+: m.name) := by
  obtain ⟨f, hf, hrun⟩ := run_fetch hd hv h
  constructor
  · intro a x b e hx
    have h1 := (DataFetcher.C01_fetch_ends_once (es' := []) hrun (by simpa using hrun)).1
      (a.map Obs.out) x.out (b.map Obs.out) (by rw [e]; simp) (by rw [isReport_out]; exact hx)
    refine ⟨by simpa using h1.1, fun y hy => ?_⟩
    have := h1.2 y.out (List.mem_map_of_mem hy)
    rw [isReport_out] at this
    cases y <;> simp_all [Obs.isReport]
  · intro n hn
    obtain ⟨m, h1, h2, h3, h4⟩ := run_success hd hv h hn
    refine ⟨endsWithVersion_iff.mp h3, m, h1, ?_, h4⟩
    unfold Meta.parse at h2
    split at h2
    · rename_i hc
      rw [Bool.and_eq_true] at hc
      exact ⟨hc.1, h2, Producer.valid_iff.mp hc.2⟩
    · cases h2

/-- **C24 (a result comes)** As long as nothing was reported, an Interest or the backoff timer is
outstanding; Data always leads to a result; and with a finite retry limit `R` at most `1 + 2R`
Interests are sent. -/
theorem C24_result_comes {o : Opts} {pre : Name} (hd : o.disable = false) (hv : pre.endsWithVersion = false)
    {es s} (h : (machine o pre).Run es s) :
    ((∀ x ∈ s.log, x = .interest) → ∃ f, s.fetcher = some f ∧ f.isRunning = true ∧
      ((f.pending = 1 ∧ f.timer = none) ∨ (f.pending = 0 ∧ ∃ b, f.timer = some b))) ∧
    ((∃ m, Ev.data m ∈ es) → ∃ x ∈ s.log, x.isReport = true) ∧
    (0 ≤ o.maxRetries → (s.log.count .interest : Int) ≤ 1 + 2 * o.maxRetries) := by
  obtain ⟨f, hf, hrun⟩ := run_fetch hd hv h
  have hnc : DataFetcher.Ev.cancel ∉ es.map Ev.toFetch := by
    intro hc
    obtain ⟨e, _, he⟩ := List.mem_map.mp hc
    cases e <;> simp [Ev.toFetch] at he
  have hrep := (DataFetcher.C01_fetch_reports hrun).1
  have hconv : (∃ x ∈ s.log.map Obs.out, x.isReport = true) → ∃ x ∈ s.log, x.isReport = true := by
    rintro ⟨x, hx, hx2⟩
    obtain ⟨y, hy, rfl⟩ := List.mem_map.mp hx
    exact ⟨y, hy, by rw [← isReport_out]; exact hx2⟩
  refine ⟨?_, ?_, ?_⟩
  · intro hall
    have hr : f.isRunning = true := by
      by_contra hc
      rcases hrep (Or.inl (by simpa using hc)) with h1 | h1
      · exact hnc h1
      · obtain ⟨x, hx, hx2⟩ := hconv h1
        rw [hall x hx] at hx2
        simp [Obs.isReport] at hx2
    refine ⟨f, hf, hr, ?_⟩
    simpa [Option.isSome_iff_exists] using (DataFetcher.run_inv hrun).one hr
  · rintro ⟨m, hm⟩
    rcases hrep (Or.inr (List.mem_map.mpr ⟨_, hm, rfl⟩)) with h1 | h1
    · exact absurd h1 hnc
    · exact hconv h1
  · intro hR
    have h1 := (DataFetcher.C02_fetch_retry_budget hrun).1 hR hR
    have h2 : (s.log.map Obs.out).count .interest = s.log.count .interest := by
      rw [List.count_eq_countP, List.countP_map, List.count_eq_countP]
      congr 1
      funext x
      cases x with
      | failure r => cases r <;> rfl
      | _ => rfl
    rw [h2] at h1
    omega

/-- **C55 (refuted)** Nothing ties the discovered name to the requested one: whoever answers the discovery
Interest can make the tool fetch (and write) any other object - for every versioned name `n`
whatsoever there is an execution that reports `n`. -/
theorem C55_any_name {o : Opts} {pre : Name} (hd : o.disable = false) (hv : pre.endsWithVersion = false)
    (n : Name) (hn : n.endsWithVersion = true) :
    ∃ es s, (machine o pre).Run es s ∧ Obs.success n ∈ s.log := by
  let m : Meta := ⟨pre ++ [metadataComp, .fromVersion .typed 1, .fromSegment .typed 0], true, some n⟩
  have h0 : (machine o pre).init = { fetcher := some (DataFetcher.fetch o.maxRetries o.maxRetries).1, log := [.interest] } := by
    simp [machine, start, hd, hv, DataFetcher.fetch, Fetcher.expressInterest, react]
  refine ⟨[] ++ [.data m], _, Machine.Run.snoc (M := machine o pre) (.data m) Machine.Run.nil ?_, ?_⟩
  · rw [h0]
    refine ⟨⟨_, rfl, by simp [Ev.toFetch, DataFetcher.fetch, Fetcher.expressInterest, Fetcher.enabled]⟩, ?_⟩
    intro m' hm'
    simp only [Ev.data.injEq] at hm'
    subst hm'
    exact ⟨[.fromVersion .typed 1, .fromSegment .typed 0], by simp [makeDiscoveryInterest, m]⟩
  · have hp : m.parse = some n := by
      unfold Meta.parse
      rw [if_pos]
      rw [Bool.and_eq_true]
      exact ⟨rfl, Producer.valid_iff.mpr ⟨pre, _, _, rfl, by decide, by decide⟩⟩
    rw [h0]
    simp [machine, St.step, Ev.toFetch, Ev.meta, DataFetcher.fetch, Fetcher.expressInterest, Fetcher.step,
      Fetcher.handleData, Fetcher.isRunning, react, handleData, hp, hn]

/-- The claim C55 itself, refuted for the name `/A`. -/
theorem C55_not_below : ¬ DiscoversBelow ⟨false, 3⟩ [⟨8, [65]⟩] := by
  intro h
  obtain ⟨es, s, h1, h2⟩ := C55_any_name (o := ⟨false, 3⟩) (pre := [⟨8, [65]⟩]) rfl (by decide)
    [⟨8, [66]⟩, ⟨54, [1]⟩] (by decide)
  have := h es s h1 _ h2
  revert this
  decide

/-- **C55 (what does hold)** If the discovery Interest is answered only by the producer of the object, the
discovered name is the name under which the object was published. Missing from the claim: other
answers. -/
theorem C55_honest_producer_partial (digest : Data → Bytes) {po : Producer.Opts} {pre0 : Name} {now : Nat}
    {input : Bytes} (hn : now < 2 ^ 64)
    {o : Opts} {pre : Name} (hd : o.disable = false) (hv : pre.endsWithVersion = false)
    {es s} (h : (machine o pre).Run es s)
    (hp : ∀ e ∈ es, FromProducer digest (Producer.construct po pre0 now input) e) {n}
    (hs : Obs.success n ∈ s.log) :
    n = (Producer.construct po pre0 now input).versionedPrefix := by
  obtain ⟨m, h1, h2, _⟩ := run_success hd hv h hs
  obtain ⟨i, now', f, n', g1, g2⟩ := hp _ h1
  have hnn : n' = n := by
    unfold Meta.parse at h2
    split at h2
    · rw [g2] at h2; simpa using h2
    · cases h2
  subst hnn
  exact (Producer.metadata_reply hn g1).1

/-! ## Concrete cases -/

/-- A timeout, then the metadata packet of the example producer. -/
example : ∃ s, (machine ⟨false, 3⟩ [⟨8, [65]⟩]).Run
    [.timeout, .data ⟨[⟨8, [65]⟩, metadataComp, ⟨54, [8]⟩, ⟨50, [0]⟩], true, some [⟨8, [65]⟩, ⟨54, [7]⟩]⟩] s ∧
    s.log = [.interest, .interest, .success [⟨8, [65]⟩, ⟨54, [7]⟩]] := by
  let M := machine ⟨false, 3⟩ [⟨8, [65]⟩]
  have r1 := Machine.Run.snoc (M := M) .timeout Machine.Run.nil
    ⟨⟨_, rfl, by decide⟩, by intro m hm; cases hm⟩
  have r2 := Machine.Run.snoc (M := M) (.data ⟨[⟨8, [65]⟩, metadataComp, ⟨54, [8]⟩, ⟨50, [0]⟩], true,
    some [⟨8, [65]⟩, ⟨54, [7]⟩]⟩) r1
    ⟨⟨_, rfl, by decide⟩, by intro m hm; simp only [Ev.data.injEq] at hm; subst hm; decide⟩
  exact ⟨_, r2, by decide⟩

/-- This metadata packet is the one that the example producer sends (hypothesis of
`C55_honest_producer_partial`). -/
example : FromProducer (fun _ => []) (Producer.construct { maxSegmentSize := 2 } [⟨8, [65]⟩] 7 [1, 2, 3, 4, 5])
    (.data ⟨[⟨8, [65]⟩, metadataComp, ⟨54, [8]⟩, ⟨50, [0]⟩], true, some [⟨8, [65]⟩, ⟨54, [7]⟩]⟩) :=
  ⟨makeDiscoveryInterest [⟨8, [65]⟩], 8, 10, [⟨8, [65]⟩, ⟨54, [7]⟩], by decide, rfl⟩

end Verif.Discover
