import Verif.Proofs.DataFetcher

/-! # C01 - C04: fetching one segment -/

namespace Verif.DataFetcher

/-- **C01** A fetch reports at most one outcome, as the last thing it does; and once it has
reported an outcome or was cancelled, no continuation of the execution (late callbacks included)
makes anything visible: no Interest, no report. -/
theorem C01_fetch_ends_once {n t : Int} {es es' : List Ev} {f f' : Fetcher} {outs outs' : List Out}
    (h : Run n t es f outs) (h' : Run n t (es ++ es') f' outs') :
    (∀ pre o post, outs = pre ++ o :: post → o.isReport = true →
      post = [] ∧ ∀ x ∈ pre, x.isReport = false) ∧
    ((∃ o ∈ outs, o.isReport = true) ∨ Ev.cancel ∈ es → outs' = outs) := by
  have hh := run_hinv h
  constructor
  · intro pre o post e1 e2
    have hp := hh.last pre o post e1 e2
    refine ⟨hp, ?_⟩
    intro x hx
    by_contra hc
    simp only [Bool.not_eq_false] at hc
    obtain ⟨a, b, rfl⟩ := List.append_of_mem hx
    have := hh.last a x (b ++ o :: post) (by simp [e1]) hc
    simp at this
  · intro hc
    have hnr : f.isRunning = false := by
      by_contra hr
      simp only [Bool.not_eq_false] at hr
      have := hh.fresh hr
      rcases hc with ⟨o, ho, ho'⟩ | hc
      · simp [this.1 o ho] at ho'
      · exact this.2 hc
    exact (run_append h h' hnr).1

/-- **C01 (nothing is swallowed)** A fetch that is over without having been cancelled has reported an
outcome; so has every fetch that received Data and was not cancelled. Data that reaches a running
fetch is reported as Data at once. Every report is true: Data is reported only if Data arrived, and
a Nack with reason `r` only if a Nack with this reason arrived, which is not one of the two reasons
that are retried. -/
theorem C01_fetch_reports {n t : Int} {es : List Ev} {f : Fetcher} {outs : List Out}
    (h : Run n t es f outs) :
    (f.isRunning = false ∨ Ev.data ∈ es → Ev.cancel ∈ es ∨ ∃ o ∈ outs, o.isReport = true) ∧
    (f.isRunning = true → f.enabled .data → ∃ f', Run n t (es ++ [.data]) f' (outs ++ [.onData])) ∧
    (Out.onData ∈ outs → Ev.data ∈ es) ∧
    (∀ r, Out.onNack (.nack r) ∈ outs → Ev.nack r ∈ es ∧ r ≠ .duplicate ∧ r ≠ .congestion) ∧
    (∀ m, Out.onNack m ∈ outs → (∃ r, m = .nack r) ∨ m = .maxNackRetries n) ∧
    (∀ m, Out.onTimeout m ∈ outs → m = .maxTimeoutRetries t) := by
  have hp := run_rep h
  have hh := run_hinv h
  refine ⟨?_, ?_, hp.dat, hp.nck, ?_, fun m hm => (hh.rt m hm).2.1⟩
  · rintro (hr | hd)
    · exact hp.over hr
    · exact hp.over (hp.gone hd)
  · intro hr he
    have hs := Run.step .data h he
    have := (step_running (run_inv h) hr he).2
    generalize (f.step .data).2 = o at this hs
    generalize (f.step .data).1 = f' at this hs
    cases this
    exact ⟨f', hs⟩
  · intro m hm
    rcases hp.msg m hm with ⟨r, rfl⟩ | ⟨k, rfl⟩
    · exact Or.inl ⟨r, rfl⟩
    · exact Or.inr (by rw [(hh.rn k hm).2.1])

/-- **C02** Retry budget: at most `1+n+t` Interests; a timeout failure is reported only after
`t+1` timeouts and never if `t` is infinite; the "maximum number of nack retries" failure only
after `n+1` Nacks and never if `n` is infinite; and a fetch that still runs has seen no more
timeouts and Nacks than its limits allow. -/
theorem C02_fetch_retry_budget {n t : Int} {es : List Ev} {f : Fetcher} {outs : List Out}
    (h : Run n t es f outs) :
    (0 ≤ n → 0 ≤ t → (outs.count .interest : Int) ≤ 1 + n + t) ∧
    (∀ m, Out.onTimeout m ∈ outs → t ≠ -1 ∧ t + 1 ≤ (es.count .timeout : Int)) ∧
    (∀ k, Out.onNack (.maxNackRetries k) ∈ outs → n ≠ -1 ∧ n + 1 ≤ (es.countP Ev.isNack : Int)) ∧
    (f.isRunning = true → 0 ≤ n → (es.countP Ev.isNack : Int) ≤ n) ∧
    (f.isRunning = true → 0 ≤ t → (es.count .timeout : Int) ≤ t) := by
  have hh := run_hinv h
  have hi := run_inv h
  refine ⟨hh.lim, fun m hm => ⟨(hh.rt m hm).1, (hh.rt m hm).2.2⟩,
    fun k hm => ⟨(hh.rn k hm).1, (hh.rn k hm).2.2⟩, ?_, ?_⟩
  · intro hr hn
    have h1 := hh.nkr (by omega) hr
    have h2 := hi.nnl hr
    omega
  · intro hr hn
    have h1 := hh.tmr (by omega) hr
    have h2 := hi.ntl hr
    omega

/-- **C03** A running fetch has exactly one thing outstanding, one Interest or one timer; a fetch
that is over has no timer. -/
theorem C03_fetch_one_outstanding {n t : Int} {es : List Ev} {f : Fetcher} {outs : List Out}
    (h : Run n t es f outs) :
    (f.isRunning = true →
      (f.pending = 1 ∧ f.timer = none) ∨ (f.pending = 0 ∧ ∃ b, f.timer = some b)) ∧
    (f.isRunning = false → f.timer = none) := by
  have hi := run_inv h
  refine ⟨fun hr => ?_, fun hr => (hi.idle hr).1⟩
  simpa [Option.isSome_iff_exists] using hi.one hr

/-- **C04 (refuted)** The backoff does not grow: for every configuration that allows two
congestion Nacks the claim is false, because every re-expression resets the retry counter. -/
theorem C04_backoff_does_not_grow {n t : Int} (hn : 2 ≤ n ∨ n = -1) : ¬ GrowingBackoff n t := by
  intro h
  have r0 : Run n t [] (fetch n t).1 (fetch n t).2 := Run.start
  have r1 := Run.step (.nack .congestion) r0 (by simp [Fetcher.enabled, fetch, Fetcher.expressInterest])
  have hn1 : n ≠ -1 → (1 : Int) ≤ n := by omega
  have e1 : ((fetch n t).1.step (.nack .congestion)).1.timer = some 1 := by
    by_cases h1 : n = -1
    · simp [fetch, Fetcher.expressInterest, Fetcher.step, Fetcher.handleNack, Fetcher.isRunning,
        maxCongestionBackoffTime, h1]
    · simp [fetch, Fetcher.expressInterest, Fetcher.step, Fetcher.handleNack, Fetcher.isRunning,
        maxCongestionBackoffTime, h1, hn1 h1]
  have r2 := Run.step .timer r1 (by simp [Fetcher.enabled, e1])
  have e2 : 0 < (((fetch n t).1.step (.nack .congestion)).1.step .timer).1.pending := by
    simp [Fetcher.step, Fetcher.expressInterest]
  have r3 := Run.step (.nack .congestion) r2 e2
  have hg := h 1 _ _ r3
  have := (run_inv r3).delay _ hg
  simp at this

/-- **C04 (what does hold)** Every backoff is exactly one millisecond, in particular at most ten
seconds. Missing from the claim C04: the growth with the number of consecutive Nacks, which
`C04_backoff_does_not_grow` refutes. -/
theorem C04_backoff_constant_partial {n t : Int} {es : List Ev} {f : Fetcher} {outs : List Out}
    (h : Run n t es f outs) {b : Nat} (hb : f.timer = some b) :
    b = 1 ∧ b ≤ 10000 := by
  have := (run_inv h).delay b hb
  omega

/-! ## Concrete cases -/

/-- A run with retry limits 1/2 that gives up after three timeouts and one Nack. It sends
1+1+2 Interests, the maximum. -/
example : ∃ f, Run 1 2 [.timeout, .nack .duplicate, .timeout, .timeout] f
    [.interest, .interest, .interest, .interest, .onTimeout (.maxTimeoutRetries 2)] :=
  ⟨_, exec_run (f := { maxNackRetries := 1, maxTimeoutRetries := 2, nNacks := 1, nTimeouts := 3,
                       hasError := true }) (by decide)⟩

/-- A run in which a cancelled fetch receives a late Data callback. -/
example : ∃ f, Run 3 3 [.nack .duplicate, .cancel, .data] f [.interest, .interest] :=
  ⟨_, exec_run (f := { maxNackRetries := 3, maxTimeoutRetries := 3, nNacks := 1,
                       isStopped := true }) (by decide)⟩

/-- A run that ends in a backoff, so that `C03`'s second alternative and `C04`'s hypothesis occur. -/
example : ∃ f, Run (-1) 3 [.nack .congestion, .timer, .nack .congestion] f [.interest, .interest] ∧
    f.timer = some 1 :=
  ⟨_, exec_run (f := { maxNackRetries := -1, maxTimeoutRetries := 3, nCongestionRetries := 1,
                       timer := some 1 }) (by decide), rfl⟩

end Verif.DataFetcher
