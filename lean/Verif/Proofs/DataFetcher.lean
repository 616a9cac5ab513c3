import Verif.Spec.DataFetcher
import Mathlib.Data.List.Induction
import Mathlib.Tactic.Linarith
import Mathlib.Tactic.SplitIfs

/-! # Invariants of the DataFetcher model -/

namespace Verif.DataFetcher

set_option linter.unusedSimpArgs false

/-- Invariant on the fetcher alone. -/
structure Inv (n t : Int) (f : Fetcher) : Prop where
  hn : f.maxNackRetries = n
  ht : f.maxTimeoutRetries = t
  one : f.isRunning = true →
    (f.pending = 1 ∧ f.timer = none) ∨ (f.pending = 0 ∧ f.timer.isSome = true)
  idle : f.isRunning = false → f.timer = none ∧ f.pending ≤ 1
  cong : f.pending = 1 → f.isRunning = true → f.nCongestionRetries = 0
  delay : ∀ b, f.timer = some b → b = 1
  nn0 : 0 ≤ f.nNacks
  nt0 : 0 ≤ f.nTimeouts
  nni : n = -1 → f.nNacks = 0
  nti : t = -1 → f.nTimeouts = 0
  nnl : f.isRunning = true → f.nNacks ≤ n ∨ f.nNacks = 0
  ntl : f.isRunning = true → f.nTimeouts ≤ t ∨ f.nTimeouts = 0

theorem inv_fetch (n t : Int) : Inv n t (fetch n t).1 := by
  constructor <;> simp [fetch, Fetcher.expressInterest, Fetcher.isRunning] <;> try omega

/-- A fetcher that is not running stays silent. -/
theorem step_idle {n t f} (h : Inv n t f) (hr : f.isRunning = false) {e : Ev} (he : f.enabled e) :
    (f.step e).2 = [] ∧ (f.step e).1.isRunning = false ∧ (f.step e).1.timer = none ∧
    (f.step e).1.pending ≤ f.pending ∧ (f.step e).1.nNacks = f.nNacks ∧
    (f.step e).1.nTimeouts = f.nTimeouts ∧ (f.step e).1.maxNackRetries = f.maxNackRetries ∧
    (f.step e).1.maxTimeoutRetries = f.maxTimeoutRetries ∧
    (f.step e).1.isStopped = f.isStopped ∧ (f.step e).1.hasError = f.hasError := by
  have hi := h.idle hr
  have hr' : (!f.isStopped && !f.hasError) = false := hr
  cases e <;>
    simp [Fetcher.step, Fetcher.handleData, Fetcher.handleNack, Fetcher.handleTimeout,
      Fetcher.cancel, Fetcher.isRunning, Fetcher.enabled, hr', hi] at he ⊢

/-- The possible effects of an event on a running fetcher. -/
inductive Effect (n t : Int) (f : Fetcher) : Ev → Fetcher → List Out → Prop
  | data (f') : f'.isRunning = false → f'.nNacks = f.nNacks → f'.nTimeouts = f.nTimeouts →
      f.pending = 1 → f'.hasError = false → Effect n t f .data f' [.onData]
  | cancel (f') : f'.isRunning = false → f'.nNacks = f.nNacks → f'.nTimeouts = f.nTimeouts →
      Effect n t f .cancel f' []
  | timer (f') : f'.isRunning = true → f.pending = 0 → f'.pending = 1 →
      f'.nNacks = f.nNacks → f'.nTimeouts = f.nTimeouts → Effect n t f .timer f' [.interest]
  | retryTimeout (f') : f'.isRunning = true → f.pending = 1 → f'.pending = 1 →
      f'.nNacks = f.nNacks → (t ≠ -1 → f'.nTimeouts = f.nTimeouts + 1 ∧ f.nTimeouts + 1 ≤ t) →
      Effect n t f .timeout f' [.interest]
  | failTimeout (f') : f'.isRunning = false → f.pending = 1 → f'.nNacks = f.nNacks →
      t ≠ -1 → t < f.nTimeouts + 1 → f'.nTimeouts = f.nTimeouts + 1 →
      f'.hasError = true → f'.isStopped = false →
      Effect n t f .timeout f' [.onTimeout (.maxTimeoutRetries t)]
  | duplicate (f') : f'.isRunning = true → f.pending = 1 → f'.pending = 1 →
      f'.nTimeouts = f.nTimeouts → (n ≠ -1 → f'.nNacks = f.nNacks + 1 ∧ f.nNacks + 1 ≤ n) →
      Effect n t f (.nack .duplicate) f' [.interest]
  | congestion (f') : f'.isRunning = true → f.pending = 1 → f'.pending = 0 →
      f'.nTimeouts = f.nTimeouts → (n ≠ -1 → f'.nNacks = f.nNacks + 1 ∧ f.nNacks + 1 ≤ n) →
      Effect n t f (.nack .congestion) f' []
  | fatal (f') (r) : f'.isRunning = false → f.pending = 1 →
      f'.nTimeouts = f.nTimeouts → (n ≠ -1 → f'.nNacks = f.nNacks + 1 ∧ f.nNacks + 1 ≤ n) →
      r ≠ .duplicate → r ≠ .congestion →
      f'.hasError = true → f'.isStopped = false →
      Effect n t f (.nack r) f' [.onNack (.nack r)]
  | failNack (f') (r) : f'.isRunning = false → f.pending = 1 →
      f'.nTimeouts = f.nTimeouts → n ≠ -1 → n < f.nNacks + 1 → f'.nNacks = f.nNacks + 1 →
      f'.hasError = true → f'.isStopped = false →
      Effect n t f (.nack r) f' [.onNack (.maxNackRetries n)]

theorem step_running {n t f} (h : Inv n t f) (hr : f.isRunning = true) {e : Ev} (he : f.enabled e) :
    Inv n t (f.step e).1 ∧ Effect n t f e (f.step e).1 (f.step e).2 := by
  obtain ⟨hn, ht, one, idle, cong, delay, nn0, nt0, nni, nti, nnl, ntl⟩ := h
  obtain ⟨mn, mt, nk, tm, nc, st, er, pd, ti⟩ := f
  simp only [Fetcher.isRunning, Bool.and_eq_true, Bool.not_eq_true'] at hr
  obtain ⟨rfl, rfl⟩ := hr
  simp only at hn ht
  subst hn ht
  simp [Fetcher.isRunning] at one cong delay nnl ntl nn0 nt0 nni nti
  cases e with
  | cancel =>
    refine ⟨?_, ?_⟩
    · constructor <;> simp [Fetcher.step, Fetcher.cancel, Fetcher.isRunning, *] <;> try omega
    · apply Effect.cancel <;> simp [Fetcher.step, Fetcher.cancel, Fetcher.isRunning]
  | data =>
    simp [Fetcher.enabled] at he
    have : pd = 1 ∧ ti = none := by
      rcases one with h | h
      · exact h
      · omega
    obtain ⟨rfl, rfl⟩ := this
    refine ⟨?_, ?_⟩
    · constructor <;> simp [Fetcher.step, Fetcher.handleData, Fetcher.isRunning, *] <;> try omega
    · apply Effect.data <;> simp [Fetcher.step, Fetcher.handleData, Fetcher.isRunning]
  | timer =>
    simp [Fetcher.enabled] at he
    have : pd = 0 := by
      rcases one with h | h
      · simp [h] at he
      · exact h.1
    subst this
    refine ⟨?_, ?_⟩
    · constructor <;> simp [Fetcher.step, Fetcher.expressInterest, Fetcher.isRunning, *] <;> try omega
    · apply Effect.timer <;> simp [Fetcher.step, Fetcher.expressInterest, Fetcher.isRunning]
  | timeout =>
    simp [Fetcher.enabled] at he
    have : pd = 1 ∧ ti = none := by
      rcases one with h | h
      · exact h
      · omega
    obtain ⟨rfl, rfl⟩ := this
    by_cases h1 : mt = -1
    · subst h1
      have := nti rfl
      subst this
      refine ⟨?_, ?_⟩
      · constructor <;> simp [Fetcher.step, Fetcher.handleTimeout, Fetcher.expressInterest, Fetcher.isRunning, *] <;> try omega
      · apply Effect.retryTimeout <;>
          simp [Fetcher.step, Fetcher.handleTimeout, Fetcher.expressInterest, Fetcher.isRunning]
    · by_cases h2 : tm + 1 ≤ mt
      · refine ⟨?_, ?_⟩
        · constructor <;> simp [Fetcher.step, Fetcher.handleTimeout, Fetcher.expressInterest, Fetcher.isRunning, *] <;> try omega
        · have : (Fetcher.step ⟨mn, mt, nk, tm, nc, false, false, 1, none⟩ .timeout).2 = [.interest] := by
            simp [Fetcher.step, Fetcher.handleTimeout, Fetcher.expressInterest, Fetcher.isRunning, *]
          rw [this]
          apply Effect.retryTimeout <;>
            simp [Fetcher.step, Fetcher.handleTimeout, Fetcher.expressInterest, Fetcher.isRunning, *]
      · refine ⟨?_, ?_⟩
        · constructor <;> simp [Fetcher.step, Fetcher.handleTimeout, Fetcher.expressInterest, Fetcher.isRunning, *] <;> try omega
        · have : (Fetcher.step ⟨mn, mt, nk, tm, nc, false, false, 1, none⟩ .timeout).2 =
              [.onTimeout (.maxTimeoutRetries mt)] := by
            simp [Fetcher.step, Fetcher.handleTimeout, Fetcher.expressInterest, Fetcher.isRunning, *]
          rw [this]
          apply Effect.failTimeout <;>
            simp [Fetcher.step, Fetcher.handleTimeout, Fetcher.expressInterest, Fetcher.isRunning, *] <;> try omega
  | nack r =>
    simp [Fetcher.enabled] at he
    have : pd = 1 ∧ ti = none := by
      rcases one with h | h
      · exact h
      · omega
    obtain ⟨rfl, rfl⟩ := this
    simp at cong
    subst cong
    by_cases h1 : mn = -1
    · subst h1
      have := nni rfl
      subst this
      refine ⟨?_, ?_⟩
      · cases r <;> constructor <;>
          simp [Fetcher.step, Fetcher.handleNack, Fetcher.expressInterest, Fetcher.isRunning,
            maxCongestionBackoffTime, *] <;> try omega
      · cases r
        · apply Effect.fatal <;> simp [Fetcher.step, Fetcher.handleNack, Fetcher.isRunning]
        · have : (Fetcher.step ⟨-1, mt, 0, tm, 0, false, false, 1, none⟩ (.nack .congestion)).2 = [] := by
            simp [Fetcher.step, Fetcher.handleNack, Fetcher.isRunning, maxCongestionBackoffTime]
          rw [this]
          apply Effect.congestion <;>
            simp [Fetcher.step, Fetcher.handleNack, Fetcher.isRunning, maxCongestionBackoffTime]
        · apply Effect.duplicate <;>
            simp [Fetcher.step, Fetcher.handleNack, Fetcher.expressInterest, Fetcher.isRunning]
        · apply Effect.fatal <;> simp [Fetcher.step, Fetcher.handleNack, Fetcher.isRunning]
    · by_cases h2 : nk + 1 ≤ mn
      · refine ⟨?_, ?_⟩
        · cases r <;> constructor <;>
            simp [Fetcher.step, Fetcher.handleNack, Fetcher.expressInterest, Fetcher.isRunning,
              maxCongestionBackoffTime, *] <;> try omega
        · cases r
          · have : (Fetcher.step ⟨mn, mt, nk, tm, 0, false, false, 1, none⟩ (.nack .none)).2 =
                [.onNack (.nack .none)] := by
              simp [Fetcher.step, Fetcher.handleNack, Fetcher.isRunning, *]
            rw [this]
            apply Effect.fatal <;> simp [Fetcher.step, Fetcher.handleNack, Fetcher.isRunning, *]
          · have : (Fetcher.step ⟨mn, mt, nk, tm, 0, false, false, 1, none⟩ (.nack .congestion)).2 = [] := by
              simp [Fetcher.step, Fetcher.handleNack, Fetcher.isRunning, maxCongestionBackoffTime, *]
            rw [this]
            apply Effect.congestion <;>
              simp [Fetcher.step, Fetcher.handleNack, Fetcher.isRunning, maxCongestionBackoffTime, *]
          · have : (Fetcher.step ⟨mn, mt, nk, tm, 0, false, false, 1, none⟩ (.nack .duplicate)).2 =
                [.interest] := by
              simp [Fetcher.step, Fetcher.handleNack, Fetcher.isRunning, Fetcher.expressInterest, *]
            rw [this]
            apply Effect.duplicate <;>
              simp [Fetcher.step, Fetcher.handleNack, Fetcher.expressInterest, Fetcher.isRunning, *]
          · have : (Fetcher.step ⟨mn, mt, nk, tm, 0, false, false, 1, none⟩ (.nack .noRoute)).2 =
                [.onNack (.nack .noRoute)] := by
              simp [Fetcher.step, Fetcher.handleNack, Fetcher.isRunning, *]
            rw [this]
            apply Effect.fatal <;> simp [Fetcher.step, Fetcher.handleNack, Fetcher.isRunning, *]
      · refine ⟨?_, ?_⟩
        · cases r <;> constructor <;>
            simp [Fetcher.step, Fetcher.handleNack, Fetcher.expressInterest, Fetcher.isRunning,
              maxCongestionBackoffTime, *] <;> try omega
        · have : (Fetcher.step ⟨mn, mt, nk, tm, 0, false, false, 1, none⟩ (.nack r)).2 =
                [.onNack (.maxNackRetries mn)] := by
            simp [Fetcher.step, Fetcher.handleNack, Fetcher.isRunning, *]
          rw [this]
          apply Effect.failNack <;> simp [Fetcher.step, Fetcher.handleNack, Fetcher.isRunning, *] <;> try omega

theorem inv_step {n t f} (h : Inv n t f) {e : Ev} (he : f.enabled e) : Inv n t (f.step e).1 := by
  by_cases hr : f.isRunning = true
  · exact (step_running h hr he).1
  · simp only [Bool.not_eq_true] at hr
    obtain ⟨h1, h2, h3, h4, h5, h6, h7, h8, -, -⟩ := step_idle h hr he
    have := h.idle hr
    constructor <;> simp [h2, h3, h5, h6, h7, h8, h.hn, h.ht, h.nn0, h.nt0] <;> try omega 
    · exact h.nni
    · exact h.nti

theorem run_inv {n t es f outs} (h : Run n t es f outs) : Inv n t f := by
  induction h with
  | start => exact inv_fetch n t
  | step e _ he ih => exact inv_step ih he


theorem eff_running {n t f e f' o} (h : Effect n t f e f' o) (hr : f'.isRunning = true) :
    (∀ x ∈ o, x.isReport = false) ∧ e ≠ .cancel := by
  cases h <;> simp_all [Out.isReport]

theorem eff_single {n t f e f' o} (h : Effect n t f e f' o) : o = [] ∨ ∃ x, o = [x] := by
  cases h <;> simp

theorem eff_data {n t f e f' o} (h : Effect n t f e f' o) (ho : Out.onData ∈ o) :
    o = [.onData] ∧ f'.hasError = false ∧ f'.isRunning = false := by
  cases h <;> simp_all

theorem eff_fail {n t f e f' o} (h : Effect n t f e f' o) {m}
    (ho : Out.onNack m ∈ o ∨ Out.onTimeout m ∈ o) :
    f'.hasError = true ∧ f'.isStopped = false ∧ f'.isRunning = false := by
  cases h <;> simp_all

theorem eff_interest {n t f e f' o} (h : Effect n t f e f' o) (ho : Out.interest ∈ o) :
    f'.isRunning = true := by
  cases h <;> simp_all

theorem eff_silent {n t f e f' o} (h : Effect n t f e f' o) (he : e ≠ .cancel) (ho : o = []) :
    f'.isRunning = true := by
  cases h <;> simp_all

theorem eff_nacks {n t f e f' o} (h : Effect n t f e f' o) (hn : n ≠ -1) :
    f'.nNacks = f.nNacks + (if e.isNack then 1 else 0) := by
  cases h <;> simp_all [Ev.isNack]

theorem eff_timeouts {n t f e f' o} (h : Effect n t f e f' o) (hn : t ≠ -1) :
    f'.nTimeouts = f.nTimeouts + (if e = .timeout then 1 else 0) := by
  cases h <;> simp_all

theorem eff_budget {n t f e f' o} (h : Effect n t f e f' o) (hr : f.isRunning = true)
    (hn : n ≠ -1) (ht : t ≠ -1) :
    ((o.count .interest : Nat) : Int) + (if f'.isRunning = true ∧ f'.pending = 0 then 1 else 0)
      - (if f.isRunning = true ∧ f.pending = 0 then 1 else 0)
      ≤ (f'.nNacks - f.nNacks) + (f'.nTimeouts - f.nTimeouts) := by
  cases h <;> simp_all
  split <;> simp

theorem eff_lim {n t f e f' o} (h : Effect n t f e f' o)
    (hn : 0 ≤ n) (ht : 0 ≤ t) (h1 : f.nNacks ≤ n) (h2 : f.nTimeouts ≤ t) :
    Out.interest ∈ o → f'.nNacks ≤ n ∧ f'.nTimeouts ≤ t := by
  have a1 : n ≠ -1 := by omega
  have a2 : t ≠ -1 := by omega
  cases h <;> simp_all

theorem eff_onTimeout {n t f e f' o} (h : Effect n t f e f' o) {m} (hm : Out.onTimeout m ∈ o) :
    t ≠ -1 ∧ m = .maxTimeoutRetries t ∧ t < f.nTimeouts + 1 ∧ e = .timeout := by
  cases h <;> simp_all

theorem eff_onNack {n t f e f' o} (h : Effect n t f e f' o) {k}
    (hm : Out.onNack (.maxNackRetries k) ∈ o) :
    n ≠ -1 ∧ k = n ∧ n < f.nNacks + 1 ∧ e.isNack = true := by
  cases h <;> simp_all [Ev.isNack]

/-- Invariant relating the fetcher to the history. -/
structure HInv (n t : Int) (es : List Ev) (f : Fetcher) (outs : List Out) : Prop where
  fresh : f.isRunning = true → (∀ o ∈ outs, o.isReport = false) ∧ Ev.cancel ∉ es
  last : ∀ pre o post, outs = pre ++ o :: post → o.isReport = true → post = []
  nkr : n ≠ -1 → f.isRunning = true → f.nNacks = (es.countP Ev.isNack : Int)
  tmr : t ≠ -1 → f.isRunning = true → f.nTimeouts = (es.count .timeout : Int)
  budget : n ≠ -1 → t ≠ -1 →
    ((outs.count .interest : Nat) : Int) + (if f.isRunning = true ∧ f.pending = 0 then 1 else 0)
      ≤ 1 + f.nNacks + f.nTimeouts
  lim : 0 ≤ n → 0 ≤ t → ((outs.count .interest : Nat) : Int) ≤ 1 + n + t
  rt : ∀ m, Out.onTimeout m ∈ outs →
    t ≠ -1 ∧ m = .maxTimeoutRetries t ∧ t + 1 ≤ (es.count .timeout : Int)
  rn : ∀ k, Out.onNack (.maxNackRetries k) ∈ outs →
    n ≠ -1 ∧ k = n ∧ n + 1 ≤ (es.countP Ev.isNack : Int)

theorem run_hinv {n t es f outs} (h : Run n t es f outs) : HInv n t es f outs := by
  induction h with
  | start =>
    constructor
    · simp [fetch, Fetcher.expressInterest, Fetcher.isRunning, Out.isReport]
    · intro pre o post hh ho
      rcases pre with _ | ⟨a, pre⟩
      · simp [fetch, Fetcher.expressInterest] at hh; simp [hh]
      · simp [fetch, Fetcher.expressInterest] at hh
    · simp [fetch, Fetcher.expressInterest]
    · simp [fetch, Fetcher.expressInterest]
    · simp [fetch, Fetcher.expressInterest]
    · intro hn ht; simp [fetch, Fetcher.expressInterest]; omega
    · simp [fetch, Fetcher.expressInterest]
    · simp [fetch, Fetcher.expressInterest]
  | @step es f outs e hrun he ih =>
    have hi := run_inv hrun
    have hi' := inv_step hi he
    by_cases hr : f.isRunning = true
    · have hfresh := ih.fresh hr
      have heff := (step_running hi hr he).2
      generalize hf' : (f.step e).1 = f' at heff hi'
      generalize ho : (f.step e).2 = o at heff
      have hlast : ∀ x : Out, ∀ pre o post, outs ++ [x] = pre ++ o :: post → o.isReport = true → post = [] := by
        intro x pre o post hh ho
        rcases List.eq_nil_or_concat post with hp | ⟨post', y, rfl⟩
        · exact hp
        · exfalso
          have h2 : outs ++ [x] = (pre ++ o :: post') ++ [y] := by simp [hh]
          have h3 := (List.append_inj' h2 rfl).1
          have := hfresh.1 o (by simp [h3])
          simp [this] at ho
      have hlast0 : ∀ pre o post, outs ++ [] = pre ++ o :: post → o.isReport = true → post = [] := by
        intro pre o post hh ho
        exact ih.last pre o post (by simpa using hh) ho
      have hnt : ∀ m, Out.onTimeout m ∉ outs := fun m hm => by
        have := hfresh.1 _ hm; simp [Out.isReport] at this
      have hnn : ∀ m, Out.onNack m ∉ outs := fun m hm => by
        have := hfresh.1 _ hm; simp [Out.isReport] at this
      constructor
      · intro hr'
        have := eff_running heff hr'
        refine ⟨?_, ?_⟩
        · intro x hx
          rcases List.mem_append.1 hx with hx | hx
          · exact hfresh.1 x hx
          · exact this.1 x hx
        · simp only [List.mem_append, List.mem_singleton, not_or]
          exact ⟨hfresh.2, fun h => this.2 h.symm⟩
      · rcases eff_single heff with h | ⟨x, h⟩
        · rw [h]; exact hlast0
        · rw [h]; exact hlast x
      · intro hn _
        rw [eff_nacks heff hn, ih.nkr hn hr, List.countP_append]
        by_cases h : e.isNack = true <;> simp [h]
      · intro hn _
        rw [eff_timeouts heff hn, ih.tmr hn hr, List.count_append]
        by_cases h : e = .timeout <;> simp [h]
      · intro hn ht
        have h1 := ih.budget hn ht
        have h2 := eff_budget heff hr hn ht
        rw [List.count_append]
        push_cast
        omega
      · intro hn ht
        have h1 := ih.budget (by omega) (by omega)
        have h2 := eff_budget heff hr (by omega) (by omega)
        have h3 := ih.lim hn ht
        have h4 := hi.nnl hr
        have h5 := hi.ntl hr
        have h6 := eff_lim heff hn ht (by omega) (by omega)
        rw [List.count_append]
        push_cast
        by_cases h7 : Out.interest ∈ o
        · have := h6 h7
          split at h2 <;> omega
        · have := List.count_eq_zero_of_not_mem h7
          omega
      · intro m hm
        rcases List.mem_append.1 hm with hm | hm
        · exact absurd hm (hnt m)
        · obtain ⟨h1, h2, h3, rfl⟩ := eff_onTimeout heff hm
          refine ⟨h1, h2, ?_⟩
          rw [ih.tmr h1 hr] at h3
          simp [List.count_append]
          omega
      · intro m hm
        rcases List.mem_append.1 hm with hm | hm
        · exact absurd hm (hnn _)
        · obtain ⟨h1, h2, h3, h4⟩ := eff_onNack heff hm
          refine ⟨h1, h2, ?_⟩
          rw [ih.nkr h1 hr] at h3
          simp [List.countP_append, h4]
          omega
    · simp only [Bool.not_eq_true] at hr
      obtain ⟨h1, h2, h3, h4, h5, h6, h7, h8, -, -⟩ := step_idle hi hr he
      rw [h1, List.append_nil]
      constructor
      · simp [h2]
      · exact ih.last
      · simp [h2]
      · simp [h2]
      · have := ih.budget
        simpa [h2, hr, h5, h6] using this
      · exact ih.lim
      · intro m hm
        have := ih.rt m hm
        refine ⟨this.1, this.2.1, ?_⟩
        have h9 : es.count .timeout ≤ (es ++ [e]).count .timeout := by simp [List.count_append]
        omega
      · intro m hm
        have := ih.rn m hm
        refine ⟨this.1, this.2.1, ?_⟩
        have h9 : es.countP Ev.isNack ≤ (es ++ [e]).countP Ev.isNack := by simp [List.countP_append]
        omega

theorem run_append {n t es es' f outs f' outs'} (h : Run n t es f outs)
    (h' : Run n t (es ++ es') f' outs') (P : f.isRunning = false) :
    outs' = outs ∧ f'.isRunning = false := by
  induction es' using List.reverseRecOn generalizing f' outs' with
  | nil =>
    simp only [List.append_nil] at h'
    have key : ∀ {es f outs}, Run n t es f outs → ∀ {f' outs'}, Run n t es f' outs' →
        f' = f ∧ outs' = outs := by
      intro es f outs h
      induction h with
      | start =>
        intro f' outs' h'
        generalize hes : ([] : List Ev) = es0 at h'
        cases h' with
        | start => exact ⟨rfl, rfl⟩
        | step e _ _ => simp at hes
      | @step es f outs e hrun he ih =>
        intro f' outs' h'
        generalize hes : es ++ [e] = es0 at h'
        cases h' with
        | start => simp at hes
        | @step es2 f2 outs2 e2 h2 he2 =>
          have := List.append_inj' hes rfl
          obtain ⟨rfl, h3⟩ := this
          simp only [List.cons.injEq, and_true] at h3
          subst h3
          obtain ⟨rfl, rfl⟩ := ih h2
          exact ⟨rfl, rfl⟩
    obtain ⟨rfl, rfl⟩ := key h h'
    exact ⟨rfl, P⟩
  | append_singleton es' e ih =>
    generalize hes : es ++ (es' ++ [e]) = es0 at h'
    cases h' with
    | start => simp at hes
    | @step es2 f2 outs2 e2 h2 he2 =>
      rw [← List.append_assoc] at hes
      obtain ⟨rfl, h3⟩ := List.append_inj' hes rfl
      obtain ⟨rfl, hnr⟩ := ih h2
      have := step_idle (run_inv h2) hnr he2
      simp [this]

/-- What is reported, in terms of the events. -/
structure Rep (es : List Ev) (f : Fetcher) (outs : List Out) : Prop where
  over : f.isRunning = false → Ev.cancel ∈ es ∨ ∃ o ∈ outs, o.isReport = true
  gone : Ev.data ∈ es → f.isRunning = false
  dat : Out.onData ∈ outs → Ev.data ∈ es
  nck : ∀ r, Out.onNack (.nack r) ∈ outs → Ev.nack r ∈ es ∧ r ≠ .duplicate ∧ r ≠ .congestion
  msg : ∀ m, Out.onNack m ∈ outs → (∃ r, m = .nack r) ∨ ∃ k, m = .maxNackRetries k

theorem eff_rep {n t f e f' o} (h : Effect n t f e f' o) :
    (f'.isRunning = false → e = .cancel ∨ ∃ x ∈ o, x.isReport = true) ∧
    (e = .data → f'.isRunning = false) ∧ (Out.onData ∈ o → e = .data) ∧
    (∀ r, Out.onNack (.nack r) ∈ o → e = .nack r ∧ r ≠ .duplicate ∧ r ≠ .congestion) ∧
    (∀ m, Out.onNack m ∈ o → (∃ r, m = .nack r) ∨ ∃ k, m = .maxNackRetries k) := by
  cases h <;> simp_all [Out.isReport]

theorem run_rep {n t es f outs} (h : Run n t es f outs) : Rep es f outs := by
  induction h with
  | start =>
    constructor <;> simp [fetch, Fetcher.expressInterest, Fetcher.isRunning]
  | @step es f outs e hrun he ih =>
    have hi := run_inv hrun
    obtain ⟨a1, a2, a3, a4, a5⟩ := ih
    by_cases hr : f.isRunning = true
    · obtain ⟨b1, b2, b3, b4, b5⟩ := eff_rep (step_running hi hr he).2
      constructor
      · intro h
        rcases b1 h with h | ⟨x, hx, h⟩
        · left; simp [h]
        · right; exact ⟨x, List.mem_append_right _ hx, h⟩
      · intro h
        rcases List.mem_append.1 h with h | h
        · rw [a2 h] at hr; simp at hr
        · exact b2 (List.mem_singleton.1 h).symm
      · intro h
        rcases List.mem_append.1 h with h | h
        · exact List.mem_append_left _ (a3 h)
        · simp [b3 h]
      · intro r h
        rcases List.mem_append.1 h with h | h
        · exact ⟨List.mem_append_left _ (a4 r h).1, (a4 r h).2⟩
        · have := b4 r h
          exact ⟨by simp [this.1], this.2⟩
      · intro m h
        rcases List.mem_append.1 h with h | h
        · exact a5 m h
        · exact b5 m h
    · simp only [Bool.not_eq_true] at hr
      obtain ⟨h1, h2, -⟩ := step_idle hi hr he
      rw [h1, List.append_nil]
      constructor
      · intro _
        rcases a1 hr with h | h
        · left; simp [h]
        · exact Or.inr h
      · intro _; exact h2
      · intro h; exact List.mem_append_left _ (a3 h)
      · intro r h; exact ⟨List.mem_append_left _ (a4 r h).1, (a4 r h).2⟩
      · exact a5

theorem exec_run {n t : Int} {es : List Ev} {f outs} (h : exec n t es = some (f, outs)) :
    Run n t es f outs := by
  induction es using List.reverseRecOn generalizing f outs with
  | nil =>
    simp only [exec, List.foldl_nil, Option.some.injEq] at h
    have h1 := congrArg Prod.fst h
    have h2 := congrArg Prod.snd h
    simp only at h1 h2
    subst h1 h2
    exact Run.start
  | append_singleton es e ih =>
    simp only [exec, List.foldl_append, List.foldl_cons, List.foldl_nil] at h
    simp only [exec] at ih
    split at h
    · simp at h
    · rename_i f0 outs0 heq
      split at h
      · rename_i he
        simp only [Option.some.injEq, Prod.mk.injEq] at h
        obtain ⟨rfl, rfl⟩ := h
        exact Run.step e (ih heq) he
      · simp at h

end Verif.DataFetcher
