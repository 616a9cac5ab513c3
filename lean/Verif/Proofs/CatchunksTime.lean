import Verif.Spec.CatchunksTime
import Verif.Proofs.FixedTime
import Verif.Proofs.CatchunksLive

/-! # `ndncatchunks` with a clock -/

namespace Verif.CatchunksTime

open Catchunks DataFetcher
open FetchTime (limit dueAt Acct)
open FixedTime (FInv)
open Fixed (At)

variable {life d N R : Nat} {disable : Bool} {name : Name}

theorem proj {late : Option Nat} {R : Int} {es s} (h : (machine late life N R disable name).Run es s) :
    (Catchunks.machine (fixedPipe N R) ⟨disable, R⟩ name).Run (es.map (·.ev)) s.c := by
  induction h with
  | nil => exact .nil
  | @snoc es s e _ he ih =>
    rw [List.map_append]
    have : ((machine late life N R disable name).step s e).c = (Catchunks.machine (fixedPipe N R) ⟨disable, R⟩ name).step s.c e.ev := by
      show (St.step N R s e).c = _
      unfold St.step
      dsimp only
      split
      · rfl
      · split <;> rfl
    rw [this]
    exact .snoc (M := Catchunks.machine (fixedPipe N R) ⟨disable, R⟩ name) e.ev ih he.1.1

/-- Only time passes. -/
theorem finv_time {B : Nat} {s : FixedTime.St} (h : FInv life d N R B s) {t : Nat} (ht : s.now ≤ t)
    (hd : ∀ i f k, At s.p i f k → f.isRunning = true → t ≤ dueAt life f (s.sentAt k) (s.setAt i) + d) :
    FInv life d N R B { s with now := t } := by
  refine ⟨h.inv, h.keys, fun k u hm => Nat.le_trans (h.past k u hm) ht, h.setLen, ?_⟩
  intro i f k ha hr
  obtain ⟨t0, hs⟩ := h.slot i f k ha hr
  have h1 := FetchTime.acct_due (h.inv.core.fet i f k ha) hr hs.acct
  have h2 := hd i f k ha hr
  exact ⟨t0, hs.mem, hs.first, hs.base, hs.acct, by dsimp only; omega, h2⟩

/-- A fetch that reports has no pending Interest. -/
theorem no_pending {n t f} (h : DataFetcher.Inv n t f) (hr : f.isRunning = true) {e : DataFetcher.Ev} (he : f.enabled e)
    (hc : e ≠ .cancel) (hr' : (f.step e).1.isRunning = false) : (f.step e).1.pending = 0 := by
  have h1 := h.one hr
  clear h
  obtain ⟨mn, mt, nk, tm, nc, st, er, pd, ti⟩ := f
  simp only [Fetcher.isRunning, Bool.and_eq_true, Bool.not_eq_true'] at hr
  obtain ⟨rfl, rfl⟩ := hr
  dsimp only at h1
  cases e with
  | cancel => exact absurd rfl hc
  | timer => simp [Fetcher.step, Fetcher.expressInterest, Fetcher.isRunning] at hr'
  | data =>
    simp [Fetcher.enabled] at he
    simp [Fetcher.step, Fetcher.handleData, Fetcher.isRunning]
    omega
  | nack r =>
    simp only [Fetcher.enabled] at he
    have hp : pd - 1 = 0 := by omega
    revert hr'
    simp only [Fetcher.step, Fetcher.handleNack, Fetcher.isRunning, Fetcher.expressInterest, hp]
    by_cases h2 : mn = -1
    · cases r <;> simp [h2] <;> split <;> simp
    · by_cases h3 : nk + 1 ≤ mn
      · cases r <;> simp [h2, h3] <;> split <;> simp
      · simp [h2, h3]
  | timeout =>
    simp only [Fetcher.enabled] at he
    have hp : pd - 1 = 0 := by omega
    revert hr'
    simp only [Fetcher.step, Fetcher.handleTimeout, Fetcher.isRunning, Fetcher.expressInterest, hp]
    by_cases h2 : mt = -1
    · simp [h2]
    · by_cases h3 : tm + 1 ≤ mt
      · simp [h2, h3]
      · simp [h2, h3]

theorem contains_react (m : Discover.Meta) (outs : List Out) :
    (outs.map (Discover.react m)).contains .interest = outs.contains .interest := by
  induction outs with
  | nil => rfl
  | cons o outs ih =>
    rw [List.map_cons, List.contains_cons, List.contains_cons, ih]
    congr 1
    cases o with
    | interest => rfl
    | onData =>
      simp only [Discover.react, Discover.handleData]
      split
      · rfl
      · split <;> rfl
    | onNack r => rfl
    | onTimeout r => rfl

structure CInv (life d N R : Nat) (s : St) : Prop where
  disc : ∀ f, s.c.disc.fetcher = some f →
    (f.isRunning = true → Acct life d f s.sent s.set 0 ∧ s.now ≤ dueAt life f s.sent s.set + d) ∧
    (f.isRunning = false → f.pending = 0)
  pipe : ∀ n q, s.c.pipe = some (n, q) → FInv life d N R (limit life d R R) (s.pipe q) ∧
    (q.posted ≠ [] → s.now ≤ limit life d R R + (q.nReceived + 1) * limit life d R R)

/-- An event that makes the pipeline post a failure reaches a running fetch. -/
theorem posts {q : Fixed.St} (hI : Fixed.Inv N R q) (h0 : q.posted = []) {e : Fixed.Ev} (he : q.enabled e)
    (hu : (fixedPipe N R).byUser e = false) (h1 : (q.step e).posted ≠ []) : ∃ i f k, At q i f k ∧ f.isRunning = true := by
  have key : ∀ i fe p c, q.slotEnabled i fe → (q.fetcherEvent i fe p c).posted ≠ [] → ∃ i f k, At q i f k ∧ f.isRunning = true := by
    intro i fe p c hen hne
    unfold Fixed.St.slotEnabled at hen
    split at hen
    · rename_i f k ha
      by_contra hc
      have hr : f.isRunning = false := by
        by_contra hr
        exact hc ⟨i, f, k, ha, by simpa using hr⟩
      have := (step_idle (hI.core.fet i f k ha) hr hen).1
      unfold Fixed.St.fetcherEvent at hne
      rw [ha] at hne
      dsimp only at hne
      rw [this] at hne
      exact hne h0
    · exact hen.elim
  unfold Fixed.St.step at h1
  split at h1
  · exact absurd h0 h1
  · cases e with
    | data i p c => exact key _ _ _ _ he h1
    | nack i r => exact key _ _ _ _ he h1
    | timeout i => exact key _ _ _ _ he h1
    | timer i => exact key _ _ _ _ he h1
    | cancel => simp [fixedPipe] at hu
    | posted => exact absurd h0 he

theorem received_mono {q : Fixed.St} (hI : Fixed.Inv N R q) {e : Fixed.Ev} (hI' : Fixed.Inv N R (q.step e)) :
    q.nReceived ≤ (q.step e).nReceived := by
  rw [hI.core.cnt, hI'.core.cnt]
  obtain ⟨t, ht⟩ := Fixed.step_ext q e
  rw [← ht]
  unfold Fixed.received
  rw [List.filterMap_append, List.length_append]
  omega

theorem cinv_disc {s : St} {es} (hrun : (Catchunks.machine (fixedPipe N R) ⟨disable, R⟩ name).Run es s.c) (hN : 0 < N)
    (h : CInv life d N R s) {e : Discover.Ev} {t : Nat} (he : s.enabled (some d) life N R name ⟨.disc e, t⟩) :
    CInv life d N R (s.step N R ⟨.disc e, t⟩) := by
  obtain ⟨⟨⟨hne, hen⟩, -⟩, e2, e3, e4⟩ := he
  obtain ⟨⟨f, hf, hfe⟩, -⟩ := hen
  obtain ⟨_, hdr, -⟩ := (prog_inv (fixed_proper hN) (run_env hrun)).disc
  have hI : DataFetcher.Inv R R f := disc_fetcher_inv hdr hf
  obtain ⟨hA, hP⟩ := h.disc f hf
  have hrun : f.isRunning = true := by
    by_contra hr
    have hr : f.isRunning = false := by simpa using hr
    have hp := hP hr
    have ht := (hI.idle hr).1
    cases e <;> simp [Discover.Ev.toFetch, Fetcher.enabled, hp, ht] at hfe
  obtain ⟨hA, hd0⟩ := hA hrun
  have hdue : t ≤ dueAt life f s.sent s.set + d := (e3 f hf).2.2 d rfl hrun
  have hpn : s.c.pipe = none := by
    cases hp : s.c.pipe with
    | none => rfl
    | some nq =>
      have := (prog_inv (fixed_proper hN) (run_env ‹_›)).after nq.1 nq.2 hp
      have := (disc_idle hdr this.1 f hf).1
      rw [hrun] at this; cases this
  have hds : s.c.disc.step e = { fetcher := some (f.step e.toFetch).1, log := s.c.disc.log ++ (f.step e.toFetch).2.map (Discover.react e.meta) } := by
    unfold Discover.St.step
    rw [hf]
  have hcd : (s.c.step (fixedPipe N R) (.disc e)).disc = s.c.disc.step e := (fold_pipe _ _ _).1
  have hcp : (s.c.step (fixedPipe N R) (.disc e)).pipe = none ∨
      ∃ n, (s.c.step (fixedPipe N R) (.disc e)).pipe = some (n, Fixed.start N R) := by
    rcases (fold_pipe (fixedPipe N R) ((s.c.disc.step e).log.drop s.c.disc.log.length) { s.c with disc := s.c.disc.step e }).2 with h | ⟨n, h⟩
    · left; rw [← hpn]; exact h
    · exact .inr ⟨n, h⟩
  have hstep : s.step N R ⟨.disc e, t⟩ =
      { c := s.c.step (fixedPipe N R) (.disc e)
        now := t
        sent := if (f.step e.toFetch).2.contains .interest then t else s.sent
        set := if f.timer.isNone && (f.step e.toFetch).1.timer.isSome then t else s.set
        psent := if (s.c.step (fixedPipe N R) (.disc e)).pipe.isSome then (FixedTime.init t N R).sent else s.psent
        pset := if (s.c.step (fixedPipe N R) (.disc e)).pipe.isSome then (FixedTime.init t N R).set else s.pset } := by
    unfold St.step
    dsimp only
    rw [hcd, hds, hpn]
    dsimp only
    rw [List.drop_left, contains_react]
    simp only [discTimer, hf, Option.bind_some, Option.isNone_none, Bool.true_and]
  rw [hstep]
  refine ⟨?_, ?_⟩
  · intro f' hf'
    dsimp only at hf' ⊢
    rw [hcd, hds] at hf'
    simp only [Option.some.injEq] at hf'
    subst hf'
    refine ⟨fun hr' => ⟨FetchTime.acct_step hI hrun hfe hA hdue hr', ?_⟩,
      fun hr' => no_pending hI hrun hfe (by cases e <;> simp [Discover.Ev.toFetch]) hr'⟩
    unfold dueAt
    cases htm : (f.step e.toFetch).1.timer with
    | none =>
      dsimp only
      rw [if_pos (FixedTime.sends_again hI hrun hfe hr' htm)]
      omega
    | some b =>
      dsimp only
      rw [(FixedTime.timer_nack hI hrun hfe hr' (by rw [htm]; rfl)).1]
      simp
      omega
  · intro n q hq
    dsimp only at hq ⊢
    rcases hcp with h | ⟨n', h⟩
    · rw [h] at hq; cases hq
    · rw [h] at hq
      simp only [Option.some.injEq, Prod.mk.injEq] at hq
      obtain ⟨rfl, rfl⟩ := hq
      have hB : t ≤ limit life d R R := by
        have := FetchTime.acct_due hI hrun hA
        omega
      refine ⟨?_, ?_⟩
      · have := FixedTime.finv_init (life := life) (d := d) (R := R) hB hN
        unfold St.pipe
        dsimp only
        rw [h]
        exact this
      · exact fun _ => by omega

theorem cinv_pipe {s : St} {es} (hrun : (Catchunks.machine (fixedPipe N R) ⟨disable, R⟩ name).Run es s.c) (hN : 0 < N)
    (h : CInv life d N R s) {e : Fixed.Ev} {t : Nat} (he : s.enabled (some d) life N R name ⟨.pipe e, t⟩) :
    CInv life d N R (s.step N R ⟨.pipe e, t⟩) := by
  obtain ⟨⟨⟨hne, n, q, hp, hqe, hu⟩, -⟩, e2, e3, e4⟩ := he
  have hqe : q.enabled e := hqe
  obtain ⟨hF, hpost⟩ := h.pipe n q hp
  obtain ⟨e5, e6⟩ := e4 n q hp
  obtain ⟨-, ⟨qes, hqr⟩, -⟩ := (prog_inv (fixed_proper hN) (run_env hrun)).after n q hp
  have hH := Fixed.run_hist (fixed_run hqr)
  have hen : (s.pipe q).enabled (some d) life ⟨e, t⟩ := by
    refine ⟨hqe, e2, ?_⟩
    intro i f k ha
    obtain ⟨a, b, c⟩ := e5 i f k ha
    exact ⟨fun hx => a (congrArg _ hx), fun hx => b (congrArg _ hx), c⟩
  have hF' := FixedTime.finv_step hF hen
  have hc : s.c.step (fixedPipe N R) (.pipe e) =
      { s.c with pipe := some (n, q.step e), cons := (((fixedPipe N R).calls (q.step e)).drop ((fixedPipe N R).calls q).length).foldl deliver s.c.cons } := by
    unfold Catchunks.St.step
    rw [hp]
    rfl
  have hstep : s.step N R ⟨.pipe e, t⟩ =
      { s with c := s.c.step (fixedPipe N R) (.pipe e), now := t
               psent := ((s.pipe q).step ⟨e, t⟩).sent, pset := ((s.pipe q).step ⟨e, t⟩).set } := by
    unfold St.step
    dsimp only
    rw [hp]
  rw [hstep, hc]
  refine ⟨?_, ?_⟩
  · intro f hf
    dsimp only at hf ⊢
    obtain ⟨a, b⟩ := h.disc f hf
    exact ⟨fun hr => ⟨(a hr).1, (e3 f hf).2.2 d rfl hr⟩, b⟩
  · intro n' q' hq
    simp only [Option.some.injEq, Prod.mk.injEq] at hq
    obtain ⟨rfl, rfl⟩ := hq
    refine ⟨hF', ?_⟩
    intro hpp
    dsimp only
    have hmono := received_mono hF.inv (e := e) hF'.inv
    by_cases h0 : q.posted = []
    · obtain ⟨i, f, k, ha, hr⟩ := posts hF.inv h0 hqe hu hpp
      obtain ⟨t0, hs⟩ := hF.slot i f k ha hr
      have h1 := FetchTime.acct_due (hF.inv.core.fet i f k ha) hr hs.acct
      have h2 : t ≤ dueAt life f ((s.pipe q).sentAt k) ((s.pipe q).setAt i) + d := (e5 i f k ha).2.2 d rfl hr
      have h3 := hs.base
      have hmono : q.nReceived ≤ (q.step e).nReceived := hmono
      have h4 : (q.nReceived + 1) * limit life d R R ≤ ((q.step e).nReceived + 1) * limit life d R R :=
        Nat.mul_le_mul_right _ (by omega)
      rw [Nat.add_mul] at h4
      have h5 : (s.pipe q).p.nReceived = q.nReceived := rfl
      rw [h5] at h3
      omega
    · exfalso
      have hst : q.isStopping = true := by
        by_contra hs
        exact h0 (hH.quiet (by simpa using hs)).1
      have hsl := hF.inv.core.stop hst
      have hsl : q.slots = [] := hsl
      have honce := hH.once
      have hp1 : q.posted.length ≠ 0 := fun h => h0 (List.eq_nil_of_length_eq_zero h)
      cases e with
      | posted =>
        unfold Fixed.St.step at hpp
        split at hpp
        · rename_i ht
          apply hne
          right
          refine ⟨n, q, hp, ?_⟩
          have hub := hF.inv.core.noub
          have hub : q.ub = false := hub
          rw [hub, Bool.or_false] at ht
          exact ht
        · dsimp only at hpp
          cases hq : q.posted with
          | nil => exact h0 hq
          | cons m rest =>
            rw [hq] at hpp
            rw [hq] at honce
            simp only [List.length_cons] at honce
            have : rest = [] := List.eq_nil_of_length_eq_zero (by omega)
            subst this
            exact hpp rfl
      | cancel => simp [fixedPipe] at hu
      | data i p c => simp [Fixed.St.enabled, Fixed.St.slotEnabled, hsl] at hqe
      | nack i r => simp [Fixed.St.enabled, Fixed.St.slotEnabled, hsl] at hqe
      | timeout i => simp [Fixed.St.enabled, Fixed.St.slotEnabled, hsl] at hqe
      | timer i => simp [Fixed.St.enabled, Fixed.St.slotEnabled, hsl] at hqe

theorem run_cinv (hN : 0 < N) {es s} (h : (machine (some d) life N R disable name).Run es s) : CInv life d N R s := by
  induction h with
  | nil =>
    refine ⟨?_, ?_⟩
    · intro f hf
      have h0 : (init N R disable name).c.disc = Discover.start ⟨disable, R⟩ name := (fold_pipe _ _ _).1
      rw [show (machine (some d) life N R disable name).init = init N R disable name from rfl] at hf ⊢
      rw [h0] at hf
      unfold Discover.start at hf
      split at hf
      · cases hf
      · dsimp only at hf
        cases hf
        refine ⟨fun _ => ⟨FetchTime.acct_fetch _ _, Nat.zero_le _⟩, fun hr => by cases hr⟩
    · intro n q hq
      rcases (fold_pipe (fixedPipe N R) (Discover.start ⟨disable, R⟩ name).log
        { disc := Discover.start ⟨disable, R⟩ name, pipe := none, cons := {} }).2 with h1 | ⟨n', h1⟩
      · rw [show (machine (some d) life N R disable name).init.c.pipe = none from h1] at hq
        cases hq
      · rw [show (machine (some d) life N R disable name).init.c.pipe = some (n', Fixed.start N R) from h1] at hq
        simp only [Option.some.injEq, Prod.mk.injEq] at hq
        obtain ⟨rfl, rfl⟩ := hq
        refine ⟨?_, fun _ => Nat.zero_le _⟩
        have := FixedTime.finv_init (life := life) (d := d) (R := R) (Nat.zero_le (limit life d R R)) hN
        have h2 : (start (fixedPipe N R) ⟨disable, R⟩ name).pipe = some (n', Fixed.start N R) := h1
        show FInv _ _ _ _ _ ((init N R disable name).pipe _)
        unfold St.pipe init
        dsimp only
        rw [h2]
        exact this
  | @snoc es s e hr he ih =>
    obtain ⟨ev, t⟩ := e
    cases ev with
    | disc e => exact cinv_disc (proj hr) hN ih he
    | pipe e => exact cinv_pipe (proj hr) hN ih he

/-! ## Something can happen, and not too late -/

theorem not_terminated {s : St} (h : ¬ s.Terminated N R) : ¬ s.c.ended (fixedPipe N R) ∧ ¬ s.c.idle (fixedPipe N R) := by
  have hc : s.c.cons.threw = none := by
    cases hc : s.c.cons.threw with
    | none => rfl
    | some x =>
      exfalso; apply h
      unfold St.Terminated Catchunks.St.Exits
      rw [hc]
      cases x <;> exact ⟨_, rfl⟩
  have he : ¬ s.c.ended (fixedPipe N R) := by
    intro he
    apply h
    refine ⟨1, ?_⟩
    unfold Catchunks.St.Exits
    rw [hc]
    exact .inl ⟨he, rfl⟩
  refine ⟨he, fun hi => h ⟨0, ?_⟩⟩
  unfold Catchunks.St.Exits
  rw [hc]
  exact .inr ⟨he, hi, rfl⟩

theorem busy_running {n t f} (h : DataFetcher.Inv n t f) (hb : ¬ fetchIdle f) : f.isRunning = true := by
  by_contra hr
  have hr : f.isRunning = false := by simpa using hr
  exact hb ⟨(h.idle hr).1, fun hx => by rw [hr] at hx; cases hx⟩

/-- The event brings no Data. -/
def NoData : Catchunks.Ev Fixed.Ev → Prop
  | .disc (.data _) => False
  | .pipe (.data _ _ _) => False
  | _ => True

/-- Where the waiting ends. -/
theorem next_event (hN : 0 < N) {es s} (h : (machine (some d) life N R disable name).Run es s) (ht : ¬ s.Terminated N R) :
    (∃ e, s.enabled (some d) life N R name e ∧ NoData e.ev) ∧
    ∀ e, s.enabled (some d) life N R name e → e.t ≤ (s.delivered + 2) * limit life d R R + d := by
  obtain ⟨hne, hni⟩ := not_terminated ht
  have hC := run_cinv hN h
  have hP := prog_inv (fixed_proper hN) (run_env (proj h))
  obtain ⟨_, hdr, -⟩ := hP.disc
  by_cases hdi : ∀ f, s.c.disc.fetcher = some f → fetchIdle f
  · have hdn : ∀ f, s.c.disc.fetcher = some f → f.isRunning = true → False := by
      intro f hf hr
      have hI : DataFetcher.Inv R R f := disc_fetcher_inv hdr hf
      have h1 := hI.one hr
      obtain ⟨h2, h3⟩ := hdi f hf
      have h3 := h3 hr
      rcases h1 with h1 | h1
      · omega
      · rw [h2] at h1; exact absurd h1.2 (by simp)
    have hpi : ∃ n q, s.c.pipe = some (n, q) ∧ ¬ (fixedPipe N R).idle q := by
      by_contra hc
      exact hni ⟨hdi, fun n q hq => by
        by_contra hx
        exact hc ⟨n, q, hq, hx⟩⟩
    obtain ⟨n, q, hq, hqi⟩ := hpi
    obtain ⟨hF, hpost⟩ := hC.pipe n q hq
    have hdel : s.delivered = q.nReceived := by
      unfold St.delivered
      rw [hq]
      exact hF.inv.core.cnt.symm
    obtain ⟨-, ⟨qes, hqr⟩, -⟩ := hP.after n q hq
    have hH := Fixed.run_hist (fixed_run hqr)
    rw [hdel, show q.nReceived + 2 = (q.nReceived + 1) + 1 from rfl, Nat.add_mul]
    by_cases h0 : q.posted = []
    · have hrun : ∃ u, ∃ i f k, At q i f k ∧ f.isRunning = true ∧ dueAt life f ((s.pipe q).sentAt k) ((s.pipe q).setAt i) = u := by
        by_contra hc
        apply hqi
        refine ⟨h0, ?_⟩
        intro x hx f k hxe
        subst hxe
        obtain ⟨i, hi⟩ := List.mem_iff_getElem?.mp hx
        by_contra hb
        exact hc ⟨_, i, f, k, hi, busy_running (hF.inv.core.fet i f k hi) hb, rfl⟩
      classical
      obtain ⟨i, f, k, ha, hr, hu⟩ := Nat.find_spec hrun
      have hmin : ∀ j f' k', At q j f' k' → f'.isRunning = true →
          Nat.find hrun ≤ dueAt life f' ((s.pipe q).sentAt k') ((s.pipe q).setAt j) :=
        fun j f' k' ha' hr' => Nat.find_min' hrun ⟨j, f', k', ha', hr', rfl⟩
      generalize Nat.find hrun = u at hu hmin
      obtain ⟨t0, hs⟩ := hF.slot i f k ha hr
      have hI := hF.inv.core.fet i f k ha
      have hone := hI.one hr
      refine ⟨?_, ?_⟩
      · have key : ∀ ev : Fixed.Ev, (ev = .timeout i ∧ f.timer = none ∨ ev = .timer i ∧ f.timer.isSome = true) →
            s.enabled (some d) life N R name ⟨.pipe ev, max s.now u⟩ := by
          intro ev hev
          refine ⟨⟨⟨hne, n, q, hq, ?_, ?_⟩, hni⟩, Nat.le_max_left _ _, ?_, ?_⟩
          · show q.enabled ev
            unfold Fixed.St.enabled
            rcases hev with ⟨rfl, hev⟩ | ⟨rfl, hev⟩
            · dsimp only
              unfold Fixed.St.slotEnabled
              rw [show q.slots[i]? = some (some (f, k)) from ha]
              rcases hone with hone | hone
              · show 0 < f.pending
                omega
              · rw [hev] at hone; exact absurd hone.2 (by simp)
            · dsimp only
              unfold Fixed.St.slotEnabled
              rw [show q.slots[i]? = some (some (f, k)) from ha]
              exact hev
          · rcases hev with ⟨rfl, -⟩ | ⟨rfl, -⟩ <;> rfl
          · intro f' hf'
            refine ⟨(by simp), (by simp), ?_⟩
            intro d' _ hr'
            exact (hdn f' hf' hr').elim
          · intro n' q' hq'
            rw [hq] at hq'
            simp only [Option.some.injEq, Prod.mk.injEq] at hq'
            obtain ⟨rfl, rfl⟩ := hq'
            refine ⟨?_, fun _ _ hp => absurd h0 hp⟩
            intro j f' k' ha'
            refine ⟨?_, ?_, ?_⟩
            · intro he
              rcases hev with ⟨rfl, hev⟩ | ⟨rfl, hev⟩
              · simp only [Catchunks.Ev.pipe.injEq, Fixed.Ev.timeout.injEq] at he
                subst he
                rw [show q.slots[i]? = some (some (f, k)) from ha] at ha'
                simp only [Option.some.injEq, Prod.mk.injEq] at ha'
                obtain ⟨rfl, rfl⟩ := ha'
                refine Nat.le_trans (Nat.le_of_eq ?_) (Nat.le_max_right _ _)
                rw [← hu]
                unfold dueAt
                rw [hev]
              · cases he
            · intro he b hb
              rcases hev with ⟨rfl, hev⟩ | ⟨rfl, hev⟩
              · cases he
              · simp only [Catchunks.Ev.pipe.injEq, Fixed.Ev.timer.injEq] at he
                subst he
                rw [show q.slots[i]? = some (some (f, k)) from ha] at ha'
                simp only [Option.some.injEq, Prod.mk.injEq] at ha'
                obtain ⟨rfl, rfl⟩ := ha'
                refine Nat.le_trans (Nat.le_of_eq ?_) (Nat.le_max_right _ _)
                rw [← hu]
                unfold dueAt
                rw [show f.timer = some b from hb]
            · intro d' hd' hr'
              cases hd'
              have h1 := hmin j f' k' ha' hr'
              obtain ⟨t1, hs1⟩ := hF.slot j f' k' ha' hr'
              have h2 : s.now ≤ dueAt life f' ((s.pipe q).sentAt k') ((s.pipe q).setAt j) + d := hs1.due
              dsimp only
              omega
        cases htm : f.timer with
        | none => exact ⟨_, key _ (.inl ⟨rfl, htm⟩), trivial⟩
        | some b => exact ⟨_, key _ (.inr ⟨rfl, by rw [htm]; rfl⟩), trivial⟩
      · rintro e ⟨-, -, -, e4⟩
        have h1 := ((e4 n q hq).1 i f k ha).2.2 d rfl hr
        have h2 := FetchTime.acct_due hI hr hs.acct
        have h3 := hs.base
        have h4 : (s.pipe q).p.nReceived = q.nReceived := rfl
        rw [h4] at h3
        rw [Nat.add_mul]
        omega
    · have hst : q.isStopping = true := by
        by_contra hs
        exact h0 (hH.quiet (by simpa using hs)).1
      have hsl : q.slots = [] := hF.inv.core.stop hst
      refine ⟨⟨⟨.pipe .posted, s.now⟩, ⟨⟨⟨hne, n, q, hq, h0, rfl⟩, hni⟩, Nat.le_refl _, ?_, ?_⟩, trivial⟩, ?_⟩
      · intro f' hf'
        refine ⟨(by simp), (by simp), ?_⟩
        intro d' _ hr'
        exact (hdn f' hf' hr').elim
      · intro n' q' hq'
        rw [hq] at hq'
        simp only [Option.some.injEq, Prod.mk.injEq] at hq'
        obtain ⟨rfl, rfl⟩ := hq'
        refine ⟨?_, fun _ _ _ => Nat.le_add_right _ _⟩
        intro j f' k' ha'
        rw [hsl] at ha'
        cases ha'
      · rintro e ⟨-, -, -, e4⟩
        have h1 := (e4 n q hq).2 d rfl h0
        have h2 := hpost h0
        omega
  · have : ∃ f, s.c.disc.fetcher = some f ∧ ¬ fetchIdle f := by
      by_contra hc
      exact hdi fun f hf => by
        by_contra hx
        exact hc ⟨f, hf, hx⟩
    obtain ⟨f, hf, hfi⟩ := this
    have hI : DataFetcher.Inv R R f := disc_fetcher_inv hdr hf
    have hr := busy_running hI hfi
    obtain ⟨hA, hd⟩ := (hC.disc f hf).1 hr
    have hone := hI.one hr
    have hdue := FetchTime.acct_due hI hr hA
    have hpn : s.c.pipe = none := by
      cases hp : s.c.pipe with
      | none => rfl
      | some nq =>
        have := (disc_idle hdr (hP.after nq.1 nq.2 hp).1 f hf).1
        rw [hr] at this; cases this
    refine ⟨?_, ?_⟩
    · cases htm : f.timer with
      | none =>
        refine ⟨⟨.disc .timeout, max s.now (dueAt life f s.sent s.set)⟩,
          ⟨⟨⟨hne, ⟨f, hf, ?_⟩, ?_⟩, hni⟩, Nat.le_max_left _ _, ?_, fun n q hq => by rw [hpn] at hq; cases hq⟩, trivial⟩
        · rcases hone with hone | hone
          · show 0 < f.pending
            omega
          · rw [htm] at hone; exact absurd hone.2 (by simp)
        · intro m hm; cases hm
        · intro f' hf'
          rw [hf] at hf'; cases hf'
          refine ⟨fun _ => ?_, by simp, ?_⟩
          · refine Nat.le_trans (Nat.le_of_eq ?_) (Nat.le_max_right _ _)
            unfold dueAt
            rw [htm]
          · intro d' hd' _
            cases hd'
            dsimp only
            omega
      | some b =>
        refine ⟨⟨.disc .timer, max s.now (dueAt life f s.sent s.set)⟩,
          ⟨⟨⟨hne, ⟨f, hf, ?_⟩, ?_⟩, hni⟩, Nat.le_max_left _ _, ?_, fun n q hq => by rw [hpn] at hq; cases hq⟩, trivial⟩
        · show f.timer.isSome = true
          rw [htm]; rfl
        · intro m hm; cases hm
        · intro f' hf'
          rw [hf] at hf'; cases hf'
          refine ⟨by simp, fun _ b' hb' => ?_, ?_⟩
          · refine Nat.le_trans (Nat.le_of_eq ?_) (Nat.le_max_right _ _)
            unfold dueAt
            rw [show f.timer = some b' from hb']
          · intro d' hd' _
            cases hd'
            dsimp only
            omega
    · rintro e ⟨-, -, e3, -⟩
      have h1 := (e3 f hf).2.2 d rfl hr
      have h2 : (1 : Nat) * limit life d R R ≤ (s.delivered + 2) * limit life d R R := Nat.mul_le_mul_right _ (by omega)
      omega

theorem step_now {R : Int} (s : St) (e : Ev) : (s.step N R e).now = e.t := by
  unfold St.step
  dsimp only
  split
  · rfl
  · split <;> rfl

theorem step_delivered (hN : 0 < N) {es s} (h : (machine (some d) life N R disable name).Run es s) {e}
    (he : s.enabled (some d) life N R name e) : s.delivered ≤ (s.step N R e).delivered := by
  have h' : CInv life d N R (s.step N R e) := run_cinv hN (.snoc e h he)
  have hC := run_cinv hN h
  obtain ⟨ev, t⟩ := e
  cases hp : s.c.pipe with
  | none =>
    have : s.delivered = 0 := by unfold St.delivered; rw [hp]
    omega
  | some nq =>
    obtain ⟨n, q⟩ := nq
    cases ev with
    | disc e =>
      exfalso
      obtain ⟨⟨⟨-, ⟨f, hf, hfe⟩, -⟩, -⟩, -⟩ := he
      have hP := prog_inv (fixed_proper hN) (run_env (proj h))
      obtain ⟨_, hdr, -⟩ := hP.disc
      have hr := (disc_idle hdr (hP.after n q hp).1 f hf).1
      have hI : DataFetcher.Inv R R f := disc_fetcher_inv hdr hf
      have h1 := (hC.disc f hf).2 hr
      have ht := (hI.idle hr).1
      cases e <;> simp [Discover.Ev.toFetch, Fetcher.enabled, h1, ht] at hfe
    | pipe e =>
      have hcp : (s.step N R ⟨.pipe e, t⟩).c.pipe = some (n, q.step e) := by
        unfold St.step
        dsimp only
        rw [hp]
        dsimp only
        unfold Catchunks.St.step
        rw [hp]
        rfl
      have h1 : Fixed.Inv N R q := (hC.pipe n q hp).1.inv
      have h2 : Fixed.Inv N R (q.step e) := (h'.pipe n _ hcp).1.inv
      have := received_mono h1 (e := e) h2
      unfold St.delivered
      rw [hp, hcp]
      dsimp only
      rw [← h1.core.cnt, ← h2.core.cnt]
      exact this

theorem run_now (hN : 0 < N) {es s} (h : (machine (some d) life N R disable name).Run es s) :
    s.now ≤ (s.delivered + 2) * limit life d R R + d := by
  cases h with
  | nil => exact Nat.zero_le _
  | @snoc es s e hr he =>
    have ht : ¬ s.Terminated N R := by
      rintro ⟨n, hn⟩
      have hc : s.c.cons.threw = none := by
        by_contra hc
        exact he.1.1.1 (.inl hc)
      unfold Catchunks.St.Exits at hn
      rw [hc] at hn
      rcases hn with hn | hn
      · exact he.1.1.1 hn.1
      · exact he.1.2 hn.2.1
    have h1 := (next_event hN hr ht).2 e he
    have h2 := step_delivered hN hr he
    have h3 : (machine (some d) life N R disable name).step s e = s.step N R e := rfl
    rw [h3, step_now]
    have := Nat.mul_le_mul_right (limit life d R R) (Nat.add_le_add_right h2 2)
    omega

end Verif.CatchunksTime
