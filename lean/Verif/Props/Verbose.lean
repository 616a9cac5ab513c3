import Verif.Proofs.Verbose
import Verif.Props.AdaptiveMore

/-! # C103: what `ndncatchunks --verbose` prints with an adaptive pipeline -/

namespace Verif.Verbose

open Adaptive

variable {σ ε : Type} {A : Alg σ ε} {o : Opts} {w : σ} {v : Env ε}

/-! ## Printing changes nothing -/

/-- **C103** The executions with `--verbose` are those without, with lines. -/
theorem C103_same (es : List (Ev ε)) (p : Adaptive.St σ) :
    (Adaptive.machine A o w v).Run es p ↔ ∃ s, (machine A o w v).Run es s ∧ s.p = p :=
  ⟨lift, fun ⟨_, h, hp⟩ => hp ▸ proj h⟩

private abbrev demo : Machine (St Nat) (Ev Unit) := machine halving ⟨1, false, false⟩ 2 ⟨0, 10, ()⟩

/-- Segment 1 is lost three times, and the object turns out to have one segment. -/
private def beyond : List (Ev Unit) :=
  [.expire 1 ⟨20, 10, ()⟩, .expire 1 ⟨40, 10, ()⟩, .data 0 { content := [1], final := .seg 0 } false ⟨50, 10, ()⟩]

private theorem beyond_ok : (demo.exec demo.init beyond).isSome = true := by decide +kernel

private def beyondEnd : St Nat := (demo.exec demo.init beyond).get beyond_ok

private theorem beyond_run : demo.Run beyond beyondEnd := Machine.exec_run (M := demo) (Option.some_get _).symm

example : ∃ s, demo.Run beyond s ∧ s.p.log ≠ [] ∧ s.lines ≠ [] := ⟨beyondEnd, beyond_run, by decide +kernel, by decide +kernel⟩

/-! ## Lines and events -/

/-- **C103 (refuted)** "Retransmitting segment #1" is printed before the limit of retries is looked at, and then no Interest is sent. The
transfer here is even completed. -/
theorem C103_claim_false : ¬ TellsTruth halving ⟨1, false, false⟩ 2 (⟨0, 10, ()⟩ : Env Unit) := by
  intro h
  have := h _ _ beyond_run
  revert this
  decide +kernel

example : .complete ∈ beyondEnd.p.log ∧ beyondEnd.p.nRetransmitted = 1 ∧
    (beyondEnd.lines.filter (fun l => decide (l = .sending 1 true))).length = 2 := by decide +kernel

/-- **C103 (partial)** What is missing: with a limit of retries, a line "Retransmitting segment #k" may stand for no Interest. Without a limit
the lines tell exactly which Interests are sent, for the first time or again, which segments are delivered and that the window is decreased
because of a loss, in this order. -/
theorem C103_truth_partial (hr : o.maxRetries = -1) : TellsTruth A o w v := fun _ _ h => (inv_run h).all hr

private abbrev freely : Machine (St Nat) (Ev Unit) := machine halving ⟨-1, false, false⟩ 2 ⟨0, 10, ()⟩

private theorem freely_ok : (freely.exec freely.init beyond).isSome = true := by decide +kernel

example : ∃ s, freely.Run beyond s ∧ told s.lines = [.sent 0 false, .sent 1 false, .lost, .sent 1 true, .sent 1 true, .got 0] :=
  ⟨(freely.exec freely.init beyond).get freely_ok, Machine.exec_run (M := freely) (Option.some_get _).symm, by decide +kernel⟩

/-- **C103 (partial)** With any limit, everything that happens is told, in order; only lines "Retransmitting segment" can be in excess, and
for each segment there is at most one such line: only after the segment was requested again as often as allowed. -/
theorem C103_excess_partial {es s} (h : (machine A o w v).Run es s) :
    (did s.p.log).Sublist (told s.lines) ∧ (told s.lines).filter Act.sure = (did s.p.log).filter Act.sure ∧
    ∀ k, (told s.lines).count (.sent k true) = nRetx s.p.log k ∨
      (o.maxRetries ≠ -1 ∧ (nRetx s.p.log k : Int) = max 1 o.maxRetries ∧ (told s.lines).count (.sent k true) = nRetx s.p.log k + 1) := by
  have hi := inv_run h
  refine ⟨hi.sub, hi.sure, fun k => ?_⟩
  have h1 := hi.count k
  have h2 := hi.lim k
  rw [did_retx] at h2
  rw [h1]
  split at h2
  · exact .inl (by omega)
  · rename_i hR
    have h3 := (hi.most hR k).1
    unfold budget at h2 h3
    by_cases hk : (s.p.retxCount k : Int) ≤ max 1 o.maxRetries
    · exact .inl (by omega)
    · exact .inr ⟨hR, by omega, by omega⟩

example : told beyondEnd.lines = [.sent 0 false, .sent 1 false, .lost, .sent 1 true, .sent 1 true, .got 0] ∧
    did beyondEnd.p.log = [.sent 0 false, .sent 1 false, .lost, .sent 1 true, .got 0] := by decide +kernel

/-- **C103** The lines "# of retries for segment #k is n" count from 2 to the number of times that segment k was requested again. -/
theorem C103_retries {es s} (h : (machine A o w v).Run es s) (k : Nat) :
    s.lines.filterMap (Line.retries? k) = List.range' 2 (nRetx s.p.log k - 1) := by
  have := (inv_run h).tries k
  rw [did_retx] at this
  exact this

example : ∃ s, freely.Run beyond s ∧ s.lines.filterMap (Line.retries? 1) = [2] ∧ nRetx s.p.log 1 = 2 :=
  ⟨(freely.exec freely.init beyond).get freely_ok, Machine.exec_run (M := freely) (Option.some_get _).symm, by decide +kernel⟩

/-- **C103** There are as many lines about decreases of the window as the summary counts. -/
theorem C103_decreases {es s} (h : (machine A o w v).Run es s) :
    (s.lines.filter Line.isLoss).length = s.p.nLossDecr ∧ (s.lines.filter Line.isMark).length = s.p.nMarkDecr :=
  ⟨(inv_run h).loss, (inv_run h).mark⟩

/-! ## The numbers in the lines -/

/-- **C103** Each line that an event prints is about sending or explained by the event. -/
theorem C103_explained (s : St σ) (e : Ev ε) :
    ∃ ls, (s.step A o e).lines = s.lines ++ ls ∧ ∀ l ∈ ls, l.plain = true ∨ Explained A s.p e (s.step A o e).p.win l :=
  prints_step A o s e

private abbrev wide : Machine (St Nat) (Ev Unit) := machine halving ⟨1, false, false⟩ 4 ⟨0, 10, ()⟩

/-- A congestion mark and a Nack. -/
private def varied : List (Ev Unit) :=
  [.data 1 { content := [1], congMark := true } false ⟨7, 10, ()⟩, .nack 0 .congestion ⟨8, 10, ()⟩]

private theorem varied_ok : (wide.exec wide.init varied).isSome = true := by decide +kernel

private def variedEnd : St Nat := (wide.exec wide.init varied).get varied_ok

private theorem varied_run : wide.Run varied variedEnd := Machine.exec_run (M := wide) (Option.some_get _).symm

example : variedEnd.lines = [.sending 0 false, .sending 1 false, .sending 2 false, .sending 3 false, .received 1 7 10, .mark 2,
    .nack 0 .congestion] ∧ variedEnd.p.nMarkDecr = 1 ∧ wide.init.p.win = 4 := by decide +kernel

/-- **C103** A Nack that reaches the pipeline while it goes on is told at once. -/
theorem C103_nack {s : St σ} (h1 : s.p.isStopping = false) (h2 : s.p.threw = none) (h3 : s.p.ub = false) (k : Nat) (r : NackReason)
    (v : Env ε) : ∃ ls, (s.step A o (.nack k r v)).lines = s.lines ++ .nack k r :: ls :=
  nack_told h1 h2 h3 k r v

example : demo.init.p.isStopping = false ∧ demo.init.p.threw = none ∧ demo.init.p.ub = false := by decide +kernel

/-- **C103** With a clock: the line "Received segment #k, rtt=..., rto=..." tells the time since the latest Interest for segment k, and the
RTO at the time of that Interest. -/
theorem C103_rtt {late : Option Nat} {interval : Nat} {es : List (AdaptiveTime.Ev ε)} {s : AdaptiveTime.St σ} {e : AdaptiveTime.Ev ε}
    (h : (AdaptiveTime.machine late A o interval w v).Run es s) (he : s.enabled late e) {u : St σ}
    (hu : (machine A o w v).Run (es.map (·.ev)) u) {k : Nat} {d : Int} {r : Nat} {ls : List (Line σ)}
    (hl : (u.step A o e.ev).lines = u.lines ++ ls) (hm : .received k d r ∈ ls) :
    ∃ t0, AdaptiveTime.lastSent s.hist k = some (t0, r) ∧ t0 ≤ e.t ∧ d = (e.t : Int) - t0 := by
  have hp : u.p = s.p := run_det (proj hu) (AdaptiveTime.proj h)
  obtain ⟨ls', h1, h2⟩ := C103_explained (A := A) (o := o) u e.ev
  have : ls' = ls := List.append_cancel_left (h1.symm.trans hl)
  subst this
  rcases h2 _ hm with h3 | ⟨x, pk, c, v', h4, h5, h6, h7⟩
  · cases h3
  · rw [hp] at h5
    obtain ⟨g1, g2⟩ := (AdaptiveTime.run_sent h).last k x h5
    have g3 := he.2.2.1
    rw [h4] at g3
    have g4 : v'.now = e.t := by simpa [AdaptiveTime.env?] using g3
    refine ⟨x.timeSent, by rw [h7]; exact g1, Nat.le_trans g2 he.2.1, by rw [h6, g4]⟩

private abbrev timed : Machine (AdaptiveTime.St Nat) (AdaptiveTime.Ev Unit) :=
  AdaptiveTime.machine none halving ⟨1, false, false⟩ 20 2 ⟨0, 10, ()⟩

/-- Segment 1 is lost at 20 and requested again; it arrives at 33. -/
private def timedEs : List (AdaptiveTime.Ev Unit) := [⟨.expire 1 ⟨20, 11, ()⟩, 20, 0, 0⟩]

private theorem timed_ok : (timed.exec timed.init timedEs).isSome = true := by decide +kernel

private theorem timed_ok' : (demo.exec demo.init (timedEs.map (·.ev))).isSome = true := by decide +kernel

example : ∃ s u, timed.Run timedEs s ∧ demo.Run (timedEs.map (·.ev)) u ∧
    s.enabled none ⟨.data 1 { content := [1] } false ⟨33, 10, ()⟩, 33, 0, 0⟩ ∧
    (u.step halving ⟨1, false, false⟩ (.data 1 { content := [1] } false (⟨33, 10, ()⟩ : Env Unit))).lines =
      u.lines ++ [.received 1 13 11, .sending 2 false] ∧ AdaptiveTime.lastSent s.hist 1 = some (20, 11) :=
  ⟨(timed.exec timed.init timedEs).get timed_ok, (demo.exec demo.init (timedEs.map (·.ev))).get timed_ok',
    Machine.exec_run (M := timed) (Option.some_get _).symm, Machine.exec_run (M := demo) (Option.some_get _).symm,
    by decide +kernel, by decide +kernel, by decide +kernel⟩

end Verif.Verbose
