import Verif.Proofs.AdaptiveRetx
import Verif.Proofs.AdaptiveLive
import Verif.Props.AdaptiveMore

/-! # C87: when Interests are sent again; C88: the files of `--log-cwnd` and `--log-rtt` -/

namespace Verif.AdaptiveTime

open Adaptive

variable {σ ε : Type} {late : Option Nat} {A : Alg σ ε} {o : Opts} {interval : Nat} {w : σ} {v : Env ε}

/-! ## C87 -/

private theorem run_foldl {M : Machine (St σ) (Ev ε)} {es s} (h : M.Run es s) : s = es.foldl M.step M.init := by
  induction h with
  | nil => rfl
  | snoc e _ _ ih => rw [List.foldl_append, ← ih]; rfl

private abbrev twiceMachine : Machine (St Nat) (Ev Unit) := machine (some 0) halving ⟨3, false, false⟩ 20 4 ⟨0, 10, ()⟩

/-- Window 4. All four segments are found expired, the window shrinks to 2, segments 0 and 1 are sent again, 2 and 3 wait; now a Nack for
the first Interest of segment 2 arrives. -/
private def twice : List (Ev Unit) :=
  [⟨.check [0, 1, 2, 3] ⟨20, 10, ()⟩, 20, 0, 0⟩, ⟨.nack 2 .congestion ⟨21, 10, ()⟩, 21, 0, 0⟩,
    ⟨.data 0 { content := [1] } false ⟨22, 10, ()⟩, 22, 0, 0⟩, ⟨.data 1 { content := [1] } false ⟨23, 10, ()⟩, 23, 0, 0⟩]

/-- **C87 (refuted)** A segment that waits for being sent again is put into the queue a second time when there is a Nack for its old
Interest; it is then sent twice, the second time without any sign that the first one is lost. -/
theorem C87_claim_false : ¬ RetxOnlyAfterLoss twiceMachine := by
  intro h
  let s := (twiceMachine.exec twiceMachine.init twice).get (by decide +kernel)
  have r : twiceMachine.Run twice s := Machine.exec_run (Option.some_get _).symm
  have hh : s.hist = s.hist.take 13 ++ ⟨23, 10, .interest 2 true⟩ :: s.hist.drop 14 := by decide +kernel
  obtain ⟨es1, e, es2, s1, t0, r0, h1, h2, h3, h4, h5, h6⟩ := h _ _ r _ _ _ _ _ hh
  have hs1 := run_foldl h2
  have h7 : (sends s1.hist 2).length = 2 := by rw [h4]; decide +kernel
  rw [hs1] at h7
  unfold twice at h1
  match es1, h1 with
  | [], h1 => revert h7; decide +kernel
  | [_], h1 =>
    injection h1 with g1 g2
    subst g1
    revert h7; decide +kernel
  | [_, _], h1 =>
    injection h1 with g1 g2
    injection g2 with g2 g3
    injection g3 with g3 g4
    subst g3
    rcases h6 with ⟨v, h⟩ | ⟨v, h⟩ | ⟨h, -⟩ <;> cases h
  | [_, _, _], h1 =>
    injection h1 with g1 g2
    injection g2 with g2 g3
    injection g3 with g3 g4
    injection g4 with g4 g5
    subst g4
    rcases h6 with ⟨v, h⟩ | ⟨v, h⟩ | ⟨h, -⟩ <;> cases h
  | _ :: _ :: _ :: _ :: l, h1 =>
    have := congrArg List.length h1
    simp at this

/-- **C87 (what does hold)** If a loss is told once, an Interest is sent again only after the lifetime of the Interest before has expired,
or there was a congestion Nack for the segment, or the RTO with which it was sent has passed. Missing from the claim C87: Nacks and expired
lifetimes of segments that wait already, see `C87_claim_false`. -/
theorem C87_retx_partial : RetxOnlyAfterLoss (onceMachine late A o interval w v) :=
  fun _ _ h a t r k b hh => (run_why h).past a t r k b hh

instance (s : Adaptive.St σ) (e : Adaptive.Ev ε) : Decidable (NotWaiting s e) := by
  cases e with
  | nack k r v =>
    exact decidable_of_iff (r = .congestion → (get s.info k).all (fun x => decide (x.state ≠ .inRetxQueue)) = true) (by
      unfold NotWaiting; dsimp only; cases get s.info k <;> simp)
  | expire k v =>
    exact decidable_of_iff ((get s.info k).all (fun x => decide (x.state ≠ .inRetxQueue)) = true) (by
      unfold NotWaiting; dsimp only; cases get s.info k <;> simp)
  | _ => unfold NotWaiting; infer_instance

instance (s : St σ) (e : Ev ε) : Decidable ((onceMachine late A o interval w v).enabled s e) :=
  inferInstanceAs (Decidable (s.enabled late e ∧ NotWaiting s.p e.ev))

/-- Beside `C87_retx_partial`: segment 2 is sent again at 22, because at 20 its RTO had passed. -/
example : ∃ s a b, (onceMachine (some 0) halving ⟨3, false, false⟩ 20 4 ⟨0, 10, ()⟩).Run (twice.take 1 ++ (twice.drop 2).take 1) s ∧
    s.hist = a ++ ⟨22, 10, .interest 2 true⟩ :: b ∧ lastSent a 2 = some (0, 10) := by
  let M := onceMachine (some 0) halving ⟨3, false, false⟩ 20 4 ⟨0, 10, ()⟩
  let s := (M.exec M.init (twice.take 1 ++ (twice.drop 2).take 1)).get (by decide +kernel)
  exact ⟨s, s.hist.take 9, s.hist.drop 10, Machine.exec_run (M := M) (Option.some_get _).symm, by decide +kernel, by decide +kernel⟩

/-- **C87 (losses are noticed)** While the pipeline runs: if the RTO check is never later than `d`, then an Interest that was sent at `t0`
with the RTO `r` is not waited for longer than until `t0 + r + interval + d`. After that the segment is not tracked any more, or waits for
being sent again. -/
theorem C87_noticed {d : Nat} {es s} (h : (machine (some d) A o interval w v).Run es s) (h1 : s.p.isStopping = false)
    (h2 : s.p.threw = none) (h3 : s.p.ub = false) {k t0 r : Nat} (hl : lastSent s.hist k = some (t0, r))
    (ht : t0 + r + interval + d < s.now) : get s.p.info k = none ∨ k ∈ s.p.retxQueue := by
  cases hg : get s.p.info k with
  | none => exact .inl rfl
  | some x =>
    right
    obtain ⟨g1, -⟩ := (run_sent h).last k x hg
    rw [hl] at g1
    cases g1
    have hfl := run_flow (al := Allow.all) (fun h => False.elim h) (run_all (proj h))
    by_cases hst : x.state = .inRetxQueue
    · exact hfl.waits h1 k x hg hst
    · have a1 := (run_timer h).flight ⟨h1, h2, h3⟩ k x hg hst
      have a2 := (run_timer h).late ⟨h1, h2, h3⟩ d rfl
      omega

private theorem prompt_acct {es s} (h : (promptMachine A o w v).Run es s) : Acct s := by
  have hr : ARun A o w v ⟨fun _ _ => True, False, True, False, fun k r => ∃ v, Adaptive.Ev.nack k r v ∈ es⟩ es s := by
    refine arun_of h (fun _ _ he => he.1) ?_
    intro s e hm he
    refine ⟨fun _ _ _ _ _ => ⟨trivial, fun _ => trivial⟩, ?_, fun h => h.elim, ?_⟩
    · rintro k (⟨r, v, rfl⟩ | ⟨v, rfl⟩) hk <;>
      · obtain ⟨x, hx, _⟩ : waitsFor s k := he.2.1
        rw [hk] at hx; cases hx
    · rintro k r v rfl
      exact ⟨v, hm⟩
  exact (arun_inv (P := fun s => Core s ∧ Acct s) (fun h => False.elim h) hr ⟨core_initial w, acct_initial w⟩
    (fun _ _ hw hc hm => ⟨core_micro hw hc.1 hm, acct_micro hw hc.1 (fun h => h) hc.2 hm⟩)).2

/-- **C87 (losses are noticed, in terms of what was received)** If moreover cancelled Interests do not call back, then by that time the
Data of the segment was delivered, or the segment waits for being sent again, or it was given up because of a failure of a segment before
it, or it is beyond the end. -/
theorem C87_noticed_received {d : Nat} {es s} (h : (machine (some d) A o interval w v).Run es s)
    (hp : (promptMachine A o w v).Run (es.map (·.ev)) s.p) (h1 : s.p.isStopping = false)
    (h2 : s.p.threw = none) (h3 : s.p.ub = false) {k t0 r : Nat} (hl : lastSent s.hist k = some (t0, r))
    (ht : t0 + r + interval + d < s.now) :
    k ∈ received s.p.log ∨ k ∈ s.p.retxQueue ∨ (s.p.hasFailure = true ∧ s.p.failedSegNo ≤ k) ∨
      (s.p.hasFinalBlockId = true ∧ s.p.lastSegmentNo < k) := by
  rcases C87_noticed h h1 h2 h3 hl ht with hg | hg
  · have hi : Obs.interest k false ∈ s.p.log := by
      have hm := List.mem_of_getLast? hl
      obtain ⟨e, he, hs⟩ := List.mem_filterMap.mp hm
      have hlog := (run_sent h).log
      have hobs : e.obs ∈ s.p.log := by rw [← hlog]; exact List.mem_map.mpr ⟨e, he, rfl⟩
      rcases e with ⟨t, r', x⟩
      cases x with
      | interest j b =>
        simp only [Entry.sent?] at hs
        split at hs
        · rename_i hj
          subst hj
          cases b with
          | false => exact hobs
          | true =>
            obtain ⟨pre, post, hpp⟩ := List.append_of_mem hobs
            have := ((run_core (al := Allow.all) (fun h => False.elim h) (run_all (proj h))).again pre j post hpp).1
            rw [hpp]
            exact List.mem_append_left _ this
        · cases hs
      | _ => cases hs
    rcases (prompt_acct hp).acc h1 k hi with h' | h' | h'
    · rw [hg] at h'; cases h'
    · exact .inl h'
    · exact .inr (.inr h')
  · exact .inr (.inl hg)

/-- Beside `C87_noticed` and `C87_noticed_received`: the Interests of time 0 have the RTO 10 and the check is at 20. -/
example : ∃ s, (machine (some 0) halving ⟨3, false, false⟩ 20 4 ⟨0, 10, ()⟩).Run
      [⟨.data 0 { content := [1] } false ⟨5, 10, ()⟩, 5, 0, 0⟩, ⟨.check [1, 2, 3, 4] ⟨20, 10, ()⟩, 20, 0, 0⟩,
        ⟨.data 1 { content := [1] } false ⟨31, 10, ()⟩, 31, 0, 0⟩] s ∧ s.p.isStopping = false ∧ s.p.threw = none ∧ s.p.ub = false ∧
    lastSent s.hist 0 = some (0, 10) ∧ 0 + 10 + 20 + 0 < s.now ∧ 0 ∈ received s.p.log ∧ s.p.retxQueue = [4] ∧
    lastSent s.hist 4 = some (5, 10) := by
  let M := machine (some 0) halving ⟨3, false, false⟩ 20 4 ⟨0, 10, ()⟩
  let es : List (Ev Unit) := [⟨.data 0 { content := [1] } false ⟨5, 10, ()⟩, 5, 0, 0⟩, ⟨.check [1, 2, 3, 4] ⟨20, 10, ()⟩, 20, 0, 0⟩,
        ⟨.data 1 { content := [1] } false ⟨31, 10, ()⟩, 31, 0, 0⟩]
  exact ⟨(M.exec M.init es).get (by decide +kernel), Machine.exec_run (M := M) (Option.some_get _).symm, by decide +kernel, by decide +kernel,
    by decide +kernel, by decide +kernel, by decide +kernel, by decide +kernel, by decide +kernel, by decide +kernel⟩

/-! ## C88 -/

/-- **C88 (the file of --log-cwnd)** There is one row for each change of the window, in order, with the time since the start and the
window after the change; each window follows from the one in the row before, and the last one is the current window. -/
theorem C88_cwnd {es s} (h : (machine late A o interval w v).Run es s) :
    Rows A v.now w (s.hist.filter Entry.isChange) s.cwnd s.p.win ∧ s.hist.map (·.obs) = s.p.log ∧
      s.hist.Pairwise (fun a b => a.time ≤ b.time) :=
  ⟨run_rows h, (run_sent h).log, (run_sent h).sorted⟩

/-- **C88 (the file of --log-rtt)** There is one row for each measurement, in order; the segment was requested only once, and the RTT is the
time from this Interest to the delivery of the Data. -/
theorem C88_rtt {es s} (h : (machine late A o interval w v).Run es s) :
    List.Forall₂ (RowFor s.hist) (s.hist.filter (·.sample?.isSome)) s.rtt := run_rtt h

private theorem forall₂_mem {α β : Type} {R : α → β → Prop} {l1 : List α} {l2 : List β} (h : List.Forall₂ R l1 l2) {a} (ha : a ∈ l1) :
    ∃ b ∈ l2, R a b := by
  induction h with
  | nil => cases ha
  | cons hr _ ih =>
    rcases List.mem_cons.mp ha with rfl | ha
    · exact ⟨_, by simp, hr⟩
    · obtain ⟨b, hb, h⟩ := ih ha
      exact ⟨b, List.mem_cons_of_mem _ hb, h⟩

private theorem map_mem_split {α β : Type} {f : α → β} {l : List α} {pre post : List β} {y} (h : l.map f = pre ++ y :: post) :
    ∃ x ∈ l, f x = y := by
  have : y ∈ l.map f := by rw [h]; simp
  exact List.mem_map.mp this

/-- A segment is delivered once. -/
private theorem data_time {es s} (h : (machine late A o interval w v).Run es s) {t r t' r' k p p'}
    (h1 : Entry.mk t r (.data k p) ∈ s.hist) (h2 : Entry.mk t' r' (.data k p') ∈ s.hist) : t = t' := by
  have hn : (received s.p.log).Nodup := (run_core (al := Allow.all) (fun h => False.elim h) (run_all (proj h))).rnodup
  rw [← (run_sent h).log] at hn
  obtain ⟨a, b, hab⟩ := List.append_of_mem h1
  rw [hab] at hn h2
  rw [List.map_append, List.map_cons, received_append] at hn
  have e0 : ∀ l, received (Obs.data k p :: l) = k :: received l := fun l => rfl
  simp only [e0] at hn
  have hmem : ∀ l : List Entry, Entry.mk t' r' (.data k p') ∈ l → k ∈ received (l.map (·.obs)) := by
    intro l hl
    exact mem_received.mpr ⟨p', List.mem_map.mpr ⟨_, hl, rfl⟩⟩
  rw [List.nodup_append] at hn
  rcases List.mem_append.mp h2 with h2 | h2
  · exact absurd rfl (hn.2.2 k (hmem a h2) k (by simp))
  · rcases List.mem_cons.mp h2 with h2 | h2
    · cases h2; rfl
    · exact absurd (hmem b h2) (List.nodup_cons.mp hn.2.1).1

/-- **C88 (nothing is left out)** For every delivered segment that was requested only once the file has a row with its RTT. -/
theorem C88_every {es s} (h : (machine late A o interval w v).Run es s) (hu : s.p.ub = false) {t r k p}
    (hd : ⟨t, r, .data k p⟩ ∈ s.hist) {t0 r0} (h1 : sends s.hist k = [(t0, r0)]) :
    ∃ row ∈ s.rtt, row.seg = k ∧ row.rtt = t - t0 := by
  have hlog := (run_sent h).log
  have hmem : Obs.data k p ∈ s.p.log := by rw [← hlog]; exact List.mem_map.mpr ⟨_, hd, rfl⟩
  have hc := run_core (al := Allow.all) (fun h => False.elim h) (run_all (proj h))
  obtain ⟨pre, post, hpp⟩ := List.append_of_mem hmem
  have hno : Obs.interest k true ∉ pre := by
    intro hm
    have hf := hc.dreq pre k p post hpp
    have hlen := sends_length s.hist k
    rw [h1, hlog, hpp] at hlen
    unfold nSends at hlen
    have a1 := List.count_pos_iff.mpr hm
    have a2 := List.count_pos_iff.mpr hf
    simp only [List.count_append] at hlen
    simp at hlen
    omega
  obtain ⟨post', hs⟩ := C18_sampled (proj h) hu hpp hno
  have hsm : Obs.sample k ∈ s.hist.map (·.obs) := by rw [hlog, hpp, hs]; simp
  obtain ⟨e, he, heq⟩ := List.mem_map.mp hsm
  obtain ⟨row, hrow, k', t0', r0', g1, g2, g3, g4, g5, g6, p', g7⟩ :=
    forall₂_mem (C88_rtt h) (List.mem_filter.mpr ⟨he, by unfold Entry.sample?; rw [heq]; rfl⟩)
  rw [heq] at g1
  cases g1
  rw [h1] at g3
  cases g3
  refine ⟨row, hrow, g2, ?_⟩
  rw [g5, data_time h g7 hd]

/-- Beside C88: segment 1 is delivered after 4, segment 0 after 9; the window is halved in between. -/
example : ∃ s, (machine none ⟨fun w _ => w + 1, fun w _ => max 2 (w / 2), fun w => (w : Nat)⟩ ⟨3, false, false⟩ 20 6 ⟨100, 10, ()⟩).Run
      [⟨.data 1 { content := [1] } false ⟨104, 9, ()⟩, 104, 2, 4⟩, ⟨.expire 2 ⟨106, 18, ()⟩, 106, 2, 4⟩,
        ⟨.data 0 { content := [1] } false ⟨109, 18, ()⟩, 109, 2, 4⟩] s ∧
    s.cwnd = [(4, 7), (6, 3), (9, 4)] ∧ s.rtt = [{ seg := 1, rtt := 4, rttVar := 2, sRtt := 4, rto := 9 }, { seg := 0, rtt := 9, rttVar := 2, sRtt := 4, rto := 18 }] ∧
    sends s.hist 1 = [(100, 10)] ∧ s.p.ub = false := by
  let M := machine none (⟨fun w _ => w + 1, fun w _ => max 2 (w / 2), fun w => (w : Nat)⟩ : Alg Nat Unit) ⟨3, false, false⟩ 20 6 ⟨100, 10, ()⟩
  let es : List (Ev Unit) := [⟨.data 1 { content := [1] } false ⟨104, 9, ()⟩, 104, 2, 4⟩, ⟨.expire 2 ⟨106, 18, ()⟩, 106, 2, 4⟩,
        ⟨.data 0 { content := [1] } false ⟨109, 18, ()⟩, 109, 2, 4⟩]
  exact ⟨(M.exec M.init es).get (by decide +kernel), Machine.exec_run (M := M) (Option.some_get _).symm, by decide +kernel, by decide +kernel,
    by decide +kernel, by decide +kernel⟩

end Verif.AdaptiveTime
