import Verif.Spec.Verbose
import Verif.Proofs.Adaptive
import Verif.Proofs.AdaptiveTimed

/-! # Lemmas about the adaptive pipeline with `--verbose` -/

namespace Verif.Verbose

open Adaptive

variable {σ ε : Type}

/-! ## Printing changes nothing -/

@[simp] theorem quiet_p (s : St σ) (f) : (s.quiet f).p = f s.p := rfl
@[simp] theorem quiet_lines (s : St σ) (f) : (s.quiet f).lines = s.lines := rfl
@[simp] theorem say_p (s : St σ) (l) : (s.say l).p = s.p := rfl
@[simp] theorem say_lines (s : St σ) (l) : (s.say l).lines = s.lines ++ [l] := rfl

theorem sendAgain_p (s : St σ) (o : Opts) (v : Env ε) (k : Nat) : (s.sendAgain o v k).p = s.p.sendAgain o v k := by
  unfold St.sendAgain Adaptive.St.sendAgain
  simp only
  by_cases h : s.p.retxCount k = 0
  · simp [h]
  · by_cases h' : o.maxRetries ≠ -1 ∧ (s.p.retxCount k + 1 : Int) > o.maxRetries
    · rw [if_pos h, if_pos h', if_pos ⟨h, h'⟩]; rfl
    · rw [if_pos h, if_neg h', if_neg (fun hx => h' hx.2)]; rfl

theorem sendInterest_p (s : St σ) (o : Opts) (v : Env ε) (k : Nat) (b : Bool) : (s.sendInterest o v k b).p = s.p.sendInterest o v k b := by
  unfold St.sendInterest Adaptive.St.sendInterest
  split
  · rfl
  split
  · rfl
  split
  · rfl
  simp only
  split
  · rw [sendAgain_p]; rfl
  · rfl

theorem schedRetx_some {o : Opts} {v : Env ε} {k : Nat} {q : List Nat} {n : Nat} {s : St σ} (h : (get s.p.info k).isSome = true) :
    St.schedRetx o v (k :: q) (n + 1) s =
      St.schedRetx o v q n ((s.quiet fun p => { p with retxQueue := q }).sendInterest o v k true) := by
  rw [St.schedRetx]; exact if_pos h

theorem schedRetx_none {o : Opts} {v : Env ε} {k : Nat} {q : List Nat} {n : Nat} {s : St σ} (h : ¬ (get s.p.info k).isSome = true) :
    St.schedRetx o v (k :: q) (n + 1) s =
      St.schedRetx o v q (n + 1) ((s.quiet fun p => { p with retxQueue := q }).quiet fun p => { p with nSkippedRetx := p.nSkippedRetx + 1 }) := by
  rw [St.schedRetx]; exact if_neg h

theorem schedRetx_p (o : Opts) (v : Env ε) (q : List Nat) (n : Nat) (s : St σ) :
    (St.schedRetx o v q n s).1.p = (Adaptive.St.schedRetx o v q n s.p).1 ∧ (St.schedRetx o v q n s).2 = (Adaptive.St.schedRetx o v q n s.p).2 := by
  induction q generalizing n s with
  | nil => cases n <;> exact ⟨rfl, rfl⟩
  | cons k q ih =>
    cases n with
    | zero => exact ⟨rfl, rfl⟩
    | succ n =>
      by_cases h : (get s.p.info k).isSome = true
      · rw [schedRetx_some h]
        have h2 : Adaptive.St.schedRetx o v (k :: q) (n + 1) s.p =
            Adaptive.St.schedRetx o v q n ({ s.p with retxQueue := q }.sendInterest o v k true) := by
          rw [Adaptive.St.schedRetx]; exact if_pos h
        rw [h2]
        have := ih n ((s.quiet fun p => { p with retxQueue := q }).sendInterest o v k true)
        rw [sendInterest_p] at this
        exact this
      · rw [schedRetx_none h]
        have h2 : Adaptive.St.schedRetx o v (k :: q) (n + 1) s.p =
            Adaptive.St.schedRetx o v q (n + 1) { s.p with retxQueue := q, nSkippedRetx := s.p.nSkippedRetx + 1 } := by
          rw [Adaptive.St.schedRetx]; exact if_neg h
        rw [h2]
        exact ih (n + 1) _

theorem schedNew_p (o : Opts) (v : Env ε) (n : Nat) (s : St σ) : (St.schedNew o v n s).p = Adaptive.St.schedNew o v n s.p := by
  induction n generalizing s with
  | zero => rfl
  | succ n ih =>
    unfold St.schedNew Adaptive.St.schedNew
    rw [ih, sendInterest_p]
    rfl

theorem schedulePackets_p (s : St σ) (A : Alg σ ε) (o : Opts) (v : Env ε) : (s.schedulePackets A o v).p = s.p.schedulePackets A o v := by
  unfold St.schedulePackets Adaptive.St.schedulePackets
  simp only
  rw [schedNew_p, (schedRetx_p o v _ _ _).1, (schedRetx_p o v _ _ _).2]
  rfl

theorem recordTimeout_p (s : St σ) (A : Alg σ ε) (o : Opts) (v : Env ε) (k : Nat) : (s.recordTimeout A o v k).p = s.p.recordTimeout A o v k := by
  unfold St.recordTimeout Adaptive.St.recordTimeout
  split <;> rfl

theorem checkRto_p (s : St σ) (A : Alg σ ε) (o : Opts) (v : Env ε) (l) : (s.checkRto A o v l).p = s.p.checkRto A o v l := by
  unfold St.checkRto Adaptive.St.checkRto
  split
  · rfl
  simp only [quiet_p]
  split
  · rw [schedulePackets_p, recordTimeout_p]; rfl
  · rfl

theorem adapt_p (s : St σ) (A : Alg σ ε) (o : Opts) (v : Env ε) (k x d) : (s.adapt A o v k x d).p = s.p.adapt A o v k x d := by
  unfold St.adapt Adaptive.St.adapt
  by_cases h : (d.congMark && !o.ignoreCongMarks) = true
  · simp only
    rw [if_pos h, if_pos h]
    by_cases h' : (o.disableCwa || decide (max s.p.highData k > s.p.recPoint)) = true
    · exact (congrArg St.p (if_pos h')).trans (Eq.trans rfl (if_pos h').symm)
    · exact (congrArg St.p (if_neg h')).trans (Eq.trans rfl (if_neg h').symm)
  · simp only
    rw [if_neg h, if_neg h]
    rfl

theorem finish_p (s : St σ) (A : Alg σ ε) (o : Opts) (v : Env ε) (k) : (s.finish A o v k).p = s.p.finish A o v k := by
  unfold St.finish Adaptive.St.finish
  by_cases h : { s.p with info := del s.p.info k }.allSegmentsReceived = true
  · exact (congrArg St.p (if_pos h)).trans (Eq.trans rfl (if_pos h).symm)
  · exact (congrArg St.p (if_neg h)).trans ((schedulePackets_p _ _ _ _).trans (if_neg h).symm)

theorem handleSeg_p (s : St σ) (A : Alg σ ε) (o : Opts) (v : Env ε) (k d c) : (s.handleSeg A o v k d c).p = s.p.handleSeg A o v k d c := by
  unfold St.handleSeg Adaptive.St.handleSeg
  cases get s.p.info k with
  | none => rfl
  | some x =>
    simp only
    split
    · rw [quiet_p, adapt_p, say_p]
    · rw [finish_p, quiet_p, adapt_p, say_p]

theorem handleData_p (s : St σ) (A : Alg σ ε) (o : Opts) (v : Env ε) (k d c) : (s.handleData A o v k d c).p = s.p.handleData A o v k d c := by
  unfold St.handleData Adaptive.St.handleData
  split
  · rfl
  simp only
  split
  · rw [handleSeg_p]; rfl
  · rfl

theorem lossOf_p (s : St σ) (A : Alg σ ε) (o : Opts) (v : Env ε) (k) : (s.lossOf A o v k).p = s.p.lossOf A o v k := by
  unfold St.lossOf Adaptive.St.lossOf
  by_cases h : (s.p.enqueueForRetransmission k).threw.isSome = true
  · exact (congrArg St.p (if_pos h)).trans (Eq.trans rfl (if_pos h).symm)
  · refine (congrArg St.p (if_neg h)).trans (Eq.trans ?_ (if_neg h).symm)
    rw [schedulePackets_p, recordTimeout_p]; rfl

theorem handleNack_p (s : St σ) (A : Alg σ ε) (o : Opts) (v : Env ε) (k r) : (s.handleNack A o v k r).p = s.p.handleNack A o v k r := by
  unfold St.handleNack Adaptive.St.handleNack
  split
  · rfl
  cases r <;> first | rfl | (simp only; rw [lossOf_p]; rfl)

theorem step_p (A : Alg σ ε) (o : Opts) (s : St σ) (e : Ev ε) : (s.step A o e).p = s.p.step A o e := by
  unfold St.step
  by_cases h : (s.p.threw.isSome || s.p.ub) = true
  · rw [if_pos h]; unfold Adaptive.St.step; rw [if_pos h]
  · rw [if_neg h]
    cases e with
    | posted => rfl
    | data k d c v => unfold Adaptive.St.step; rw [if_neg h]; exact handleData_p _ _ _ _ _ _ _
    | nack k r v => unfold Adaptive.St.step; rw [if_neg h]; exact handleNack_p _ _ _ _ _ _
    | expire k v =>
      unfold Adaptive.St.step; rw [if_neg h]
      simp only
      unfold St.handleLifetimeExpiration Adaptive.St.handleLifetimeExpiration
      by_cases h' : (s.p.called k).isStopping = true
      · exact (congrArg St.p (if_pos h')).trans (Eq.trans rfl (if_pos h').symm)
      · refine (congrArg St.p (if_neg h')).trans (Eq.trans ?_ (if_neg h').symm)
        rw [lossOf_p]; rfl
    | check l v => unfold Adaptive.St.step; rw [if_neg h]; exact checkRto_p _ _ _ _ _
    | cancel => unfold Adaptive.St.step; rw [if_neg h]; rfl

theorem start_p (A : Alg σ ε) (o : Opts) (w : σ) (v : Env ε) : (start A o w v).p = Adaptive.start A o w v := schedulePackets_p _ _ _ _

/-- Every execution with `--verbose` is one without. -/
theorem proj {A : Alg σ ε} {o : Opts} {w : σ} {v : Env ε} {es s} (h : (machine A o w v).Run es s) : (Adaptive.machine A o w v).Run es s.p := by
  induction h with
  | nil => rw [show (machine A o w v).init.p = (Adaptive.machine A o w v).init from start_p A o w v]; exact .nil
  | @snoc es s e _ he ih =>
    have := Machine.Run.snoc (M := Adaptive.machine A o w v) e ih he
    rw [show (Adaptive.machine A o w v).step s.p e = ((machine A o w v).step s e).p from (step_p A o s e).symm] at this
    exact this

/-- Every execution without `--verbose` is one with it. -/
theorem lift {A : Alg σ ε} {o : Opts} {w : σ} {v : Env ε} {es p} (h : (Adaptive.machine A o w v).Run es p) :
    ∃ s, (machine A o w v).Run es s ∧ s.p = p := by
  induction h with
  | nil => exact ⟨_, .nil, start_p A o w v⟩
  | @snoc es p e _ he ih =>
    obtain ⟨s, r, rfl⟩ := ih
    exact ⟨_, .snoc (M := machine A o w v) e r he, step_p A o s e⟩

/-! ## What the lines tell -/

@[simp] theorem told_append (l l' : List (Line σ)) : told (l ++ l') = told l ++ told l' := List.filterMap_append
@[simp] theorem did_append (l l' : List Obs) : did (l ++ l') = did l ++ did l' := List.filterMap_append

theorem did_retx (l : List Obs) (k : Nat) : (did l).count (.sent k true) = nRetx l k := by
  unfold nRetx
  induction l with
  | nil => rfl
  | cons x l ih =>
    unfold did at ih ⊢
    rw [List.filterMap_cons, List.count_cons, ← ih]
    cases x with
    | interest j b => simp [act, List.count_cons]
    | decr j b => cases b <;> simp [act, List.count_cons]
    | _ => simp [act, List.count_cons]

/-- The numbers of the lines "# of retries for segment #k is ...". -/
def tries (l : List (Line σ)) (k : Nat) : List Nat := l.filterMap (Line.retries? k)

@[simp] theorem tries_append (l l' : List (Line σ)) (k) : tries (l ++ l') k = tries l k ++ tries l' k := List.filterMap_append

/-- A part of the code that neither sends, delivers, nor changes the window. -/
structure Same (p p' : Adaptive.St σ) : Prop where
  log : did p'.log = did p.log
  count : p'.retxCount = p.retxCount
  next : p.nextSegmentNo ≤ p'.nextSegmentNo
  info : ∀ k, (get p'.info k).isSome = true → (get p.info k).isSome = true
  loss : p'.nLossDecr = p.nLossDecr
  mark : p'.nMarkDecr = p.nMarkDecr

theorem Same.refl (p : Adaptive.St σ) : Same p p := ⟨rfl, rfl, Nat.le_refl _, fun _ h => h, rfl, rfl⟩

theorem Same.trans {p q r : Adaptive.St σ} (h : Same p q) (h' : Same q r) : Same p r :=
  ⟨h'.log.trans h.log, h'.count.trans h.count, Nat.le_trans h.next h'.next, fun k hk => h.info k (h'.info k hk), h'.loss.trans h.loss,
    h'.mark.trans h.mark⟩

theorem same_cancel (p : Adaptive.St σ) : Same p p.cancel := by
  unfold Adaptive.St.cancel
  split
  · exact .refl _
  · exact ⟨rfl, rfl, Nat.le_refl _, fun k hk => by simp at hk, rfl, rfl⟩

theorem same_onFailure (p : Adaptive.St σ) (m) : Same p (p.onFailure m) := by
  unfold Adaptive.St.onFailure
  split
  · exact .refl _
  · have := same_cancel p
    exact ⟨this.log, this.count, this.next, this.info, this.loss, this.mark⟩

theorem same_cancelGreater (p : Adaptive.St σ) (n) : Same p (p.cancelGreater n) := by
  refine ⟨rfl, rfl, Nat.le_refl _, fun k hk => ?_, rfl, rfl⟩
  simp only [Adaptive.St.cancelGreater] at hk
  rw [get_filter] at hk
  split at hk
  · exact hk
  · simp at hk

theorem same_handleFail (p : Adaptive.St σ) (k m) : Same p (p.handleFail k m) := by
  unfold Adaptive.St.handleFail
  split
  · exact .refl _
  split
  · exact same_onFailure _ _
  split
  · have h0 : Same p { p with info := del p.info k, nInFlight := p.nInFlight - 1 } := by
      refine ⟨rfl, rfl, Nat.le_refl _, fun j hj => ?_, rfl, rfl⟩
      rw [show ({ p with info := del p.info k, nInFlight := p.nInFlight - 1 } : Adaptive.St σ).info = del p.info k from rfl, get_del] at hj
      split at hj
      · simp at hj
      · exact hj
    simp only
    split
    · exact h0.trans (same_onFailure _ _)
    · have h1 := h0.trans (same_cancelGreater _ k)
      exact ⟨h1.log, h1.count, h1.next, h1.info, h1.loss, h1.mark⟩
  · exact .refl _

theorem same_enqueue (p : Adaptive.St σ) (k) : Same p (p.enqueueForRetransmission k) := by
  unfold Adaptive.St.enqueueForRetransmission
  simp only
  split
  · exact ⟨rfl, rfl, Nat.le_refl _, fun _ h => h, rfl, rfl⟩
  · rename_i x hx
    refine ⟨rfl, rfl, Nat.le_refl _, fun j hj => ?_, rfl, rfl⟩
    simp only at hj hx
    rw [get_put] at hj
    split at hj
    · rename_i hjk; subst hjk; rw [hx]; rfl
    · exact hj

theorem same_checkLoop (v : Env ε) (l : List Nat) (p : Adaptive.St σ) : Same p (l.foldl (Adaptive.St.checkOne v) p) := by
  induction l generalizing p with
  | nil => exact .refl _
  | cons k l ih =>
    refine Same.trans ?_ (ih _)
    unfold Adaptive.St.checkOne
    split
    · exact .refl _
    split
    · exact Same.trans (q := { p with nTimeouts := p.nTimeouts + 1 }) ⟨rfl, rfl, Nat.le_refl _, fun _ h => h, rfl, rfl⟩ (same_enqueue _ _)
    · exact .refl _

theorem same_called (p : Adaptive.St σ) (k) : Same p (p.called k) := by
  refine ⟨rfl, rfl, Nat.le_refl _, fun j hj => ?_, rfl, rfl⟩
  by_contra hc
  rw [Bool.not_eq_true, Option.isSome_eq_false_iff, Option.isNone_iff_eq_none] at hc
  rw [get_called_none.mpr hc] at hj
  simp at hj

theorem same_handleFinal (p : Adaptive.St σ) (d) : Same p (p.handleFinal d).1 := by
  unfold Adaptive.St.handleFinal
  split
  · exact .refl _
  split
  · exact .refl _
  · exact ⟨rfl, rfl, Nat.le_refl _, fun _ h => h, rfl, rfl⟩
  · rename_i n _
    have h0 : Same p ({ p with lastSegmentNo := n, hasFinalBlockId := true }.cancelGreater n) :=
      Same.trans (q := { p with lastSegmentNo := n, hasFinalBlockId := true }) ⟨rfl, rfl, Nat.le_refl _, fun _ h => h, rfl, rfl⟩
        (same_cancelGreater _ n)
    simp only
    split
    · exact h0.trans (same_onFailure _ _)
    · exact ⟨h0.log, h0.count, h0.next, h0.info, h0.loss, h0.mark⟩

/-- What the lines and the pipeline have in common. -/
structure Inv (o : Opts) (s : St σ) : Prop where
  sub : (did s.p.log).Sublist (told s.lines)
  all : o.maxRetries = -1 → told s.lines = did s.p.log
  sure : (told s.lines).filter Act.sure = (did s.p.log).filter Act.sure
  count : ∀ k, (told s.lines).count (.sent k true) = s.p.retxCount k
  lim : ∀ k, ((did s.p.log).count (.sent k true) : Int) =
    if o.maxRetries = -1 then (s.p.retxCount k : Int) else min (s.p.retxCount k : Int) (budget o)
  tries : ∀ k, tries s.lines k = List.range' 2 ((did s.p.log).count (.sent k true) - 1)
  most : o.maxRetries ≠ -1 → ∀ k, (s.p.retxCount k : Int) ≤ budget o + 1 ∧
    ((get s.p.info k).isSome = true → (s.p.retxCount k : Int) ≤ budget o)
  fresh : ∀ k, s.p.nextSegmentNo ≤ k → s.p.retxCount k = 0
  known : ∀ k, (get s.p.info k).isSome = true → k < s.p.nextSegmentNo
  loss : (s.lines.filter Line.isLoss).length = s.p.nLossDecr
  mark : (s.lines.filter Line.isMark).length = s.p.nMarkDecr

theorem Inv.same {o : Opts} {s s' : St σ} (h : Inv o s) (hl : s'.lines = s.lines) (hp : Same s.p s'.p) : Inv o s' := by
  refine ⟨?_, ?_, ?_, ?_, ?_, ?_, ?_, ?_, ?_, ?_, ?_⟩
  · rw [hl, hp.log]; exact h.sub
  · rw [hl, hp.log]; exact h.all
  · rw [hl, hp.log]; exact h.sure
  · rw [hl, hp.count]; exact h.count
  · rw [hp.log, hp.count]; exact h.lim
  · rw [hl, hp.log]; exact h.tries
  · rw [hp.count]; exact fun hR k => ⟨(h.most hR k).1, fun hk => (h.most hR k).2 (hp.info k hk)⟩
  · rw [hp.count]; exact fun k hk => h.fresh k (Nat.le_trans hp.next hk)
  · exact fun k hk => Nat.lt_of_lt_of_le (h.known k (hp.info k hk)) hp.next
  · rw [hl, hp.loss]; exact h.loss
  · rw [hl, hp.mark]; exact h.mark

theorem Inv.quiet {o : Opts} {s : St σ} (h : Inv o s) {f} (hp : Same s.p (f s.p)) : Inv o (s.quiet f) := h.same rfl hp

theorem budget_pos (o : Opts) : 1 ≤ budget o := Int.le_max_left _ _

/-- Sending for the first time. -/
theorem inv_first {o : Opts} {s : St σ} (h : Inv o s) (v : Env ε) {k : Nat} (hk : k < s.p.nextSegmentNo) (h0 : s.p.retxCount k = 0) :
    Inv o (s.sendInterest o v k false) := by
  unfold St.sendInterest
  split
  · exact h
  split
  · exact h
  split
  · exact h
  rw [if_neg (by simp)]
  have e1 : did (s.p.log ++ [.interest k false]) = did s.p.log ++ [.sent k false] := by rw [did_append]; rfl
  have e2 : told (s.lines ++ [.sending k false]) = told s.lines ++ [.sent k false] := by rw [told_append]; rfl
  have e3 : ∀ j, (did s.p.log ++ [Act.sent k false]).count (Act.sent j true) = (did s.p.log).count (Act.sent j true) := by
    intro j; rw [List.count_append]; simp
  have e4 : ∀ j, (told s.lines ++ [Act.sent k false]).count (Act.sent j true) = (told s.lines).count (Act.sent j true) := by
    intro j; rw [List.count_append]; simp
  refine ⟨?_, ?_, ?_, ?_, ?_, ?_, ?_, h.fresh, ?_, ?_, ?_⟩
  · show (did (s.p.log ++ _)).Sublist (told (s.lines ++ _))
    rw [e1, e2]; exact h.sub.append (.refl _)
  · show _ → told (s.lines ++ _) = did (s.p.log ++ _)
    intro hR; rw [e1, e2, h.all hR]
  · show (told (s.lines ++ _)).filter _ = (did (s.p.log ++ _)).filter _
    rw [e1, e2, List.filter_append, List.filter_append, h.sure]
  · intro j
    show (told (s.lines ++ _)).count _ = _
    rw [e2, e4]; exact h.count j
  · intro j
    show (((did (s.p.log ++ _)).count _ : Nat) : Int) = _
    rw [e1, e3]; exact h.lim j
  · intro j
    show Verbose.tries (s.lines ++ _) j = List.range' 2 ((did (s.p.log ++ _)).count _ - 1)
    rw [e1, e3, tries_append, h.tries j]; simp [Verbose.tries, Line.retries?]
  · intro hR j
    refine ⟨(h.most hR j).1, fun hj => ?_⟩
    have hj : (get (put s.p.info k _) j).isSome = true := hj
    rw [get_put] at hj
    split at hj
    · rename_i hjk
      subst hjk
      show (s.p.retxCount j : Int) ≤ _
      rw [h0]
      have := budget_pos o
      omega
    · exact (h.most hR j).2 hj
  · intro j hj
    have hj : (get (put s.p.info k _) j).isSome = true := hj
    rw [get_put] at hj
    split at hj
    · rename_i hjk; subst hjk; exact hk
    · exact h.known j hj
  · show ((s.lines ++ _).filter _).length = _
    rw [List.filter_append, List.length_append, h.loss]; rfl
  · show ((s.lines ++ _).filter _).length = _
    rw [List.filter_append, List.length_append, h.mark]; rfl

theorem handleFail_gone {p : Adaptive.St σ} {k : Nat} (m) (h1 : p.isStopping = false) (h2 : ¬ (p.hasFinalBlockId = true ∧ k > p.lastSegmentNo)) :
    get (p.handleFail k m).info k = none := by
  have hc : ∀ q : Adaptive.St σ, q.isStopping = false → (q.onFailure m).info = [] ∧ (q.onFailure .noFinal).info = [] := by
    intro q hq
    constructor <;> (unfold Adaptive.St.onFailure Adaptive.St.cancel; simp [hq])
  unfold Adaptive.St.handleFail
  rw [if_neg (by rw [h1]; simp)]
  split
  · rw [(hc p h1).1]; rfl
  rename_i h3
  split
  · simp only
    split
    · rw [(hc { p with info := del p.info k, nInFlight := p.nInFlight - 1 } h1).2]; rfl
    · show get (List.filter _ (del p.info k)) k = none
      rw [get_filter]
      split
      · rw [get_del, if_pos rfl]
      · rfl
  · rename_i h4
    exfalso
    have h4 : p.hasFinalBlockId = true := by simpa using h4
    exact h2 ⟨h4, Nat.lt_of_not_le fun hx => h3 ⟨h4, hx⟩⟩

theorem sendAgain_fail {o : Opts} (v : Env ε) {s : St σ} {k : Nat} (l)
    (hf : s.p.retxCount k ≠ 0 ∧ o.maxRetries ≠ -1 ∧ (s.p.retxCount k + 1 : Int) > o.maxRetries) :
    (s.say l).sendAgain o v k =
      ⟨{ s.p with retxCount := fun j => if j = k then s.p.retxCount k + 1 else s.p.retxCount j }.handleFail k (.maxRetries o.maxRetries k),
        s.lines ++ [l]⟩ :=
  (if_pos hf.1).trans (if_pos hf.2)

theorem sendAgain_more {o : Opts} (v : Env ε) {s : St σ} {k : Nat} (l)
    (h0 : s.p.retxCount k ≠ 0) (hf : ¬ (o.maxRetries ≠ -1 ∧ (s.p.retxCount k + 1 : Int) > o.maxRetries)) :
    (s.say l).sendAgain o v k =
      ⟨{ s.p with retxCount := fun j => if j = k then s.p.retxCount k + 1 else s.p.retxCount j }.transmit v k true,
        s.lines ++ [l] ++ [.retries k (s.p.retxCount k + 1)]⟩ :=
  (if_pos h0).trans (if_neg hf)

theorem sendAgain_first (o : Opts) (v : Env ε) {s : St σ} {k : Nat} (l) (h0 : s.p.retxCount k = 0) :
    (s.say l).sendAgain o v k =
      ⟨{ s.p with retxCount := fun j => if j = k then s.p.retxCount k + 1 else s.p.retxCount j }.transmit v k true, s.lines ++ [l]⟩ :=
  if_neg (c := (s.p.retxCount k ≠ 0)) (fun h => h h0)

/-- Sending again. -/
theorem inv_again {o : Opts} {s : St σ} (h : Inv o s) (v : Env ε) {k : Nat} (hk : (get s.p.info k).isSome = true) :
    Inv o (s.sendInterest o v k true) := by
  have hnx := h.known k hk
  unfold St.sendInterest
  split
  · exact h
  rename_i hs
  split
  · exact h
  rename_i hl
  rw [if_neg (by simp)]
  simp only
  rw [if_pos trivial]
  have hcnt := h.count k
  have hlim := h.lim k
  have htri := h.tries k
  have hB := budget_pos o
  have hfr : ∀ j, s.p.nextSegmentNo ≤ j → (if j = k then s.p.retxCount k + 1 else s.p.retxCount j) = 0 := by
    intro j hj
    rw [if_neg (by omega)]
    exact h.fresh j hj
  have e1 : did (s.p.log ++ [.interest k true]) = did s.p.log ++ [.sent k true] := by rw [did_append]; rfl
  have e2 : told (s.lines ++ [.sending k true]) = told s.lines ++ [.sent k true] := by rw [told_append]; rfl
  have e2' : told (s.lines ++ [.sending k true] ++ [.retries k (s.p.retxCount k + 1)]) = told s.lines ++ [.sent k true] := by
    rw [told_append, e2]; exact List.append_nil _
  have e3 : ∀ (l : List Act) j, (l ++ [Act.sent k true]).count (Act.sent j true) = l.count (Act.sent j true) + if j = k then 1 else 0 := by
    intro l j
    rw [List.count_append]
    by_cases hj : j = k
    · subst hj; simp
    · have : k ≠ j := fun h => hj h.symm
      simp [hj, this]
  have hcount : ∀ j, (told s.lines ++ [Act.sent k true]).count (Act.sent j true) = if j = k then s.p.retxCount k + 1 else s.p.retxCount j := by
    intro j
    rw [e3, h.count j]
    split
    · rename_i hj; rw [hj]
    · rfl
  have hsure : (told s.lines ++ [Act.sent k true]).filter Act.sure = (did s.p.log).filter Act.sure := by
    rw [List.filter_append, h.sure]; exact List.append_nil _
  by_cases hf : s.p.retxCount k ≠ 0 ∧ o.maxRetries ≠ -1 ∧ (s.p.retxCount k + 1 : Int) > o.maxRetries
  · -- the limit is exceeded
    rw [sendAgain_fail v _ hf]
    have hm := (h.most hf.2.1 k).2 hk
    have hcB : (s.p.retxCount k : Int) = budget o := by
      have : budget o ≤ s.p.retxCount k := Int.max_le.mpr ⟨by have := hf.1; omega, by have := hf.2.2; omega⟩
      omega
    have hsame := same_handleFail { s.p with retxCount := fun j => if j = k then s.p.retxCount k + 1 else s.p.retxCount j } k
      (.maxRetries o.maxRetries k)
    have hgone := handleFail_gone (p := { s.p with retxCount := fun j => if j = k then s.p.retxCount k + 1 else s.p.retxCount j })
      (k := k) (.maxRetries o.maxRetries k) (by simpa using hs) hl
    refine ⟨?_, fun hR => absurd hR hf.2.1, ?_, ?_, ?_, ?_, ?_, ?_, ?_, ?_, ?_⟩
    · show (did (Adaptive.St.handleFail _ _ _).log).Sublist (told (s.lines ++ _))
      rw [hsame.log, e2]
      exact h.sub.trans (List.sublist_append_left _ _)
    · show (told (s.lines ++ _)).filter _ = (did (Adaptive.St.handleFail _ _ _).log).filter _
      rw [hsame.log, e2]; exact hsure
    · intro j
      show (told (s.lines ++ _)).count _ = (Adaptive.St.handleFail _ _ _).retxCount j
      rw [hsame.count, e2]; exact hcount j
    · intro j
      show (((did (Adaptive.St.handleFail _ _ _).log).count _ : Nat) : Int) = if o.maxRetries = -1 then ((Adaptive.St.handleFail _ _ _).retxCount j : Int)
        else min ((Adaptive.St.handleFail _ _ _).retxCount j : Int) (budget o)
      rw [hsame.log, hsame.count, if_neg hf.2.1]
      have := h.lim j
      rw [if_neg hf.2.1] at this
      show (((did s.p.log).count _ : Nat) : Int) = min (((if j = k then s.p.retxCount k + 1 else s.p.retxCount j) : Nat) : Int) (budget o)
      rw [this]
      split
      · rename_i hj; subst hj; push_cast; omega
      · rfl
    · intro j
      show Verbose.tries (s.lines ++ _) j = List.range' 2 ((did (Adaptive.St.handleFail _ _ _).log).count _ - 1)
      rw [hsame.log, tries_append, h.tries j]; exact List.append_nil _
    · intro hR j
      show ((Adaptive.St.handleFail _ _ _).retxCount j : Int) ≤ _ ∧ ((get (Adaptive.St.handleFail _ _ _).info j).isSome = true → _)
      rw [hsame.count]
      show (((if j = k then s.p.retxCount k + 1 else s.p.retxCount j) : Nat) : Int) ≤ _ ∧
        (_ → (((if j = k then s.p.retxCount k + 1 else s.p.retxCount j) : Nat) : Int) ≤ _)
      by_cases hj : j = k
      · subst hj
        refine ⟨by rw [if_pos rfl]; push_cast; omega, fun hx => ?_⟩
        rw [hgone] at hx; simp at hx
      · rw [if_neg hj]
        exact ⟨(h.most hR j).1, fun hx => (h.most hR j).2 (hsame.info j hx)⟩
    · intro j hj
      show (Adaptive.St.handleFail _ _ _).retxCount j = 0
      rw [hsame.count]
      exact hfr j (Nat.le_trans hsame.next hj)
    · exact fun j hj => Nat.lt_of_lt_of_le (h.known j (hsame.info j hj)) hsame.next
    · show ((s.lines ++ _).filter _).length = (Adaptive.St.handleFail _ _ _).nLossDecr
      rw [hsame.loss, List.filter_append, List.length_append, h.loss]; rfl
    · show ((s.lines ++ _).filter _).length = (Adaptive.St.handleFail _ _ _).nMarkDecr
      rw [hsame.mark, List.filter_append, List.length_append, h.mark]; rfl
  · -- sent
    have hnew : o.maxRetries ≠ -1 → (s.p.retxCount k : Int) + 1 ≤ budget o := by
      intro hR
      by_cases h0 : s.p.retxCount k = 0
      · rw [h0]; exact hB
      · have : ¬ ((s.p.retxCount k + 1 : Int) > o.maxRetries) := fun hx => hf ⟨h0, hR, hx⟩
        exact Int.le_trans (by omega) (Int.le_max_right 1 o.maxRetries)
    have hdid : (did s.p.log).count (.sent k true) = s.p.retxCount k := by
      split at hlim
      · omega
      · rename_i hR
        have := hnew hR
        omega
    have key : ∀ ls : List (Line σ), told ls = told s.lines ++ [.sent k true] →
        (∀ j, Verbose.tries ls j = if j = k ∧ s.p.retxCount k ≠ 0 then Verbose.tries s.lines j ++ [s.p.retxCount k + 1] else Verbose.tries s.lines j) →
        (ls.filter Line.isLoss).length = s.p.nLossDecr → (ls.filter Line.isMark).length = s.p.nMarkDecr →
        Inv o ⟨{ s.p with retxCount := fun j => if j = k then s.p.retxCount k + 1 else s.p.retxCount j }.transmit v k true, ls⟩ := by
      intro ls hl1 hl2 hl3 hl4
      refine ⟨?_, ?_, ?_, ?_, ?_, ?_, ?_, hfr, ?_, hl3, hl4⟩
      · show (did (s.p.log ++ _)).Sublist (told ls)
        rw [hl1, e1]; exact h.sub.append (.refl _)
      · intro hR
        show told ls = did (s.p.log ++ _)
        rw [hl1, e1, h.all hR]
      · show (told ls).filter _ = (did (s.p.log ++ _)).filter _
        rw [hl1, e1, List.filter_append, List.filter_append, h.sure]
      · intro j
        show (told ls).count _ = _
        rw [hl1]; exact hcount j
      · intro j
        show (((did (s.p.log ++ _)).count _ : Nat) : Int) = if o.maxRetries = -1 then (((if j = k then s.p.retxCount k + 1 else s.p.retxCount j) : Nat) : Int)
          else min (((if j = k then s.p.retxCount k + 1 else s.p.retxCount j) : Nat) : Int) (budget o)
        rw [e1, e3]
        by_cases hj : j = k
        · subst hj
          rw [if_pos rfl, if_pos rfl, hdid]
          split
          · rfl
          · rename_i hR
            have := hnew hR
            push_cast
            omega
        · rw [if_neg hj, if_neg hj]; exact h.lim j
      · intro j
        show Verbose.tries ls j = List.range' 2 ((did (s.p.log ++ _)).count _ - 1)
        rw [hl2, e1, e3]
        by_cases hj : j = k
        · subst hj
          rw [if_pos rfl, hdid]
          by_cases h0 : s.p.retxCount j = 0
          · rw [if_neg (fun hx => hx.2 h0), h.tries j, hdid, h0]
          · rw [if_pos ⟨rfl, h0⟩, h.tries j, hdid]
            obtain ⟨n, hn⟩ : ∃ n, s.p.retxCount j = n + 1 := ⟨s.p.retxCount j - 1, by omega⟩
            rw [hn, Nat.add_sub_cancel, Nat.add_sub_cancel, List.range'_1_concat]
            rw [show 2 + n = n + 1 + 1 by omega]
        · rw [if_neg (fun hx => hj hx.1), if_neg hj]; exact h.tries j
      · intro hR j
        show (((if j = k then s.p.retxCount k + 1 else s.p.retxCount j) : Nat) : Int) ≤ _ ∧
          ((get (put s.p.info k _) j).isSome = true → (((if j = k then s.p.retxCount k + 1 else s.p.retxCount j) : Nat) : Int) ≤ _)
        rw [get_put]
        by_cases hj : j = k
        · subst hj
          have := hnew hR
          rw [if_pos rfl]
          push_cast
          exact ⟨by omega, fun _ => this⟩
        · rw [if_neg hj, if_neg hj]; exact h.most hR j
      · intro j hj
        have hj : (get (put s.p.info k _) j).isSome = true := hj
        rw [get_put] at hj
        split at hj
        · rename_i hjk; subst hjk; exact hnx
        · exact h.known j hj
    have l1 : ∀ j, Verbose.tries ([.sending k true] : List (Line σ)) j = [] := fun _ => rfl
    by_cases h0 : s.p.retxCount k = 0
    · rw [sendAgain_first o v _ h0]
      refine key (s.lines ++ [.sending k true]) e2 ?_ ?_ ?_
      · intro j
        rw [if_neg (fun hx => hx.2 h0), tries_append, l1, List.append_nil]
      · rw [List.filter_append, List.length_append, h.loss]; rfl
      · rw [List.filter_append, List.length_append, h.mark]; rfl
    · rw [sendAgain_more v _ h0 (fun hx => hf ⟨h0, hx⟩)]
      refine key (s.lines ++ [.sending k true] ++ [.retries k (s.p.retxCount k + 1)]) e2' ?_ ?_ ?_
      · intro j
        rw [tries_append, tries_append, l1, List.append_nil]
        by_cases hj : j = k
        · subst hj
          rw [if_pos ⟨rfl, h0⟩]; simp [Verbose.tries, Line.retries?]
        · have : k ≠ j := fun h => hj h.symm
          rw [if_neg (fun hx => hj hx.1)]; simp [Verbose.tries, Line.retries?, this]
      · rw [List.filter_append, List.filter_append, List.length_append, List.length_append, h.loss]; rfl
      · rw [List.filter_append, List.filter_append, List.length_append, List.length_append, h.mark]; rfl

/-! ## The other functions -/

theorem inv_schedRetx {o : Opts} (v : Env ε) (q : List Nat) (n : Nat) {s : St σ} (h : Inv o s) : Inv o (St.schedRetx o v q n s).1 := by
  induction q generalizing n s with
  | nil => cases n <;> exact h
  | cons k q ih =>
    cases n with
    | zero => exact h
    | succ n =>
      by_cases hk : (get s.p.info k).isSome = true
      · rw [schedRetx_some hk]
        exact ih n (inv_again (s := s.quiet fun p => { p with retxQueue := q }) (h.same rfl ⟨rfl, rfl, Nat.le_refl _, fun _ h => h, rfl, rfl⟩) v hk)
      · rw [schedRetx_none hk]
        exact ih (n + 1) (h.same rfl ⟨rfl, rfl, Nat.le_refl _, fun _ h => h, rfl, rfl⟩)

theorem inv_schedNew {o : Opts} (v : Env ε) (n : Nat) {s : St σ} (h : Inv o s) : Inv o (St.schedNew o v n s) := by
  induction n generalizing s with
  | zero => exact h
  | succ n ih =>
    unfold St.schedNew
    refine ih (inv_first ?_ v (Nat.lt_succ_self _) (h.fresh _ (Nat.le_refl _)))
    exact h.same rfl ⟨rfl, rfl, Nat.le_succ _, fun _ h => h, rfl, rfl⟩

theorem inv_schedulePackets {A : Alg σ ε} {o : Opts} (v : Env ε) {s : St σ} (h : Inv o s) : Inv o (s.schedulePackets A o v) :=
  inv_schedNew v _ (inv_schedRetx v _ _ (h.same rfl ⟨rfl, rfl, Nat.le_refl _, fun _ h => h, rfl, rfl⟩))

/-- Lines and events that match, and are about neither an Interest nor a number of retries. -/
theorem Inv.more {o : Opts} {s s' : St σ} (h : Inv o s) (ls : List (Line σ)) (os : List Obs) (hl : s'.lines = s.lines ++ ls)
    (ho : s'.p.log = s.p.log ++ os) (he : told ls = did os) (hn : ∀ k b, .sent k b ∉ did os) (ht : ∀ k, Verbose.tries ls k = [])
    (h1 : s'.p.retxCount = s.p.retxCount) (h2 : s'.p.nextSegmentNo = s.p.nextSegmentNo)
    (h3 : ∀ k, (get s'.p.info k).isSome = true → (get s.p.info k).isSome = true)
    (h4 : s'.p.nLossDecr = s.p.nLossDecr + (ls.filter Line.isLoss).length) (h5 : s'.p.nMarkDecr = s.p.nMarkDecr + (ls.filter Line.isMark).length) :
    Inv o s' := by
  have hz : ∀ k, (did os).count (.sent k true) = 0 := fun k => List.count_eq_zero.mpr (hn k true)
  refine ⟨?_, ?_, ?_, ?_, ?_, ?_, ?_, ?_, ?_, ?_, ?_⟩
  · rw [hl, ho, told_append, did_append, he]; exact h.sub.append (.refl _)
  · intro hR; rw [hl, ho, told_append, did_append, he, h.all hR]
  · rw [hl, ho, told_append, did_append, he, List.filter_append, List.filter_append, h.sure]
  · intro k; rw [hl, told_append, he, List.count_append, hz, h1]; exact h.count k
  · intro k; rw [ho, did_append, List.count_append, hz, h1]; exact h.lim k
  · intro k; rw [hl, ho, tries_append, did_append, List.count_append, hz, ht, List.append_nil]; exact h.tries k
  · intro hR k; rw [h1]; exact ⟨(h.most hR k).1, fun hk => (h.most hR k).2 (h3 k hk)⟩
  · intro k hk; rw [h1]; rw [h2] at hk; exact h.fresh k hk
  · intro k hk; rw [h2]; exact h.known k (h3 k hk)
  · rw [hl, List.filter_append, List.length_append, h.loss, h4]
  · rw [hl, List.filter_append, List.length_append, h.mark, h5]

theorem inv_recordTimeout {A : Alg σ ε} {o : Opts} (v : Env ε) (k) {s : St σ} (h : Inv o s) : Inv o (s.recordTimeout A o v k) := by
  unfold St.recordTimeout
  split
  · exact h.more [.loss (A.dec s.p.win v.win)] [.decr k false] rfl rfl rfl (by simp [did, act]) (fun _ => rfl) rfl rfl (fun _ h => h) rfl rfl
  · exact h

theorem inv_checkRto {A : Alg σ ε} {o : Opts} (v : Env ε) (l) {s : St σ} (h : Inv o s) : Inv o (s.checkRto A o v l) := by
  unfold St.checkRto
  split
  · exact h
  simp only
  have h1 : Inv o (s.quiet fun p => l.foldl (Adaptive.St.checkOne v) p) := h.same rfl (same_checkLoop v l s.p)
  split
  · exact (inv_schedulePackets (A := A) v (inv_recordTimeout (A := A) v _ h1)).same rfl ⟨rfl, rfl, Nat.le_refl _, fun _ h => h, rfl, rfl⟩
  · exact h1.same rfl ⟨rfl, rfl, Nat.le_refl _, fun _ h => h, rfl, rfl⟩

/-- The lines and events of the window adaptation. -/
theorem adapt_eq (A : Alg σ ε) (o : Opts) (v : Env ε) (k : Nat) (x : Seg) (d : Pkt) (s : St σ) : ∃ ls os,
    (s.adapt A o v k x d).lines = s.lines ++ ls ∧ (s.adapt A o v k x d).p.log = s.p.log ++ os ∧ told ls = [] ∧ did os = [] ∧
    (∀ k, Verbose.tries ls k = []) ∧ (s.adapt A o v k x d).p.retxCount = s.p.retxCount ∧
    (s.adapt A o v k x d).p.nextSegmentNo = s.p.nextSegmentNo ∧ (s.adapt A o v k x d).p.info = s.p.info ∧
    (s.adapt A o v k x d).p.nLossDecr = s.p.nLossDecr ∧ ls.filter Line.isLoss = [] ∧
    (s.adapt A o v k x d).p.nMarkDecr = s.p.nMarkDecr + (ls.filter Line.isMark).length ∧
    (∀ l ∈ ls, l.window? = some (s.adapt A o v k x d).p.win) := by
  generalize hq : ({ s.p with
      highData := max s.p.highData k
      nInFlight := if x.state ≠ .inRetxQueue then s.p.nInFlight - 1 else s.p.nInFlight
      nCongMarks := if d.congMark then s.p.nCongMarks + 1 else s.p.nCongMarks } : Adaptive.St σ) = q
  have c1 : q.retxCount = s.p.retxCount := by rw [← hq]
  have c2 : q.nextSegmentNo = s.p.nextSegmentNo := by rw [← hq]
  have c3 : q.info = s.p.info := by rw [← hq]
  have c4 : q.nLossDecr = s.p.nLossDecr := by rw [← hq]
  have c5 : q.nMarkDecr = s.p.nMarkDecr := by rw [← hq]
  have c6 : q.log = s.p.log := by rw [← hq]
  by_cases hm : (d.congMark && !o.ignoreCongMarks) = true
  · by_cases hd : (o.disableCwa || decide (q.highData > q.recPoint)) = true
    · have he : s.adapt A o v k x d = ⟨{ q with recPoint := q.highInterest, nMarkDecr := q.nMarkDecr + 1, win := A.dec q.win v.win, log := q.log ++ [.decr q.highData true] },
          s.lines ++ [.mark (A.dec q.win v.win)]⟩ := by
        subst hq
        exact (if_pos hm).trans (if_pos hd)
      rw [he]
      exact ⟨[.mark (A.dec q.win v.win)], [.decr q.highData true], rfl, by rw [← c6], rfl, rfl, fun _ => rfl, c1, c2, c3, c4, rfl, by rw [← c5]; rfl,
        by simp [Line.window?]⟩
    · have he : s.adapt A o v k x d = ⟨q, s.lines⟩ := by
        subst hq
        exact (if_pos hm).trans (if_neg hd)
      rw [he]
      exact ⟨[], [], (List.append_nil _).symm, c6.trans (List.append_nil _).symm, rfl, rfl, fun _ => rfl, c1, c2, c3, c4, rfl, c5, by simp⟩
  · have he : s.adapt A o v k x d = ⟨{ q with win := A.inc q.win v.win, log := q.log ++ [.incr] }, s.lines⟩ := by
      subst hq
      exact if_neg hm
    rw [he]
    exact ⟨[], [.incr], (List.append_nil _).symm, by rw [← c6], rfl, rfl, fun _ => rfl, c1, c2, c3, c4, rfl, c5, by simp⟩

theorem deliver_log (p : Adaptive.St σ) (k x d) : ∃ os, (p.deliver k x d).log = p.log ++ .data k d :: os ∧ did os = [] ∧
    (p.deliver k x d).retxCount = p.retxCount ∧ (p.deliver k x d).nextSegmentNo = p.nextSegmentNo ∧ (p.deliver k x d).info = p.info ∧
    (p.deliver k x d).nLossDecr = p.nLossDecr ∧ (p.deliver k x d).nMarkDecr = p.nMarkDecr := by
  unfold Adaptive.St.deliver
  simp only
  split
  · exact ⟨[.sample k], by simp [Adaptive.St.emit, Adaptive.St.onData], rfl, rfl, rfl, rfl, rfl, rfl⟩
  · exact ⟨[], by simp [Adaptive.St.onData], rfl, rfl, rfl, rfl, rfl, rfl⟩

theorem inv_finish {A : Alg σ ε} {o : Opts} (v : Env ε) (k) {s : St σ} (h : Inv o s) : Inv o (s.finish A o v k) := by
  have h1 : Inv o (s.quiet fun p => { p with info := del p.info k }) := by
    refine h.same rfl ⟨rfl, rfl, Nat.le_refl _, fun j hj => ?_, rfl, rfl⟩
    rw [quiet_p, show ({ s.p with info := del s.p.info k } : Adaptive.St σ).info = del s.p.info k from rfl, get_del] at hj
    split at hj
    · simp at hj
    · exact hj
  unfold St.finish
  simp only
  split
  · have h2 := h1.quiet (f := (·.cancel)) (same_cancel _)
    exact h2.more [] [.complete] (List.append_nil _).symm rfl rfl (by simp [did, act]) (fun _ => rfl) rfl rfl (fun _ h => h) rfl rfl
  · exact inv_schedulePackets v h1

theorem inv_handleSeg {A : Alg σ ε} {o : Opts} (v : Env ε) (k d c) {s : St σ} (h : Inv o s) : Inv o (s.handleSeg A o v k d c) := by
  unfold St.handleSeg
  split
  · exact h
  rename_i x _
  simp only
  obtain ⟨ls, os, a1, a2, a3, a4, a5, a6, a7, a8, a9, a10, a11, -⟩ :=
    adapt_eq A o v k x d (s.say (.received k ((v.now : Int) - x.timeSent) x.rto))
  generalize (s.say (.received k ((v.now : Int) - x.timeSent) x.rto)).adapt A o v k x d = s1 at *
  have t1 : told (.received k ((v.now : Int) - x.timeSent) x.rto :: ls : List (Line σ)) = [.got k] := by
    have := told_append [.received k ((v.now : Int) - x.timeSent) x.rto] ls
    rw [List.singleton_append, a3] at this
    exact this
  have d1 : ∀ os', did os' = [] → did (os ++ .data k d :: os') = [.got k] := by
    intro os' ho
    rw [did_append, a4, show Obs.data k d :: os' = [.data k d] ++ os' from rfl, did_append, ho]; rfl
  have m1 : ∀ s2 : St σ, s2.lines = s1.lines → (∃ os', did os' = [] ∧ s2.p.log = s1.p.log ++ .data k d :: os') → s2.p.retxCount = s1.p.retxCount →
      s2.p.nextSegmentNo = s1.p.nextSegmentNo → (∀ k, (get s2.p.info k).isSome = true → (get s1.p.info k).isSome = true) →
      s2.p.nLossDecr = s1.p.nLossDecr → s2.p.nMarkDecr = s1.p.nMarkDecr → Inv o s2 := by
    rintro s2 b1 ⟨os', b2, b3⟩ b4 b5 b6 b7 b8
    refine h.more (.received k ((v.now : Int) - x.timeSent) x.rto :: ls) (os ++ .data k d :: os') ?_ ?_ ?_ ?_ ?_ ?_ ?_ ?_ ?_ ?_
    · rw [b1, a1]; simp
    · rw [b3, a2]; simp
    · rw [t1, d1 _ b2]
    · intro j b; rw [d1 _ b2]; simp
    · intro j
      have := tries_append [.received k ((v.now : Int) - x.timeSent) x.rto] ls j
      rw [List.singleton_append, a5] at this
      exact this
    · rw [b4, a6]; rfl
    · rw [b5, a7]; rfl
    · intro j hj
      have := b6 j hj
      rw [a8] at this
      exact this
    · rw [b7, a9, List.filter_cons, if_neg (by simp [Line.isLoss]), a10]; rfl
    · rw [b8, a11, List.filter_cons, if_neg (by simp [Line.isMark])]; rfl
  split
  · exact m1 _ rfl ⟨[], rfl, by simp [Adaptive.St.onData]⟩ rfl rfl (fun j hj => by simp at hj) rfl rfl
  · obtain ⟨os', c1, c2, c3, c4, c5, c6, c7⟩ := deliver_log s1.p k x d
    refine inv_finish v k (m1 _ rfl ⟨os', c2, c1⟩ c3 c4 (fun j hj => ?_) c6 c7)
    rw [quiet_p, c5] at hj
    exact hj

theorem inv_handleData {A : Alg σ ε} {o : Opts} (v : Env ε) (k d c) {s : St σ} (h : Inv o s) : Inv o (s.handleData A o v k d c) := by
  unfold St.handleData
  split
  · exact h
  simp only
  have h1 : Inv o (s.quiet fun _ => (s.p.handleFinal d).1) := h.same rfl (same_handleFinal s.p d)
  split
  · exact inv_handleSeg v k d c h1
  · exact h1

theorem inv_lossOf {A : Alg σ ε} {o : Opts} (v : Env ε) (k) {s : St σ} (h : Inv o s) : Inv o (s.lossOf A o v k) := by
  unfold St.lossOf
  simp only
  have h1 : Inv o (s.quiet (·.enqueueForRetransmission k)) := h.same rfl (same_enqueue s.p k)
  split
  · exact h1
  · exact inv_schedulePackets v (inv_recordTimeout v k h1)

theorem inv_handleNack {A : Alg σ ε} {o : Opts} (v : Env ε) (k r) {s : St σ} (h : Inv o s) : Inv o (s.handleNack A o v k r) := by
  unfold St.handleNack
  split
  · exact h
  have h1 : Inv o (s.say (.nack k r)) :=
    h.more [.nack k r] [] rfl (List.append_nil _).symm rfl (by simp [did]) (fun _ => rfl) rfl rfl (fun _ h => h) rfl rfl
  cases r with
  | duplicate => exact h1
  | congestion => exact inv_lossOf v k h1
  | _ => exact h1.quiet (same_handleFail _ _ _)

theorem inv_step {A : Alg σ ε} {o : Opts} {s : St σ} (h : Inv o s) (e : Ev ε) : Inv o (s.step A o e) := by
  unfold St.step
  split
  · exact h
  cases e with
  | data k d c v => exact inv_handleData v k d c (h.quiet (same_called _ k))
  | nack k r v => exact inv_handleNack v k r (h.quiet (same_called _ k))
  | expire k v =>
    have h1 : Inv o (s.quiet (·.called k)) := h.quiet (same_called _ k)
    simp only
    unfold St.handleLifetimeExpiration
    split
    · exact h1
    · exact inv_lossOf v k (h1.same rfl ⟨rfl, rfl, Nat.le_refl _, fun _ h => h, rfl, rfl⟩)
  | check l v => exact inv_checkRto v l (h.same rfl ⟨rfl, rfl, Nat.le_refl _, fun _ h => h, rfl, rfl⟩)
  | cancel => exact h.quiet (same_cancel _)
  | posted =>
    refine h.quiet ?_
    unfold Adaptive.St.step
    split
    · exact .refl _
    simp only
    split
    · exact .refl _
    · exact ⟨by simp [Adaptive.St.emit, did, act], rfl, Nat.le_refl _, fun _ h => h, rfl, rfl⟩

theorem inv_run {A : Alg σ ε} {o : Opts} {w : σ} {v : Env ε} {es s} (h : (machine A o w v).Run es s) : Inv o s := by
  refine Machine.Run.invariant (M := machine A o w v) (P := Inv o) ?_ (fun s e hi _ => inv_step hi e) h
  refine inv_schedulePackets v ⟨.refl _, fun _ => rfl, rfl, fun _ => rfl, ?_, fun _ => rfl, ?_, fun _ _ => rfl, fun k hk => ?_, rfl, rfl⟩
  · intro k
    have := budget_pos o
    simp [did]
    omega
  · intro _ k
    have := budget_pos o
    simp
    omega
  · simp at hk

/-! ## What an event prints -/

/-- The lines printed since `s` have the property, and the window is the same. -/
structure New (Q : Line σ → Prop) (s s' : St σ) : Prop where
  lines : ∃ ls, s'.lines = s.lines ++ ls ∧ ∀ l ∈ ls, Q l
  win : s'.p.win = s.p.win

theorem New.refl (Q : Line σ → Prop) (s : St σ) : New Q s s := ⟨⟨[], by simp⟩, rfl⟩

theorem New.trans {Q : Line σ → Prop} {s s' s'' : St σ} (h : New Q s s') (h' : New Q s' s'') : New Q s s'' := by
  obtain ⟨⟨l, a, b⟩, c⟩ := h
  obtain ⟨⟨l', a', b'⟩, c'⟩ := h'
  refine ⟨⟨l ++ l', by rw [a', a, List.append_assoc], fun x hx => ?_⟩, c'.trans c⟩
  rcases List.mem_append.mp hx with hx | hx
  · exact b x hx
  · exact b' x hx

theorem New.quiet {Q : Line σ → Prop} {s : St σ} {f : Adaptive.St σ → Adaptive.St σ} (h : (f s.p).win = s.p.win) : New Q s (s.quiet f) :=
  ⟨⟨[], by simp [St.quiet]⟩, h⟩

theorem New.say {Q : Line σ → Prop} {s : St σ} {l : Line σ} (h : Q l) : New Q s (s.say l) := ⟨⟨[l], rfl, by simpa using h⟩, rfl⟩

theorem new_sendInterest (o : Opts) (v : Env ε) (k b) (s : St σ) : New (fun l => l.plain = true) s (s.sendInterest o v k b) := by
  unfold St.sendInterest
  split
  · exact .refl _ _
  split
  · exact .refl _ _
  split
  · exact .refl _ _
  simp only
  have h1 : New (fun l : Line σ => l.plain = true) s (s.say (.sending k b)) := .say rfl
  refine h1.trans ?_
  split
  · by_cases hf : s.p.retxCount k ≠ 0 ∧ o.maxRetries ≠ -1 ∧ (s.p.retxCount k + 1 : Int) > o.maxRetries
    · rw [sendAgain_fail v _ hf]
      exact ⟨⟨[], by simp [St.say]⟩, (AdaptiveTime.less_handleFail _ _ _).win⟩
    · by_cases h0 : s.p.retxCount k = 0
      · rw [sendAgain_first o v _ h0]
        exact ⟨⟨[], by simp [St.say]⟩, rfl⟩
      · rw [sendAgain_more v _ h0 (fun hx => hf ⟨h0, hx⟩)]
        exact ⟨⟨[.retries k (s.p.retxCount k + 1)], rfl, by simp [Line.plain]⟩, rfl⟩
  · exact .quiet rfl

theorem new_schedRetx (o : Opts) (v : Env ε) (q : List Nat) (n : Nat) (s : St σ) : New (fun l => l.plain = true) s (St.schedRetx o v q n s).1 := by
  induction q generalizing n s with
  | nil => cases n <;> exact .refl _ _
  | cons k q ih =>
    cases n with
    | zero => exact .refl _ _
    | succ n =>
      by_cases hk : (get s.p.info k).isSome = true
      · rw [schedRetx_some hk]
        exact (New.quiet (f := fun p => { p with retxQueue := q }) rfl).trans ((new_sendInterest o v k true _).trans (ih n _))
      · rw [schedRetx_none hk]
        exact (New.quiet (f := fun p => { p with retxQueue := q }) rfl).trans
          ((New.quiet (f := fun p => { p with nSkippedRetx := p.nSkippedRetx + 1 }) rfl).trans (ih (n + 1) _))

theorem new_schedNew (o : Opts) (v : Env ε) (n : Nat) (s : St σ) : New (fun l => l.plain = true) s (St.schedNew o v n s) := by
  induction n generalizing s with
  | zero => exact .refl _ _
  | succ n ih =>
    unfold St.schedNew
    exact (New.quiet (f := fun p => { p with nextSegmentNo := p.nextSegmentNo + 1 }) rfl).trans ((new_sendInterest o v _ false _).trans (ih _))

theorem new_schedulePackets (A : Alg σ ε) (o : Opts) (v : Env ε) (s : St σ) : New (fun l => l.plain = true) s (s.schedulePackets A o v) :=
  (New.quiet (f := fun p => { p with assertFailed := p.assertFailed || decide (p.nInFlight < 0) }) rfl).trans
    ((new_schedRetx o v _ _ _).trans (new_schedNew o v _ _))

/-- The lines printed since `s`: about sending, and those with the property, for the window after it. -/
def Prints (Q : σ → Line σ → Prop) (s s' : St σ) : Prop :=
  ∃ ls, s'.lines = s.lines ++ ls ∧ ∀ l ∈ ls, l.plain = true ∨ Q s'.p.win l

theorem Prints.refl (Q : σ → Line σ → Prop) (s : St σ) : Prints Q s s := ⟨[], by simp⟩

theorem New.prints {Q : σ → Line σ → Prop} {s s' : St σ} (h : New (fun l => l.plain = true) s s') : Prints Q s s' :=
  let ⟨ls, a, b⟩ := h.lines
  ⟨ls, a, fun l hl => .inl (b l hl)⟩

theorem Prints.more {Q : σ → Line σ → Prop} {s s' s'' : St σ} (h : Prints Q s s') (h' : New (fun l => l.plain = true) s' s'') : Prints Q s s'' := by
  obtain ⟨ls, a, b⟩ := h
  obtain ⟨⟨l', a', b'⟩, c'⟩ := h'
  refine ⟨ls ++ l', by rw [a', a, List.append_assoc], fun l hl => ?_⟩
  rw [c']
  rcases List.mem_append.mp hl with hl | hl
  · exact b l hl
  · exact .inl (b' l hl)

theorem Prints.quiet {Q : σ → Line σ → Prop} {s s' : St σ} {f} (h : Prints Q s s') (hw : (f s'.p).win = s'.p.win) : Prints Q s (s'.quiet f) :=
  h.more (.quiet hw)

/-- Lines from before `s`. -/
theorem Prints.before {Q : σ → Line σ → Prop} {r s s' : St σ} (h : Prints Q s s') (h' : r.lines = s.lines) : Prints Q r s' := by
  obtain ⟨ls, a, b⟩ := h
  exact ⟨ls, by rw [a, h'], b⟩

theorem prints_recordTimeout {A : Alg σ ε} {o : Opts} (v : Env ε) (k) {s : St σ} {Q : σ → Line σ → Prop} {r : St σ} (hr : r.lines = s.lines ∨ ∃ l, s.lines = r.lines ++ [l] ∧ ∀ w, Q w l)
    (hq : Q (A.dec s.p.win v.win) (.loss (A.dec s.p.win v.win))) : Prints Q r (s.recordTimeout A o v k) := by
  unfold St.recordTimeout
  split
  · rcases hr with hr | ⟨l, hr, hl⟩
    · refine ⟨[.loss (A.dec s.p.win v.win)], by rw [hr]; rfl, fun l hl => .inr ?_⟩
      rw [List.mem_singleton.mp hl]
      exact hq
    · refine ⟨[l, .loss (A.dec s.p.win v.win)], by show s.lines ++ _ = _; rw [hr]; simp, fun x hx => .inr ?_⟩
      rcases List.mem_cons.mp hx with rfl | hx
      · exact hl _
      · rw [List.mem_singleton.mp hx]
        exact hq
  · rcases hr with hr | ⟨l, hr, hl⟩
    · exact ⟨[], by rw [hr]; simp, by simp⟩
    · exact ⟨[l], hr, fun x hx => .inr (by rw [List.mem_singleton.mp hx]; exact hl _)⟩

theorem checkLoop_win (v : Env ε) (l : List Nat) (p : Adaptive.St σ) : (l.foldl (Adaptive.St.checkOne v) p).win = p.win := by
  induction l generalizing p with
  | nil => rfl
  | cons k l ih =>
    rw [List.foldl_cons, ih]
    unfold Adaptive.St.checkOne
    split
    · rfl
    · split
      · exact AdaptiveTime.enqueue_win _ _
      · rfl

theorem prints_lossOf {A : Alg σ ε} {o : Opts} (v : Env ε) (k) {s : St σ} {Q : σ → Line σ → Prop} {r : St σ} (hr : r.lines = s.lines ∨ ∃ l, s.lines = r.lines ++ [l] ∧ ∀ w, Q w l)
    (hq : Q (A.dec s.p.win v.win) (.loss (A.dec s.p.win v.win))) : Prints Q r (s.lossOf A o v k) := by
  unfold St.lossOf
  simp only
  have hw : (s.p.enqueueForRetransmission k).win = s.p.win := AdaptiveTime.enqueue_win _ _
  split
  · rcases hr with hr | ⟨l, hr, hl⟩
    · exact ⟨[], by rw [hr]; simp [St.quiet], by simp⟩
    · exact ⟨[l], hr, fun x hx => .inr (by rw [List.mem_singleton.mp hx]; exact hl _)⟩
  · refine (prints_recordTimeout (A := A) (o := o) v k (s := s.quiet (·.enqueueForRetransmission k)) (Q := Q) hr ?_).more (new_schedulePackets A o v _)
    rw [quiet_p, hw]
    exact hq

theorem prints_checkRto {A : Alg σ ε} {o : Opts} (v : Env ε) (l) {s : St σ} {Q : σ → Line σ → Prop}
    (hq : Q (A.dec s.p.win v.win) (.loss (A.dec s.p.win v.win))) : Prints Q s (s.checkRto A o v l) := by
  unfold St.checkRto
  split
  · exact .refl _ _
  simp only
  have hw := checkLoop_win v l s.p
  refine Prints.quiet ?_ rfl
  split
  · refine (prints_recordTimeout (A := A) (o := o) v _ (s := s.quiet fun p => l.foldl (Adaptive.St.checkOne v) p) (Q := Q) (r := s) (.inl rfl) ?_).more
      (new_schedulePackets A o v _)
    rw [quiet_p, hw]
    exact hq
  · exact (Prints.refl Q s).quiet hw

theorem adapt_lines (A : Alg σ ε) (o : Opts) (v : Env ε) (k : Nat) (x : Seg) (d : Pkt) (s : St σ) : 
    (s.adapt A o v k x d).lines = s.lines ∨
    ((s.adapt A o v k x d).lines = s.lines ++ [.mark (A.dec s.p.win v.win)] ∧ (s.adapt A o v k x d).p.win = A.dec s.p.win v.win ∧ d.congMark = true) := by
  generalize hq : ({ s.p with
      highData := max s.p.highData k
      nInFlight := if x.state ≠ .inRetxQueue then s.p.nInFlight - 1 else s.p.nInFlight
      nCongMarks := if d.congMark then s.p.nCongMarks + 1 else s.p.nCongMarks } : Adaptive.St σ) = q
  have c1 : q.win = s.p.win := by rw [← hq]
  by_cases hm : (d.congMark && !o.ignoreCongMarks) = true
  · by_cases hd : (o.disableCwa || decide (q.highData > q.recPoint)) = true
    · have he : s.adapt A o v k x d = ⟨{ q with recPoint := q.highInterest, nMarkDecr := q.nMarkDecr + 1, win := A.dec q.win v.win, log := q.log ++ [.decr q.highData true] },
          s.lines ++ [.mark (A.dec q.win v.win)]⟩ := by
        subst hq
        exact (if_pos hm).trans (if_pos hd)
      rw [he, c1]
      exact .inr ⟨rfl, rfl, by simp at hm; exact hm.1⟩
    · have he : s.adapt A o v k x d = ⟨q, s.lines⟩ := by
        subst hq
        exact (if_pos hm).trans (if_neg hd)
      rw [he]
      exact .inl rfl
  · have he : s.adapt A o v k x d = ⟨{ q with win := A.inc q.win v.win, log := q.log ++ [.incr] }, s.lines⟩ := by
      subst hq
      exact if_neg hm
    rw [he]
    exact .inl rfl

theorem deliver_win (p : Adaptive.St σ) (k x d) : (p.deliver k x d).win = p.win := by
  unfold Adaptive.St.deliver
  simp only
  split <;> rfl

theorem new_finish (A : Alg σ ε) (o : Opts) (v : Env ε) (k) (s : St σ) : New (fun l => l.plain = true) s (s.finish A o v k) := by
  unfold St.finish
  simp only
  refine (New.quiet (f := fun p => { p with info := del p.info k }) rfl).trans ?_
  split
  · exact .quiet (AdaptiveTime.less_cancel _).win
  · exact new_schedulePackets A o v _

theorem prints_handleSeg {A : Alg σ ε} {o : Opts} (v : Env ε) (k d c) {s : St σ} {Q : σ → Line σ → Prop}
    (hr : ∀ x, get s.p.info k = some x → ∀ w, Q w (.received k ((v.now : Int) - x.timeSent) x.rto))
    (hm : d.congMark = true → Q (A.dec s.p.win v.win) (.mark (A.dec s.p.win v.win))) : Prints Q s (s.handleSeg A o v k d c) := by
  unfold St.handleSeg
  split
  · exact .refl _ _
  rename_i x hx
  simp only
  have h1 : Prints Q s ((s.say (.received k ((v.now : Int) - x.timeSent) x.rto)).adapt A o v k x d) := by
    rcases adapt_lines A o v k x d (s.say (.received k ((v.now : Int) - x.timeSent) x.rto)) with h | ⟨h, h2, h3⟩
    · exact ⟨[.received k ((v.now : Int) - x.timeSent) x.rto], h, fun l hl => .inr (by rw [List.mem_singleton.mp hl]; exact hr x hx _)⟩
    · refine ⟨[.received k ((v.now : Int) - x.timeSent) x.rto, .mark (A.dec s.p.win v.win)], by rw [h]; simp [St.say], fun l hl => .inr ?_⟩
      rcases List.mem_cons.mp hl with rfl | hl
      · exact hr x hx _
      · rw [List.mem_singleton.mp hl, h2]
        exact hm h3
  split
  · exact h1.quiet rfl
  · exact (h1.quiet (deliver_win _ _ _ _)).more (new_finish A o v k _)

theorem prints_step (A : Alg σ ε) (o : Opts) (s : St σ) (e : Ev ε) : Prints (Explained A s.p e) s (s.step A o e) := by
  unfold St.step
  split
  · exact .refl _ _
  cases e with
  | data k d c v =>
    simp only
    unfold St.handleData
    have h0 : Prints (Explained A s.p (.data k d c v)) s (s.quiet (·.called k)) := (Prints.refl _ s).quiet rfl
    split
    · exact h0
    simp only
    have hf := AdaptiveTime.less_handleFinal (s.quiet (·.called k)).p d
    have hw : ((s.quiet (·.called k)).p.handleFinal d).1.win = s.p.win := hf.win
    split
    · refine Prints.before (s := (s.quiet (·.called k)).quiet fun _ => ((s.quiet (·.called k)).p.handleFinal d).1) ?_ rfl
      refine prints_handleSeg v k d c ?_ ?_
      · intro x hx w
        obtain ⟨y, h1, h2, h3, -⟩ := (AdaptiveTime.pre_called A (.data k d c v) s.p k).info k x (hf.info k x hx)
        exact ⟨y, d, c, v, rfl, h1, by rw [h2], h3⟩
      · intro hd
        rw [quiet_p, hw]
        exact ⟨rfl, k, d, c, v, rfl, hd, rfl⟩
    · exact ⟨[], by simp [St.quiet], by simp⟩
  | nack k r v =>
    simp only
    unfold St.handleNack
    split
    · exact (Prints.refl _ s).quiet rfl
    simp only
    have hk : ∀ w, Explained A s.p (.nack k r v) w (.nack k r) := fun _ => ⟨v, rfl⟩
    have h1 : Prints (Explained A s.p (.nack k r v)) s ((s.quiet (·.called k)).say (.nack k r)) :=
      ⟨[.nack k r], rfl, fun l hl => .inr (by rw [List.mem_singleton.mp hl]; exact hk _)⟩
    cases r with
    | duplicate => exact h1
    | congestion =>
      exact prints_lossOf v k (.inr ⟨.nack k .congestion, rfl, hk⟩) ⟨rfl, v, rfl, by simp, rfl⟩
    | _ => exact h1.quiet (AdaptiveTime.less_handleFail _ _ _).win
  | expire k v =>
    simp only
    unfold St.handleLifetimeExpiration
    split
    · exact (Prints.refl _ s).quiet rfl
    · exact prints_lossOf v k (.inl rfl) ⟨rfl, v, rfl, by simp, rfl⟩
  | check l v =>
    exact (prints_checkRto (Q := Explained A s.p (.check l v)) v l (s := s.quiet fun p => { p with timer := false }) ⟨rfl, v, rfl, by simp, rfl⟩).before rfl
  | cancel => exact (Prints.refl _ s).quiet (AdaptiveTime.less_cancel _).win
  | posted => exact ⟨[], by simp [St.quiet], by simp⟩

/-- The line about a Nack. -/
theorem nack_told {A : Alg σ ε} {o : Opts} {s : St σ} (h1 : s.p.isStopping = false) (h2 : s.p.threw = none) (h3 : s.p.ub = false) (k : Nat)
    (r : NackReason) (v : Env ε) : ∃ ls, (s.step A o (.nack k r v)).lines = s.lines ++ .nack k r :: ls := by
  unfold St.step
  rw [if_neg (by rw [h2, h3]; simp)]
  simp only
  unfold St.handleNack
  rw [if_neg (by show ¬ s.p.isStopping = true; rw [h1]; simp)]
  simp only
  cases r with
  | congestion =>
    obtain ⟨ls, a, -⟩ := prints_lossOf (A := A) (o := o) v k (s := (s.quiet (·.called k)).say (.nack k .congestion)) (Q := fun _ _ => True) (.inl rfl) trivial
    exact ⟨ls, by rw [a]; simp [St.say, St.quiet]⟩
  | _ => exact ⟨[], rfl⟩

theorem run_det {A : Alg σ ε} {o : Opts} {w : σ} {v : Env ε} {es p q} (h : (Adaptive.machine A o w v).Run es p)
    (h' : (Adaptive.machine A o w v).Run es q) : p = q := by
  have key : ∀ {es p}, (Adaptive.machine A o w v).Run es p → p = es.foldl (Adaptive.machine A o w v).step (Adaptive.machine A o w v).init := by
    intro es p h
    induction h with
    | nil => rfl
    | snoc e _ _ ih => rw [List.foldl_append, ← ih]; rfl
  rw [key h, key h']

end Verif.Verbose
