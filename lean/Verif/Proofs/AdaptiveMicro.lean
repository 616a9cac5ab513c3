import Verif.Spec.Adaptive
import Verif.Proofs.ListLemmas
import Mathlib.Data.List.Perm.Subperm
import Mathlib.Logic.Relation

/-!
# The adaptive pipeline as a sequence of small steps

Every event of the model is a sequence of the primitive changes listed in `Micro`. Invariants are
then proved for the primitive changes only.
-/

namespace Verif.Adaptive

set_option linter.unusedSimpArgs false

variable {σ ε : Type}

/-! ## The segment map -/

@[simp] theorem get_nil (k) : get [] k = none := rfl

theorem get_cons (e : Nat × Seg) (l k) : get (e :: l) k = if e.1 = k then some e.2 else get l k := by
  unfold get
  rw [List.find?_cons]
  by_cases h : e.1 = k
  · simp [h]
  · have : (e.1 == k) = false := by simpa using h
    simp [this, h]

theorem get_isSome {l : List (Nat × Seg)} {k} : (get l k).isSome = true ↔ k ∈ l.map (·.1) := by
  induction l with
  | nil => simp
  | cons e l ih =>
    rw [get_cons]
    by_cases h : e.1 = k
    · simp [h]
    · have h' : k ≠ e.1 := fun x => h x.symm
      rw [if_neg h, ih]
      simp [h']

theorem get_none {l : List (Nat × Seg)} {k} : get l k = none ↔ k ∉ l.map (·.1) := by
  rw [← get_isSome]
  cases get l k <;> simp

theorem get_append (l l' : List (Nat × Seg)) (k) : get (l ++ l') k = (get l k).or (get l' k) := by
  induction l with
  | nil => simp
  | cons e l ih =>
    rw [List.cons_append, get_cons, get_cons, ih]
    split <;> simp

theorem get_put (l k x j) : get (put l k x) j = if j = k then some x else get l j := by
  unfold put
  split
  · rename_i h
    have : ∀ l : List (Nat × Seg), get (l.map (fun e => if e.1 == k then (k, x) else e)) j =
        if j = k then (if (get l k).isSome then some x else none) else get l j := by
      intro l
      induction l with
      | nil => simp
      | cons e l ih =>
        rw [List.map_cons, get_cons, ih]
        by_cases h1 : e.1 = k
        · by_cases h2 : j = k
          · subst h2; simp [get_cons, h1]
          · have h3 : k ≠ j := fun x => h2 x.symm
            simp [get_cons, h1, h2, h3]
        · have h5 : (e.1 == k) = false := by simpa using h1
          by_cases h2 : j = k
          · subst h2; simp [get_cons, h1, h5]
          · simp [get_cons, h5, h2]
    rw [this, h]
    simp
  · rename_i h
    rw [get_append]
    by_cases h2 : j = k
    · subst h2
      have : get l j = none := by simpa using h
      simp [this, get_cons]
    · have h3 : k ≠ j := fun x => h2 x.symm
      simp [get_cons, h2, h3]

theorem keys_put (l k x) :
    (put l k x).map (·.1) = if (get l k).isSome then l.map (·.1) else l.map (·.1) ++ [k] := by
  unfold put
  split
  · rw [List.map_map]
    apply List.map_congr_left
    intro e _
    simp only [Function.comp]
    split
    · rename_i h; simpa using (by simpa using h : e.1 = k).symm
    · rfl
  · simp

theorem get_del (l k j) : get (del l k) j = if j = k then none else get l j := by
  unfold del
  induction l with
  | nil => simp
  | cons e l ih =>
    rw [List.filter_cons]
    by_cases h1 : e.1 = k
    · have : (e.1 != k) = false := by simp [h1]
      rw [this]
      simp only [Bool.false_eq_true, if_false]
      rw [ih, get_cons]
      by_cases h2 : j = k
      · simp [h2]
      · have h3 : e.1 ≠ j := fun x => h2 (x.symm.trans h1)
        simp [h2, h3]
    · have : (e.1 != k) = true := by simp [h1]
      rw [this]
      simp only [if_true]
      rw [get_cons, ih, get_cons]
      by_cases h2 : e.1 = j
      · have h3 : j ≠ k := fun x => h1 (h2.trans x)
        simp [h2, h3]
      · simp [h2]

theorem get_filter (l : List (Nat × Seg)) (n j) :
    get (l.filter (fun e => decide (e.1 ≤ n))) j = if j ≤ n then get l j else none := by
  induction l with
  | nil => simp
  | cons e l ih =>
    rw [List.filter_cons]
    by_cases h1 : e.1 ≤ n
    · rw [if_pos (by simpa using h1), get_cons, ih, get_cons]
      by_cases h2 : e.1 = j
      · have : j ≤ n := by omega
        simp [h2, this]
      · simp [h2]
    · rw [if_neg (by simpa using h1), ih, get_cons]
      by_cases h2 : e.1 = j
      · have : ¬ j ≤ n := by omega
        simp [this]
      · simp [h2]

theorem nodup_put {l k x} (h : (l.map (·.1)).Nodup) : ((put l k x).map (·.1)).Nodup := by
  rw [keys_put]
  split
  · exact h
  · rename_i hn
    rw [List.nodup_append]
    refine ⟨h, by simp, ?_⟩
    intro a ha b hb
    simp at hb
    subst hb
    intro hab
    subst hab
    exact hn (get_isSome.mpr ha)

theorem nodup_filter {l : List (Nat × Seg)} (p) (h : (l.map (·.1)).Nodup) : ((l.filter p).map (·.1)).Nodup :=
  h.sublist (List.filter_sublist.map _)

theorem nodup_del {l k} (h : (l.map (·.1)).Nodup) : ((del l k).map (·.1)).Nodup := nodup_filter _ h

theorem isEmpty_iff_get {l : List (Nat × Seg)} : l.isEmpty = true ↔ ∀ k, get l k = none := by
  constructor
  · intro h k
    have : l = [] := by simpa using h
    simp [this]
  · intro h
    cases l with
    | nil => rfl
    | cons e l =>
      have := h e.1
      simp [get_cons] at this

/-! ## Primitive changes -/

/-- The retransmission limit forbids one more retransmission of segment `k`. -/
def Limit (o : Opts) (s : St σ) (k : Nat) : Prop :=
  s.retxCount k ≠ 0 ∧ o.maxRetries ≠ -1 ∧ (s.retxCount k + 1 : Int) > o.maxRetries

/-- One more retransmission of `k` in the counters. -/
def bump (s : St σ) (k : Nat) : Nat → Nat := fun j => if j = k then s.retxCount k + 1 else s.retxCount j

/-- What the environment may do. `net`: the Data that can arrive; `late`: callbacks for segments that
are not tracked any more; `cancels`: a data callback that calls `cancel()`; `clean`: no event that
makes the in-flight counter inexact. -/
structure Allow where
  net : Nat → Pkt → Prop
  late : Prop
  cancels : Prop
  clean : Prop
  nacked : Nat → NackReason → Prop := fun _ _ => True

/-- No restriction. -/
def Allow.all : Allow := ⟨fun _ _ => True, True, True, False, fun _ _ => True⟩

/-- The reason `m` of a failure of segment `k` is justified in state `s`; `rc`: the retransmission
counters after the failure. -/
def MsgOf (al : Allow) (o : Opts) (s : St σ) (rc : Nat → Nat) (k : Nat) (m : FailMsg) : Prop :=
  (∃ r, m = .segNack k r ∧ r ≠ .duplicate ∧ r ≠ .congestion ∧ al.nacked k r ∧ Obs.interest k false ∈ s.log) ∨
  (m = .maxRetries o.maxRetries k ∧ Limit o s k ∧ (get s.info k).isSome = true ∧
    rc = bump s k)

/-- The reason `m` of a failure is justified in state `s`. -/
def Msg (al : Allow) (o : Opts) (s : St σ) (rc : Nat → Nat) (m : FailMsg) : Prop :=
  (m = .noFinal ∧ s.hasFinalBlockId = false ∧
    ∃ k m', MsgOf al o s rc k m' ∧ (del s.info k).isEmpty = true) ∨
  (∃ k, MsgOf al o s rc k m ∧ s.hasFinalBlockId = true ∧ k ≤ s.lastSegmentNo) ∨
  (s.hasFailure = true ∧ m = s.failureReason ∧ s.hasFinalBlockId = true ∧ s.failedSegNo ≤ s.lastSegmentNo)

/-- The reaction of the window to Data `p` for segment `k`, apart from the in-flight counter. -/
inductive Adapts (A : Alg σ ε) (o : Opts) (s : St σ) (k : Nat) (p : Pkt) : St σ → Prop
  | decr (e : ε) : p.congMark = true → o.ignoreCongMarks = false →
      (o.disableCwa = true ∨ max s.highData k > s.recPoint) →
      Adapts A o s k p
        { s with highData := max s.highData k,
                 nCongMarks := if p.congMark then s.nCongMarks + 1 else s.nCongMarks,
                 recPoint := s.highInterest, nMarkDecr := s.nMarkDecr + 1, win := A.dec s.win e,
                 log := s.log ++ [.decr (max s.highData k) true] }
  | keep : p.congMark = true → o.ignoreCongMarks = false →
      ¬ (o.disableCwa = true ∨ max s.highData k > s.recPoint) →
      Adapts A o s k p
        { s with highData := max s.highData k,
                 nCongMarks := if p.congMark then s.nCongMarks + 1 else s.nCongMarks }
  | incr (e : ε) : ¬ (p.congMark = true ∧ o.ignoreCongMarks = false) →
      Adapts A o s k p
        { s with highData := max s.highData k,
                 nCongMarks := if p.congMark then s.nCongMarks + 1 else s.nCongMarks,
                 win := A.inc s.win e, log := s.log ++ [.incr] }

/-- Primitive changes of the state. -/
inductive Micro (A : Alg σ ε) (o : Opts) (al : Allow) : St σ → St σ → Prop
  | called (s : St σ) (k) : k ∈ s.out → Micro A o al s (s.called k)
  | stat (s : St σ) (t : Bool) (n : Nat) (a : Bool) :
      (a = true → s.assertFailed = true ∨ (s.nInFlight < 0 ∧ s.isStopping = false)) →
      Micro A o al s { s with timer := t, nTimeouts := n, assertFailed := a }
  | stop (s : St σ) (rc q n posted') : s.isStopping = false →
      (posted' = s.posted ∨ ∃ m, posted' = s.posted ++ [m] ∧ Msg al o s rc m) →
      (rc = s.retxCount ∨ ∃ k, rc = bump s k) →
      Micro A o al s { s with isStopping := true, timer := false, info := [], retxCount := rc,
                              retxQueue := q, nInFlight := n, posted := posted' }
  | complete (s : St σ) : s.isStopping = false → s.allSegmentsReceived = true →
      Micro A o al s (s.cancel.emit .complete)
  | new (s : St σ) (v : Env ε) : s.isStopping = false → s.hasFailure = false →
      ¬ (s.hasFinalBlockId = true ∧ s.nextSegmentNo > s.lastSegmentNo) →
      Micro A o al s ({ s with nextSegmentNo := s.nextSegmentNo + 1 }.transmit v s.nextSegmentNo false)
  | skip (s : St σ) : (s.isStopping = true ∨ s.hasFailure = true ∨
        (s.hasFinalBlockId = true ∧ s.nextSegmentNo > s.lastSegmentNo)) →
      Micro A o al s { s with nextSegmentNo := s.nextSegmentNo + 1 }
  | pop (s : St σ) (k q n) : s.retxQueue = k :: q →
      (get s.info k = none ∨ s.isStopping = true ∨ (s.hasFinalBlockId = true ∧ k > s.lastSegmentNo)) →
      Micro A o al s { s with retxQueue := q, nSkippedRetx := n }
  | resend (s : St σ) (v : Env ε) (k q) : s.retxQueue = k :: q → s.isStopping = false →
      (get s.info k).isSome = true → ¬ (s.hasFinalBlockId = true ∧ k > s.lastSegmentNo) →
      ¬ Limit o s k →
      Micro A o al s ({ s with retxQueue := q, retxCount := bump s k }.transmit v k true)
  | fail (s : St σ) (k m q rc) : s.isStopping = false → s.hasFinalBlockId = false →
      Obs.interest k false ∈ s.log → (del s.info k).isEmpty = false → ¬ al.clean →
      (get s.info k = none → al.late) →
      ((q = s.retxQueue ∧ rc = s.retxCount) ∨
       (s.retxQueue = k :: q ∧ rc = bump s k ∧ (get s.info k).isSome = true ∧ Limit o s k)) →
      MsgOf al o s rc k m →
      Micro A o al s { { s with info := del s.info k, nInFlight := s.nInFlight - 1, retxQueue := q,
                                retxCount := rc }.cancelGreater k with
                       hasFailure := true, failedSegNo := k, failureReason := m }
  | loss (s : St σ) (k) (e : ε) : (o.disableCwa = true ∨ k > s.recPoint) →
      Obs.interest k false ∈ s.log → s.isStopping = false →
      Micro A o al s { s with recPoint := s.highInterest, win := A.dec s.win e,
                              nLossDecr := s.nLossDecr + 1, log := s.log ++ [.decr k false] }
  | enqueue (s : St σ) (k x) : get s.info k = some x → s.isStopping = false →
      (al.clean → x.state ≠ .inRetxQueue) →
      Micro A o al s (s.enqueueForRetransmission k)
  | throwRange (s : St σ) (k) : get s.info k = none → al.late → s.isStopping = false →
      Obs.interest k false ∈ s.log →
      Micro A o al s (s.enqueueForRetransmission k)
  | throwFinal (s : St σ) (k p) : s.isStopping = false → al.net k p → p.final = .notSegment →
      Micro A o al s { s with threw := some .finalBlockNotSegment }
  | final (s : St σ) (k p n) : s.isStopping = false → s.hasFinalBlockId = false →
      al.net k p → p.final = .seg n →
      (al.clean → ∀ j x, get s.info j = some x → n < j → x.state ≠ .inRetxQueue) →
      Micro A o al s ({ s with lastSegmentNo := n, hasFinalBlockId := true }.cancelGreater n)
  | clear (s : St σ) : s.isStopping = false → s.hasFinalBlockId = true →
      (s.hasFailure = true → s.lastSegmentNo < s.failedSegNo) →
      Micro A o al s { s with hasFailure := false }
  | deliver (s s1 : St σ) (k x p) : s.isStopping = false → get s.info k = some x → al.net k p →
      Adapts A o s k p s1 → (s.hasFinalBlockId = true ∨ p.final = .absent) →
      Micro A o al s { s1 with
        nReceived := s1.nReceived + 1, receivedSize := s1.receivedSize + p.content.length,
        nInFlight := if x.state ≠ .inRetxQueue then s1.nInFlight - 1 else s1.nInFlight,
        info := del s1.info k,
        log := s1.log ++ (.data k p ::
          if x.state ≠ .retransmitted ∧ s1.retxCount k = 0 then [.sample k] else []) }
  | ub (s s1 : St σ) (k x p n) : s.isStopping = false → get s.info k = some x → al.net k p →
      al.cancels → Adapts A o s k p s1 → (s.hasFinalBlockId = true ∨ p.final = .absent) →
      Micro A o al s { s1 with
        nReceived := s1.nReceived + 1, receivedSize := s1.receivedSize + p.content.length,
        isStopping := true, timer := false, info := [], ub := true, nInFlight := n,
        log := s1.log ++ [.data k p] }
  | posted (s : St σ) (m rest) : s.posted = m :: rest →
      Micro A o al s { s with posted := rest, log := s.log ++ [.failure m] }

/-- Sequences of primitive changes. -/
abbrev Steps (A : Alg σ ε) (o : Opts) (al : Allow) : St σ → St σ → Prop :=
  Relation.ReflTransGen (Micro A o al)

/-- Facts needed to see that an event is a sequence of primitive changes. -/
structure WF (s : St σ) : Prop where
  nodup : (s.info.map (·.1)).Nodup
  has : ∀ k, (get s.info k).isSome = true → Obs.interest k false ∈ s.log
  out : ∀ k, k ∈ s.out → Obs.interest k false ∈ s.log
  next : ∀ k b, Obs.interest k b ∈ s.log → k < s.nextSegmentNo
  stop : s.isStopping = true → s.info = []

theorem adapts_frame {A : Alg σ ε} {o : Opts} {s s1 : St σ} {k p} (h : Adapts A o s k p s1) :
    ∃ l, s1.log = s.log ++ l ∧ (∀ j b, Obs.interest j b ∉ l) ∧ s1.info = s.info ∧ s1.out = s.out ∧
      s1.nextSegmentNo = s.nextSegmentNo ∧ s1.isStopping = s.isStopping := by
  cases h with
  | decr e _ _ _ => exact ⟨_, rfl, by simp, rfl, rfl, rfl, rfl⟩
  | keep _ _ _ => exact ⟨[], by simp, by simp, rfl, rfl, rfl, rfl⟩
  | incr e _ => exact ⟨_, rfl, by simp, rfl, rfl, rfl, rfl⟩

theorem wf_micro {A : Alg σ ε} {o : Opts} {al : Allow} {s s' : St σ} (h : WF s) (m : Micro A o al s s') : WF s' := by
  obtain ⟨h1, h2, h3, h4, h5⟩ := h
  cases m with
  | called k hk =>
    unfold St.called
    refine ⟨?_, ?_, ?_, h4, ?_⟩
    · dsimp only; split
      · exact h1
      · exact nodup_put h1
    · intro j hj
      dsimp only at hj
      split at hj
      · exact h2 j hj
      · rename_i x hx
        rw [get_put] at hj
        split at hj
        · rename_i h; subst h; exact h2 j (by simp [hx])
        · exact h2 j hj
    · intro j hj
      exact h3 j (List.mem_of_mem_erase hj)
    · intro hs
      dsimp only
      rw [h5 hs]
      simp
  | stat t n a _ => exact ⟨h1, h2, h3, h4, h5⟩
  | stop rc q n posted' hs hp _ => exact ⟨by simp, by simp, h3, h4, by simp⟩
  | complete hs ha =>
    unfold St.cancel St.emit
    rw [if_neg (by simp [hs])]
    refine ⟨by simp, by simp, ?_, ?_, by simp⟩
    · intro k hk; have := h3 k hk; simp [this]
    · intro k b hk; exact h4 k b (by simpa using hk)
  | new v hs hf hl =>
    unfold St.transmit
    refine ⟨nodup_put h1, ?_, ?_, ?_, by simp [hs]⟩
    · intro k hk
      dsimp only at hk ⊢
      rw [get_put] at hk
      split at hk
      · rename_i h; subst h; simp
      · have := h2 k hk; simp [this]
    · intro k hk
      dsimp only at hk ⊢
      rcases List.mem_append.mp hk with hk | hk
      · have := h3 k hk; simp [this]
      · simp at hk; simp [hk]
    · intro k b hk
      dsimp only at hk ⊢
      rcases List.mem_append.mp hk with hk | hk
      · have := h4 k b hk; omega
      · simp at hk; omega
  | skip _ => exact ⟨h1, h2, h3, fun k b hk => Nat.lt_succ_of_lt (h4 k b hk), h5⟩
  | pop k q n _ _ => exact ⟨h1, h2, h3, h4, h5⟩
  | resend v k q hq hs hh hl hm =>
    unfold St.transmit
    have hk := h2 k hh
    refine ⟨nodup_put h1, ?_, ?_, ?_, by simp [hs]⟩
    · intro j hj
      dsimp only at hj ⊢
      rw [get_put] at hj
      split at hj
      · rename_i h; subst h; simp [hk]
      · have := h2 j hj; simp [this]
    · intro j hj
      dsimp only at hj ⊢
      rcases List.mem_append.mp hj with hj | hj
      · have := h3 j hj; simp [this]
      · simp at hj; subst hj; simp [hk]
    · intro j b hj
      dsimp only at hj ⊢
      rcases List.mem_append.mp hj with hj | hj
      · exact h4 j b hj
      · simp at hj; rw [hj.1]; exact h4 k false hk
  | fail k m q rc hs hf hk he hcl hl hq =>
    unfold St.cancelGreater
    refine ⟨nodup_filter _ (nodup_del h1), ?_, h3, h4, by simp [hs]⟩
    intro j hj
    dsimp only at hj
    rw [get_filter, get_del] at hj
    split at hj
    · split at hj
      · simp at hj
      · exact h2 j hj
    · simp at hj
  | loss k e hc hk hs =>
    refine ⟨h1, ?_, ?_, ?_, h5⟩
    · intro j hj; have := h2 j hj; simp [this]
    · intro j hj; have := h3 j hj; simp [this]
    · intro j b hj; exact h4 j b (by simpa using hj)
  | enqueue k x hx hs hcl =>
    unfold St.enqueueForRetransmission
    dsimp only
    rw [hx]
    refine ⟨nodup_put h1, ?_, h3, h4, by simp [hs]⟩
    intro j hj
    dsimp only at hj
    rw [get_put] at hj
    split at hj
    · rename_i h; subst h; exact h2 j (by simp [hx])
    · exact h2 j hj
  | throwRange k hx hl hs hk =>
    unfold St.enqueueForRetransmission
    dsimp only
    rw [hx]
    exact ⟨h1, h2, h3, h4, h5⟩
  | throwFinal k p hs hnet hp => exact ⟨h1, h2, h3, h4, h5⟩
  | final k p n hs hf hn hp hcl =>
    unfold St.cancelGreater
    refine ⟨nodup_filter _ h1, ?_, h3, h4, by simp [hs]⟩
    intro j hj
    dsimp only at hj
    rw [get_filter] at hj
    split at hj
    · exact h2 j hj
    · simp at hj
  | clear _ _ _ => exact ⟨h1, h2, h3, h4, h5⟩
  | deliver s1 k x p hs hx hn ha =>
    obtain ⟨l, hl, hnl, e1, e2, e3, e4⟩ := adapts_frame ha
    refine ⟨?_, ?_, ?_, ?_, ?_⟩
    · dsimp only; rw [e1]; exact nodup_del h1
    · intro j hj
      dsimp only at hj ⊢
      rw [e1, get_del] at hj
      split at hj
      · simp at hj
      · have := h2 j hj; simp [hl, this]
    · intro j hj; dsimp only at hj ⊢; rw [e2] at hj; have := h3 j hj; simp [hl, this]
    · intro j b hj
      dsimp only at hj ⊢
      rw [e3]
      apply h4 j b
      rw [hl, List.append_assoc] at hj
      rcases List.mem_append.mp hj with hj | hj
      · exact hj
      · exfalso
        rcases List.mem_append.mp hj with hj | hj
        · exact hnl j b hj
        · split at hj <;> simp at hj
    · dsimp only; rw [e4, hs]; simp
  | ub s1 k x p n hs hx hn hc ha =>
    obtain ⟨l, hl, hnl, e1, e2, e3, e4⟩ := adapts_frame ha
    refine ⟨by simp, by simp, ?_, ?_, by simp⟩
    · intro j hj; dsimp only at hj ⊢; rw [e2] at hj; have := h3 j hj; simp [hl, this]
    · intro j b hj
      dsimp only at hj ⊢
      rw [e3]
      apply h4 j b
      rw [hl, List.append_assoc] at hj
      rcases List.mem_append.mp hj with hj | hj
      · exact hj
      · exfalso
        rcases List.mem_append.mp hj with hj | hj
        · exact hnl j b hj
        · simp at hj
  | posted m rest hp =>
    refine ⟨h1, ?_, ?_, ?_, h5⟩
    · intro j hj; have := h2 j hj; simp [this]
    · intro j hj; have := h3 j hj; simp [this]
    · intro j b hj; exact h4 j b (by simpa using hj)

theorem steps_inv {A : Alg σ ε} {o : Opts} {al : Allow} {P : St σ → Prop} (hP : ∀ s s', P s → Micro A o al s s' → P s')
    {s s' : St σ} (h : P s) (m : Steps A o al s s') : P s' := by
  induction m with
  | refl => exact h
  | tail _ hm ih => exact hP _ _ ih hm

theorem wf_steps {A : Alg σ ε} {o : Opts} {al : Allow} {s s' : St σ} (h : WF s) (m : Steps A o al s s') : WF s' :=
  steps_inv (P := WF) (fun _ _ h m => wf_micro h m) h m

/-! ## Events are sequences of primitive changes -/

theorem one {A : Alg σ ε} {o : Opts} {al : Allow} {s s' : St σ} (m : Micro A o al s s') : Steps A o al s s' :=
  Relation.ReflTransGen.single m

theorem steps_cancel (A : Alg σ ε) (o : Opts) (al : Allow) (s : St σ) : Steps A o al s s.cancel := by
  unfold St.cancel
  split
  · exact .refl
  · rename_i hs
    exact one (Micro.stop s s.retxCount s.retxQueue s.nInFlight s.posted (by simpa using hs) (Or.inl rfl)
      (Or.inl rfl))

theorem onFailure_eq {s : St σ} (hs : s.isStopping = false) (m) :
    s.onFailure m = { s with isStopping := true, timer := false, info := [], posted := s.posted ++ [m] } := by
  unfold St.onFailure St.cancel
  rw [if_neg (by simp [hs])]
  dsimp only
  rw [if_neg (by simp [hs])]

/-- A fatal Nack. -/
theorem steps_handleFail (A : Alg σ ε) (o : Opts) (al : Allow) (s : St σ) (k m)
    (hk : Obs.interest k false ∈ s.log) (hcl : ¬ al.clean) (hl : get s.info k = none → al.late)
    (hmsg : MsgOf al o s s.retxCount k m) : Steps A o al s (s.handleFail k m) := by
  unfold St.handleFail
  split
  · exact .refl
  rename_i hs
  simp only [Bool.not_eq_true] at hs
  split
  · rename_i hc
    rw [onFailure_eq hs]
    exact one (Micro.stop s s.retxCount s.retxQueue s.nInFlight _ hs (Or.inr ⟨m, rfl, Or.inr (Or.inl ⟨k, hmsg, hc⟩)⟩)
      (Or.inl rfl))
  split
  · rename_i hf
    simp only [Bool.not_eq_true'] at hf
    dsimp only
    split
    · rename_i he
      rw [onFailure_eq (by exact hs)]
      exact one (Micro.stop s s.retxCount s.retxQueue (s.nInFlight - 1) _ hs
        (Or.inr ⟨_, rfl, Or.inl ⟨rfl, hf, k, m, hmsg, he⟩⟩) (Or.inl rfl))
    · rename_i he
      exact one (Micro.fail s k m s.retxQueue s.retxCount hs hf hk (by simpa using he) hcl hl (Or.inl ⟨rfl, rfl⟩) hmsg)
  · exact .refl

/-- One iteration with a non-empty retransmission queue. -/
theorem steps_popSend (A : Alg σ ε) (o : Opts) (al : Allow) (v : Env ε) (s : St σ) (k q) (hw : WF s)
    (hq : s.retxQueue = k :: q) (hh : (get s.info k).isSome = true)
    (hR : al.clean → o.maxRetries = -1) :
    Steps A o al s ({ s with retxQueue := q }.sendInterest o v k true) := by
  have hk := hw.has k hh
  unfold St.sendInterest
  split
  · rename_i hs
    exact one (Micro.pop s k q s.nSkippedRetx hq (Or.inr (Or.inl hs)))
  rename_i hs
  simp only [Bool.not_eq_true] at hs
  split
  · rename_i hf
    exact one (Micro.pop s k q s.nSkippedRetx hq (Or.inr (Or.inr hf)))
  rename_i hf
  simp only [Bool.not_true, Bool.false_and, Bool.false_eq_true, if_false, if_true]
  unfold St.sendAgain
  dsimp only
  split
  · rename_i hl
    unfold St.handleFail
    rw [if_neg (by simp [hs])]
    split
    · rename_i hc
      rw [onFailure_eq (by exact hs)]
      exact one (Micro.stop s (bump s k) q s.nInFlight _ hs
        (Or.inr ⟨_, rfl, Or.inr (Or.inl ⟨k, Or.inr ⟨rfl, hl, hh, rfl⟩, hc⟩)⟩) (Or.inr ⟨k, rfl⟩))
    split
    · rename_i hnf
      simp only [Bool.not_eq_true'] at hnf
      dsimp only
      split
      · rename_i he
        rw [onFailure_eq (by exact hs)]
        exact one (Micro.stop s (bump s k) q (s.nInFlight - 1) _ hs
          (Or.inr ⟨_, rfl, Or.inl ⟨rfl, hnf, k, _, Or.inr ⟨rfl, hl, hh, rfl⟩, he⟩⟩) (Or.inr ⟨k, rfl⟩))
      · rename_i he
        exact one (Micro.fail s k _ q (bump s k) hs hnf hk (by simpa using he)
          (fun hc => hl.2.1 (hR hc)) (fun hn => by simp [hn] at hh) (Or.inr ⟨hq, rfl, hh, hl⟩)
          (Or.inr ⟨rfl, hl, hh, rfl⟩))
    · rename_i hc hnf
      exfalso
      simp only [Bool.not_eq_true', Bool.not_eq_false] at hnf
      dsimp only at hf hc hnf
      simp only [hnf, true_and] at hf hc
      omega
  · rename_i hl
    exact one (Micro.resend s v k q hq hs hh hf hl)

theorem cancel_queue (s : St σ) : s.cancel.retxQueue = s.retxQueue := by
  unfold St.cancel; split <;> rfl

theorem onFailure_queue (s : St σ) (m) : (s.onFailure m).retxQueue = s.retxQueue := by
  unfold St.onFailure
  split
  · rfl
  · exact cancel_queue s

theorem handleFail_queue (s : St σ) (k m) : (s.handleFail k m).retxQueue = s.retxQueue := by
  unfold St.handleFail
  split
  · rfl
  split
  · exact onFailure_queue s m
  split
  · dsimp only
    split
    · rw [onFailure_queue]
    · rfl
  · rfl

theorem sendInterest_queue (s : St σ) (o) (v : Env ε) (k b) :
    (s.sendInterest o v k b).retxQueue = s.retxQueue := by
  unfold St.sendInterest
  split
  · rfl
  split
  · rfl
  split
  · rfl
  split
  · unfold St.sendAgain
    dsimp only
    split
    · rw [handleFail_queue]
    · rfl
  · rfl

theorem steps_schedRetx (A : Alg σ ε) (o : Opts) (al : Allow) (v : Env ε) (q : List Nat) (n : Nat) (s : St σ)
    (hw : WF s) (hR : al.clean → o.maxRetries = -1) (hq : s.retxQueue = q) :
    Steps A o al s (St.schedRetx o v q n s).1 := by
  induction q generalizing n s with
  | nil => cases n <;> exact .refl
  | cons k q ih =>
    cases n with
    | zero => exact .refl
    | succ n =>
      unfold St.schedRetx
      dsimp only
      split
      · rename_i hh
        have h1 := steps_popSend A o al v s k q hw hq hh hR
        refine Relation.ReflTransGen.trans h1 (ih n _ (wf_steps hw h1) ?_)
        rw [sendInterest_queue]
      · rename_i hh
        have h1 : Steps A o al s { s with retxQueue := q, nSkippedRetx := s.nSkippedRetx + 1 } :=
          one (Micro.pop s k q _ hq (Or.inl (by simpa using hh)))
        exact Relation.ReflTransGen.trans h1 (ih (n + 1) _ (wf_steps hw h1) rfl)

theorem steps_schedNew (A : Alg σ ε) (o : Opts) (al : Allow) (v : Env ε) (n : Nat) (s : St σ) (hw : WF s) :
    Steps A o al s (St.schedNew o v n s) := by
  induction n generalizing s with
  | zero => exact .refl
  | succ n ih =>
    unfold St.schedNew
    have h1 : Steps A o al s ({ s with nextSegmentNo := s.nextSegmentNo + 1 }.sendInterest o v s.nextSegmentNo false) := by
      unfold St.sendInterest
      split
      · rename_i hs; exact one (Micro.skip s (Or.inl hs))
      rename_i hs
      simp only [Bool.not_eq_true] at hs
      split
      · rename_i hf; exact one (Micro.skip s (Or.inr (Or.inr hf)))
      rename_i hf
      split
      · rename_i hf; exact one (Micro.skip s (Or.inr (Or.inl (by simpa using hf))))
      rename_i hff
      simp only [Bool.false_eq_true, if_false]
      exact one (Micro.new s v hs (by simpa using hff) hf)
    exact Relation.ReflTransGen.trans h1 (ih _ (wf_steps hw h1))

theorem steps_schedulePackets (A : Alg σ ε) (o : Opts) (al : Allow) (v : Env ε) (s : St σ) (hw : WF s)
    (hs : s.isStopping = false) (hR : al.clean → o.maxRetries = -1) :
    Steps A o al s (s.schedulePackets A o v) := by
  unfold St.schedulePackets
  dsimp only
  have h1 : Steps A o al s { s with assertFailed := s.assertFailed || decide (s.nInFlight < 0) } :=
    one (Micro.stat s s.timer s.nTimeouts _ (by simp [hs]))
  have hw1 := wf_steps hw h1
  have h2 := steps_schedRetx A o al v s.retxQueue (A.slots s.win - s.nInFlight).toNat _ hw1 hR rfl
  have hw2 := wf_steps hw1 h2
  exact (h1.trans h2).trans (steps_schedNew A o al v _ _ hw2)

theorem steps_recordTimeout (A : Alg σ ε) (o : Opts) (al : Allow) (v : Env ε) (s : St σ) (k)
    (hs : s.isStopping = false) (hk : Obs.interest k false ∈ s.log) :
    Steps A o al s (s.recordTimeout A o v k) := by
  unfold St.recordTimeout
  split
  · rename_i hc
    exact one (Micro.loss s k v.win (by simpa using hc) hk hs)
  · exact .refl

theorem recordTimeout_stopping (A : Alg σ ε) (o : Opts) (v : Env ε) (s : St σ) (k) :
    (s.recordTimeout A o v k).isStopping = s.isStopping := by
  unfold St.recordTimeout; split <;> rfl

theorem enqueue_stopping (s : St σ) (k) : (s.enqueueForRetransmission k).isStopping = s.isStopping := by
  unfold St.enqueueForRetransmission
  dsimp only
  split <;> rfl

theorem enqueue_log (s : St σ) (k) : (s.enqueueForRetransmission k).log = s.log := by
  unfold St.enqueueForRetransmission
  dsimp only
  split <;> rfl

theorem enqueue_threw (s : St σ) (k) (h : (get s.info k).isSome = true) :
    (s.enqueueForRetransmission k).threw = s.threw := by
  unfold St.enqueueForRetransmission
  dsimp only
  split
  · rename_i hn; simp [hn] at h
  · rfl

theorem steps_enqueue (A : Alg σ ε) (o : Opts) (al : Allow) (s : St σ) (k) (hs : s.isStopping = false)
    (hl : get s.info k = none → al.late)
    (hcl : al.clean → ∀ x, get s.info k = some x → x.state ≠ .inRetxQueue)
    (hk : Obs.interest k false ∈ s.log) :
    Steps A o al s (s.enqueueForRetransmission k) := by
  cases h : get s.info k with
  | some x => exact one (Micro.enqueue s k x h hs (fun hc => hcl hc x h))
  | none => exact one (Micro.throwRange s k h (hl h) hs hk)

theorem steps_lossOf (A : Alg σ ε) (o : Opts) (al : Allow) (v : Env ε) (s : St σ) (k) (hw : WF s)
    (hs : s.isStopping = false) (hk : Obs.interest k false ∈ s.log)
    (hR : al.clean → o.maxRetries = -1) (hl : get s.info k = none → al.late)
    (hcl : al.clean → ∀ x, get s.info k = some x → x.state ≠ .inRetxQueue) :
    Steps A o al s (s.lossOf A o v k) := by
  unfold St.lossOf
  have h1 := steps_enqueue A o al s k hs hl hcl hk
  dsimp only
  split
  · exact h1
  · have h2 := steps_recordTimeout A o al v (s.enqueueForRetransmission k) k
      (by rw [enqueue_stopping, hs]) (by rw [enqueue_log]; exact hk)
    exact (h1.trans h2).trans (steps_schedulePackets A o al v _ (wf_steps (wf_steps hw h1) h2)
      (by rw [recordTimeout_stopping, enqueue_stopping]; exact hs) hR)

theorem steps_checkOne (A : Alg σ ε) (o : Opts) (al : Allow) (v : Env ε) (s : St σ) (k) (hw : WF s)
    (hs : s.isStopping = false) :
    Steps A o al s (s.checkOne v k) ∧ (s.checkOne v k).isStopping = false ∧ (s.checkOne v k).log = s.log := by
  unfold St.checkOne
  split
  · exact ⟨.refl, hs, rfl⟩
  · rename_i x hx
    split
    · rename_i hc
      refine ⟨?_, by rw [enqueue_stopping]; exact hs, by rw [enqueue_log]⟩
      have h1 : Steps A o al s { s with nTimeouts := s.nTimeouts + 1 } :=
        one (Micro.stat s s.timer _ s.assertFailed Or.inl)
      refine h1.trans (steps_enqueue A o al _ k hs (fun h => ?_) (fun _ y hy => ?_)
        (hw.has k (by simp [hx])))
      · simp only [hx] at h; cases h
      · simp only [hx, Option.some.injEq] at hy; rw [← hy]; exact hc.1
    · exact ⟨.refl, hs, rfl⟩

theorem steps_checkLoop (A : Alg σ ε) (o : Opts) (al : Allow) (v : Env ε) (order : List Nat) (s : St σ) (hw : WF s)
    (hs : s.isStopping = false) :
    Steps A o al s (order.foldl (St.checkOne v) s) ∧ (order.foldl (St.checkOne v) s).isStopping = false ∧
    (order.foldl (St.checkOne v) s).log = s.log := by
  induction order generalizing s with
  | nil => exact ⟨.refl, hs, rfl⟩
  | cons k l ih =>
    obtain ⟨h1, h2, h3⟩ := steps_checkOne A o al v s k hw hs
    obtain ⟨h4, h5, h6⟩ := ih _ (wf_steps hw h1) h2
    exact ⟨h1.trans h4, h5, h6.trans h3⟩

theorem foldl_max_ge (l : List Nat) (a : Nat) : a ≤ l.foldl max a := by
  induction l generalizing a with
  | nil => exact Nat.le_refl _
  | cons b l ih =>
    simp only [List.foldl_cons]
    exact Nat.le_trans (Nat.le_max_left a b) (ih (max a b))

theorem foldl_max_mem (l : List Nat) (a : Nat) : l.foldl max a = a ∨ l.foldl max a ∈ l := by
  induction l generalizing a with
  | nil => left; rfl
  | cons b l ih =>
    simp only [List.foldl_cons]
    rcases ih (max a b) with h | h
    · rw [h]
      by_cases hab : a ≤ b
      · right; rw [Nat.max_eq_right hab]; simp
      · left; exact Nat.max_eq_left (by omega)
    · right; exact List.mem_cons_of_mem _ h

theorem foldl_max_mem' {l : List Nat} (h : l ≠ []) : l.foldl max 0 ∈ l := by
  cases l with
  | nil => exact absurd rfl h
  | cons b l =>
    simp only [List.foldl_cons, Nat.zero_max]
    rcases foldl_max_mem l b with h | h
    · rw [h]; simp
    · exact List.mem_cons_of_mem _ h

theorem steps_checkRto (A : Alg σ ε) (o : Opts) (al : Allow) (v : Env ε) (order : List Nat) (s : St σ)
    (hw : WF s) (hR : al.clean → o.maxRetries = -1) :
    Steps A o al s (s.checkRto A o v order) := by
  unfold St.checkRto
  split
  · exact .refl
  rename_i hs
  simp only [Bool.not_eq_true] at hs
  dsimp only
  obtain ⟨h1, h2, h3⟩ := steps_checkLoop A o al v order s hw hs
  have hw1 := wf_steps hw h1
  split
  · rename_i hne
    have hm := foldl_max_mem' hne
    have hk : Obs.interest ((s.expired v order).foldl max 0) false ∈ s.log := by
      generalize (s.expired v order).foldl max 0 = k at hm
      unfold St.expired at hm
      rw [List.mem_filter] at hm
      apply hw.has
      revert hm
      cases get s.info k <;> simp
    have h4 := steps_recordTimeout A o al v _ ((s.expired v order).foldl max 0) h2 (by rw [h3]; exact hk)
    have hw2 := wf_steps hw1 h4
    have h5 := steps_schedulePackets A o al v _ hw2 (by rw [recordTimeout_stopping]; exact h2) hR
    exact ((h1.trans h4).trans h5).trans (one (Micro.stat _ true _ _ Or.inl))
  · exact h1.trans (one (Micro.stat _ true _ _ Or.inl))

theorem adapts_adapt (A : Alg σ ε) (o : Opts) (v : Env ε) (s : St σ) (k x p) :
    ∃ s1 : St σ, Adapts A o s k p s1 ∧ s.adapt A o v k x p =
      { s1 with nInFlight := if x.state ≠ .inRetxQueue then s1.nInFlight - 1 else s1.nInFlight } := by
  unfold St.adapt
  dsimp only
  split
  · rename_i hm
    simp only [Bool.and_eq_true, Bool.not_eq_true'] at hm
    split
    · rename_i hc
      exact ⟨_, Adapts.decr v.win hm.1 hm.2 (by simpa using hc), rfl⟩
    · rename_i hc
      exact ⟨_, Adapts.keep hm.1 hm.2 (by simpa using hc), rfl⟩
  · rename_i hm
    exact ⟨_, Adapts.incr v.win (by simpa using hm), rfl⟩

theorem deliver_eq (s1 : St σ) (k x p) (n : Int) :
    { (St.deliver { s1 with nInFlight := n } k x p) with
      info := del (St.deliver { s1 with nInFlight := n } k x p).info k } =
    { s1 with
      nReceived := s1.nReceived + 1, receivedSize := s1.receivedSize + p.content.length,
      nInFlight := n, info := del s1.info k,
      log := s1.log ++ (Obs.data k p ::
        if x.state ≠ SegState.retransmitted ∧ s1.retxCount k = 0 then [Obs.sample k] else []) } := by
  unfold St.deliver St.onData St.emit
  dsimp only
  split <;> simp

theorem steps_handleSeg (A : Alg σ ε) (o : Opts) (al : Allow) (v : Env ε) (s : St σ) (k p c) (hw : WF s)
    (hs : s.isStopping = false) (hR : al.clean → o.maxRetries = -1) (hn : al.net k p)
    (hc : c = true → al.cancels) (hfin : s.hasFinalBlockId = true ∨ p.final = .absent) :
    Steps A o al s (s.handleSeg A o v k p c) := by
  unfold St.handleSeg
  cases hx : get s.info k with
  | none => exact .refl
  | some x =>
    dsimp only
    obtain ⟨s1, ha, h4⟩ := adapts_adapt A o v s k x p
    have h3 : s1.isStopping = false := by
      obtain ⟨_, _, _, _, _, _, h⟩ := adapts_frame ha; rw [h, hs]
    rw [h4]
    split
    · rename_i hcc
      exact one (Micro.ub s s1 k x p _ hs hx hn (hc hcc) ha hfin)
    · unfold St.finish
      dsimp only
      have h5 := Micro.deliver (al := al) s s1 k x p hs hx hn ha hfin
      rw [deliver_eq]
      generalize hs2 : ({ s1 with
            nReceived := s1.nReceived + 1, receivedSize := s1.receivedSize + p.content.length,
            nInFlight := if x.state ≠ SegState.inRetxQueue then s1.nInFlight - 1 else s1.nInFlight,
            info := del s1.info k,
            log := s1.log ++ (Obs.data k p :: if x.state ≠ SegState.retransmitted ∧ s1.retxCount k = 0 then [Obs.sample k] else []) } : St σ) = s2 at h5
      have h8 : s2.isStopping = false := by rw [← hs2]; exact h3
      refine (one h5).trans ?_
      have hw7 := wf_micro hw h5
      split
      · rename_i ha
        exact one (Micro.complete _ h8 ha)
      · exact steps_schedulePackets A o al v _ hw7 h8 hR

theorem steps_handleFinal (A : Alg σ ε) (o : Opts) (al : Allow) (s : St σ) (k : Nat) (p : Pkt)
    (hs : s.isStopping = false) (hnet : al.net k p)
    (hcl : al.clean → s.hasFinalBlockId = false → ∀ n, p.final = .seg n →
      ∀ j x, get s.info j = some x → n < j → x.state ≠ .inRetxQueue) :
    Steps A o al s (s.handleFinal p).1 ∧ ((s.handleFinal p).2 = true → (s.handleFinal p).1.isStopping = false ∧
      ((s.handleFinal p).1.hasFinalBlockId = true ∨ p.final = .absent)) := by
  unfold St.handleFinal
  split
  · rename_i hf; exact ⟨.refl, fun _ => ⟨hs, Or.inl hf⟩⟩
  rename_i hf
  simp only [Bool.not_eq_true] at hf
  split
  · rename_i hp; exact ⟨.refl, fun _ => ⟨hs, Or.inr hp⟩⟩
  · rename_i hp; exact ⟨one (Micro.throwFinal s k p hs hnet hp), by simp⟩
  · rename_i n hn
    have h1 := one (Micro.final (A := A) (o := o) (al := al) s k p n hs hf hnet hn (fun hc => hcl hc hf n hn))
    dsimp only
    split
    · refine ⟨h1.trans ?_, by simp⟩
      rw [onFailure_eq (by exact hs)]
      rename_i hc
      exact one (Micro.stop _ _ _ _ _ hs (Or.inr ⟨_, rfl, Or.inr (Or.inr ⟨hc.1, rfl, rfl, hc.2⟩)⟩)
        (Or.inl rfl))
    · rename_i hc
      refine ⟨h1.trans (one (Micro.clear _ hs rfl ?_)), fun _ => ⟨hs, Or.inl rfl⟩⟩
      intro hff
      simp only [St.cancelGreater] at hc hff ⊢
      simp only [hff, true_and] at hc
      omega

theorem steps_handleData (A : Alg σ ε) (o : Opts) (al : Allow) (v : Env ε) (s : St σ) (k p c) (hw : WF s)
    (hR : al.clean → o.maxRetries = -1) (hnet : al.net k p) (hc : c = true → al.cancels)
    (hcl : al.clean → s.hasFinalBlockId = false → ∀ n, p.final = .seg n →
      ∀ j x, get s.info j = some x → n < j → x.state ≠ .inRetxQueue) :
    Steps A o al s (s.handleData A o v k p c) := by
  unfold St.handleData
  split
  · exact .refl
  rename_i hs
  simp only [Bool.not_eq_true] at hs
  obtain ⟨h1, h2⟩ := steps_handleFinal A o al s k p hs hnet hcl
  dsimp only
  split
  · rename_i hb
    exact h1.trans (steps_handleSeg A o al v _ k p c (wf_steps hw h1) (h2 hb).1 hR hnet hc (h2 hb).2)
  · exact h1

/-- The environment may produce event `e` in state `s`. -/
structure Allowed (al : Allow) (o : Opts) (s : St σ) (e : Ev ε) : Prop where
  net : ∀ k p c v, e = .data k p c v → al.net k p ∧ (c = true → al.cancels)
  late : ∀ k, ((∃ r v, e = .nack k r v) ∨ (∃ v, e = .expire k v)) → get s.info k = none → al.late
  clean : al.clean → CleanEv s e ∧ o.maxRetries = -1
  nacked : ∀ k r v, e = .nack k r v → al.nacked k r

theorem allowed_all (o : Opts) (s : St σ) (e : Ev ε) : Allowed Allow.all o s e :=
  ⟨fun _ _ _ _ _ => ⟨trivial, fun _ => trivial⟩, fun _ _ _ => trivial, fun h => h.elim, fun _ _ _ _ => trivial⟩

theorem get_called (s : St σ) (k j) :
    get (s.called k).info j = if j = k then (get s.info k).map (fun x => { x with pending := false })
      else get s.info j := by
  unfold St.called
  dsimp only
  cases h : get s.info k with
  | none => dsimp only; split <;> simp_all
  | some x => dsimp only; rw [get_put]; split <;> simp_all

theorem get_called_none {s : St σ} {k j} : get (s.called k).info j = none ↔ get s.info j = none := by
  rw [get_called]
  split
  · rename_i h; subst h; cases get s.info j <;> simp
  · rfl

theorem get_called_state {s : St σ} {k j x} (h : get (s.called k).info j = some x) :
    ∃ y, get s.info j = some y ∧ y.state = x.state := by
  rw [get_called] at h
  split at h
  · rename_i hjk
    subst hjk
    cases hx : get s.info j with
    | none => simp [hx] at h
    | some y => simp [hx] at h; exact ⟨y, rfl, by rw [← h]⟩
  · exact ⟨x, h, rfl⟩

theorem steps_step {A : Alg σ ε} {o : Opts} {al : Allow} {s : St σ} {e : Ev ε} (hw : WF s)
    (he : s.enabled e) (hal : Allowed al o s e) :
    Steps A o al s (s.step A o e) := by
  have hR : al.clean → o.maxRetries = -1 := fun hc => (hal.clean hc).2
  unfold St.step
  split
  · exact .refl
  cases e with
  | data k p c v =>
    have h1 := one (Micro.called (A := A) (o := o) (al := al) s k he)
    obtain ⟨hn, hcc⟩ := hal.net k p c v rfl
    refine h1.trans (steps_handleData A o al v _ k p c (wf_steps hw h1) hR hn hcc ?_)
    intro hc hf n hp j x hx hj
    obtain ⟨y, hy, hyx⟩ := get_called_state hx
    rw [← hyx]
    exact (hal.clean hc).1 hf n hp j y hy hj
  | nack k r v =>
    have h1 := one (Micro.called (A := A) (o := o) (al := al) s k he)
    have hw1 := wf_steps hw h1
    have hk : Obs.interest k false ∈ (s.called k).log := hw.out k he
    have hl : get (s.called k).info k = none → al.late := by
      intro h; exact hal.late k (Or.inl ⟨r, v, rfl⟩) (get_called_none.mp h)
    refine h1.trans ?_
    simp only [St.handleNack]
    split
    · exact .refl
    rename_i hs
    simp only [Bool.not_eq_true] at hs
    split
    · exact .refl
    · refine steps_lossOf A o al v _ k hw1 hs hk hR hl ?_
      intro hc x hx
      obtain ⟨y, hy, hyx⟩ := get_called_state hx
      rw [← hyx]
      exact (hal.clean hc).1.2 y hy
    · rename_i hr1 hr2
      refine steps_handleFail A o al _ k _ hk ?_ hl
        ((Or.inl ⟨r, rfl, fun h => hr1 h, fun h => hr2 h, hal.nacked k r v rfl, hk⟩))
      intro hc
      rcases (hal.clean hc).1.1 with h | h
      · exact hr1 h
      · exact hr2 h
  | expire k v =>
    have h1 := one (Micro.called (A := A) (o := o) (al := al) s k he)
    have hw1 := wf_steps hw h1
    have hk : Obs.interest k false ∈ (s.called k).log := hw.out k he
    refine h1.trans ?_
    simp only [St.handleLifetimeExpiration]
    split
    · exact .refl
    rename_i hs
    simp only [Bool.not_eq_true] at hs
    have h2 : Steps A o al (s.called k) { s.called k with nTimeouts := (s.called k).nTimeouts + 1 } :=
      one (Micro.stat _ (s.called k).timer _ (s.called k).assertFailed Or.inl)
    refine h2.trans (steps_lossOf A o al v _ k (wf_steps hw1 h2) hs hk hR ?_ ?_)
    · intro h; exact hal.late k (Or.inr ⟨v, rfl⟩) (get_called_none.mp h)
    · intro hc x hx
      obtain ⟨y, hy, hyx⟩ := get_called_state hx
      rw [← hyx]
      exact (hal.clean hc).1 y hy
  | check order v =>
    have h1 : Steps A o al s { s with timer := false } :=
      one (Micro.stat s false s.nTimeouts s.assertFailed Or.inl)
    exact h1.trans (steps_checkRto A o al v order _ (wf_steps hw h1) hR)
  | cancel => exact steps_cancel A o al s
  | posted =>
    dsimp only
    split
    · exact .refl
    · rename_i m rest hp
      exact one (Micro.posted s m rest hp)

/-- The state before `run()`. -/
def initial (w : σ) : St σ := { win := w, timer := true }

theorem wf_initial (w : σ) : WF (initial w) := by
  constructor <;> simp [initial]

/-- `es` and `s` form an execution in which every event is `Allowed`. -/
def ARun (A : Alg σ ε) (o : Opts) (w : σ) (v : Env ε) (al : Allow) : List (Ev ε) → St σ → Prop :=
  Machine.Run { init := start A o w v, step := St.step A o
                enabled := fun s e => s.enabled e ∧ Allowed al o s e }

theorem run_all {A : Alg σ ε} {o : Opts} {w : σ} {v : Env ε} {es s} (h : (machine A o w v).Run es s) :
    ARun A o w v Allow.all es s := by
  induction h with
  | nil => exact Machine.Run.nil
  | snoc e _ he ih => exact Machine.Run.snoc (M := ⟨start A o w v, St.step A o, _⟩) e ih ⟨he, allowed_all o _ e⟩

/-- Every reachable state is reached from the initial one by primitive changes. -/
theorem run_steps {A : Alg σ ε} {o : Opts} {al : Allow} {w : σ} {v : Env ε} {es s}
    (hR : al.clean → o.maxRetries = -1) (h : ARun A o w v al es s) :
    Steps A o al (initial w) s := by
  induction h with
  | nil => exact steps_schedulePackets A o al v _ (wf_initial w) rfl hR
  | snoc e _ he ih => exact ih.trans (steps_step (wf_steps (wf_initial w) ih) he.1 he.2)

theorem run_wf {A : Alg σ ε} {o : Opts} {w : σ} {v : Env ε} {es s} (h : (machine A o w v).Run es s) : WF s :=
  wf_steps (wf_initial w) (run_steps (al := Allow.all) (fun h => False.elim h) (run_all h))

/-- Invariants of primitive changes hold in every reachable state. -/
theorem arun_inv {A : Alg σ ε} {o : Opts} {al : Allow} {w : σ} {v : Env ε} {es s} {P : St σ → Prop}
    (hR : al.clean → o.maxRetries = -1) (h : ARun A o w v al es s) (h0 : P (initial w))
    (hP : ∀ s s', WF s → P s → Micro A o al s s' → P s') : P s := by
  have : WF s ∧ P s := by
    refine steps_inv (P := fun s => WF s ∧ P s) ?_ ⟨wf_initial w, h0⟩ (run_steps hR h)
    intro s s' hs hm
    exact ⟨wf_micro hs.1 hm, hP s s' hs.1 hs.2 hm⟩
  exact this.2

theorem run_micro_inv {A : Alg σ ε} {o : Opts} {w : σ} {v : Env ε} {es s} {P : St σ → Prop}
    (h : (machine A o w v).Run es s) (h0 : P (initial w))
    (hP : ∀ s s', WF s → P s → Micro A o Allow.all s s' → P s') : P s :=
  arun_inv (al := Allow.all) (fun h => False.elim h) (run_all h) h0 hP

end Verif.Adaptive
