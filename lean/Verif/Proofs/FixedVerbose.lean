import Verif.Spec.FixedVerbose
import Verif.Proofs.FixedMsg

/-! # Lemmas about the fixed pipeline with `--verbose` -/

namespace Verif.FixedVerbose

open Fixed
open Verif.DataFetcher (Fetcher)

/-! ## Printing changes nothing -/

@[simp] theorem quiet_p (s : St) (f) : (s.quiet f).p = f s.p := rfl
@[simp] theorem quiet_lines (s : St) (f) : (s.quiet f).lines = s.lines := rfl
@[simp] theorem say_p (s : St) (l) : (s.say l).p = s.p := rfl
@[simp] theorem say_lines (s : St) (l) : (s.say l).lines = s.lines ++ [l] := rfl

/-- The first part of `fetchNextSegment`. -/
theorem fetchNext_stop {s : St} {i : Nat} (h1 : s.p.isStopping = true) : s.fetchNextSegment i = (s, false) := if_pos h1

theorem fetchNext_fail {s : St} {i : Nat} (h1 : ¬ s.p.isStopping = true) (h2 : s.p.hasFailure = true) :
    s.fetchNextSegment i = (s.quiet (·.onFailure .noFinal), false) := (if_neg h1).trans (if_pos h2)

theorem fetchNext_done {s : St} {i : Nat} (h1 : ¬ s.p.isStopping = true) (h2 : ¬ s.p.hasFailure = true)
    (h3 : s.p.hasFinalBlockId = true ∧ s.p.nextSegmentNo > s.p.lastSegmentNo) :
    s.fetchNextSegment i = (s.quiet fun p => { p with nextSegmentNo := p.nextSegmentNo + 1 }, false) :=
  (if_neg h1).trans ((if_neg h2).trans (if_pos h3))

/-- The pipeline after a new segment was requested. -/
def requested (q : Fixed.St) (i : Nat) : Fixed.St :=
  let q' := { q with nextSegmentNo := q.nextSegmentNo + 1 }.emit (.interest q.nextSegmentNo)
  match q'.slots[i]? with
  | none => { q' with ub := true }
  | some old =>
    { q' with
      assertFailed := q'.assertFailed || !slotFree old
      slots := q'.slots.set i (some ((DataFetcher.fetch q.maxRetries q.maxRetries).1, q.nextSegmentNo)) }

theorem fetchNext_more {s : St} {i : Nat} (h1 : ¬ s.p.isStopping = true) (h2 : ¬ s.p.hasFailure = true)
    (h3 : ¬ (s.p.hasFinalBlockId = true ∧ s.p.nextSegmentNo > s.p.lastSegmentNo)) :
    s.fetchNextSegment i = (⟨requested s.p i, s.lines ++ [.requesting s.p.nextSegmentNo]⟩, true) :=
  (if_neg h1).trans ((if_neg h2).trans (if_neg h3))

theorem fixed_more {q : Fixed.St} {i : Nat} (h1 : ¬ q.isStopping = true) (h2 : ¬ q.hasFailure = true)
    (h3 : ¬ (q.hasFinalBlockId = true ∧ q.nextSegmentNo > q.lastSegmentNo)) :
    q.fetchNextSegment i = (requested q i, true) := by
  unfold Fixed.St.fetchNextSegment requested
  rw [if_neg h1, if_neg h2]
  refine (if_neg h3).trans ?_
  dsimp only [Fixed.St.emit]
  cases q.slots[i]? <;> rfl

theorem requested_log (q : Fixed.St) (i : Nat) : (requested q i).log = q.log ++ [.interest q.nextSegmentNo] ∧
    (requested q i).hasFinalBlockId = q.hasFinalBlockId ∧ (requested q i).lastSegmentNo = q.lastSegmentNo ∧
    (requested q i).nextSegmentNo = q.nextSegmentNo + 1 := by
  unfold requested
  dsimp only
  split <;> exact ⟨rfl, rfl, rfl, rfl⟩

theorem fetchNext_p (s : St) (i : Nat) :
    (s.fetchNextSegment i).1.p = (s.p.fetchNextSegment i).1 ∧ (s.fetchNextSegment i).2 = (s.p.fetchNextSegment i).2 := by
  by_cases h1 : s.p.isStopping = true
  · rw [fetchNext_stop h1, show s.p.fetchNextSegment i = (s.p, false) from if_pos h1]
    exact ⟨rfl, rfl⟩
  by_cases h2 : s.p.hasFailure = true
  · rw [fetchNext_fail h1 h2, show s.p.fetchNextSegment i = (s.p.onFailure .noFinal, false) from (if_neg h1).trans (if_pos h2)]
    exact ⟨rfl, rfl⟩
  by_cases h3 : s.p.hasFinalBlockId = true ∧ s.p.nextSegmentNo > s.p.lastSegmentNo
  · rw [fetchNext_done h1 h2 h3, show s.p.fetchNextSegment i = ({ s.p with nextSegmentNo := s.p.nextSegmentNo + 1 }, false) from
      (if_neg h1).trans ((if_neg h2).trans (if_pos h3))]
    exact ⟨rfl, rfl⟩
  rw [fetchNext_more h1 h2 h3, fixed_more h1 h2 h3]
  exact ⟨rfl, rfl⟩

theorem doRunLoop_p (n : Nat) : ∀ (s : St) (i : Nat), (s.doRunLoop i n).p = s.p.doRunLoop i n := by
  induction n with
  | zero => intro s i; rfl
  | succ n ih =>
    intro s i
    unfold St.doRunLoop Fixed.St.doRunLoop
    obtain ⟨h1, h2⟩ := fetchNext_p s i
    simp only [h2]
    split
    · rw [ih, h1]
    · exact h1

theorem finish_p (s : St) (i : Nat) : (s.finish i).p = s.p.finish i := by
  unfold St.finish Fixed.St.finish
  split
  · rfl
  · exact (fetchNext_p s i).1

theorem afterOnData_p (s : St) (i : Nat) (p : Pkt) : (s.afterOnData i p).p = s.p.afterOnData i p := by
  unfold St.afterOnData Fixed.St.afterOnData
  split
  · cases p.final with
    | absent => exact finish_p s i
    | notSegment => rfl
    | seg n =>
      dsimp only
      cases (finalLoop n s.p.slots).2 with
      | some e => rfl
      | none => exact finish_p _ i
  · exact finish_p s i

theorem handleData_p (s : St) (i k : Nat) (p : Pkt) (c : Bool) : (s.handleData i k p c).p = s.p.handleData i k p c := by
  unfold St.handleData Fixed.St.handleData
  split
  · rfl
  · exact afterOnData_p _ i p

theorem react_p (s : St) (i k : Nat) (p : Pkt) (c : Bool) (o) : (s.react i k p c o).p = s.p.react i k p c o := by
  cases o with
  | interest => rfl
  | onData => exact handleData_p s i k p c
  | onNack m => rfl
  | onTimeout m => rfl

theorem foldl_react_p (i k : Nat) (p : Pkt) (c : Bool) (os : List DataFetcher.Out) : ∀ s : St,
    (os.foldl (fun s o => s.react i k p c o) s).p = os.foldl (fun s o => s.react i k p c o) s.p := by
  induction os with
  | nil => intro s; rfl
  | cons o os ih => intro s; rw [List.foldl_cons, List.foldl_cons, ih, react_p]

theorem fetcherEvent_p (s : St) (i : Nat) (e) (p : Pkt) (c : Bool) : (s.fetcherEvent i e p c).p = s.p.fetcherEvent i e p c := by
  unfold St.fetcherEvent Fixed.St.fetcherEvent
  cases h : s.p.slots[i]? with
  | none => rfl
  | some x =>
    cases x with
    | none => rfl
    | some y => exact foldl_react_p i _ p c _ _

theorem step_p (s : St) (e : Ev) : (s.step e).p = s.p.step e := by
  unfold St.step
  by_cases h : (s.p.threw.isSome || s.p.ub) = true
  · rw [if_pos h]; unfold Fixed.St.step; rw [if_pos h]
  rw [if_neg h]
  cases e with
  | cancel => rfl
  | posted => rfl
  | _ => unfold Fixed.St.step; rw [if_neg h]; exact fetcherEvent_p _ _ _ _ _

theorem start_p (N : Nat) (R : Int) : (start N R).p = Fixed.start N R := doRunLoop_p N _ 0

theorem run_p {N : Nat} {R : Int} {es s} (h : (machine N R).Run es s) : (Fixed.machine N R).Run es s.p := by
  induction h with
  | nil =>
    have : (machine N R).init.p = (Fixed.machine N R).init := start_p N R
    rw [this]
    exact .nil
  | snoc e hr he ih =>
    have := Machine.Run.snoc (M := Fixed.machine N R) e ih he
    rw [show ((machine N R).step _ e).p = (Fixed.machine N R).step _ e from step_p _ e]
    exact this

/-- Every execution has its lines. -/
theorem run_lift {N : Nat} {R : Int} {es q} (h : (Fixed.machine N R).Run es q) : ∃ s, (machine N R).Run es s ∧ s.p = q := by
  induction h with
  | nil => exact ⟨_, .nil, start_p N R⟩
  | snoc e hr he ih =>
    obtain ⟨s, h1, h2⟩ := ih
    refine ⟨(machine N R).step s e, .snoc e h1 (by show s.p.enabled e; rw [h2]; exact he), ?_⟩
    rw [show ((machine N R).step s e).p = (Fixed.machine N R).step s.p e from step_p s e, h2]

/-! ## The lines -/

theorem told_append (a b : List Line) : told (a ++ b) = told a ++ told b := List.filterMap_append
theorem receipts_append (a b : List Line) : receipts (a ++ b) = receipts a ++ receipts b := List.filterMap_append
theorem requests_append (a b : List Line) : requests (a ++ b) = requests a ++ requests b := List.filterMap_append

theorem steps_append (a b : List Line) : steps (a ++ b) = steps a ++ steps b := List.filter_append ..

theorem didAfter_snoc (a : List Obs) (o : Obs) : ∀ seen, didAfter seen (a ++ [o]) = didAfter seen a ++
    (match o with
      | .interest k => if k ∈ seen ∨ Obs.interest k ∈ a then [] else [.requesting k]
      | .data k _ => [.received k]
      | _ => []) := by
  induction a with
  | nil => intro seen; cases o <;> simp [didAfter]
  | cons x rest ih =>
    intro seen
    cases x with
    | interest j =>
      simp only [List.cons_append, didAfter]
      split
      · rename_i hj
        rw [ih]
        cases o with
        | interest k =>
          have : (k ∈ seen ∨ Obs.interest k ∈ rest) ↔ (k ∈ seen ∨ Obs.interest k ∈ Obs.interest j :: rest) := by
            simp only [List.mem_cons, Obs.interest.injEq]
            constructor
            · rintro (h | h) <;> simp [h]
            · rintro (h | rfl | h)
              · exact .inl h
              · exact .inl hj
              · exact .inr h
          simp only [this]
        | _ => rfl
      · rw [ih]
        cases o with
        | interest k =>
          have : (k ∈ j :: seen ∨ Obs.interest k ∈ rest) ↔ (k ∈ seen ∨ Obs.interest k ∈ Obs.interest j :: rest) := by
            simp only [List.mem_cons, Obs.interest.injEq]
            tauto
          simp only [this, List.cons_append]
        | _ => rfl
    | data j p =>
      simp only [List.cons_append, didAfter]
      rw [ih]
      cases o <;> simp
    | complete => simp only [List.cons_append, didAfter]; rw [ih]; cases o <;> simp
    | failure m => simp only [List.cons_append, didAfter]; rw [ih]; cases o <;> simp

theorem did_data (a : List Obs) (k p) : did (a ++ [.data k p]) = did a ++ [.received k] := didAfter_snoc a _ []
theorem did_complete (a : List Obs) : did (a ++ [.complete]) = did a := (didAfter_snoc a _ []).trans (List.append_nil _)
theorem did_failure (a : List Obs) (m) : did (a ++ [.failure m]) = did a := (didAfter_snoc a _ []).trans (List.append_nil _)
theorem did_new {a : List Obs} {k} (h : Obs.interest k ∉ a) : did (a ++ [.interest k]) = did a ++ [.requesting k] := by
  refine (didAfter_snoc a _ []).trans ?_
  dsimp only
  rw [if_neg (by simp [h])]; rfl
theorem did_again {a : List Obs} {k} (h : Obs.interest k ∈ a) : did (a ++ [.interest k]) = did a := by
  refine (didAfter_snoc a _ []).trans ?_
  dsimp only
  rw [if_pos (.inr h)]; exact List.append_nil _

theorem receipts_steps (l : List Line) : receipts (steps l) = receipts l := by
  unfold receipts steps
  rw [List.filterMap_filter]
  congr 1
  funext x
  cases x <;> rfl

theorem receipts_did (log : List Obs) : ∀ seen, receipts (didAfter seen log) = received log := by
  induction log with
  | nil => intro seen; rfl
  | cons x rest ih =>
    intro seen
    cases x with
    | interest j =>
      simp only [didAfter]
      split
      · exact ih _
      · exact ih _
    | data j p => exact congrArg (j :: ·) (ih seen)
    | complete => exact ih seen
    | failure m => exact ih seen

theorem fetchNext_lines (s : St) (i : Nat) :
    ((s.fetchNextSegment i).1.lines = s.lines ∧ (∀ k, Obs.interest k ∈ (s.fetchNextSegment i).1.p.log ↔ Obs.interest k ∈ s.p.log) ∧
      did (s.fetchNextSegment i).1.p.log = did s.p.log ∧
      (s.fetchNextSegment i).1.p.hasFinalBlockId = s.p.hasFinalBlockId ∧
      (s.fetchNextSegment i).1.p.lastSegmentNo = s.p.lastSegmentNo ∧
      ((s.fetchNextSegment i).1.p.nextSegmentNo = s.p.nextSegmentNo ∨
        (s.fetchNextSegment i).1.p.nextSegmentNo = s.p.nextSegmentNo + 1 ∧ s.p.hasFinalBlockId = true ∧
          s.p.lastSegmentNo < s.p.nextSegmentNo)) ∨
    ((s.fetchNextSegment i).1.lines = s.lines ++ [.requesting s.p.nextSegmentNo] ∧
      (s.fetchNextSegment i).1.p.log = s.p.log ++ [.interest s.p.nextSegmentNo] ∧
      (s.fetchNextSegment i).1.p.hasFinalBlockId = s.p.hasFinalBlockId ∧
      (s.fetchNextSegment i).1.p.lastSegmentNo = s.p.lastSegmentNo ∧
      (s.fetchNextSegment i).1.p.nextSegmentNo = s.p.nextSegmentNo + 1 ∧
      ¬ (s.p.hasFinalBlockId = true ∧ s.p.lastSegmentNo < s.p.nextSegmentNo)) := by
  by_cases h1 : s.p.isStopping = true
  · rw [fetchNext_stop h1]
    exact .inl ⟨rfl, fun _ => Iff.rfl, rfl, rfl, rfl, .inl rfl⟩
  by_cases h2 : s.p.hasFailure = true
  · left
    rw [fetchNext_fail h1 h2]
    have e : s.p.onFailure .noFinal = { s.p with isStopping := true, slots := [], posted := s.p.posted ++ [.noFinal] } := by
      simp [Fixed.St.onFailure, Fixed.St.cancel, h1]
    rw [quiet_p, quiet_lines, e]
    exact ⟨rfl, fun _ => Iff.rfl, rfl, rfl, rfl, .inl rfl⟩
  by_cases h3 : s.p.hasFinalBlockId = true ∧ s.p.nextSegmentNo > s.p.lastSegmentNo
  · rw [fetchNext_done h1 h2 h3]
    exact .inl ⟨rfl, fun _ => Iff.rfl, rfl, rfl, rfl, .inr ⟨rfl, h3⟩⟩
  · rw [fetchNext_more h1 h2 h3]
    obtain ⟨r1, r2, r3, r4⟩ := requested_log s.p i
    exact .inr ⟨rfl, r1, r2, r3, r4, h3⟩

/-- What holds of the lines and the history. -/
structure Lines (s : St) : Prop where
  rcv : steps s.lines = did s.p.log
  req : ∃ m, requests s.lines = List.range m ∧ (∀ k, Obs.interest k ∈ s.p.log ↔ k < m) ∧
    (m = s.p.nextSegmentNo ∨ (s.p.hasFinalBlockId = true ∧ s.p.lastSegmentNo < m ∧ m ≤ s.p.nextSegmentNo))

theorem lines_fetchNext {s : St} (i : Nat) (h : Lines s) : Lines (s.fetchNextSegment i).1 ∧
    told (s.fetchNextSegment i).1.lines = told s.lines := by
  obtain ⟨hr, m, h1, h2, h3⟩ := h
  rcases fetchNext_lines s i with ⟨e1, e2, e3, e4, e5, e6⟩ | ⟨e1, e2, e3, e4, e5, e6⟩
  · refine ⟨⟨by rw [e1, e3, hr], m, by rw [e1, h1], fun k => (e2 k).trans (h2 k), ?_⟩, by rw [e1]⟩
    rw [e4, e5]
    rcases h3 with h3 | ⟨a, b, c⟩
    · rcases e6 with e6 | ⟨e6, e7, e8⟩
      · exact .inl (h3.trans e6.symm)
      · exact .inr ⟨e7, by omega, by omega⟩
    · rcases e6 with e6 | ⟨e6, -, -⟩
      · exact .inr ⟨a, b, by omega⟩
      · exact .inr ⟨a, b, by omega⟩
  · have hm : m = s.p.nextSegmentNo := by
      rcases h3 with h3 | ⟨a, b, c⟩
      · exact h3
      · exact absurd ⟨a, by omega⟩ e6
    refine ⟨⟨?_, m + 1, ?_, ?_, .inl (by rw [e5, hm])⟩, ?_⟩
    · rw [e1, e2, did_new (fun hx => by have := (h2 _).1 hx; omega), steps_append, hr]; rfl
    · rw [e1, requests_append, h1, List.range_succ, hm]; rfl
    · intro k
      rw [e2, List.mem_append, h2]
      simp only [List.mem_singleton, Obs.interest.injEq]
      omega
    · rw [e1, told_append]; exact List.append_nil _

/-- Only the slots and flags change. -/
theorem Lines.same {s s' : St} (h : Lines s) (h1 : s'.lines = s.lines) (h2 : did s'.p.log = did s.p.log)
    (h2' : ∀ k, Obs.interest k ∈ s'.p.log ↔ Obs.interest k ∈ s.p.log)
    (h3 : s'.p.nextSegmentNo = s.p.nextSegmentNo) (h4 : s.p.hasFinalBlockId = true → s'.p.hasFinalBlockId = true ∧
      s'.p.lastSegmentNo = s.p.lastSegmentNo) : Lines s' := by
  obtain ⟨hr, m, a, b, c⟩ := h
  refine ⟨by rw [h1, h2, hr], m, by rw [h1, a], fun k => (h2' k).trans (b k), ?_⟩
  rw [h3]
  rcases c with c | ⟨c1, c2, c3⟩
  · exact .inl c
  · exact .inr ⟨(h4 c1).1, by rw [(h4 c1).2]; exact c2, c3⟩

theorem onFailure_same (q : Fixed.St) (m) : (q.onFailure m).log = q.log ∧ (q.onFailure m).nextSegmentNo = q.nextSegmentNo ∧
    (q.onFailure m).hasFinalBlockId = q.hasFinalBlockId ∧ (q.onFailure m).lastSegmentNo = q.lastSegmentNo := by
  unfold Fixed.St.onFailure Fixed.St.cancel
  split
  · exact ⟨rfl, rfl, rfl, rfl⟩
  · exact ⟨rfl, rfl, rfl, rfl⟩

theorem lines_onFailure {s : St} (h : Lines s) (m) : Lines (s.quiet (·.onFailure m)) := by
  obtain ⟨e1, e2, e3, e4⟩ := onFailure_same s.p m
  refine h.same rfl (by rw [quiet_p, e1]) (fun k => by rw [quiet_p, e1]) e2 (fun hf => ⟨e3.trans hf, e4⟩)

theorem lines_finish {s : St} (i : Nat) (h : Lines s) : Lines (s.finish i) ∧ told (s.finish i).lines = told s.lines := by
  unfold St.finish
  split
  · refine ⟨h.same rfl ?_ ?_ rfl (fun hf => ⟨hf, rfl⟩), rfl⟩
    · exact did_complete s.p.log
    · intro k
      show _ ∈ s.p.log ++ [.complete] ↔ _
      simp
  · exact lines_fetchNext i h

theorem lines_afterOnData {s : St} (i : Nat) (p : Pkt) (h : Lines s) :
    Lines (s.afterOnData i p) ∧ told (s.afterOnData i p).lines = told s.lines := by
  unfold St.afterOnData
  split
  · rename_i hf
    cases p.final with
    | absent => exact lines_finish i h
    | notSegment => exact ⟨h.same rfl rfl (fun _ => Iff.rfl) rfl (fun hf => ⟨hf, rfl⟩), rfl⟩
    | seg n =>
      dsimp only
      have h' : Lines (s.quiet fun q => { q with lastSegmentNo := n, hasFinalBlockId := true, slots := (finalLoop n s.p.slots).1 }) :=
        h.same rfl rfl (fun _ => Iff.rfl) rfl (fun h1 => by rw [h1] at hf; cases hf)
      cases (finalLoop n s.p.slots).2 with
      | some e => exact ⟨lines_onFailure h' _, rfl⟩
      | none => exact lines_finish i h'
  · exact lines_finish i h

theorem handleFail_same (q : Fixed.St) (m i) : (q.handleFail m i).log = q.log ∧
    (q.handleFail m i).nextSegmentNo = q.nextSegmentNo ∧
    (q.handleFail m i).hasFinalBlockId = q.hasFinalBlockId ∧ (q.handleFail m i).lastSegmentNo = q.lastSegmentNo := by
  unfold Fixed.St.handleFail
  split
  · exact ⟨rfl, rfl, rfl, rfl⟩
  split
  · exact ⟨rfl, rfl, rfl, rfl⟩
  rename_i slot _
  unfold Fixed.St.handleFailSeg
  split
  · exact onFailure_same q m
  split
  · dsimp only
    split
    · exact onFailure_same _ _
    · exact ⟨rfl, rfl, rfl, rfl⟩
  · exact ⟨rfl, rfl, rfl, rfl⟩

theorem lines_react {s : St} (i k : Nat) (p : Pkt) (c : Bool) (o) (h : Lines s) (hk : Obs.interest k ∈ s.p.log) :
    Lines (s.react i k p c o) ∧ told (s.react i k p c o).lines = told s.lines := by
  have fail : ∀ m, Lines (s.quiet (·.handleFail m i)) := by
    intro m
    obtain ⟨e1, e2, e3, e4⟩ := handleFail_same s.p m i
    exact h.same rfl (by rw [quiet_p, e1]) (fun k => by rw [quiet_p, e1]) e2 (fun hf => ⟨e3.trans hf, e4⟩)
  cases o with
  | interest =>
    refine ⟨h.same rfl ?_ ?_ rfl (fun hf => ⟨hf, rfl⟩), rfl⟩
    · exact did_again hk
    · intro j
      show _ ∈ s.p.log ++ [.interest k] ↔ _
      rw [List.mem_append, List.mem_singleton]
      constructor
      · rintro (h1 | h1)
        · exact h1
        · cases h1; exact hk
      · exact .inl
  | onNack m => exact ⟨fail m, rfl⟩
  | onTimeout m => exact ⟨fail m, rfl⟩
  | onData =>
    show Lines (s.handleData i k p c) ∧ told (s.handleData i k p c).lines = _
    unfold St.handleData
    split
    · exact ⟨h, rfl⟩
    · have hlog : (s.p.onData k p c).log = s.p.log ++ [.data k p] := by
        unfold Fixed.St.onData
        dsimp only
        split
        · unfold Fixed.St.cancel; split <;> rfl
        · rfl
      have hother : (s.p.onData k p c).nextSegmentNo = s.p.nextSegmentNo ∧
          (s.p.onData k p c).hasFinalBlockId = s.p.hasFinalBlockId ∧ (s.p.onData k p c).lastSegmentNo = s.p.lastSegmentNo := by
        unfold Fixed.St.onData
        dsimp only
        split
        · unfold Fixed.St.cancel; split <;> exact ⟨rfl, rfl, rfl⟩
        · exact ⟨rfl, rfl, rfl⟩
      have h' : Lines ((s.say (.received k)).quiet (·.onData k p c)) := by
        obtain ⟨hr, m, a, b, d⟩ := h
        refine ⟨?_, m, ?_, ?_, ?_⟩
        · rw [quiet_p, quiet_lines, say_p, say_lines, hlog, did_data, steps_append, hr]; rfl
        · rw [quiet_lines, say_lines, requests_append, a]; exact List.append_nil _
        · intro j
          rw [quiet_p, say_p, hlog, ← b j]
          simp
        · rw [quiet_p, say_p, hother.1, hother.2.1, hother.2.2]; exact d
      obtain ⟨r1, r2⟩ := lines_afterOnData i p h'
      refine ⟨r1, r2.trans ?_⟩
      rw [quiet_lines, say_lines, told_append]; exact List.append_nil _

theorem told_fetcherLines (f : Fetcher) (k : Nat) (x : Happened) :
    told (fetcherLines f k x.ev) = if f.isRunning = true then setbacks [(k, x)] else [] := by
  cases x <;> cases h : f.isRunning <;> simp [fetcherLines, Happened.ev, told, setbacks, h]

theorem other_fetcherLines (f : Fetcher) (k : Nat) (e) : steps (fetcherLines f k e) = [] ∧ requests (fetcherLines f k e) = [] := by
  cases e <;> cases f.isRunning <;> simp [fetcherLines, steps, requests]

theorem lines_fetcherEvent {s : St} {i : Nat} {e} {p : Pkt} {c : Bool} {f : Fetcher} {k : Nat} (h : Lines s) (ha : At s.p i f k)
    (hk : Obs.interest k ∈ s.p.log) (hs : (f.step e).2 = [] ∨ ∃ x, (f.step e).2 = [x]) : Lines (s.fetcherEvent i e p c) ∧
    told (s.fetcherEvent i e p c).lines = told s.lines ++ told (fetcherLines f k e) := by
  unfold At at ha
  unfold St.fetcherEvent
  rw [ha]
  dsimp only
  have h' : Lines { p := { s.p with slots := s.p.slots.set i (some ((f.step e).1, k)) }, lines := s.lines ++ fetcherLines f k e } := by
    obtain ⟨o1, o2⟩ := other_fetcherLines f k e
    obtain ⟨hr, m, a, b, d⟩ := h
    refine ⟨?_, m, ?_, b, d⟩
    · dsimp only; rw [steps_append, o1, List.append_nil, hr]
    · dsimp only; rw [requests_append, o2, List.append_nil, a]
  rcases hs with hs | ⟨x, hs⟩ <;> rw [hs]
  · exact ⟨h', told_append _ _⟩
  · obtain ⟨r1, r2⟩ := lines_react i k p c x h' hk
    exact ⟨r1, r2.trans (told_append _ _)⟩

theorem setbacks_append (a b : List (Nat × Happened)) : setbacks (a ++ b) = setbacks a ++ setbacks b := List.filter_append ..

theorem lines_step {N : Nat} {R : Int} {s : St} {e : Ev} (hi : Inv N R s.p) (h : Lines s) (he : s.p.enabled e) :
    Lines (s.step e) ∧ told (s.step e).lines = told s.lines ++ setbacks (occurs s.p e) := by
  have c := hi.core
  unfold St.step
  cases ht : s.p.threw with
  | some t =>
    have : occurs s.p e = [] := by
      unfold occurs
      rw [ht]
      split
      · split <;> simp
      · rfl
    rw [this]
    simp only [Option.isSome_some, Bool.true_or, if_true]
    exact ⟨h, (List.append_nil _).symm⟩
  | none =>
    rw [c.noub]
    simp only [Option.isSome_none, Bool.or_self, Bool.false_eq_true, if_false]
    have slot : ∀ (x : Happened) (i : Nat) (p : Pkt) (cb : Bool), s.p.slotEnabled i x.ev → e.pipe = some i → e.happened = some x →
        Lines (s.fetcherEvent i x.ev p cb) ∧ told (s.fetcherEvent i x.ev p cb).lines = told s.lines ++ setbacks (occurs s.p e) := by
      intro x i p cb he hp hh
      obtain ⟨f, k, ha⟩ : ∃ f k, At s.p i f k := by
        unfold Fixed.St.slotEnabled at he
        split at he
        · exact ⟨_, _, by assumption⟩
        · exact he.elim
      have ha0 : s.p.slots[i]? = some (some (f, k)) := ha
      simp only [Fixed.St.slotEnabled, ha0] at he
      have hsing : (f.step x.ev).2 = [] ∨ ∃ y, (f.step x.ev).2 = [y] := by
        cases hr : f.isRunning with
        | true => exact DataFetcher.eff_single (DataFetcher.step_running (c.fet _ _ _ ha) hr he).2
        | false => exact .inl (DataFetcher.step_idle (c.fet _ _ _ ha) hr he).1
      obtain ⟨r1, r2⟩ := lines_fetcherEvent (p := p) (c := cb) h ha (c.req _ _ _ ha) hsing
      refine ⟨r1, ?_⟩
      rw [r2, told_fetcherLines]
      unfold occurs
      rw [hp, hh]
      simp only [ha0, ht, and_true]
      split <;> rfl
    cases e with
    | data i p cb => exact slot .data i p cb he rfl rfl
    | nack i r => exact slot (.nack r) i _ _ he rfl rfl
    | timeout i => exact slot .timeout i _ _ he rfl rfl
    | timer i => exact slot .resend i _ _ he rfl rfl
    | cancel =>
      refine ⟨?_, (List.append_nil _).symm⟩
      have : s.p.step .cancel = s.p.cancel := by unfold Fixed.St.step; rw [ht, c.noub]; rfl
      refine h.same rfl ?_ ?_ ?_ ?_ <;> simp only [quiet_p, this] <;> unfold Fixed.St.cancel <;> split <;> simp
    | posted =>
      refine ⟨?_, (List.append_nil _).symm⟩
      have hs : ∀ q, (match s.p.posted with
          | [] => s.p
          | m :: rest => { s.p with posted := rest }.emit (.failure m)) = q → s.p.step .posted = q := by
        rintro q rfl
        exact if_neg (by rw [ht, c.noub]; simp)
      cases hp : s.p.posted with
      | nil =>
        rw [hp] at hs
        have := hs _ rfl
        exact h.same rfl (by rw [quiet_p, this]) (fun k => by rw [quiet_p, this]) (by rw [quiet_p, this])
          (fun hf => by rw [quiet_p, this]; exact ⟨hf, rfl⟩)
      | cons m rest =>
        rw [hp] at hs
        have := hs _ rfl
        refine h.same rfl ?_ ?_ (by rw [quiet_p, this]; rfl) (fun hf => by rw [quiet_p, this]; exact ⟨hf, rfl⟩)
        · rw [quiet_p, this]
          exact did_failure s.p.log m
        · intro k
          rw [quiet_p, this]
          show _ ∈ s.p.log ++ [.failure m] ↔ _
          simp

theorem lines_doRunLoop (n : Nat) : ∀ (s : St) (i : Nat), Lines s → Lines (s.doRunLoop i n) ∧
    told (s.doRunLoop i n).lines = told s.lines := by
  induction n with
  | zero => intro s i h; exact ⟨h, rfl⟩
  | succ n ih =>
    intro s i h
    obtain ⟨r1, r2⟩ := lines_fetchNext i h
    unfold St.doRunLoop
    dsimp only
    split
    · obtain ⟨t1, t2⟩ := ih _ (i + 1) r1
      exact ⟨t1, t2.trans r2⟩
    · exact ⟨r1, r2⟩

theorem run_lines {N : Nat} {R : Int} {es s} (hN : 0 < N) (h : (machine N R).Run es s) :
    Lines s ∧ told s.lines = setbacks (story (Fixed.start N R) es) := by
  induction h with
  | nil =>
    exact lines_doRunLoop N _ 0 ⟨rfl, 0, rfl, fun k => by simp [construct], .inl rfl⟩
  | snoc e hr he ih =>
    have hp := run_p hr
    have h3 := run_foldl hp
    simp only [Fixed.machine] at h3
    obtain ⟨r1, r2⟩ := lines_step (run_inv hN hp) ih.1 he
    refine ⟨r1, ?_⟩
    rw [story_snoc, ← h3, setbacks_append, ← ih.2]
    exact r2

/-! ## Interests and lines -/

/-- The number of Nacks and timeouts of segment `k`. -/
def sb (k : Nat) (h : List (Nat × Happened)) : Nat := (setbacks h).countP fun x => decide (x.1 = k)

/-- How the numbers of Interests and of setbacks are related. -/
structure Flow (h : List (Nat × Happened)) (s : Fixed.St) : Prop where
  run : ∀ i f k, At s i f k → f.isRunning = true → sent k s.log + (if f.pending = 0 then 1 else 0) = 1 + sb k h
  got : ∀ k ∈ received s.log, sent k s.log = 1 + sb k h
  le : ∀ k, sent k s.log ≤ 1 + sb k h
  hlt : ∀ x ∈ h, x.1 < s.nextSegmentNo
  alt : ∀ i f k, At s i f k → k < s.nextSegmentNo
  slt : ∀ k, Obs.interest k ∈ s.log → k < s.nextSegmentNo
  rlt : ∀ k ∈ received s.log, k < s.nextSegmentNo

theorem sent_append (k : Nat) (a b : List Obs) : sent k (a ++ b) = sent k a + sent k b := List.count_append
theorem sent_zero {k : Nat} {l : List Obs} (h : Obs.interest k ∉ l) : sent k l = 0 := List.count_eq_zero.mpr h
theorem sent_one (k j : Nat) : sent k [.interest j] = if j = k then 1 else 0 := by
  unfold sent
  rw [List.count_cons, List.count_nil]
  by_cases h : j = k
  · subst h; simp
  · simp [h]

theorem sb_zero {k : Nat} {h : List (Nat × Happened)} (hlt : ∀ x ∈ h, x.1 < k) : sb k h = 0 := by
  refine List.countP_eq_zero.mpr fun x hx => ?_
  have := hlt x (List.mem_filter.mp hx).1
  simp only [decide_eq_true_eq]
  omega

theorem sb_append (k : Nat) (a b : List (Nat × Happened)) : sb k (a ++ b) = sb k a + sb k b := by
  unfold sb; rw [setbacks_append, List.countP_append]

/-- One for a Nack or a timeout. -/
def bad : Happened → Nat
  | .nack _ => 1
  | .timeout => 1
  | _ => 0

theorem sb_one (k j : Nat) (x : Happened) : sb k [(j, x)] =
    if j = k then bad x else 0 := by
  unfold sb setbacks
  cases x <;> by_cases h : j = k <;> simp [List.filter, h, bad]

/-- What the parts of the code do that do not concern a running fetcher: either no Interest is sent and some fetchers are stopped or
forgotten, or the next segment is requested. -/
def Grow (s s' : Fixed.St) : Prop :=
  (∃ l, s'.log = s.log ++ l ∧ (∀ k, Obs.interest k ∉ l) ∧ received l = [] ∧ s.nextSegmentNo ≤ s'.nextSegmentNo ∧
    ∀ i f k, At s' i f k → ∃ g, At s i g k ∧ (f.isRunning = true → g = f)) ∨
  (s'.log = s.log ++ [.interest s.nextSegmentNo] ∧ s'.nextSegmentNo = s.nextSegmentNo + 1 ∧
    ∀ i f k, At s' i f k → At s i f k ∨ (k = s.nextSegmentNo ∧ f.pending = 1))

theorem Flow.grow {h s s'} (hf : Flow h s) (hg : Grow s s') : Flow h s' := by
  rcases hg with ⟨l, e1, e2, e3, e4, e5⟩ | ⟨e1, e2, e3⟩
  · have hs : ∀ k, sent k s'.log = sent k s.log := by
      intro k; rw [e1, sent_append, sent_zero (e2 k), Nat.add_zero]
    have hr : received s'.log = received s.log := by rw [e1, received_append, e3, List.append_nil]
    refine ⟨?_, ?_, ?_, ?_, ?_, ?_, ?_⟩
    · intro i f k ha hrun
      obtain ⟨g, hg, hge⟩ := e5 i f k ha
      have := hge hrun
      subst this
      rw [hs]
      exact hf.run i g k hg hrun
    · intro k hk; rw [hs]; rw [hr] at hk; exact hf.got k hk
    · intro k; rw [hs]; exact hf.le k
    · intro x hx; exact Nat.lt_of_lt_of_le (hf.hlt x hx) e4
    · intro i f k ha
      obtain ⟨g, hg, -⟩ := e5 i f k ha
      exact Nat.lt_of_lt_of_le (hf.alt i g k hg) e4
    · intro k hk
      rw [e1, List.mem_append] at hk
      exact Nat.lt_of_lt_of_le (hf.slt k (hk.resolve_right (e2 k))) e4
    · intro k hk; rw [hr] at hk; exact Nat.lt_of_lt_of_le (hf.rlt k hk) e4
  · have hz : sent s.nextSegmentNo s.log = 0 := sent_zero fun hx => absurd (hf.slt _ hx) (Nat.lt_irrefl _)
    have hb : sb s.nextSegmentNo h = 0 := sb_zero hf.hlt
    have hs : ∀ k, sent k s'.log = sent k s.log + if s.nextSegmentNo = k then 1 else 0 := by
      intro k; rw [e1, sent_append, sent_one]
    have hr : received s'.log = received s.log := by rw [e1, received_append, received_interest, List.append_nil]
    refine ⟨?_, ?_, ?_, ?_, ?_, ?_, ?_⟩
    · intro i f k ha hrun
      rcases e3 i f k ha with ha | ⟨rfl, hp⟩
      · have := hf.alt i f k ha
        rw [hs, if_neg (by omega)]
        exact hf.run i f k ha hrun
      · rw [hs, if_pos rfl, hz, hb, hp]; rfl
    · intro k hk
      rw [hr] at hk
      have := hf.rlt k hk
      rw [hs, if_neg (by omega)]
      exact hf.got k hk
    · intro k
      rw [hs]
      split
      · rename_i hk; rw [← hk, hz, hb]
      · exact hf.le k
    · intro x hx; have := hf.hlt x hx; omega
    · intro i f k ha
      rcases e3 i f k ha with ha | ⟨rfl, -⟩
      · have := hf.alt i f k ha; omega
      · omega
    · intro k hk
      rw [e1, List.mem_append, List.mem_singleton] at hk
      rcases hk with hk | hk
      · have := hf.slt k hk; omega
      · cases hk; omega
    · intro k hk; rw [hr] at hk; have := hf.rlt k hk; omega

theorem at_nil {s : Fixed.St} (h : s.slots = []) (i f k) : ¬ At s i f k := by
  intro ha; unfold At at ha; rw [h] at ha; cases ha

theorem grow_stopped {s s' : Fixed.St} (h1 : s'.log = s.log) (h2 : s'.nextSegmentNo = s.nextSegmentNo)
    (h3 : s'.slots = [] ∨ s'.slots = s.slots) : Grow s s' := by
  refine .inl ⟨[], by rw [h1, List.append_nil], fun k hk => (by cases hk), rfl, by rw [h2], ?_⟩
  intro i f k ha
  rcases h3 with h3 | h3
  · exact absurd ha (at_nil h3 i f k)
  · unfold At at ha; rw [h3] at ha; exact ⟨f, ha, fun _ => rfl⟩

theorem cancel_running (f : Fetcher) : f.cancel.isRunning = false := by
  unfold Fetcher.cancel
  cases h : f.isRunning with
  | true => simp [Fetcher.isRunning]
  | false => simp [h]

theorem grow_map {s s' : Fixed.St} {b : Nat} (h1 : s'.log = s.log) (h2 : s'.nextSegmentNo = s.nextSegmentNo)
    (h3 : s'.slots = s.slots.map (cancelAbove b)) : Grow s s' := by
  refine .inl ⟨[], by rw [h1, List.append_nil], fun k hk => (by cases hk), rfl, by rw [h2], ?_⟩
  intro i g k ha
  obtain ⟨f, hf, e⟩ := (At_map h3 i g k).1 ha
  refine ⟨f, hf, fun hr => ?_⟩
  split at e
  · rw [e, cancel_running] at hr; cases hr
  · exact e.symm

theorem onFailure_slots (q : Fixed.St) (m) : (q.onFailure m).slots = [] ∨ (q.onFailure m).slots = q.slots := by
  unfold Fixed.St.onFailure Fixed.St.cancel
  split
  · exact .inr rfl
  · exact .inl rfl

theorem grow_onFailure (q : Fixed.St) (m) : Grow q (q.onFailure m) :=
  grow_stopped (onFailure_same q m).1 (onFailure_same q m).2.1 (onFailure_slots q m)

theorem grow_fetchNext (q : Fixed.St) (i : Nat) : Grow q (q.fetchNextSegment i).1 := by
  by_cases h1 : q.isStopping = true
  · rw [show q.fetchNextSegment i = (q, false) from if_pos h1]
    exact grow_stopped rfl rfl (.inr rfl)
  by_cases h2 : q.hasFailure = true
  · rw [show q.fetchNextSegment i = (q.onFailure .noFinal, false) from (if_neg h1).trans (if_pos h2)]
    exact grow_onFailure q _
  by_cases h3 : q.hasFinalBlockId = true ∧ q.nextSegmentNo > q.lastSegmentNo
  · rw [show q.fetchNextSegment i = ({ q with nextSegmentNo := q.nextSegmentNo + 1 }, false) from
      (if_neg h1).trans ((if_neg h2).trans (if_pos h3))]
    exact .inl ⟨[], (List.append_nil _).symm, fun k hk => (by cases hk), rfl, Nat.le_succ _, fun i f k ha => ⟨f, ha, fun _ => rfl⟩⟩
  rw [fixed_more h1 h2 h3]
  obtain ⟨r1, -, -, r4⟩ := requested_log q i
  refine .inr ⟨r1, r4, ?_⟩
  intro j f k ha
  unfold requested at ha
  dsimp only [Fixed.St.emit] at ha
  cases hs : q.slots[i]? with
  | none => rw [hs] at ha; exact .inl ha
  | some old =>
    rw [hs] at ha
    have hi : i < q.slots.length := (List.getElem?_eq_some_iff.1 hs).1
    rcases (At_set (s := q) hi rfl j f k).1 ha with ⟨-, rfl, rfl⟩ | ⟨-, ha⟩
    · exact .inr ⟨rfl, rfl⟩
    · exact .inl ha

theorem flow_finish {h : List (Nat × Happened)} {q : Fixed.St} (i : Nat) (hf : Flow h q) : Flow h (q.finish i) := by
  unfold Fixed.St.finish
  split
  · refine hf.grow (.inl ⟨[.complete], rfl, fun k hk => ?_, rfl, Nat.le_refl _, fun i f k ha => ⟨f, ha, fun _ => rfl⟩⟩)
    rw [List.mem_singleton] at hk; cases hk
  · exact hf.grow (grow_fetchNext q i)

theorem finalLoop_at (n : Nat) (l : List Slot) : ∀ (i : Nat) (f : Fetcher) (k : Nat), (finalLoop n l).1[i]? = some (some (f, k)) →
    ∃ g, l[i]? = some (some (g, k)) ∧ (f.isRunning = true → g = f) := by
  induction l with
  | nil => intro i f k h; cases h
  | cons x rest ih =>
    intro i f k h
    rcases x with _ | ⟨g, m⟩
    · cases i with
      | zero => cases h
      | succ i => exact ih i f k h
    · simp only [finalLoop] at h
      split at h
      · cases i with
        | zero =>
          simp only [List.getElem?_cons_zero, Option.some.injEq, Prod.mk.injEq] at h
          obtain ⟨rfl, rfl⟩ := h
          exact ⟨g, rfl, fun hr => by rw [cancel_running] at hr; cases hr⟩
        | succ i => exact ih i f k h
      · split at h
        · exact ⟨f, h, fun _ => rfl⟩
        · cases i with
          | zero => exact ⟨f, h, fun _ => rfl⟩
          | succ i => exact ih i f k h

theorem flow_afterOnData {h : List (Nat × Happened)} {q : Fixed.St} (i : Nat) (p : Pkt) (hf : Flow h q) : Flow h (q.afterOnData i p) := by
  unfold Fixed.St.afterOnData
  split
  · cases p.final with
    | absent => exact flow_finish i hf
    | notSegment => exact hf.grow (grow_stopped rfl rfl (.inr rfl))
    | seg n =>
      dsimp only
      have h' : Flow h { q with lastSegmentNo := n, hasFinalBlockId := true, slots := (finalLoop n q.slots).1 } :=
        hf.grow (.inl ⟨[], (List.append_nil _).symm, fun k hk => (by cases hk), rfl, Nat.le_refl _, finalLoop_at n q.slots⟩)
      cases hl : (finalLoop n q.slots).2 with
      | some e => exact h'.grow (grow_onFailure _ _)
      | none => exact flow_finish i h'
  · exact flow_finish i hf

theorem flow_handleFail {h : List (Nat × Happened)} {q : Fixed.St} (m) (i : Nat) (hf : Flow h q) : Flow h (q.handleFail m i) := by
  unfold Fixed.St.handleFail
  split
  · exact hf
  split
  · exact hf.grow (grow_stopped rfl rfl (.inr rfl))
  rename_i slot _
  unfold Fixed.St.handleFailSeg
  split
  · exact hf.grow (grow_onFailure _ _)
  split
  · dsimp only
    have h' : Flow h { q with slots := (failLoop (slotSeg slot) q.slots).1 } :=
      hf.grow (grow_map (b := slotSeg slot) rfl rfl (failLoop_eq _ _).1)
    split
    · exact h'.grow (grow_onFailure _ _)
    · exact h'.grow (grow_stopped rfl rfl (.inr rfl))
  · exact hf

/-- Something happens to the fetch in slot `i`. -/
theorem Flow.upd {h h' : List (Nat × Happened)} {s s' : Fixed.St} {i k : Nat} {f f' : Fetcher} {l : List Obs} (hf : Flow h s)
    (uniq : ∀ i j f g k, At s i f k → At s j g k → i = j) (ha : At s i f k)
    (e1 : s'.slots = s.slots.set i (some (f', k))) (e2 : s'.nextSegmentNo = s.nextSegmentNo) (e3 : s'.log = s.log ++ l)
    (o1 : ∀ j, j ≠ k → Obs.interest j ∉ l) (o2 : ∀ j ∈ received l, j = k) (o3 : ∀ j, j ≠ k → sb j h' = sb j h)
    (o4 : ∀ x ∈ h', x ∈ h ∨ x.1 = k)
    (r1 : f'.isRunning = true → sent k s'.log + (if f'.pending = 0 then 1 else 0) = 1 + sb k h')
    (r2 : k ∈ received s'.log → sent k s'.log = 1 + sb k h') (r3 : sent k s'.log ≤ 1 + sb k h') : Flow h' s' := by
  have hk := hf.alt i f k ha
  have hs : ∀ j, j ≠ k → sent j s'.log = sent j s.log := by
    intro j hj; rw [e3, sent_append, sent_zero (o1 j hj), Nat.add_zero]
  have hr : ∀ j ∈ received s'.log, j ∈ received s.log ∨ j = k := by
    intro j hj
    rw [e3, received_append, List.mem_append] at hj
    exact hj.imp_right (o2 j)
  have hat := At_set (s' := s') (At_lt ha) e1
  refine ⟨?_, ?_, ?_, ?_, ?_, ?_, ?_⟩
  · intro j g m hj hrun
    rcases (hat j g m).1 hj with ⟨rfl, rfl, rfl⟩ | ⟨hne, hj⟩
    · exact r1 hrun
    · have : m ≠ k := by
        rintro rfl
        exact hne (uniq _ _ _ _ _ hj ha)
      rw [hs m this, o3 m this]
      exact hf.run j g m hj hrun
  · intro j hj
    by_cases e : j = k
    · subst e; exact r2 hj
    · rw [hs j e, o3 j e]
      exact hf.got j ((hr j hj).resolve_right e)
  · intro j
    by_cases e : j = k
    · subst e; exact r3
    · rw [hs j e, o3 j e]; exact hf.le j
  · intro x hx
    rw [e2]
    rcases o4 x hx with hx | hx
    · exact hf.hlt x hx
    · rw [hx]; exact hk
  · intro j g m hj
    rw [e2]
    rcases (hat j g m).1 hj with ⟨rfl, rfl, rfl⟩ | ⟨-, hj⟩
    · exact hk
    · exact hf.alt j g m hj
  · intro j hj
    rw [e2]
    by_cases e : j = k
    · subst e; exact hk
    · rw [e3, List.mem_append] at hj
      exact hf.slt j (hj.resolve_right (o1 j e))
  · intro j hj
    rw [e2]
    rcases hr j hj with hj | rfl
    · exact hf.rlt j hj
    · exact hk

theorem flow_event {N : Nat} {R : Int} {h : List (Nat × Happened)} {s : Fixed.St} {i k : Nat} {f : Fetcher} (hf : Flow h s)
    (c : Core N R s) (ha : At s i f k) (x : Happened) (he : f.enabled x.ev) (p : Pkt) (cb : Bool) :
    Flow (h ++ if f.isRunning = true then [(k, x)] else []) (s.fetcherEvent i x.ev p cb) := by
  have hfi := c.fet _ _ _ ha
  have ha0 : s.slots[i]? = some (some (f, k)) := ha
  unfold Fixed.St.fetcherEvent
  rw [ha0]
  dsimp only
  cases hr : f.isRunning with
  | false =>
    obtain ⟨i1, i2, -⟩ := DataFetcher.step_idle hfi hr he
    rw [i1, if_neg (by simp), List.append_nil]
    refine hf.upd (l := []) c.uniq ha rfl rfl (List.append_nil _).symm (fun _ _ hx => by cases hx) (fun _ hx => by cases hx)
      (fun _ _ => rfl) (fun _ hx => .inl hx) (fun hx => ?_) (hf.got k) (hf.le k)
    rw [i2] at hx; cases hx
  | true =>
    have eff := (DataFetcher.step_running hfi hr he).2
    have hnr := c.live _ _ _ ha (.inl hr)
    have eq := hf.run _ _ _ ha hr
    rw [if_pos rfl]
    have o3 : ∀ j, j ≠ k → sb j (h ++ [(k, x)]) = sb j h := by
      intro j hj; rw [sb_append, sb_one, if_neg (Ne.symm hj), Nat.add_zero]
    have o4 : ∀ y ∈ h ++ [(k, x)], y ∈ h ∨ y.1 = k := by
      intro y hy
      rw [List.mem_append, List.mem_singleton] at hy
      exact hy.imp_right fun e => by rw [e]
    have hb : sb k (h ++ [(k, x)]) = sb k h + bad x := by
      rw [sb_append, sb_one, if_pos rfl]
    generalize hs1 : (f.step x.ev).1 = f' at eff ⊢
    generalize (f.step x.ev).2 = o at eff ⊢
    -- nothing is sent
    have quiet : (f'.isRunning = true → sent k s.log + (if f'.pending = 0 then 1 else 0) = 1 + sb k (h ++ [(k, x)])) →
        Flow (h ++ [(k, x)]) { s with slots := s.slots.set i (some (f', k)) } := by
      intro hq
      refine hf.upd (l := []) c.uniq ha rfl rfl (List.append_nil _).symm (fun _ _ hx => by cases hx) (fun _ hx => by cases hx)
        o3 o4 hq (fun hx => absurd hx hnr) ?_
      have := hf.le k
      show sent k s.log ≤ _
      omega
    -- an Interest is sent
    have again : f'.pending = 1 → sent k s.log + 1 = 1 + sb k (h ++ [(k, x)]) →
        Flow (h ++ [(k, x)]) ({ s with slots := s.slots.set i (some (f', k)) }.emit (.interest k)) := by
      intro h1 h2
      have hs : sent k (s.log ++ [.interest k]) = 1 + sb k (h ++ [(k, x)]) := by
        rw [sent_append, sent_one, if_pos rfl, h2]
      refine hf.upd (l := [.interest k]) c.uniq ha rfl rfl rfl (fun j hj hx => ?_) (fun _ hx => by cases hx) o3 o4 (fun _ => ?_)
        (fun _ => hs) (Nat.le_of_eq hs)
      · rw [List.mem_singleton] at hx; cases hx; exact hj rfl
      · rw [h1]; exact hs
    cases x with
    | data =>
      cases eff with
      | data _ e1 _ _ e2 _ =>
        show Flow _ (Fixed.St.handleData _ i k p cb)
        unfold Fixed.St.handleData
        rw [if_neg (by simp [not_stopping c ha])]
        apply flow_afterOnData
        rw [e2] at eq
        have hs : sent k (s.log ++ [.data k p]) = 1 + sb k (h ++ [(k, .data)]) := by
          rw [sent_append, sent_zero (l := [.data k p]) (by simp), hb]
          simpa [bad] using eq
        have hd : Flow (h ++ [(k, .data)]) ({ s with
            slots := s.slots.set i (some (f', k)), nReceived := s.nReceived + 1,
            receivedSize := s.receivedSize + p.content.length }.emit (.data k p)) := by
          refine hf.upd (l := [.data k p]) c.uniq ha rfl rfl rfl (fun j hj hx => ?_) (fun j hx => ?_) o3 o4 (fun hx => ?_)
            (fun _ => hs) (Nat.le_of_eq hs)
          · rw [List.mem_singleton] at hx; cases hx
          · rw [received_data, List.mem_singleton] at hx; exact hx
          · rw [e1] at hx; cases hx
        unfold Fixed.St.onData
        dsimp only
        split
        · refine hd.grow (grow_stopped ?_ ?_ ?_) <;> unfold Fixed.St.cancel <;> split
          · rfl
          · rfl
          · rfl
          · rfl
          · exact .inr rfl
          · exact .inl rfl
        · exact hd
    | nack r =>
      have hb' : sb k (h ++ [(k, .nack r)]) = sb k h + 1 := hb
      cases eff with
      | duplicate _ e1 e2 e3 _ _ => rw [e2] at eq; exact again e3 (by rw [hb']; simp at eq; omega)
      | congestion _ e1 e2 e3 _ _ =>
        rw [e2] at eq
        exact quiet fun _ => by rw [hb', e3]; simp at eq ⊢; omega
      | fatal _ _ e1 => exact flow_handleFail _ i (quiet fun hx => by rw [e1] at hx; cases hx)
      | failNack _ _ e1 => exact flow_handleFail _ i (quiet fun hx => by rw [e1] at hx; cases hx)
    | timeout =>
      have hb' : sb k (h ++ [(k, .timeout)]) = sb k h + 1 := hb
      cases eff with
      | retryTimeout _ e1 e2 e3 _ _ => rw [e2] at eq; exact again e3 (by rw [hb']; simp at eq; omega)
      | failTimeout _ e1 => exact flow_handleFail _ i (quiet fun hx => by rw [e1] at hx; cases hx)
    | resend =>
      cases eff with
      | timer _ e1 e2 e3 _ _ => rw [e2] at eq; exact again e3 (by rw [hb]; simpa [bad] using eq)

theorem flow_step {N : Nat} {R : Int} {h : List (Nat × Happened)} {s : Fixed.St} {e : Ev} (hi : Inv N R s) (hf : Flow h s)
    (he : s.enabled e) : Flow (h ++ occurs s e) (s.step e) := by
  have c := hi.core
  cases ht : s.threw with
  | some t =>
    have : occurs s e = [] := by
      unfold occurs
      rw [ht]
      split
      · split <;> simp
      · rfl
    rw [this, List.append_nil, show s.step e = s from if_pos (by rw [ht]; rfl)]
    exact hf
  | none =>
    have slot : ∀ (x : Happened) (i : Nat) (p : Pkt) (cb : Bool), s.slotEnabled i x.ev → e.pipe = some i → e.happened = some x →
        s.step e = s.fetcherEvent i x.ev p cb → Flow (h ++ occurs s e) (s.step e) := by
      intro x i p cb he hp hh hst
      obtain ⟨f, k, ha⟩ : ∃ f k, At s i f k := by
        unfold Fixed.St.slotEnabled at he
        split at he
        · exact ⟨_, _, by assumption⟩
        · exact he.elim
      have ha0 : s.slots[i]? = some (some (f, k)) := ha
      simp only [Fixed.St.slotEnabled, ha0] at he
      have := flow_event hf c ha x he p cb
      rw [hst]
      unfold occurs
      rw [hp, hh]
      simp only [ha0, ht, and_true]
      exact this
    have neg : ∀ {α : Type} (a b : α), (if (s.threw.isSome || s.ub) = true then a else b) = b := by
      intro α a b; exact if_neg (by rw [ht, c.noub]; simp)
    cases e with
    | data i p cb => exact slot .data i p cb he rfl rfl (neg _ _)
    | nack i r => exact slot (.nack r) i _ _ he rfl rfl (neg _ _)
    | timeout i => exact slot .timeout i _ _ he rfl rfl (neg _ _)
    | timer i => exact slot .resend i _ _ he rfl rfl (neg _ _)
    | cancel =>
      rw [show s.step .cancel = s.cancel from neg _ _, show occurs s .cancel = [] from rfl, List.append_nil]
      refine hf.grow (grow_stopped ?_ ?_ ?_) <;> unfold Fixed.St.cancel <;> split
      · rfl
      · rfl
      · rfl
      · rfl
      · exact .inr rfl
      · exact .inl rfl
    | posted =>
      rw [show occurs s .posted = [] from rfl, List.append_nil]
      have hs : ∀ q, (match s.posted with
          | [] => s
          | m :: rest => { s with posted := rest }.emit (.failure m)) = q → s.step .posted = q := by
        rintro q rfl
        exact neg _ _
      cases hp : s.posted with
      | nil => rw [hp] at hs; rw [hs _ rfl]; exact hf
      | cons m rest =>
        rw [hp] at hs
        rw [hs _ rfl]
        refine hf.grow (.inl ⟨[.failure m], rfl, fun k hk => ?_, rfl, Nat.le_refl _, fun i f k ha => ⟨f, ha, fun _ => rfl⟩⟩)
        rw [List.mem_singleton] at hk; cases hk

theorem flow_doRunLoop {h : List (Nat × Happened)} (n : Nat) : ∀ (s : Fixed.St) (i : Nat), Flow h s → Flow h (s.doRunLoop i n) := by
  induction n with
  | zero => intro s i hf; exact hf
  | succ n ih =>
    intro s i hf
    have := hf.grow (grow_fetchNext s i)
    unfold Fixed.St.doRunLoop
    dsimp only
    split
    · exact ih _ (i + 1) this
    · exact this

theorem flow_construct (N : Nat) (R : Int) : Flow [] (construct N R) := by
  have ha : ∀ i f k, ¬ At (construct N R) i f k := by
    intro i f k h
    unfold At construct at h
    rw [List.getElem?_replicate] at h
    split at h
    · simp at h
    · cases h
  refine ⟨fun i f k h => absurd h (ha i f k), fun k h => (by cases h), fun k => (Nat.zero_le _), fun x h => (by cases h),
    fun i f k h => absurd h (ha i f k), fun k h => (by cases h), fun k h => (by cases h)⟩

theorem run_flow {N : Nat} {R : Int} {es s} (hN : 0 < N) (h : (Fixed.machine N R).Run es s) :
    Flow (story (Fixed.start N R) es) s := by
  induction h with
  | nil => exact flow_doRunLoop N _ 0 (flow_construct N R)
  | snoc e hr he ih =>
    have h3 := run_foldl hr
    simp only [Fixed.machine] at h3
    rw [story_snoc, ← h3]
    exact flow_step (run_inv hN hr) ih he

/-! ## Limits and messages -/

theorem nackCount_setbacks (k : Nat) (h : List (Nat × Happened)) : nackCount k (setbacks h) = nackCount k h := by
  unfold nackCount setbacks
  rw [List.countP_filter]
  congr 1
  funext x
  obtain ⟨j, x⟩ := x
  cases x <;> simp

theorem timeoutCount_setbacks (k : Nat) (h : List (Nat × Happened)) : timeoutCount k (setbacks h) = timeoutCount k h := by
  unfold timeoutCount setbacks
  rw [List.countP_filter]
  congr 1
  funext x
  obtain ⟨j, x⟩ := x
  cases x <;> simp

theorem fatal_setbacks (h : List (Nat × Happened)) (k r) : FatalNack (setbacks h) k r ↔ FatalNack h k r := by
  unfold FatalNack setbacks
  rw [List.mem_filter]
  simp

theorem failed_setbacks (R : Int) (h : List (Nat × Happened)) (k) : Failed R (setbacks h) k ↔ Failed R h k := by
  unfold Failed
  simp only [fatal_setbacks, nackCount_setbacks, timeoutCount_setbacks]

theorem truth_setbacks (R : Int) (h : List (Nat × Happened)) (log m) : Truth R (setbacks h) log m ↔ Truth R h log m := by
  cases m <;> simp only [Truth, fatal_setbacks, failed_setbacks, nackCount_setbacks, timeoutCount_setbacks]

theorem beyond_setbacks (R : Int) (h : List (Nat × Happened)) (log) : BeyondFailed R (setbacks h) log ↔ BeyondFailed R h log := by
  simp only [BeyondFailed, failed_setbacks]

theorem occurs_cases (s : Fixed.St) (e : Ev) :
    occurs s e = [] ∨ ∃ i f k x, At s i f k ∧ f.isRunning = true ∧ occurs s e = [(k, x)] := by
  unfold occurs
  split
  · split
    · rename_i f k hs
      split
      · rename_i hr
        exact .inr ⟨_, f, k, _, hs, hr.1, rfl⟩
      · exact .inl rfl
    · exact .inl rfl
  · exact .inl rfl

theorem run_limit {N : Nat} {R : Int} {es s} (hN : 0 < N) (hR : 0 ≤ R) (h : (Fixed.machine N R).Run es s) (k : Nat) :
    (nackCount k (story (Fixed.start N R) es) : Int) ≤ R + 1 ∧ (timeoutCount k (story (Fixed.start N R) es) : Int) ≤ R + 1 := by
  induction h with
  | nil => exact ⟨by show ((0 : Nat) : Int) ≤ _; omega, by show ((0 : Nat) : Int) ≤ _; omega⟩
  | @snoc es s e hr he ih =>
    have h3 := run_foldl hr
    simp only [Fixed.machine] at h3
    rw [story_snoc, ← h3]
    rcases occurs_cases s e with ho | ⟨i, f, j, x, ha, hrun, ho⟩
    · rw [ho, List.append_nil]; exact ih
    · rw [ho]
      by_cases hk : k = j
      · subst hk
        have hm := ((run_msgs hN (by omega) hr).base.cnt i f k ha).1 (by omega)
        have hf := (run_inv hN hr).core.fet i f k ha
        have h1 := hf.nnl hrun
        have h2 := hf.ntl hrun
        rw [(counts_same x).1, (counts_same x).2]
        constructor <;> split <;> push_cast <;> omega
      · rw [(counts_other x hk).1, (counts_other x hk).2]; exact ih

end Verif.FixedVerbose
