import Verif.Spec.DiscoverVerbose
import Verif.Proofs.Discover
import Verif.Proofs.Uri

/-! # Lemmas about the lines of the version discovery -/

namespace Verif.DiscoverVerbose

open Discover
open Verif.DataFetcher (Fetcher Out)

variable {o : Opts} {pre : Name}

/-! ## Without the lines -/

theorem handleData_fst (m : Meta) : (handleData m).1 = Discover.handleData m := by
  unfold handleData Discover.handleData Name.endsWithVersion
  cases m.parse with
  | none => rfl
  | some n =>
    dsimp only
    cases n.getLast? with
    | none => rfl
    | some c => dsimp only; by_cases h : c.isVersion = true <;> simp [h]

theorem react_fst (m : Meta) (x : Out) : (react m x).1 = Discover.react m x := by
  cases x with
  | onData => exact handleData_fst m
  | _ => rfl

theorem react_fst' (m : Meta) : (fun x => (react m x).1) = Discover.react m := funext (react_fst m)

theorem start_d : (start o pre).d = Discover.start o pre := by
  unfold start Discover.start
  split
  · rfl
  · dsimp only; rw [react_fst']

theorem step_d (s : St) (e : Ev) : (s.step e).d = s.d.step e := by
  unfold St.step Discover.St.step
  split
  · rename_i h; rw [h]
  · rename_i f h; rw [h]; dsimp only; rw [react_fst']

theorem run_d {es s} (h : (machine o pre).Run es s) : (Discover.machine o pre).Run es s.d := by
  induction h with
  | nil => exact (start_d ▸ Machine.Run.nil : (Discover.machine o pre).Run [] (start o pre).d)
  | @snoc es s e _ he ih => exact (step_d s e ▸ Machine.Run.snoc (M := Discover.machine o pre) e ih he :
      (Discover.machine o pre).Run (es ++ [e]) (s.step e).d)

theorem run_lift {es q} (h : (Discover.machine o pre).Run es q) : ∃ s, (machine o pre).Run es s ∧ s.d = q := by
  induction h with
  | nil => exact ⟨_, .nil, start_d⟩
  | @snoc es q e _ he ih =>
    obtain ⟨s, h1, rfl⟩ := ih
    exact ⟨_, .snoc e h1 he, step_d s e⟩

/-! ## What one event does -/

/-- The lines of an event. -/
def evLines : Ev → List Line
  | .nack r => [.nack r]
  | .timeout => [.timeout]
  | .timer => []
  | .data m => (handleData m).2

/-- Everything that is known in an execution. -/
structure J (o : Opts) (es : List Ev) (s : St) (f : Fetcher) : Prop where
  fet : s.d.fetcher = some f
  inv : DataFetcher.Inv o.maxRetries o.maxRetries f
  idle : f.isRunning = false → f.pending = 0
  quiet : f.isRunning = true → ∀ x ∈ s.d.log, x = .interest
  lin : s.lines = es.flatMap evLines
  nod : f.isRunning = true → ∀ m, Ev.data m ∉ es
  sum : s.d.log.count .interest + (if f.timer.isSome then 1 else 0) + (if gaveUp s.d.log then 1 else 0) = 1 + s.lines.countP Line.isSetback
  fin : f.isRunning = false → ∃ a x b l, s.d.log = a ++ [x] ∧ s.lines = b ++ [l] ∧ Tells x l

theorem step_stops {f : Fetcher} {e : Ev} (h1 : f.pending ≤ 1) (h2 : f.isRunning = true) (h3 : (f.step e.toFetch).1.isRunning = false) :
    (f.step e.toFetch).1.pending = 0 := by
  obtain ⟨mn, mt, nk, tm, nc, st, er, pd, ti⟩ := f
  simp only [Fetcher.isRunning, Bool.and_eq_true, Bool.not_eq_true'] at h2
  obtain ⟨rfl, rfl⟩ := h2
  dsimp only at h1
  have h0 : pd - 1 = 0 := by omega
  cases e with
  | data m => simp [Ev.toFetch, Fetcher.step, Fetcher.handleData, Fetcher.isRunning, h0]
  | nack r =>
    revert h3
    cases r <;> simp only [Ev.toFetch, Fetcher.step, Fetcher.handleNack, Fetcher.isRunning, Fetcher.expressInterest] <;>
      (repeat' split) <;> intro h3 <;> simp_all
  | timeout =>
    revert h3
    simp only [Ev.toFetch, Fetcher.step, Fetcher.handleTimeout, Fetcher.isRunning, Fetcher.expressInterest]
    (repeat' split) <;> intro h3 <;> simp_all
  | timer => simp [Ev.toFetch, Fetcher.step, Fetcher.expressInterest, Fetcher.isRunning] at h3

theorem gaveUp_append (a b : List Obs) : gaveUp (a ++ b) = (gaveUp a || gaveUp b) := by simp [gaveUp]

theorem gaveUp_quiet {a : List Obs} (h : ∀ x ∈ a, x = .interest) : gaveUp a = false := by
  simp only [gaveUp, List.any_eq_false]
  intro x hx
  rw [h x hx]
  simp

theorem handleData_cases (m : Meta) :
    (∃ x, (handleData m) = (.failure x, [.data m.name]) ∧ (x = .invalidMetadata ∨ x = .notVersioned)) ∨
    (∃ c v, handleData m = (.success (c ++ [v]), [.data m.name, .discovered (DumpText.compText v)]) ∧ v.isVersion = true ∧
      m.parse = some (c ++ [v])) := by
  unfold handleData
  cases m.parse with
  | none => exact .inl ⟨_, rfl, .inl rfl⟩
  | some n =>
    dsimp only
    rcases List.eq_nil_or_concat n with rfl | ⟨c, v, rfl⟩
    · exact .inl ⟨_, rfl, .inr rfl⟩
    · rw [List.concat_eq_append, List.getLast?_concat]
      dsimp only
      cases hv : v.isVersion with
      | false => exact .inl ⟨_, rfl, .inr rfl⟩
      | true => exact .inr ⟨c, v, rfl, hv, rfl⟩

theorem run_j (hd : o.disable = false) (hv : pre.endsWithVersion = false) {es s} (h : (machine o pre).Run es s) : ∃ f, J o es s f := by
  induction h with
  | nil =>
    refine ⟨(DataFetcher.fetch o.maxRetries o.maxRetries).1, ?_⟩
    have e : (machine o pre).init = { d := { fetcher := some (DataFetcher.fetch o.maxRetries o.maxRetries).1, log := [.interest] } } := by
      simp [machine, start, hd, hv, DataFetcher.fetch, Fetcher.expressInterest, react]
    rw [e]
    refine ⟨rfl, DataFetcher.inv_fetch _ _, ?_, ?_, rfl, ?_, ?_, ?_⟩
    · intro h; simp [DataFetcher.fetch, Fetcher.expressInterest, Fetcher.isRunning] at h
    · intro _ x hx; exact List.mem_singleton.mp hx
    · intro _ m hm; cases hm
    · simp [DataFetcher.fetch, Fetcher.expressInterest, gaveUp]
    · intro h; simp [DataFetcher.fetch, Fetcher.expressInterest, Fetcher.isRunning] at h
  | @snoc es s e _ he ih =>
    obtain ⟨f, j⟩ := ih
    obtain ⟨⟨f', h3, h4⟩, _⟩ := he
    obtain rfl : f = f' := by simpa using j.fet.symm.trans h3
    have hr : f.isRunning = true := by
      by_contra hc
      have h5 := j.idle (by simpa using hc)
      have h6 := (j.inv.idle (by simpa using hc)).1
      cases e <;> simp [Ev.toFetch, Fetcher.enabled, h5, h6] at h4
    have hp : f.pending ≤ 1 := by rcases j.inv.one hr with h | h <;> omega
    obtain ⟨hi, hE⟩ := DataFetcher.step_running j.inv hr h4
    have hst : (machine o pre).step s e = { d := { fetcher := some (f.step e.toFetch).1, log := s.d.log ++ (f.step e.toFetch).2.map fun x => (react e.meta x).1 }, lines := s.lines ++ fetcherLines f e ++ (f.step e.toFetch).2.flatMap fun x => (react e.meta x).2 } := by
      show s.step e = _
      unfold St.step
      rw [j.fet]
    rw [hst]
    have hstop := step_stops (e := e) hp hr
    have hone := hi.one
    have hidle := hi.idle
    have hone0 := j.inv.one hr
    have hg : gaveUp s.d.log = false := gaveUp_quiet (j.quiet hr)
    have hsum := j.sum
    rw [hg] at hsum
    have hq := j.quiet hr
    have hl := j.lin
    have hnd := j.nod hr
    refine ⟨(f.step e.toFetch).1, ?_⟩
    generalize f.step e.toFetch = r at *
    obtain ⟨g, outs⟩ := r
    dsimp only at *
    cases e with
    | data m =>
      simp only [Ev.toFetch] at hE
      cases hE with
      | data _ h1 h2 h3 h4 h5 =>
        have ht : f.timer = none := by rcases hone0 with h | h; exact h.2; omega
        have ht' := (hidle h1).1
        rw [ht] at hsum
        simp only [Option.isSome_none, Bool.false_eq_true, if_false, Nat.add_zero] at hsum
        rcases handleData_cases m with ⟨x, hx, hx2⟩ | ⟨c, v, hx, hx2, -⟩
        · refine ⟨rfl, hi, hstop, by simp [h1], ?_, by simp [h1], ?_, ?_⟩
          · simp [hl, evLines, fetcherLines, Ev.meta, react]
          · simp only [List.map_cons, List.map_nil, Ev.meta, react, hx, fetcherLines, List.append_nil, List.flatMap_cons, List.flatMap_nil]
            rw [ht', gaveUp_append, hg]
            rcases hx2 with rfl | rfl <;> simp [gaveUp, Line.isSetback, hsum]
          · intro _
            refine ⟨s.d.log, .failure x, s.lines, .data m.name, by simp [Ev.meta, react, hx], by simp [Ev.meta, react, hx, fetcherLines], ?_⟩
            rcases hx2 with rfl | rfl <;> exact ⟨_, rfl⟩
        · refine ⟨rfl, hi, hstop, by simp [h1], ?_, by simp [h1], ?_, ?_⟩
          · simp [hl, evLines, fetcherLines, Ev.meta, react]
          · simp only [List.map_cons, List.map_nil, Ev.meta, react, hx, fetcherLines, List.append_nil, List.flatMap_cons, List.flatMap_nil]
            rw [ht', gaveUp_append, hg]
            simp [gaveUp, Line.isSetback, hsum]
          · intro _
            exact ⟨s.d.log, .success (c ++ [v]), s.lines ++ [.data m.name], .discovered (DumpText.compText v), by simp [Ev.meta, react, hx],
              by simp [Ev.meta, react, hx, fetcherLines], c, v, rfl, rfl⟩
    | timer =>
      simp only [Ev.toFetch] at hE
      cases hE with
      | timer _ h1 h2 h3 h4 h5 =>
        have ht : f.timer.isSome = true := by rcases hone0 with h | h; omega; exact h.2
        have ht' : g.timer = none := by rcases hone h1 with h | h; exact h.2; omega
        rw [ht] at hsum
        simp only [if_true] at hsum
        refine ⟨rfl, hi, hstop, ?_, ?_, ?_, ?_, by simp [h1]⟩
        · intro _ x hx
          rcases List.mem_append.mp hx with hx | hx
          · exact hq x hx
          · simpa [react] using hx
        · simp [hl, evLines, fetcherLines, react]
        · intro _ m hm
          rcases List.mem_append.mp hm with hm | hm
          · exact hnd m hm
          · simp at hm
        · rw [ht', gaveUp_append, hg]
          simp [gaveUp, react, fetcherLines]
          simpa using hsum
    | timeout =>
      simp only [Ev.toFetch] at hE
      have ht : f.timer = none := by
        simp only [Ev.toFetch, Fetcher.enabled] at h4
        rcases hone0 with h | h
        · exact h.2
        · omega
      rw [ht] at hsum
      simp only [Option.isSome_none, Bool.false_eq_true, if_false, Nat.add_zero] at hsum
      have hfl : fetcherLines f .timeout = [.timeout] := by simp [fetcherLines, hr]
      cases hE with
      | retryTimeout _ h1 h2 h3 h4 h5 =>
        have ht' : g.timer = none := by rcases hone h1 with h | h; exact h.2; omega
        refine ⟨rfl, hi, hstop, ?_, ?_, ?_, ?_, by simp [h1]⟩
        · intro _ x hx
          rcases List.mem_append.mp hx with hx | hx
          · exact hq x hx
          · simpa [react] using hx
        · simp [hl, evLines, hfl, react]
        · intro _ m hm
          rcases List.mem_append.mp hm with hm | hm
          · exact hnd m hm
          · simp at hm
        · rw [ht', gaveUp_append, hg]
          simp [gaveUp, react, hfl, Line.isSetback]
          omega
      | failTimeout _ h1 h2 h3 h4 h5 =>
        have ht' := (hidle h1).1
        refine ⟨rfl, hi, hstop, by simp [h1], ?_, by simp [h1], ?_, ?_⟩
        · simp [hl, evLines, hfl, react]
        · rw [ht', gaveUp_append, hg]
          simp [gaveUp, react, hfl, Line.isSetback]
          omega
        · intro _
          exact ⟨s.d.log, _, s.lines, .timeout, rfl, by simp [hfl, react], rfl⟩
    | nack r =>
      simp only [Ev.toFetch] at hE
      have ht : f.timer = none := by
        simp only [Ev.toFetch, Fetcher.enabled] at h4
        rcases hone0 with h | h
        · exact h.2
        · omega
      rw [ht] at hsum
      simp only [Option.isSome_none, Bool.false_eq_true, if_false, Nat.add_zero] at hsum
      have hfl : fetcherLines f (.nack r) = [.nack r] := by simp [fetcherLines, hr]
      have hnd' : ∀ m, Ev.data m ∉ es ++ [Ev.nack r] := by
        intro m hm
        rcases List.mem_append.mp hm with hm | hm
        · exact hnd m hm
        · simp at hm
      cases hE with
      | duplicate _ h1 h2 h3 h4 h5 =>
        have ht' : g.timer = none := by rcases hone h1 with h | h; exact h.2; omega
        refine ⟨rfl, hi, hstop, ?_, ?_, fun _ => hnd', ?_, by simp [h1]⟩
        · intro _ x hx
          rcases List.mem_append.mp hx with hx | hx
          · exact hq x hx
          · simpa [react] using hx
        · simp [hl, evLines, hfl, react]
        · rw [ht', gaveUp_append, hg]
          simp [gaveUp, react, hfl, Line.isSetback]
          omega
      | congestion _ h1 h2 h3 h4 h5 =>
        have ht' : g.timer.isSome = true := by rcases hone h1 with h | h; omega; exact h.2
        refine ⟨rfl, hi, hstop, ?_, ?_, fun _ => hnd', ?_, by simp [h1]⟩
        · intro _ x hx
          rcases List.mem_append.mp hx with hx | hx
          · exact hq x hx
          · simp at hx
        · simp [hl, evLines, hfl]
        · rw [ht', gaveUp_append, hg]
          simp [gaveUp, hfl, Line.isSetback]
          omega
      | fatal _ _ h1 h2 h3 h4 h5 h6 h7 h8 =>
        have ht' := (hidle h1).1
        refine ⟨rfl, hi, hstop, by simp [h1], ?_, by simp [h1], ?_, ?_⟩
        · simp [hl, evLines, hfl, react]
        · rw [ht', gaveUp_append, hg]
          simp [gaveUp, react, hfl, Line.isSetback]
          omega
        · intro _
          exact ⟨s.d.log, _, s.lines, .nack r, rfl, by simp [hfl, react], rfl⟩
      | failNack _ _ h1 h2 h3 h4 h5 h6 h7 h8 =>
        have ht' := (hidle h1).1
        refine ⟨rfl, hi, hstop, by simp [h1], ?_, by simp [h1], ?_, ?_⟩
        · simp [hl, evLines, hfl, react]
        · rw [ht', gaveUp_append, hg]
          simp [gaveUp, react, hfl, Line.isSetback]
          omega
        · intro _
          exact ⟨s.d.log, _, s.lines, .nack r, rfl, by simp [hfl, react], r, rfl⟩

/-! ## The text of a version -/

open DumpText in
theorem isNumber_of {b : Bytes} {k : Nat} (h : nniDecode b = some k) : isNumber ⟨54, b⟩ = true ∧ beNat b = k ∧ k < 2 ^ 64 := by
  unfold nniDecode at h
  split at h
  · rename_i hl
    have hk := Option.some.inj h
    refine ⟨by rcases hl with hl | hl | hl | hl <;> simp [isNumber, hl], hk, ?_⟩
    rw [← hk]
    have := beNat_lt b
    rcases hl with hl | hl | hl | hl <;> rw [hl] at this <;> omega
  · cases h

open DumpText in
theorem typed_text {b : Bytes} {k : Nat} (h : nniDecode b = some k) : compText ⟨54, b⟩ = text "v=" ++ decimal k := by
  obtain ⟨h1, h2, -⟩ := isNumber_of h
  have e : text "v=" = text "v" ++ [61] := by decide +kernel
  unfold compText
  dsimp only
  rw [if_neg (by decide), if_neg (by decide), if_neg (by decide), show numberKey 54 = some "v" from rfl, h1, h2, e]
  simp

open DumpText Uri in
theorem version_text {v : Comp} (h : v.isVersion = true) : (parseComp (compText v)).bind Comp.toVersion = v.toVersion := by
  obtain ⟨t, b⟩ := v
  by_cases h8 : t = 8
  · subst h8
    rw [parse_compText (c := ⟨8, b⟩)]
    · rfl
    · intro c hc
      rw [List.mem_singleton.mp hc]
      exact ⟨show 1 ≤ 8 by decide, show 8 ≤ 65535 by decide, by rintro (h | h) <;> cases h⟩
    · intro c hc h1
      rw [List.mem_singleton.mp hc] at h1
      exact absurd h1 (by show (8 : Nat) ∉ _; decide)
  · have h54 : t = 54 := by
      by_contra hc
      simp [Comp.isVersion, Comp.toVersion, Comp.decode, ttGeneric, ttVersion, h8, hc] at h
    subst h54
    obtain ⟨k, hk⟩ := Option.isSome_iff_exists.mp h
    have hk2 : nniDecode b = some k := hk
    obtain ⟨-, -, hlt⟩ := isNumber_of hk2
    have e : compText ⟨54, b⟩ = compText (.fromVersion .typed k) :=
      (typed_text hk2).trans (typed_text (nniDecode_nniEncode hlt)).symm
    rw [e, parse_compText (version_valid _ _) (version_minimal _ hlt), hk]
    exact nniDecode_nniEncode hlt

end Verif.DiscoverVerbose
