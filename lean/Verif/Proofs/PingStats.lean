import Verif.Proofs.Ping
import Mathlib.Algebra.BigOperators.Group.List.Basic
import Mathlib.Algebra.Order.BigOperators.Group.List
import Mathlib.Tactic.FieldSimp
import Mathlib.Tactic.Ring
import Mathlib.Tactic.Linarith
import Mathlib.Tactic.Positivity

/-! # The program `ndnping`: its statistics are those of the history -/

namespace Verif.Ping

/-- What the collector does with an entry of the history. -/
def record (r : ℚ → ℚ) (c : Coll) : Obs → Coll
  | .data _ t => c.recordData r (r ((t : ℚ) / 10 ^ 6))
  | .nack _ _ _ => c.recordNack
  | .timeout _ => c.recordTimeout
  | _ => c

theorem step_ext (o : Opts) (s : St) (e : Ev) : ∃ l, (s.step o e).log = s.log ++ l := by
  have hf : ∀ s : St, ∃ l, s.finish.log = s.log ++ l := by
    intro s
    unfold St.finish
    dsimp only
    split
    · exact ⟨[], by simp⟩
    · exact ⟨_, rfl⟩
  have hp : ∀ s : St, ∃ l, (s.performPing o).log = s.log ++ l := by
    intro s
    unfold St.performPing
    split
    · exact ⟨[], by simp⟩
    · split
      · exact ⟨[], by simp⟩
      · dsimp only
        split
        · exact ⟨_, rfl⟩
        · split
          · exact ⟨_, rfl⟩
          · obtain ⟨l, hl⟩ := hf { s with
              log := s.log ++ [Obs.interest s.nextSeq { name := makePingName o s.nextSeq, mustBeFresh := !o.shouldAllowStaleData }]
              pending := s.pending ++ [s.nextSeq], nSent := s.nSent + 1, nextSeq := (s.nextSeq + 1) % 2 ^ 64,
              nOutstanding := s.nOutstanding + 1 }
            exact ⟨_, hl.trans (List.append_assoc _ _ _)⟩
  unfold St.step
  split
  · exact ⟨[], by simp⟩
  · cases e with
    | timer => exact hp { s with timer := false }
    | data q t =>
      obtain ⟨l, hl⟩ := hf { s with pending := s.pending.erase q, log := s.log ++ [Obs.data q t] }
      exact ⟨_, hl.trans (List.append_assoc _ _ _)⟩
    | nack q t x =>
      obtain ⟨l, hl⟩ := hf { s with pending := s.pending.erase q, log := s.log ++ [Obs.nack q t x] }
      exact ⟨_, hl.trans (List.append_assoc _ _ _)⟩
    | timeout q =>
      obtain ⟨l, hl⟩ := hf { s with pending := s.pending.erase q, log := s.log ++ [Obs.timeout q] }
      exact ⟨_, hl.trans (List.append_assoc _ _ _)⟩
    | stop => exact ⟨[], by simp⟩

theorem stop_log (o : Opts) (s : St) : (s.step o .stop).log = s.log := by
  unfold St.step
  split <;> rfl

theorem fold_signals (r : ℚ → ℚ) (o : Opts) (l : List Obs) (p : Prog) :
    (l.foldl (Prog.onSignal r o) p).coll = l.foldl (record r) p.coll ∧
    (l.foldl (Prog.onSignal r o) p).ping.log = p.ping.log ∧
    (l.foldl (Prog.onSignal r o) p).reports = p.reports ∧
    ((l.foldl (Prog.onSignal r o) p).signals = true ↔ p.signals = true ∧ Obs.finish ∉ l) ∧
    (∀ es, (machine o).Run es p.ping → ∃ k, (machine o).Run (es ++ List.replicate k .stop)
      (l.foldl (Prog.onSignal r o) p).ping) := by
  induction l generalizing p with
  | nil => exact ⟨rfl, rfl, rfl, by simp, fun es h => ⟨0, by simpa using h⟩⟩
  | cons x l ih =>
    obtain ⟨h1, h2, h3, h4, h5⟩ := ih (p.onSignal r o x)
    rw [List.foldl_cons, List.foldl_cons]
    cases x with
    | finish =>
      refine ⟨h1, h2.trans (stop_log o _), h3, ?_, ?_⟩
      · rw [h4]
        simp [Prog.onSignal, Prog.cancel]
      · intro es h
        obtain ⟨k, hk⟩ := h5 (es ++ [.stop]) (Machine.Run.snoc (M := machine o) .stop h trivial)
        refine ⟨k + 1, ?_⟩
        rw [List.replicate_succ]
        simpa using hk
    | interest q i => exact ⟨h1, h2, h3, by rw [h4]; simp [Prog.onSignal], h5⟩
    | data q t => exact ⟨h1, h2, h3, by rw [h4]; simp [Prog.onSignal], h5⟩
    | nack q t x => exact ⟨h1, h2, h3, by rw [h4]; simp [Prog.onSignal], h5⟩
    | timeout q => exact ⟨h1, h2, h3, by rw [h4]; simp [Prog.onSignal], h5⟩

/-- The program at any time. -/
structure PInv (r : ℚ → ℚ) (o : Opts) (es : List PEv) (p : Prog) : Prop where
  run : ∃ es', (machine o).Run es' p.ping ∧ (PEv.sigint ∉ es → Obs.finish ∉ p.ping.log → Ev.stop ∉ es')
  coll : p.coll = p.ping.log.foldl (record r) {}
  sig : p.signals = true ↔ PEv.sigint ∉ es ∧ Obs.finish ∉ p.ping.log

theorem prog_inv {r : ℚ → ℚ} {o : Opts} {es : List PEv} {p : Prog} (h : (progMachine r o).Run es p) :
    PInv r o es p := by
  induction h with
  | nil =>
    obtain ⟨h1, h2, h3, h4, h5⟩ := fold_signals r o (start o).log { ping := start o }
    have hi : (progMachine r o).init = (start o).log.foldl (Prog.onSignal r o) { ping := start o } := rfl
    rw [hi]
    refine ⟨?_, by rw [h1, h2], by rw [h4, h2]; simp⟩
    by_cases hf : Obs.finish ∈ (start o).log
    · obtain ⟨k, hk⟩ := h5 [] .nil
      exact ⟨_, hk, fun _ hn => absurd (by rw [h2]; exact hf) hn⟩
    · refine ⟨[], ?_, fun _ _ hx => by cases hx⟩
      have : ∀ (l : List Obs) (p : Prog), Obs.finish ∉ l → (l.foldl (Prog.onSignal r o) p).ping = p.ping := by
        intro l
        induction l with
        | nil => intro p _; rfl
        | cons x l ih =>
          intro p hx
          rw [List.foldl_cons, ih _ (fun h => hx (List.mem_cons_of_mem _ h))]
          cases x <;> first | rfl | (exact absurd List.mem_cons_self hx)
      rw [this _ _ hf]
      exact .nil
  | snoc e h he ih =>
    rename_i es p
    have hstep : (progMachine r o).step p e = p.step r o e := rfl
    rw [hstep]
    obtain ⟨⟨es', hr, hns⟩, hc, hsig⟩ := ih
    cases e with
    | ping e =>
      obtain ⟨l, hl⟩ := step_ext o p.ping e
      have hd : (p.ping.step o e).log.drop p.ping.log.length = l := by rw [hl]; simp
      have hstep' : p.step r o (.ping e) = l.foldl (Prog.onSignal r o) { p with ping := p.ping.step o e } := by
        show ((p.ping.step o e).log.drop p.ping.log.length).foldl _ _ = _
        rw [hd]
      rw [hstep']
      obtain ⟨h1, h2, h3, h4, h5⟩ := fold_signals r o l { p with ping := p.ping.step o e }
      have hrun := Machine.Run.snoc (M := machine o) e hr he.2.2
      obtain ⟨k, hk⟩ := h5 _ hrun
      refine ⟨?_, ?_, ?_⟩
      · by_cases hf : Obs.finish ∈ l
        · exact ⟨_, hk, fun _ hn => absurd (by rw [h2]; dsimp only; rw [hl]; simp [hf]) hn⟩
        · refine ⟨es' ++ [e], ?_, ?_⟩
          · have : ∀ (l : List Obs) (p : Prog), Obs.finish ∉ l → (l.foldl (Prog.onSignal r o) p).ping = p.ping := by
              intro l
              induction l with
              | nil => intro p _; rfl
              | cons x l ih =>
                intro p hx
                rw [List.foldl_cons, ih _ (fun h => hx (List.mem_cons_of_mem _ h))]
                cases x <;> first | rfl | (exact absurd List.mem_cons_self hx)
            rw [this _ _ hf]
            exact hrun
          · intro ha hb hx
            rw [h2] at hb
            dsimp only at hb
            rw [hl] at hb
            rcases List.mem_append.mp hx with hx | hx
            · refine hns ?_ ?_ hx
              · intro h; exact ha (by simp [h])
              · intro h; exact hb (by simp [h])
            · exact he.1 (by simpa using hx : Ev.stop = e).symm
      · rw [h1, h2]
        dsimp only
        rw [hl, List.foldl_append, hc]
      · rw [h4, h2]
        dsimp only
        rw [hl, hsig]
        simp
        tauto
    | sigint =>
      have hs : p.step r o .sigint = { p with signals := false, ping := p.ping.step o .stop } := rfl
      rw [hs]
      refine ⟨⟨_, Machine.Run.snoc (M := machine o) .stop hr trivial, fun hn => by simp at hn⟩, ?_, by simp⟩
      dsimp only
      rw [stop_log]; exact hc
    | sigquit =>
      have hs : p.step r o .sigquit = { p with reports := p.reports ++ [p.coll] } := rfl
      rw [hs]
      refine ⟨⟨es', hr, ?_⟩, hc, ?_⟩
      · intro ha; exact hns (fun h => ha (by simp [h]))
      · dsimp only; rw [hsig]; simp

/-! ## The numbers of the collector -/

theorem coll_counts (r : ℚ → ℚ) (l : List Obs) (c : Coll) :
    (l.foldl (record r) c).nSent = c.nSent + nData l + nNack l + nTimeout l ∧
    (l.foldl (record r) c).nReceived = c.nReceived + nData l ∧
    (l.foldl (record r) c).nNacked = c.nNacked + nNack l := by
  induction l generalizing c with
  | nil => simp [nData, nNack, nTimeout]
  | cons x l ih =>
    rw [List.foldl_cons]
    obtain ⟨h1, h2, h3⟩ := ih (record r c x)
    rw [h1, h2, h3]
    unfold nData nNack nTimeout
    cases x <;> simp [record, Coll.recordData, Coll.recordNack, Coll.recordTimeout] <;> omega

theorem results_length (l : List Obs) : (results l).length = nData l + nNack l + nTimeout l := by
  induction l with
  | nil => rfl
  | cons x l ih =>
    unfold results nData nNack nTimeout at *
    cases x <;> simp only [List.filterMap_cons, Obs.result, List.countP_cons, List.length_cons, ih, if_true, Bool.false_eq_true, if_false] <;> omega

theorem rtts_length (l : List Obs) : (rtts l).length = nData l := by
  induction l with
  | nil => rfl
  | cons x l ih =>
    unfold rtts nData at *
    cases x <;> simp [ih]

/-- In exact arithmetic the collector is a function of the samples. -/
theorem coll_sums (l : List Obs) (c : Coll) :
    (l.foldl (record id) c).sumRtt = c.sumRtt + (rtts l).sum ∧
    (l.foldl (record id) c).sumRttSquared = c.sumRttSquared + ((rtts l).map fun x => x * x).sum ∧
    (l.foldl (record id) c).minRtt = (rtts l).foldl min c.minRtt ∧
    (l.foldl (record id) c).maxRtt = (rtts l).foldl max c.maxRtt := by
  induction l generalizing c with
  | nil => simp [rtts]
  | cons x l ih =>
    rw [List.foldl_cons]
    obtain ⟨h1, h2, h3, h4⟩ := ih (record id c x)
    rw [h1, h2, h3, h4]
    unfold rtts
    cases x <;> simp [record, Coll.recordData, Coll.recordNack, Coll.recordTimeout, add_assoc]

theorem foldl_min (l : List ℚ) (m : ℚ) :
    (∀ x ∈ l, l.foldl min m ≤ x) ∧ l.foldl min m ≤ m ∧ (l.foldl min m = m ∨ l.foldl min m ∈ l) := by
  induction l generalizing m with
  | nil => simp
  | cons x l ih =>
    rw [List.foldl_cons]
    obtain ⟨h1, h2, h3⟩ := ih (min m x)
    refine ⟨?_, h2.trans (min_le_left _ _), ?_⟩
    · intro y hy
      rcases List.mem_cons.mp hy with rfl | hy
      · exact h2.trans (min_le_right _ _)
      · exact h1 y hy
    · rcases h3 with h3 | h3
      · rcases min_choice m x with h | h
        · left; rw [h3, h]
        · right; rw [h3, h]; simp
      · right; simp [h3]

theorem foldl_max (l : List ℚ) (m : ℚ) :
    (∀ x ∈ l, x ≤ l.foldl max m) ∧ m ≤ l.foldl max m ∧ (l.foldl max m = m ∨ l.foldl max m ∈ l) := by
  induction l generalizing m with
  | nil => simp
  | cons x l ih =>
    rw [List.foldl_cons]
    obtain ⟨h1, h2, h3⟩ := ih (max m x)
    refine ⟨?_, (le_max_left _ _).trans h2, ?_⟩
    · intro y hy
      rcases List.mem_cons.mp hy with rfl | hy
      · exact (le_max_right _ _).trans h2
      · exact h1 y hy
    · rcases h3 with h3 | h3
      · rcases max_choice m x with h | h
        · left; rw [h3, h]
        · right; rw [h3, h]; simp
      · right; simp [h3]

theorem sum_sq_dev (l : List ℚ) (a : ℚ) :
    (l.map fun x => (x - a) * (x - a)).sum = (l.map fun x => x * x).sum - 2 * a * l.sum + l.length * (a * a) := by
  induction l with
  | nil => simp
  | cons x l ih =>
    simp only [List.map_cons, List.sum_cons, ih, List.length_cons]
    push_cast
    ring

theorem sum_le_max (l : List ℚ) (m : ℚ) (h : ∀ x ∈ l, x ≤ m) : l.sum ≤ l.length * m := by
  induction l with
  | nil => simp
  | cons x l ih =>
    simp only [List.sum_cons, List.length_cons]
    have h1 := h x (by simp)
    have h2 := ih (fun y hy => h y (by simp [hy]))
    push_cast
    linarith

theorem min_le_sum (l : List ℚ) (m : ℚ) (h : ∀ x ∈ l, m ≤ x) : l.length * m ≤ l.sum := by
  induction l with
  | nil => simp
  | cons x l ih =>
    simp only [List.sum_cons, List.length_cons]
    have h1 := h x (by simp)
    have h2 := ih (fun y hy => h y (by simp [hy]))
    push_cast
    linarith

theorem sum_sq_nonneg (l : List ℚ) (a : ℚ) : 0 ≤ (l.map fun x => (x - a) * (x - a)).sum := by
  induction l with
  | nil => simp
  | cons x l ih =>
    simp only [List.map_cons, List.sum_cons]
    have := mul_self_nonneg (x - a)
    linarith

theorem rtts_nonneg (l : List Obs) : ∀ x ∈ rtts l, 0 ≤ x := by
  intro x hx
  unfold rtts at hx
  obtain ⟨y, _, hy⟩ := List.mem_filterMap.mp hx
  cases y <;> simp at hy
  subst hy
  positivity

end Verif.Ping
