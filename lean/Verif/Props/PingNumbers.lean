import Verif.Props.PingOutput

/-! # Do the printed numbers agree with each other? -/

namespace Verif.PingOutput

open Ping

/-- **C82 (partial: lost)** With up to a million lines about pings, "100% lost" is printed exactly if all of them are timeouts. -/
theorem C82_hundred_partial {o : Opts} {v : Env} (hv : v.Plain) {es s} (h : (machine binary64 o v).Run es s)
    (ht : s.prog.ping.threw = false) :
    let its := items v.stamps (s.final binary64 v)
    its ≠ [] → its.length ≤ 10 ^ 6 → ∀ t ∈ totals (s.final binary64 v),
      (t.lostPercent = some 100 ↔ ∀ i ∈ its, i.isTimeout = true) := by
  dsimp only
  obtain ⟨h1, -, h3⟩ := final_text nonneg64 hv h
  obtain ⟨c1, c2, c3, c4⟩ := count_items binary64 s.prog.ping.log
  rw [← h1] at c1 c2 c3 c4
  rw [(h3 ht).1]
  generalize items v.stamps (s.final binary64 v) = its at *
  intro hne hle t htt
  rw [List.mem_singleton] at htt
  obtain ⟨g1, g2, g3, g4, -, -⟩ := C30_accounting (prog_run h)
  have g1' : s.prog.coll.nSent = ((results s.prog.ping.log).length : Nat) := by rw [← g4]; exact g1
  have g2' : s.prog.coll.nReceived = (nData s.prog.ping.log : Nat) := g2
  have g3' : s.prog.coll.nNacked = (nNack s.prog.ping.log : Nat) := g3
  have hpos : 0 < its.length := List.length_pos_of_ne_nil hne
  have hl : lossRate binary64 s.prog.coll = binary64 (((its.countP Item.isTimeout : Nat) : ℚ) / its.length) := by
    unfold lossRate
    rw [g1', g2', g3', c1, c4]
    congr 1
    rw [show (((results s.prog.ping.log).length : Int) - nData s.prog.ping.log - nNack s.prog.ping.log)
      = ((nTimeout s.prog.ping.log : Nat) : Int) by omega]
    simp
  have htl : t.lostPercent = some (shown (binary64 (binary64 (((its.countP Item.isTimeout : Nat) : ℚ) / its.length) * 100))) := by
    rw [htt]; dsimp only; rw [if_neg (by omega), hl]
  rw [htl, Option.some.injEq, ← List.countP_eq_length]
  have hk := List.countP_le_length (p := Item.isTimeout) (l := its)
  generalize its.countP Item.isTimeout = k at *
  generalize its.length = n at *
  have hnq : (0 : ℚ) < n := by exact_mod_cast hpos
  constructor
  · intro hs
    rcases Nat.lt_or_eq_of_le hk with hlt | heq
    · exfalso
      have hx0 : (0 : ℚ) ≤ (k : ℚ) / n := by positivity
      have hx : (k : ℚ) / n ≤ 1 - 1 / 10 ^ 6 := by
        rw [div_le_iff₀ hnq]
        have e1 : (k : ℚ) + 1 ≤ n := by exact_mod_cast hlt
        have e2 : (n : ℚ) ≤ 10 ^ 6 := by exact_mod_cast hle
        nlinarith
      have b1 := binary64_err ((k : ℚ) / n)
      have hy := nonneg64 _ hx0
      generalize (k : ℚ) / n = x at *
      generalize binary64 x = y at *
      have b2 := binary64_err (y * 100)
      have hz := nonneg64 _ (mul_nonneg hy (by norm_num : (0 : ℚ) ≤ 100))
      rw [abs_of_nonneg hx0] at b1
      rw [abs_of_nonneg (mul_nonneg hy (by norm_num : (0 : ℚ) ≤ 100))] at b2
      generalize binary64 (y * 100) = z at *
      have e1 : x / 2 ^ 53 ≤ x * (1 / 10 ^ 9) := by
        rw [div_eq_mul_inv]; exact mul_le_mul_of_nonneg_left (by norm_num) hx0
      have e2 : y * 100 / 2 ^ 53 ≤ y * 100 * (1 / 10 ^ 9) := by
        rw [div_eq_mul_inv]
        exact mul_le_mul_of_nonneg_left (by norm_num) (mul_nonneg hy (by norm_num))
      rw [abs_le] at b1 b2
      have hzl : z ≤ 99.99994 := by
        norm_num
        nlinarith [b1.2, b2.2]
      have hm := shown_mono hz hzl
      have : shown 99.99994 < 100 := by decide +kernel
      rw [hs] at hm
      exact absurd (lt_of_le_of_lt hm this) (lt_irrefl _)
    · exact heq
  · rintro rfl
    rw [div_self hnq.ne']
    decide +kernel

/-- A client that pings until it is stopped has got one response, then `k` timeouts, and no ping is pending. -/
private structure Lossy (o : Opts) (v : Env) (k : Nat) (s : St) : Prop where
  run : ∃ es, (machine binary64 o v).Run es s
  threw : s.prog.ping.threw = false
  assertion : s.prog.ping.assertFailed = false
  ub : s.prog.ping.ub = false
  timer : s.prog.ping.timer = true
  pending : s.prog.ping.pending = []
  outstanding : s.prog.ping.nOutstanding = 0
  sent : s.prog.ping.nSent = k + 1
  signals : s.prog.signals = true
  data : nData s.prog.ping.log = 1
  nack : nNack s.prog.ping.log = 0
  timeouts : nTimeout s.prog.ping.log = k

private theorem lossy_step {o : Opts} {v : Env} {k : Nat} {s : St} (hn : o.nPings < 0) (ht : 0 ≤ o.timeout)
    (hk : k + 3 < 2 ^ 31) (h : Lossy o v k s) : ∃ s', Lossy o v (k + 1) s' := by
  obtain ⟨⟨es, hr⟩, h1, h2, h3, h4, h5, h6, h7, h8, h9, h10, h11⟩ := h
  obtain ⟨⟨p, c, sg, rp⟩, out⟩ := s
  obtain ⟨nSent, nextSeq, nOut, pend, timer, threw, af, ub, log⟩ := p
  dsimp only at *
  subst h1 h2 h3 h4 h5 h6 h7 h8
  have hp1 : (machine binary64 o v).enabled ⟨⟨⟨k + 1, nextSeq, 0, [], true, false, false, false, log⟩, c, true, rp⟩, out⟩ (.ping .timer) :=
    ⟨by simp, rfl, rfl⟩
  let iv : Obs := .interest nextSeq { name := makePingName o nextSeq, mustBeFresh := !o.shouldAllowStaleData }
  let s1 : St := ⟨⟨⟨k + 2, (nextSeq + 1) % 2 ^ 64, 1, [nextSeq], true, false, false, false, log ++ [iv]⟩, c, true, rp⟩, out⟩
  have e1 : (machine binary64 o v).step ⟨⟨⟨k + 1, nextSeq, 0, [], true, false, false, false, log⟩, c, true, rp⟩, out⟩ (.ping .timer) = s1 := by
    have hst : Ping.St.step o ⟨k + 1, nextSeq, 0, [], true, false, false, false, log⟩ .timer =
        ⟨k + 2, (nextSeq + 1) % 2 ^ 64, 1, [nextSeq], true, false, false, false, log ++ [iv]⟩ := by
      unfold Ping.St.step Ping.St.performPing
      simp only [Bool.or_self, Bool.false_eq_true, if_false]
      rw [if_neg (by simp [hn]), if_neg (by omega)]
      rw [if_neg (by unfold intMax; omega), if_pos (Or.inl hn)]
      simp [iv, add_assoc]
    simp only [machine, PingOutput.St.step, Prog.step, hst, List.drop_left]
    simp [Prog.onSignal, iv, traces, trace, s1]
  have r1 := Machine.Run.snoc (M := machine binary64 o v) (.ping .timer) hr hp1
  rw [e1] at r1
  have hp2 : (machine binary64 o v).enabled s1 (.ping (.timeout nextSeq)) := ⟨by simp, rfl, by simp [Ping.St.enabled, s1]⟩
  have r2 := Machine.Run.snoc (M := machine binary64 o v) (.ping (.timeout nextSeq)) r1 hp2
  have hst2 : Ping.St.step o ⟨k + 2, (nextSeq + 1) % 2 ^ 64, 1, [nextSeq], true, false, false, false, log ++ [iv]⟩ (.timeout nextSeq) =
      ⟨k + 2, (nextSeq + 1) % 2 ^ 64, 0, [], true, false, false, false, log ++ [iv] ++ [.timeout nextSeq]⟩ := by
    simp [Ping.St.step, Ping.St.finish]
  have e2 : ((machine binary64 o v).step s1 (.ping (.timeout nextSeq))).prog =
      ⟨⟨k + 2, (nextSeq + 1) % 2 ^ 64, 0, [], true, false, false, false, log ++ [iv] ++ [.timeout nextSeq]⟩, c.recordTimeout, true, rp⟩ := by
    show (PingOutput.St.step _ _ _ _ _).prog = _
    unfold PingOutput.St.step Prog.step
    simp only [s1, hst2, List.drop_left]
    rfl
  refine ⟨_, ⟨⟨_, r2⟩, ?_, ?_, ?_, ?_, ?_, ?_, ?_, ?_, ?_, ?_, ?_⟩⟩
  all_goals rw [e2]
  · push_cast; ring
  · simpa [nData, iv] using h9
  · simpa [nNack, iv] using h10
  · simpa [nTimeout, iv] using h11

/-- **C82 (the full statement is false: lost)** After one response and two million timeouts "100% lost" is printed, although a response was
received. -/
theorem C82_hundred_refuted {v : Env} (hv : v.Plain) :
    ∃ es s, (machine binary64 { pre := [] } v).Run es s ∧ s.prog.Exits 1 ∧
      totals (s.final binary64 v) = [⟨2000001, 1, 0, some 100, some 0⟩] := by
  have h0 : ∃ s, Lossy { pre := [] } v 0 s := by
    refine ⟨_, ⟨⟨_, Machine.Run.snoc (M := machine binary64 { pre := [] } v) (.ping (.data 0 1000000)) .nil ?_⟩,
      rfl, rfl, rfl, rfl, rfl, rfl, rfl, rfl, rfl, rfl, rfl⟩⟩
    refine ⟨by simp, rfl, ?_⟩
    show 0 ∈ (Prog.start binary64 { pre := [] }).ping.pending
    decide +kernel
  have key : ∀ k, k ≤ 2000000 → ∃ s, Lossy { pre := [] } v k s := by
    intro k
    induction k with
    | zero => exact fun _ => h0
    | succ k ih =>
      intro hk
      obtain ⟨s, hs⟩ := ih (by omega)
      exact lossy_step (by decide) (by decide) (by omega) hs
  obtain ⟨s, hs⟩ := key 2000000 (le_refl _)
  obtain ⟨es, hr⟩ := hs.run
  have r1 := Machine.Run.snoc (M := machine binary64 { pre := [] } v) .sigint hr ⟨hs.threw, hs.signals⟩
  have hlog : ((machine binary64 { pre := [] } v).step s .sigint).prog.ping = { s.prog.ping with timer := false } := by
    show s.prog.ping.step { pre := [] } .stop = _
    unfold Ping.St.step
    rw [if_neg (by simp [hs.threw, hs.assertion, hs.ub])]
  have hsig : ((machine binary64 { pre := [] } v).step s .sigint).prog.signals = false := rfl
  have hcoll : ((machine binary64 { pre := [] } v).step s .sigint).prog.coll = s.prog.coll := rfl
  obtain ⟨g1, g2, g3, g4, -, -⟩ := C30_accounting (prog_run hr)
  have g1' : s.prog.coll.nSent = 2000001 := by
    have : s.prog.coll.nSent = ((nData s.prog.ping.log + nNack s.prog.ping.log + nTimeout s.prog.ping.log : Nat) : Int) := g1
    rw [hs.data, hs.nack, hs.timeouts] at this
    exact this
  have g2' : s.prog.coll.nReceived = 1 := by
    have : s.prog.coll.nReceived = (nData s.prog.ping.log : Nat) := g2
    rw [hs.data] at this; exact this
  have g3' : s.prog.coll.nNacked = 0 := by
    have : s.prog.coll.nNacked = (nNack s.prog.ping.log : Nat) := g3
    rw [hs.nack] at this; exact this
  refine ⟨_, _, r1, ?_, ?_⟩
  · unfold Prog.Exits
    rw [hlog, hsig, hcoll]
    dsimp only
    rw [if_neg (by rw [hs.threw]; simp), g1', g2']
    exact ⟨hs.assertion, hs.ub, hs.pending, rfl, rfl, by decide⟩
  · obtain ⟨-, -, h3⟩ := final_text nonneg64 hv r1
    have := (h3 (by rw [hlog]; exact hs.threw)).1
    rw [hlog, hcoll] at this
    dsimp only at this
    rw [this, ← g4, hs.data, hs.nack, hs.timeouts]
    unfold lossRate nackedRate
    rw [g1', g2', g3']
    decide +kernel

/-! ## The round-trip times -/

private theorem fold_extremes (r : ℚ → ℚ) (l : List Obs) (c : Coll) :
    let d := l.foldl (record r) c
    (d.minRtt ≤ c.minRtt ∧ (∀ q t, Obs.data q t ∈ l → d.minRtt ≤ r ((t : ℚ) / 10 ^ 6)) ∧
      (d.minRtt = c.minRtt ∨ ∃ q t, Obs.data q t ∈ l ∧ d.minRtt = r ((t : ℚ) / 10 ^ 6))) ∧
    c.maxRtt ≤ d.maxRtt ∧ (∀ q t, Obs.data q t ∈ l → r ((t : ℚ) / 10 ^ 6) ≤ d.maxRtt) ∧
      (d.maxRtt = c.maxRtt ∨ ∃ q t, Obs.data q t ∈ l ∧ d.maxRtt = r ((t : ℚ) / 10 ^ 6)) := by
  induction l generalizing c with
  | nil => exact ⟨⟨le_refl _, by simp, Or.inl rfl⟩, le_refl _, by simp, Or.inl rfl⟩
  | cons x l ih =>
    obtain ⟨⟨h1, h2, h3⟩, h4, h5, h6⟩ := ih (record r c x)
    dsimp only
    rw [List.foldl_cons]
    have same : (record r c x).minRtt = c.minRtt → (record r c x).maxRtt = c.maxRtt → (∀ q t, x ≠ .data q t) →
        ((l.foldl (record r) (record r c x)).minRtt ≤ c.minRtt ∧
          (∀ q t, Obs.data q t ∈ x :: l → (l.foldl (record r) (record r c x)).minRtt ≤ r ((t : ℚ) / 10 ^ 6)) ∧
          ((l.foldl (record r) (record r c x)).minRtt = c.minRtt ∨
            ∃ q t, Obs.data q t ∈ x :: l ∧ (l.foldl (record r) (record r c x)).minRtt = r ((t : ℚ) / 10 ^ 6))) ∧
        c.maxRtt ≤ (l.foldl (record r) (record r c x)).maxRtt ∧
          (∀ q t, Obs.data q t ∈ x :: l → r ((t : ℚ) / 10 ^ 6) ≤ (l.foldl (record r) (record r c x)).maxRtt) ∧
          ((l.foldl (record r) (record r c x)).maxRtt = c.maxRtt ∨
            ∃ q t, Obs.data q t ∈ x :: l ∧ (l.foldl (record r) (record r c x)).maxRtt = r ((t : ℚ) / 10 ^ 6)) := by
      intro e1 e2 hx
      rw [e1] at h1 h3
      rw [e2] at h4 h6
      refine ⟨⟨h1, ?_, ?_⟩, h4, ?_, ?_⟩
      · intro q t hm
        rcases List.mem_cons.1 hm with hm | hm
        · exact absurd hm.symm (hx q t)
        · exact h2 q t hm
      · rcases h3 with h3 | ⟨q, t, hm, h3⟩
        · exact Or.inl h3
        · exact Or.inr ⟨q, t, List.mem_cons_of_mem _ hm, h3⟩
      · intro q t hm
        rcases List.mem_cons.1 hm with hm | hm
        · exact absurd hm.symm (hx q t)
        · exact h5 q t hm
      · rcases h6 with h6 | ⟨q, t, hm, h6⟩
        · exact Or.inl h6
        · exact Or.inr ⟨q, t, List.mem_cons_of_mem _ hm, h6⟩
    cases x with
    | interest q i => exact same rfl rfl (by simp)
    | nack q t n => exact same rfl rfl (by simp)
    | timeout q => exact same rfl rfl (by simp)
    | finish => exact same rfl rfl (by simp)
    | data q t =>
      have e1 : (record r c (.data q t)).minRtt = min c.minRtt (r ((t : ℚ) / 10 ^ 6)) := rfl
      have e2 : (record r c (.data q t)).maxRtt = max c.maxRtt (r ((t : ℚ) / 10 ^ 6)) := rfl
      generalize record r c (.data q t) = c' at *
      rw [e1] at h1 h3
      rw [e2] at h4 h6
      refine ⟨⟨h1.trans (min_le_left _ _), ?_, ?_⟩, (le_max_left _ _).trans h4, ?_, ?_⟩
      · intro q' t' hm
        rcases List.mem_cons.1 hm with hm | hm
        · cases hm; exact h1.trans (min_le_right _ _)
        · exact h2 q' t' hm
      · rcases h3 with h3 | ⟨q', t', hm, h3⟩
        · rcases min_choice c.minRtt (r ((t : ℚ) / 10 ^ 6)) with hc | hc
          · exact Or.inl (h3.trans hc)
          · exact Or.inr ⟨q, t, by simp, h3.trans hc⟩
        · exact Or.inr ⟨q', t', List.mem_cons_of_mem _ hm, h3⟩
      · intro q' t' hm
        rcases List.mem_cons.1 hm with hm | hm
        · cases hm; exact (le_max_right _ _).trans h4
        · exact h5 q' t' hm
      · rcases h6 with h6 | ⟨q', t', hm, h6⟩
        · rcases max_choice c.maxRtt (r ((t : ℚ) / 10 ^ 6)) with hc | hc
          · exact Or.inl (h6.trans hc)
          · exact Or.inr ⟨q, t, by simp, h6.trans hc⟩
        · exact Or.inr ⟨q', t', List.mem_cons_of_mem _ hm, h6⟩

private theorem four_numbers (r : ℚ → ℚ) {v : Env} (hv : v.Plain) {c : Coll} (h1 : 0 ≤ c.minRtt) (h2 : 0 ≤ r (c.sumRtt / c.nReceived))
    (h3 : 0 ≤ c.maxRtt) : ∃ d, (split 47 (timesWord r v c)).map readNumber =
      [some (shown c.minRtt), some (shown (r (c.sumRtt / c.nReceived))), some (shown c.maxRtt), d] := by
  have hg : ∀ x, 47 ∉ general x := fun x => numChar_not (general_numChar x) (by decide)
  have hd : 47 ∉ (if c.variance r < 0 then v.nan else general (v.sqrt (c.variance r))) := by
    split
    · exact hv.slash
    · exact hg _
  unfold timesWord
  generalize (if c.variance r < 0 then v.nan else general (v.sqrt (c.variance r))) = w at *
  have e : ∀ a b : Bytes, a ++ text "/" ++ b = a ++ 47 :: b := by intro a b; simp [text]
  rw [show general c.minRtt ++ text "/" ++ general (r (c.sumRtt / c.nReceived)) ++ text "/" ++ general c.maxRtt ++ text "/" ++ w =
    general c.minRtt ++ 47 :: (general (r (c.sumRtt / c.nReceived)) ++ 47 :: (general c.maxRtt ++ 47 :: w)) by simp [text]]
  rw [split_cons (hg _), split_cons (hg _), split_cons (hg _), split_free hd]
  exact ⟨readNumber w, by simp [general_read h1, general_read h2, general_read h3]⟩

private theorem data_mem {l : List Obs} (h : nData l ≠ 0) : ∃ q t, Obs.data q t ∈ l := by
  unfold nData at h
  have := List.countP_pos_iff.1 (Nat.pos_of_ne_zero h)
  obtain ⟨x, hx, hp⟩ := this
  cases x with
  | data q t => exact ⟨q, t, hx⟩
  | interest _ _ => cases hp
  | nack _ _ _ => cases hp
  | timeout _ => cases hp
  | finish => cases hp

private theorem sum_nonneg {r : ℚ → ℚ} (hr : ∀ x, 0 ≤ x → 0 ≤ r x) (l : List Obs) (c : Coll) (hc : 0 ≤ c.sumRtt) :
    0 ≤ (l.foldl (record r) c).sumRtt := by
  induction l generalizing c with
  | nil => exact hc
  | cons x l ih =>
    rw [List.foldl_cons]
    refine ih _ ?_
    cases x with
    | data q t => exact hr _ (add_nonneg hc (hr _ (by positivity)))
    | interest _ _ => exact hc
    | nack _ _ _ => exact hc
    | timeout _ => exact hc
    | finish => exact hc

private def sixEvents : List PEv :=
  [.ping (.data 0 1000105), .ping .timer, .ping (.data 1 1000105), .ping .timer, .ping (.data 2 1000105), .ping .timer,
    .ping (.data 3 1000105), .ping .timer, .ping (.data 4 1000105), .ping .timer, .ping (.data 5 1000105)]

/-- The number is the square root of the variance 6.66134e-16. -/
private def plainEnv : Env := { uri := text "/a", sqrt := fun _ => 2.58096e-8 }

private theorem plain_plain : plainEnv.Plain :=
  ⟨by decide +kernel, fun _ => ⟨by simp [plainEnv], by simp [plainEnv]⟩, by decide +kernel, by decide +kernel⟩

/-- **C82 (partial: times)** If there was a response, one line of the output has the round-trip times. The first number is the
least one and the third is the greatest one, up to six millionths of it, and the first is not greater than the third. (Round-trip times
are 64 bit numbers of nanoseconds.) -/
theorem C82_times_partial {o : Opts} {v : Env} (hv : v.Plain) {es s} (h : (machine binary64 o v).Run es s)
    (ht : s.prog.ping.threw = false) (hd : nData s.prog.ping.log ≠ 0)
    (h64 : ∀ x ∈ rtts s.prog.ping.log, x ≤ 2 ^ 63 / 10 ^ 6) :
    ∃ a b c d, rttLines (s.final binary64 v) = [[some a, some b, some c, d]] ∧ a ≤ c ∧
      (∃ x ∈ rtts s.prog.ping.log, |a - x| ≤ x * (6 / 10 ^ 6)) ∧ (∀ x ∈ rtts s.prog.ping.log, a ≤ x * (1 + 6 / 10 ^ 6)) ∧
      (∃ x ∈ rtts s.prog.ping.log, |c - x| ≤ x * (6 / 10 ^ 6)) ∧ ∀ x ∈ rtts s.prog.ping.log, x * (1 - 6 / 10 ^ 6) ≤ c := by
  have hc := (prog_inv (prog_run h)).coll
  obtain ⟨-, -, h3⟩ := final_text nonneg64 hv h
  have hl := (h3 ht).2
  rw [if_neg hd] at hl
  obtain ⟨⟨m1, m2, m3⟩, M1, M2, M3⟩ := fold_extremes binary64 s.prog.ping.log {}
  have hsum := sum_nonneg nonneg64 s.prog.ping.log {} (le_refl _)
  rw [← hc] at m1 m2 m3 M1 M2 M3 hsum
  obtain ⟨q0, t0, hm0⟩ := data_mem hd
  have hrt : ∀ q t, Obs.data q t ∈ s.prog.ping.log → (t : ℚ) / 10 ^ 6 ∈ rtts s.prog.ping.log :=
    fun q t hm => List.mem_filterMap.2 ⟨_, hm, rfl⟩
  have hrt' : ∀ x ∈ rtts s.prog.ping.log, ∃ q t, Obs.data q t ∈ s.prog.ping.log ∧ x = (t : ℚ) / 10 ^ 6 := by
    intro x hx
    obtain ⟨y, hy, he⟩ := List.mem_filterMap.1 hx
    cases y with
    | data q t => exact ⟨q, t, hy, (Option.some.inj he).symm⟩
    | interest _ _ => cases he
    | nack _ _ _ => cases he
    | timeout _ => cases he
    | finish => cases he
  have hmin : ∃ q t, Obs.data q t ∈ s.prog.ping.log ∧ s.prog.coll.minRtt = binary64 ((t : ℚ) / 10 ^ 6) := by
    rcases m3 with m3 | m3
    · exfalso
      have e := m2 q0 t0 hm0
      rw [m3, show ({} : Coll).minRtt = dblMax from rfl] at e
      have h5 := h64 _ (hrt _ _ hm0)
      have h6 := binary64_err ((t0 : ℚ) / 10 ^ 6)
      rw [abs_of_nonneg (show (0 : ℚ) ≤ (t0 : ℚ) / 10 ^ 6 by positivity), abs_le] at h6
      have h7 : (t0 : ℚ) / 10 ^ 6 / 2 ^ 53 ≤ (t0 : ℚ) / 10 ^ 6 := div_le_self (by positivity) (by norm_num)
      have h8 : binary64 ((t0 : ℚ) / 10 ^ 6) ≤ 2 * (2 ^ 63 / 10 ^ 6) := by linarith [h6.2]
      have h9 : (2 : ℚ) * (2 ^ 63 / 10 ^ 6) < dblMax := by decide +kernel
      linarith
    · exact m3
  have hmax : ∃ q t, Obs.data q t ∈ s.prog.ping.log ∧ s.prog.coll.maxRtt = binary64 ((t : ℚ) / 10 ^ 6) := by
    rcases M3 with M3 | M3
    · have e := M2 q0 t0 hm0
      rw [M3, show ({} : Coll).maxRtt = 0 from rfl] at e
      exact ⟨q0, t0, hm0, by rw [M3]; exact le_antisymm (nonneg64 _ (by positivity)) e⟩
    · exact M3
  obtain ⟨q1, t1, hm1, e1⟩ := hmin
  obtain ⟨q2, t2, hm2, e2⟩ := hmax
  have p1 : 0 ≤ s.prog.coll.minRtt := by rw [e1]; exact nonneg64 _ (by positivity)
  have p2 : 0 ≤ s.prog.coll.maxRtt := by rw [e2]; exact nonneg64 _ (by positivity)
  have p3 : 0 ≤ binary64 (s.prog.coll.sumRtt / s.prog.coll.nReceived) := by
    refine nonneg64 _ (div_nonneg hsum ?_)
    have : s.prog.coll.nReceived = (nData s.prog.ping.log : Nat) := (C30_accounting (prog_run h)).2.1
    rw [this]; positivity
  obtain ⟨d, hfour⟩ := four_numbers binary64 hv p1 p3 p2
  rw [hfour] at hl
  have err1 : ∀ t : Nat, |shown (binary64 ((t : ℚ) / 10 ^ 6)) - (t : ℚ) / 10 ^ 6| ≤ (t : ℚ) / 10 ^ 6 * (6 / 10 ^ 6) :=
    fun t => shown64_err (by positivity)
  refine ⟨_, _, _, d, hl, shown_mono p1 ?_, ⟨_, hrt _ _ hm1, ?_⟩, ?_, ⟨_, hrt _ _ hm2, ?_⟩, ?_⟩
  · exact (m2 _ _ hm0).trans (M2 _ _ hm0)
  · rw [e1]; exact err1 t1
  · intro x hx
    obtain ⟨q, t, hm, rfl⟩ := hrt' x hx
    refine (shown_mono p1 (m2 q t hm)).trans ?_
    have := (abs_le.1 (err1 t)).2
    linarith
  · rw [e2]; exact err1 t2
  · intro x hx
    obtain ⟨q, t, hm, rfl⟩ := hrt' x hx
    refine le_trans ?_ (shown_mono (nonneg64 _ (by positivity)) (M2 q t hm))
    have := (abs_le.1 (err1 t)).1
    linarith

/-- The hypotheses of C82 hold after two responses, after 1 and 3 milliseconds, and a timeout. -/
example : plainEnv.Plain ∧ ∃ s, (machine binary64 { pre := [], nPings := 3 } plainEnv).Run
      [.ping (.data 0 3000000), .ping .timer, .ping (.data 1 1000000), .ping .timer, .ping (.timeout 2)] s ∧
    s.prog.ping.threw = false ∧ nData s.prog.ping.log ≠ 0 ∧ nData s.prog.ping.log ≤ 10 ^ 9 ∧
    (∀ x ∈ rtts s.prog.ping.log, x ≤ 2 ^ 63 / 10 ^ 6) ∧ items false (s.final binary64 plainEnv) = [.content 0 3, .content 1 1, .timeout 2] ∧
    rttLines (s.final binary64 plainEnv) = [[some 1, some 2, some 3, some 2.58096e-8]] ∧
    totals (s.final binary64 plainEnv) = [⟨3, 2, 0, some 33.3333, some 0⟩] :=
  let M := machine binary64 { pre := [], nPings := 3 } plainEnv
  ⟨plain_plain, _, Machine.exec_run (M := M) (s := (M.exec M.init
      [.ping (.data 0 3000000), .ping .timer, .ping (.data 1 1000000), .ping .timer, .ping (.timeout 2)]).get (by decide +kernel))
      (Option.some_get _).symm,
    by decide +kernel, by decide +kernel, by decide +kernel, by decide +kernel, by decide +kernel, by decide +kernel, by decide +kernel⟩

/-- The error of a sum of up to a thousand million rounded numbers. -/
private theorem sum_err (l : List Obs) (c : Coll) (k : Nat) (T : ℚ) (hT : 0 ≤ T) (hk : k + nData l ≤ 10 ^ 9)
    (hc : |c.sumRtt - T| ≤ T * (3 * k / 2 ^ 53)) :
    |(l.foldl (record binary64) c).sumRtt - (T + (rtts l).sum)| ≤ (T + (rtts l).sum) * (3 * (k + nData l : Nat) / 2 ^ 53) := by
  induction l generalizing c k T with
  | nil => simpa [rtts, nData] using hc
  | cons x l ih =>
    rw [List.foldl_cons]
    have same : (record binary64 c x).sumRtt = c.sumRtt → rtts (x :: l) = rtts l → nData (x :: l) = nData l →
        |(l.foldl (record binary64) (record binary64 c x)).sumRtt - (T + (rtts (x :: l)).sum)| ≤
          (T + (rtts (x :: l)).sum) * (3 * (k + nData (x :: l) : Nat) / 2 ^ 53) := by
      intro e1 e2 e3
      rw [e2, e3]
      exact ih _ k T hT (by rw [e3] at hk; exact hk) (by rw [e1]; exact hc)
    cases x with
    | interest q i => exact same rfl (by simp [rtts]) (by simp [nData])
    | nack q t n => exact same rfl (by simp [rtts]) (by simp [nData])
    | timeout q => exact same rfl (by simp [rtts]) (by simp [nData])
    | finish => exact same rfl (by simp [rtts]) (by simp [nData])
    | data q t =>
      have e1 : (record binary64 c (.data q t)).sumRtt = binary64 (c.sumRtt + binary64 ((t : ℚ) / 10 ^ 6)) := rfl
      have e2 : rtts (.data q t :: l) = (t : ℚ) / 10 ^ 6 :: rtts l := by simp [rtts]
      have e3 : nData (.data q t :: l) = nData l + 1 := by simp [nData]
      have hx : (0 : ℚ) ≤ (t : ℚ) / 10 ^ 6 := by positivity
      rw [e2, e3, List.sum_cons, ← add_assoc, show k + (nData l + 1) = (k + 1) + nData l by omega]
      rw [e3] at hk
      refine ih _ (k + 1) _ (by positivity) (by omega) ?_
      rw [e1]
      generalize (t : ℚ) / 10 ^ 6 = x at *
      have hk' : (k : ℚ) ≤ 10 ^ 9 := by exact_mod_cast (show k ≤ 10 ^ 9 by omega)
      have hk0 : (0 : ℚ) ≤ k := by positivity
      have a1 := binary64_err x
      rw [abs_of_nonneg hx, abs_le] at a1
      have a2 := binary64_err (c.sumRtt + binary64 x)
      rw [abs_le] at hc
      have hTk : T * (3 * k / 2 ^ 53) ≤ T * (1 / 10 ^ 6) := by
        refine mul_le_mul_of_nonneg_left ?_ hT
        rw [div_le_div_iff₀ (by norm_num) (by norm_num)]
        linarith
      have b0 : 0 ≤ c.sumRtt + binary64 x := by
        have : 0 ≤ binary64 x := nonneg64 x hx
        have : 0 ≤ c.sumRtt := by linarith [hc.1]
        linarith
      rw [abs_of_nonneg b0, abs_le] at a2
      have b1 : c.sumRtt + binary64 x ≤ T * (1 + 1 / 10 ^ 6) + x * (1 + 1 / 10 ^ 6) := by linarith [hc.2, a1.2]
      have b2 : T * (3 * (k + 1 : Nat) / 2 ^ 53) = T * (3 * k / 2 ^ 53) + T * (3 / 2 ^ 53) := by push_cast; ring
      have b3 : x * (3 / 2 ^ 53) ≤ x * (3 * (k + 1 : Nat) / 2 ^ 53) := by
        refine mul_le_mul_of_nonneg_left ?_ hx
        push_cast
        rw [div_le_div_iff₀ (by norm_num) (by norm_num)]
        linarith
      rw [abs_le, add_mul, b2]
      constructor <;> linarith [a1.1, a1.2, a2.1, a2.2, hc.1, hc.2]

/-- **C82 (partial: mean)** With up to a thousand million responses, the second number of the line with the round-trip times is the mean of
the round-trip times up to seven millionths of it. -/
theorem C82_mean_partial {o : Opts} {v : Env} (hv : v.Plain) {es s} (h : (machine binary64 o v).Run es s)
    (ht : s.prog.ping.threw = false) (hd : nData s.prog.ping.log ≠ 0) (hn : nData s.prog.ping.log ≤ 10 ^ 9) :
    ∃ a b c d, rttLines (s.final binary64 v) = [[some a, some b, some c, d]] ∧
      let mean := (rtts s.prog.ping.log).sum / (rtts s.prog.ping.log).length
      |b - mean| ≤ mean * (7 / 10 ^ 6) := by
  have hc := (prog_inv (prog_run h)).coll
  obtain ⟨-, -, h3⟩ := final_text nonneg64 hv h
  have hl := (h3 ht).2
  rw [if_neg hd] at hl
  obtain ⟨⟨-, -, m3⟩, M1, -, -⟩ := fold_extremes binary64 s.prog.ping.log {}
  have hsum := sum_nonneg nonneg64 s.prog.ping.log {} (le_refl _)
  have herr := sum_err s.prog.ping.log {} 0 0 (le_refl _) (by omega) (by simp)
  rw [← hc] at m3 M1 hsum herr
  have p1 : 0 ≤ s.prog.coll.minRtt := by
    rcases m3 with m3 | ⟨q, t, -, m3⟩
    · rw [m3]; show 0 ≤ dblMax; decide +kernel
    · rw [m3]; exact nonneg64 _ (by positivity)
  have p2 : 0 ≤ s.prog.coll.maxRtt := M1
  have g2 : s.prog.coll.nReceived = (nData s.prog.ping.log : Nat) := (C30_accounting (prog_run h)).2.1
  have hpos : (0 : ℚ) < nData s.prog.ping.log := by exact_mod_cast Nat.pos_of_ne_zero hd
  have hle : (nData s.prog.ping.log : ℚ) ≤ 10 ^ 9 := by exact_mod_cast hn
  have q1 : 0 ≤ s.prog.coll.sumRtt / s.prog.coll.nReceived := div_nonneg hsum (by rw [g2]; positivity)
  obtain ⟨d, hfour⟩ := four_numbers binary64 hv p1 (nonneg64 _ q1) p2
  rw [hfour] at hl
  refine ⟨_, _, _, d, hl, ?_⟩
  dsimp only
  have hs := shown64_err q1
  rw [rtts_length]
  rw [g2] at hs q1 ⊢
  simp only [zero_add, Int.cast_natCast] at herr hs q1 ⊢
  have hT : 0 ≤ (rtts s.prog.ping.log).sum := List.sum_nonneg (rtts_nonneg _)
  have hm : 0 ≤ (rtts s.prog.ping.log).sum / (nData s.prog.ping.log : ℚ) := by positivity
  have hx : |s.prog.coll.sumRtt / (nData s.prog.ping.log : ℚ) - (rtts s.prog.ping.log).sum / (nData s.prog.ping.log : ℚ)| ≤
      (rtts s.prog.ping.log).sum / (nData s.prog.ping.log : ℚ) * (5 / 10 ^ 7) := by
    rw [← sub_div, abs_div, abs_of_pos hpos, div_mul_eq_mul_div]
    refine div_le_div_of_nonneg_right (herr.trans (mul_le_mul_of_nonneg_left ?_ hT)) hpos.le
    rw [div_le_div_iff₀ (by norm_num) (by norm_num)]
    linarith
  generalize s.prog.coll.sumRtt / (nData s.prog.ping.log : ℚ) = m' at *
  generalize (rtts s.prog.ping.log).sum / (nData s.prog.ping.log : ℚ) = m at *
  rw [abs_le] at hx hs ⊢
  constructor <;> linarith [hx.1, hx.2, hs.1, hs.2]

/-- **C82 (partial: order)** With up to a thousand million responses, the printed average is between the printed minimum and the printed
maximum, up to fourteen millionths of it. -/
theorem C82_order_partial {o : Opts} {v : Env} (hv : v.Plain) {es s} (h : (machine binary64 o v).Run es s)
    (ht : s.prog.ping.threw = false) (hd : nData s.prog.ping.log ≠ 0) (hn : nData s.prog.ping.log ≤ 10 ^ 9)
    (h64 : ∀ x ∈ rtts s.prog.ping.log, x ≤ 2 ^ 63 / 10 ^ 6) :
    ∃ a b c d, rttLines (s.final binary64 v) = [[some a, some b, some c, d]] ∧
      a ≤ b * (1 + 14 / 10 ^ 6) ∧ b * (1 - 14 / 10 ^ 6) ≤ c := by
  obtain ⟨a, b, c, d, hl, -, -, ha, -, hc⟩ := C82_times_partial hv h ht hd h64
  obtain ⟨a', b', c', d', hl', hb⟩ := C82_mean_partial hv h ht hd hn
  rw [hl] at hl'
  injection hl' with hl' _
  injection hl' with e1 hl'
  injection hl' with e2 hl'
  injection hl' with e3 hl'
  injection e1 with e1
  injection e2 with e2
  injection e3 with e3
  subst e1 e2 e3
  refine ⟨a, b, c, d, hl, ?_⟩
  have hpos : (0 : ℚ) < (rtts s.prog.ping.log).length := by
    rw [rtts_length]; exact_mod_cast Nat.pos_of_ne_zero hd
  have l1 := min_le_sum (rtts s.prog.ping.log) (a / (1 + 6 / 10 ^ 6)) (fun x hx => by
    rw [div_le_iff₀ (by norm_num)]; exact ha x hx)
  have l2 := sum_le_max (rtts s.prog.ping.log) (c / (1 - 6 / 10 ^ 6)) (fun x hx => by
    rw [le_div_iff₀ (by norm_num)]; exact hc x hx)
  have hm : 0 ≤ (rtts s.prog.ping.log).sum / (rtts s.prog.ping.log).length :=
    div_nonneg (List.sum_nonneg (rtts_nonneg _)) hpos.le
  rw [mul_comm, ← le_div_iff₀ hpos, div_le_iff₀ (by norm_num)] at l1
  rw [mul_comm, ← div_le_iff₀ hpos, le_div_iff₀ (by norm_num)] at l2
  dsimp only at hb
  generalize (rtts s.prog.ping.log).sum / ((rtts s.prog.ping.log).length : ℚ) = m at *
  rw [abs_le] at hb
  constructor <;> linarith [hb.1, hb.2]

/-- **C82 (partial: average)** If the arithmetic were exact, the printed average would be between the printed minimum and maximum. -/
theorem C82_average_partial {o : Opts} {v : Env} (hv : v.Plain) {es s} (h : (machine id o v).Run es s)
    (ht : s.prog.ping.threw = false) (hd : nData s.prog.ping.log ≠ 0) (hmax : ∀ x ∈ rtts s.prog.ping.log, x ≤ dblMax) :
    ∃ a b c d, rttLines (s.final id v) = [[some a, some b, some c, d]] ∧ a ≤ b ∧ b ≤ c := by
  have hne : rtts s.prog.ping.log ≠ [] := by
    intro he
    have := rtts_length s.prog.ping.log
    rw [he] at this
    exact hd this.symm
  obtain ⟨⟨k1, k2⟩, ⟨k3, k4⟩, k5, k6, k7, k8, -⟩ := C31_statistics (prog_run h) hne hmax
  obtain ⟨-, -, h3⟩ := final_text (r := id) (fun x hx => hx) hv h
  have hl := (h3 ht).2
  rw [if_neg hd] at hl
  have g2 : s.prog.coll.nReceived = (nData s.prog.ping.log : Nat) := (C30_accounting (prog_run h)).2.1
  have havg : s.prog.coll.sumRtt / s.prog.coll.nReceived = (rtts s.prog.ping.log).sum / (rtts s.prog.ping.log).length := by
    rw [show s.prog.coll.sumRtt = (rtts s.prog.ping.log).sum from k5, g2, rtts_length]; simp
  have p1 : 0 ≤ s.prog.coll.minRtt := rtts_nonneg _ _ k1
  have p2 : 0 ≤ s.prog.coll.maxRtt := rtts_nonneg _ _ k3
  rw [← havg] at k7 k8
  have p3 : 0 ≤ id (s.prog.coll.sumRtt / s.prog.coll.nReceived) := le_trans p1 k7
  obtain ⟨d, hfour⟩ := four_numbers id hv p1 p3 p2
  rw [hfour] at hl
  exact ⟨_, _, _, d, hl, shown_mono p1 k7, shown_mono p3 k8⟩

/-- **C82 (the full statement is false: average)** After six responses, all of them after 1.000105 ms, the printed average is
less than the printed minimum. -/
theorem C82_average_refuted : plainEnv.Plain ∧ ∃ s d, (machine binary64 { pre := [], nPings := 6 } plainEnv).Run sixEvents s ∧ s.prog.Exits 0 ∧
    rttLines (s.final binary64 plainEnv) = [[some 1.00011, some 1.0001, some 1.00011, d]] :=
  let M := machine binary64 { pre := [], nPings := 6 } plainEnv
  ⟨plain_plain, _, some 2.58096e-8, Machine.exec_run (M := M) (s := (M.exec M.init sixEvents).get (by decide +kernel)) (Option.some_get _).symm,
    by unfold Prog.Exits; decide +kernel, by decide +kernel⟩

end Verif.PingOutput
