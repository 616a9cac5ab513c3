import Verif.Proofs.PingOutput
import Verif.Proofs.Binary64
import Verif.Props.Ping

/-! # What ndnping prints -/

namespace Verif.PingOutput

open Ping

theorem nonneg64 (x : ℚ) (hx : 0 ≤ x) : 0 ≤ binary64 x := by
  have h := binary64_err x
  rw [abs_of_nonneg hx, abs_le] at h
  have : x / 2 ^ 53 ≤ x := div_le_self hx (by norm_num)
  linarith [h.1]

/-- Rounding twice. -/
theorem shown64_err {x : ℚ} (hx : 0 ≤ x) : |shown (binary64 x) - x| ≤ x * (6 / 10 ^ 6) := by
  have h1 := binary64_err x
  have h2 := shown_err (nonneg64 x hx)
  rw [abs_of_nonneg hx] at h1
  rw [abs_le] at *
  have : x / 2 ^ 53 ≤ x * (1 / 10 ^ 7) := by
    rw [div_eq_mul_inv]
    exact mul_le_mul_of_nonneg_left (by norm_num) hx
  constructor <;> nlinarith [h1.1, h1.2, h2.1, h2.2]

theorem final_text {r : ℚ → ℚ} (hr : ∀ x, 0 ≤ x → 0 ≤ r x) {o : Opts} {v : Env} (hv : v.Plain) {es s}
    (h : (machine r o v).Run es s) :
    items v.stamps (s.final r v) = s.prog.ping.log.filterMap (itemOf r) ∧
    (s.prog.ping.threw = true → totals (s.final r v) = []) ∧
    (s.prog.ping.threw = false →
      totals (s.final r v) = [⟨(results s.prog.ping.log).length, nData s.prog.ping.log, nNack s.prog.ping.log,
        if (results s.prog.ping.log).length = 0 then none else some (shown (r (lossRate r s.prog.coll * 100))),
        if (results s.prog.ping.log).length = 0 then none else some (shown (r (nackedRate r s.prog.coll * 100)))⟩] ∧
      rttLines (s.final r v) =
        if nData s.prog.ping.log = 0 then [] else [(split 47 (timesWord r v s.prog.coll)).map readNumber]) := by
  obtain ⟨a, a1, a2, a3, a4⟩ := out_text hr hv h
  obtain ⟨g1, g2, g3, g4, -, -⟩ := C30_accounting (prog_run h)
  have g1' : s.prog.coll.nSent = ((results s.prog.ping.log).length : Nat) := by rw [← g4]; exact g1
  have g2' : s.prog.coll.nReceived = (nData s.prog.ping.log : Nat) := g2
  have g3' : s.prog.coll.nNacked = (nNack s.prog.ping.log : Nat) := g3
  obtain ⟨b, b1, b2, b3, b4⟩ := full_text hr hv g1' g2' g3' (by omega)
  unfold St.final
  cases ht : s.prog.ping.threw with
  | true =>
    simp only [if_true, List.append_nil]
    refine ⟨by rw [a1.items, a2], fun _ => by rw [a1.totals, a3], fun h => by cases h⟩
  | false =>
    rw [if_neg Bool.false_ne_true]
    have ab := a1.append b1
    refine ⟨?_, fun h => (by cases h), fun _ => ⟨?_, ?_⟩⟩
    · rw [ab.items, List.filterMap_append, a2, b2, List.append_nil]
    · rw [ab.totals, List.filterMap_append, a3, b3]; rfl
    · rw [ab.rtts, List.filterMap_append, a4, b4]; rfl

theorem count_items (r : ℚ → ℚ) (l : List Obs) :
    (l.filterMap (itemOf r)).length = (results l).length ∧
    (l.filterMap (itemOf r)).countP Item.isContent = nData l ∧ (l.filterMap (itemOf r)).countP Item.isNack = nNack l ∧
    (l.filterMap (itemOf r)).countP Item.isTimeout = nTimeout l := by
  induction l with
  | nil => exact ⟨rfl, rfl, rfl, rfl⟩
  | cons x l ih =>
    obtain ⟨h1, h2, h3, h4⟩ := ih
    unfold results nData nNack nTimeout at *
    cases x with
    | interest q i => exact ⟨h1, h2, h3, h4⟩
    | finish => exact ⟨h1, h2, h3, h4⟩
    | data q t =>
      exact ⟨congrArg (· + 1) h1, by rw [List.countP_cons_of_pos rfl, ← h2]; exact List.countP_cons_of_pos rfl, h3, h4⟩
    | nack q t n =>
      exact ⟨congrArg (· + 1) h1, h2, by rw [List.countP_cons_of_pos rfl, ← h3]; exact List.countP_cons_of_pos rfl, h4⟩
    | timeout q =>
      exact ⟨congrArg (· + 1) h1, h2, h3, by rw [List.countP_cons_of_pos rfl, ← h4]; exact List.countP_cons_of_pos rfl⟩

/-- **C81** At any time, and also when it is finished, the output has exactly one line for each result of a ping so far, in
their order: with the same sequence number, the kind of the result, and the reason of a Nack, and with the round-trip time, up to
six millionths of it. -/
theorem C81_lines {o : Opts} {v : Env} (hv : v.Plain) {es s} (h : (machine binary64 o v).Run es s) :
    List.Forall₂ Says (s.prog.ping.log.filter fun x => x.result.isSome) (items v.stamps (s.final binary64 v)) := by
  rw [(final_text nonneg64 hv h).1]
  have ht : ∀ t : Nat, |shown (binary64 ((t : ℚ) / 10 ^ 6)) - (t : ℚ) / 10 ^ 6| ≤ (t : ℚ) / 10 ^ 6 * (6 / 10 ^ 6) :=
    fun t => shown64_err (by positivity)
  generalize s.prog.ping.log = l
  induction l with
  | nil => exact .nil
  | cons x l ih =>
    cases x with
    | interest q i => exact ih
    | finish => exact ih
    | data q t => exact List.Forall₂.cons (Says.content q t _ (ht t)) ih
    | timeout q => exact List.Forall₂.cons (Says.timeout q) ih
    | nack q t n =>
      have : Says (.nack q t n) (.nack q (shown (binary64 ((t : ℚ) / 10 ^ 6))) (reasonText n)) := by
        cases n with
        | none => exact Says.nack q t _ _ "None" (ht t) (by simp [reasons])
        | congestion => exact Says.nack q t _ _ "Congestion" (ht t) (by simp [reasons])
        | duplicate => exact Says.nack q t _ _ "Duplicate" (ht t) (by simp [reasons])
        | noRoute => exact Says.nack q t _ _ "NoRoute" (ht t) (by simp [reasons])
      exact List.Forall₂.cons this ih

/-- **C81 (totals)** The output of a program that has not failed ends with one line of totals, and its numbers are the numbers of
lines of the same output: all lines about pings, those with content, those with a Nack. -/
theorem C81_totals {o : Opts} {v : Env} (hv : v.Plain) {es s} (h : (machine binary64 o v).Run es s)
    (ht : s.prog.ping.threw = false) :
    ∃ t, totals (s.final binary64 v) = [t] ∧
      t.sent = (items v.stamps (s.final binary64 v)).length ∧
      t.received = (items v.stamps (s.final binary64 v)).countP Item.isContent ∧
      t.nacked = (items v.stamps (s.final binary64 v)).countP Item.isNack := by
  obtain ⟨h1, -, h3⟩ := final_text nonneg64 hv h
  obtain ⟨c1, c2, c3, -⟩ := count_items binary64 s.prog.ping.log
  refine ⟨_, (h3 ht).1, ?_, ?_, ?_⟩
  · rw [h1, c1]
  · rw [h1, c2]
  · rw [h1, c3]

/-- **C81 (exit status)** The status tells the same as the lines: 0 if all of them are about content, 1 if not, and there is at least
one line; 2 if there is no line of totals. -/
theorem C81_status {o : Opts} (hs : o.startSeq < 2 ^ 64) (hn : o.nPings ≠ 0) {v : Env} (hv : v.Plain) {es s}
    (h : (machine binary64 o v).Run es s) {n : Nat} (hx : s.prog.Exits n) :
    (n = 2 ↔ totals (s.final binary64 v) = []) ∧
    (n = 0 ↔ items v.stamps (s.final binary64 v) ≠ [] ∧ ∀ i ∈ items v.stamps (s.final binary64 v), i.isContent = true) ∧
    n ≤ 2 := by
  obtain ⟨h1, h2, h3⟩ := final_text nonneg64 hv h
  obtain ⟨c1, c2, c3, c4⟩ := count_items binary64 s.prog.ping.log
  rw [← h1] at c1 c2 c3 c4
  generalize items v.stamps (s.final binary64 v) = its at *
  obtain ⟨e1, e2⟩ := C30_exit hs hn (prog_run h) hx
  obtain ⟨g1, g2, g3, g4, -, -⟩ := C30_accounting (prog_run h)
  have hall : (∀ i ∈ its, i.isContent = true) ↔ its.countP Item.isContent = its.length := by
    rw [List.countP_eq_length]
  unfold Prog.Exits at hx
  cases ht : s.prog.ping.threw with
  | true =>
    rw [ht] at hx
    have h2' : n = 2 := hx
    refine ⟨⟨fun _ => h2 ht, fun _ => h2'⟩, ?_, by omega⟩
    constructor
    · intro h0; omega
    · intro ⟨hne, _⟩
      exfalso
      obtain ⟨es', hr', -⟩ := (prog_inv (prog_run h)).1
      have hneg : o.timeout < 0 := e1.1 h2'
      cases run_inv hs hr' with
      | bad hz _ => exact hn hz
      | thr hz e =>
        have : results s.prog.ping.log = [] := by rw [e]; rfl
        rw [this] at c1
        exact hne (List.eq_nil_of_length_eq_zero c1)
      | ovf _ _ _ hth => rw [ht] at hth; cases hth
      | ok _ hth => rw [ht] at hth; cases hth
  | false =>
    rw [ht] at hx
    simp only [Bool.false_eq_true, if_false] at hx
    obtain ⟨-, -, -, -, -, hn'⟩ := hx
    have hn2 : n ≠ 2 := by rw [hn']; split <;> omega
    obtain ⟨k1, k2, k3⟩ := e2 hn2
    have g1' : s.prog.coll.nSent = ((results s.prog.ping.log).length : Nat) := by rw [← g4]; exact g1
    refine ⟨⟨fun h => absurd h hn2, ?_⟩, ?_, by rw [hn']; split <;> omega⟩
    · intro h; rw [(h3 ht).1] at h; cases h
    · rw [hall, c1, c2]
      have hlen : (results s.prog.ping.log).length = (sent s.prog.ping.log).length := by omega
      rw [hlen, k3]
      constructor
      · intro h0
        split at h0
        · rename_i hd
          refine ⟨?_, hd⟩
          intro he; rw [he] at c1; simp at c1; omega
        · cases h0
      · intro ⟨_, hd⟩
        rw [if_pos hd]

private theorem rate_err (k n : Nat) :
    |shown (binary64 (binary64 ((k : ℚ) / n) * 100)) - 100 * k / n| ≤ 100 * k / n * (6 / 10 ^ 6) := by
  have hx : (0 : ℚ) ≤ (k : ℚ) / n := by positivity
  have h1 := binary64_err ((k : ℚ) / n)
  have hy := nonneg64 _ hx
  have h2 := binary64_err (binary64 ((k : ℚ) / n) * 100)
  have h3 := shown_err (nonneg64 _ (mul_nonneg hy (by norm_num : (0 : ℚ) ≤ 100)))
  rw [show (100 : ℚ) * k / n = 100 * ((k : ℚ) / n) by ring]
  generalize (k : ℚ) / n = x at *
  generalize binary64 x = y at *
  rw [abs_of_nonneg hx] at h1
  rw [abs_of_nonneg (mul_nonneg hy (by norm_num : (0 : ℚ) ≤ 100))] at h2
  generalize binary64 (y * 100) = z at *
  have e1 : x / 2 ^ 53 ≤ x * (1 / 10 ^ 9) := by
    rw [div_eq_mul_inv]; exact mul_le_mul_of_nonneg_left (by norm_num) hx
  have e2 : y * 100 / 2 ^ 53 ≤ y * 100 * (1 / 10 ^ 9) := by
    rw [div_eq_mul_inv]
    exact mul_le_mul_of_nonneg_left (by norm_num) (mul_nonneg hy (by norm_num))
  rw [abs_le] at *
  constructor <;> nlinarith [h1.1, h1.2, h2.1, h2.2, h3.1, h3.2]

/-- **C81 (percentages)** If there is at least one line about a ping, the line of totals tells the shares of the timeouts and of the
Nacks among them, up to six millionths of them. So "0% lost" means that there is no timeout. -/
theorem C81_percent {o : Opts} {v : Env} (hv : v.Plain) {es s} (h : (machine binary64 o v).Run es s)
    (ht : s.prog.ping.threw = false) (hne : items v.stamps (s.final binary64 v) ≠ []) :
    let its := items v.stamps (s.final binary64 v)
    ∃ t x y, totals (s.final binary64 v) = [t] ∧ t.lostPercent = some x ∧ t.nackedPercent = some y ∧
      |x - 100 * its.countP Item.isTimeout / its.length| ≤ 100 * its.countP Item.isTimeout / its.length * (6 / 10 ^ 6) ∧
      |y - 100 * its.countP Item.isNack / its.length| ≤ 100 * its.countP Item.isNack / its.length * (6 / 10 ^ 6) ∧
      (x = 0 ↔ its.countP Item.isTimeout = 0) ∧ (y = 0 ↔ its.countP Item.isNack = 0) := by
  dsimp only
  obtain ⟨h1, -, h3⟩ := final_text nonneg64 hv h
  obtain ⟨c1, c2, c3, c4⟩ := count_items binary64 s.prog.ping.log
  rw [← h1] at c1 c2 c3 c4
  generalize items v.stamps (s.final binary64 v) = its at *
  obtain ⟨g1, g2, g3, g4, -, -⟩ := C30_accounting (prog_run h)
  have g1' : s.prog.coll.nSent = ((results s.prog.ping.log).length : Nat) := by rw [← g4]; exact g1
  have g2' : s.prog.coll.nReceived = (nData s.prog.ping.log : Nat) := g2
  have g3' : s.prog.coll.nNacked = (nNack s.prog.ping.log : Nat) := g3
  have hpos : 0 < its.length := List.length_pos_of_ne_nil hne
  have hl : lossRate binary64 s.prog.coll = binary64 (((its.countP Item.isTimeout : Nat) : ℚ) / its.length) := by
    unfold lossRate
    rw [g1', g2', g3', c1, c4]
    congr 1
    rw [show (((results s.prog.ping.log).length : Int) - nData s.prog.ping.log - nNack s.prog.ping.log)
      = ((nTimeout s.prog.ping.log : Nat) : Int) by omega]
    simp
  have hk : nackedRate binary64 s.prog.coll = binary64 (((its.countP Item.isNack : Nat) : ℚ) / its.length) := by
    unfold nackedRate
    rw [g1', g3', c1, c3]
    simp
  have zero : ∀ (x : ℚ) (k : Nat), |x - 100 * k / its.length| ≤ 100 * k / its.length * (6 / 10 ^ 6) → (x = 0 ↔ k = 0) := by
    intro x k hx
    have hq : (0 : ℚ) < its.length := by exact_mod_cast hpos
    constructor
    · rintro rfl
      rcases Nat.eq_zero_or_pos k with h0 | h0
      · exact h0
      · exfalso
        have hk : (0 : ℚ) < k := by exact_mod_cast h0
        have : (0 : ℚ) < 100 * k / its.length := by positivity
        rw [zero_sub, abs_neg, abs_of_pos this] at hx
        linarith
    · rintro rfl
      simpa using hx
  have hlost := rate_err (its.countP Item.isTimeout) its.length
  have hnack := rate_err (its.countP Item.isNack) its.length
  exact ⟨_, _, _, (h3 ht).1, by dsimp only; rw [if_neg (by omega), hl], by dsimp only; rw [if_neg (by omega), hk], hlost, hnack,
    zero _ _ hlost, zero _ _ hnack⟩

/-- An execution with every kind of result, a SIGQUIT and timestamps. -/
private def demoEnv : Env := { uri := text "/a", stamps := true, time := fun i => text "20261117T10150" ++ decimal i }
private def demoEvents : List PEv :=
  [.ping (.data 0 1000105), .sigquit, .ping .timer, .ping .timer, .ping (.timeout 1), .ping (.nack 2 55000 .noRoute)]

private theorem demo_plain : demoEnv.Plain where
  uri := by decide +kernel
  time := by
    intro i
    have hd : Word (text "20261117T10150") := by unfold Word; decide +kernel
    exact Word.append hd (Word.nat i)
  nan := by decide +kernel
  slash := by decide +kernel

/-- The hypotheses of C81 hold for this output. -/
example : demoEnv.Plain ∧ ∃ s, (machine binary64 { pre := [], nPings := 3 } demoEnv).Run demoEvents s ∧ s.prog.Exits 1 ∧
    s.final binary64 demoEnv = text ("PING /a\n20261117T101501 - content from /a: seq=0 time=1.00011 ms\n" ++
      "1/1 packets, 0% lost, 0% nacked, min/avg/max/mdev = 1.00011/1.00011/1.00011/0 ms\n" ++
      "20261117T101504 - timeout from /a: seq=1\n20261117T101505 - nack from /a: seq=2 time=0.055 ms reason=NoRoute\n" ++
      "\n--- /a ping statistics ---\n" ++
      "3 packets transmitted, 1 received, 1 nacked, 33.3333% lost, 33.3333% nacked, time 1.00011 ms\n" ++
      "rtt min/avg/max/mdev = 1.00011/1.00011/1.00011/0 ms\n") ∧
    items true (s.final binary64 demoEnv) = [.content 0 1.00011, .timeout 1, .nack 2 0.055 (text "NoRoute")] ∧
    totals (s.final binary64 demoEnv) = [⟨3, 1, 1, some 33.3333, some 33.3333⟩] :=
  let M := machine binary64 { pre := [], nPings := 3 } demoEnv
  ⟨demo_plain, _, Machine.exec_run (M := M) (s := (M.exec M.init demoEvents).get (by decide +kernel)) (Option.some_get _).symm,
    by unfold Prog.Exits; decide +kernel, by decide +kernel, by decide +kernel, by decide +kernel⟩

end Verif.PingOutput
