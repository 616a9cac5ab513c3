import Verif.Proofs.PingTime
import Verif.Model.Cli

/-! # C80: the times at which the ping client acts -/

namespace Verif.PingTime

open Ping

private theorem range_over {o : Opts} {interval : Nat} (hr : InRange o interval) :
    overflows o.timeout.toNat = false ∧ overflows interval = false := by
  have h1 := hr.timeoutNs
  have h2 := hr.intervalNs
  unfold overflows ns
  simp
  omega

/-- **C80 (partial: pace)** If the durations do not overflow: the first ping is sent at once, and each ping at least the interval
after the one before, at whatever times the events happen. -/
theorem C80_pace_partial {late : Option Nat} {r : ℚ → ℚ} {o : Opts} {interval : Nat} (hr : InRange o interval) {es s}
    (h : (machine late r o interval).Run es s) (hu : s.prog.ping.ub = false) :
    s.ub = false ∧ s.sends.map Prod.fst = sent s.prog.ping.log ∧
    (∀ x, s.sends[0]? = some x → x = (o.startSeq, 0)) ∧
    (∀ i j (hi : i < s.sends.length) (hj : j < s.sends.length), i ≤ j →
      (s.sends[i]).2 + (j - i) * (interval * 1000000) ≤ (s.sends[j]).2) ∧
    (∀ x ∈ s.sends, x.2 ≤ s.now) ∧ ∀ e ∈ es, e.t ≤ s.now := by
  obtain ⟨g1, g2⟩ := range_over hr
  obtain ⟨ti, _⟩ := run_tinv hr.seq hr.count hr.timeout g1 g2 h hu
  refine ⟨ti.ub, ti.keys, ?_, ti.pace, ti.past, times_le h ti.ub⟩
  intro x hx
  obtain ⟨es', hrun, _⟩ := ti.run
  have hc := (flags hr.seq hr.count hr.timeout hrun hu).2
  have h0 := ti.first x (by rw [← hx]; exact List.head?_eq_getElem?)
  have h1 : (sent s.prog.ping.log)[0]? = some x.1 := by rw [← ti.keys, List.getElem?_map, hx]; rfl
  have hlen : 0 < (sent s.prog.ping.log).length := by
    by_contra hl
    rw [List.getElem?_eq_none (by omega)] at h1
    cases h1
  rw [hc.seqs, List.getElem?_map, List.getElem?_range hlen] at h1
  have h2 : (o.startSeq + 0) % 2 ^ 64 = x.1 := by simpa using h1
  have h3 := hr.seq
  have : x.1 = o.startSeq := by omega
  exact Prod.ext this h0

/-- **C80 (partial: measured times)** The round-trip time that is reported for a Data or a Nack is the time from the sending of this
ping to the arrival, and a timeout is reported when the timeout has passed since the sending of the ping, not earlier. If
timers fire at most `d` nanoseconds late, no reported time is greater than the timeout plus `d`. -/
theorem C80_times_partial {late : Option Nat} {r : ℚ → ℚ} {o : Opts} {interval : Nat} (hr : InRange o interval) {es s}
    (h : (machine late r o interval).Run es s) (hu : s.prog.ping.ub = false) :
    (∀ q x, Obs.data q x ∈ s.prog.ping.log → ∃ t ts, ⟨.data q, t⟩ ∈ es ∧ (q, ts) ∈ s.sends ∧ t = ts + x ∧
      ∀ d ∈ late, x ≤ o.timeout.toNat * 1000000 + d) ∧
    (∀ q x y, Obs.nack q x y ∈ s.prog.ping.log → ∃ t ts, ⟨.nack q y, t⟩ ∈ es ∧ (q, ts) ∈ s.sends ∧ t = ts + x ∧
      ∀ d ∈ late, x ≤ o.timeout.toNat * 1000000 + d) ∧
    (∀ q, Obs.timeout q ∈ s.prog.ping.log → ∃ t ts, ⟨.timeout q, t⟩ ∈ es ∧ (q, ts) ∈ s.sends ∧
      ts + o.timeout.toNat * 1000000 ≤ t ∧ ∀ d ∈ late, t ≤ ts + o.timeout.toNat * 1000000 + d) := by
  obtain ⟨g1, g2⟩ := range_over hr
  induction h with
  | nil =>
    have hno : ∀ x ∈ (Prog.start r o).ping.log, x.result = none := by
      intro x hx
      rw [show (Prog.start r o).ping.log = (start o).log from (fold_ping r o _ _).1] at hx
      have hre : results (start o).log = [] := by
        unfold start
        by_cases hc : o.nPings < 0 ∨ 0 < o.nPings
        · rw [(ping_sent (o := o) (s := { nextSeq := o.startSeq }) hc hr.timeout).2]; rfl
        · exact absurd (by omega) hr.count
      cases hy : x.result with
      | none => rfl
      | some q =>
        have : q ∈ results (start o).log := List.mem_filterMap.mpr ⟨x, hx, hy⟩
        rw [hre] at this; cases this
    refine ⟨fun q x hx => ?_, fun q x y hx => ?_, fun q hx => ?_⟩ <;> (have := hno _ hx; cases this)
  | snoc e hrun he ih =>
    rename_i es s
    have hst : (machine late r o interval).step s e = s.step r o interval e := rfl
    have hen : s.enabled late o e := he
    have hti := (run_tinv hr.seq hr.count hr.timeout g1 g2 (.snoc e hrun he) hu).1
    rw [hst] at hu hti ⊢
    have hub : s.ub = false := by
      cases hb : s.ub with
      | false => rfl
      | true =>
        have := hti.ub
        unfold St.step at this
        rw [if_pos hb, hb] at this; cases this
    have hstep : s.step r o interval e = s.goto o interval s.prog.ping.log (s.prog.step r o (s.event e)) e.t := by
      unfold St.step; rw [if_neg (by simp [hub])]
    have hu' : s.prog.ping.ub = false := by
      rw [hstep] at hu
      exact ub_back (r := r) (o := o) (e := s.event e) hu
    obtain ⟨ih1, ih2, ih3⟩ := ih hu'
    have ti := (run_tinv hr.seq hr.count hr.timeout g1 g2 hrun hu').1
    obtain ⟨es', hrun', _⟩ := ti.run
    obtain ⟨hnd, hsub⟩ := keys_nodup hr.seq hrun' hu'
    have hmono : ∀ x ∈ s.sends, x ∈ (s.step r o interval e).sends := by
      rw [hstep]; exact fun x hx => List.mem_append_left _ hx
    have hlog : (s.step r o interval e).prog.ping.log = (s.prog.step r o (s.event e)).ping.log := by rw [hstep]; rfl
    have hsent : ∀ q ∈ s.prog.ping.pending, (q, s.sentAt q) ∈ s.sends ∧ s.sentAt q ≤ e.t := by
      intro q hq
      have := hsub q hq
      rw [← ti.keys] at this
      obtain ⟨x, hx, rfl⟩ := List.mem_map.mp this
      have e1 : s.sends.lookup x.1 = some x.2 := lookup_mem (by rw [ti.keys]; exact hnd) hx
      have e2 : s.sentAt x.1 = x.2 := by unfold St.sentAt; rw [e1]; rfl
      rw [e2]
      exact ⟨hx, Nat.le_trans (ti.past x hx) hen.2.1⟩
    rw [hlog]
    refine ⟨fun q x hx => ?_, fun q x y hx => ?_, fun q hx => ?_⟩
    · rcases PingNet.prog_mem hx with hx | hx | ⟨_, _, hx⟩ | ⟨e', he', hx⟩
      · obtain ⟨t, ts, a, b, c, d⟩ := ih1 q x hx
        exact ⟨t, ts, List.mem_append_left _ a, hmono _ b, c, d⟩
      · cases hx
      · cases hx
      · have hk : e.kind = .data q ∧ x = e.t - s.sentAt q := by
          cases e' <;> cases hx
          unfold St.event at he'
          split at he' <;> cases he'
          rename_i hk
          exact ⟨hk, rfl⟩
        have hq : q ∈ s.prog.ping.pending := by
          have := hen.1
          unfold St.event at this
          rw [hk.1] at this
          exact this.2.2
        obtain ⟨k1, k2⟩ := hsent q hq
        refine ⟨e.t, s.sentAt q, ?_, hmono _ k1, by omega, ?_⟩
        · rw [← hk.1]; simp
        · intro d hd
          have : e.t ≤ s.sentAt q + o.timeout.toNat * 1000000 + d := (hen.2.2.2.2 d hd).2 q hq
          omega
    · rcases PingNet.prog_mem hx with hx | hx | ⟨_, _, hx⟩ | ⟨e', he', hx⟩
      · obtain ⟨t, ts, a, b, c, d⟩ := ih2 q x y hx
        exact ⟨t, ts, List.mem_append_left _ a, hmono _ b, c, d⟩
      · cases hx
      · cases hx
      · have hk : e.kind = .nack q y ∧ x = e.t - s.sentAt q := by
          cases e' <;> cases hx
          unfold St.event at he'
          split at he' <;> cases he'
          rename_i hk
          exact ⟨hk, rfl⟩
        have hq : q ∈ s.prog.ping.pending := by
          have := hen.1
          unfold St.event at this
          rw [hk.1] at this
          exact this.2.2
        obtain ⟨k1, k2⟩ := hsent q hq
        refine ⟨e.t, s.sentAt q, ?_, hmono _ k1, by omega, ?_⟩
        · rw [← hk.1]; simp
        · intro d hd
          have : e.t ≤ s.sentAt q + o.timeout.toNat * 1000000 + d := (hen.2.2.2.2 d hd).2 q hq
          omega
    · rcases PingNet.prog_mem hx with hx | hx | ⟨_, _, hx⟩ | ⟨e', he', hx⟩
      · obtain ⟨t, ts, a, b, c⟩ := ih3 q hx
        exact ⟨t, ts, List.mem_append_left _ a, hmono _ b, c⟩
      · cases hx
      · cases hx
      · have hk : e.kind = .timeout q := by
          cases e' <;> cases hx
          unfold St.event at he'
          split at he' <;> cases he'
          rename_i hk
          exact hk
        have hq : q ∈ s.prog.ping.pending := by
          have := hen.1
          unfold St.event at this
          rw [hk] at this
          exact this.2.2
        obtain ⟨k1, k2⟩ := hsent q hq
        refine ⟨e.t, s.sentAt q, ?_, hmono _ k1, hen.2.2.2.1 q hq hk, ?_⟩
        · rw [← hk]; simp
        · intro d hd
          exact (hen.2.2.2.2 d hd).2 q hq

/-- A program with a count acts before the bound. -/
private theorem acts {r : ℚ → ℚ} {o : Opts} {interval d : Nat} (hr : InRange o interval) (hn : 0 < o.nPings)
    (hm : o.nPings ≤ intMax) {es s} (h : (machine (some d) r o interval).Run es s) {e : Ev} (he : s.enabled (some d) o e) :
    e.t ≤ bound o interval d := by
  obtain ⟨g1, g2⟩ := range_over hr
  obtain ⟨es', hp⟩ := prog_run h
  obtain ⟨hu, _, hsig, hle, hlt⟩ := alive hr.seq hn hm hr.timeout hp
  obtain ⟨ti, li⟩ := run_tinv hr.seq hr.count hr.timeout g1 g2 h hu
  have li := li d rfl
  have hlen : s.sends.length = (sent s.prog.ping.log).length := by rw [← ti.keys, List.length_map]
  obtain ⟨d1, d2⟩ := deadlines hr.seq ti li hu o.nPings.toNat (by omega) (fun hx => by have := hlt hx; omega)
  have hsome : s.prog.ping.timer = true ∨ s.prog.ping.pending ≠ [] := by
    have hen := he.1
    unfold St.event at hen
    split at hen
    · exact Or.inl hen.2.2
    · exact Or.inr (List.ne_nil_of_mem hen.2.2)
    · exact Or.inr (List.ne_nil_of_mem hen.2.2)
    · exact Or.inr (List.ne_nil_of_mem hen.2.2)
    · exact hsig hen.2
    · exact hsig hen.2
  unfold bound
  obtain ⟨l1, l2⟩ := he.2.2.2.2 d rfl
  have e1 : ns interval = interval * 1000000 := rfl
  have e2 : ns o.timeout.toNat = o.timeout.toNat * 1000000 := rfl
  rw [e1] at d1 d2
  rw [e2] at l2
  rcases hsome with hx | hx
  · have := l1 hx
    have := d1 hx
    omega
  · obtain ⟨q, hq⟩ := List.exists_mem_of_ne_nil _ hx
    have := l2 q hq
    have := d2 q hq
    omega

/-- **C80 (partial: the end)** If timers fire at most `d` nanoseconds late: a program with a count ends, by itself or by SIGINT,
not later than the bound: everything happens before it, as long as the program has not ended some timer is going to fire
before it, and apart from SIGQUIT there are at most two events for each ping. -/
theorem C80_ends_partial {r : ℚ → ℚ} {o : Opts} {interval d : Nat} (hr : InRange o interval) (hn : 0 < o.nPings)
    (hm : o.nPings ≤ intMax) {es s} (h : (machine (some d) r o interval).Run es s) :
    (∀ e ∈ es, e.t ≤ bound o interval d) ∧
    ((∃ n, s.prog.Exits n) ∨ ∃ e : Ev, s.enabled (some d) o e ∧ e.t ≤ bound o interval d ∧
      (e.kind = .timer ∨ ∃ q, e.kind = .timeout q)) ∧
    (es.filter (·.kind ≠ .sigquit)).length ≤ 2 * o.nPings.toNat := by
  obtain ⟨g1, g2⟩ := range_over hr
  refine ⟨?_, ?_, ?_⟩
  · induction h with
    | nil => intro e he; cases he
    | snoc e hrun he ih =>
      intro x hx
      rcases List.mem_append.mp hx with hx | hx
      · exact ih x hx
      · rw [List.mem_singleton] at hx; subst hx; exact acts hr hn hm hrun he
  · obtain ⟨es', hp⟩ := prog_run h
    obtain ⟨hu, hal, _⟩ := alive hr.seq hn hm hr.timeout hp
    obtain ⟨ti, li⟩ := run_tinv hr.seq hr.count hr.timeout g1 g2 h hu
    rcases hal with hx | hx
    · exact Or.inl hx
    · right
      have hfl := (flags hr.seq hr.count hr.timeout hp hu).1
      simp only [Bool.or_eq_false_iff] at hfl
      obtain ⟨e, he, hk⟩ := next_event (li d rfl) hfl.1.1 hx
      exact ⟨e, he, acts hr hn hm h he, hk.imp_right (fun ⟨q, _, hq⟩ => ⟨q, hq⟩)⟩
  · obtain ⟨_, hp⟩ := prog_run h
    obtain ⟨hu, _⟩ := alive hr.seq hn hm hr.timeout hp
    obtain ⟨es', hp, _, hlen⟩ := (run_tinv hr.seq hr.count hr.timeout g1 g2 h hu).1.run
    obtain ⟨es'', hrun, hc⟩ := prog_count hp
    have h1 := one_sigint hp
    have h2 := (C29_count hr.seq hn hm hr.timeout hrun).2.2.2.2.1
    omega

/-- **C80 (partial: SIGINT)** After SIGINT no ping is sent, and, if timers fire at most `d` nanoseconds late, with and without a
count the program ends not later than the timeout after it. -/
theorem C80_sigint_partial {r : ℚ → ℚ} {o : Opts} {interval d : Nat} (hr : InRange o interval) {es s}
    (h : (machine (some d) r o interval).Run es s) (hu : s.prog.ping.ub = false) {t : Nat} (ht : ⟨.sigint, t⟩ ∈ es) :
    (∀ x ∈ s.sends, x.2 ≤ t) ∧
    (∀ e ∈ es, e.t ≤ t + o.timeout.toNat * 1000000 + d) ∧
    ((∃ n, s.prog.Exits n) ∨ ∃ e : Ev, s.enabled (some d) o e ∧ e.t ≤ t + o.timeout.toNat * 1000000 + d ∧
      ∃ q, e.kind = .timeout q) := by
  obtain ⟨g1, g2⟩ := range_over hr
  have after : ∀ {es s}, (machine (some d) r o interval).Run es s → s.prog.ping.ub = false → ⟨.sigint, t⟩ ∈ es →
      (∀ x ∈ s.sends, x.2 ≤ t) → s.prog.signals = false ∧ s.prog.ping.timer = false ∧
        ∀ e, s.enabled (some d) o e → (∃ q, e.kind = .timeout q ∨ e.kind = .data q ∨ ∃ y, e.kind = .nack q y) ∧
          e.t ≤ t + o.timeout.toNat * 1000000 + d := by
    intro es s h hu ht hx
    have ti := (run_tinv hr.seq hr.count hr.timeout g1 g2 h hu).1
    obtain ⟨es', hp, hsi, _⟩ := ti.run
    have hfl := (flags hr.seq hr.count hr.timeout hp hu).1
    simp only [Bool.or_eq_false_iff] at hfl
    have hsg : s.prog.signals = false := by
      cases hg : s.prog.signals with
      | false => rfl
      | true => exact absurd (hsi.mpr ⟨_, ht, rfl⟩) ((prog_inv hp).sig.mp hg).1
    have htm := PingNet.cancelled hp ⟨hfl.1.1, hfl.1.2, hfl.2⟩ hsg
    refine ⟨hsg, htm, fun e he => ?_⟩
    have pend : ∀ q ∈ s.prog.ping.pending, e.t ≤ t + o.timeout.toNat * 1000000 + d := by
      intro q hq
      obtain ⟨hnd, hsub⟩ := keys_nodup hr.seq hp hu
      have := hsub q hq
      rw [← ti.keys] at this
      obtain ⟨x, hx', rfl⟩ := List.mem_map.mp this
      have e1 : s.sends.lookup x.1 = some x.2 := lookup_mem (by rw [ti.keys]; exact hnd) hx'
      have e2 : s.sentAt x.1 = x.2 := by unfold St.sentAt; rw [e1]; rfl
      have := (he.2.2.2.2 d rfl).2 x.1 hq
      rw [e2] at this
      have := hx x hx'
      have e3 : ns o.timeout.toNat = o.timeout.toNat * 1000000 := rfl
      omega
    have hen := he.1
    unfold St.event at hen
    split at hen
    · have := hen.2.2
      rw [show s.prog.ping.enabled .timer = (s.prog.ping.timer = true) from rfl, htm] at this
      cases this
    · rename_i q hk; exact ⟨⟨q, Or.inr (Or.inl hk)⟩, pend q hen.2.2⟩
    · rename_i q y hk; exact ⟨⟨q, Or.inr (Or.inr ⟨y, hk⟩)⟩, pend q hen.2.2⟩
    · rename_i q hk; exact ⟨⟨q, Or.inl hk⟩, pend q hen.2.2⟩
    · have := hen.2; rw [hsg] at this; cases this
    · have := hen.2; rw [hsg] at this; cases this
  have main : (∀ x ∈ s.sends, x.2 ≤ t) ∧ ∀ e ∈ es, e.t ≤ t + o.timeout.toNat * 1000000 + d := by
    induction h with
    | nil => cases ht
    | snoc e hrun he ih =>
      rename_i es s
      have hst : (machine (some d) r o interval).step s e = s.step r o interval e := rfl
      have hti := (run_tinv hr.seq hr.count hr.timeout g1 g2 (.snoc e hrun he) hu).1
      rw [hst] at hu hti ⊢
      have hub : s.ub = false := by
        cases hb : s.ub with
        | false => rfl
        | true =>
          have := hti.ub
          unfold St.step at this
          rw [if_pos hb, hb] at this; cases this
      have hstep : s.step r o interval e = s.goto o interval s.prog.ping.log (s.prog.step r o (s.event e)) e.t := by
        unfold St.step; rw [if_neg (by simp [hub])]
      have hu' : s.prog.ping.ub = false := by
        rw [hstep] at hu
        exact ub_back (r := r) (o := o) (e := s.event e) hu
      have ti := (run_tinv hr.seq hr.count hr.timeout g1 g2 hrun hu').1
      have quiet : e.kind ≠ .timer → (s.step r o interval e).sends = s.sends := by
        intro hk
        rw [hstep]
        obtain ⟨_, hp, _⟩ := ti.run
        have hfl := (flags hr.seq hr.count hr.timeout hp hu').1
        have hch := change r o s.prog (s.event e) hfl
        generalize hq : s.prog.step r o (s.event e) = q at *
        generalize hev : s.event e = ev at *
        cases hch with
        | quiet l hl hs' _ _ => rw [goto_quiet hl hs']
        | send l n hl hs' _ => exact absurd ((event_timer s e).mp hev) hk
      by_cases hold : ⟨.sigint, t⟩ ∈ es
      · obtain ⟨i1, i2⟩ := ih hu' hold
        obtain ⟨_, _, hev⟩ := after hrun hu' hold i1
        obtain ⟨⟨q, hk⟩, hle⟩ := hev e he
        refine ⟨?_, ?_⟩
        · rw [quiet (by rcases hk with hk | hk | ⟨y, hk⟩ <;> rw [hk] <;> simp)]
          exact i1
        · intro x hx
          rcases List.mem_append.mp hx with hx | hx
          · exact i2 x hx
          · rw [List.mem_singleton] at hx; subst hx; exact hle
      · have hee : e = ⟨.sigint, t⟩ := by
          rcases List.mem_append.mp ht with hx | hx
          · exact absurd hx hold
          · exact (List.mem_singleton.mp hx).symm
        subst hee
        refine ⟨?_, ?_⟩
        · rw [quiet (by simp)]
          exact fun x hx => Nat.le_trans (ti.past x hx) he.2.1
        · intro x hx
          rcases List.mem_append.mp hx with hx | hx
          · have h1 := times_le hrun hub x hx
            have h2 : s.now ≤ t := he.2.1
            omega
          · rw [List.mem_singleton] at hx; subst hx
            show t ≤ t + _ + _
            omega
  refine ⟨main.1, main.2, ?_⟩
  obtain ⟨hsg, htm, hev⟩ := after h hu ht main.1
  obtain ⟨ti, li⟩ := run_tinv hr.seq hr.count hr.timeout g1 g2 h hu
  obtain ⟨_, hp, _⟩ := ti.run
  have hfl := (flags hr.seq hr.count hr.timeout hp hu).1
  simp only [Bool.or_eq_false_iff] at hfl
  by_cases hpe : s.prog.ping.pending = []
  · left
    refine ⟨if s.prog.coll.nReceived = s.prog.coll.nSent then 0 else 1, ?_⟩
    unfold Prog.Exits
    rw [hfl.1.1]
    exact ⟨hfl.1.2, hfl.2, hpe, htm, hsg, rfl⟩
  · right
    obtain ⟨e, he, hk⟩ := next_event (li d rfl) hfl.1.1 (Or.inr hpe)
    refine ⟨e, he, (hev e he).2, ?_⟩
    rcases hk with hk | ⟨q, _, hk⟩
    · have := he.1
      rw [(event_timer s e).mpr hk] at this
      rw [show s.prog.enabled (.ping .timer) = (_ ∧ _ ∧ s.prog.ping.timer = true) from rfl, htm] at this
      cases this.2.2
    · exact ⟨q, hk⟩

/-- **C80 (the full statement is false)** An interval or a timeout of 9223372036855 ms or more, which the command line accepts, is
undefined behaviour when the first ping is sent. -/
theorem C80_refuted {late : Option Nat} {r : ℚ → ℚ} {o : Opts} {interval : Nat} (hn : o.nPings ≠ 0) (ht : 0 ≤ o.timeout)
    (hb : 9223372036855 ≤ o.timeout ∨ o.nPings ≠ 1 ∧ 9223372036855 ≤ interval) :
    (machine late r o interval).init.ub = true := by
  have hc : o.nPings < 0 ∨ (0 : Int) < o.nPings := by omega
  have hsn : sent (Prog.start r o).ping.log = [o.startSeq] := by
    rcases start_change r o with ⟨g1, _⟩ | ⟨g1, _⟩
    · exfalso
      rw [show (Prog.start r o).ping.log = (start o).log from (fold_ping r o _ _).1] at g1
      have := (ping_sent (o := o) (s := { nextSeq := o.startSeq }) hc ht).1
      rw [show ({ nextSeq := o.startSeq : Ping.St }.performPing o).log = [] from g1] at this
      cases this
    · exact g1
  have htm : o.nPings ≠ 1 → (Prog.start r o).ping.timer = true := by
    intro h1
    have e : start o = {
        nextSeq := (o.startSeq + 1) % 2 ^ 64
        nSent := 1
        nOutstanding := 1
        pending := [o.startSeq]
        timer := true
        log := [Obs.interest o.startSeq { name := makePingName o o.startSeq, mustBeFresh := !o.shouldAllowStaleData }] } := by
      unfold start Ping.St.performPing
      rw [if_neg (not_not_intro hc), if_neg (by omega)]
      dsimp only
      rw [if_neg (by unfold intMax; omega), if_pos (by omega)]
      rfl
    unfold Prog.start
    rw [e]
    rfl
  show (St.goto o interval _ [] (Prog.start r o) 0).ub = true
  unfold St.goto
  rw [List.length_nil, List.drop_zero, hsn]
  have hov : (overflows o.timeout.toNat || ((Prog.start r o).ping.timer && overflows interval)) = true := by
    rcases hb with hb | ⟨h1, hb⟩
    · have : overflows o.timeout.toNat = true := by
        unfold overflows ns
        simp
        omega
      rw [this]; rfl
    · have : overflows interval = true := by
        unfold overflows ns
        simp
        omega
      rw [this, htm h1]; simp
  simp only [List.map_cons, List.map_nil, List.isEmpty_cons, hov]
  rfl

/-- **C80 (command line)** What the command line can bring about: the interval is at least 1 ms, and the hypotheses of
the statements above are met if the timeout is not negative and both durations are less than 9223372036855 ms; the command
line accepts greater ones as well. -/
theorem C80_command_line {lib : Cli.Lib} {seq : Nat} {a : Cli.PingArgs} {o : Opts} {interval : Nat} (hs : seq < 2 ^ 64)
    (ha : ∀ n ∈ a.start, n < 2 ^ 64) (h : Cli.ping lib seq (some a) = .run (o, interval)) :
    (interval : Int) = a.interval ∧ o.timeout = a.timeout ∧ 1 ≤ interval ∧ o.nPings = a.count.getD (-1) ∧
    (0 ≤ a.timeout → a.timeout < 9223372036855 → a.interval < 9223372036855 → InRange o interval) := by
  have key : (interval : Int) = a.interval ∧ o.timeout = a.timeout ∧ 1 ≤ interval ∧ o.nPings = a.count.getD (-1) ∧
      o.nPings ≠ 0 ∧ o.startSeq = a.start.getD seq := by
    unfold Cli.ping at h
    dsimp only at h
    split at h; · cases h
    split at h; · cases h
    split at h; · cases h
    split at h; · cases h
    split at h; · cases h
    rename_i hi
    split at h; · cases h
    rename_i hc
    have hc' : a.count.getD (-1) ≠ 0 := by
      cases hx : a.count with
      | none => simp
      | some n => rw [hx] at hc; simp at hc ⊢; omega
    split at h
    · cases h
      exact ⟨by omega, rfl, by omega, rfl, hc', rfl⟩
    · split at h
      · cases h
      · split at h
        · cases h
        · cases h
          exact ⟨by omega, rfl, by omega, rfl, hc', rfl⟩
  obtain ⟨k1, k2, k3, k4, k5, k6⟩ := key
  refine ⟨k1, k2, k3, k4, fun h1 h2 h3 => ⟨?_, k5, by omega, by omega, by omega⟩⟩
  rw [k6]
  cases hx : a.start with
  | none => simpa using hs
  | some n => simpa using ha n hx

/-- Two pings, one second apart; the second one is answered after 0.2 s, the first one times out after 4 s. -/
private def sample : Opts := { pre := [⟨8, [65]⟩], nPings := 2, startSeq := 7 }

example : InRange sample 1000 := ⟨by decide, by decide, by decide, by decide, by decide⟩

example : ∃ s, (machine (some 5000) id sample 1000).Run
    [⟨.timer, 1000000100⟩, ⟨.data 8, 1200000100⟩, ⟨.timeout 7, 4000003000⟩] s ∧
    s.sends = [(7, 0), (8, 1000000100)] ∧ results s.prog.ping.log = [8, 7] ∧ Obs.data 8 200000000 ∈ s.prog.ping.log ∧
    s.prog.Exits 1 ∧ bound sample 1000 5000 = 5000010000 :=
  let M := machine (some 5000) id sample 1000
  ⟨_, Machine.exec_run (M := M) (s := (M.exec M.init
      [⟨.timer, 1000000100⟩, ⟨.data 8, 1200000100⟩, ⟨.timeout 7, 4000003000⟩]).get (by decide +kernel))
    (Option.some_get _).symm, by decide +kernel, by decide +kernel, by decide +kernel,
    by unfold Prog.Exits; decide +kernel, by decide +kernel⟩

/-- SIGINT in between. -/
example : ∃ s, (machine (some 5000) id sample 1000).Run [⟨.sigint, 500000000⟩, ⟨.data 7, 600000000⟩] s ∧
    s.sends = [(7, 0)] ∧ s.prog.Exits 0 :=
  let M := machine (some 5000) id sample 1000
  ⟨_, Machine.exec_run (M := M) (s := (M.exec M.init [⟨.sigint, 500000000⟩, ⟨.data 7, 600000000⟩]).get (by decide +kernel))
    (Option.some_get _).symm, by decide +kernel, by unfold Prog.Exits; decide +kernel⟩

/-- The command line accepts an interval of 9223372036855 ms. -/
example : ∃ o, Cli.ping ⟨fun _ => some [], fun _ => true, fun _ => none, fun _ => none, fun _ => true, fun _ => true, fun _ => true⟩ 3
    (some { pre := some "/", interval := 9223372036855 }) = .run (o, 9223372036855) ∧ o.nPings ≠ 0 ∧ 0 ≤ o.timeout ∧ o.nPings ≠ 1 :=
  ⟨_, rfl, by decide, by decide, by decide⟩

end Verif.PingTime
