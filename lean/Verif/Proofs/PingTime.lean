import Verif.Spec.PingTime
import Verif.Proofs.PingNet
import Verif.Props.Ping

/-! # Helper lemmas for the ping client with a clock -/

namespace Verif.PingTime

open Ping

theorem fold_ping (r : ℚ → ℚ) (o : Opts) (l : List Obs) (p : Prog) :
    (l.foldl (Prog.onSignal r o) p).ping.log = p.ping.log ∧
    (l.foldl (Prog.onSignal r o) p).ping.pending = p.ping.pending ∧
    ((l.foldl (Prog.onSignal r o) p).ping.timer = true → p.ping.timer = true) := by
  induction l generalizing p with
  | nil => exact ⟨rfl, rfl, id⟩
  | cons x l ih =>
    rw [List.foldl_cons]
    obtain ⟨h1, h2, h3⟩ := ih (p.onSignal r o x)
    rw [h1, h2]
    cases x with
    | finish =>
      have e : (p.onSignal r o .finish).ping = p.ping.step o .stop := rfl
      rw [e] at h3 ⊢
      unfold Ping.St.step at h3 ⊢
      split
      · rename_i hx; rw [if_pos hx] at h3; exact ⟨rfl, rfl, h3⟩
      · rename_i hx; rw [if_neg hx] at h3; exact ⟨rfl, rfl, fun h => by cases h3 h⟩
    | interest q i => exact ⟨rfl, rfl, h3⟩
    | data q t => exact ⟨rfl, rfl, h3⟩
    | nack q t x => exact ⟨rfl, rfl, h3⟩
    | timeout q => exact ⟨rfl, rfl, h3⟩

private theorem fin_change (s : Ping.St) : ∃ l, s.finish.log = s.log ++ l ∧ sent l = [] ∧ s.finish.pending = s.pending ∧
    s.finish.timer = s.timer := by
  unfold Ping.St.finish
  dsimp only
  split
  · exact ⟨[], by simp, rfl, rfl, rfl⟩
  · exact ⟨[.finish], rfl, rfl, rfl, rfl⟩

/-- What `performPing` does to the history. -/
theorem ping_change (o : Opts) (s : Ping.St) :
    (s.performPing o).log = s.log ∧ (s.performPing o).pending = s.pending ∧ (s.performPing o).timer = s.timer ∨
    ∃ l, (s.performPing o).log = s.log ++ l ∧ sent l = [s.nextSeq] ∧ (s.performPing o).pending = s.pending ++ [s.nextSeq] := by
  unfold Ping.St.performPing
  split
  · exact Or.inl ⟨rfl, rfl, rfl⟩
  · split
    · exact Or.inl ⟨rfl, rfl, rfl⟩
    · right
      dsimp only
      split
      · exact ⟨_, rfl, rfl, rfl⟩
      · split
        · exact ⟨_, rfl, rfl, rfl⟩
        · obtain ⟨l, h1, h2, h3, _⟩ := fin_change { s with
            log := s.log ++ [Obs.interest s.nextSeq { name := makePingName o s.nextSeq, mustBeFresh := !o.shouldAllowStaleData }]
            pending := s.pending ++ [s.nextSeq]
            nSent := s.nSent + 1, nextSeq := (s.nextSeq + 1) % 2 ^ 64, nOutstanding := s.nOutstanding + 1 }
          refine ⟨[Obs.interest s.nextSeq { name := makePingName o s.nextSeq, mustBeFresh := !o.shouldAllowStaleData }] ++ l, ?_, ?_, h3⟩
          · rw [h1]; simp
          · rw [sent_append, h2]; rfl

/-- What an event can do: no Interest is sent, or the timer has fired and one is sent. -/
inductive Change (p q : Prog) : PEv → Prop
  | quiet {e : PEv} (l : List Obs) (hl : q.ping.log = p.ping.log ++ l) (hs : sent l = [])
      (ht : q.ping.timer = true → p.ping.timer = true ∧ e ≠ .ping .timer) (hp : ∀ x ∈ q.ping.pending, x ∈ p.ping.pending) : Change p q e
  | send (l : List Obs) (n : Nat) (hl : q.ping.log = p.ping.log ++ l) (hs : sent l = [n])
      (hp : ∀ x ∈ q.ping.pending, x ∈ p.ping.pending ∨ x = n) : Change p q (.ping .timer)

theorem change (r : ℚ → ℚ) (o : Opts) (p : Prog) (e : PEv) (hfl : (p.ping.threw || p.ping.assertFailed || p.ping.ub) = false) :
    Change p (p.step r o e) e := by
  cases e with
  | sigquit => exact .quiet [] (by simp [Prog.step]) rfl (fun h => ⟨h, by simp⟩) (fun x h => h)
  | sigint =>
    have e : (p.step r o .sigint).ping = { p.ping with timer := false } := by
      show p.ping.step o .stop = _
      unfold Ping.St.step
      rw [if_neg (by simp [hfl])]
    refine .quiet [] ?_ rfl ?_ ?_ <;> rw [e]
    · simp
    · intro h; cases h
    · exact fun x h => h
  | ping e =>
    obtain ⟨h1, h2, h3⟩ := fold_ping r o ((p.ping.step o e).log.drop p.ping.log.length) { p with ping := p.ping.step o e }
    have hst : p.step r o (.ping e) =
      ((p.ping.step o e).log.drop p.ping.log.length).foldl (Prog.onSignal r o) { p with ping := p.ping.step o e } := rfl
    rw [← hst] at h1 h2 h3
    dsimp only at h1 h2 h3
    have res : ∀ (s : Ping.St) (x : Obs) (q : Nat), s.log = p.ping.log ++ [x] → sent [x] = [] → s.pending = p.ping.pending.erase q →
        s.timer = p.ping.timer → p.ping.step o e = s.finish → e ≠ .timer → Change p (p.step r o (.ping e)) (.ping e) := by
      intro s x q g1 g2 g3 g4 g5 g6
      obtain ⟨l, f1, f2, f3, f4⟩ := fin_change s
      rw [g5] at h1 h2 h3
      refine .quiet (x :: l) ?_ ?_ ?_ ?_
      · rw [h1, f1, g1]; simp
      · rw [show x :: l = [x] ++ l from rfl, sent_append, g2, f2]; rfl
      · intro h
        have := h3 h
        rw [f4, g4] at this
        exact ⟨this, fun h => g6 (PEv.ping.inj h)⟩
      · rw [h2, f3, g3]; exact fun x h => List.mem_of_mem_erase h
    cases e with
    | stop =>
      refine .quiet [] ?_ rfl ?_ ?_
      · rw [h1, stop_log]; simp
      · intro h
        have := h3 h
        unfold Ping.St.step at this
        rw [if_neg (by simp [hfl])] at this
        cases this
      · rw [h2]
        unfold Ping.St.step
        split <;> exact fun x h => h
    | timer =>
      have e : p.ping.step o .timer = ({ p.ping with timer := false } : Ping.St).performPing o := by
        unfold Ping.St.step; rw [if_neg (by simp [hfl])]
      rw [e] at h1 h2 h3
      rcases ping_change o { p.ping with timer := false } with ⟨g1, g2, g3⟩ | ⟨l, g1, g2, g3⟩
      · refine .quiet [] ?_ rfl ?_ ?_
        · rw [h1, g1]; simp
        · intro h; have := h3 h; rw [g3] at this; cases this
        · rw [h2, g2]; exact fun x h => h
      · refine .send l _ ?_ g2 ?_
        · rw [h1, g1]
        · rw [h2, g3]; intro x h; simpa using h
    | data q t =>
      refine res { p.ping with pending := p.ping.pending.erase q, log := p.ping.log ++ [Obs.data q t] } (Obs.data q t) q rfl rfl rfl rfl ?_ (by simp)
      unfold Ping.St.step; rw [if_neg (by simp [hfl])]
    | nack q t y =>
      refine res { p.ping with pending := p.ping.pending.erase q, log := p.ping.log ++ [Obs.nack q t y] } (Obs.nack q t y) q rfl rfl rfl rfl ?_ (by simp)
      unfold Ping.St.step; rw [if_neg (by simp [hfl])]
    | timeout q =>
      refine res { p.ping with pending := p.ping.pending.erase q, log := p.ping.log ++ [Obs.timeout q] } (Obs.timeout q) q rfl rfl rfl rfl ?_ (by simp)
      unfold Ping.St.step; rw [if_neg (by simp [hfl])]

/-- The first ping. -/
theorem start_change (r : ℚ → ℚ) (o : Opts) :
    (Prog.start r o).ping.log = [] ∧ (Prog.start r o).ping.pending = [] ∧ (Prog.start r o).ping.timer = false ∨
    sent (Prog.start r o).ping.log = [o.startSeq] ∧ (Prog.start r o).ping.pending = [o.startSeq] := by
  obtain ⟨h1, h2, h3⟩ := fold_ping r o (start o).log { ping := start o }
  have e : Prog.start r o = (start o).log.foldl (Prog.onSignal r o) { ping := start o } := rfl
  rw [← e] at h1 h2 h3
  dsimp only at h1 h2 h3
  rw [h1, h2]
  rcases ping_change o { nextSeq := o.startSeq } with ⟨g1, g2, g3⟩ | ⟨l, g1, g2, g3⟩
  · left
    refine ⟨g1, g2, ?_⟩
    cases ht : (Prog.start r o).ping.timer with
    | false => rfl
    | true => have := h3 ht; rw [show (start o).timer = _ from g3] at this; cases this
  · right
    refine ⟨?_, g3⟩
    rw [show (start o).log = _ from g1, List.nil_append]
    exact g2

theorem lookup_mem {l : List (Nat × Nat)} (hn : (l.map Prod.fst).Nodup) {q t : Nat} (h : (q, t) ∈ l) :
    l.lookup q = some t := by
  induction l with
  | nil => cases h
  | cons x l ih =>
    rw [List.map_cons, List.nodup_cons] at hn
    rw [show x :: l = (x.1, x.2) :: l from rfl, List.lookup_cons]
    rcases List.mem_cons.mp h with h | h
    · subst h; simp
    · have : q ≠ x.1 := by
        intro e
        exact hn.1 (by rw [← e]; exact List.mem_map.mpr ⟨_, h, rfl⟩)
      have hb : (q == x.1) = false := by simpa using this
      rw [hb]
      exact ih hn.2 h

theorem mem_lookup {l : List (Nat × Nat)} {q t : Nat} (h : l.lookup q = some t) : (q, t) ∈ l := by
  induction l with
  | nil => cases h
  | cons x l ih =>
    rw [show x :: l = (x.1, x.2) :: l from rfl, List.lookup_cons] at h
    by_cases hb : (q == x.1) = true
    · rw [hb] at h
      have e1 : q = x.1 := by simpa using hb
      have e2 : x.2 = t := by simpa using h
      rw [e1, ← e2]; exact List.mem_cons_self
    · rw [Bool.not_eq_true] at hb
      rw [hb] at h
      exact List.mem_cons_of_mem _ (ih h)

theorem lookup_append {l m : List (Nat × Nat)} {q t : Nat} (h : l.lookup q = some t) : (l ++ m).lookup q = some t := by
  induction l with
  | nil => cases h
  | cons x l ih =>
    rw [show x :: l = (x.1, x.2) :: l from rfl, List.lookup_cons] at h
    rw [List.cons_append, show x :: (l ++ m) = (x.1, x.2) :: (l ++ m) from rfl, List.lookup_cons]
    split at h
    · exact h
    · exact ih h

theorem lookup_none {l : List (Nat × Nat)} {q : Nat} (h : q ∉ l.map Prod.fst) (t : Nat) : (l ++ [(q, t)]).lookup q = some t := by
  induction l with
  | nil => simp
  | cons x l ih =>
    rw [List.map_cons, List.mem_cons, not_or] at h
    have hb : (q == x.1) = false := by simpa using h.1
    rw [List.cons_append, show x :: (l ++ [(q, t)]) = (x.1, x.2) :: (l ++ [(q, t)]) from rfl, List.lookup_cons, hb]
    exact ih h.2

theorem exists_min (l : List Nat) (h : l ≠ []) : ∃ d ∈ l, ∀ x ∈ l, d ≤ x := by
  induction l with
  | nil => exact absurd rfl h
  | cons a l ih =>
    by_cases hl : l = []
    · subst hl; exact ⟨a, by simp, by simp⟩
    · obtain ⟨d, h1, h2⟩ := ih hl
      by_cases hd : d ≤ a
      · exact ⟨d, List.mem_cons_of_mem _ h1, fun x hx => (List.mem_cons.mp hx).elim (fun e => e ▸ hd) (h2 x)⟩
      · refine ⟨a, List.mem_cons_self, fun x hx => (List.mem_cons.mp hx).elim (fun e => e ▸ Nat.le_refl _) (fun hx => ?_)⟩
        have := h2 x hx; omega

/-! ## Invariants of the runs -/

/-- What is known at any time, `I` and `T` being the interval and the timeout in nanoseconds. -/
structure TInv (r : ℚ → ℚ) (o : Opts) (interval : Nat) (es : List Ev) (s : St) : Prop where
  ub : s.ub = false
  run : ∃ es', (progMachine r o).Run es' s.prog ∧ (PEv.sigint ∈ es' ↔ ∃ e ∈ es, e.kind = .sigint) ∧
    (es'.filter (· ≠ .sigquit)).length = (es.filter (·.kind ≠ .sigquit)).length
  keys : s.sends.map Prod.fst = sent s.prog.ping.log
  past : ∀ x ∈ s.sends, x.2 ≤ s.now
  pace : ∀ i j (hi : i < s.sends.length) (hj : j < s.sends.length), i ≤ j →
    (s.sends[i]).2 + (j - i) * ns interval ≤ (s.sends[j]).2
  next : s.prog.ping.timer = true → ∀ i (hi : i < s.sends.length), (s.sends[i]).2 + (s.sends.length - i) * ns interval ≤ s.nextAt
  first : ∀ x, s.sends.head? = some x → x.2 = 0

/-- In addition, if nothing is later than `d`. -/
structure LInv (o : Opts) (interval d : Nat) (s : St) : Prop where
  up : ∀ i (hi : i < s.sends.length), (s.sends[i]).2 ≤ i * (ns interval + d)
  nextUp : s.prog.ping.timer = true → s.nextAt + d ≤ s.sends.length * (ns interval + d)
  lateT : s.prog.ping.timer = true → s.now ≤ s.nextAt + d
  lateP : ∀ q ∈ s.prog.ping.pending, s.now ≤ s.sentAt q + ns o.timeout.toNat + d

theorem goto_quiet {o : Opts} {interval : Nat} {s : St} {q : Prog} {t : Nat} {l : List Obs}
    (hl : q.ping.log = s.prog.ping.log ++ l) (hs : sent l = []) :
    s.goto o interval s.prog.ping.log q t = { s with prog := q, now := t } := by
  unfold St.goto
  rw [hl, List.drop_left, hs]
  simp

theorem goto_send {o : Opts} {interval : Nat} {s : St} {q : Prog} {t n : Nat} {l : List Obs}
    (hl : q.ping.log = s.prog.ping.log ++ l) (hs : sent l = [n])
    (h1 : overflows o.timeout.toNat = false) (h2 : overflows interval = false) :
    s.goto o interval s.prog.ping.log q t =
      { s with prog := q, now := t, nextAt := t + ns interval, sends := s.sends ++ [(n, t)] } := by
  unfold St.goto
  rw [hl, List.drop_left, hs, h1, h2]
  simp

/-- The first state. -/
theorem init_cases (r : ℚ → ℚ) (o : Opts) (interval : Nat)
    (h1 : overflows o.timeout.toNat = false) (h2 : overflows interval = false) (late : Option Nat) :
    (machine late r o interval).init = { prog := Prog.start r o } ∧ (Prog.start r o).ping.timer = false ∧
      (Prog.start r o).ping.pending = [] ∧ sent (Prog.start r o).ping.log = [] ∨
    (machine late r o interval).init = { prog := Prog.start r o, nextAt := ns interval, sends := [(o.startSeq, 0)] } ∧
      (Prog.start r o).ping.pending = [o.startSeq] ∧ sent (Prog.start r o).ping.log = [o.startSeq] := by
  rcases start_change r o with ⟨g1, g2, g3⟩ | ⟨g1, g2⟩
  · left
    refine ⟨?_, g3, g2, by rw [g1]; rfl⟩
    show St.goto o interval _ [] (Prog.start r o) 0 = _
    unfold St.goto
    rw [g1]
    simp [sent]
  · right
    refine ⟨?_, g2, g1⟩
    show St.goto o interval _ [] (Prog.start r o) 0 = _
    unfold St.goto
    rw [List.length_nil, List.drop_zero, g1, h1, h2]
    simp

theorem flags {r : ℚ → ℚ} {o : Opts} (hs : o.startSeq < 2 ^ 64) (hn : o.nPings ≠ 0) (ht : 0 ≤ o.timeout) {es p}
    (h : (progMachine r o).Run es p) (hu : p.ping.ub = false) :
    (p.ping.threw || p.ping.assertFailed || p.ping.ub) = false ∧ Core o p.ping := by
  obtain ⟨es', hr, _⟩ := (prog_inv h).run
  cases run_inv hs hr with
  | ok hc h1 h2 h3 => exact ⟨by simp [h1, h2, h3], hc⟩
  | bad hz _ => exact absurd hz hn
  | thr hz _ => omega
  | ovf _ hu' => rw [hu] at hu'; cases hu'

theorem keys_nodup {r : ℚ → ℚ} {o : Opts} (hs : o.startSeq < 2 ^ 64) {es p}
    (h : (progMachine r o).Run es p) (hu : p.ping.ub = false) :
    (sent p.ping.log).Nodup ∧ ∀ q ∈ p.ping.pending, q ∈ sent p.ping.log := by
  obtain ⟨es', hr, _⟩ := (prog_inv h).run
  refine ⟨(C29_sequence_numbers hs hr hu).2.1, fun q hq => ?_⟩
  exact (C29_one_result hs hr hu).1.mem_iff.mp (List.mem_append_right _ hq)

/-- An overflow does not go away. -/
theorem ub_back {r : ℚ → ℚ} {o : Opts} {p : Prog} {e : PEv} (h : (p.step r o e).ping.ub = false) : p.ping.ub = false := by
  have key : ∀ (s : Ping.St) (e : Ping.Ev), s.ub = true → (s.step o e).ub = true := by
    intro s e hs
    unfold Ping.St.step
    rw [if_pos (by simp [hs])]
    exact hs
  cases hb : p.ping.ub with
  | false => rfl
  | true =>
    exfalso
    cases e with
    | sigquit => rw [show (p.step r o .sigquit).ping = p.ping from rfl, hb] at h; cases h
    | sigint => rw [show (p.step r o .sigint).ping = p.ping.step o .stop from rfl, key _ _ hb] at h; cases h
    | ping e =>
      have fold : ∀ (l : List Obs) (p : Prog), p.ping.ub = true → (l.foldl (Prog.onSignal r o) p).ping.ub = true := by
        intro l
        induction l with
        | nil => exact fun p h => h
        | cons x l ih =>
          intro p hp
          rw [List.foldl_cons]
          refine ih _ ?_
          cases x with
          | finish => exact key _ .stop hp
          | interest q i => exact hp
          | data q t => exact hp
          | nack q t x => exact hp
          | timeout q => exact hp
      have := fold ((p.ping.step o e).log.drop p.ping.log.length) { p with ping := p.ping.step o e } (key _ _ hb)
      rw [show (p.step r o (.ping e)).ping.ub = true from this] at h
      cases h

theorem event_sigint (s : St) (e : Ev) : s.event e = .sigint ↔ e.kind = .sigint := by
  unfold St.event; split <;> simp_all

theorem event_sigquit (s : St) (e : Ev) : s.event e = .sigquit ↔ e.kind = .sigquit := by
  unfold St.event; split <;> simp_all

theorem event_timer (s : St) (e : Ev) : s.event e = .ping .timer ↔ e.kind = .timer := by
  unfold St.event; split <;> simp_all

theorem run_tinv {late : Option Nat} {r : ℚ → ℚ} {o : Opts} {interval : Nat} (hs : o.startSeq < 2 ^ 64) (hn : o.nPings ≠ 0)
    (ht : 0 ≤ o.timeout) (h1 : overflows o.timeout.toNat = false) (h2 : overflows interval = false) {es s}
    (h : (machine late r o interval).Run es s) :
    s.prog.ping.ub = false → TInv r o interval es s ∧ ∀ d ∈ late, LInv o interval d s := by
  induction h with
  | nil =>
    intro hu
    have hrun : (progMachine r o).Run [] (Prog.start r o) := .nil
    rcases init_cases r o interval h1 h2 late with ⟨e, g1, g2, g3⟩ | ⟨e, g2, g3⟩
    · rw [e]
      refine ⟨⟨rfl, ⟨[], hrun, by simp, rfl⟩, by rw [show sent _ = [] from g3]; rfl, by simp, ?_, ?_, by simp⟩, ?_⟩
      · intro i j hi; simp at hi
      · intro hx; rw [show (Prog.start r o).ping.timer = true from hx] at g1; cases g1
      · intro d _
        refine ⟨fun i hi => by simp at hi, ?_, ?_, ?_⟩
        · intro hx; rw [show (Prog.start r o).ping.timer = true from hx] at g1; cases g1
        · intro hx; rw [show (Prog.start r o).ping.timer = true from hx] at g1; cases g1
        · intro q hq; rw [show (Prog.start r o).ping.pending = _ from g2] at hq; cases hq
    · rw [e]
      refine ⟨⟨rfl, ⟨[], hrun, by simp, rfl⟩, by rw [show sent _ = [o.startSeq] from g3]; rfl, by simp, ?_, ?_, by simp⟩, ?_⟩
      · intro i j hi hj hij
        have : i = 0 := by simpa using hi
        have : j = 0 := by simpa using hj
        subst_vars; simp
      · intro _ i hi
        have : i = 0 := by simpa using hi
        subst this; simp
      · intro d _
        refine ⟨?_, ?_, ?_, ?_⟩
        · intro i hi
          have : i = 0 := by simpa using hi
          subst this; simp
        · intro _; simp
        · intro _; simp
        · intro q _; simp
  | snoc e hr he ih =>
    rename_i es s
    intro hu
    have hst : (machine late r o interval).step s e = s.step r o interval e := rfl
    have hen : s.enabled late o e := he
    rw [hst] at hu ⊢
    cases hub : s.ub with
    | true =>
      exfalso
      have : s.step r o interval e = s := by unfold St.step; rw [if_pos hub]
      rw [this] at hu
      have := (ih hu).1.ub
      rw [hub] at this; cases this
    | false =>
      have hstep : s.step r o interval e = s.goto o interval s.prog.ping.log (s.prog.step r o (s.event e)) e.t := by
        unfold St.step; rw [if_neg (by simp [hub])]
      rw [hstep] at hu ⊢
      have hu' : s.prog.ping.ub = false := ub_back (r := r) (o := o) (e := s.event e) hu
      obtain ⟨ti, li⟩ := ih hu'
      obtain ⟨es', hrun, hsig, hlen⟩ := ti.run
      have hrun' : (progMachine r o).Run (es' ++ [s.event e]) (s.prog.step r o (s.event e)) := .snoc _ hrun hen.1
      have hrn : ∃ es'', (progMachine r o).Run es'' (s.prog.step r o (s.event e)) ∧
          (PEv.sigint ∈ es'' ↔ ∃ x ∈ es ++ [e], x.kind = .sigint) ∧
          (es''.filter (· ≠ .sigquit)).length = ((es ++ [e]).filter (·.kind ≠ .sigquit)).length := by
        refine ⟨_, hrun', ?_, ?_⟩
        · rw [List.mem_append, hsig, List.mem_singleton, eq_comm, event_sigint]
          simp only [List.mem_append, List.mem_singleton, or_and_right, exists_or, exists_eq_left]
        · rw [List.filter_append, List.filter_append, List.length_append, List.length_append, hlen]
          congr 1
          by_cases hq : e.kind = .sigquit
          · have := (event_sigquit s e).mpr hq
            simp [hq, this]
          · have : s.event e ≠ .sigquit := fun h => hq ((event_sigquit s e).mp h)
            simp [hq, this]
      have hfl := (flags hs hn ht hrun hu').1
      obtain ⟨hnd, hsub⟩ := keys_nodup hs hrun' hu
      have hnow : s.now ≤ e.t := hen.2.1
      have hkey : ∀ q ∈ s.prog.ping.pending, ∃ t, s.sends.lookup q = some t := by
        intro q hq
        have := (keys_nodup hs hrun hu').2 q hq
        rw [← ti.keys] at this
        obtain ⟨x, hx, rfl⟩ := List.mem_map.mp this
        exact ⟨x.2, lookup_mem (by rw [ti.keys]; exact (keys_nodup hs hrun hu').1) hx⟩
      have hch := change r o s.prog (s.event e) hfl
      generalize hq : s.prog.step r o (s.event e) = q at *
      generalize hev : s.event e = ev at *
      cases hch with
      | quiet l hl hs' ht' hp =>
        rw [goto_quiet hl hs']
        refine ⟨⟨hub, hrn, ?_, ?_, ti.pace, fun hx => ti.next (ht' hx).1, ti.first⟩, ?_⟩
        · show s.sends.map Prod.fst = sent q.ping.log
          rw [ti.keys, hl, sent_append, hs', List.append_nil]
        · intro x hx; exact Nat.le_trans (ti.past x hx) hnow
        · intro d hd
          have ld := li d hd
          exact ⟨ld.up, fun hx => ld.nextUp (ht' hx).1, fun hx => (hen.2.2.2.2 d hd).1 (ht' hx).1,
            fun x hx => (hen.2.2.2.2 d hd).2 x (hp x hx)⟩
      | send l n hl hs' hp =>
        rw [goto_send hl hs' h1 h2]
        have hk : e.kind = .timer := (event_timer s e).mp hev
        have htm : s.prog.ping.timer = true := by have := hen.1; rw [hev] at this; exact this.2.2
        have hdue := hen.2.2.1 hk
        have hlen' : (s.sends ++ [(n, e.t)]).length = s.sends.length + 1 := by simp
        have hkeys : (s.sends ++ [(n, e.t)]).map Prod.fst = sent q.ping.log := by
          rw [List.map_append, ti.keys, hl, sent_append, hs']; rfl
        have hfresh : n ∉ s.sends.map Prod.fst := by
          rw [← hkeys, List.map_append] at hnd
          intro hx
          exact (List.nodup_append.mp hnd).2.2 _ hx n (by simp) rfl
        have hget : ∀ i (hi : i < s.sends.length), (s.sends ++ [(n, e.t)])[i]'(by simp; omega) = s.sends[i] :=
          fun i hi => List.getElem_append_left hi
        have hgetn : ∀ i (hi : i < (s.sends ++ [(n, e.t)]).length), ¬ i < s.sends.length → (s.sends ++ [(n, e.t)])[i] = (n, e.t) := by
          intro i hi hx
          rw [List.getElem_append_right (by omega)]
          simp
        have hlast : ∀ i (hi : i < s.sends.length), (s.sends[i]).2 + (s.sends.length - i) * ns interval ≤ e.t :=
          fun i hi => Nat.le_trans (ti.next htm i hi) hdue
        refine ⟨⟨hub, hrn, hkeys, ?_, ?_, ?_, ?_⟩, ?_⟩
        · intro x hx
          rcases List.mem_append.mp hx with hx | hx
          · exact Nat.le_trans (ti.past x hx) hnow
          · rw [List.mem_singleton] at hx; subst hx; exact Nat.le_refl _
        · intro i j hi hj hij
          dsimp only at hi hj ⊢
          by_cases hj' : j < s.sends.length
          · rw [hget j hj', hget i (by omega)]
            exact ti.pace i j (by omega) hj' hij
          · rw [hgetn j hj hj']
            by_cases hi' : i < s.sends.length
            · rw [hget i hi']
              have : j = s.sends.length := by rw [hlen'] at hj; omega
              subst this
              exact hlast i hi'
            · rw [hgetn i hi hi']
              have : j - i = 0 := by rw [hlen'] at hj hi; omega
              rw [this]; simp
        · intro _ i hi
          dsimp only at hi ⊢
          by_cases hi' : i < s.sends.length
          · rw [hget i hi', hlen']
            have := hlast i hi'
            rw [show s.sends.length + 1 - i = (s.sends.length - i) + 1 from by omega, Nat.succ_mul]
            omega
          · rw [hgetn i hi hi', hlen']
            have : i = s.sends.length := by rw [hlen'] at hi; omega
            subst this
            rw [show s.sends.length + 1 - s.sends.length = 1 from by omega]
            simp
        · intro x hx
          dsimp only at hx
          refine ti.first x ?_
          cases hl : s.sends with
          | nil =>
            exfalso
            have hpos := (flags hs hn ht hrun hu').2.pos
            have hcnt := (flags hs hn ht hrun hu').2.cnt
            rw [← ti.keys, hl] at hcnt
            simp at hcnt
            omega
          | cons a b => rw [hl] at hx; simpa using hx
        · intro d hd
          have ld := li d hd
          have hl1 := (hen.2.2.2.2 d hd).1 htm
          have hl2 := ld.nextUp htm
          refine ⟨?_, ?_, ?_, ?_⟩
          · intro i hi
            dsimp only at hi ⊢
            by_cases hi' : i < s.sends.length
            · rw [hget i hi']; exact ld.up i hi'
            · rw [hgetn i hi hi']
              have : i = s.sends.length := by rw [hlen'] at hi; omega
              subst this
              dsimp only
              omega
          · intro _
            dsimp only
            rw [hlen', Nat.succ_mul]
            omega
          · intro _; dsimp only; omega
          · intro x hx
            rcases hp x hx with hx | hx
            · have := (hen.2.2.2.2 d hd).2 x hx
              obtain ⟨t, ht⟩ := hkey x hx
              have e1 : s.sentAt x = t := by unfold St.sentAt; rw [ht]; rfl
              show e.t ≤ ((s.sends ++ [(n, e.t)]).lookup x).getD 0 + _ + _
              rw [lookup_append ht]
              rw [e1] at this
              exact this
            · subst hx
              show e.t ≤ ((s.sends ++ [(x, e.t)]).lookup x).getD 0 + _ + _
              rw [lookup_none hfresh]
              show e.t ≤ e.t + _ + _
              omega

/-! ## Counting events, and the ends of runs -/

/-- A run with a clock is a run of the program. -/
theorem prog_run {late : Option Nat} {r : ℚ → ℚ} {o : Opts} {interval : Nat} {es s}
    (h : (machine late r o interval).Run es s) : ∃ es', (progMachine r o).Run es' s.prog := by
  induction h with
  | nil => exact ⟨[], .nil⟩
  | snoc e hr he ih =>
    rename_i es s
    have hst : (machine late r o interval).step s e = s.step r o interval e := rfl
    rw [hst]
    obtain ⟨es', hr'⟩ := ih
    unfold St.step
    split
    · exact ⟨es', hr'⟩
    · exact ⟨es' ++ [s.event e], .snoc (M := progMachine r o) _ hr' he.1⟩

/-- The number of events of the ping client in a run of the program. -/
theorem prog_count {r : ℚ → ℚ} {o : Opts} {es : List PEv} {p : Prog} (h : (progMachine r o).Run es p) :
    ∃ es', (Ping.machine o).Run es' p.ping ∧
      (es.filter (· ≠ .sigquit)).length = (es'.filter (· ≠ .stop)).length + (es.filter (· = .sigint)).length := by
  induction h with
  | nil =>
    obtain ⟨k, hk⟩ := (fold_signals r o (start o).log { ping := start o }).2.2.2.2 [] .nil
    exact ⟨_, hk, by simp⟩
  | snoc e h he ih =>
    rename_i es p
    have hstep : (progMachine r o).step p e = p.step r o e := rfl
    rw [hstep]
    obtain ⟨es', hr, hc⟩ := ih
    rw [List.filter_append, List.length_append, List.filter_append, List.length_append, hc]
    cases e with
    | sigquit => exact ⟨es', hr, by simp⟩
    | sigint => exact ⟨_, Machine.Run.snoc (M := Ping.machine o) .stop hr trivial, by simp; omega⟩
    | ping e =>
      have hrun := Machine.Run.snoc (M := Ping.machine o) e hr he.2.2
      obtain ⟨k, hk⟩ := (fold_signals r o ((p.ping.step o e).log.drop p.ping.log.length)
        { p with ping := p.ping.step o e }).2.2.2.2 _ hrun
      refine ⟨_, hk, ?_⟩
      have := he.1
      simp [this]
      omega

theorem one_sigint {r : ℚ → ℚ} {o : Opts} {es : List PEv} {p : Prog} (h : (progMachine r o).Run es p) :
    (es.filter (· = .sigint)).length ≤ 1 := by
  induction h with
  | nil => simp
  | snoc e h he ih =>
    rw [List.filter_append, List.length_append]
    cases e with
    | sigquit => simpa using ih
    | ping e => simpa using ih
    | sigint =>
      have hsg := he.2
      have := ((prog_inv h).sig.mp hsg).1
      have e0 : List.filter (fun x => decide (x = PEv.sigint)) _ = [] :=
        List.filter_eq_nil_iff.mpr (fun a ha => by
          have : a ≠ PEv.sigint := fun e => this (e ▸ ha)
          simpa using this)
      rw [e0]
      simp

/-- As long as the program with a count has not ended, something is going to happen. -/
theorem alive {r : ℚ → ℚ} {o : Opts} (hs : o.startSeq < 2 ^ 64) (hn : 0 < o.nPings) (hm : o.nPings ≤ intMax)
    (ht : 0 ≤ o.timeout) {es p} (h : (progMachine r o).Run es p) :
    p.ping.ub = false ∧ ((∃ n, p.Exits n) ∨ p.ping.timer = true ∨ p.ping.pending ≠ []) ∧
    (p.signals = true → p.ping.timer = true ∨ p.ping.pending ≠ []) ∧ ((sent p.ping.log).length : Int) ≤ o.nPings ∧
    (p.ping.timer = true → ((sent p.ping.log).length : Int) < o.nPings) := by
  have hp := prog_inv h
  obtain ⟨es', hr, hst⟩ := hp.run
  obtain ⟨c1, _, _, c4, _, c6, c7, c8⟩ := C29_count hs hn hm ht hr
  have hsig : p.signals = true → p.ping.timer = true ∨ p.ping.pending ≠ [] := by
    intro hx
    have := hp.sig.mp hx
    exact (c4 (hst this.1 this.2)).resolve_left this.2
  refine ⟨c8, ?_, hsig, c1, ?_⟩
  · by_cases h1 : p.ping.timer = true
    · exact Or.inr (Or.inl h1)
    · by_cases h2 : p.ping.pending = []
      · left
        refine ⟨if p.coll.nReceived = p.coll.nSent then 0 else 1, ?_⟩
        unfold Prog.Exits
        rw [c6]
        refine ⟨c7, c8, h2, by simpa using h1, ?_, rfl⟩
        cases hg : p.signals with
        | false => rfl
        | true => exact ((hsig hg).elim h1 (fun h => absurd h2 h)).elim
      · exact Or.inr (Or.inr h2)
  · intro hx
    have hc := (flags hs (by omega) ht h c8).2
    have h1 := hc.timer hx
    have h2 := hc.cnt
    omega

/-- The deadlines. -/
theorem deadlines {r : ℚ → ℚ} {o : Opts} {interval d : Nat} (hs : o.startSeq < 2 ^ 64) {es s}
    (ti : TInv r o interval es s) (li : LInv o interval d s) (hu : s.prog.ping.ub = false) (n : Nat)
    (hlen : s.sends.length ≤ n) (hlt : s.prog.ping.timer = true → s.sends.length < n) :
    (s.prog.ping.timer = true → s.nextAt + d ≤ (n - 1) * (ns interval + d)) ∧
    ∀ q ∈ s.prog.ping.pending, s.sentAt q ≤ (n - 1) * (ns interval + d) := by
  obtain ⟨es', hrun, _⟩ := ti.run
  obtain ⟨hnd, hsub⟩ := keys_nodup hs hrun hu
  refine ⟨fun hx => Nat.le_trans (li.nextUp hx) (Nat.mul_le_mul_right _ (by have := hlt hx; omega)), ?_⟩
  intro q hq
  have := hsub q hq
  rw [← ti.keys] at this
  obtain ⟨x, hx, rfl⟩ := List.mem_map.mp this
  have e1 : s.sends.lookup x.1 = some x.2 := lookup_mem (by rw [ti.keys]; exact hnd) hx
  have e2 : s.sentAt x.1 = x.2 := by unfold St.sentAt; rw [e1]; rfl
  rw [e2]
  obtain ⟨i, hi, rfl⟩ := List.getElem_of_mem hx
  exact Nat.le_trans (li.up i hi) (Nat.mul_le_mul_right _ (by omega))

/-- The next event of a program that waits for a timer. -/
theorem next_event {o : Opts} {interval d : Nat} {s : St} (li : LInv o interval d s) (hth : s.prog.ping.threw = false)
    (h : s.prog.ping.timer = true ∨ s.prog.ping.pending ≠ []) :
    ∃ e : Ev, s.enabled (some d) o e ∧ (e.kind = .timer ∨ ∃ q ∈ s.prog.ping.pending, e.kind = .timeout q) := by
  obtain ⟨m, hm, hmin⟩ := exists_min ((if s.prog.ping.timer then [s.nextAt] else []) ++
      s.prog.ping.pending.map (fun q => s.sentAt q + ns o.timeout.toNat)) (by
    rcases h with h | h
    · rw [h]; simp
    · intro hx
      have := (List.append_eq_nil_iff.mp hx).2
      exact h (by simpa using this))
  have hT : s.prog.ping.timer = true → m ≤ s.nextAt := by
    intro hx; refine hmin _ (List.mem_append_left _ ?_); rw [hx]; simp
  have hP : ∀ q ∈ s.prog.ping.pending, m ≤ s.sentAt q + ns o.timeout.toNat := by
    intro q hq; exact hmin _ (List.mem_append_right _ (List.mem_map.mpr ⟨q, hq, rfl⟩))
  have hlate : ∀ d' ∈ some d, (s.prog.ping.timer = true → max s.now m ≤ s.nextAt + d') ∧
      ∀ q ∈ s.prog.ping.pending, max s.now m ≤ s.sentAt q + ns o.timeout.toNat + d' := by
    intro d' hd
    cases hd
    refine ⟨fun hx => ?_, fun q hq => ?_⟩
    · have h1 := li.lateT hx; have h2 := hT hx; omega
    · have h1 := li.lateP q hq; have h2 := hP q hq; omega
  rcases List.mem_append.mp hm with hm | hm
  · have htm : s.prog.ping.timer = true := by
      cases hx : s.prog.ping.timer with
      | true => rfl
      | false => rw [hx] at hm; simp at hm
    rw [htm] at hm
    have hm : m = s.nextAt := by simpa using hm
    refine ⟨⟨.timer, max s.now m⟩, ⟨⟨by simp, hth, htm⟩, Nat.le_max_left _ _, ?_, ?_, hlate⟩, Or.inl rfl⟩
    · intro _; rw [hm]; exact Nat.le_max_right _ _
    · intro q _ hx; cases hx
  · obtain ⟨q, hq, hm⟩ := List.mem_map.mp hm
    refine ⟨⟨.timeout q, max s.now m⟩, ⟨⟨by simp, hth, hq⟩, Nat.le_max_left _ _, ?_, ?_, hlate⟩, Or.inr ⟨q, hq, rfl⟩⟩
    · intro hx; cases hx
    · intro q' _ hx
      cases hx
      rw [← hm]; exact Nat.le_max_right _ _

/-- Nothing happens later than the time of the last event. -/
theorem times_le {late : Option Nat} {r : ℚ → ℚ} {o : Opts} {interval : Nat} {es s}
    (h : (machine late r o interval).Run es s) : s.ub = false → ∀ e ∈ es, e.t ≤ s.now := by
  induction h with
  | nil => intro _ e he; cases he
  | snoc e hr he ih =>
    rename_i es s
    have hst : (machine late r o interval).step s e = s.step r o interval e := rfl
    rw [hst]
    intro hu
    have hub : s.ub = false := by
      cases hb : s.ub with
      | false => rfl
      | true => unfold St.step at hu; rw [if_pos hb, hb] at hu; cases hu
    have hnow : (s.step r o interval e).now = e.t := by
      unfold St.step; rw [if_neg (by simp [hub])]; rfl
    rw [hnow]
    intro x hx
    rcases List.mem_append.mp hx with hx | hx
    · exact Nat.le_trans (ih hub x hx) he.2.1
    · rw [List.mem_singleton] at hx; subst hx; exact Nat.le_refl _

end Verif.PingTime
