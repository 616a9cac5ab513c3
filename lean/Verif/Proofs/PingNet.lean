import Verif.Spec.PingNet
import Verif.Proofs.PingStats
import Mathlib.Data.List.Perm.Subperm

/-! # Lemmas about `ndnping` and `ndnpingserver` with a network between them -/

namespace Verif.PingNet

open Ping (sent results nData nNack nTimeout)

/-! ## The client -/

/-- The entry of the history that an event makes. -/
def obsOf : Ping.Ev → Option Ping.Obs
  | .data q t => some (.data q t)
  | .nack q t r => some (.nack q t r)
  | .timeout q => some (.timeout q)
  | _ => none

private theorem mem_finish {s : Ping.St} {x : Ping.Obs} (h : x ∈ s.finish.log) : x ∈ s.log ∨ x = .finish := by
  unfold Ping.St.finish at h
  dsimp only at h
  split at h
  · exact Or.inl h
  · simpa using h

theorem step_mem {c : Ping.Opts} {s : Ping.St} {e : Ping.Ev} {x : Ping.Obs} (h : x ∈ (s.step c e).log) :
    x ∈ s.log ∨ x = .finish ∨ (∃ q i, x = .interest q i) ∨ obsOf e = some x := by
  unfold Ping.St.step at h
  split at h
  · exact Or.inl h
  · cases e with
    | stop => exact Or.inl h
    | timer =>
      dsimp only at h
      unfold Ping.St.performPing at h
      split at h
      · exact Or.inl h
      · split at h
        · exact Or.inl h
        · have key : ∀ y : Ping.Obs, y ∈ s.log ++ [Ping.Obs.interest s.nextSeq
              { name := Ping.makePingName c s.nextSeq, mustBeFresh := !c.shouldAllowStaleData }] →
              y ∈ s.log ∨ y = .finish ∨ (∃ q i, y = .interest q i) ∨ obsOf .timer = some y := by
            intro y hy
            rcases List.mem_append.mp hy with hy | hy
            · exact Or.inl hy
            · exact Or.inr (Or.inr (Or.inl ⟨_, _, by simpa using hy⟩))
          dsimp only at h
          split at h
          · exact key _ h
          · split at h
            · exact key _ h
            · rcases mem_finish h with h | h
              · exact key _ h
              · exact Or.inr (Or.inl h)
    | data q t =>
      rcases mem_finish h with h | h
      · rcases List.mem_append.mp h with h | h
        · exact Or.inl h
        · exact Or.inr (Or.inr (Or.inr (by rw [List.mem_singleton.mp h]; rfl)))
      · exact Or.inr (Or.inl h)
    | nack q t r =>
      rcases mem_finish h with h | h
      · rcases List.mem_append.mp h with h | h
        · exact Or.inl h
        · exact Or.inr (Or.inr (Or.inr (by rw [List.mem_singleton.mp h]; rfl)))
      · exact Or.inr (Or.inl h)
    | timeout q =>
      rcases mem_finish h with h | h
      · rcases List.mem_append.mp h with h | h
        · exact Or.inl h
        · exact Or.inr (Or.inr (Or.inr (by rw [List.mem_singleton.mp h]; rfl)))
      · exact Or.inr (Or.inl h)

/-- The client's history after an event is that of the ping component. -/
theorem prog_log (r : ℚ → ℚ) (c : Ping.Opts) (p : Ping.Prog) (e : Ping.PEv) :
    (p.step r c e).ping.log = match e with
      | .ping e => (p.ping.step c e).log
      | _ => p.ping.log := by
  cases e with
  | ping e => exact (Ping.fold_signals r c _ _).2.1
  | sigint => exact Ping.stop_log c p.ping
  | sigquit => rfl

theorem prog_ext (r : ℚ → ℚ) (c : Ping.Opts) (p : Ping.Prog) (e : Ping.PEv) :
    ∃ l, (p.step r c e).ping.log = p.ping.log ++ l := by
  rw [prog_log]
  cases e with
  | ping e => exact Ping.step_ext c p.ping e
  | sigint => exact ⟨[], by simp⟩
  | sigquit => exact ⟨[], by simp⟩

theorem prog_mem {r : ℚ → ℚ} {c : Ping.Opts} {p : Ping.Prog} {e : Ping.PEv} {x : Ping.Obs}
    (h : x ∈ (p.step r c e).ping.log) :
    x ∈ p.ping.log ∨ x = .finish ∨ (∃ q i, x = .interest q i) ∨ ∃ e', e = .ping e' ∧ obsOf e' = some x := by
  rw [prog_log] at h
  cases e with
  | ping e =>
    rcases step_mem h with h | h | h | h
    · exact Or.inl h
    · exact Or.inr (Or.inl h)
    · exact Or.inr (Or.inr (Or.inl h))
    · exact Or.inr (Or.inr (Or.inr ⟨e, rfl, h⟩))
  | sigint => exact Or.inl h
  | sigquit => exact Or.inl h

/-! ## The server -/

/-- The names of the Interests received. -/
def recv (l : List PingServer.Obs) : List Name := l.filterMap fun x => match x with | .received n => some n | _ => none

theorem recv_append (l m : List PingServer.Obs) : recv (l ++ m) = recv l ++ recv m := by simp [recv]

theorem recv_length (l : List PingServer.Obs) : nReceived l = (recv l).length := by
  induction l with
  | nil => rfl
  | cons x l ih =>
    unfold nReceived recv at *
    cases x <;> simp [ih]

theorem mem_recv {l : List PingServer.Obs} {n : Name} : n ∈ recv l ↔ PingServer.Obs.received n ∈ l := by
  unfold recv
  rw [List.mem_filterMap]
  constructor
  · rintro ⟨x, hx, hn⟩
    cases x with
    | received m => simp only [Option.some.injEq] at hn; rw [← hn]; exact hx
    | reply d => cases hn
    | finish => cases hn
  · intro h; exact ⟨_, h, rfl⟩

structure SInv (o : PingServer.Opts) (s : PingServer.St) : Prop where
  rep : ∀ d, PingServer.Obs.reply d ∈ s.log → d.name ∈ recv s.log ∧ d.freshness = o.freshnessPeriod ∧
    d.content = List.replicate o.payloadSize 0x61
  rev : ∀ n ∈ recv s.log, ∃ d, PingServer.Obs.reply d ∈ s.log ∧ d.name = n
  cnt : s.nPings = (recv s.log).length % 2 ^ 64
  fin : (recv s.log).length < 2 ^ 64 → 0 < o.nMaxPings → o.nMaxPings ≤ (recv s.log).length →
    s.registered = false ∧ PingServer.Obs.finish ∈ s.log

theorem interest_log (o : PingServer.Opts) (s : PingServer.St) (i : Interest) :
    (∃ l, (s.step o (.interest i)).log = s.log ++ [.received i.name, .reply (PingServer.reply o i)] ++ l ∧
      (l = [] ∨ l = [.finish])) ∧
    recv (s.step o (.interest i)).log = recv s.log ++ [i.name] := by
  have key : ∃ l, (s.step o (.interest i)).log = s.log ++ [.received i.name, .reply (PingServer.reply o i)] ++ l ∧
      (l = [] ∨ l = [.finish]) := by
    show ∃ l, (s.onInterest o i).log = _ ∧ _
    unfold PingServer.St.onInterest
    dsimp only
    split
    · exact ⟨_, rfl, Or.inr rfl⟩
    · exact ⟨[], by simp, Or.inl rfl⟩
  refine ⟨key, ?_⟩
  obtain ⟨l, hl, hl'⟩ := key
  rw [hl, recv_append, recv_append]
  rcases hl' with rfl | rfl <;> simp [recv]

theorem server_inv {o : PingServer.Opts} {es s} (h : (PingServer.machine o).Run es s) : SInv o s := by
  refine h.invariant ?_ ?_
  · refine ⟨?_, ?_, rfl, ?_⟩
    · intro d hd; cases hd
    · intro n hn; cases hn
    · intro _ h1 h2
      have : (recv (PingServer.machine o).init.log).length = 0 := rfl
      omega
  · intro s e ih _
    rw [show (PingServer.machine o).step = PingServer.St.step o from rfl]
    cases e with
    | sigint => exact ⟨ih.rep, ih.rev, ih.cnt, fun h1 h2 h3 => ⟨rfl, (ih.fin h1 h2 h3).2⟩⟩
    | interest i =>
      obtain ⟨⟨l, hl, hl'⟩, hr⟩ := interest_log o s i
      have hn : (s.step o (.interest i)).nPings = (s.nPings + 1) % 2 ^ 64 := by
        show (s.onInterest o i).nPings = _
        unfold PingServer.St.onInterest
        dsimp only
        split <;> rfl
      refine ⟨?_, ?_, ?_, ?_⟩
      · intro d hd
        rw [hr]
        rw [hl] at hd
        simp only [List.mem_append, List.mem_cons, List.not_mem_nil, or_false] at hd
        rcases hd with (hd | hd | hd) | hd
        · obtain ⟨h1, h2⟩ := ih.rep d hd
          exact ⟨List.mem_append_left _ h1, h2⟩
        · cases hd
        · rw [PingServer.Obs.reply.inj hd]
          exact ⟨List.mem_append_right _ (by simp [PingServer.reply]), rfl, rfl⟩
        · rcases hl' with rfl | rfl
          · cases hd
          · simp at hd
      · intro n hn
        rw [hr] at hn
        rw [hl]
        rcases List.mem_append.mp hn with hn | hn
        · obtain ⟨d, hd, hd'⟩ := ih.rev n hn
          exact ⟨d, by simp [hd], hd'⟩
        · rw [List.mem_singleton] at hn
          exact ⟨PingServer.reply o i, by simp, hn.symm⟩
      · rw [hn, ih.cnt, hr, List.length_append, List.length_singleton]
        omega
      · intro h1 h2 h3
        rw [hr, List.length_append, List.length_singleton] at h1 h3
        by_cases hq : o.nMaxPings ≤ (recv s.log).length
        · obtain ⟨g1, g2⟩ := ih.fin (by omega) h2 hq
          refine ⟨?_, by rw [hl]; simp [g2]⟩
          show (s.onInterest o i).registered = false
          unfold PingServer.St.onInterest
          dsimp only
          split
          · rfl
          · exact g1
        · have hc := ih.cnt
          have : o.nMaxPings > 0 ∧ o.nMaxPings = (s.nPings + 1) % 2 ^ 64 := ⟨h2, by omega⟩
          show (s.onInterest o i).registered = false ∧ _ ∈ (s.onInterest o i).log
          unfold PingServer.St.onInterest
          dsimp only
          rw [if_pos this]
          exact ⟨rfl, by simp [PingServer.St.stop]⟩

theorem server_ext (o : PingServer.Opts) (s : PingServer.St) (e : PingServer.Ev) :
    ∃ l, (s.step o e).log = s.log ++ l := by
  cases e with
  | sigint => exact ⟨[], by simp [PingServer.St.step, PingServer.St.stop]⟩
  | interest i =>
    obtain ⟨⟨l, hl, _⟩, _⟩ := interest_log o s i
    exact ⟨_, by rw [hl, List.append_assoc]⟩

/-! ## Both -/

def Ev.client? : Ev → Option Ping.PEv
  | .client e => some e
  | _ => none

def Ev.server? : Ev → Option PingServer.Ev
  | .server e => some e
  | _ => none

theorem client_enabled {digest : Data → Bytes} {o : PingServer.Opts} {s : St} {e : Ping.PEv}
    (h : s.enabled digest o (.client e)) : s.client.enabled e := by
  unfold St.enabled at h
  split at h
  · rename_i h1; cases h1; exact h.1
  · rename_i h1; cases h1; exact h
  · rename_i h1; cases h1

theorem data_answered {digest : Data → Bytes} {o : PingServer.Opts} {s : St} {q t}
    (h : s.enabled digest o (.client (.ping (.data q t)))) : s.Answered digest q := h.2

/-- The runs of the two programs. -/
theorem net_runs {digest : Data → Bytes} {r : ℚ → ℚ} {c : Ping.Opts} {o : PingServer.Opts} {es s}
    (h : (netMachine digest r c o).Run es s) :
    (Ping.progMachine r c).Run (es.filterMap Ev.client?) s.client ∧
    (PingServer.machine o).Run (es.filterMap Ev.server?) s.server := by
  induction h with
  | nil => exact ⟨.nil, .nil⟩
  | snoc e _ he ih =>
    rename_i es s _
    rw [List.filterMap_append, List.filterMap_append]
    cases e with
    | client e =>
      refine ⟨ih.1.snoc e (client_enabled he), ?_⟩
      simp only [List.filterMap_cons, Ev.server?, List.filterMap_nil, List.append_nil]
      exact ih.2
    | server e =>
      refine ⟨?_, ih.2.snoc e he⟩
      simp only [List.filterMap_cons, Ev.client?, List.filterMap_nil, List.append_nil]
      exact ih.1

theorem working_net {digest : Data → Bytes} {r : ℚ → ℚ} {c : Ping.Opts} {o : PingServer.Opts} {es s}
    (h : (workingMachine digest r c o).Run es s) : (netMachine digest r c o).Run es s := by
  induction h with
  | nil => exact .nil
  | snoc e _ he ih => exact ih.snoc e he.1

/-- Histories only grow. -/
theorem net_ext (r : ℚ → ℚ) (c : Ping.Opts) (o : PingServer.Opts) (s : St) (e : Ev) :
    (∃ l, (s.step r c o e).client.ping.log = s.client.ping.log ++ l) ∧
    (∃ l, (s.step r c o e).server.log = s.server.log ++ l) := by
  cases e with
  | client e => exact ⟨prog_ext r c s.client e, [], by simp [St.step]⟩
  | server e => exact ⟨⟨[], by simp [St.step]⟩, server_ext o s.server e⟩

theorem data_inv {digest : Data → Bytes} {r : ℚ → ℚ} {c : Ping.Opts} {o : PingServer.Opts} {es s}
    (h : (netMachine digest r c o).Run es s) :
    ∀ q t, Ping.Obs.data q t ∈ s.client.ping.log → s.Answered digest q := by
  have h0 : ∀ x ∈ (netMachine digest r c o).init.client.ping.log, x = .finish ∨ ∃ q i, x = .interest q i := by
    intro x hx
    have e1 : (netMachine digest r c o).init.client.ping.log = (Ping.start c).log :=
      (Ping.fold_signals r c (Ping.start c).log { ping := Ping.start c }).2.1
    rw [e1] at hx
    have e2 : (Ping.start c).log = (({ nextSeq := c.startSeq, timer := true } : Ping.St).step c .timer).log := rfl
    rw [e2] at hx
    rcases step_mem hx with h | h | h | h
    · cases h
    · exact Or.inl h
    · exact Or.inr h
    · cases h
  refine h.invariant (P := fun s => ∀ q t, Ping.Obs.data q t ∈ s.client.ping.log → s.Answered digest q) ?_ ?_
  · intro q t hq
    rcases h0 _ hq with h | ⟨_, _, h⟩ <;> cases h
  · intro s e ih he q t hq
    have hst : (netMachine digest r c o).step s e = s.step r c o e := rfl
    rw [hst] at hq ⊢
    obtain ⟨⟨l, hl⟩, ⟨m, hm⟩⟩ := net_ext r c o s e
    have old : s.Answered digest q → (s.step r c o e).Answered digest q := by
      rintro ⟨x, hx, y, hy, hxy⟩
      exact ⟨x, by rw [hl]; exact List.mem_append_left _ hx, y, by rw [hm]; exact List.mem_append_left _ hy, hxy⟩
    cases e with
    | server e => exact old (ih q t hq)
    | client e =>
      rcases prog_mem hq with h | h | ⟨_, _, h⟩ | ⟨e', rfl, h⟩
      · exact old (ih q t h)
      · cases h
      · cases h
      · cases e' <;> cases h
        exact old (data_answered (o := o) he)

/-- What an answer to a ping of the client is. -/
theorem answered_spec {digest : Data → Bytes} {r : ℚ → ℚ} {c : Ping.Opts} {o : PingServer.Opts} (hs : c.startSeq < 2 ^ 64) {es s}
    (h : (netMachine digest r c o).Run es s) {q : Nat} (ha : s.Answered digest q) :
    ∃ i d, Ping.Obs.interest q i ∈ s.client.ping.log ∧ i.name = Ping.makePingName c q ∧
      PingServer.Obs.reply d ∈ s.server.log ∧ d.name = i.name ∧
      (c.shouldAllowStaleData = false → 0 < d.freshness) := by
  obtain ⟨x, hx, y, hy, hxy⟩ := ha
  unfold answers at hxy
  split at hxy
  · rename_i q' i d
    simp only [Bool.and_eq_true, decide_eq_true_eq] at hxy
    obtain ⟨rfl, hm⟩ := hxy
    obtain ⟨es', hr, _⟩ := (Ping.prog_inv (net_runs h).1).run
    have e := Ping.run_names hs hr hx
    subst e
    refine ⟨_, d, hx, rfl, hy, ?_⟩
    unfold Interest.matchesData at hm
    dsimp only at hm
    rw [Bool.and_eq_true] at hm
    constructor
    · split at hm
      · have h2 := of_decide_eq_true hm.2
        unfold Ping.makePingName at h2
        have := (List.append_inj' h2 rfl).2
        simp [ttGeneric, ttImplicitDigest] at this
      · rw [if_neg (by decide)] at hm
        exact (of_decide_eq_true hm.2).symm
    · intro hf
      have := hm.1
      rw [hf] at this
      simpa using this
  · cases hxy

/-! ## Counting -/

def dataSeqs (l : List Ping.Obs) : List Nat := l.filterMap fun x => match x with | .data q _ => some q | _ => none

theorem dataSeqs_length (l : List Ping.Obs) : nData l = (dataSeqs l).length := by
  induction l with
  | nil => rfl
  | cons x l ih =>
    unfold nData dataSeqs at *
    cases x <;> simp [ih]

theorem dataSeqs_sublist (l : List Ping.Obs) : (dataSeqs l).Sublist (results l) := by
  induction l with
  | nil => exact .slnil
  | cons x l ih =>
    unfold dataSeqs results at *
    cases x <;> simp only [List.filterMap_cons, Ping.Obs.result]
    · exact ih
    · exact ih.cons_cons _
    · exact ih.cons _
    · exact ih.cons _
    · exact ih

theorem mem_dataSeqs {l : List Ping.Obs} {q : Nat} : q ∈ dataSeqs l ↔ ∃ t, Ping.Obs.data q t ∈ l := by
  unfold dataSeqs
  rw [List.mem_filterMap]
  constructor
  · rintro ⟨x, hx, hq⟩
    cases x <;> simp only [Option.some.injEq, reduceCtorEq] at hq
    subst hq
    exact ⟨_, hx⟩
  · rintro ⟨t, h⟩; exact ⟨_, h, rfl⟩

theorem mem_sent {l : List Ping.Obs} {q : Nat} : q ∈ sent l ↔ ∃ i, Ping.Obs.interest q i ∈ l := by
  unfold sent
  rw [List.mem_filterMap]
  constructor
  · rintro ⟨x, hx, hq⟩
    cases x <;> simp only [Ping.Obs.sent, Option.some.injEq, reduceCtorEq] at hq
    subst hq
    exact ⟨_, hx⟩
  · rintro ⟨t, h⟩; exact ⟨_, h, rfl⟩

theorem nNack_zero {l : List Ping.Obs} : nNack l = 0 ↔ ∀ q t r, Ping.Obs.nack q t r ∉ l := by
  unfold nNack
  rw [List.countP_eq_zero]
  constructor
  · intro h q t r hx; exact h _ hx rfl
  · intro h x hx
    cases x <;> simp
    exact h _ _ _ hx

theorem nTimeout_zero {l : List Ping.Obs} : nTimeout l = 0 ↔ ∀ q, Ping.Obs.timeout q ∉ l := by
  unfold nTimeout
  rw [List.countP_eq_zero]
  constructor
  · intro h q hx; exact h _ hx rfl
  · intro h x hx
    cases x <;> simp
    exact h _ hx

/-! ## The signal handlers and the timer -/

/-- Nothing has gone wrong in the client. -/
def Fine (s : Ping.St) : Prop := s.threw = false ∧ s.assertFailed = false ∧ s.ub = false

theorem stop_fine {c : Ping.Opts} {s : Ping.St} (h : Fine s) : s.step c .stop = { s with timer := false } := by
  unfold Ping.St.step
  rw [if_neg (by simp [h.1, h.2.1, h.2.2])]

theorem fold_keeps {r : ℚ → ℚ} {c : Ping.Opts} (l : List Ping.Obs) {p : Ping.Prog} (h : Fine p.ping) :
    Fine (l.foldl (Ping.Prog.onSignal r c) p).ping ∧
    (l.foldl (Ping.Prog.onSignal r c) p).ping.pending = p.ping.pending ∧
    (Ping.Obs.finish ∈ l ∨ p.ping.timer = false → (l.foldl (Ping.Prog.onSignal r c) p).ping.timer = false) := by
  induction l generalizing p with
  | nil => exact ⟨h, rfl, fun hx => hx.elim (fun hx => by cases hx) id⟩
  | cons x l ih =>
    rw [List.foldl_cons]
    cases x with
    | finish =>
      have e : (p.onSignal r c .finish).ping = { p.ping with timer := false } := stop_fine (c := c) h
      obtain ⟨h1, h2, h3⟩ := ih (p := p.onSignal r c .finish) (by rw [e]; exact h)
      refine ⟨h1, h2.trans (by rw [e]), fun _ => h3 (Or.inr (by rw [e]))⟩
    | interest q i => obtain ⟨h1, h2, h3⟩ := ih (p := p.onSignal r c (.interest q i)) h; exact ⟨h1, h2, fun hx => h3 (hx.imp_left (fun hx => by simpa using hx))⟩
    | data q t => obtain ⟨h1, h2, h3⟩ := ih (p := p.onSignal r c (.data q t)) h; exact ⟨h1, h2, fun hx => h3 (hx.imp_left (fun hx => by simpa using hx))⟩
    | nack q t x => obtain ⟨h1, h2, h3⟩ := ih (p := p.onSignal r c (.nack q t x)) h; exact ⟨h1, h2, fun hx => h3 (hx.imp_left (fun hx => by simpa using hx))⟩
    | timeout q => obtain ⟨h1, h2, h3⟩ := ih (p := p.onSignal r c (.timeout q)) h; exact ⟨h1, h2, fun hx => h3 (hx.imp_left (fun hx => by simpa using hx))⟩

private theorem finish_keeps (s : Ping.St) :
    s.finish.timer = s.timer ∧ s.finish.pending = s.pending ∧ (Fine s → Fine s.finish) := by
  unfold Ping.St.finish
  dsimp only
  split <;> exact ⟨rfl, rfl, id⟩

theorem result_keeps {c : Ping.Opts} {s : Ping.St} (h : Fine s) {e : Ping.Ev} {x : Ping.Obs} (he : obsOf e = some x)
    {q : Nat} (hq : x.result = some q) :
    Fine (s.step c e) ∧ (s.step c e).pending = s.pending.erase q ∧ (s.step c e).timer = s.timer := by
  unfold Ping.St.step
  rw [if_neg (by simp [h.1, h.2.1, h.2.2])]
  cases e with
  | timer => cases he
  | stop => cases he
  | data q' t =>
    cases he; cases hq
    obtain ⟨h1, h2, h3⟩ := finish_keeps { s with pending := s.pending.erase q, log := s.log ++ [Ping.Obs.data q t] }
    exact ⟨h3 h, h2, h1⟩
  | nack q' t r =>
    cases he; cases hq
    obtain ⟨h1, h2, h3⟩ := finish_keeps { s with pending := s.pending.erase q, log := s.log ++ [Ping.Obs.nack q t r] }
    exact ⟨h3 h, h2, h1⟩
  | timeout q' =>
    cases he; cases hq
    obtain ⟨h1, h2, h3⟩ := finish_keeps { s with pending := s.pending.erase q, log := s.log ++ [Ping.Obs.timeout q] }
    exact ⟨h3 h, h2, h1⟩

/-- The flags never go away. -/
theorem fine_back {c : Ping.Opts} {s : Ping.St} {e : Ping.Ev} (h : Fine (s.step c e)) : Fine s := by
  by_cases hb : (s.threw || s.assertFailed || s.ub) = true
  · have : s.step c e = s := by unfold Ping.St.step; rw [if_pos hb]
    rw [this] at h; exact h
  · simp only [Bool.or_eq_true, not_or, Bool.not_eq_true] at hb
    exact ⟨hb.1.1, hb.1.2, hb.2⟩

theorem fold_back {r : ℚ → ℚ} {c : Ping.Opts} (l : List Ping.Obs) {p : Ping.Prog}
    (h : Fine (l.foldl (Ping.Prog.onSignal r c) p).ping) : Fine p.ping := by
  induction l generalizing p with
  | nil => exact h
  | cons x l ih =>
    have := ih (p := p.onSignal r c x) h
    cases x with
    | finish => exact fine_back (c := c) (e := .stop) this
    | interest q i => exact this
    | data q t => exact this
    | nack q t x => exact this
    | timeout q => exact this

/-- After the program has stopped waiting for signals, no further ping is scheduled. -/
theorem cancelled {r : ℚ → ℚ} {c : Ping.Opts} {es p} (h : (Ping.progMachine r c).Run es p) :
    Fine p.ping → p.signals = false → p.ping.timer = false := by
  refine h.invariant (P := fun p => Fine p.ping → p.signals = false → p.ping.timer = false) ?_ ?_
  · intro hf hsg
    have hi : (Ping.progMachine r c).init = (Ping.start c).log.foldl (Ping.Prog.onSignal r c) { ping := Ping.start c } := rfl
    rw [hi] at hf hsg ⊢
    have hf' := fold_back _ hf
    refine (fold_keeps _ hf').2.2 (Or.inl ?_)
    have h4 := (Ping.fold_signals r c (Ping.start c).log { ping := Ping.start c }).2.2.2.1
    by_cases hx : Ping.Obs.finish ∈ (Ping.start c).log
    · exact hx
    · have := h4.mpr ⟨rfl, hx⟩
      rw [hsg] at this; cases this
  · intro p e ih he
    have hst : (Ping.progMachine r c).step p e = p.step r c e := rfl
    rw [hst]
    cases e with
    | sigquit => exact ih
    | sigint =>
      intro hf _
      have hf' : Fine p.ping := fine_back (c := c) (e := .stop) hf
      show (p.ping.step c .stop).timer = false
      rw [stop_fine hf']
    | ping e =>
      intro hf hsg
      have hf' := fold_back _ hf
      refine (fold_keeps _ hf').2.2 ?_
      have h4 := (Ping.fold_signals r c ((p.ping.step c e).log.drop p.ping.log.length) { p with ping := p.ping.step c e }).2.2.2.1
      by_cases hx : Ping.Obs.finish ∈ (p.ping.step c e).log.drop p.ping.log.length
      · exact Or.inl hx
      · right
        have hps : p.signals = false := by
          cases hp : p.signals with
          | false => rfl
          | true =>
            have := h4.mpr ⟨hp, hx⟩
            have h5 : (p.step r c (.ping e)).signals = false := hsg
            rw [show p.step r c (.ping e) = ((p.ping.step c e).log.drop p.ping.log.length).foldl (Ping.Prog.onSignal r c) { p with ping := p.ping.step c e } from rfl] at h5
            rw [h5] at this; cases this
        have hfp := fine_back hf'
        have ht := ih hfp hps
        have hen := he.2.2
        cases e with
        | timer => rw [show p.ping.enabled .timer = (p.ping.timer = true) from rfl, ht] at hen; cases hen
        | stop => exact absurd rfl he.1
        | data q t => exact (result_keeps (c := c) hfp (e := .data q t) rfl rfl).2.2.trans ht
        | nack q t x => exact (result_keeps (c := c) hfp (e := .nack q t x) rfl rfl).2.2.trans ht
        | timeout q => exact (result_keeps (c := c) hfp (e := .timeout q) rfl rfl).2.2.trans ht

end Verif.PingNet
