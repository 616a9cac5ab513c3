import Verif.Proofs.PingNet
import Verif.Props.Ping
import Verif.Props.PingServer

/-! # C76: ndnping and ndnpingserver together -/

namespace Verif.PingNet

open Ping (sent results nData nNack nTimeout)

variable {digest : Data → Bytes} {r : ℚ → ℚ} {c : Ping.Opts} {o : PingServer.Opts} {es : List Ev} {s : St}

/-- **C76 (over any network)** Every ping that the client counts as received was received and answered by the server, with
the payload that the server was configured for; and the client has not received more responses than the server
has received Interests. -/
theorem C76_received_answered (hs : c.startSeq < 2 ^ 64) (h : (netMachine digest r c o).Run es s) :
    (∀ q t, Ping.Obs.data q t ∈ s.client.ping.log → ∃ i d, Ping.Obs.interest q i ∈ s.client.ping.log ∧
      PingServer.Obs.received i.name ∈ s.server.log ∧ PingServer.Obs.reply d ∈ s.server.log ∧ d.name = i.name ∧
      d.content = List.replicate o.payloadSize 0x61) ∧
    (s.client.ping.ub = false → nData s.client.ping.log ≤ nReceived s.server.log) := by
  have hsv := server_inv (net_runs h).2
  have hrec : ∀ q t, Ping.Obs.data q t ∈ s.client.ping.log → Ping.makePingName c q ∈ recv s.server.log := by
    intro q t hq
    obtain ⟨i, d, _, h2, h3, h4, _⟩ := answered_spec hs h (data_inv h q t hq)
    have := (hsv.rep d h3).1
    rw [h4, h2] at this
    exact this
  refine ⟨?_, ?_⟩
  · intro q t hq
    obtain ⟨i, d, h1, h2, h3, h4, _⟩ := answered_spec hs h (data_inv h q t hq)
    exact ⟨i, d, h1, mem_recv.mp (by rw [h2]; exact hrec q t hq), h3, h4, (hsv.rep d h3).2.2⟩
  · intro hu
    obtain ⟨es', hr, _⟩ := (Ping.prog_inv (net_runs h).1).run
    have hnd := (Ping.C29_one_result hs hr hu).2.1
    have h1 : (dataSeqs s.client.ping.log).Nodup :=
      (dataSeqs_sublist _).nodup (List.nodup_append.mp hnd).1
    have h2 : ((dataSeqs s.client.ping.log).map (Ping.makePingName c)).Nodup :=
      h1.map (fun _ _ => Ping.makePingName_inj)
    have h3 : (dataSeqs s.client.ping.log).map (Ping.makePingName c) ⊆ recv s.server.log := by
      intro n hn
      obtain ⟨q, hq, rfl⟩ := List.mem_map.mp hn
      obtain ⟨t, ht⟩ := mem_dataSeqs.mp hq
      exact hrec q t ht
    have h4 := (h2.subperm h3).length_le
    rw [List.length_map] at h4
    rw [dataSeqs_length, recv_length]
    exact h4

private theorem exits_facts {n : Nat} (ht : 0 ≤ c.timeout) (hn : c.nPings ≠ 0) (hs : c.startSeq < 2 ^ 64) {es p}
    (h : (Ping.progMachine r c).Run es p) (hx : p.Exits n) :
    Fine p.ping ∧ p.ping.pending = [] ∧ p.signals = false := by
  obtain ⟨es', hr, _⟩ := (Ping.prog_inv h).run
  unfold Ping.Prog.Exits at hx
  cases Ping.run_inv hs hr with
  | bad hz _ => exact absurd hz hn
  | thr hz _ => omega
  | ovf _ hu _ h1 => rw [h1] at hx; have := hx.2.1; rw [hu] at this; cases this
  | ok _ h1 h2 h3 =>
    rw [h1] at hx
    exact ⟨⟨h1, h2, h3⟩, hx.2.2.1, hx.2.2.2.2.1⟩

/-- Without SIGINT the client ends only after all pings of its count. -/
private theorem exits_all {n : Nat} (ht : 0 ≤ c.timeout) (hn : c.nPings ≠ 0) (hm : c.nPings ≤ Ping.intMax)
    (hs : c.startSeq < 2 ^ 64) {es p} (h : (Ping.progMachine r c).Run es p) (hx : p.Exits n) (hi : Ping.PEv.sigint ∉ es) :
    ((sent p.ping.log).length : Int) = c.nPings := by
  obtain ⟨_, _, hsg⟩ := exits_facts ht hn hs h hx
  have hp := Ping.prog_inv h
  obtain ⟨es', hr, _⟩ := hp.run
  have hf : Ping.Obs.finish ∈ p.ping.log := by
    by_cases hf : Ping.Obs.finish ∈ p.ping.log
    · exact hf
    · have := hp.sig.mpr ⟨hi, hf⟩
      rw [hsg] at this; cases this
  by_cases hz : c.nPings < 0
  · exact absurd hf (Ping.C29_unlimited hs hz ht hr).1
  · exact ((Ping.C29_count hs (by omega) hm ht hr).2.2.1.mp hf).1

/-- **C76 (exit status 0)** If ndnping exits with status 0, over any network, then every ping that it sent was answered by the
server, at least one and, unless it was interrupted, as many as it was asked for; and if the server
was to stop after that many pings or fewer, it has stopped. (The server's counter has 64 bits.) -/
theorem C76_exit_zero (hs : c.startSeq < 2 ^ 64) (hn : c.nPings ≠ 0) (hm : c.nPings ≤ Ping.intMax)
    (h : (netMachine digest r c o).Run es s) (hx : s.client.Exits 0) :
    (∀ q ∈ sent s.client.ping.log, ∃ t, Ping.Obs.data q t ∈ s.client.ping.log) ∧
    0 < (sent s.client.ping.log).length ∧ (sent s.client.ping.log).length ≤ nReceived s.server.log ∧
    (Ev.client .sigint ∉ es → ((sent s.client.ping.log).length : Int) = c.nPings) ∧
    (nReceived s.server.log < 2 ^ 64 → 0 < o.nMaxPings → o.nMaxPings ≤ (sent s.client.ping.log).length →
      PingServer.Obs.finish ∈ s.server.log ∧ s.server.registered = false) := by
  obtain ⟨hcr, hsr⟩ := net_runs h
  obtain ⟨h1, h2⟩ := Ping.C30_exit hs hn hcr hx
  have ht : 0 ≤ c.timeout := by
    by_cases ht : c.timeout < 0
    · have := h1.mpr ht; cases this
    · omega
  obtain ⟨_, hpos, hd⟩ := h2 (by decide)
  have hd : nData s.client.ping.log = (sent s.client.ping.log).length := by
    split at hd
    · assumption
    · cases hd
  obtain ⟨hf, hpe, _⟩ := exits_facts ht hn hs hcr hx
  obtain ⟨es', hr, _⟩ := (Ping.prog_inv hcr).run
  obtain ⟨hperm, _, _⟩ := Ping.C29_one_result hs hr hf.2.2
  rw [hpe, List.append_nil] at hperm
  have hle := (C76_received_answered hs h).2 hf.2.2
  refine ⟨?_, hpos, by omega, ?_, ?_⟩
  · intro q hq
    have hq' := hperm.symm.subset hq
    have hsub := (dataSeqs_sublist s.client.ping.log).eq_of_length
      (by rw [← dataSeqs_length, hd, hperm.length_eq])
    rw [← hsub] at hq'
    exact mem_dataSeqs.mp hq'
  · intro hi
    refine exits_all ht hn hm hs hcr hx ?_
    intro hx
    obtain ⟨e, he, he'⟩ := List.mem_filterMap.mp hx
    cases e with
    | client e => simp only [Ev.client?, Option.some.injEq] at he'; rw [he'] at he; exact hi he
    | server e => cases he'
  · intro h3 h4 h5
    rw [recv_length] at h3 hle
    have := (server_inv hsr).fin h3 h4 (by omega)
    exact ⟨this.2, this.1⟩

/-! ## Over a network that works -/

private structure WInv (c : Ping.Opts) (o : PingServer.Opts) (s : St) : Prop where
  nodup : (recv s.server.log).Nodup
  names : recv s.server.log ⊆ (sent s.client.ping.log).map (Ping.makePingName c)
  gone : s.server.registered = false → 0 < o.nMaxPings ∧ o.nMaxPings ≤ (recv s.server.log).length
  most : 0 < o.nMaxPings → (recv s.server.log).length ≤ o.nMaxPings
  nonack : ∀ q t x, Ping.Obs.nack q t x ∉ s.client.ping.log

private theorem sent_bound (hs : c.startSeq < 2 ^ 64) {es p} (h : (Ping.progMachine r c).Run es p) :
    (sent p.ping.log).length ≤ 2 ^ 31 := by
  obtain ⟨es', hr, _⟩ := (Ping.prog_inv h).run
  cases Ping.run_inv hs hr with
  | ok hc _ _ hu =>
    have h1 := hc.cnt
    have h2 := hc.max
    unfold Ping.intMax at h2
    omega
  | bad _ e => rw [e]; simp [sent]
  | thr _ e => rw [e]; simp [sent]
  | ovf _ hu _ _ hl _ _ =>
    unfold Ping.intMax at hl
    omega

private theorem recv_bound (hs : c.startSeq < 2 ^ 64) (h : (netMachine digest r c o).Run es s) (hw : WInv c o s) :
    (recv s.server.log).length ≤ (sent s.client.ping.log).length ∧ (recv s.server.log).length ≤ 2 ^ 31 := by
  have h1 := (hw.nodup.subperm hw.names).length_le
  rw [List.length_map] at h1
  have := sent_bound hs (net_runs h).1
  exact ⟨h1, by omega⟩

private theorem winv (hs : c.startSeq < 2 ^ 64) (h : (workingMachine digest r c o).Run es s) : WInv c o s := by
  induction h with
  | nil =>
    refine ⟨List.nodup_nil, (by intro n hn; cases hn), (fun h => by cases h), fun _ => Nat.zero_le _, ?_⟩
    intro q t x hx
    have e1 : (workingMachine digest r c o).init.client.ping.log = (Ping.start c).log :=
      (Ping.fold_signals r c (Ping.start c).log { ping := Ping.start c }).2.1
    rw [e1] at hx
    have e2 : (Ping.start c).log = (({ nextSeq := c.startSeq, timer := true } : Ping.St).step c .timer).log := rfl
    rw [e2] at hx
    rcases step_mem hx with h | h | ⟨_, _, h⟩ | h <;> cases h
  | snoc e hr he ih =>
    rename_i es s
    have hn := working_net hr
    obtain ⟨hcr, hsr⟩ := net_runs hn
    obtain ⟨hb1, hb2⟩ := recv_bound hs hn ih
    have hst : (workingMachine digest r c o).step s e = s.step r c o e := rfl
    rw [hst]
    obtain ⟨he1, he2⟩ := he
    cases e with
    | client e =>
      obtain ⟨l, hl⟩ := prog_ext r c s.client e
      refine ⟨ih.nodup, ?_, ih.gone, ih.most, ?_⟩
      · intro n hx
        have := ih.names hx
        show n ∈ (sent (s.client.step r c e).ping.log).map _
        rw [hl, Ping.sent_append, List.map_append]
        exact List.mem_append_left _ this
      · intro q t x hx
        rcases prog_mem hx with h | h | ⟨_, _, h⟩ | ⟨e', rfl, h⟩
        · exact ih.nonack _ _ _ h
        · cases h
        · cases h
        · cases e' <;> cases h
          exact he2
    | server e =>
      cases e with
      | sigint => exact absurd he2 id
      | interest i =>
        obtain ⟨⟨x, hx, hx'⟩, hreg, hnew⟩ := he2
        have hrc := (interest_log o s.server i).2
        have hsv := server_inv hsr
        have hlt : 0 < o.nMaxPings → (recv s.server.log).length < o.nMaxPings := by
          intro hp
          by_cases hq : o.nMaxPings ≤ (recv s.server.log).length
          · have := (hsv.fin (by omega) hp hq).1
            rw [hreg] at this; cases this
          · omega
        have e1 : (s.step r c o (.server (.interest i))).server = s.server.step o (.interest i) := rfl
        have e2 : (s.step r c o (.server (.interest i))).client = s.client := rfl
        refine ⟨?_, ?_, ?_, ?_, by rw [e2]; exact ih.nonack⟩
        · rw [e1, hrc]
          rw [List.nodup_append]
          refine ⟨ih.nodup, by simp, ?_⟩
          rintro a ha b hb rfl
          rw [List.mem_singleton.mp hb] at ha
          exact hnew (mem_recv.mp ha)
        · rw [e1, e2, hrc]
          intro n hx2
          rcases List.mem_append.mp hx2 with hx2 | hx2
          · exact ih.names hx2
          · rw [List.mem_singleton.mp hx2]
            cases x with
            | interest q j =>
              have : j = i := of_decide_eq_true hx'
              subst this
              obtain ⟨es', hr', _⟩ := (Ping.prog_inv hcr).run
              have := Ping.run_names hs hr' hx
              exact List.mem_map.mpr ⟨q, mem_sent.mpr ⟨_, hx⟩, by rw [this]⟩
            | data _ _ => cases hx'
            | nack _ _ _ => cases hx'
            | timeout _ => cases hx'
            | finish => cases hx'
        · rw [e1, hrc, List.length_append, List.length_singleton]
          show (s.server.onInterest o i).registered = false → _
          unfold PingServer.St.onInterest
          dsimp only
          rw [hsv.cnt]
          split
          · rename_i hx
            intro _
            exact ⟨hx.1, by omega⟩
          · intro hf
            dsimp only at hf
            rw [hreg] at hf; cases hf
        · intro hp
          rw [e1, hrc, List.length_append, List.length_singleton]
          exact hlt hp

/-- The server has an answer for all pings that a client can send. -/
private def Enough (c : Ping.Opts) (o : PingServer.Opts) : Prop :=
  o.nMaxPings = 0 ∨ 0 < c.nPings ∧ c.nPings ≤ o.nMaxPings

/-- When the server has gone, all pings have reached it. -/
private theorem all_reached (hs : c.startSeq < 2 ^ 64) (ht : 0 ≤ c.timeout) (hm : c.nPings ≤ Ping.intMax) (hl : Enough c o)
    (h : (workingMachine digest r c o).Run es s) (hg : s.server.registered = false) :
    s.client.ping.ub = false ∧ ∀ q ∈ sent s.client.ping.log, Ping.makePingName c q ∈ recv s.server.log := by
  have hw := winv hs h
  obtain ⟨hcr, _⟩ := net_runs (working_net h)
  obtain ⟨g1, g2⟩ := hw.gone hg
  have hl : 0 < c.nPings ∧ c.nPings ≤ o.nMaxPings := by
    rcases hl with hl | hl
    · omega
    · exact hl
  obtain ⟨es', hr, _⟩ := (Ping.prog_inv hcr).run
  have h1 := Ping.C29_count hs hl.1 hm ht hr
  have hu := h1.2.2.2.2.2.2.2
  refine ⟨hu, ?_⟩
  have hp := (hw.nodup.subperm hw.names).perm_of_length_le (by rw [List.length_map]; have := h1.1; omega)
  intro q hq
  exact hp.symm.subset (List.mem_map.mpr ⟨q, hq, rfl⟩)

private theorem reached_of (hs : c.startSeq < 2 ^ 64) (h : (netMachine digest r c o).Run es s) {q : Nat}
    (hq : q ∈ sent s.client.ping.log) (hr : Ping.makePingName c q ∈ recv s.server.log) : s.Reached q := by
  obtain ⟨i, hi⟩ := mem_sent.mp hq
  obtain ⟨es', hr', _⟩ := (Ping.prog_inv (net_runs h).1).run
  have := Ping.run_names hs hr' hi
  refine ⟨_, hi, _, mem_recv.mp hr, ?_⟩
  show pingName q (.interest q i) = some _
  rw [this]
  simp [pingName]

private theorem no_timeout (hs : c.startSeq < 2 ^ 64) (ht : 0 ≤ c.timeout) (hm : c.nPings ≤ Ping.intMax) (hl : Enough c o)
    (h : (workingMachine digest r c o).Run es s) : ∀ q, Ping.Obs.timeout q ∉ s.client.ping.log := by
  induction h with
  | nil =>
    intro q hx
    have e1 : (workingMachine digest r c o).init.client.ping.log = (Ping.start c).log :=
      (Ping.fold_signals r c (Ping.start c).log { ping := Ping.start c }).2.1
    rw [e1] at hx
    have e2 : (Ping.start c).log = (({ nextSeq := c.startSeq, timer := true } : Ping.St).step c .timer).log := rfl
    rw [e2] at hx
    rcases step_mem hx with h | h | ⟨_, _, h⟩ | h <;> cases h
  | snoc e hr he ih =>
    rename_i es s
    have hst : (workingMachine digest r c o).step s e = s.step r c o e := rfl
    rw [hst]
    cases e with
    | server e => exact ih
    | client e =>
      intro q hx
      rcases prog_mem hx with h | h | ⟨_, _, h⟩ | ⟨e', rfl, h⟩
      · exact ih _ h
      · cases h
      · cases h
      · cases e' <;> cases h
        obtain ⟨hg, hnr⟩ := he.2
        obtain ⟨hu, hall⟩ := all_reached hs ht hm hl hr hg
        have hen : q ∈ s.client.ping.pending := (client_enabled (o := o) he.1).2.2
        obtain ⟨es', hr', _⟩ := (Ping.prog_inv (net_runs (working_net hr)).1).run
        have hq := (Ping.C29_one_result hs hr' hu).1.subset (List.mem_append_right _ hen)
        exact hnr (reached_of hs (working_net hr) hq (hall q hq))

private theorem fine_of (hs : c.startSeq < 2 ^ 64) (ht : 0 ≤ c.timeout) (hn : c.nPings ≠ 0)
    (h : (netMachine digest r c o).Run es s) (hu : s.client.ping.ub = false) : Fine s.client.ping := by
  obtain ⟨es', hr, _⟩ := (Ping.prog_inv (net_runs h).1).run
  cases Ping.run_inv hs hr with
  | bad hz _ => exact absurd hz hn
  | thr hz _ => omega
  | ovf _ hu' => rw [hu] at hu'; cases hu'
  | ok _ h1 h2 h3 => exact ⟨h1, h2, h3⟩

/-- A pending ping whose Interest has reached the server can be answered. -/
private theorem deliver (hs : c.startSeq < 2 ^ 64) (hf : 0 < o.freshnessPeriod ∨ c.shouldAllowStaleData = true)
    (hfine : Fine s.client.ping)
    (h : (workingMachine digest r c o).Run es s) {q : Nat} (hq : q ∈ s.client.ping.pending)
    (hr : Ping.makePingName c q ∈ recv s.server.log) :
    ∃ s', (workingMachine digest r c o).Run (es ++ [.client (.ping (.data q 0))]) s' ∧
      s'.client.ping.pending = s.client.ping.pending.erase q ∧ Fine s'.client.ping ∧
      (sent s.client.ping.log).length ≤ (sent s'.client.ping.log).length := by
  obtain ⟨hcr, hsr⟩ := net_runs (working_net h)
  obtain ⟨es', hr', _⟩ := (Ping.prog_inv hcr).run
  have hsent := (Ping.C29_one_result hs hr' hfine.2.2).1.subset (List.mem_append_right _ hq)
  obtain ⟨i, hi⟩ := mem_sent.mp hsent
  have hi' := Ping.run_names hs hr' hi
  have hsv := server_inv hsr
  obtain ⟨d, hd, hd'⟩ := hsv.rev _ hr
  have hfr := (hsv.rep d hd).2.1
  have hans : s.Answered digest q := by
    refine ⟨_, hi, _, hd, ?_⟩
    unfold answers
    dsimp only
    rw [hi']
    simp only [decide_true, Bool.true_and]
    unfold Interest.matchesData
    dsimp only
    rw [if_neg (by rw [hd']; simp), if_neg (by simp), hfr, hd']
    rcases hf with hf | hf <;> simp [hf]
  refine ⟨_, h.snoc _ ⟨⟨⟨by simp, hfine.1, hq⟩, hans⟩, trivial⟩, ?_⟩
  show ((s.client.step r c (.ping (.data q 0))).ping.pending = _) ∧ Fine (s.client.step r c (.ping (.data q 0))).ping ∧
    _ ≤ (sent (s.client.step r c (.ping (.data q 0))).ping.log).length
  obtain ⟨g1, g2, _⟩ := result_keeps (c := c) hfine (e := .data q 0) rfl (q := q) rfl
  obtain ⟨k1, k2, _⟩ := fold_keeps (r := r) (c := c) ((s.client.ping.step c (.data q 0)).log.drop s.client.ping.log.length)
    (p := { s.client with ping := s.client.ping.step c (.data q 0) }) g1
  refine ⟨k2.trans g2, k1, ?_⟩
  obtain ⟨l, hl⟩ := prog_ext r c s.client (.ping (.data q 0))
  rw [hl, Ping.sent_append, List.length_append]
  omega

/-- The pending pings can be answered. -/
private theorem drain (hs : c.startSeq < 2 ^ 64) (ht : 0 ≤ c.timeout) (hn : c.nPings ≠ 0) (hm : c.nPings ≤ Ping.intMax)
    (hl : Enough c o) (hp : c.pre = o.pre) (hf : 0 < o.freshnessPeriod ∨ c.shouldAllowStaleData = true) (k : Nat) :
    ∀ es s, (workingMachine digest r c o).Run es s → s.client.ping.ub = false → s.client.ping.pending.length = k →
    ∃ es' s', (workingMachine digest r c o).Run (es ++ es') s' ∧ s'.client.ping.pending = [] ∧ Fine s'.client.ping ∧
      Ev.client .sigint ∉ es' ∧ (sent s.client.ping.log).length ≤ (sent s'.client.ping.log).length := by
  induction k with
  | zero =>
    intro es s h hu hk
    exact ⟨[], s, by simpa using h, List.eq_nil_of_length_eq_zero hk, fine_of hs ht hn (working_net h) hu, by simp, le_refl _⟩
  | succ k ih =>
    intro es s h hu hk
    have hfine := fine_of hs ht hn (working_net h) hu
    obtain ⟨q, hq⟩ := List.exists_mem_of_length_pos (l := s.client.ping.pending) (by omega)
    obtain ⟨hcr, hsr⟩ := net_runs (working_net h)
    obtain ⟨es1, hr1, _⟩ := (Ping.prog_inv hcr).run
    have hsent := (Ping.C29_one_result hs hr1 hu).1.subset (List.mem_append_right _ hq)
    -- first the Interest arrives, if it has not arrived before
    have step1 : ∃ es0 s0, (workingMachine digest r c o).Run (es ++ es0) s0 ∧ s0.client = s.client ∧
        Ping.makePingName c q ∈ recv s0.server.log ∧ Ev.client .sigint ∉ es0 := by
      by_cases hrq : Ping.makePingName c q ∈ recv s.server.log
      · exact ⟨[], s, by simpa using h, rfl, hrq, by simp⟩
      · obtain ⟨i, hi⟩ := mem_sent.mp hsent
        have hi' := Ping.run_names hs hr1 hi
        have hreg : s.server.registered = true := by
          cases hg : s.server.registered with
          | true => rfl
          | false => exact absurd ((all_reached hs ht hm hl h hg).2 q hsent) hrq
        refine ⟨[.server (.interest i)], _, h.snoc _ ⟨?_, ⟨_, hi, by simp [isPing]⟩, hreg, ?_⟩, rfl, ?_, by simp⟩
        · show PingServer.filterPrefix o <+: i.name
          rw [hi']
          unfold PingServer.filterPrefix Ping.makePingName
          rw [hp, List.append_assoc (_ ++ _)]
          exact List.prefix_append _ _
        · intro hx
          exact hrq (by have := mem_recv.mpr hx; rw [hi'] at this; exact this)
        · show _ ∈ recv (s.server.step o (.interest i)).log
          rw [(interest_log o s.server i).2, hi']
          simp
    obtain ⟨es0, s0, h0, ec, hr0, hns⟩ := step1
    obtain ⟨s2, h2, hpend, hfine2, hlen⟩ := deliver hs hf (by rw [ec]; exact hfine) h0 (by rw [ec]; exact hq) hr0
    rw [ec] at hpend hlen
    obtain ⟨es3, s3, h3, h4, h5, h6, h7⟩ := ih _ s2 h2 hfine2.2.2 (by rw [hpend, List.length_erase_of_mem hq, hk]; rfl)
    refine ⟨es0 ++ [.client (.ping (.data q 0))] ++ es3, s3, ?_, h4, h5, ?_, by omega⟩
    · rw [← List.append_assoc, ← List.append_assoc]; exact h3
    · simp only [List.mem_append, List.mem_singleton, not_or]
      exact ⟨⟨hns, by simp⟩, h6⟩

/-- Exit status 0 when nothing is left to do. -/
private theorem exits_zero (hs : c.startSeq < 2 ^ 64) (ht : 0 ≤ c.timeout) (hm : c.nPings ≤ Ping.intMax) (hl : Enough c o)
    (h : (workingMachine digest r c o).Run es s) (hf : Fine s.client.ping) (hp : s.client.ping.pending = [])
    (hsg : s.client.signals = false) : s.client.Exits 0 := by
  obtain ⟨hcr, _⟩ := net_runs (working_net h)
  have htm := cancelled hcr hf hsg
  obtain ⟨g1, g2, _, _, _⟩ := Ping.C30_accounting hcr
  have h1 := nNack_zero.mpr (winv hs h).nonack
  have h2 := nTimeout_zero.mpr (no_timeout hs ht hm hl h)
  have e1 : s.client.coll.nSent = ((nData s.client.ping.log + nNack s.client.ping.log + nTimeout s.client.ping.log : Nat) : Int) := g1
  have e2 : s.client.coll.nReceived = (nData s.client.ping.log : Int) := g2
  unfold Ping.Prog.Exits
  rw [hf.1]
  refine ⟨hf.2.1, hf.2.2, hp, htm, hsg, ?_⟩
  rw [if_pos (by rw [e1, e2, h1, h2]; rfl)]

/-- A client with a count can complete without being interrupted. -/
private theorem complete (hs : c.startSeq < 2 ^ 64) (ht : 0 ≤ c.timeout) (hn : 0 < c.nPings) (hm : c.nPings ≤ Ping.intMax)
    (hl : Enough c o) (hp : c.pre = o.pre) (hf : 0 < o.freshnessPeriod ∨ c.shouldAllowStaleData = true) (k : Nat) :
    ∀ es s, (workingMachine digest r c o).Run es s → c.nPings - (sent s.client.ping.log).length < k →
    ∃ es' s', (workingMachine digest r c o).Run (es ++ es') s' ∧ s'.client.Exits 0 ∧ Ev.client .sigint ∉ es' := by
  induction k with
  | zero =>
    intro es s h hk
    obtain ⟨es', hr, _⟩ := (Ping.prog_inv (net_runs (working_net h)).1).run
    have := (Ping.C29_count hs hn hm ht hr).1
    omega
  | succ k ih =>
    intro es s h hk
    obtain ⟨es0, hr0, _⟩ := (Ping.prog_inv (net_runs (working_net h)).1).run
    have hu := (Ping.C29_count hs hn hm ht hr0).2.2.2.2.2.2.2
    obtain ⟨es1, s1, h1, hp1, hf1, hns1, hlen1⟩ := drain hs ht (by omega) hm hl hp hf _ es s h hu rfl
    have hcr1 := (net_runs (working_net h1)).1
    cases hsg : s1.client.signals with
    | false => exact ⟨es1, s1, h1, exits_zero hs ht hm hl h1 hf1 hp1 hsg, hns1⟩
    | true =>
      have hpi := Ping.prog_inv hcr1
      obtain ⟨es2, hr2, hns2⟩ := hpi.run
      obtain ⟨a1, a2⟩ := hpi.sig.mp hsg
      have htm : s1.client.ping.timer = true := by
        rcases (Ping.C29_count hs hn hm ht hr2).2.2.2.1 (hns2 a1 a2) with h | h | h
        · exact absurd h a2
        · exact h
        · exact absurd hp1 h
      have h3 := h1.snoc (M := workingMachine digest r c o) (.client (.ping .timer)) ⟨⟨by simp, hf1.1, htm⟩, trivial⟩
      obtain ⟨es4, s4, h4, hx, hns4⟩ := ih _ _ h3 (by
        show c.nPings - (sent (s1.client.step r c (.ping .timer)).ping.log).length < _
        rw [prog_log]
        dsimp only
        have hcore : c.nPings < 0 ∨ s1.client.ping.nSent < c.nPings := by
          cases Ping.run_inv hs hr2 with
          | ok hc _ _ _ => exact hc.timer htm
          | bad hz _ => omega
          | thr hz _ => omega
          | ovf _ hu' => rw [hf1.2.2] at hu'; cases hu'
        have := (Ping.ping_sent (o := c) (s := { s1.client.ping with timer := false }) hcore ht).1
        have e : s1.client.ping.step c .timer = ({ s1.client.ping with timer := false } : Ping.St).performPing c := by
          unfold Ping.St.step
          rw [if_neg (by simp [hf1.1, hf1.2.1, hf1.2.2])]
        rw [e, this]
        dsimp only
        omega)
      refine ⟨es1 ++ [.client (.ping .timer)] ++ es4, s4, ?_, hx, ?_⟩
      · rw [← List.append_assoc, ← List.append_assoc]; exact h4
      · simp only [List.mem_append, List.mem_singleton, not_or]
        exact ⟨⟨hns1, by simp⟩, hns4⟩

/-- **C76 (over a network that works; partial)** If client and server use the same prefix, the server sets a positive
freshness period or the client allows stale Data, and the server has no limit or one that is not smaller than the
client's count, then no ping fails, the only exit status is 0, and at every time the client can still get there; a
client with a count needs no SIGINT for that. Missing from the claim: the other combinations of options, for which it is false
(`C76_stale_refuted`, `C76_limit_refuted`). -/
theorem C76_working_partial (hs : c.startSeq < 2 ^ 64) (ht : 0 ≤ c.timeout) (hn : c.nPings ≠ 0) (hm : c.nPings ≤ Ping.intMax)
    (hl : o.nMaxPings = 0 ∨ 0 < c.nPings ∧ c.nPings ≤ o.nMaxPings) (hp : c.pre = o.pre)
    (hf : 0 < o.freshnessPeriod ∨ c.shouldAllowStaleData = true) (h : (workingMachine digest r c o).Run es s) :
    nNack s.client.ping.log = 0 ∧ nTimeout s.client.ping.log = 0 ∧ (∀ n, s.client.Exits n → n = 0) ∧
    (s.client.ping.ub = false → ∃ es' s', (workingMachine digest r c o).Run (es ++ es') s' ∧ s'.client.Exits 0 ∧
      (0 < c.nPings → Ev.client .sigint ∉ es')) := by
  have h1 := nNack_zero.mpr (winv hs h).nonack
  have h2 := nTimeout_zero.mpr (no_timeout hs ht hm hl h)
  obtain ⟨hcr, _⟩ := net_runs (working_net h)
  refine ⟨h1, h2, ?_, ?_⟩
  · intro n hx
    obtain ⟨hfine, hpe, hsg⟩ := exits_facts ht hn hs hcr hx
    have h0 := exits_zero hs ht hm hl h hfine hpe hsg
    unfold Ping.Prog.Exits at hx h0
    rw [hfine.1] at hx h0
    exact hx.2.2.2.2.2.trans h0.2.2.2.2.2.symm
  · intro hu
    by_cases hpos : 0 < c.nPings
    · obtain ⟨es', s', h3, h4, h5⟩ := complete hs ht hpos hm hl hp hf
        ((c.nPings - (sent s.client.ping.log).length).toNat + 1) es s h (by omega)
      exact ⟨es', s', h3, h4, fun _ => h5⟩
    · obtain ⟨es1, s1, h3, hp1, hf1, hns1, _⟩ := drain hs ht hn hm hl hp hf _ es s h hu rfl
      cases hsg : s1.client.signals with
      | false => exact ⟨es1, s1, h3, exits_zero hs ht hm hl h3 hf1 hp1 hsg, fun h => absurd h hpos⟩
      | true =>
        have h4 := h3.snoc (M := workingMachine digest r c o) (.client .sigint) ⟨⟨hf1.1, hsg⟩, trivial⟩
        refine ⟨es1 ++ [.client .sigint], _, by rw [← List.append_assoc]; exact h4, ?_, fun h => absurd h hpos⟩
        have e : ((workingMachine digest r c o).step s1 (.client .sigint)).client.ping = { s1.client.ping with timer := false } :=
          stop_fine (c := c) hf1
        exact exits_zero hs ht hm hl h4 (by rw [e]; exact hf1) (by rw [e]; exact hp1) rfl

/-- **C76 (refuted: no freshness)** If the server's freshness period is 0 and the client does not allow stale Data, the client
never receives anything, whatever the network does, and does not exit with status 0. -/
theorem C76_stale_refuted (hs : c.startSeq < 2 ^ 64) (hn : c.nPings ≠ 0) (hf : o.freshnessPeriod = 0)
    (ha : c.shouldAllowStaleData = false) (h : (netMachine digest r c o).Run es s) :
    nData s.client.ping.log = 0 ∧ ∀ n, s.client.Exits n → n ≠ 0 := by
  have h0 : ∀ q t, Ping.Obs.data q t ∉ s.client.ping.log := by
    intro q t hq
    obtain ⟨i, d, _, _, h3, _, h5⟩ := answered_spec hs h (data_inv h q t hq)
    have := h5 ha
    rw [((server_inv (net_runs h).2).rep d h3).2.1, hf] at this
    omega
  have h1 : nData s.client.ping.log = 0 := by
    rw [dataSeqs_length, List.length_eq_zero_iff, List.eq_nil_iff_forall_not_mem]
    intro q hq
    obtain ⟨t, ht⟩ := mem_dataSeqs.mp hq
    exact h0 q t ht
  refine ⟨h1, ?_⟩
  rintro n hx rfl
  obtain ⟨_, h3⟩ := Ping.C30_exit hs hn (net_runs h).1 hx
  obtain ⟨_, h4, h5⟩ := h3 (by decide)
  rw [if_neg (by omega)] at h5
  cases h5

/-- **C76 (refuted: too few replies)** If the server stops after fewer pings than the client is to send, then even over a
network that works, the client does not exit with status 0 unless it is interrupted before. -/
theorem C76_limit_refuted (hs : c.startSeq < 2 ^ 64) (hm : c.nPings ≤ Ping.intMax) (h0 : 0 < o.nMaxPings)
    (hl : (o.nMaxPings : Int) < c.nPings) (h : (workingMachine digest r c o).Run es s) (hi : Ev.client .sigint ∉ es) :
    ∀ n, s.client.Exits n → n ≠ 0 := by
  rintro n hx rfl
  obtain ⟨_, _, h2, h3, _⟩ := C76_exit_zero hs (by omega) hm (working_net h) hx
  have h4 := h3 hi
  have h5 := (winv hs h).most h0
  rw [recv_length] at h2
  omega

/-! ## Instances -/

private def exC : Ping.Opts := { pre := [⟨8, [65]⟩], nPings := 2, startSeq := 7 }
private def exO : PingServer.Opts := { pre := [⟨8, [65]⟩], nMaxPings := 2, payloadSize := 3 }
private def exI (b : UInt8) : Interest :=
  { name := [⟨8, [65]⟩, ⟨8, [0x70, 0x69, 0x6e, 0x67]⟩, ⟨8, [b]⟩], mustBeFresh := true }

/-- Two pings over a network that works, the second Interest before the first answer: the client exits with status 0, the server
has stopped. -/
example : ∃ s, (workingMachine (fun _ => []) id exC exO).Run [.server (.interest (exI 55)), .client (.ping .timer),
      .server (.interest (exI 56)), .client (.ping (.data 8 1000)), .client (.ping (.data 7 5000))] s ∧
    s.client.Exits 0 ∧ s.server.registered = false ∧ sent s.client.ping.log = [7, 8] ∧ nReceived s.server.log = 2 := by
  let M := workingMachine (fun _ => []) id exC exO
  refine ⟨_, Machine.exec_run (M := M) (s := (M.exec M.init [.server (.interest (exI 55)), .client (.ping .timer),
      .server (.interest (exI 56)), .client (.ping (.data 8 1000)), .client (.ping (.data 7 5000))]).get (by decide +kernel))
    (Option.some_get _).symm, ?_, by decide +kernel, by decide +kernel, by decide +kernel⟩
  unfold Ping.Prog.Exits
  rw [if_neg (by decide +kernel)]
  decide +kernel

/-- The other hypotheses of `C76_working_partial` hold of these options. -/
example : exC.startSeq < 2 ^ 64 ∧ 0 ≤ exC.timeout ∧ exC.nPings ≠ 0 ∧ exC.nPings ≤ Ping.intMax ∧
    (exO.nMaxPings = 0 ∨ 0 < exC.nPings ∧ exC.nPings ≤ exO.nMaxPings) ∧ exC.pre = exO.pre ∧
    (0 < exO.freshnessPeriod ∨ exC.shouldAllowStaleData = true) := by decide

/-- Beside `C76_limit_refuted`: with limit 1 the second ping times out, and the client exits with status 1. -/
example : ∃ s, (workingMachine (fun _ => []) id exC { exO with nMaxPings := 1 }).Run [.server (.interest (exI 55)),
      .client (.ping (.data 7 1000)), .client (.ping .timer), .client (.ping (.timeout 8))] s ∧ s.client.Exits 1 := by
  let M := workingMachine (fun _ => []) id exC { exO with nMaxPings := 1 }
  refine ⟨_, Machine.exec_run (M := M) (s := (M.exec M.init [.server (.interest (exI 55)),
      .client (.ping (.data 7 1000)), .client (.ping .timer), .client (.ping (.timeout 8))]).get (by decide +kernel))
    (Option.some_get _).symm, ?_⟩
  unfold Ping.Prog.Exits
  rw [if_neg (by decide +kernel)]
  decide +kernel

/-- Beside `C76_stale_refuted`: the Interest reaches a server with freshness period 0, and the client exits with status 1. -/
example : ∃ s, (netMachine (fun _ => []) id { exC with nPings := 1 } { exO with freshnessPeriod := 0 }).Run
      [.server (.interest (exI 55)), .client (.ping (.timeout 7))] s ∧ s.client.Exits 1 := by
  let M := netMachine (fun _ => []) id { exC with nPings := 1 } { exO with freshnessPeriod := 0 }
  refine ⟨_, Machine.exec_run (M := M) (s := (M.exec M.init
      [.server (.interest (exI 55)), .client (.ping (.timeout 7))]).get (by decide +kernel)) (Option.some_get _).symm, ?_⟩
  unfold Ping.Prog.Exits
  rw [if_neg (by decide +kernel)]
  decide +kernel

end Verif.PingNet
