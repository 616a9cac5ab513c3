import Verif.Proofs.ServerOutput
import Verif.Props.PingOutput
import Verif.Props.PingNet
import Verif.Props.Wire

/-! # Properties C85 and C86: what ndnpingserver prints, also next to what ndnping prints -/

namespace Verif.ServerOutput

open Wire

/-- **C85** The output has exactly one line for each Interest that has arrived, in their order, with the text of the last
component of its name; with the option `-q` it has none. -/
theorem C85_lines {hash : Data → Bytes} {o : PingServer.Opts} {v : Env} (hv : v.Plain) {es s} (h : (pingMachine hash o).Run es s) :
    (v.quiet = true → interests v.stamps (final v s) = []) ∧
    (v.quiet = false → List.Forall₂ (fun n t => ∃ c, n.getLast? = some c ∧ t = componentText v c)
      (es.filterMap PingEv.name?) (interests v.stamps (final v s))) := by
  rw [(final_text hv s).1]
  refine ⟨fun hq => by rw [hq]; rfl, fun hq => ?_⟩
  rw [hq, ← (run_hist h).names]
  simp only [Bool.false_eq_true, if_false]
  have hne : ∀ n ∈ recvd s.st.log, n ≠ [] := by
    rw [(run_hist h).names]
    clear hq hv
    induction h with
    | nil => simp
    | snoc e _ he ih =>
      intro n hn
      rw [List.filterMap_append] at hn
      rcases List.mem_append.mp hn with hn | hn
      · exact ih n hn
      · cases e with
        | sigint => simp [PingEv.name?] at hn
        | interest w =>
          simp only [List.filterMap_cons, PingEv.name?, List.filterMap_nil, List.mem_singleton] at hn
          subst hn
          have hp : PingServer.filterPrefix o <+: w.i.name := he.2.1
          intro h0
          rw [h0, List.prefix_nil] at hp
          simp [PingServer.filterPrefix] at hp
  generalize recvd s.st.log = l at hne
  induction l with
  | nil => exact .nil
  | cons n l ih =>
    refine .cons ?_ (ih fun m hm => hne m (List.mem_cons_of_mem _ hm))
    have hn := hne n (by simp)
    refine ⟨n.getLast hn, List.getLast?_eq_some_getLast hn, ?_⟩
    unfold lastText
    rw [List.getLast?_eq_some_getLast hn]

/-- **C85 (components)** Generic components with the same text are the same, so that pings can be told apart. -/
theorem C85_component {v : Env} {a b : Comp} (ha : a.type = ttGeneric) (hb : b.type = ttGeneric)
    (h : componentText v a = componentText v b) : a = b := component_inj ha hb h

/-- **C85 (totals)** If the program ends with status 0, there is one line of totals, and its number is the number of Interests that have
arrived (the counter has 64 bits), each of which was answered with a Data of its name. If it ends with status 1, there is no line of
totals, and all Interests but the last one were answered. -/
theorem C85_totals {hash : Data → Bytes} {o : PingServer.Opts} {v : Env} (hv : v.Plain) {es s} (h : (pingMachine hash o).Run es s)
    {n : Nat} (hx : s.Exits n) :
    (n = 0 → totals (final v s) = [(es.filterMap PingEv.name?).length % 2 ^ 64] ∧
      (replies s.st.log).map (·.name) = es.filterMap PingEv.name?) ∧
    (n ≠ 0 → n = 1 ∧ totals (final v s) = [] ∧ es.filterMap PingEv.name? ≠ [] ∧
      (replies s.st.log).map (·.name) = (es.filterMap PingEv.name?).dropLast) := by
  obtain ⟨h1, ⟨m, hm, h2⟩, h3, h4⟩ := run_hist h
  rw [(final_text hv s).2]
  have hnames : ∀ k, (replies s.st.log).length = k → (replies s.st.log).map (·.name) = (recvd s.st.log).take k := by
    intro k hk
    apply List.ext_getElem?
    intro j
    rw [List.getElem?_map, List.getElem?_take]
    by_cases hj : j < k
    · rw [if_pos hj]
      obtain ⟨d, hd⟩ : ∃ d, (replies s.st.log)[j]? = some d := ⟨_, List.getElem?_eq_getElem (by omega)⟩
      obtain ⟨x, hx, he⟩ := h3 j d hd
      rw [hd, hx, ← he]; rfl
    · rw [if_neg hj, List.getElem?_eq_none (by omega)]; rfl
  unfold PingSt.Exits at hx
  cases hf : s.failed with
  | true =>
    rw [hf] at hx hm
    simp only [if_true] at hx hm
    subst hx hm
    refine ⟨fun h => (by cases h), fun _ => ⟨rfl, by simp, ?_, ?_⟩⟩
    · intro h0; rw [h1, h0] at h2; simp at h2
    · rw [hnames _ rfl, ← h1, List.dropLast_eq_take]
      congr 1; omega
  | false =>
    rw [hf] at hx hm
    simp only [Bool.false_eq_true, if_false] at hx hm
    obtain ⟨_, rfl⟩ := hx
    subst hm
    refine ⟨fun _ => ⟨?_, ?_⟩, fun h => absurd rfl h⟩
    · simp only [Bool.false_eq_true, if_false]
      rw [h4, ← h1]
      congr 2
    · rw [hnames _ rfl, ← h1]
      exact List.take_of_length_le (by omega)

open PingOutput (items Item) in
/-- **C86** Over any network, at any time: for every line of ndnping about content, ndnpingserver has written a line about an
Interest with the same number; and the number of processed packets that it prints at the end is not smaller than the
number of those lines. -/
theorem C86_outputs {digest : Data → Bytes} {c : Ping.Opts} {o : PingServer.Opts} (hs : c.startSeq < 2 ^ 64) {es s}
    (h : (PingNet.netMachine digest binary64 c o).Run es s) {v : Env} (hv : v.Plain) (hq : v.quiet = false)
    {w : PingOutput.Env} (hw : w.Plain) {t} (ht : (PingOutput.machine binary64 c w).Run (es.filterMap clientEv?) t) :
    (∀ q x, Item.content q x ∈ items w.stamps (t.final binary64 w) →
      decimal q ∈ interests v.stamps (final v { st := s.server })) ∧
    (s.client.ping.ub = false → PingNet.nReceived s.server.log < 2 ^ 64 →
      ∃ k, totals (final v { st := s.server }) = [k] ∧ k = (interests v.stamps (final v { st := s.server })).length ∧
        (items w.stamps (t.final binary64 w)).countP Item.isContent ≤ k) := by
  have hp := client_prog h ht
  have hrec : recvd s.server.log = PingNet.recv s.server.log := rfl
  obtain ⟨g1, g2⟩ := PingNet.C76_received_answered hs h
  obtain ⟨f1, f2⟩ := final_text hv { st := s.server }
  rw [hq] at f1
  simp only [Bool.false_eq_true, if_false] at f1 f2
  obtain ⟨k1, -, -⟩ := PingOutput.final_text PingOutput.nonneg64 hw ht
  obtain ⟨-, c2, -, -⟩ := PingOutput.count_items binary64 t.prog.ping.log
  rw [← k1, hp] at c2
  constructor
  · intro q x hx
    rw [k1, hp] at hx
    obtain ⟨y, hy, hyx⟩ := List.mem_filterMap.mp hx
    cases y with
    | data q' t' =>
      simp only [PingOutput.itemOf, Option.some.injEq, Item.content.injEq] at hyx
      obtain ⟨rfl, _⟩ := hyx
      obtain ⟨i, d, a1, a2, -⟩ := g1 q' t' hy
      have hn : i.name = Ping.makePingName c q' := by
        obtain ⟨es', hr', -⟩ := (Ping.prog_inv (PingNet.net_runs h).1).run
        rw [Ping.run_names hs hr' a1]
      rw [f1]
      refine List.mem_map.mpr ⟨i.name, ?_, ?_⟩
      · rw [hrec]; exact PingNet.mem_recv.mpr a2
      · rw [hn]
        unfold lastText Ping.makePingName
        rw [List.getLast?_append]
        simp only [List.getLast?_singleton, Option.some_or]
        exact component_decimal v q'
    | interest _ _ => simp [PingOutput.itemOf] at hyx
    | nack _ _ _ => simp [PingOutput.itemOf] at hyx
    | timeout _ => simp [PingOutput.itemOf] at hyx
    | finish => simp [PingOutput.itemOf] at hyx
  · intro hu hb
    have hsv := PingNet.server_inv (PingNet.net_runs h).2
    refine ⟨s.server.nPings, f2, ?_, ?_⟩
    · rw [f1, List.length_map, hrec, hsv.cnt, ← PingNet.recv_length, Nat.mod_eq_of_lt hb]
    · rw [c2, hsv.cnt, ← PingNet.recv_length, Nat.mod_eq_of_lt hb]
      exact g2 hu

/-! ## Examples -/

private def exV : Env := { uri := text "/A", stamps := true, time := fun i => text "T" ++ decimal i }

private theorem exV_plain : exV.Plain where
  uri := by decide +kernel
  time := fun i => PingOutput.Word.append (by unfold PingOutput.Word; decide +kernel) (.nat i)
  typed := fun _ => ⟨by simp [exV], by simp [exV]⟩

private def exO : PingServer.Opts := { pre := [⟨8, [65]⟩], nMaxPings := 2, payloadSize := 3 }
private def exI (b : Bytes) : PingEv :=
  .interest ⟨{ name := [⟨8, [65]⟩, ⟨8, [0x70, 0x69, 0x6e, 0x67]⟩, ⟨8, b⟩] }, [10, 4, 1, 2, 3, 4]⟩

/-- Two Interests, the second one with a component that needs encoding; then the server ends because of the limit. -/
example : exV.Plain ∧ ∃ s, (pingMachine (fun _ => List.replicate 32 0) exO).Run [exI (decimal 7), exI [32, 10]] s ∧ s.Exits 0 ∧
    final exV s = text ("PING SERVER /A\nT0 - interest received: seq=7\nT2 - interest received: seq=%20%0A\n" ++
      "\n--- /A ping server statistics ---\n2 packets processed\n") ∧
    interests true (final exV s) = [text "7", text "%20%0A"] ∧ totals (final exV s) = [2] :=
  let M := pingMachine (fun _ => List.replicate 32 0) exO
  ⟨exV_plain, _, Machine.exec_run (M := M) (s := (M.exec M.init [exI (decimal 7), exI [32, 10]]).get (by decide +kernel))
    (Option.some_get _).symm, by decide +kernel, by decide +kernel, by decide +kernel, by decide +kernel⟩

/-- A reply that is too large: status 1, no totals. -/
example : ∃ s, (pingMachine (fun _ => List.replicate 32 0) { exO with payloadSize := 8800 }).Run [exI (decimal 7)] s ∧ s.Exits 1 ∧
    final exV s = text "PING SERVER /A\nT0 - interest received: seq=7\n" :=
  let M := pingMachine (fun _ => List.replicate 32 0) { exO with payloadSize := 8800 }
  ⟨_, Machine.exec_run (M := M) (s := (M.exec M.init [exI (decimal 7)]).get (by decide +kernel))
    (Option.some_get _).symm, by decide +kernel, by decide +kernel⟩

private def exW : PingOutput.Env := { uri := text "/A" }

/-- Client and server: the ping with number 7 is answered. -/
example : ∃ s t, (PingNet.netMachine (fun _ => []) binary64 { pre := exO.pre, nPings := 1, startSeq := 7 } exO).Run
      [.server (.interest { name := Ping.makePingName { pre := exO.pre } 7, mustBeFresh := true }), .client (.ping (.data 7 1000000))] s ∧
    (PingOutput.machine binary64 { pre := exO.pre, nPings := 1, startSeq := 7 } exW).Run [.ping (.data 7 1000000)] t ∧
    t.final binary64 exW = text ("PING /A\ncontent from /A: seq=7 time=1 ms\n" ++
      "\n--- /A ping statistics ---\n1 packets transmitted, 1 received, 0 nacked, 0% lost, 0% nacked, time 1 ms\n" ++
      "rtt min/avg/max/mdev = 1/1/1/0 ms\n") ∧
    interests true (final exV { st := s.server }) = [text "7"] :=
  let M := PingNet.netMachine (fun _ => []) binary64 { pre := exO.pre, nPings := 1, startSeq := 7 } exO
  let L := PingOutput.machine binary64 { pre := exO.pre, nPings := 1, startSeq := 7 } exW
  ⟨_, _, Machine.exec_run (M := M) (s := (M.exec M.init [.server (.interest 
        { name := Ping.makePingName { pre := exO.pre } 7, mustBeFresh := true }), .client (.ping (.data 7 1000000))]).get (by decide +kernel)) (Option.some_get _).symm,
    Machine.exec_run (M := L) (s := (L.exec L.init [.ping (.data 7 1000000)]).get (by decide +kernel)) (Option.some_get _).symm,
    by decide +kernel, by decide +kernel⟩

end Verif.ServerOutput
