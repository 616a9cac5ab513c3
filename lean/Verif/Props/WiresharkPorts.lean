import Verif.Spec.WiresharkPorts
import Verif.Props.DumpRun

/-! # What is given to the Wireshark dissector: C113 -/

namespace Verif.Wireshark

open Spec Dump Dump.Spec DumpRun DumpRun.Spec

private theorem udp_iff (n : Nat) : registered .udpPort n = true ↔ n = 6363 ∨ n = 56363 := by
  simp only [registered, registrations, List.any_cons, List.any_nil, Bool.or_eq_true, Bool.and_eq_true, decide_eq_true_eq,
    beq_iff_eq]
  simp
  omega

private theorem tcp_iff (n : Nat) : registered .tcpPort n = true ↔ n = 6363 := by
  simp only [registered, registrations, List.any_cons, List.any_nil, Bool.or_eq_true, Bool.and_eq_true, decide_eq_true_eq,
    beq_iff_eq]
  simp
  omega

private theorem ws_iff (n : Nat) : registered .wsPort n = true ↔ 1 ≤ n ∧ n ≤ 65535 := by
  simp [registered, registrations]

private theorem ether_iff (n : Nat) : registered .ethertype n = true ↔ n = 0x8624 := by
  simp [registered, registrations]
  omega

private theorem ppp_iff (n : Nat) : registered .pppProtocol n = true ↔ n = 0x0077 := by
  simp [registered, registrations]
  omega

/-- C113: everything that the documentation lists is given to the dissector. -/
theorem C113_documented (c : Carrier) (h : Documented c) : c.dissected = true := by
  cases h with
  | udp s d h =>
    simp only [Carrier.dissected, Bool.or_eq_true, udp_iff]
    omega
  | tcp s d h =>
    simp only [Carrier.dissected, Bool.or_eq_true, tcp_iff]
    omega
  | websocket s d h =>
    simp only [Carrier.dissected, Bool.or_eq_true, ws_iff]
    omega
  | ethernet => exact (ether_iff _).mpr rfl
  | ppp => exact (ppp_iff _).mpr rfl

example : Documented (.websocket 51234 9696) ∧ Documented (.udp 6363 40000) := ⟨.websocket _ _ (.inr rfl), .udp _ _ (.inl rfl)⟩

/-- C113: nothing else is, but for WebSocket. -/
theorem C113_only_partial (c : Carrier) (hw : ∀ s d, c ≠ .websocket s d) (h : c.dissected = true) : Documented c := by
  cases c with
  | udp s d =>
    simp only [Carrier.dissected, Bool.or_eq_true, udp_iff] at h
    exact .udp _ _ (by omega)
  | tcp s d =>
    simp only [Carrier.dissected, Bool.or_eq_true, tcp_iff] at h
    exact .tcp _ _ (by omega)
  | websocket s d => exact absurd rfl (hw s d)
  | ethernet t =>
    rw [Carrier.dissected, ether_iff] at h
    rw [h]
    exact .ethernet
  | ppp p =>
    rw [Carrier.dissected, ppp_iff] at h
    rw [h]
    exact .ppp

example : (Carrier.udp 40000 56363).dissected = true ∧ (Carrier.tcp 40000 56363).dissected = false ∧
    (Carrier.ethernet 0x0800).dissected = false ∧ (Carrier.websocket 80 51234).dissected = true := by decide

/-- C113 is false for WebSocket: whatever the ports of a TCP connection with WebSocket are, its messages are given to the
dissector. -/
theorem C113_websocket_refuted (s d : Nat) (hs : 1 ≤ s) (hs' : s < 2 ^ 16) :
    (Carrier.websocket s d).dissected = true ∧ (s ≠ 9696 → d ≠ 9696 → ¬ Documented (.websocket s d)) := by
  constructor
  · simp only [Carrier.dissected, Bool.or_eq_true, ws_iff]
    omega
  · intro h1 h2 h
    cases h with
    | websocket _ _ h => omega

/-- C113: of the frames of Ethernet and of Linux cooked captures, precisely those that are given to the dissector are let through by
the default filter of ndndump. -/
theorem C113_ndndump_partial (link : Link) (mem : Bytes) (c : Carrier) (hl : link ≠ .ppp) (h : IsCarrier link mem c) :
    defaultAst.passes link mem = true ↔ c.dissected = true := by
  cases h with
  | ethernet _ t _ h1 h2 h3 h4 => rw [C91_ethernet link t h1 h2 h3 mem h4, Carrier.dissected, ether_iff]
  | udp _ s d _ h1 h2 h3 =>
    rw [C91_ports link .udp s d h1 h2 mem h3]
    simp only [Carrier.dissected, Bool.or_eq_true, udp_iff, NdnPort, true_and]
  | tcp _ s d _ h1 h2 h3 =>
    rw [C91_ports link .tcp s d h1 h2 mem h3]
    simp only [Carrier.dissected, Bool.or_eq_true, tcp_iff, NdnPort, reduceCtorEq, false_and, or_false]
  | ppp p rest => exact absurd rfl hl

example : IsCarrier .sll (List.replicate 14 0 ++ be16 0x8624 ++ [6, 0]) (.ethernet 0x8624) :=
  .ethernet _ _ _ (by decide) (by decide) (by decide) ⟨_, _, .sll (List.replicate 14 0) rfl, rfl⟩

/-- C113 is false for PPP, where the two programs never agree: frames with NDN are given to the dissector and not let through by
the filter. -/
theorem C113_ppp_refuted (rest : Bytes) : IsCarrier .ppp ([0xff, 0x03] ++ be16 0x0077 ++ rest) (.ppp 0x0077) ∧
    (Carrier.ppp 0x0077).dissected = true ∧ defaultAst.passes .ppp ([0xff, 0x03] ++ be16 0x0077 ++ rest) = false :=
  ⟨.ppp _ _ (by decide) (by decide) (by decide), (ppp_iff _).mpr rfl, C91_ppp_refuted rest⟩

end Verif.Wireshark
