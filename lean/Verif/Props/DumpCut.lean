import Verif.Proofs.DumpCut
import Verif.Props.Dump

/-! # C35 for packets that were not captured entirely -/

namespace Verif.Dump

open Spec

/-- C35, packets that were not captured entirely: either a byte outside of the captured ones is read, or the output is the same as if
the packet had been captured entirely, whatever the missing bytes are. In any case all bytes that are read belong to the original
packet: with the missing bytes, whatever they are, none outside is read. -/
theorem C35_truncated (c : Cfg) (p : Packet) (hlt : p.len < 2 ^ 32) (hne : p.mem ≠ []) (x : Bytes)
    (hx : (p.mem ++ x).length = p.len) :
    (printPacket c p = .error .ub ∨ printPacket c p = printPacket c { p with mem := p.mem ++ x }) ∧
    printPacket c { p with mem := p.mem ++ x } ≠ .error .ub := by
  refine ⟨?_, C35_inside_partial c _ ⟨hx.symm, hlt⟩⟩
  have h1 : Sane p := ⟨hne, by rw [← hx]; simp⟩
  have h2 : Sane { p with mem := p.mem ++ x } := ⟨by simp [hne], Nat.le_of_eq hx⟩
  rw [printPacket_sane h1, printPacket_sane h2]
  rcases printLink_mono p.mem x c p.len with h | h
  · rw [h]; exact .inl rfl
  · rw [h]; exact .inr rfl

/-- An Ethernet frame with a Data packet, of which the padding was not captured: the output is that for the entire frame. -/
example : printPacket tcfg ⟨tmac ++ be16 0x8624 ++ tdata, 60, 0, 0⟩ =
    printPacket tcfg ⟨tmac ++ be16 0x8624 ++ tdata ++ List.replicate 43 0, 60, 0, 0⟩ ∧
    printPacket tcfg ⟨tmac ++ be16 0x8624 ++ tdata, 60, 0, 0⟩ ≠ .error .ub := by decide +kernel

/-- C35 fails for every packet that was cut: in every encapsulation, if the frame carries a complete Interest, Data or LpPacket and less was
captured than up to its end, bytes outside of the captured ones are read. -/
theorem C35_cut_refuted {P : Prop} (c : Cfg) {e : Encap} {t : Nat} {v el more rest frame : Bytes}
    (h : IsFrame P c.link e (el ++ more) rest frame) (hel : IsElement t v el) (ht : t = 5 ∨ t = 6 ∨ t = 100) (hv : v ≠ [])
    (hlt : frame.length < 2 ^ 32) {k : Nat} (hk : 0 < k) (hk' : k + rest.length + more.length < frame.length) (sec usec : Nat) :
    printPacket c ⟨frame.take k, frame.length, sec, usec⟩ = .error .ub := by
  have hs : Sane ⟨frame.take k, frame.length, sec, usec⟩ := by
    refine ⟨?_, by simp⟩
    intro hc
    have := congrArg List.length hc
    simp at this
    rcases this with rfl | rfl
    · omega
    · simp at hk'
  rw [printPacket_sane hs]
  dsimp only
  rw [cut_ub h hel ht hv (by omega) hk']
  rfl

/-- The Data packet `06 01 41` in UDP over IPv4, of which the last byte was not captured. -/
example : printPacket tcfg ⟨(tmac ++ be16 0x0800 ++ tip4 17 (20 + 11) ++ tudp 3 ++ tdata ++ [0, 0, 0]).take 44, 48, 0, 0⟩ = .error .ub :=
  C35_cut_refuted (t := 6) (v := [65]) (el := tdata) (more := []) (c := tcfg) tudp_frame ⟨by decide, by decide, [6], [1],
    .inl ⟨6, rfl, rfl, by decide⟩, .inl ⟨1, rfl, rfl, by decide⟩, rfl⟩ (.inr (.inl rfl)) (by decide) (by decide) (by decide) (by decide) 0 0

end Verif.Dump
