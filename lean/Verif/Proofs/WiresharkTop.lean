import Verif.Proofs.WiresharkCols

/-! # How the Wireshark dissector ends -/

namespace Verif.Wireshark

open Spec

theorem plain_eq {b : Block} (h : b.tree = false) : ({ b with tree := true } : Block).plain = b := by
  cases b; simp only [Block.plain] at h ⊢; rw [h]

theorem packetHeader_of {tvb : Bytes} {o : Nat} {b : Block} (h : getBlock tvb o = .ok (some b))
    (hv : canBeValidNdnPacket b = true) : b.offset = o ∧ PacketHeader tvb b := by
  obtain ⟨h1, h2⟩ := getBlock_header h
  obtain ⟨v1, v2, v3⟩ := (valid_iff b).mp hv
  exact ⟨h1, h2, v1, v2, v3⟩

/-- A packet header that is followed by something is found. -/
theorem getBlock_of_header {tvb : Bytes} {b : Block} (h : HasHeader tvb b)
    (hr : b.offset + b.typeLen + b.lengthLen < tvb.length) : getBlock tvb b.offset = .ok (some b.plain) := by
  obtain ⟨t, l, r, e, ht, hl, e1, e2⟩ := h
  have hlen := congrArg List.length e
  rw [List.length_drop, List.length_append, List.length_append] at hlen
  have hr' : r ≠ [] := by rintro rfl; rw [List.length_nil] at hlen; omega
  rw [getBlock_complete e ht hl (.inr hr'), ← e1, ← e2]
  rfl

theorem valid_of_header {tvb : Bytes} {b : Block} (h : PacketHeader tvb b) : canBeValidNdnPacket b.plain = true :=
  (valid_iff _).mpr ⟨h.2.1, h.2.2.1, h.2.2.2⟩

theorem dissector_first {tvb : Bytes} {n : Nat} {b : Block} (hn : tvb.length = n) (h : PacketHeader tvb b)
    (hr : b.offset + b.typeLen + b.lengthLen < tvb.length) (hb : NoneBefore tvb b.offset) :
    getBlock tvb b.offset = .ok (some b.plain) ∧ 0 < b.size ∧
    dissector tvb n = packets tvb b.plain (tvb.length - b.offset) [] {} := by
  have hg := getBlock_of_header h.1 hr
  have hv := valid_of_header h
  have hs := size_pos hg h.2.2.1
  have hs' : 0 < b.size := by have : b.plain.size = b.size := rfl; omega
  refine ⟨hg, hs', ?_⟩
  obtain ⟨t, l, r, e, ht, hl, e1, e2⟩ := h.1
  have := isVarNumber_len ht
  have := isVarNumber_len hl
  rcases dissector_cases tvb n with ⟨-, h1 | h1⟩ | ⟨-, c, h1, h2, h3, h4, h5, h6⟩
  · exact absurd hn h1
  · have := h1 b.offset b.plain (by omega) hg
    rw [hv] at this; cases this
  · have c1 := hb c (packetHeader_of h2 h3).2
    have : c.offset = b.offset := by
      by_cases hlt : b.offset < c.offset
      · have := h6 b.offset b.plain hlt hg
        rw [hv] at this; cases this
      · omega
    rw [this] at h2
    rw [hg] at h2
    cases h2
    exact h1

/-- Whether the root is marked does not matter. -/
theorem reached_root {tvb : Bytes} {b c : Block} (h : Reached tvb { b with tree := true } c) :
    c = { b with tree := true } ∨ Reached tvb b c := by
  induction h with
  | root => exact .inl rfl
  | step hp hbs hh hin hc ih =>
    right
    rcases ih with rfl | ih
    · exact .step .root hbs hh hin hc
    · exact .step ih hbs hh hin hc

theorem reached_plain {tvb : Bytes} {b c : Block} (h : Reached tvb b.plain c) : c = b.plain ∨ Reached tvb b c := by
  induction h with
  | root => exact .inl rfl
  | step hp hbs hh hin hc ih =>
    right
    rcases ih with rfl | ih
    · exact .step .root hbs hh hin hc
    · exact .step ih hbs hh hin hc

/-- How the dissector ends if there is a packet. -/
theorem dissector_ends (tvb : Bytes) (n : Nat) :
    (dissector tvb n = .ignored ∧ (tvb.length ≠ n ∨
      ∀ b, PacketHeader tvb b → b.offset + b.typeLen + b.lengthLen < tvb.length → False)) ∨
    (tvb.length = n ∧ ∃ b, PacketHeader tvb b ∧ (∀ c, PacketHeader tvb c → c.offset + c.typeLen + c.lengthLen < tvb.length →
      b.offset ≤ c.offset) ∧ getBlock tvb b.offset = .ok (some b) ∧ b.offset + 2 < tvb.length ∧
      ((tvb.length < endOf b ∧ dissector tvb n = .done [] {} (some b.offset)) ∨
       (endOf b ≤ tvb.length ∧
        ((∃ e, dissector tvb n = .error [] e ∧ (e = .badArgument ∨ e = .nilIndex) ∧ ∃ c, Reached tvb b c ∧ Bad c) ∨
         ∃ t, t.block = { b with tree := true } ∧
          ((endOf b = tvb.length ∧ dissector tvb n = .done [t] ((trace t).foldl Cols.update {}) none) ∨
           (endOf b < tvb.length ∧
            ((getBlock tvb (endOf b) = .ok none ∧ dissector tvb n = .done [t] ((trace t).foldl Cols.update {}) none) ∨
             ∃ b', getBlock tvb (endOf b) = .ok (some b') ∧
              ((canBeValidNdnPacket b' = true ∧ dissector tvb n = .error [t] .nilIndex) ∨
               (canBeValidNdnPacket b' = false ∧ dissector tvb n = .done [t] ((trace t).foldl Cols.update {})
                  (if b'.size > tvb.length - endOf b then some (endOf b) else none)))))))))) := by
  rcases dissector_cases tvb n with ⟨h1, h2⟩ | ⟨hn, b, h1, h2, h3, h4, h5, h6⟩
  · left
    refine ⟨h1, ?_⟩
    rcases h2 with h2 | h2
    · exact .inl h2
    · right
      intro b hb hr
      obtain ⟨t, l, r, e, ht, hl, e1, e2⟩ := hb.1
      have := isVarNumber_len ht
      have := isVarNumber_len hl
      have := h2 b.offset b.plain (by omega) (getBlock_of_header hb.1 hr)
      rw [valid_of_header hb] at this; cases this
  · right
    refine ⟨hn, b, (packetHeader_of h2 h3).2, ?_, h2, h4, ?_⟩
    · intro c hc hr
      by_cases hlt : c.offset < b.offset
      · have := h6 c.offset c.plain hlt (getBlock_of_header hc.1 hr)
        rw [valid_of_header hc] at this; cases this
      · omega
    have hend : endOf b = b.offset + b.size := by
      rw [(size_pos h2 ((valid_iff b).mp h3).2.1).1]; unfold endOf; omega
    rw [h1, packets_eq h5]
    by_cases hs : b.size ≤ tvb.length - b.offset
    · right
      refine ⟨by omega, ?_⟩
      rw [if_pos hs]
      by_cases h9 : b.lengthLen = 9
      · left
        rw [if_pos h9]
        exact ⟨_, rfl, .inl rfl, b, .root, .inr (.inl h9)⟩
      rw [if_neg h9]
      have hpl := plain_eq (getBlock_sound h2).2.1
      have hsz : ({ b with tree := true } : Block).size = b.size := rfl
      cases hb : build tvb (b.length + 1) { b with tree := true } with
      | error e =>
        left
        have := build_err (root := { b with tree := true }) hb (by rw [hpl]; exact h2) h9 (by rw [hsz]; dsimp only; omega)
          (by dsimp only; omega) .root
        obtain ⟨e1, c, c1, c2⟩ := this
        refine ⟨e, rfl, e1, ?_⟩
        rcases reached_root c1 with rfl | c1
        · exact ⟨b, .root, c2⟩
        · exact ⟨c, c1, c2⟩
      | ok t =>
        right
        have g := build_good hb (by rw [hpl]; exact h2) h9 (by rw [hsz]; dsimp only; omega)
        refine ⟨t, g.1, ?_⟩
        dsimp only
        by_cases hl : tvb.length - b.offset = b.size
        · left
          rw [if_pos hl]
          exact ⟨by omega, rfl⟩
        · right
          rw [if_neg hl]
          have he : tvb.length - (tvb.length - b.offset - b.size) = endOf b := by omega
          have hr : tvb.length - b.offset - b.size = tvb.length - endOf b := by omega
          rw [he, hr]
          refine ⟨by omega, ?_⟩
          cases hg : getBlock tvb (endOf b) with
          | error e => exact absurd hg (getBlock_not_error _ _ _)
          | ok o =>
            cases o with
            | none => exact .inl ⟨rfl, rfl⟩
            | some b' =>
              right
              refine ⟨b', rfl, ?_⟩
              dsimp only
              cases hv : canBeValidNdnPacket b' with
              | true => exact .inl ⟨rfl, by rw [if_pos rfl]; rfl⟩
              | false =>
                right
                rw [if_neg (by decide)]
                refine ⟨rfl, ?_⟩
                unfold finish
                by_cases hgt : b'.size > tvb.length - endOf b
                · rw [if_pos ⟨by omega, by simpa using hgt⟩, if_pos hgt]
                  congr 2
                  · omega
                · rw [if_neg (fun h => hgt (by simpa using h.2)), if_neg hgt]
                  rfl
    · left
      rw [if_neg hs]
      unfold finish
      rw [if_pos ⟨by omega, by simpa using hs⟩]
      refine ⟨by omega, ?_⟩
      congr 2
      omega

end Verif.Wireshark
