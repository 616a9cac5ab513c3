import Verif.Model.Wire
import Verif.Proofs.Tlv
import Verif.Proofs.Producer

/-! # Lemmas: sizes of packets -/

namespace Verif.Wire

theorem len_block (t : Nat) (v : Bytes) :
    (Block.encode ⟨t, v⟩).length = sizeOfVarNumber t + sizeOfVarNumber v.length + v.length := length_encode _

theorem sz_pos (n : Nat) : 1 ≤ sizeOfVarNumber n := by
  unfold sizeOfVarNumber; split <;> [omega; split <;> [omega; split <;> omega]]

theorem sz_le {n : Nat} (h : n < 2 ^ 16) : sizeOfVarNumber n ≤ 3 := by
  unfold sizeOfVarNumber; split
  · omega
  · exact Nat.le_refl 3

theorem sz_small {n : Nat} (h : n < 253) : sizeOfVarNumber n = 1 := by
  unfold sizeOfVarNumber; rw [if_pos h]

theorem sz_mid {n : Nat} (h : 253 ≤ n) (h2 : n < 2 ^ 16) : sizeOfVarNumber n = 3 := by
  unfold sizeOfVarNumber; rw [if_neg (by omega), if_pos h2]

theorem len_nni (n : Nat) : (nniEncode n).length ≤ 8 := by
  unfold nniEncode
  split
  · simp [length_beBytes]
  · split
    · simp [length_beBytes]
    · split <;> simp [length_beBytes]

theorem encodeComps_append (a b : Name) : encodeComps (a ++ b) = encodeComps a ++ encodeComps b := by
  simp [encodeComps]

theorem encodeComps_one (c : Comp) : encodeComps [c] = Block.encode ⟨c.type, c.value⟩ := by simp [encodeComps]

theorem len_name (n : Name) :
    (encodeName n).length = 1 + sizeOfVarNumber (encodeComps n).length + (encodeComps n).length := by
  unfold encodeName
  rw [len_block]
  rfl

/-- A component that was made from a number. -/
theorem len_numComp {conv : Convention} {t : Nat} {m : UInt8} {n : Nat} (ht : t < 253) :
    (Block.encode ⟨(Comp.encode conv t m n).type, (Comp.encode conv t m n).value⟩).length ≤ 11 := by
  have h := len_nni n
  cases conv with
  | marker =>
    simp only [Comp.encode]
    rw [len_block, sz_small (by decide), sz_small (by simp only [List.length_cons]; omega)]
    simp only [List.length_cons]; omega
  | typed =>
    simp only [Comp.encode]
    rw [len_block, sz_small ht, sz_small (by omega)]
    omega

/-- The size of the MetaInfo. -/
theorem len_meta {d : Data} (hf : ∀ c, d.final = some c → (Block.encode ⟨c.type, c.value⟩).length ≤ 11) :
    2 ≤ (encodeMeta d).length ∧ (encodeMeta d).length ≤ 25 ∧
    (d.final = none → (encodeMeta d).length ≤ 12) := by
  have h1 : ((if d.freshness = 0 then [] else Block.encode ⟨25, nniEncode d.freshness⟩) : Bytes).length ≤ 10 := by
    split
    · simp
    · have := len_nni d.freshness
      rw [len_block, sz_small (by decide), sz_small (by omega)]; omega
  unfold encodeMeta
  cases hd : d.final with
  | none =>
    dsimp only
    rw [len_block, List.append_nil, sz_small (by decide : (20 : Nat) < 253), sz_small (by omega)]
    exact ⟨by omega, by omega, fun _ => by omega⟩
  | some c =>
    dsimp only
    have h2 : (Block.encode ⟨26, Block.encode ⟨c.type, c.value⟩⟩).length ≤ 13 := by
      have := hf c hd
      rw [len_block, sz_small (by decide), sz_small (by omega)]; omega
    rw [len_block, List.length_append, sz_small (by decide : (20 : Nat) < 253), sz_small (by omega)]
    exact ⟨by omega, by omega, fun h => by cases h⟩

/-- The size of a Data. -/
theorem len_data (g : Sig) (d : Data) : ∃ v, (encodeData g d).length = 1 + sizeOfVarNumber v + v ∧
    v = (encodeName d.name).length + (encodeMeta d).length +
      (1 + sizeOfVarNumber d.content.length + d.content.length) +
      (1 + sizeOfVarNumber g.info.length + g.info.length) + (1 + sizeOfVarNumber g.value.length + g.value.length) := by
  refine ⟨_, ?_, rfl⟩
  unfold encodeData
  rw [len_block]
  simp only [List.length_append, len_block, sz_small (by decide : (6 : Nat) < 253), sz_small (by decide : (21 : Nat) < 253),
    sz_small (by decide : (22 : Nat) < 253), sz_small (by decide : (23 : Nat) < 253)]

/-- An upper bound for the size of a Data. -/
theorem data_fits {g : Sig} {d : Data} (hf : ∀ c, d.final = some c → (Block.encode ⟨c.type, c.value⟩).length ≤ 11)
    (h : (encodeName d.name).length + d.content.length + g.info.length + g.value.length ≤ 8759) :
    (encodeData g d).length ≤ maxPacket := by
  obtain ⟨v, h1, h2⟩ := len_data g d
  obtain ⟨_, h3, _⟩ := len_meta hf
  have h4 := sz_le (n := d.content.length) (by omega)
  have h5 := sz_le (n := g.info.length) (by omega)
  have h6 := sz_le (n := g.value.length) (by omega)
  have h7 := sz_le (n := v) (by omega)
  unfold maxPacket
  omega

/-- A lower bound for the size of a Data. -/
theorem data_large {g : Sig} {d : Data} (hf : ∀ c, d.final = some c → (Block.encode ⟨c.type, c.value⟩).length ≤ 11)
    (h : 8800 ≤ (encodeName d.name).length + d.content.length + g.info.length + g.value.length + 11) :
    maxPacket < (encodeData g d).length := by
  obtain ⟨v, h1, h2⟩ := len_data g d
  obtain ⟨h3, _, _⟩ := len_meta hf
  have h4 := sz_pos d.content.length
  have h5 := sz_pos g.info.length
  have h6 := sz_pos g.value.length
  have h7 : 3 ≤ sizeOfVarNumber v := by
    unfold sizeOfVarNumber
    rw [if_neg (by omega)]
    split <;> [omega; split <;> omega]
  unfold maxPacket
  omega

end Verif.Wire
