import Verif.Spec.Tlv
import Verif.Proofs.Name

/-! # Lemmas about TLV decoding -/

namespace Verif

theorem toNat_eq_lit {x : UInt8} {n : Nat} (h : x.toNat = n) : x = UInt8.ofNat n := by
  subst h; simp

theorem readVarNumber_iff (b : Bytes) (n : Nat) (r : Bytes) :
    readVarNumber b = some (n, r) ↔ ∃ e, IsVarNumber n e ∧ b = e ++ r := by
  cases b with
  | nil =>
    constructor
    · intro h; cases h
    · rintro ⟨e, he, h⟩
      exfalso
      have : e = [] := (List.append_eq_nil_iff.mp h.symm).1
      subst this
      rcases he with ⟨x, h, _⟩ | ⟨l, h, _⟩ | ⟨l, h, _⟩ | ⟨l, h, _⟩ <;> cases h
  | cons x l =>
    simp only [readVarNumber]
    have hx := x.toNat_lt
    by_cases h1 : x.toNat < 253
    · rw [if_pos h1]
      constructor
      · intro h
        cases h
        exact ⟨[x], Or.inl ⟨x, rfl, rfl, h1⟩, rfl⟩
      · rintro ⟨e, he, h⟩
        rcases he with ⟨y, rfl, h2, h3⟩ | ⟨l, rfl, _⟩ | ⟨l, rfl, _⟩ | ⟨l, rfl, _⟩
        · simp at h; obtain ⟨rfl, rfl⟩ := h; rw [h2]
        · simp at h; obtain ⟨rfl, _⟩ := h; simp at h1
        · simp at h; obtain ⟨rfl, _⟩ := h; simp at h1
        · simp at h; obtain ⟨rfl, _⟩ := h; simp at h1
    · rw [if_neg h1]
      have key : ∀ w : Nat, (if l.length < w then none else some (beNat (l.take w), l.drop w)) = some (n, r) ↔
          ∃ m : Bytes, m.length = w ∧ beNat m = n ∧ l = m ++ r := by
        intro w
        constructor
        · intro h
          split at h
          · cases h
          · cases h
            exact ⟨l.take w, by rw [List.length_take]; omega, rfl, (List.take_append_drop w l).symm⟩
        · rintro ⟨m, rfl, rfl, rfl⟩
          rw [if_neg (by simp)]
          simp
      have hcase : x = 253 ∨ x = 254 ∨ x = 255 := by
        have : x.toNat = 253 ∨ x.toNat = 254 ∨ x.toNat = 255 := by omega
        rcases this with h | h | h
        · left; exact toNat_eq_lit h
        · right; left; exact toNat_eq_lit h
        · right; right; exact toNat_eq_lit h
      rcases hcase with rfl | rfl | rfl
      · show (if l.length < 2 then none else some (beNat (l.take 2), l.drop 2)) = some (n, r) ↔ _
        rw [key]
        constructor
        · rintro ⟨m, h1, h2, rfl⟩
          exact ⟨253 :: m, Or.inr (Or.inl ⟨m, rfl, h1, h2⟩), rfl⟩
        · rintro ⟨e, he, h⟩
          rcases he with ⟨y, rfl, h2, h3⟩ | ⟨m, rfl, h2, h3⟩ | ⟨m, rfl, h2, h3⟩ | ⟨m, rfl, h2, h3⟩
          · simp at h; obtain ⟨rfl, _⟩ := h; rw [← h2] at h3; simp at h3
          · simp at h; exact ⟨m, h2, h3, h⟩
          · simp at h
          · simp at h
      · show (if l.length < 4 then none else some (beNat (l.take 4), l.drop 4)) = some (n, r) ↔ _
        rw [key]
        constructor
        · rintro ⟨m, h1, h2, rfl⟩
          exact ⟨254 :: m, Or.inr (Or.inr (Or.inl ⟨m, rfl, h1, h2⟩)), rfl⟩
        · rintro ⟨e, he, h⟩
          rcases he with ⟨y, rfl, h2, h3⟩ | ⟨m, rfl, h2, h3⟩ | ⟨m, rfl, h2, h3⟩ | ⟨m, rfl, h2, h3⟩
          · simp at h; obtain ⟨rfl, _⟩ := h; rw [← h2] at h3; simp at h3
          · simp at h
          · simp at h; exact ⟨m, h2, h3, h⟩
          · simp at h
      · show (if l.length < 8 then none else some (beNat (l.take 8), l.drop 8)) = some (n, r) ↔ _
        rw [key]
        constructor
        · rintro ⟨m, h1, h2, rfl⟩
          exact ⟨255 :: m, Or.inr (Or.inr (Or.inr ⟨m, rfl, h1, h2⟩)), rfl⟩
        · rintro ⟨e, he, h⟩
          rcases he with ⟨y, rfl, h2, h3⟩ | ⟨m, rfl, h2, h3⟩ | ⟨m, rfl, h2, h3⟩ | ⟨m, rfl, h2, h3⟩
          · simp at h; obtain ⟨rfl, _⟩ := h; rw [← h2] at h3; simp at h3
          · simp at h
          · simp at h
          · simp at h; exact ⟨m, h2, h3, h⟩

theorem readType_iff (b : Bytes) (n : Nat) (r : Bytes) :
    readType b = some (n, r) ↔ 1 ≤ n ∧ n < 2 ^ 32 ∧ ∃ e, IsVarNumber n e ∧ b = e ++ r := by
  unfold readType
  rw [← readVarNumber_iff]
  cases h : readVarNumber b with
  | none => simp
  | some p =>
    obtain ⟨m, q⟩ := p
    dsimp only
    by_cases hm : m = 0 ∨ 2 ^ 32 ≤ m
    · rw [if_pos hm]
      constructor
      · intro h; cases h
      · rintro ⟨h1, h2, h3⟩; cases h3; omega
    · rw [if_neg hm]
      constructor
      · intro h; cases h; exact ⟨by omega, by omega, rfl⟩
      · rintro ⟨h1, h2, h3⟩; exact h3

theorem readBlock_iff (s : Bytes) (b : Block) (r : Bytes) :
    readBlock s = .ok (b, r) ↔ ∃ e, IsElement b.type b.value e ∧ s = e ++ r := by
  unfold readBlock
  constructor
  · intro h
    split at h
    · cases h
    · rename_i t r1 h1
      split at h
      · cases h
      · rename_i n r2 h2
        split at h
        · cases h
        · rename_i hn
          cases h
          obtain ⟨a1, a2, e1, he1, rfl⟩ := (readType_iff _ _ _).mp h1
          obtain ⟨e2, he2, rfl⟩ := (readVarNumber_iff _ _ _).mp h2
          have hl : (r2.take n).length = n := by rw [List.length_take]; omega
          refine ⟨e1 ++ e2 ++ r2.take n, ⟨a1, a2, e1, e2, he1, by rw [hl]; exact he2, rfl⟩, ?_⟩
          rw [List.append_assoc, List.append_assoc, List.take_append_drop]
  · rintro ⟨e, ⟨a1, a2, e1, e2, he1, he2, rfl⟩, rfl⟩
    have h1 : readType (e1 ++ e2 ++ b.value ++ r) = some (b.type, e2 ++ b.value ++ r) :=
      (readType_iff _ _ _).mpr ⟨a1, a2, e1, he1, by simp⟩
    have h2 : readVarNumber (e2 ++ b.value ++ r) = some (b.value.length, b.value ++ r) :=
      (readVarNumber_iff _ _ _).mpr ⟨e2, he2, by simp⟩
    rw [h1]; dsimp only
    rw [h2]; dsimp only
    rw [if_neg (by simp)]
    simp

theorem fromStream_iff (s : Bytes) (b : Block) (r : Bytes) :
    fromStream s = some (b, r) ↔ b.size ≤ maxStreamBlock ∧ ∃ e, IsElement b.type b.value e ∧ s = e ++ r := by
  rw [← readBlock_iff]
  unfold fromStream readBlock
  cases h1 : readType s with
  | none => simp
  | some p =>
    obtain ⟨t, r1⟩ := p
    dsimp only
    cases h2 : readVarNumber r1 with
    | none => simp
    | some q =>
      obtain ⟨n, r2⟩ := q
      dsimp only
      by_cases hn : r2.length < n
      · rw [if_pos hn]; simp [hn]
      · simp only [if_neg hn]
        have hl : (r2.take n).length = n := by rw [List.length_take]; omega
        constructor
        · intro h
          split at h
          · cases h
          · rename_i hs
            cases h
            refine ⟨?_, rfl⟩
            unfold Block.size
            rw [hl]; dsimp only; omega
        · rintro ⟨h3, h4⟩
          cases h4
          unfold Block.size at h3
          rw [hl] at h3
          dsimp only at h3
          rw [if_neg (by omega)]

theorem isVarNumber_write {n : Nat} (h : n < 2 ^ 64) : IsVarNumber n (writeVarNumber n) := by
  unfold writeVarNumber
  split
  · left
    refine ⟨_, rfl, ?_, by assumption⟩
    rw [UInt8.toNat_ofNat']
    omega
  · split
    · right; left
      exact ⟨_, rfl, length_beBytes _ _, by rw [beNat_beBytes]; omega⟩
    · split
      · right; right; left
        exact ⟨_, rfl, length_beBytes _ _, by rw [beNat_beBytes]; omega⟩
      · right; right; right
        exact ⟨_, rfl, length_beBytes _ _, by rw [beNat_beBytes]; omega⟩

theorem length_writeVarNumber (n : Nat) : (writeVarNumber n).length = sizeOfVarNumber n := by
  unfold writeVarNumber sizeOfVarNumber
  split
  · rfl
  · split
    · simp [length_beBytes]
    · split
      · simp [length_beBytes]
      · simp [length_beBytes]

theorem length_encode (b : Block) : b.encode.length = b.size := by
  unfold Block.encode Block.size
  rw [List.length_append, List.length_append, length_writeVarNumber, length_writeVarNumber]

/-- The blocks that have an encoding. -/
def Block.Valid (b : Block) : Prop := 1 ≤ b.type ∧ b.type < 2 ^ 32 ∧ b.value.length < 2 ^ 64

theorem isElement_encode {b : Block} (h : b.Valid) : IsElement b.type b.value b.encode :=
  ⟨h.1, h.2.1, _, _, isVarNumber_write (by have := h.2.1; omega), isVarNumber_write h.2.2, rfl⟩

theorem beNat_lt (l : Bytes) : beNat l < 256 ^ l.length := by
  unfold beNat
  have : ∀ (l : Bytes) (a : Nat), l.foldl (fun a x => a * 256 + x.toNat) a < (a + 1) * 256 ^ l.length := by
    intro l
    induction l with
    | nil => intro a; simp
    | cons x l ih =>
      intro a
      rw [List.foldl_cons]
      have h1 := ih (a * 256 + x.toNat)
      have hx := x.toNat_lt
      have h2 : (a * 256 + x.toNat + 1) * 256 ^ l.length ≤ (a + 1) * 256 * 256 ^ l.length :=
        Nat.mul_le_mul_right _ (by omega)
      rw [List.length_cons, Nat.pow_succ, Nat.mul_comm (256 ^ l.length) 256, ← Nat.mul_assoc]
      omega
  have h := this l 0
  simpa using h

/-- An encoding with the right number of bytes is at least as long as the shortest one. -/
theorem sizeOfVarNumber_le {n : Nat} {e : Bytes} (h : IsVarNumber n e) : sizeOfVarNumber n ≤ e.length := by
  unfold sizeOfVarNumber
  rcases h with ⟨x, rfl, h1, h2⟩ | ⟨l, rfl, h1, h2⟩ | ⟨l, rfl, h1, h2⟩ | ⟨l, rfl, h1, h2⟩
  · rw [if_pos h2]; simp
  all_goals
    have h3 := beNat_lt l
    rw [h1, h2] at h3
    simp only [List.length_cons, h1]
    split
    · omega
    · split
      · omega
      · split <;> omega

end Verif
