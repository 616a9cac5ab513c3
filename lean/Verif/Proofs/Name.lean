import Verif.Model.Name
import Mathlib.Data.Nat.Basic
import Mathlib.Tactic.NormNum

/-! # Lemmas about names and their components -/

namespace Verif

theorem beNat_snoc (a : Bytes) (b : UInt8) : beNat (a ++ [b]) = beNat a * 256 + b.toNat := by
  simp [beNat]

theorem beNat_beBytes (w : Nat) : ∀ n, beNat (beBytes w n) = n % 256 ^ w := by
  induction w with
  | zero => intro n; simp [beBytes, beNat, Nat.mod_one]
  | succ w ih =>
    intro n
    have h1 : n % 256 ^ (w + 1) = n % 256 + 256 * (n / 256 % 256 ^ w) := by
      rw [Nat.pow_succ, Nat.mul_comm (256 ^ w) 256, Nat.mod_mul]
    have h2 : n % 256 % 2 ^ 8 = n % 256 := Nat.mod_mod_of_dvd _ (by norm_num)
    rw [beBytes, beNat_snoc, ih, UInt8.toNat_ofNat', h1, h2]
    omega

theorem length_beBytes (w : Nat) : ∀ n, (beBytes w n).length = w := by
  induction w with
  | zero => intro n; rfl
  | succ w ih => intro n; simp [beBytes, ih]

theorem nniDecode_nniEncode {n : Nat} (h : n < 2 ^ 64) : nniDecode (nniEncode n) = some n := by
  unfold nniEncode
  split
  · rename_i h1
    unfold nniDecode
    rw [length_beBytes, if_pos (by simp), beNat_beBytes, Nat.mod_eq_of_lt]
    norm_num at h1 ⊢; exact h1
  · split
    · rename_i h1
      unfold nniDecode
      rw [length_beBytes, if_pos (by simp), beNat_beBytes, Nat.mod_eq_of_lt]
      norm_num at h1 ⊢; exact h1
    · split
      · rename_i h1
        unfold nniDecode
        rw [length_beBytes, if_pos (by simp), beNat_beBytes, Nat.mod_eq_of_lt]
        norm_num at h1 ⊢; exact h1
      · unfold nniDecode
        rw [length_beBytes, if_pos (by simp), beNat_beBytes, Nat.mod_eq_of_lt]
        norm_num at h ⊢; exact h

theorem decode_encode {conv : Convention} {t : Nat} {m : UInt8} {n : Nat} (ht : t ≠ ttGeneric)
    (h : n < 2 ^ 64) : (Comp.encode conv t m n).decode t m = some n := by
  cases conv with
  | marker => simp [Comp.encode, Comp.decode, nniDecode_nniEncode h]
  | typed => simp [Comp.encode, Comp.decode, nniDecode_nniEncode h, ht]

theorem decode_other {conv : Convention} {t t' : Nat} {m m' : UInt8} {n : Nat} (ht : t ≠ ttGeneric)
    (htt : t ≠ t') (hm : m ≠ m') : (Comp.encode conv t m n).decode t' m' = none := by
  cases conv with
  | marker => simp [Comp.encode, Comp.decode, hm]
  | typed => simp [Comp.encode, Comp.decode, ht, htt]

theorem toSegment_fromSegment {conv : Convention} {n : Nat} (h : n < 2 ^ 64) :
    (Comp.fromSegment conv n).toSegment = some n := decode_encode (by decide) h

theorem toVersion_fromVersion {conv : Convention} {n : Nat} (h : n < 2 ^ 64) :
    (Comp.fromVersion conv n).toVersion = some n := decode_encode (by decide) h

theorem toVersion_fromSegment {conv : Convention} {n : Nat} :
    (Comp.fromSegment conv n).toVersion = none := decode_other (by decide) (by decide) (by decide)

theorem toSegment_fromVersion {conv : Convention} {n : Nat} :
    (Comp.fromVersion conv n).toSegment = none := decode_other (by decide) (by decide) (by decide)

theorem fromSegment_inj {c c' : Convention} {n m : Nat} (hn : n < 2 ^ 64) (hm : m < 2 ^ 64)
    (h : Comp.fromSegment c n = Comp.fromSegment c' m) : n = m ∧ c = c' := by
  have h1 := congrArg Comp.toSegment h
  rw [toSegment_fromSegment hn, toSegment_fromSegment hm] at h1
  refine ⟨by simpa using h1, ?_⟩
  have h2 := congrArg Comp.type h
  cases c <;> cases c' <;> simp [Comp.fromSegment, Comp.encode, ttSegment, ttGeneric] at h2 ⊢

theorem fromVersion_inj {c c' : Convention} {n m : Nat} (hn : n < 2 ^ 64) (hm : m < 2 ^ 64)
    (h : Comp.fromVersion c n = Comp.fromVersion c' m) : n = m ∧ c = c' := by
  have h1 := congrArg Comp.toVersion h
  rw [toVersion_fromVersion hn, toVersion_fromVersion hm] at h1
  refine ⟨by simpa using h1, ?_⟩
  have h2 := congrArg Comp.type h
  cases c <;> cases c' <;> simp [Comp.fromVersion, Comp.encode, ttVersion, ttGeneric] at h2 ⊢

theorem metadataComp_not_version : metadataComp.isVersion = false := by decide
theorem metadataComp_not_segment : metadataComp.isSegment = false := by decide

theorem isPrefixOf_iff : ∀ {a b : Name}, a.isPrefixOf b = true ↔ a <+: b
  | [], b => by simp [Name.isPrefixOf]
  | x :: a, [] => by simp [Name.isPrefixOf]
  | x :: a, y :: b => by
    rw [Name.isPrefixOf, Bool.and_eq_true, decide_eq_true_eq, isPrefixOf_iff, List.cons_prefix_cons]

theorem endsWithVersion_iff {n : Name} :
    n.endsWithVersion = true ↔ ∃ a c, n = a ++ [c] ∧ c.isVersion = true := by
  unfold Name.endsWithVersion
  rcases List.eq_nil_or_concat n with rfl | ⟨a, c, rfl⟩
  · simp
  · rw [List.concat_eq_append, List.getLast?_append, List.getLast?_singleton]
    simp only [Option.some_or]
    constructor
    · intro h; exact ⟨a, c, rfl, h⟩
    · rintro ⟨a', c', h1, h2⟩
      have := List.append_inj' h1 rfl
      simp at this
      rw [this.2]; exact h2

end Verif
