import Verif.Spec.Wireshark
import Verif.Proofs.Tlv

/-! # Lemmas about the Wireshark dissector -/

namespace Verif.Wireshark

open Spec

theorem range_ok {tvb : Bytes} {o n : Nat} (h : o + n ≤ tvb.length) : range tvb o n = .ok (slice tvb o n) := by
  unfold range; rw [if_pos h]; rfl

/-- `readVarNumber` on the bytes from the offset on. -/
def rv : Bytes → Nat × Nat
  | [] => (0, 0)
  | x :: r =>
    if x.toNat < 253 then (x.toNat, 1)
    else if x.toNat = 253 ∧ 2 < r.length then (beNat (r.take 2), 3)
    else if x.toNat = 254 ∧ 4 < r.length then (beNat (r.take 4), 5)
    else if x.toNat = 255 ∧ 8 < r.length then (beNat (r.take 8), 9)
    else (0, 0)

theorem readVarNumber_eq (tvb : Bytes) (o : Nat) : readVarNumber tvb o = .ok (rv (tvb.drop o)) := by
  unfold readVarNumber
  by_cases h : o ≥ tvb.length
  · rw [if_pos h, List.drop_eq_nil_of_le h]; rfl
  · rw [if_neg h]
    have hl : o < tvb.length := by omega
    obtain ⟨x, r, hx⟩ : ∃ x r, tvb.drop o = x :: r := by
      cases hd : tvb.drop o with
      | nil => have := List.drop_eq_nil_iff.mp hd; omega
      | cons x r => exact ⟨x, r, rfl⟩
    have hr : tvb.drop (o + 1) = r := by
      rw [← List.drop_drop, hx]; rfl
    have hlen : r.length + 1 + o = tvb.length := by
      have := congrArg List.length hx
      simp at this; omega
    have u1 : uint tvb o 1 = .ok x.toNat := by
      unfold uint
      rw [range_ok (by omega)]
      simp [slice, hx, Except.map, beNat]
    have uw : ∀ w, o + 1 + w ≤ tvb.length → uint tvb (o + 1) w = .ok (beNat (r.take w)) := by
      intro w hw
      unfold uint
      rw [range_ok hw]
      simp [slice, hr, Except.map]
    rw [u1, hx]
    simp only [rv]
    by_cases h1 : x.toNat < 253
    · rw [if_pos h1, if_pos h1]
    rw [if_neg h1, if_neg h1]
    have e3 : o + 3 < tvb.length ↔ 2 < r.length := by omega
    have e5 : o + 5 < tvb.length ↔ 4 < r.length := by omega
    have e9 : o + 9 < tvb.length ↔ 8 < r.length := by omega
    simp only [e3, e5, e9]
    by_cases h3 : x.toNat = 253 ∧ 2 < r.length
    · rw [if_pos h3, if_pos h3, uw 2 (by omega)]; rfl
    rw [if_neg h3, if_neg h3]
    by_cases h5 : x.toNat = 254 ∧ 4 < r.length
    · rw [if_pos h5, if_pos h5, uw 4 (by omega)]; rfl
    rw [if_neg h5, if_neg h5]
    by_cases h9 : x.toNat = 255 ∧ 8 < r.length
    · rw [if_pos h9, if_pos h9, uw 8 (by omega)]; rfl
    rw [if_neg h9, if_neg h9]

/-- Numbers that are read are numbers of the packet format; those of more than one octet are followed by another octet. -/
theorem rv_sound {s : Bytes} (h : (rv s).2 ≠ 0) :
    ∃ e r, s = e ++ r ∧ IsVarNumber (rv s).1 e ∧ (rv s).2 = e.length ∧ (e.length = 1 ∨ r ≠ []) := by
  cases s with
  | nil => exact absurd rfl h
  | cons x l =>
    simp only [rv] at h ⊢
    by_cases h1 : x.toNat < 253
    · rw [if_pos h1]
      exact ⟨[x], l, rfl, .inl ⟨x, rfl, rfl, h1⟩, rfl, .inl rfl⟩
    rw [if_neg h1] at h ⊢
    have key : ∀ w, w < l.length → l = l.take w ++ l.drop w ∧ l.drop w ≠ [] ∧ (l.take w).length = w := by
      intro w hw
      refine ⟨(List.take_append_drop w l).symm, ?_, by simp; omega⟩
      intro e
      have := List.drop_eq_nil_iff.mp e
      omega
    by_cases h3 : x.toNat = 253 ∧ 2 < l.length
    · rw [if_pos h3]
      obtain ⟨k1, k2, k3⟩ := key 2 h3.2
      refine ⟨x :: l.take 2, l.drop 2, by rw [List.cons_append, ← k1], .inr (.inl ⟨l.take 2, ?_, k3, rfl⟩), ?_, .inr k2⟩
      · rw [toNat_eq_lit h3.1]; rfl
      · simp [k3]
    rw [if_neg h3] at h ⊢
    by_cases h5 : x.toNat = 254 ∧ 4 < l.length
    · rw [if_pos h5]
      obtain ⟨k1, k2, k3⟩ := key 4 h5.2
      refine ⟨x :: l.take 4, l.drop 4, by rw [List.cons_append, ← k1], .inr (.inr (.inl ⟨l.take 4, ?_, k3, rfl⟩)), ?_, .inr k2⟩
      · rw [toNat_eq_lit h5.1]; rfl
      · simp [k3]
    rw [if_neg h5] at h ⊢
    by_cases h9 : x.toNat = 255 ∧ 8 < l.length
    · rw [if_pos h9]
      obtain ⟨k1, k2, k3⟩ := key 8 h9.2
      refine ⟨x :: l.take 8, l.drop 8, by rw [List.cons_append, ← k1], .inr (.inr (.inr ⟨l.take 8, ?_, k3, rfl⟩)), ?_, .inr k2⟩
      · rw [toNat_eq_lit h9.1]; rfl
      · simp [k3]
    rw [if_neg h9] at h
    exact absurd rfl h

theorem rv_complete {n : Nat} {e r : Bytes} (h : IsVarNumber n e) (hr : e.length = 1 ∨ r ≠ []) :
    rv (e ++ r) = (n, e.length) := by
  have key : ∀ (w : Nat) (l : Bytes), l.length = w → r ≠ [] → w < (l ++ r).length ∧ (l ++ r).take w = l := by
    intro w l hw hr
    have : 0 < r.length := List.length_pos_iff.mpr hr
    refine ⟨by simp; omega, by rw [← hw]; simp⟩
  rcases h with ⟨x, rfl, h1, h2⟩ | ⟨l, rfl, h1, h2⟩ | ⟨l, rfl, h1, h2⟩ | ⟨l, rfl, h1, h2⟩
  · simp only [List.cons_append, rv]
    rw [if_pos (by omega), h1]; rfl
  all_goals
    have hr : r ≠ [] := hr.resolve_left (by rw [List.length_cons]; omega)
    obtain ⟨k1, k2⟩ := key _ l h1 hr
    simp only [List.cons_append, rv, k2, h2]
    simp [-List.length_append, k1, h1]

theorem getBlock_eq (tvb : Bytes) (o : Nat) :
    getBlock tvb o = .ok (
      let t := rv (tvb.drop o)
      let l := rv (tvb.drop (o + t.2))
      if t.2 = 0 then none else if l.2 = 0 then none
      else some { offset := o, type := t.1, typeLen := t.2, length := l.1, lengthLen := l.2 }) := by
  unfold getBlock
  rw [readVarNumber_eq]
  dsimp only
  by_cases h : (rv (tvb.drop o)).2 = 0
  · rw [if_pos h, if_pos h]
  rw [if_neg h, if_neg h, readVarNumber_eq]
  dsimp only
  by_cases h : (rv (tvb.drop (o + (rv (tvb.drop o)).2))).2 = 0
  · rw [if_pos h, if_pos h]
  rw [if_neg h, if_neg h]

theorem getBlock_not_error (tvb : Bytes) (o : Nat) (e : Err) : getBlock tvb o ≠ .error e := by
  rw [getBlock_eq]; exact fun h => by cases h

theorem isVarNumber_len {n : Nat} {e : Bytes} (h : IsVarNumber n e) :
    e.length = 1 ∨ e.length = 3 ∨ e.length = 5 ∨ e.length = 9 := by
  rcases h with ⟨x, rfl, h1, h2⟩ | ⟨l, rfl, h1, h2⟩ | ⟨l, rfl, h1, h2⟩ | ⟨l, rfl, h1, h2⟩ <;> simp [*]

theorem getBlock_sound {tvb : Bytes} {o : Nat} {b : Block} (h : getBlock tvb o = .ok (some b)) :
    b.offset = o ∧ b.tree = false ∧ ∃ t l r, tvb.drop o = t ++ l ++ r ∧ IsVarNumber b.type t ∧ IsVarNumber b.length l ∧
      b.typeLen = t.length ∧ b.lengthLen = l.length := by
  rw [getBlock_eq] at h
  dsimp only at h
  split at h
  · cases h
  rename_i h1
  split at h
  · cases h
  rename_i h2
  cases h
  refine ⟨rfl, rfl, ?_⟩
  obtain ⟨t, r, e1, i1, l1, -⟩ := rv_sound h1
  obtain ⟨l, r', e2, i2, l2, -⟩ := rv_sound h2
  refine ⟨t, l, r', ?_, i1, i2, l1, l2⟩
  rw [List.append_assoc, ← e2, l1, ← List.drop_drop, e1]
  simp

theorem getBlock_complete {tvb : Bytes} {o type length : Nat} {t l r : Bytes} (h : tvb.drop o = t ++ l ++ r)
    (ht : IsVarNumber type t) (hl : IsVarNumber length l) (hr : l.length = 1 ∨ r ≠ []) :
    getBlock tvb o = .ok (some
      { offset := o, type := type, typeLen := t.length, length := length, lengthLen := l.length }) := by
  have hl' := isVarNumber_len hl
  have ht' := isVarNumber_len ht
  have e1 : rv (tvb.drop o) = (type, t.length) := by
    rw [h, List.append_assoc]
    exact rv_complete ht (.inr (by
      intro e
      have := congrArg List.length e
      rw [List.length_append, List.length_nil] at this; omega))
  have e2 : rv (tvb.drop (o + t.length)) = (length, l.length) := by
    rw [← List.drop_drop, h, List.append_assoc, List.drop_left]
    exact rv_complete hl hr
  rw [getBlock_eq, e1]
  dsimp only
  rw [e2]
  dsimp only
  rw [if_neg (by omega), if_neg (by omega)]

theorem getSubBlocks_zero (tvb : Bytes) (b : Block) : getSubBlocks tvb b 0 = .ok (some []) := by
  rw [getSubBlocks, if_pos rfl]

theorem getSubBlocks_none {tvb : Bytes} {b : Block} {left : Nat} (h0 : left ≠ 0)
    (h : getBlock tvb (b.start + (b.length - left)) = .ok none) : getSubBlocks tvb b left = .ok none := by
  rw [getSubBlocks, if_neg h0]
  split
  · rename_i h'; rw [h] at h'; cases h'
  · rfl
  · rename_i h'; rw [h] at h'; cases h'

theorem getSubBlocks_some {tvb : Bytes} {b c : Block} {left : Nat} (h0 : left ≠ 0)
    (h : getBlock tvb (b.start + (b.length - left)) = .ok (some c)) :
    getSubBlocks tvb b left =
      if c.lengthLen = 9 then
        if c.size = left ∨ (c.offset + c.size) % 2 ^ 64 ≥ tvb.length then .ok none else .error .badArgument
      else if c.size > left then .ok none
      else (getSubBlocks tvb b (left - c.size)).map (Option.map (c :: ·)) := by
  rw [getSubBlocks, if_neg h0]
  split
  · rename_i h'; rw [h] at h'; cases h'
  · rename_i h'; rw [h] at h'; cases h'
  · rename_i h'; rw [h] at h'; cases h'; rfl

theorem size_eq {b : Block} (h : b.lengthLen ≠ 9) : b.size = b.typeLen + b.lengthLen + b.length := by
  unfold Block.size; rw [if_neg h]

/-- What `getSubBlocks` finds: consecutive blocks that make up the value. -/
theorem getSubBlocks_sound {tvb : Bytes} {b : Block} : ∀ (n left : Nat), left ≤ n → left ≤ b.length → ∀ {bs},
    getSubBlocks tvb b left = .ok (some bs) →
    Consecutive (b.start + (b.length - left)) bs (b.start + b.length) ∧
    ∀ c ∈ bs, getBlock tvb c.offset = .ok (some c) ∧ c.lengthLen ≠ 9 ∧ c.size ≤ left ∧
      b.start ≤ c.offset ∧ c.offset + c.size ≤ b.start + b.length := by
  intro n
  induction n with
  | zero =>
    intro left hn hl bs h
    have : left = 0 := by omega
    subst this
    rw [getSubBlocks_zero] at h
    cases h
    exact ⟨.nil _, by simp⟩
  | succ n ih =>
    intro left hn hl bs h
    by_cases h0 : left = 0
    · subst h0
      rw [getSubBlocks_zero] at h
      cases h
      exact ⟨.nil _, by simp⟩
    cases hg : getBlock tvb (b.start + (b.length - left)) with
    | error e => exact absurd hg (getBlock_not_error _ _ _)
    | ok o =>
      cases o with
      | none => rw [getSubBlocks_none h0 hg] at h; cases h
      | some c =>
        rw [getSubBlocks_some h0 hg] at h
        by_cases h9 : c.lengthLen = 9
        · rw [if_pos h9] at h
          split at h <;> cases h
        rw [if_neg h9] at h
        by_cases hs : c.size > left
        · rw [if_pos hs] at h; cases h
        rw [if_neg hs] at h
        have hpos := getBlock_pos hg
        have hoff := (getBlock_sound hg).1
        have hsz := size_eq h9
        cases hr : getSubBlocks tvb b (left - c.size) with
        | error e => rw [hr] at h; cases h
        | ok o =>
          cases o with
          | none => rw [hr] at h; cases h
          | some cs =>
            rw [hr] at h
            cases h
            obtain ⟨i1, i2⟩ := ih (left - c.size) (by omega) (by omega) hr
            refine ⟨.cons hoff ?_, ?_⟩
            · have : b.start + (b.length - left) + c.typeLen + c.lengthLen + c.length =
                  b.start + (b.length - (left - c.size)) := by omega
              rw [this]; exact i1
            · intro x hx
              rcases List.mem_cons.mp hx with rfl | hx
              · refine ⟨by rw [hoff]; exact hg, h9, by omega, by omega, by omega⟩
              · obtain ⟨j1, j2, j3, j4⟩ := i2 x hx
                exact ⟨j1, j2, by omega, j4⟩

theorem slice_append {tvb : Bytes} {o : Nat} {x r : Bytes} (h : tvb.drop o = x ++ r) :
    slice tvb o x.length = x ∧ tvb.drop (o + x.length) = r := by
  refine ⟨by simp [slice, h], ?_⟩
  rw [← List.drop_drop, h, List.drop_left]

theorem length_slice {tvb : Bytes} {o n : Nat} (h : o + n ≤ tvb.length) : (slice tvb o n).length = n := by
  simp [slice]; omega

/-- An element in the shortest encoding is read. -/
theorem getBlock_encode {tvb : Bytes} {o : Nat} {x : Verif.Block} {r : Bytes} (h : tvb.drop o = x.encode ++ r)
    (ht : x.type < 2 ^ 32) (hv : x.value.length < 2 ^ 32) :
    ∃ c, getBlock tvb o = .ok (some c) ∧ c.type = x.type ∧ c.length = x.value.length ∧ c.typeLen ≠ 9 ∧ c.lengthLen ≠ 9 ∧
      c.size = x.encode.length ∧ valueOf tvb c = x.value := by
  have w9 : ∀ n, n < 2 ^ 32 → (writeVarNumber n).length ≠ 9 := by
    intro n hn
    rw [length_writeVarNumber]; unfold sizeOfVarNumber
    split
    · decide
    · split
      · decide
      · decide
  have he : tvb.drop o = writeVarNumber x.type ++ writeVarNumber x.value.length ++ (x.value ++ r) := by
    rw [h]; simp [Block.encode]
  have hg := getBlock_complete he (isVarNumber_write (by omega)) (isVarNumber_write (n := x.value.length) (by omega)) (by
    by_cases h1 : x.value.length < 253
    · left; rw [length_writeVarNumber]; unfold sizeOfVarNumber; rw [if_pos h1]
    · right
      intro e
      have := congrArg List.length e
      rw [List.length_append, List.length_nil] at this; omega)
  refine ⟨_, hg, rfl, rfl, w9 _ ht, w9 _ hv, ?_, ?_⟩
  · rw [size_eq (w9 _ hv)]
    simp [Block.encode]; omega
  · unfold valueOf
    dsimp only
    have h2 := (slice_append (x := writeVarNumber x.type ++ writeVarNumber x.value.length) he).2
    rw [List.length_append, ← Nat.add_assoc] at h2
    exact (slice_append h2).1

/-- If the value is a sequence of elements in the shortest encoding, `getSubBlocks` finds them. -/
theorem getSubBlocks_complete {tvb : Bytes} {b : Block} (hb : b.start + b.length ≤ tvb.length) :
    ∀ (xs : List Verif.Block) (left : Nat), left ≤ b.length →
    slice tvb (b.start + (b.length - left)) left = (xs.map Block.encode).flatten →
    (∀ x ∈ xs, x.type < 2 ^ 32 ∧ x.value.length < 2 ^ 32) →
    ∃ bs, getSubBlocks tvb b left = .ok (some bs) ∧ bs.map (fun c => (⟨c.type, valueOf tvb c⟩ : Verif.Block)) = xs ∧
      ∀ c ∈ bs, c.typeLen ≠ 9 := by
  intro xs
  induction xs with
  | nil =>
    intro left hl h _
    have : left = 0 := by
      have := congrArg List.length h
      rw [length_slice (by omega)] at this
      simpa using this
    subst this
    exact ⟨[], getSubBlocks_zero _ _, rfl, by simp⟩
  | cons x xs ih =>
    intro left hl h hx
    simp only [List.map_cons, List.flatten_cons] at h
    have hlen := congrArg List.length h
    rw [length_slice (by omega), List.length_append] at hlen
    have hd : tvb.drop (b.start + (b.length - left)) =
        x.encode ++ ((xs.map Block.encode).flatten ++ tvb.drop (b.start + b.length)) := by
      rw [← List.append_assoc, ← h]
      unfold slice
      have : b.start + b.length = b.start + (b.length - left) + left := by omega
      rw [this, ← List.drop_drop (i := left), List.take_append_drop]
    obtain ⟨ht, hv⟩ := hx x List.mem_cons_self
    obtain ⟨c, hg, c1, c2, c3, c4, c5, c6⟩ := getBlock_encode hd ht hv
    have hpos := getBlock_pos hg
    have hsz := size_eq c4
    have h0 : left ≠ 0 := by omega
    obtain ⟨bs, i1, i2, i3⟩ := ih (left - c.size) (by omega) (by
      have e : b.start + (b.length - (left - c.size)) = b.start + (b.length - left) + x.encode.length := by omega
      rw [e]
      have := (slice_append hd).2
      unfold slice
      rw [this]
      have : left - c.size = (xs.map Block.encode).flatten.length := by omega
      rw [this]
      simp) (fun y hy => hx y (List.mem_cons_of_mem _ hy))
    refine ⟨c :: bs, ?_, ?_, ?_⟩
    · rw [getSubBlocks_some h0 hg, if_neg c4, if_neg (by omega), i1]; rfl
    · rw [List.map_cons, i2, c1, c6]
    · intro y hy
      rcases List.mem_cons.mp hy with rfl | hy
      · exact c3
      · exact i3 y hy

end Verif.Wireshark
