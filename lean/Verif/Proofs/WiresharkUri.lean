import Verif.Proofs.Wireshark
import Verif.Proofs.DumpPacket

/-! # Lemmas about the URIs of the Wireshark dissector -/

namespace Verif.Wireshark

open Spec

/-- The URI of a component. -/
def compUri (c : Comp) : Bytes :=
  if c.type = 1 ∨ c.type = 2 then digestUri c.type c.value
  else if c.type = 8 then escape c.value
  else decimal c.type ++ 0x3D :: escape c.value

theorem componentUri_eq {tvb : Bytes} {b : Block} (hin : b.start + b.length ≤ tvb.length) {u : Bytes}
    (h : componentUri tvb b = .ok u) : b.typeLen ≠ 9 ∧ u = compUri (component tvb b) := by
  unfold componentUri at h
  rw [range_ok hin] at h
  dsimp only at h
  have e : valueOf tvb b = slice tvb b.start b.length := rfl
  unfold compUri component
  dsimp only
  rw [e]
  by_cases h9 : b.typeLen = 9
  · have hn : ∀ t, b.is t = false := fun t => by simp [Block.is, h9]
    rw [hn, hn, hn, if_neg (by decide), if_neg (by decide), if_pos h9] at h
    cases h
  · have hn : ∀ t, (b.is t = true) = (b.type = t) := fun t => by simp [Block.is, h9]
    simp only [hn] at h
    refine ⟨h9, ?_⟩
    by_cases h1 : b.type = 1 ∨ b.type = 2
    · rw [if_pos h1] at h ⊢; cases h; rfl
    rw [if_neg h1] at h ⊢
    by_cases h8 : b.type = 8
    · rw [if_pos h8] at h ⊢; cases h; rfl
    rw [if_neg h8, if_neg h9] at h
    rw [if_neg h8]
    cases h; rfl

/-! ## Characters -/

/-- The characters of an escaped text. -/
def Plain (b : UInt8) : Prop := unreserved b = true ∨ b = 0x25

theorem hexDigit_unreserved (u : Bool) {n : Nat} (h : n < 16) : unreserved (hexDigit u n) = true := by
  have : n = 0 ∨ n = 1 ∨ n = 2 ∨ n = 3 ∨ n = 4 ∨ n = 5 ∨ n = 6 ∨ n = 7 ∨ n = 8 ∨ n = 9 ∨ n = 10 ∨ n = 11 ∨ n = 12 ∨
    n = 13 ∨ n = 14 ∨ n = 15 := by omega
  rcases this with rfl | rfl | rfl | rfl | rfl | rfl | rfl | rfl | rfl | rfl | rfl | rfl | rfl | rfl | rfl | rfl <;>
    cases u <;> decide

theorem hexDigit_inj (u : Bool) {n m : Nat} (hn : n < 16) (hm : m < 16) (h : hexDigit u n = hexDigit u m) : n = m := by
  have : ∀ n : Fin 16, ∀ m : Fin 16, hexDigit u n = hexDigit u m → n = m := by cases u <;> decide
  have := this ⟨n, hn⟩ ⟨m, hm⟩ h
  exact congrArg Fin.val this

theorem hex2_inj (u : Bool) {a b : UInt8} (h : hex2 u a = hex2 u b) : a = b := by
  unfold hex2 at h
  have ha := a.toNat_lt
  have hb := b.toNat_lt
  simp only [List.cons.injEq, and_true] at h
  have h1 := hexDigit_inj u (by omega) (by omega) h.1
  have h2 := hexDigit_inj u (by omega) (by omega) h.2
  exact UInt8.toNat_inj.mp (by omega)

theorem hex2_length (u : Bool) (a : UInt8) : (hex2 u a).length = 2 := rfl

theorem hex2_plain (u : Bool) (a : UInt8) : ∀ x ∈ hex2 u a, unreserved x = true := by
  have ha := a.toNat_lt
  intro x hx
  simp only [hex2, List.mem_cons, List.not_mem_nil, or_false] at hx
  rcases hx with rfl | rfl
  · exact hexDigit_unreserved _ (by omega)
  · exact hexDigit_unreserved _ (by omega)

/-- One character of the value, escaped. -/
def esc1 (b : UInt8) : Bytes := if unreserved b then [b] else 0x25 :: hex2 true b

theorem esc1_plain (b : UInt8) : ∀ x ∈ esc1 b, Plain x := by
  intro x hx
  unfold esc1 at hx
  split at hx
  · rw [List.mem_singleton.mp hx]; exact .inl (by assumption)
  · rcases List.mem_cons.mp hx with rfl | hx
    · exact .inr rfl
    · exact .inl (hex2_plain _ _ x hx)

theorem escape_plain (v : Bytes) : ∀ x ∈ escape v, Plain x := by
  intro x hx
  unfold escape at hx
  rcases List.mem_append.mp hx with hx | hx
  · obtain ⟨b, -, hx⟩ := List.mem_flatMap.mp hx
    exact esc1_plain b x hx
  · split at hx
    · cases hx
    · left
      simp only [List.mem_cons, List.not_mem_nil, or_false, or_self] at hx
      subst hx; decide

theorem unreserved_pct : unreserved 0x25 = false := by decide

theorem esc1_pos (b : UInt8) : 0 < (esc1 b).length := by
  unfold esc1; split <;> simp

theorem flatMap_esc1_inj : ∀ {v w : Bytes}, v.flatMap esc1 = w.flatMap esc1 → v = w := by
  intro v
  induction v with
  | nil =>
    intro w h
    cases w with
    | nil => rfl
    | cons b w =>
      rw [List.flatMap_nil, List.flatMap_cons] at h
      have := congrArg List.length h
      rw [List.length_append, List.length_nil] at this
      have := esc1_pos b
      omega
  | cons a v ih =>
    intro w h
    cases w with
    | nil =>
      rw [List.flatMap_nil, List.flatMap_cons] at h
      have := congrArg List.length h
      rw [List.length_append, List.length_nil] at this
      have := esc1_pos a
      omega
    | cons b w =>
      rw [List.flatMap_cons, List.flatMap_cons] at h
      have key : a = b := by
        unfold esc1 at h
        by_cases ha : unreserved a = true
        · by_cases hb : unreserved b = true
          · rw [if_pos ha, if_pos hb] at h
            simp only [List.singleton_append, List.cons.injEq] at h
            exact h.1
          · rw [if_pos ha, if_neg hb] at h
            simp only [List.cons_append, List.cons.injEq] at h
            rw [h.1, unreserved_pct] at ha; cases ha
        · by_cases hb : unreserved b = true
          · rw [if_neg ha, if_pos hb] at h
            simp only [List.cons_append, List.cons.injEq] at h
            rw [← h.1, unreserved_pct] at hb; cases hb
          · rw [if_neg ha, if_neg hb] at h
            simp only [List.cons_append, List.cons.injEq, true_and] at h
            exact hex2_inj true (List.append_inj h (by rw [hex2_length, hex2_length])).1
      subst key
      rw [ih (List.append_cancel_left h)]

theorem flatMap_hex_inj : ∀ {v w : Bytes}, v.flatMap (hex2 false) = w.flatMap (hex2 false) → v = w := by
  intro v
  induction v with
  | nil =>
    intro w h
    cases w with
    | nil => rfl
    | cons b w => rw [List.flatMap_nil, List.flatMap_cons] at h; cases h
  | cons a v ih =>
    intro w h
    cases w with
    | nil => rw [List.flatMap_nil, List.flatMap_cons] at h; cases h
    | cons b w =>
      rw [List.flatMap_cons, List.flatMap_cons] at h
      obtain ⟨h1, h2⟩ := List.append_inj h (by rw [hex2_length, hex2_length])
      rw [hex2_inj false h1, ih h2]

theorem esc1_period (b : UInt8) (h : ∀ x ∈ esc1 b, x = 0x2E) : b = 0x2E := by
  unfold esc1 at h
  split at h
  · exact h b List.mem_cons_self
  · have := h 0x25 List.mem_cons_self
    cases this

theorem any_period (v : Bytes) : v.any (· != 0x2E) = false ↔ ∀ x ∈ v, x = 0x2E := by
  simp

theorem flatMap_esc1_periods {v : Bytes} (h : ∀ x ∈ v, x = 0x2E) : v.flatMap esc1 = v := by
  induction v with
  | nil => rfl
  | cons a v ih =>
    have := h a List.mem_cons_self
    subst this
    rw [List.flatMap_cons, ih (fun x hx => h x (List.mem_cons_of_mem _ hx))]
    rfl

theorem escape_eq (v : Bytes) :
    escape v = v.flatMap esc1 ++ (if v.any (· != 0x2E) then [] else [0x2E, 0x2E, 0x2E]) := rfl

theorem escape_inj {v w : Bytes} (h : escape v = escape w) : v = w := by
  have per : ∀ v w : Bytes, v.any (· != 0x2E) = false → w.any (· != 0x2E) = true → escape v = escape w → False := by
    intro v w hv hw h
    rw [escape_eq, escape_eq, hv, hw, if_neg (by decide), if_pos rfl, flatMap_esc1_periods ((any_period v).mp hv),
      List.append_nil] at h
    rw [List.any_eq_true] at hw
    obtain ⟨x, hx, hne⟩ := hw
    have : x = 0x2E := by
      apply esc1_period
      intro y hy
      have : y ∈ w.flatMap esc1 := List.mem_flatMap.mpr ⟨x, hx, hy⟩
      rw [← h] at this
      rcases List.mem_append.mp this with h' | h'
      · exact (any_period v).mp hv y h'
      · simpa using h'
    rw [this] at hne
    exact absurd hne (by decide)
  cases hv : v.any (· != 0x2E) with
  | false =>
    cases hw : w.any (· != 0x2E) with
    | false =>
      rw [escape_eq, escape_eq, hv, hw] at h
      exact flatMap_esc1_inj (List.append_cancel_right h)
    | true => exact (per v w hv hw h).elim
  | true =>
    cases hw : w.any (· != 0x2E) with
    | false => exact (per w v hw hv h.symm).elim
    | true =>
      rw [escape_eq, escape_eq, hv, hw] at h
      exact flatMap_esc1_inj (List.append_cancel_right h)

theorem escape_ne_nil (v : Bytes) : escape v ≠ [] := by
  rw [escape_eq]
  intro h
  rw [List.append_eq_nil_iff] at h
  cases v with
  | nil => exact absurd h.2 (by decide)
  | cons a v =>
    rw [List.flatMap_cons] at h
    have := (List.append_eq_nil_iff.mp h.1).1
    unfold esc1 at this
    split at this <;> cases this

/-! ## Components -/

theorem decimal_inj {n m : Nat} (h : decimal n = decimal m) : n = m := by
  have h1 := Dump.foldl_decimal n 0
  have h2 := Dump.foldl_decimal m 0
  rw [h, h2] at h1
  omega

/-- Characters of the URI of a component. -/
theorem compUri_chars (c : Comp) : ∀ x ∈ compUri c, Plain x ∨ x = 0x3D := by
  intro x hx
  unfold compUri at hx
  split at hx
  · unfold digestUri at hx
    rcases List.mem_append.mp hx with hx | hx
    · have a1 : ∀ y ∈ ascii "sha256digest=", unreserved y = true ∨ y = 0x3D := by decide
      have a2 : ∀ y ∈ ascii "params-sha256=", unreserved y = true ∨ y = 0x3D := by decide
      split at hx
      · exact (a1 x hx).imp .inl id
      · exact (a2 x hx).imp .inl id
    · obtain ⟨b, -, hb⟩ := List.mem_flatMap.mp hx
      exact .inl (.inl (hex2_plain _ _ x hb))
  · split at hx
    · exact .inl (escape_plain _ x hx)
    · rcases List.mem_append.mp hx with hx | hx
      · obtain ⟨h1, h2⟩ := Dump.decimal_digits _ x hx
        left; left
        simp [unreserved, h1, h2]
      · rcases List.mem_cons.mp hx with rfl | hx
        · exact .inr rfl
        · exact .inl (escape_plain _ x hx)

theorem split_eq {a a' b b' : Bytes} (h : a ++ 0x3D :: b = a' ++ 0x3D :: b') (ha : ∀ x ∈ a, x ≠ 0x3D)
    (ha' : ∀ x ∈ a', x ≠ 0x3D) : a = a' ∧ b = b' := by
  induction a generalizing a' with
  | nil =>
    cases a' with
    | nil => simp at h; exact ⟨rfl, h⟩
    | cons y a' =>
      simp only [List.nil_append, List.cons_append, List.cons.injEq] at h
      exact absurd h.1.symm (ha' y List.mem_cons_self)
  | cons x a ih =>
    cases a' with
    | nil =>
      simp only [List.nil_append, List.cons_append, List.cons.injEq] at h
      exact absurd h.1 (ha x List.mem_cons_self)
    | cons y a' =>
      simp only [List.cons_append, List.cons.injEq] at h
      obtain ⟨i1, i2⟩ := ih h.2 (fun z hz => ha z (List.mem_cons_of_mem _ hz)) (fun z hz => ha' z (List.mem_cons_of_mem _ hz))
      exact ⟨by rw [h.1, i1], i2⟩

theorem plain_ne_eq {x : UInt8} (h : Plain x) : x ≠ 0x3D := by
  rintro rfl
  rcases h with h | h
  · exact absurd h (by decide)
  · cases h

/-- What stands before the first "=", if any, and what comes after. -/
theorem compUri_shape (c : Comp) : ∃ a b, (∀ x ∈ a, x ≠ 0x3D) ∧
    ((c.type = 1 ∧ compUri c = a ++ 0x3D :: b ∧ a = ascii "sha256digest" ∧ b = c.value.flatMap (hex2 false)) ∨
     (c.type = 2 ∧ compUri c = a ++ 0x3D :: b ∧ a = ascii "params-sha256" ∧ b = c.value.flatMap (hex2 false)) ∨
     (c.type = 8 ∧ compUri c = a ∧ a = escape c.value) ∨
     (c.type ≠ 1 ∧ c.type ≠ 2 ∧ c.type ≠ 8 ∧ compUri c = a ++ 0x3D :: b ∧ a = decimal c.type ∧ b = escape c.value)) := by
  by_cases h1 : c.type = 1
  · refine ⟨ascii "sha256digest", c.value.flatMap (hex2 false), by decide, .inl ⟨h1, ?_, rfl, rfl⟩⟩
    unfold compUri digestUri
    rw [if_pos (.inl h1), if_pos h1]; rfl
  by_cases h2 : c.type = 2
  · refine ⟨ascii "params-sha256", c.value.flatMap (hex2 false), by decide, .inr (.inl ⟨h2, ?_, rfl, rfl⟩)⟩
    unfold compUri digestUri
    rw [if_pos (.inr h2), if_neg h1]; rfl
  by_cases h8 : c.type = 8
  · refine ⟨escape c.value, [], fun x hx => plain_ne_eq (escape_plain _ x hx), .inr (.inr (.inl ⟨h8, ?_, rfl⟩))⟩
    unfold compUri
    rw [if_neg (by omega), if_pos h8]
  · refine ⟨decimal c.type, escape c.value, ?_, .inr (.inr (.inr ⟨h1, h2, h8, ?_, rfl, rfl⟩))⟩
    · intro x hx e
      have := Dump.decimal_digits _ x hx
      subst e
      exact absurd this (by decide)
    · unfold compUri
      rw [if_neg (by omega), if_neg h8]

theorem not_digits {s : Bytes} {n : Nat} (h : s = decimal n) (hs : ∃ x ∈ s, ¬ (48 ≤ x.toNat ∧ x.toNat ≤ 57)) : False := by
  obtain ⟨x, hx, hne⟩ := hs
  rw [h] at hx
  exact hne (Dump.decimal_digits _ x hx)

theorem compUri_inj {c d : Comp} (h : compUri c = compUri d) : c = d := by
  obtain ⟨a, b, ha, hc⟩ := compUri_shape c
  obtain ⟨a', b', ha', hd⟩ := compUri_shape d
  have fin : c.type = d.type → c.value = d.value → c = d := by
    intro h1 h2; cases c; cases d; cases h1; cases h2; rfl
  have noeq : ∀ {x y z : Bytes}, (∀ w ∈ x, w ≠ 0x3D) → x = y ++ 0x3D :: z → False := by
    intro x y z hx e
    exact hx 0x3D (by rw [e]; simp) rfl
  rcases hc with ⟨c1, c2, c3, c4⟩ | ⟨c1, c2, c3, c4⟩ | ⟨c1, c2, c3⟩ | ⟨c1, c1', c1'', c2, c3, c4⟩ <;>
    rcases hd with ⟨d1, d2, d3, d4⟩ | ⟨d1, d2, d3, d4⟩ | ⟨d1, d2, d3⟩ | ⟨d1, d1', d1'', d2, d3, d4⟩
  · rw [c2, d2] at h
    obtain ⟨-, e⟩ := split_eq h ha ha'
    exact fin (by omega) (flatMap_hex_inj (by rw [← c4, ← d4, e]))
  · rw [c2, d2] at h
    obtain ⟨e, -⟩ := split_eq h ha ha'
    rw [c3, d3] at e; exact absurd e (by decide)
  · rw [c2, d2] at h; exact (noeq ha' h.symm).elim
  · rw [c2, d2] at h
    obtain ⟨e, -⟩ := split_eq h ha ha'
    rw [c3, d3] at e; exact (not_digits e (by decide)).elim
  · rw [c2, d2] at h
    obtain ⟨e, -⟩ := split_eq h ha ha'
    rw [c3, d3] at e; exact absurd e (by decide)
  · rw [c2, d2] at h
    obtain ⟨-, e⟩ := split_eq h ha ha'
    exact fin (by omega) (flatMap_hex_inj (by rw [← c4, ← d4, e]))
  · rw [c2, d2] at h; exact (noeq ha' h.symm).elim
  · rw [c2, d2] at h
    obtain ⟨e, -⟩ := split_eq h ha ha'
    rw [c3, d3] at e; exact (not_digits e (by decide)).elim
  · rw [c2, d2] at h; exact (noeq ha h).elim
  · rw [c2, d2] at h; exact (noeq ha h).elim
  · rw [c2, d2, c3, d3] at h
    exact fin (by omega) (escape_inj h)
  · rw [c2, d2] at h; exact (noeq ha h).elim
  · rw [c2, d2] at h
    obtain ⟨e, -⟩ := split_eq h ha ha'
    rw [c3, d3] at e; exact (not_digits e.symm (by decide)).elim
  · rw [c2, d2] at h
    obtain ⟨e, -⟩ := split_eq h ha ha'
    rw [c3, d3] at e; exact (not_digits e.symm (by decide)).elim
  · rw [c2, d2] at h; exact (noeq ha' h.symm).elim
  · rw [c2, d2] at h
    obtain ⟨e, e'⟩ := split_eq h ha ha'
    exact fin (decimal_inj (by rw [← c3, ← d3, e])) (escape_inj (by rw [← c4, ← d4, e']))

theorem compUri_ne_nil (c : Comp) : compUri c ≠ [] := by
  obtain ⟨a, b, ha, hc⟩ := compUri_shape c
  rcases hc with ⟨_, h, _⟩ | ⟨_, h, _⟩ | ⟨_, h, h'⟩ | ⟨_, _, _, h, _⟩
  · rw [h]; simp
  · rw [h]; simp
  · rw [h, h']; exact escape_ne_nil _
  · rw [h]; simp

theorem compUri_no_slash (c : Comp) : ∀ x ∈ compUri c, x ≠ 0x2F := by
  intro x hx e
  subst e
  rcases compUri_chars c _ hx with (h | h) | h
  · exact absurd h (by decide)
  · cases h
  · cases h

/-! ## Names -/

theorem intercalate_cons (s x : Bytes) (xs : List Bytes) :
    List.intercalate s (x :: xs) = x ++ xs.flatMap (s ++ ·) := by
  induction xs generalizing x with
  | nil => simp [List.intercalate]
  | cons y ys ih =>
    rw [List.flatMap_cons]
    have : List.intercalate s (x :: y :: ys) = x ++ s ++ List.intercalate s (y :: ys) := by
      simp [List.intercalate]
    rw [this, ih]
    simp

theorem flatMap_slash_inj : ∀ {xs ys : List Bytes}, (∀ x ∈ xs, ∀ c ∈ x, c ≠ 0x2F) → (∀ y ∈ ys, ∀ c ∈ y, c ≠ 0x2F) →
    xs.flatMap ((0x2F : UInt8) :: ·) = ys.flatMap ((0x2F : UInt8) :: ·) → xs = ys := by
  have head : ∀ {x y r r' : Bytes}, (∀ c ∈ x, c ≠ 0x2F) → (∀ c ∈ y, c ≠ 0x2F) → (r = [] ∨ ∃ s, r = 0x2F :: s) →
      (r' = [] ∨ ∃ s, r' = 0x2F :: s) → x ++ r = y ++ r' → x = y ∧ r = r' := by
    intro x
    induction x with
    | nil =>
      intro y r r' _ hy hr _ h
      cases y with
      | nil => exact ⟨rfl, h⟩
      | cons b y =>
        rcases hr with rfl | ⟨s, rfl⟩
        · cases h
        · simp only [List.nil_append, List.cons_append, List.cons.injEq] at h
          exact absurd h.1.symm (hy b List.mem_cons_self)
    | cons a x ih =>
      intro y r r' hx hy hr hr' h
      cases y with
      | nil =>
        rcases hr' with rfl | ⟨s, rfl⟩
        · cases h
        · simp only [List.nil_append, List.cons_append, List.cons.injEq] at h
          exact absurd h.1 (hx a List.mem_cons_self)
      | cons b y =>
        simp only [List.cons_append, List.cons.injEq] at h
        obtain ⟨i1, i2⟩ := ih (fun c hc => hx c (List.mem_cons_of_mem _ hc)) (fun c hc => hy c (List.mem_cons_of_mem _ hc))
          hr hr' h.2
        exact ⟨by rw [h.1, i1], i2⟩
  have tail : ∀ xs : List Bytes, xs.flatMap ((0x2F : UInt8) :: ·) = [] ∨
      ∃ s, xs.flatMap ((0x2F : UInt8) :: ·) = 0x2F :: s := by
    intro xs
    cases xs with
    | nil => exact .inl rfl
    | cons x xs => exact .inr ⟨_, by rw [List.flatMap_cons, List.cons_append]⟩
  intro xs
  induction xs with
  | nil =>
    intro ys _ _ h
    cases ys with
    | nil => rfl
    | cons y ys => rw [List.flatMap_nil, List.flatMap_cons] at h; cases h
  | cons x xs ih =>
    intro ys hx hy h
    cases ys with
    | nil => rw [List.flatMap_nil, List.flatMap_cons] at h; cases h
    | cons y ys =>
      rw [List.flatMap_cons, List.flatMap_cons] at h
      simp only [List.cons_append, List.cons.injEq, true_and] at h
      obtain ⟨h1, h2⟩ := head (hx x List.mem_cons_self) (hy y List.mem_cons_self) (tail xs) (tail ys) h
      rw [h1, ih (fun z hz => hx z (List.mem_cons_of_mem _ hz)) (fun z hz => hy z (List.mem_cons_of_mem _ hz)) h2]

/-- The URI of a name. -/
def uri (n : Name) : Bytes := 0x2F :: List.intercalate [0x2F] (n.map compUri)

theorem uri_inj {n m : Name} (h : uri n = uri m) : n = m := by
  have inj : ∀ {a b : List Comp}, a.map compUri = b.map compUri → a = b := by
    intro a
    induction a with
    | nil => intro b h; cases b with
      | nil => rfl
      | cons => cases h
    | cons x a ih => intro b h; cases b with
      | nil => cases h
      | cons y b =>
        simp only [List.map_cons, List.cons.injEq] at h
        rw [compUri_inj h.1, ih h.2]
  cases n with
  | nil =>
    cases m with
    | nil => rfl
    | cons c m =>
      unfold uri at h
      rw [List.map_cons, intercalate_cons] at h
      simp only [List.map_nil, List.cons.injEq, true_and] at h
      have h' := congrArg List.length h
      have := List.length_pos_iff.mpr (compUri_ne_nil c)
      have e : (List.intercalate [0x2F] ([] : List Bytes)).length = 0 := rfl
      rw [List.length_append, e] at h'
      omega
  | cons c n =>
    cases m with
    | nil =>
      unfold uri at h
      rw [List.map_cons, intercalate_cons] at h
      simp only [List.map_nil, List.cons.injEq, true_and] at h
      have h' := congrArg List.length h
      have := List.length_pos_iff.mpr (compUri_ne_nil c)
      have e : (List.intercalate [0x2F] ([] : List Bytes)).length = 0 := rfl
      rw [List.length_append, e] at h'
      omega
    | cons d m =>
      unfold uri at h
      rw [List.map_cons, List.map_cons, intercalate_cons, intercalate_cons] at h
      have e : ∀ (x : Bytes) (xs : List Bytes), 0x2F :: (x ++ xs.flatMap ([0x2F] ++ ·)) =
          (x :: xs).flatMap ((0x2F : UInt8) :: ·) := by
        intro x xs
        rw [List.flatMap_cons, List.cons_append]; rfl
      rw [e, e] at h
      have hs : ∀ (n : List Comp), ∀ x ∈ n.map compUri, ∀ c ∈ x, c ≠ 0x2F := by
        intro n x hx
        obtain ⟨c, -, rfl⟩ := List.mem_map.mp hx
        exact compUri_no_slash c
      exact inj (flatMap_slash_inj (hs (c :: n)) (hs (d :: m)) h)

end Verif.Wireshark
