import Verif.Spec.DumpText
import Verif.Proofs.ServerOutput
import Verif.Proofs.Ping

/-! # The text of names can be read back -/

namespace Verif.DumpText

/-- Characters in the text of a component. -/
def okChar (b : UInt8) : Bool := b != 32 && b != 10 && b != 63 && b != 44 && b != 47

theorem escapeValue_inj {v w : Bytes} (h : escapeValue v = escapeValue w) : v = w := by
  have := ServerOutput.component_inj (v := { uri := [] }) (a := ⟨ttGeneric, v⟩) (b := ⟨ttGeneric, w⟩) rfl rfl
    (by simpa [ServerOutput.componentText, escapeValue] using h)
  cases this
  rfl

theorem all_flatMap_bytes {P : UInt8 → Bool} {f : UInt8 → Bytes}
    (h : ∀ n : Fin 256, (f (UInt8.ofNat n)).all P = true) (v : Bytes) : (v.flatMap f).all P = true := by
  rw [List.all_eq_true]
  intro x hx
  obtain ⟨b, -, hb⟩ := List.mem_flatMap.mp hx
  have := h ⟨b.toNat, b.toNat_lt⟩
  simp only [UInt8.ofNat_toNat] at this
  exact List.all_eq_true.mp this x hb

theorem escapeValue_all (v : Bytes) : (escapeValue v).all (fun b => okChar b && b != 61) = true := by
  unfold escapeValue
  rw [List.all_append, all_flatMap_bytes (by decide +kernel) v, Bool.and_true]
  split
  · decide +kernel
  · rfl

theorem hexBytes_all (v : Bytes) : (hexBytes v).all (fun b => okChar b && b != 61) = true :=
  all_flatMap_bytes (by decide +kernel) v

theorem hexBytes_inj : ∀ {v w : Bytes}, hexBytes v = hexBytes w → v = w := by
  have key : ∀ a b : Fin 16, hexDigit a = hexDigit b → a = b := by decide +kernel
  have dig : ∀ {a b : Nat}, a < 16 → b < 16 → hexDigit a = hexDigit b → a = b := by
    intro a b ha hb h
    exact congrArg Fin.val (key ⟨a, ha⟩ ⟨b, hb⟩ h)
  intro v
  induction v with
  | nil =>
    intro w h
    cases w with
    | nil => rfl
    | cons b w => simp [hexBytes] at h
  | cons a v ih =>
    intro w h
    cases w with
    | nil => simp [hexBytes] at h
    | cons b w =>
      simp only [hexBytes, List.flatMap_cons, List.cons_append, List.nil_append, List.cons.injEq] at h
      have ha := a.toNat_lt
      have hb := b.toNat_lt
      have h1 := dig (by omega) (by omega) h.1
      have h2 := dig (by omega) (by omega) h.2.1
      rw [ih h.2.2, show a = b from UInt8.toNat.inj (by omega)]

theorem decimal_all (n : Nat) : (decimal n).all (fun b => okChar b && b != 61) = true := by
  have key : ∀ n : Fin 256, isDigit (UInt8.ofNat n) = true → (okChar (UInt8.ofNat n) && UInt8.ofNat n != 61) = true := by
    decide +kernel
  have := decimal_isDigit n
  rw [List.all_eq_true] at this ⊢
  intro b hb
  have k := key ⟨b.toNat, b.toNat_lt⟩
  simp only [UInt8.ofNat_toNat] at k
  exact k (this b hb)

/-- The key of a component that is printed with an equals sign, by its form. -/
inductive Form
  | digest
  | params
  | number (type : Nat)
  | typed (type : Nat)

def Form.key : Form → Bytes
  | .digest => text "sha256digest"
  | .params => text "params-sha256"
  | .number t => text ((numberKey t).getD "")
  | .typed t => decimal t

/-- How a component is printed. -/
theorem compText_shape (c : Comp) :
    (c.type = 8 ∧ compText c = escapeValue c.value) ∨
    ∃ f body, compText c = Form.key f ++ 61 :: body ∧ body.all (fun b => okChar b && b != 61) = true ∧
      ((f = .digest ∧ c.type = 1 ∧ body = hexBytes c.value) ∨
       (f = .params ∧ c.type = 2 ∧ body = hexBytes c.value) ∨
       (∃ s, f = .number c.type ∧ numberKey c.type = some s ∧ isNumber c = true ∧ body = decimal (beNat c.value)) ∨
       (f = .typed c.type ∧ body = escapeValue c.value)) := by
  unfold compText
  by_cases h1 : c.type = 1
  · rw [if_pos h1]
    refine .inr ⟨.digest, hexBytes c.value, ?_, hexBytes_all _, .inl ⟨rfl, h1, rfl⟩⟩
    have : text "sha256digest=" = text "sha256digest" ++ [61] := by decide +kernel
    rw [this, List.append_assoc]; rfl
  rw [if_neg h1]
  by_cases h2 : c.type = 2
  · rw [if_pos h2]
    refine .inr ⟨.params, hexBytes c.value, ?_, hexBytes_all _, .inr (.inl ⟨rfl, h2, rfl⟩)⟩
    have : text "params-sha256=" = text "params-sha256" ++ [61] := by decide +kernel
    rw [this, List.append_assoc]; rfl
  rw [if_neg h2]
  by_cases h8 : c.type = 8
  · rw [if_pos h8]; exact .inl ⟨h8, rfl⟩
  rw [if_neg h8]
  have typed : decimal c.type ++ 61 :: escapeValue c.value = Form.key (.typed c.type) ++ 61 :: escapeValue c.value := rfl
  cases hk : numberKey c.type with
  | none => exact .inr ⟨.typed c.type, _, typed, escapeValue_all _, .inr (.inr (.inr ⟨rfl, rfl⟩))⟩
  | some s =>
    dsimp only
    by_cases hn : isNumber c = true
    · rw [if_pos hn]
      exact .inr ⟨.number c.type, _, by simp [Form.key, hk], decimal_all _, .inr (.inr (.inl ⟨s, rfl, rfl, hn, rfl⟩))⟩
    · rw [if_neg hn]
      exact .inr ⟨.typed c.type, _, typed, escapeValue_all _, .inr (.inr (.inr ⟨rfl, rfl⟩))⟩

theorem numberKey_cases {t : Nat} {s : String} (h : numberKey t = some s) :
    (t = 50 ∧ s = "seg") ∨ (t = 52 ∧ s = "off") ∨ (t = 54 ∧ s = "v") ∨ (t = 56 ∧ s = "t") ∨ (t = 58 ∧ s = "seq") := by
  unfold numberKey at h
  split at h <;> cases h <;> simp

theorem Minimal.eq {n : Name} (h : Minimal n) {c : Comp} (hc : c ∈ n) {s : String} (hk : numberKey c.type = some s)
    (hn : isNumber c = true) : c.value = nniEncode (beNat c.value) := by
  refine h c hc ?_ (by simpa [isNumber, or_assoc] using hn)
  rcases numberKey_cases hk with ⟨h, -⟩ | ⟨h, -⟩ | ⟨h, -⟩ | ⟨h, -⟩ | ⟨h, -⟩ <;> rw [h] <;> decide

theorem key_all {t : Nat} {s : String} (h : numberKey t = some s) : (text s).all (fun b => okChar b && b != 61) = true := by
  rcases numberKey_cases h with ⟨-, rfl⟩ | ⟨-, rfl⟩ | ⟨-, rfl⟩ | ⟨-, rfl⟩ | ⟨-, rfl⟩ <;> decide +kernel

theorem key_inj {t u : Nat} {s : String} {r : String} (h : numberKey t = some s) (k : numberKey u = some r) (e : text s = text r) :
    t = u := by
  rcases numberKey_cases h with ⟨rfl, rfl⟩ | ⟨rfl, rfl⟩ | ⟨rfl, rfl⟩ | ⟨rfl, rfl⟩ | ⟨rfl, rfl⟩ <;>
    rcases numberKey_cases k with ⟨rfl, rfl⟩ | ⟨rfl, rfl⟩ | ⟨rfl, rfl⟩ | ⟨rfl, rfl⟩ | ⟨rfl, rfl⟩ <;>
    first
      | rfl
      | exact absurd e (by decide +kernel)

theorem key_not_digit {t : Nat} {s : String} (h : numberKey t = some s) : (text s).all isDigit = false ∧
    text s ≠ text "sha256digest" ∧ text s ≠ text "params-sha256" := by
  rcases numberKey_cases h with ⟨-, rfl⟩ | ⟨-, rfl⟩ | ⟨-, rfl⟩ | ⟨-, rfl⟩ | ⟨-, rfl⟩ <;> decide +kernel

theorem decimal_all_inj {n m : Nat} (h : decimal n = decimal m) : n = m := Verif.decimal_inj h

/-- Two texts before the first occurrence of a byte. -/
theorem cut_inj {x : UInt8} {a b r s : Bytes} (ha : x ∉ a) (hb : x ∉ b) (h : a ++ x :: r = b ++ x :: s) : a = b ∧ r = s := by
  induction a generalizing b with
  | nil =>
    cases b with
    | nil => cases h; exact ⟨rfl, rfl⟩
    | cons y b =>
      simp only [List.nil_append, List.cons_append, List.cons.injEq] at h
      exact absurd (List.mem_cons.mpr (.inl h.1)) hb
  | cons y a ih =>
    cases b with
    | nil =>
      simp only [List.nil_append, List.cons_append, List.cons.injEq] at h
      exact absurd (List.mem_cons.mpr (.inl h.1.symm)) ha
    | cons z b =>
      simp only [List.cons_append, List.cons.injEq] at h
      obtain ⟨i, j⟩ := ih (fun h => ha (List.mem_cons_of_mem _ h)) (fun h => hb (List.mem_cons_of_mem _ h)) h.2
      exact ⟨by rw [h.1, i], j⟩

theorem not_mem_of_all {a : Bytes} (h : a.all (fun b => okChar b && b != 61) = true) : 61 ∉ a := by
  intro hm
  have := List.all_eq_true.mp h 61 hm
  simp at this

theorem compText_inj {c d : Comp} (hc : Minimal [c]) (hd : Minimal [d]) (h : compText c = compText d) : c = d := by
  have fin : c.type = d.type → c.value = d.value → c = d := by
    obtain ⟨t, v⟩ := c
    obtain ⟨u, w⟩ := d
    simp only
    rintro rfl rfl
    rfl
  have d0 : (text "sha256digest").all isDigit = false := by decide +kernel
  have d1 : (text "params-sha256").all isDigit = false := by decide +kernel
  have d2 : text "sha256digest" ≠ text "params-sha256" := by decide +kernel
  have keys : ∀ {c : Comp} {f body}, ((f = .digest ∧ c.type = 1 ∧ body = hexBytes c.value) ∨
       (f = .params ∧ c.type = 2 ∧ body = hexBytes c.value) ∨
       (∃ s, f = .number c.type ∧ numberKey c.type = some s ∧ isNumber c = true ∧ body = decimal (beNat c.value)) ∨
       (f = .typed c.type ∧ body = escapeValue c.value)) → 61 ∉ Form.key f := by
    rintro c f body (⟨rfl, -⟩ | ⟨rfl, -⟩ | ⟨s, rfl, hs, -⟩ | ⟨rfl, -⟩)
    · exact by decide +kernel
    · exact by decide +kernel
    · simp only [Form.key, hs, Option.getD_some]; exact not_mem_of_all (key_all hs)
    · exact not_mem_of_all (decimal_all _)
  rcases compText_shape c with ⟨c1, c2⟩ | ⟨f, x, c2, cx, c3⟩ <;> rcases compText_shape d with ⟨e1, e2⟩ | ⟨g, y, e2, ey, e3⟩
  · rw [c2, e2] at h
    exact fin (by omega) (escapeValue_inj h)
  · rw [c2, e2] at h
    exact absurd (by rw [h]; simp : (61 : UInt8) ∈ escapeValue c.value) (not_mem_of_all (escapeValue_all _))
  · rw [c2, e2] at h
    exact absurd (by rw [← h]; simp : (61 : UInt8) ∈ escapeValue d.value) (not_mem_of_all (escapeValue_all _))
  · rw [c2, e2] at h
    obtain ⟨hk, hb⟩ := cut_inj (keys c3) (keys e3) h
    subst hb
    rcases c3 with ⟨rfl, c4, c5⟩ | ⟨rfl, c4, c5⟩ | ⟨s, rfl, c4, c5, c6⟩ | ⟨rfl, c4⟩ <;>
      rcases e3 with ⟨rfl, e4, e5⟩ | ⟨rfl, e4, e5⟩ | ⟨r, rfl, e4, e5, e6⟩ | ⟨rfl, e4⟩ <;> simp only [Form.key] at hk
    · exact fin (by omega) (hexBytes_inj (by rw [← c5, ← e5]))
    · exact absurd hk d2
    · rw [e4] at hk; exact absurd hk.symm (key_not_digit e4).2.1
    · rw [hk, decimal_isDigit] at d0; cases d0
    · exact absurd hk.symm d2
    · exact fin (by omega) (hexBytes_inj (by rw [← c5, ← e5]))
    · rw [e4] at hk; exact absurd hk.symm (key_not_digit e4).2.2
    · rw [hk, decimal_isDigit] at d1; cases d1
    · rw [c4] at hk; exact absurd hk (key_not_digit c4).2.1
    · rw [c4] at hk; exact absurd hk (key_not_digit c4).2.2
    · rw [c4, e4] at hk
      simp only [Option.getD_some] at hk
      refine fin (key_inj c4 e4 hk) ?_
      have hn : beNat c.value = beNat d.value := decimal_all_inj (by rw [← c6, ← e6])
      rw [hc.eq (by simp) c4 c5, hd.eq (by simp) e4 e5, hn]
    · rw [c4] at hk
      simp only [Option.getD_some] at hk
      have := (key_not_digit c4).1
      rw [hk, decimal_isDigit] at this; cases this
    · rw [← hk, decimal_isDigit] at d0; cases d0
    · rw [← hk, decimal_isDigit] at d1; cases d1
    · rw [e4] at hk
      simp only [Option.getD_some] at hk
      have := (key_not_digit e4).1
      rw [← hk, decimal_isDigit] at this; cases this
    · exact fin (decimal_all_inj hk) (escapeValue_inj (by rw [← c4, ← e4]))

theorem compText_all (c : Comp) : (compText c).all okChar = true := by
  have weak : ∀ {a : Bytes}, a.all (fun b => okChar b && b != 61) = true → a.all okChar = true := by
    intro a h
    rw [List.all_eq_true] at h ⊢
    intro b hb
    exact (Bool.and_eq_true _ _ ▸ h b hb).1
  rcases compText_shape c with ⟨-, h⟩ | ⟨f, x, h, hx, h3⟩
  · rw [h]; exact weak (escapeValue_all _)
  · rw [h, List.all_append, List.all_cons, weak hx]
    have : (Form.key f).all okChar = true := by
      rcases h3 with ⟨rfl, -⟩ | ⟨rfl, -⟩ | ⟨s, rfl, hs, -⟩ | ⟨rfl, -⟩
      · decide +kernel
      · decide +kernel
      · simp only [Form.key, hs, Option.getD_some]; exact weak (key_all hs)
      · exact weak (decimal_all _)
    rw [this]
    decide

theorem compText_ne (c : Comp) : compText c ≠ [] := by
  rcases compText_shape c with ⟨-, h⟩ | ⟨f, x, h, -⟩
  · rw [h]
    unfold escapeValue
    cases hv : c.value with
    | nil => simp; decide +kernel
    | cons b v =>
      intro h
      have := (List.append_eq_nil_iff.mp h).2
      rw [List.flatMap_cons] at this
      have := (List.append_eq_nil_iff.mp this).1
      unfold Dissect.escapeByte at this
      dsimp only at this
      split at this <;> cases this
  · rw [h]; simp

/-- The text of a name, followed by nothing or something that starts with a question mark. -/
theorem nameText_inj {n m : Name} (hn : Minimal n) (hm : Minimal m) {r s : Bytes} (hr : r = [] ∨ r.head? = some 63)
    (hs : s = [] ∨ s.head? = some 63) (h : nameText n ++ r = nameText m ++ s) : n = m ∧ r = s := by
  have stop : ∀ {r : Bytes}, (r = [] ∨ r.head? = some 63) → ∀ x y, r ≠ x :: y ∨ x = 63 := by
    intro r hr x y
    rcases hr with rfl | hr
    · exact .inl (by simp)
    · cases r with
      | nil => cases hr
      | cons a r =>
        by_cases h : a :: r = x :: y
        · right; cases h; simpa using hr
        · exact .inl h
  -- the first component
  have one : ∀ {a b u w : Bytes}, a.all okChar = true → b.all okChar = true →
      (u = [] ∨ u.head? = some 63 ∨ u.head? = some 47) → (w = [] ∨ w.head? = some 63 ∨ w.head? = some 47) →
      a ++ u = b ++ w → a = b ∧ u = w := by
    intro a
    induction a with
    | nil =>
      intro b u w _ hb hu _ e
      cases b with
      | nil => exact ⟨rfl, e⟩
      | cons y b =>
        rw [List.all_cons, Bool.and_eq_true] at hb
        rw [List.nil_append] at e
        subst e
        rcases hu with hu | hu | hu
        · cases hu
        · simp only [List.cons_append, List.head?_cons, Option.some.injEq] at hu
          subst hu; exact absurd hb.1 (by decide)
        · simp only [List.cons_append, List.head?_cons, Option.some.injEq] at hu
          subst hu; exact absurd hb.1 (by decide)
    | cons x a ih =>
      intro b u w ha hb hu hw e
      rw [List.all_cons, Bool.and_eq_true] at ha
      cases b with
      | nil =>
        rw [List.nil_append] at e
        subst e
        rcases hw with hw | hw | hw
        · cases hw
        · simp only [List.cons_append, List.head?_cons, Option.some.injEq] at hw
          subst hw; exact absurd ha.1 (by decide)
        · simp only [List.cons_append, List.head?_cons, Option.some.injEq] at hw
          subst hw; exact absurd ha.1 (by decide)
      | cons y b =>
        rw [List.all_cons, Bool.and_eq_true] at hb
        simp only [List.cons_append, List.cons.injEq] at e
        obtain ⟨i, j⟩ := ih ha.2 hb.2 hu hw e.2
        exact ⟨by rw [e.1, i], j⟩
  have tail : ∀ (n : Name) {r : Bytes}, (r = [] ∨ r.head? = some 63) →
      (n.flatMap (fun c => 47 :: compText c) ++ r = [] ∨ (n.flatMap (fun c => 47 :: compText c) ++ r).head? = some 63 ∨
        (n.flatMap (fun c => 47 :: compText c) ++ r).head? = some 47) := by
    intro n r hr
    cases n with
    | nil => rcases hr with h | h
             · exact .inl (by simpa using h)
             · exact .inr (.inl (by simpa using h))
    | cons c n => exact .inr (.inr rfl)
  have main : ∀ {n m : Name}, Minimal n → Minimal m → n.flatMap (fun c => 47 :: compText c) ++ r =
      m.flatMap (fun c => 47 :: compText c) ++ s → n = m ∧ r = s := by
    intro n
    induction n with
    | nil =>
      intro m _ _ e
      cases m with
      | nil => exact ⟨rfl, e⟩
      | cons d m =>
        exfalso
        rw [List.flatMap_nil, List.nil_append, List.flatMap_cons, List.cons_append, List.cons_append] at e
        rcases stop hr _ _ with h | h
        · exact h e
        · cases h
    | cons c n ih =>
      intro m hn hm e
      cases m with
      | nil =>
        exfalso
        rw [List.flatMap_nil, List.nil_append, List.flatMap_cons, List.cons_append, List.cons_append] at e
        rcases stop hs _ _ with h | h
        · exact h e.symm
        · cases h
      | cons d m =>
        simp only [List.flatMap_cons, List.cons_append, List.cons.injEq, true_and, List.append_assoc] at e
        obtain ⟨h1, h2⟩ := one (compText_all c) (compText_all d) (tail n hr) (tail m hs) e
        obtain ⟨h3, h4⟩ := ih (fun x hx => hn x (List.mem_cons_of_mem _ hx)) (fun x hx => hm x (List.mem_cons_of_mem _ hx)) h2
        exact ⟨by rw [compText_inj (fun x hx => hn x (by simp at hx; simp [hx])) (fun x hx => hm x (by simp at hx; simp [hx])) h1, h3], h4⟩
  -- the empty name
  have e0 : text "/" = [47] := by decide +kernel
  have empty : ∀ {m : Name} {r s : Bytes}, m ≠ [] → (r = [] ∨ r.head? = some 63) →
      [47] ++ r = m.flatMap (fun c => 47 :: compText c) ++ s → False := by
    intro m r s hm hr e
    cases m with
    | nil => exact hm rfl
    | cons d m =>
      simp only [List.flatMap_cons, List.cons_append, List.nil_append, List.cons.injEq, true_and, List.append_assoc] at e
      have hne := compText_ne d
      have hall := compText_all d
      cases hc : compText d with
      | nil => exact hne hc
      | cons x y =>
        rw [hc] at e hall
        rw [List.all_cons, Bool.and_eq_true] at hall
        rcases stop hr _ _ with h | h
        · exact h e
        · rw [h] at hall; exact absurd hall.1 (by decide)
  unfold nameText at h
  by_cases h1 : n = []
  · by_cases h2 : m = []
    · rw [if_pos h1, if_pos h2] at h
      exact ⟨by rw [h1, h2], List.append_cancel_left h⟩
    · rw [if_pos h1, if_neg h2, e0] at h
      exact (empty h2 hr h).elim
  · by_cases h2 : m = []
    · rw [if_neg h1, if_pos h2, e0] at h
      exact (empty h1 hs h.symm).elim
    · rw [if_neg h1, if_neg h2] at h
      exact main hn hm h

theorem nameText_word (n : Name) : PingOutput.Word (nameText n) := by
  have : (nameText n).all (fun b => okChar b || b == 47) = true := by
    unfold nameText
    split
    · decide +kernel
    · rw [List.all_eq_true]
      intro x hx
      obtain ⟨c, -, hc⟩ := List.mem_flatMap.mp hx
      rcases List.mem_cons.mp hc with rfl | hc
      · decide
      · rw [List.all_eq_true.mp (compText_all c) x hc]; rfl
  constructor
  · intro h; exact absurd (List.all_eq_true.mp this 32 h) (by decide)
  · intro h; exact absurd (List.all_eq_true.mp this 10 h) (by decide)

end Verif.DumpText
