import Verif.Spec.Uri
import Verif.Proofs.NameText
import Verif.Proofs.Format
import Verif.Proofs.Tlv
import Verif.Proofs.Name
import Verif.Proofs.WiresharkCols

/-! # The text of names is read back by ndn-cxx -/

namespace Verif.Uri

open DumpText

theorem unescape_plain {b : UInt8} (h : b ≠ 37) (r : Bytes) : unescape (b :: r) = b :: unescape r := by
  rw [unescape.eq_def]
  dsimp only
  rw [if_neg h]

theorem unescape_hex {x y : UInt8} {i j : Nat} (hi : hexValue x = some i) (hj : hexValue y = some j) (r : Bytes) :
    unescape (37 :: x :: y :: r) = UInt8.ofNat (16 * i + j) :: unescape r := by
  rw [unescape.eq_def]
  dsimp only
  rw [if_pos rfl, hi, hj]

/-- Two characters that are the hexadecimal digits of a byte. -/
def IsHex (b : UInt8) (x y : UInt8) : Prop := hexValue x = some (b.toNat / 16) ∧ hexValue y = some (b.toNat % 16)

theorem isHex_byte {b x y : UInt8} (h : IsHex b x y) : ∃ i j, hexValue x = some i ∧ hexValue y = some j ∧
    UInt8.ofNat (16 * i + j) = b :=
  ⟨_, _, h.1, h.2, by rw [Nat.div_add_mod, UInt8.ofNat_toNat]⟩

theorem escapeByte_cases (b : UInt8) : (Dissect.escapeByte b = [b] ∧ b ≠ 37) ∨
    ∃ x y, Dissect.escapeByte b = [37, x, y] ∧ IsHex b x y := by
  have key : ∀ k : Fin 16, hexValue (if k.val < 10 then UInt8.ofNat (48 + k.val) else UInt8.ofNat (55 + k.val)) = some k.val := by
    decide +kernel
  have hb := b.toNat_lt
  unfold Dissect.escapeByte
  dsimp only
  split
  · rename_i h
    left
    refine ⟨rfl, ?_⟩
    rintro rfl
    revert h
    decide
  · right
    exact ⟨_, _, rfl, key ⟨b.toNat / 16, by omega⟩, key ⟨b.toNat % 16, by omega⟩⟩

theorem unescape_one (b : UInt8) (r : Bytes) : unescape (Dissect.escapeByte b ++ r) = b :: unescape r := by
  rcases escapeByte_cases b with ⟨h, h'⟩ | ⟨x, y, h, hx⟩
  · rw [h]; exact unescape_plain h' r
  · rw [h]
    obtain ⟨i, j, hi, hj, e⟩ := isHex_byte hx
    exact (unescape_hex hi hj r).trans (by rw [e])

theorem unescape_flatMap (v r : Bytes) : unescape (v.flatMap Dissect.escapeByte ++ r) = v ++ unescape r := by
  induction v with
  | nil => rfl
  | cons b v ih => rw [List.flatMap_cons, List.append_assoc, unescape_one, ih]; rfl

theorem unescape_escapeValue (v : Bytes) :
    unescape (escapeValue v) = (if v.all (· == 46) then [46, 46, 46] else []) ++ v := by
  have h0 : unescape (v.flatMap Dissect.escapeByte) = v := by
    have := unescape_flatMap v []
    simpa [unescape] using this
  unfold escapeValue
  split
  · have : text "..." = [46, 46, 46] := by decide +kernel
    rw [this]
    show unescape (46 :: 46 :: 46 :: _) = _
    rw [unescape_plain (by decide), unescape_plain (by decide), unescape_plain (by decide)]
    show 46 :: 46 :: 46 :: unescape (v.flatMap Dissect.escapeByte) = _
    rw [h0]
    rfl
  · simpa using h0

theorem checked_valid {c : Comp} (h : Valid [c]) : checked c = some c := by
  obtain ⟨h1, h2, h3⟩ := h c (by simp)
  unfold checked
  rw [if_neg (by omega), if_neg]
  rintro ⟨h, h'⟩
  exact h' (h3 h)

theorem parseValue_dots {t : Nat} {v s : Bytes}
    (hs : unescape s = (if v.all (· == 46) then [46, 46, 46] else []) ++ v ∨
      unescape s = v ++ (if v.all (· == 46) then [46, 46, 46] else [])) (h : Valid [⟨t, v⟩]) :
    parseValue t s = some ⟨t, v⟩ := by
  unfold parseValue
  dsimp only
  by_cases hv : v.all (· == 46) = true
  · have hv' : ∀ b ∈ v, b = 46 := fun b hb => by simpa using List.all_eq_true.mp hv b hb
    have hrep : v = List.replicate v.length 46 := List.eq_replicate_iff.mpr ⟨rfl, hv'⟩
    have e : unescape s = [46, 46, 46] ++ v := by
      rcases hs with hs | hs
      · rw [hs, if_pos hv]
      · rw [hs, if_pos hv, hrep]
        rw [show ([46, 46, 46] : Bytes) = List.replicate 3 46 from rfl, List.replicate_append_replicate,
          List.replicate_append_replicate, Nat.add_comm]
    rw [e, if_pos (by rw [List.all_append, hv]; rfl), if_neg (by simp)]
    simpa using checked_valid h
  · have e : unescape s = v := by
      rcases hs with hs | hs <;> simpa [hv] using hs
    rw [e, if_neg hv]
    exact checked_valid h

theorem foldl_decimal (n : Nat) : (decimal n).foldl (fun a x => a * 10 + (x.toNat - 48)) 0 = n := digitsValue_decimal n

theorem parseNumber_decimal {b n : Nat} (h : n < b) : parseNumber b (decimal n) = some n := by
  unfold parseNumber
  rw [foldl_decimal, if_pos ⟨h, rfl⟩]

theorem parseNumber_none {b : Nat} {s : Bytes} (h : s.all isDigit = false) : parseNumber b s = none := by
  unfold parseNumber
  dsimp only
  rw [if_neg]
  rintro ⟨-, e⟩
  rw [← e, decimal_isDigit] at h
  cases h

theorem parseHex_hex {f : UInt8 → Bytes} (hf : ∀ b, ∃ x y, f b = [x, y] ∧ IsHex b x y) (v : Bytes) :
    parseHex (v.flatMap f) = some v := by
  induction v with
  | nil => rfl
  | cons b v ih =>
    obtain ⟨x, y, h, hx⟩ := hf b
    obtain ⟨i, j, hi, hj, e⟩ := isHex_byte hx
    rw [List.flatMap_cons, h]
    show parseHex (x :: y :: v.flatMap f) = _
    rw [parseHex, hi, hj, ih]
    simp only [e]

/-- The parts of a text with an equals sign. -/
theorem parts {k v : Bytes} (h : 61 ∉ k) : (61 : UInt8) ∈ k ++ 61 :: v ∧
    (k ++ 61 :: v).takeWhile (· != 61) = k ∧ ((k ++ 61 :: v).dropWhile (· != 61)).drop 1 = v := by
  have hk : ∀ b ∈ k, (b != 61) = true := by
    intro b hb
    simp only [bne_iff_ne, ne_eq]
    rintro rfl
    exact h hb
  refine ⟨by simp, ?_, ?_⟩
  · rw [List.takeWhile_append_of_pos hk]; simp
  · rw [List.dropWhile_append_of_pos hk]; simp

theorem parse_typed {t : Nat} {s v : Bytes} (hs : unescape s = (if v.all (· == 46) then [46, 46, 46] else []) ++ v ∨
      unescape s = v ++ (if v.all (· == 46) then [46, 46, 46] else [])) (h : Valid [⟨t, v⟩]) :
    parseComp (decimal t ++ 61 :: s) = some ⟨t, v⟩ := by
  obtain ⟨h1, h2, h3⟩ := parts (v := s) (not_mem_of_all (decimal_all t))
  unfold parseComp
  rw [if_pos h1, h2, h3]
  dsimp only
  rw [parseNumber_decimal (Nat.lt_succ_of_le (h ⟨t, v⟩ (by simp)).2.1)]
  exact parseValue_dots hs h

theorem parse_generic {s v : Bytes} (hs : unescape s = (if v.all (· == 46) then [46, 46, 46] else []) ++ v ∨
      unescape s = v ++ (if v.all (· == 46) then [46, 46, 46] else [])) (hc : 61 ∉ s) :
    parseComp s = some ⟨8, v⟩ := by
  unfold parseComp
  rw [if_neg hc]
  refine parseValue_dots hs ?_
  intro c hc
  rw [List.mem_singleton.mp hc]
  exact ⟨show 1 ≤ 8 by decide, show 8 ≤ 65535 by decide, by rintro (h | h) <;> cases h⟩

theorem parse_digest {k s v : Bytes} {t : Nat} (hk : (t = 1 ∧ k = text "sha256digest") ∨ (t = 2 ∧ k = text "params-sha256"))
    (hs : parseHex s = some v) (h : Valid [⟨t, v⟩]) : parseComp (k ++ 61 :: s) = some ⟨t, v⟩ := by
  have hk1 : 61 ∉ k ∧ k.all isDigit = false ∧ typeOfKey k = some t ∧ (t = 1 ∨ t = 2) := by
    rcases hk with ⟨rfl, rfl⟩ | ⟨rfl, rfl⟩ <;> decide +kernel
  obtain ⟨h1, h2, h3⟩ := parts (v := s) hk1.1
  unfold parseComp
  rw [if_pos h1, h2, h3]
  dsimp only
  rw [parseNumber_none hk1.2.1]
  dsimp only
  rw [hk1.2.2.1]
  dsimp only
  rw [if_pos hk1.2.2.2, hs]
  exact checked_valid h

theorem parse_number {t n : Nat} {s : String} (hk : numberKey t = some s) (hn : n < 2 ^ 64) :
    parseComp (text s ++ 61 :: decimal n) = some ⟨t, nniEncode n⟩ := by
  have hk1 : 61 ∉ text s ∧ (text s).all isDigit = false ∧ typeOfKey (text s) = some t ∧ ¬ (t = 1 ∨ t = 2) := by
    rcases numberKey_cases hk with ⟨rfl, rfl⟩ | ⟨rfl, rfl⟩ | ⟨rfl, rfl⟩ | ⟨rfl, rfl⟩ | ⟨rfl, rfl⟩ <;> decide +kernel
  obtain ⟨h1, h2, h3⟩ := parts (v := decimal n) hk1.1
  unfold parseComp
  rw [if_pos h1, h2, h3]
  dsimp only
  rw [parseNumber_none hk1.2.1]
  dsimp only
  rw [hk1.2.2.1]
  dsimp only
  rw [if_neg hk1.2.2.2, parseNumber_decimal hn]
  rfl

theorem hexBytes_parse (v : Bytes) : parseHex (hexBytes v) = some v := by
  refine parseHex_hex ?_ v
  intro b
  have key : ∀ k : Fin 16, hexValue (hexDigit k.val) = some k.val := by decide +kernel
  have hb := b.toNat_lt
  exact ⟨_, _, rfl, key ⟨b.toNat / 16, by omega⟩, key ⟨b.toNat % 16, by omega⟩⟩

theorem parse_compText {c : Comp} (h : Valid [c]) (hm : Minimal [c]) : parseComp (compText c) = some c := by
  obtain ⟨t, v⟩ := c
  unfold compText
  dsimp only
  by_cases h1 : t = 1
  · rw [if_pos h1]
    have : text "sha256digest=" = text "sha256digest" ++ [61] := by decide +kernel
    rw [this, List.append_assoc]
    exact parse_digest (.inl ⟨h1, rfl⟩) (hexBytes_parse v) h
  rw [if_neg h1]
  by_cases h2 : t = 2
  · rw [if_pos h2]
    have : text "params-sha256=" = text "params-sha256" ++ [61] := by decide +kernel
    rw [this, List.append_assoc]
    exact parse_digest (.inr ⟨h2, rfl⟩) (hexBytes_parse v) h
  rw [if_neg h2]
  by_cases h8 : t = 8
  · rw [if_pos h8, parse_generic (.inl (unescape_escapeValue v)) (not_mem_of_all (escapeValue_all v)), h8]
  rw [if_neg h8]
  cases hk : numberKey t with
  | none => exact parse_typed (.inl (unescape_escapeValue v)) h
  | some s =>
    dsimp only
    by_cases hn : isNumber ⟨t, v⟩ = true
    · rw [if_pos hn]
      have e := hm.eq (c := ⟨t, v⟩) (by simp) hk hn
      dsimp only at e
      have hlt : beNat v < 2 ^ 64 := by
        have := beNat_lt v
        refine Nat.lt_of_lt_of_le this ?_
        have hl : v.length ≤ 8 := by
          simp only [isNumber, Bool.or_eq_true, beq_iff_eq] at hn
          omega
        calc 256 ^ v.length ≤ 256 ^ 8 := Nat.pow_le_pow_right (by decide) hl
          _ = 2 ^ 64 := by norm_num
      rw [parse_number hk hlt, ← e]
    · rw [if_neg hn]
      exact parse_typed (.inl (unescape_escapeValue v)) h

/-! ## Names -/

theorem cut_ne (a : Bytes) : cut a ≠ [] := by
  cases a with
  | nil => simp [cut]
  | cons b a =>
    unfold cut
    split
    · simp
    · split <;> simp

theorem cut_append (a b : Bytes) : cut (a ++ 47 :: b) = cut a ++ cut b := by
  induction a with
  | nil => simp [cut]
  | cons x a ih =>
    rw [List.cons_append, cut.eq_2, cut.eq_2, ih]
    split
    · rfl
    · have := cut_ne a
      cases h : cut a with
      | nil => exact absurd h this
      | cons w ws => rfl

theorem cut_plain {a : Bytes} (h : 47 ∉ a) : cut a = [a] := by
  induction a with
  | nil => rfl
  | cons x a ih =>
    rw [cut.eq_2, if_neg (by rintro rfl; exact h (by simp)), ih (fun hm => h (by simp [hm]))]

theorem cut_last {a : Bytes} : (cut a).getLast? = some [] → a = [] ∨ a.getLast? = some 47 := by
  induction a with
  | nil => exact fun _ => .inl rfl
  | cons x a ih =>
    intro h
    right
    rw [cut.eq_2] at h
    split at h
    · rename_i hx
      subst hx
      have hne := cut_ne a
      cases hc : cut a with
      | nil => exact absurd hc hne
      | cons w ws =>
        rw [hc, List.getLast?_cons_cons, ← hc] at h
        rcases ih h with h | h
        · subst h; rfl
        · rw [List.getLast?_cons, h]; rfl
    · have hne := cut_ne a
      cases hc : cut a with
      | nil => exact absurd hc hne
      | cons w ws =>
        rw [hc] at h ih
        dsimp only at h
        cases ws with
        | nil => simp at h
        | cons w' ws =>
          rw [List.getLast?_cons_cons] at h
          rw [List.getLast?_cons_cons] at ih
          rcases ih h with h | h
          · subst h; simp [cut] at hc
          · rw [List.getLast?_cons, h]; rfl

theorem pieces_nil : pieces [] = [] := by decide

theorem pieces_eq {a : Bytes} (h0 : a ≠ []) (h : a.getLast? ≠ some 47) : pieces a = cut a := by
  unfold pieces
  rw [if_neg]
  intro hc
  rcases cut_last hc with h' | h'
  · exact h0 h'
  · exact h h'

/-- One more component. -/
theorem pieces_append {a w : Bytes} (h0 : a ≠ []) (h : a.getLast? ≠ some 47) (hw : w ≠ []) (hs : 47 ∉ w) :
    pieces (a ++ 47 :: w) = pieces a ++ [w] := by
  rw [pieces_eq h0 h, pieces_eq (by simp), cut_append, cut_plain hs]
  rw [List.getLast?_append_of_ne_nil _ (by simp), List.getLast?_cons]
  cases hl : w.getLast? with
  | none => exact absurd (List.getLast?_eq_none_iff.mp hl) hw
  | some b =>
    simp only [Option.getD_some, ne_eq, Option.some.injEq]
    rintro rfl
    exact hs (List.mem_of_getLast? hl)

theorem pieces_one {w : Bytes} (hw : w ≠ []) (hs : 47 ∉ w) : pieces w = [w] := by
  rw [pieces_eq hw, cut_plain hs]
  intro h
  exact hs (List.mem_of_getLast? h)

theorem takeWhile_cut {x : UInt8} {a b : Bytes} (h : x ∈ a) : (a ++ b).takeWhile (· != x) = a.takeWhile (· != x) ∧
    (a ++ b).dropWhile (· != x) = a.dropWhile (· != x) ++ b := by
  induction a with
  | nil => cases h
  | cons y a ih =>
    rw [List.cons_append, List.takeWhile_cons, List.takeWhile_cons, List.dropWhile_cons, List.dropWhile_cons]
    by_cases hy : y = x
    · subst hy; simp
    · have hy' : (y != x) = true := by simpa using hy
      simp only [hy', if_true]
      obtain ⟨h1, h2⟩ := ih (by rcases List.mem_cons.mp h with h | h; exact absurd h.symm hy; exact h)
      exact ⟨by rw [h1], h2⟩

theorem takeWhile_none {x : UInt8} {a b : Bytes} (h : x ∉ a) : (a ++ b).takeWhile (· != x) = a ++ b.takeWhile (· != x) ∧
    (a ++ b).dropWhile (· != x) = b.dropWhile (· != x) := by
  have ha : ∀ y ∈ a, (y != x) = true := by
    intro y hy
    simp only [bne_iff_ne, ne_eq]
    rintro rfl
    exact h hy
  exact ⟨List.takeWhile_append_of_pos ha, List.dropWhile_append_of_pos ha⟩

theorem dropWhile_nil {x : UInt8} {a : Bytes} : a.dropWhile (· != x) = [] ↔ x ∉ a := by
  induction a with
  | nil => simp
  | cons y a ih =>
    rw [List.dropWhile_cons]
    by_cases hy : y = x
    · subst hy; simp
    · rw [if_pos (by simpa using hy), ih]
      simp [Ne.symm hy]

theorem dropScheme_append (a w : Bytes) : dropScheme (a ++ 47 :: w) = dropScheme a ++ 47 :: w := by
  unfold dropScheme
  by_cases h : (58 : UInt8) ∈ a
  · obtain ⟨h1, h2⟩ := takeWhile_cut (b := 47 :: w) h
    rw [h1, h2]
    by_cases h3 : (47 : UInt8) ∈ a.takeWhile (· != 58)
    · rw [if_neg (fun hc => hc.2 h3), if_neg (fun hc => hc.2 h3)]
    · rw [if_pos ⟨by simp [h], h3⟩, if_pos ⟨h, h3⟩]
      have : a.dropWhile (· != 58) ≠ [] := by
        intro hc
        exact (dropWhile_nil.mp hc) h
      obtain ⟨b, r, hb⟩ := List.exists_cons_of_ne_nil this
      rw [hb]; rfl
  · obtain ⟨h1, h2⟩ := takeWhile_none (b := 47 :: w) h
    rw [if_neg (c := 58 ∈ a ∧ _) (fun hc => h hc.1), if_neg]
    rintro ⟨-, hc⟩
    rw [h1] at hc
    exact hc (by simp)

theorem dropScheme_suffix (a : Bytes) : dropScheme a <:+ a := by
  unfold dropScheme
  split
  · exact (List.drop_suffix _ _).trans (List.dropWhile_suffix _)
  · exact List.suffix_refl a

theorem getLast_suffix {a b : Bytes} (h : a <:+ b) (hb : b.getLast? ≠ some 47) : a.getLast? ≠ some 47 := by
  obtain ⟨c, rfl⟩ := h
  intro ha
  apply hb
  cases a with
  | nil => cases ha
  | cons x a => rw [List.getLast?_append_of_ne_nil _ (by simp)]; exact ha

theorem dropStart_suffix (a : Bytes) : dropStart a <:+ a := by
  unfold dropStart
  split
  · exact List.suffix_refl _
  · split
    · split
      · exact List.nil_suffix
      · split
        · exact ((List.drop_suffix _ _).trans (List.dropWhile_suffix _)).trans ⟨[_, _], rfl⟩
        · exact ⟨[_], rfl⟩
    · exact List.suffix_refl _

theorem dropStart_append {a w : Bytes} (ha : a.getLast? ≠ some 47) (hw : w ≠ []) (hs : 47 ∉ w) :
    dropStart (a ++ 47 :: w) = if dropStart a = [] then w else dropStart a ++ 47 :: w := by
  have hslash : ∀ {a : Bytes}, a.getLast? ≠ some 47 → (47 : UInt8) ∈ a → (a.dropWhile (· != 47)).drop 1 ≠ [] := by
    intro a hl hm
    induction a with
    | nil => cases hm
    | cons x a ih =>
      rw [List.dropWhile_cons]
      by_cases hx : x = 47
      · subst hx
        simp only [bne_self_eq_false, Bool.false_eq_true, if_false, List.drop_succ_cons, List.drop_zero]
        rintro rfl
        exact hl rfl
      · rw [if_pos (by simpa using hx)]
        refine ih (fun h => hl ?_) ?_
        · rw [List.getLast?_cons, h]; rfl
        · rcases List.mem_cons.mp hm with h | h
          · exact absurd h.symm hx
          · exact h
  cases a with
  | nil =>
    obtain ⟨b, r, rfl⟩ := List.exists_cons_of_ne_nil hw
    have hb : b ≠ 47 := by rintro rfl; exact hs (by simp)
    simp [dropStart, hb]
  | cons b l =>
    by_cases hb : b = 47
    · subst hb
      cases l with
      | nil => exact absurd rfl ha
      | cons c r =>
        by_cases hc : c = 47
        · subst hc
          have hr : r.getLast? ≠ some 47 := getLast_suffix ⟨[47, 47], rfl⟩ ha
          simp only [dropStart, List.cons_append, if_true]
          by_cases hm : (47 : UInt8) ∈ r
          · have h1 := hslash hr hm
            rw [if_neg h1, (takeWhile_cut hm).2]
            have : r.dropWhile (· != 47) ≠ [] := by intro h; rw [h] at h1; exact h1 rfl
            obtain ⟨x, y, hx⟩ := List.exists_cons_of_ne_nil this
            rw [hx]; rfl
          · have h1 : r.dropWhile (· != 47) = [] := by
              exact dropWhile_nil.mpr hm
            rw [(takeWhile_none hm).2, h1]
            simp
        · simp [dropStart, hc]
    · simp [dropStart, hb]

theorem mapM_append {f : Bytes → Option Comp} (a b : List Bytes) :
    (a ++ b).mapM f = (a.mapM f).bind fun x => (b.mapM f).map fun y => x ++ y := by
  rw [List.mapM_append]
  cases a.mapM f <;> cases b.mapM f <;> rfl

/-- A component after a slash is appended to the name. -/
theorem parseName_append {a w : Bytes} {c : Comp} (ha : a.getLast? ≠ some 47) (hw : w ≠ []) (hs : 47 ∉ w)
    (hc : parseComp w = some c) : parseName (a ++ 47 :: w) = (parseName a).map fun n => n ++ [c] := by
  have hone : ([w].mapM parseComp) = some [c] := by simp [hc]
  have h1 := getLast_suffix (dropScheme_suffix a) ha
  have h2 := getLast_suffix (dropStart_suffix (dropScheme a)) h1
  unfold parseName
  rw [dropScheme_append, dropStart_append h1 hw hs]
  split
  · rename_i h0
    rw [h0, pieces_nil, pieces_one hw hs, hone]
    rfl
  · rename_i h0
    rw [pieces_append h0 h2 hw hs, mapM_append, hone]
    cases (pieces (dropStart (dropScheme a))).mapM parseComp <;> rfl

/-- A sequence of components. -/
theorem parseName_texts {f : Comp → Bytes} {n : Name} (hne : ∀ c ∈ n, f c ≠ []) (hs : ∀ c ∈ n, 47 ∉ f c)
    (hp : ∀ c ∈ n, parseComp (f c) = some c) : parseName (n.flatMap fun c => 47 :: f c) = some n ∧
      (n.flatMap fun c => 47 :: f c).getLast? ≠ some 47 := by
  induction n using List.reverseRecOn with
  | nil =>
    simp only [List.flatMap_nil]
    decide +kernel
  | append_singleton n c ih =>
    obtain ⟨h1, h2⟩ := ih (fun d hd => hne d (by simp [hd])) (fun d hd => hs d (by simp [hd]))
      (fun d hd => hp d (by simp [hd]))
    have hc : c ∈ n ++ [c] := by simp
    rw [List.flatMap_append]
    simp only [List.flatMap_cons, List.flatMap_nil, List.append_nil]
    refine ⟨by rw [parseName_append h2 (hne c hc) (hs c hc) (hp c hc), h1]; rfl, ?_⟩
    rw [List.getLast?_append_of_ne_nil _ (by simp), List.getLast?_cons]
    cases hl : (f c).getLast? with
    | none => exact absurd (List.getLast?_eq_none_iff.mp hl) (hne c hc)
    | some b =>
      simp only [Option.getD_some, ne_eq, Option.some.injEq]
      rintro rfl
      exact hs c hc (List.mem_of_getLast? hl)

theorem parseName_root : parseName [47] = some [] := by decide +kernel

theorem compText_slash (c : Comp) : 47 ∉ compText c := by
  intro h
  have := List.all_eq_true.mp (compText_all c) 47 h
  revert this
  decide

theorem valid_mem {n : Name} (h : Valid n) {c} (hc : c ∈ n) : Valid [c] := by
  intro d hd
  rw [List.mem_singleton.mp hd]
  exact h c hc

theorem minimal_mem {n : Name} (h : Minimal n) {c} (hc : c ∈ n) : Minimal [c] := by
  intro d hd
  rw [List.mem_singleton.mp hd]
  exact h c hc

theorem parse_nameText {n : Name} (h : Valid n) (hm : Minimal n) : parseName (nameText n) = some n := by
  unfold nameText
  split
  · rename_i h0
    subst h0
    exact parseName_root
  · exact (parseName_texts (fun c _ => compText_ne c) (fun c _ => compText_slash c)
      (fun c hc => parse_compText (valid_mem h hc) (minimal_mem hm hc))).1

/-! ## Every name that is read is valid -/

theorem mapM_mem {f : Bytes → Option Comp} {l : List Bytes} {n : Name} (h : l.mapM f = some n) :
    ∀ c ∈ n, ∃ w, f w = some c := by
  induction l generalizing n with
  | nil =>
    simp only [List.mapM_nil] at h
    cases h
    simp
  | cons w l ih =>
    rw [List.mapM_cons] at h
    cases h1 : f w with
    | none => rw [h1] at h; cases h
    | some d =>
      cases h2 : l.mapM f with
      | none => rw [h1, h2] at h; cases h
      | some m =>
        rw [h1, h2] at h
        cases h
        intro c hc
        rcases List.mem_cons.mp hc with rfl | hc
        · exact ⟨w, h1⟩
        · exact ih h2 c hc

theorem checked_some {c d : Comp} (h : checked c = some d) :
    1 ≤ d.type ∧ d.type ≤ 65535 ∧ (d.type = 1 ∨ d.type = 2 → d.value.length = 32) := by
  unfold checked at h
  split at h
  · cases h
  · split at h
    · cases h
    · cases h
      rename_i h1 h2
      refine ⟨by omega, by omega, fun ht => ?_⟩
      by_contra hc
      exact h2 ⟨ht, hc⟩

theorem parseValue_valid {t : Nat} {s : Bytes} {c : Comp} (h : parseValue t s = some c) :
    1 ≤ c.type ∧ c.type ≤ 65535 ∧ (c.type = 1 ∨ c.type = 2 → c.value.length = 32) := by
  unfold parseValue at h
  dsimp only at h
  split at h
  · split at h
    · cases h
    · exact checked_some h
  · exact checked_some h

theorem typeOfKey_cases {k : Bytes} {t : Nat} (h : typeOfKey k = some t) : t ∈ [1, 2, 50, 52, 54, 56, 58] := by
  unfold typeOfKey at h
  repeat' split at h
  all_goals cases h
  all_goals decide

theorem parseComp_valid {s : Bytes} {c : Comp} (h : parseComp s = some c) :
    1 ≤ c.type ∧ c.type ≤ 65535 ∧ (c.type = 1 ∨ c.type = 2 → c.value.length = 32) := by
  unfold parseComp at h
  split at h
  · dsimp only at h
    split at h
    · exact parseValue_valid h
    · split at h
      · cases h
      · rename_i t ht
        have := typeOfKey_cases ht
        split at h
        · obtain ⟨d, -, hd⟩ := Option.bind_eq_some_iff.mp h
          exact checked_some hd
        · rename_i hne
          obtain ⟨m, -, rfl⟩ := Option.map_eq_some_iff.mp h
          dsimp only
          simp only [List.mem_cons, List.not_mem_nil, or_false] at this
          exact ⟨by omega, by omega, fun h => absurd h hne⟩
  · exact parseValue_valid h

/-! ## Versions -/

theorem version_valid (conv : Convention) (k : Nat) : Valid [Comp.fromVersion conv k] := by
  intro c hc
  rw [List.mem_singleton.mp hc]
  cases conv
  · exact ⟨show 1 ≤ 8 by decide, show 8 ≤ 65535 by decide, by rintro (h | h) <;> cases h⟩
  · exact ⟨show 1 ≤ 54 by decide, show 54 ≤ 65535 by decide, by rintro (h | h) <;> cases h⟩

theorem version_minimal (conv : Convention) {k : Nat} (hk : k < 2 ^ 64) : Minimal [Comp.fromVersion conv k] := by
  intro c hc h1 h2
  rw [List.mem_singleton.mp hc] at *
  cases conv
  · exact absurd h1 (by simp [Comp.fromVersion, Comp.encode, ttGeneric])
  · show nniEncode k = nniEncode (beNat (nniEncode k))
    have := nniDecode_nniEncode hk
    unfold nniDecode at this
    split at this
    · rw [Option.some.inj this]
    · cases this

/-! ## The Wireshark dissector -/

open Wireshark in
theorem unescape_esc1 (b : UInt8) (r : Bytes) : unescape (esc1 b ++ r) = b :: unescape r := by
  have key : ∀ k : Fin 16, hexValue (Wireshark.hexDigit true k.val) = some k.val := by decide +kernel
  have hb := b.toNat_lt
  unfold esc1
  split
  · rename_i h
    refine unescape_plain ?_ r
    rintro rfl
    revert h
    decide
  · obtain ⟨i, j, hi, hj, e⟩ := isHex_byte (b := b) ⟨key ⟨b.toNat / 16, by omega⟩, key ⟨b.toNat % 16, by omega⟩⟩
    exact (unescape_hex hi hj r).trans (by rw [e])

open Wireshark in
theorem unescape_escape (v : Bytes) : unescape (escape v) = v ++ (if v.all (· == 46) then [46, 46, 46] else []) := by
  have h : ∀ r, unescape (v.flatMap esc1 ++ r) = v ++ unescape r := by
    intro r
    induction v with
    | nil => rfl
    | cons b v ih => rw [List.flatMap_cons, List.append_assoc, unescape_esc1, ih]; rfl
  rw [escape_eq, h]
  have e : v.any (· != 46) = !v.all (· == 46) := by
    rw [List.any_eq_not_all_not]
    simp [bne]
  rw [show v.any (· != 0x2E) = v.any (· != 46) from rfl, e]
  cases v.all (· == 46)
  · simp [unescape]
  · simp only [Bool.not_true, Bool.false_eq_true, if_false, if_true]
    rw [unescape_plain (by decide), unescape_plain (by decide), unescape_plain (by decide)]
    simp [unescape]

open Wireshark in
theorem escape_no_equals (v : Bytes) : 61 ∉ escape v ∧ 47 ∉ escape v := by
  constructor <;> intro h <;> rcases escape_plain v _ h with h | h <;> revert h <;> decide

open Wireshark in
theorem escape_ne (v : Bytes) : escape v ≠ [] := by
  intro h
  have := unescape_escape v
  rw [h] at this
  cases v with
  | nil => simp [unescape] at this
  | cons b v => simp [unescape] at this

open Wireshark in
theorem parse_compUri {c : Comp} (h : Valid [c]) : parseComp (compUri c) = some c ∧ 47 ∉ compUri c ∧ compUri c ≠ [] := by
  obtain ⟨t, v⟩ := c
  have key : ∀ k : Fin 16, hexValue (Wireshark.hexDigit false k.val) = some k.val ∧ Wireshark.hexDigit false k.val ≠ 47 := by
    decide +kernel
  have hx : parseHex (v.flatMap (hex2 false)) = some v := by
    refine parseHex_hex ?_ v
    intro b
    have hb := b.toNat_lt
    exact ⟨_, _, rfl, (key ⟨b.toNat / 16, by omega⟩).1, (key ⟨b.toNat % 16, by omega⟩).1⟩
  have hx2 : (47 : UInt8) ∉ v.flatMap (hex2 false) := by
    intro hm
    obtain ⟨b, -, hb⟩ := List.mem_flatMap.mp hm
    have hlt := b.toNat_lt
    simp only [hex2, List.mem_cons, List.not_mem_nil, or_false] at hb
    rcases hb with hb | hb
    · exact (key ⟨b.toNat / 16, by omega⟩).2 hb.symm
    · exact (key ⟨b.toNat % 16, by omega⟩).2 hb.symm
  unfold compUri digestUri
  dsimp only
  by_cases h1 : t = 1
  · have e : ascii "sha256digest=" = text "sha256digest" ++ [61] := by decide +kernel
    rw [if_pos (.inl h1), if_pos h1, e, List.append_assoc]
    refine ⟨parse_digest (.inl ⟨h1, rfl⟩) hx h, ?_, by simp⟩
    intro hm
    rcases List.mem_append.mp hm with hm | hm
    · revert hm; decide +kernel
    · rcases List.mem_cons.mp hm with hm | hm
      · revert hm; decide
      · exact hx2 hm
  by_cases h2 : t = 2
  · have e : ascii "params-sha256=" = text "params-sha256" ++ [61] := by decide +kernel
    rw [if_pos (.inr h2), if_neg h1, e, List.append_assoc]
    refine ⟨parse_digest (.inr ⟨h2, rfl⟩) hx h, ?_, by simp⟩
    intro hm
    rcases List.mem_append.mp hm with hm | hm
    · revert hm; decide +kernel
    · rcases List.mem_cons.mp hm with hm | hm
      · revert hm; decide
      · exact hx2 hm
  rw [if_neg (by omega)]
  by_cases h8 : t = 8
  · rw [if_pos h8, h8]
    exact ⟨parse_generic (.inr (unescape_escape v)) (escape_no_equals v).1, (escape_no_equals v).2, escape_ne v⟩
  · rw [if_neg h8]
    refine ⟨parse_typed (.inr (unescape_escape v)) h, ?_, by simp⟩
    intro hm
    rcases List.mem_append.mp hm with hm | hm
    · have := List.all_eq_true.mp (decimal_all t) 47 hm
      revert this; decide
    · rcases List.mem_cons.mp hm with hm | hm
      · revert hm; decide
      · exact (escape_no_equals v).2 hm

open Wireshark in
theorem parse_uri {n : Name} (h : Valid n) : parseName (uri n) = some n := by
  cases n with
  | nil => exact parseName_root
  | cons c n =>
    have e : uri (c :: n) = (c :: n).flatMap fun c => 47 :: compUri c := by
      unfold uri
      rw [List.map_cons, intercalate_cons, List.flatMap_cons, List.flatMap_map]
      rfl
    rw [e]
    exact (parseName_texts (fun c hc => (parse_compUri (valid_mem h hc)).2.2) (fun c hc => (parse_compUri (valid_mem h hc)).2.1)
      (fun c hc => (parse_compUri (valid_mem h hc)).1)).1

theorem hexValue_chars (b : UInt8) : (hexValue b).isSome = true ↔ b ∈ hexChars := by
  have key : ∀ n : Fin 256, (hexValue (UInt8.ofNat n.val)).isSome = true ↔ UInt8.ofNat n.val ∈ hexChars := by decide +kernel
  have := key ⟨b.toNat, b.toNat_lt⟩
  simpa using this

theorem unescape_typed : ∀ (k : Nat) (w : Bytes), w.length ≤ k →
    (∀ a x y r, w = a ++ 37 :: x :: y :: r → ¬ (x ∈ hexChars ∧ y ∈ hexChars)) → unescape w = w := by
  intro k
  induction k with
  | zero =>
    intro w hw _
    rw [List.length_eq_zero_iff.mp (Nat.le_zero.mp hw)]
    rw [unescape.eq_def]
  | succ k ih =>
    intro w hw h
    cases w with
    | nil => rw [unescape.eq_def]
    | cons b l =>
      have hl : l.length ≤ k := by simpa using hw
      by_cases hb : b = 37
      · subst hb
        rw [unescape.eq_def]
        dsimp only
        rw [if_pos rfl]
        split
        · rename_i x y r
          have hn := h [] x y r rfl
          have hr : unescape r = r := by
            refine ih r (by simp at hl; omega) (fun a x' y' r' e => h (37 :: x :: y :: a) x' y' r' ?_)
            rw [e]; rfl
          split
          · rename_i i j hi hj
            exact absurd ⟨(hexValue_chars x).mp (by rw [hi]; rfl), (hexValue_chars y).mp (by rw [hj]; rfl)⟩ hn
          · rw [hr]
        · rfl
      · rw [unescape_plain hb, ih l hl (fun a x y r e => h (b :: a) x y r (by rw [e]; rfl))]

theorem parse_typedWord {w : Bytes} (h : Typed w) : parseComp w = some ⟨8, w⟩ := by
  obtain ⟨⟨b, hb, hd⟩, -, he, hx⟩ := h
  refine parse_generic (.inl ?_) he
  rw [unescape_typed _ w (Nat.le_refl _) hx, if_neg]
  · rfl
  · intro ha
    exact hd (by simpa using List.all_eq_true.mp ha b hb)

end Verif.Uri
