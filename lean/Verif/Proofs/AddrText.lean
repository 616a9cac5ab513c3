import Verif.Spec.DumpText
import Verif.Proofs.PingOutput
import Verif.Proofs.Ping

/-! # The text of addresses can be read back -/

namespace Verif.DumpText

open PingOutput

theorem split_sep {c : UInt8} {ws : List Bytes} (hn : ws ≠ []) (h : ∀ w ∈ ws, c ∉ w) : split c (sep c ws) = ws := by
  induction ws with
  | nil => exact absurd rfl hn
  | cons w ws ih =>
    cases ws with
    | nil => exact split_free (h w (by simp))
    | cons x ws =>
      show split c (w ++ c :: sep c (x :: ws)) = _
      rw [split_cons (h w (by simp)), ih (by simp) (fun y hy => h y (List.mem_cons_of_mem _ hy))]

/-- A list of parts, a separator, and a rest. -/
theorem split_sep_append {c : UInt8} {ws : List Bytes} (hn : ws ≠ []) (h : ∀ w ∈ ws, c ∉ w) (r : Bytes) :
    split c (sep c ws ++ c :: r) = ws ++ split c r := by
  induction ws with
  | nil => exact absurd rfl hn
  | cons w ws ih =>
    cases ws with
    | nil => exact split_cons (h w (by simp)) r
    | cons x ws =>
      show split c ((w ++ c :: sep c (x :: ws)) ++ c :: r) = _
      rw [List.append_assoc, List.cons_append, split_cons (h w (by simp)), ih (by simp) (fun y hy => h y (List.mem_cons_of_mem _ hy))]
      rfl

theorem decimal_free {c : UInt8} (hc : isDigit c = false) (n : Nat) : c ∉ decimal n := by
  intro h
  have := List.all_eq_true.mp (decimal_isDigit n) c h
  rw [hc] at this
  cases this

theorem decimal_ne (n : Nat) : decimal n ≠ [] := by
  rw [decimal]; split <;> simp

theorem readDec_decimal (n : Nat) : readDec (decimal n) = n := decimal_parse n

theorem readIp4_ip4Text {a : Bytes} (ha : a ≠ []) : readIp4 (ip4Text a) = a := by
  unfold readIp4 ip4Text
  rw [split_sep (by simpa using ha) (by
    intro w hw
    obtain ⟨b, -, rfl⟩ := List.mem_map.mp hw
    exact decimal_free (by decide) _), List.map_map]
  conv => rhs; rw [← List.map_id a]
  apply List.map_congr_left
  intro b _
  simp [readDec_decimal]

/-! ## Hexadecimal -/

def hexChar (b : UInt8) : Bool := isDigit b || (97 ≤ b.toNat && b.toNat ≤ 102)

theorem hexDigit_char {k : Nat} (h : k < 16) : hexChar (hexDigit k) = true ∧
    (if (hexDigit k).toNat < 58 then (hexDigit k).toNat - 48 else (hexDigit k).toNat - 87) = k := by
  have : ∀ k : Fin 16, hexChar (hexDigit k) = true ∧
    (if (hexDigit k).toNat < 58 then (hexDigit k).toNat - 48 else (hexDigit k).toNat - 87) = k := by decide +kernel
  exact this ⟨k, h⟩

theorem hexText_char (n : Nat) : ∀ b ∈ hexText n, hexChar b = true := by
  induction n using Nat.strongRecOn with
  | _ n ih =>
    rw [hexText]
    split
    · rename_i h; simpa using (hexDigit_char h).1
    · intro b hb
      rcases List.mem_append.mp hb with hb | hb
      · exact ih (n / 16) (by omega) b hb
      · rw [List.mem_singleton.mp hb]; exact (hexDigit_char (by omega)).1

theorem hexText_ne (n : Nat) : hexText n ≠ [] := by
  rw [hexText]; split <;> simp

theorem readHex_hexText (n : Nat) : readHex (hexText n) = n := by
  unfold readHex
  induction n using Nat.strongRecOn with
  | _ n ih =>
    rw [hexText]
    split
    · rename_i h
      simp only [List.foldl_cons, List.foldl_nil]
      rw [(hexDigit_char h).2]; omega
    · rename_i h
      rw [List.foldl_append, ih (n / 16) (by omega)]
      simp only [List.foldl_cons, List.foldl_nil]
      rw [(hexDigit_char (by omega : n % 16 < 16)).2]
      omega

theorem hex_free {c : UInt8} (hc : hexChar c = false) (n : Nat) : c ∉ hexText n := by
  intro h
  have := hexText_char n c h
  rw [hc] at this
  cases this

/-! ## The longest run of zeros -/

/-- A run of zeros in the list. -/
def GoodRun (ws : List Nat) (r : Nat × Nat) : Prop :=
  r.1 + r.2 ≤ ws.length ∧ ∀ j, r.1 ≤ j → j < r.1 + r.2 → ws[j]? = some 0

theorem better_good {ws : List Nat} {best cur : Option (Nat × Nat)} (hb : ∀ r, best = some r → GoodRun ws r)
    (hc : ∀ r, cur = some r → GoodRun ws r) : ∀ r, better best cur = some r → GoodRun ws r := by
  intro r h
  unfold better at h
  split at h
  · exact hc r h
  · exact hb r h
  · split at h
    · exact hc r h
    · exact hb r h

theorem longestRun_good (ws : List Nat) : ∀ (rest : List Nat) (i : Nat) (best cur : Option (Nat × Nat)),
    i + rest.length = ws.length → ws.drop i = rest → (∀ r, best = some r → GoodRun ws r) →
    (∀ r, cur = some r → GoodRun ws r ∧ r.1 + r.2 = i) → ∀ r, longestRun i best cur rest = some r → GoodRun ws r := by
  intro rest
  induction rest with
  | nil =>
    intro i best cur _ _ hb hc r h
    exact better_good hb (fun r h => (hc r h).1) r h
  | cons w rest ih =>
    intro i best cur hi hd hb hc r h
    have hi' : i + 1 + rest.length = ws.length := by rw [List.length_cons] at hi; omega
    have hd' : ws.drop (i + 1) = rest := by
      rw [← List.drop_drop, hd, List.drop_one, List.tail_cons]
    have hw : ws[i]? = some w := by
      have := congrArg (·[0]?) hd
      simpa using this
    unfold longestRun at h
    by_cases h0 : w = 0
    · rw [if_pos h0] at h
      refine ih (i + 1) best _ hi' hd' hb ?_ r h
      intro r hr
      cases hcur : cur with
      | none =>
        rw [hcur] at hr
        cases hr
        refine ⟨⟨by dsimp only; omega, ?_⟩, rfl⟩
        intro j h1 h2
        dsimp only at h1 h2
        rw [show j = i by omega, hw, h0]
      | some c =>
        rw [hcur] at hr
        cases hr
        obtain ⟨⟨c1, c2⟩, c3⟩ := hc c hcur
        refine ⟨⟨by dsimp only; omega, ?_⟩, by dsimp only; omega⟩
        intro j h1 h2
        dsimp only at h1 h2
        by_cases hj : j = i
        · rw [hj, hw, h0]
        · exact c2 j h1 (by omega)
    · rw [if_neg h0] at h
      refine ih (i + 1) _ none hi' hd' (better_good hb (fun r h => (hc r h).1)) (by simp) r h

theorem bestRun_good {ws : List Nat} {r : Nat × Nat} (h : bestRun ws = some r) : GoodRun ws r ∧ 2 ≤ r.2 := by
  unfold bestRun at h
  split at h
  · rename_i r' hr
    split at h
    · cases h
    · cases h
      exact ⟨longestRun_good ws ws 0 none none (by simp) (by simp) (by simp) (by simp) _ hr, by omega⟩
  · cases h

theorem GoodRun.eq {ws : List Nat} {r : Nat × Nat} (h : GoodRun ws r) :
    ws = ws.take r.1 ++ List.replicate r.2 0 ++ ws.drop (r.1 + r.2) := by
  obtain ⟨h1, h2⟩ := h
  have : (ws.drop r.1).take r.2 = List.replicate r.2 0 := by
    rw [List.eq_replicate_iff]
    refine ⟨by rw [List.length_take, List.length_drop]; omega, ?_⟩
    intro b hb
    obtain ⟨k, hk, hb⟩ := List.mem_iff_getElem?.mp hb |>.imp fun k hk => (⟨(List.getElem?_eq_some_iff.mp hk).1, hk⟩ : _ ∧ _)
    rw [List.length_take, List.length_drop] at hk
    rw [List.getElem?_take_of_lt (by omega), List.getElem?_drop, h2 _ (by omega) (by omega)] at hb
    exact (Option.some.inj hb).symm
  rw [← this, ← List.drop_drop, List.append_assoc, List.take_append_drop, List.take_append_drop]

/-! ## IPv6 -/

/-- The bytes of the words. -/
def unwords (ws : List Nat) : Bytes := ws.flatMap fun w => beBytes 2 w

theorem beBytes_two (a b : UInt8) : beBytes 2 (a.toNat * 256 + b.toNat) = [a, b] := by
  have ha := a.toNat_lt
  have hb := b.toNat_lt
  simp only [beBytes, List.nil_append, List.singleton_append, List.cons.injEq, and_true]
  constructor
  · apply UInt8.toNat.inj
    rw [UInt8.toNat_ofNat']
    omega
  · apply UInt8.toNat.inj
    rw [UInt8.toNat_ofNat']
    omega

theorem unwords_words6 : ∀ (k : Nat) (a : Bytes), a.length = 2 * k → unwords (words6 a) = a ∧ (words6 a).length = k := by
  intro k
  induction k with
  | zero =>
    intro a h
    rw [List.length_eq_zero_iff.mp h]
    exact ⟨rfl, rfl⟩
  | succ k ih =>
    intro a h
    match a, h with
    | [], h => simp at h
    | [x], h => simp at h; omega
    | x :: y :: r, h =>
      obtain ⟨i, j⟩ := ih r (by simp at h; omega)
      refine ⟨?_, by rw [words6, List.length_cons, j]⟩
      rw [words6, unwords, List.flatMap_cons, beBytes_two]
      unfold unwords at i
      rw [i]
      rfl

theorem words6_drop : ∀ (k : Nat) (a : Bytes), words6 (a.drop (2 * k)) = (words6 a).drop k := by
  intro k
  induction k with
  | zero => intro a; rfl
  | succ k ih =>
    intro a
    match a with
    | [] => simp [words6]
    | [x] => rw [List.drop_eq_nil_of_le (by simp; omega)]; simp [words6]
    | x :: y :: r =>
      rw [show 2 * (k + 1) = 2 * k + 1 + 1 by omega, List.drop_succ_cons, List.drop_succ_cons, ih, words6, List.drop_succ_cons]

theorem unwords_replicate (l : Nat) : unwords (List.replicate l 0) = List.replicate (2 * l) 0 := by
  induction l with
  | zero => rfl
  | succ l ih =>
    rw [List.replicate_succ, unwords, List.flatMap_cons, show 2 * (l + 1) = 2 * l + 1 + 1 by omega, List.replicate_succ,
      List.replicate_succ]
    unfold unwords at ih
    rw [ih]
    rfl

theorem readGroup_hex (w : Nat) : readGroup (hexText w) = beBytes 2 w := by
  unfold readGroup
  rw [if_neg (hex_free (by decide) w), readHex_hexText]

theorem readGroups_hex (ws : List Nat) : (ws.map hexText).flatMap readGroup = unwords ws := by
  rw [List.flatMap_map]
  unfold unwords
  congr 1
  funext w
  exact readGroup_hex w

theorem takeWhile_hex (gs : List Bytes) (h : ∀ g ∈ gs, g ≠ []) (r : List Bytes) :
    (gs ++ [] :: r).takeWhile (· ≠ []) = gs ∧ (gs ++ [] :: r).dropWhile (· ≠ []) = [] :: r := by
  induction gs with
  | nil => simp
  | cons g gs ih =>
    have hg := h g (by simp)
    obtain ⟨i, j⟩ := ih (fun x hx => h x (List.mem_cons_of_mem _ hx))
    rw [List.cons_append, List.takeWhile_cons_of_pos (by simpa using hg), List.dropWhile_cons_of_pos (by simpa using hg), i, j]
    exact ⟨rfl, rfl⟩

/-- Parts, two colons and parts. -/
theorem readIp6_short {pre post : List Bytes} (h1 : ∀ g ∈ pre, g ≠ [] ∧ 58 ∉ g) (h2 : ∀ g ∈ post, g ≠ [] ∧ 58 ∉ g) :
    readIp6 (sep 58 pre ++ 58 :: 58 :: sep 58 post) = pre.flatMap readGroup ++
      List.replicate (16 - (pre.flatMap readGroup).length - (post.flatMap readGroup).length) 0 ++ post.flatMap readGroup := by
  have e : ∃ k, split 58 (sep 58 pre ++ 58 :: 58 :: sep 58 post) = pre ++ [] :: (List.replicate k [] ++ post) := by
    have e1 : ∃ k, split 58 (sep 58 post) = List.replicate k [] ++ post := by
      by_cases hp : post = []
      · exact ⟨1, by rw [hp]; rfl⟩
      · exact ⟨0, by rw [split_sep hp (fun g hg => (h2 g hg).2)]; rfl⟩
    obtain ⟨k, hk⟩ := e1
    have e2 : split 58 (58 :: sep 58 post) = [] :: split 58 (sep 58 post) := by simp [split]
    by_cases hp : pre = []
    · refine ⟨k + 1, ?_⟩
      rw [hp]
      show split 58 (58 :: 58 :: sep 58 post) = _
      have e3 : split 58 (58 :: 58 :: sep 58 post) = [] :: split 58 (58 :: sep 58 post) := by simp [split]
      rw [e3, e2, hk, List.replicate_succ]
      rfl
    · exact ⟨k, by rw [split_sep_append hp (fun g hg => (h1 g hg).2), e2, hk]⟩
  obtain ⟨k, hk⟩ := e
  obtain ⟨t1, t2⟩ := takeWhile_hex pre (fun g hg => (h1 g hg).1) (List.replicate k [] ++ post)
  have t3 : ([] :: (List.replicate k [] ++ post)).dropWhile (· = []) = post := by
    rw [List.dropWhile_cons_of_pos (by simp)]
    have : ∀ k, (List.replicate k ([] : Bytes) ++ post).dropWhile (· = []) = post := by
      intro k
      induction k with
      | zero =>
        cases hp : post with
        | nil => rfl
        | cons g gs =>
          rw [List.replicate_zero, List.nil_append, List.dropWhile_cons_of_neg]
          have := (h2 g (by rw [hp]; simp)).1
          simpa using this
      | succ k ih => rw [List.replicate_succ, List.cons_append, List.dropWhile_cons_of_pos (by simp), ih]
    exact this k
  unfold readIp6
  rw [hk]
  simp only []
  rw [t1, t2, t3]

theorem dotted {a : Bytes} (ha : a.length = 4) : ip4Text a ≠ [] ∧ 58 ∉ ip4Text a ∧ 46 ∈ ip4Text a := by
  match a, ha with
  | [p, q, r, s], _ =>
    have : ip4Text [p, q, r, s] = decimal p.toNat ++ 46 :: (decimal q.toNat ++ 46 :: (decimal r.toNat ++ 46 :: decimal s.toNat)) := rfl
    rw [this]
    have f := fun n => decimal_free (c := 58) (by decide) n
    simp [f]

theorem hex_groups (ws : List Nat) : ∀ g ∈ ws.map hexText, g ≠ [] ∧ 58 ∉ g := by
  intro g hg
  obtain ⟨w, -, rfl⟩ := List.mem_map.mp hg
  exact ⟨hexText_ne w, hex_free (by decide) w⟩

theorem readIp6_ip6Text {a : Bytes} (ha : a.length = 16) : readIp6 (ip6Text a) = a := by
  obtain ⟨hw, hl⟩ := unwords_words6 8 a ha
  have two : text "::" = [58, 58] := by decide +kernel
  unfold ip6Text
  cases hb : bestRun (words6 a) with
  | none =>
    simp only [hb]
    have hne : (words6 a).map hexText ≠ [] := by
      intro h
      rw [List.map_eq_nil_iff] at h
      rw [h] at hl
      cases hl
    have hall : ∀ g ∈ (words6 a).map hexText, decide (g ≠ []) = true := fun g hg => by simpa using (hex_groups _ g hg).1
    have tw : ((words6 a).map hexText).takeWhile (· ≠ []) = (words6 a).map hexText := by
      have := List.takeWhile_append_of_pos (l₂ := []) hall
      simpa using this
    have dw : ((words6 a).map hexText).dropWhile (· ≠ []) = [] := by
      have := List.takeWhile_append_dropWhile (p := fun g : Bytes => decide (g ≠ [])) (l := (words6 a).map hexText)
      rw [tw] at this
      exact List.append_right_eq_self.mp this
    unfold readIp6
    rw [split_sep hne (fun g hg => (hex_groups _ g hg).2)]
    simp only []
    rw [tw, dw, readGroups_hex, hw, ha]
    simp
  | some r =>
    simp only [hb]
    obtain ⟨hg, hr⟩ := bestRun_good hb
    have heq := hg.eq
    have hb1 := hg.1
    have four : (a.drop 12).length = 4 := by rw [List.length_drop, ha]
    obtain ⟨d1, d2, d3⟩ := dotted four
    have rg : readGroup (ip4Text (a.drop 12)) = a.drop 12 := by
      unfold readGroup
      rw [if_pos d3, readIp4_ip4Text (by intro h; rw [h] at four; cases four)]
    have dr : unwords ((words6 a).drop 6) = a.drop 12 := by
      rw [← words6_drop 6 a]
      exact (unwords_words6 2 _ four).1
    have app : ∀ x y, unwords (x ++ y) = unwords x ++ unwords y := by
      intro x y; simp [unwords, List.flatMap_append]
    split
    · rename_i h
      rw [two]
      have := readIp6_short (pre := []) (post := [ip4Text (a.drop 12)]) (by simp) (by simpa using ⟨d1, d2⟩)
      simp only [sep, List.nil_append, List.flatMap_nil, List.flatMap_cons, List.append_nil, rg, four] at this
      rw [show ([58, 58] : Bytes) ++ ip4Text (a.drop 12) = 58 :: 58 :: ip4Text (a.drop 12) from rfl, this]
      rw [h.1, h.2, List.take_zero, List.nil_append] at heq
      rw [← hw]
      conv => rhs; rw [heq, app, unwords_replicate, dr]
      rw [hw]
      simp
    · split
      · rename_i h
        have ff : text "::ffff:" = [58, 58] ++ (hexText 0xffff ++ [58]) := by decide +kernel
        have := readIp6_short (pre := []) (post := [hexText 0xffff, ip4Text (a.drop 12)]) (by simp) (by
          intro g hg
          simp only [List.mem_cons, List.not_mem_nil, or_false] at hg
          rcases hg with rfl | rfl
          · exact ⟨hexText_ne _, hex_free (by decide) _⟩
          · exact ⟨d1, d2⟩)
        simp only [sep, List.nil_append, List.flatMap_nil, List.flatMap_cons, List.append_nil, rg, readGroup_hex] at this
        rw [ff, List.append_assoc, List.append_assoc, List.singleton_append,
          show ([58, 58] : Bytes) ++ (hexText 0xffff ++ 58 :: ip4Text (a.drop 12)) = 58 :: 58 :: (hexText 0xffff ++ 58 :: ip4Text (a.drop 12)) from rfl,
          this]
        rw [h.1, h.2.1, List.take_zero, List.nil_append] at heq
        have h5 : (words6 a).drop 5 = 0xffff :: (words6 a).drop 6 := by
          have hlt : 5 < (words6 a).length := by omega
          rw [List.drop_eq_getElem_cons hlt]
          congr 1
          have := h.2.2
          rw [List.getElem?_eq_getElem hlt] at this
          exact Option.some.inj this
        rw [Nat.zero_add, h5] at heq
        have e2 : unwords (0xffff :: (words6 a).drop 6) = beBytes 2 0xffff ++ a.drop 12 := by
          rw [← dr]; rfl
        rw [← hw]
        conv => rhs; rw [heq, app, unwords_replicate, e2]
        rw [hw]
        simp only [List.length_append, four, List.length_nil, beBytes]
        simp
      · rw [two]
        have := readIp6_short (hex_groups ((words6 a).take r.1)) (hex_groups ((words6 a).drop (r.1 + r.2)))
        rw [List.append_assoc, show ([58, 58] : Bytes) ++ sep 58 (((words6 a).drop (r.1 + r.2)).map hexText) =
          58 :: 58 :: sep 58 (((words6 a).drop (r.1 + r.2)).map hexText) from rfl, this, readGroups_hex, readGroups_hex]
        have len : ∀ x : List Nat, (unwords x).length = 2 * x.length := by
          intro x
          induction x with
          | nil => rfl
          | cons y x ih =>
            unfold unwords at ih ⊢
            rw [List.flatMap_cons, List.length_append, ih, List.length_cons]
            simp [beBytes]; omega
        rw [len, len, List.length_take, List.length_drop, hl, show 16 - 2 * min r.1 8 - 2 * (8 - (r.1 + r.2)) = 2 * r.2 by omega,
          ← unwords_replicate, ← app, ← app, ← heq, hw]

end Verif.DumpText
