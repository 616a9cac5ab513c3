import Verif.Proofs.WiresharkTree
import Verif.Proofs.WiresharkUri

/-! # What the Wireshark dissector does: packets, errors, values -/

namespace Verif.Wireshark

open Spec

theorem size_pos {tvb : Bytes} {o : Nat} {b : Block} (h : getBlock tvb o = .ok (some b)) (hl : b.length ≤ 8800) :
    b.size = b.typeLen + b.lengthLen + b.length ∧ 2 ≤ b.size := by
  obtain ⟨-, -, t, l, r, -, ht, hl', e1, e2⟩ := getBlock_sound h
  have := isVarNumber_len ht
  have := isVarNumber_len hl'
  have hs : b.size = b.typeLen + b.lengthLen + b.length := by
    unfold Block.size
    split
    · exact Nat.mod_eq_of_lt (by omega)
    · rfl
  omega

theorem valid_iff (b : Block) : canBeValidNdnPacket b = true ↔
    (b.type = 5 ∨ b.type = 6 ∨ b.type = 100) ∧ b.length ≤ 8800 ∧ b.typeLen ≠ 9 := by
  unfold canBeValidNdnPacket Block.is
  simp only [Bool.and_eq_true, Bool.or_eq_true, decide_eq_true_eq]
  constructor
  · rintro ⟨(⟨h1, h2⟩ | ⟨h1, h2⟩) | ⟨h1, h2⟩, h3⟩ <;> exact ⟨by omega, h3, h1⟩
  · rintro ⟨h1, h2, h3⟩
    exact ⟨by rcases h1 with h1 | h1 | h1 <;> simp [h1, h3], h2⟩

/-- The cases of `dissector`. -/
theorem dissector_cases (tvb : Bytes) (n : Nat) :
    (dissector tvb n = .ignored ∧ (tvb.length ≠ n ∨
      ∀ i c, i + 2 < tvb.length → getBlock tvb i = .ok (some c) → canBeValidNdnPacket c = false)) ∨
    (tvb.length = n ∧ ∃ b, dissector tvb n = packets tvb b (tvb.length - b.offset) [] {} ∧
      getBlock tvb b.offset = .ok (some b) ∧ canBeValidNdnPacket b = true ∧ b.offset + 2 < tvb.length ∧ 0 < b.size ∧
      ∀ i c, i < b.offset → getBlock tvb i = .ok (some c) → canBeValidNdnPacket c = false) := by
  unfold dissector
  by_cases hn : tvb.length = n
  · rw [if_neg (not_not_intro hn)]
    rcases findNdnPacket_spec (tvb := tvb) tvb.length 0 (by omega) with ⟨b, h1, h2, h3, h4, h5, h6⟩ | ⟨h1, h2⟩
    · right
      rw [h1]
      have := (size_pos h4 ((valid_iff b).mp h5).2.1).2
      exact ⟨hn, b, rfl, h4, h5, h3, by omega, fun i c => h6 i c (by omega)⟩
    · left
      rw [h1]
      exact ⟨rfl, .inr (fun i c => h2 i c (by omega))⟩
  · left
    rw [if_pos hn]
    exact ⟨rfl, .inl hn⟩

/-- Everything that is shown comes from one successful `build`. -/
theorem dissector_shown {tvb : Bytes} {n : Nat} {t : Tree} (h : t ∈ Result.shown (dissector tvb n)) :
    Result.shown (dissector tvb n) = [t] ∧ canBeValidNdnPacket t.block = true ∧ t.block.lengthLen ≠ 9 ∧
    (∀ x, Inside t x → Good tvb x) := by
  rcases dissector_cases tvb n with ⟨h1, -⟩ | ⟨-, b, h1, h2, h3, h4, h5, -⟩
  · rw [h1] at h; cases h
  · rw [h1, packets_eq h5] at h ⊢
    by_cases hs : b.size ≤ tvb.length - b.offset
    · rw [if_pos hs] at h ⊢
      by_cases h9 : b.lengthLen = 9
      · rw [if_pos h9] at h; cases h
      rw [if_neg h9] at h ⊢
      cases hb : build tvb (b.length + 1) { b with tree := true } with
      | error e => rw [hb] at h; cases h
      | ok t' =>
        rw [hb] at h
        dsimp only at h ⊢
        have hpl : ({ b with tree := true } : Block).plain = b := by
          have : b.tree = false := (getBlock_sound h2).2.1
          cases b; simp only [Block.plain] at this ⊢; rw [this]
        have hsz : ({ b with tree := true } : Block).size = b.size := rfl
        obtain ⟨g1, g2⟩ := build_good hb (by rw [hpl]; exact h2) h9 (by rw [hsz]; dsimp only; omega)
        have key : ∀ r : Result, Result.shown r = [t'] → t ∈ Result.shown r →
            Result.shown r = [t] ∧ canBeValidNdnPacket t.block = true ∧ t.block.lengthLen ≠ 9 ∧
              (∀ x, Inside t x → Good tvb x) := by
          intro r hr ht
          rw [hr] at ht ⊢
          rw [List.mem_singleton.mp ht]
          refine ⟨rfl, ?_, ?_, g2⟩
          · rw [g1]; exact h3
          · rw [g1]; exact h9
        by_cases hl : tvb.length - b.offset = b.size
        · rw [if_pos hl] at h ⊢; exact key _ rfl h
        rw [if_neg hl] at h ⊢
        cases hg : getBlock tvb (tvb.length - (tvb.length - b.offset - b.size)) with
        | error e => exact absurd hg (getBlock_not_error _ _ _)
        | ok o =>
          rw [hg] at h
          cases o with
          | none => exact key _ rfl h
          | some b' =>
            dsimp only at h ⊢
            cases hv : canBeValidNdnPacket b' with
            | true => rw [hv, if_pos rfl] at h; rw [if_pos rfl]; exact key _ rfl h
            | false => rw [hv, if_neg (by decide)] at h; rw [if_neg (by decide)]; exact key _ rfl h
    · rw [if_neg hs] at h
      cases h

/-- The columns belong to the packet that is shown. -/
theorem dissector_cols {tvb : Bytes} {n : Nat} {t : Tree} {c : Cols} {d : Option Nat}
    (h : dissector tvb n = .done [t] c d) : c = (trace t).foldl Cols.update {} := by
  rcases dissector_cases tvb n with ⟨h1, -⟩ | ⟨-, b, h1, h2, h3, h4, h5, -⟩
  · rw [h1] at h; cases h
  · rw [h1, packets_eq h5] at h
    by_cases hs : b.size ≤ tvb.length - b.offset
    · rw [if_pos hs] at h
      by_cases h9 : b.lengthLen = 9
      · rw [if_pos h9] at h; cases h
      rw [if_neg h9] at h
      cases hb : build tvb (b.length + 1) { b with tree := true } with
      | error e => rw [hb] at h; cases h
      | ok t' =>
        rw [hb] at h
        dsimp only at h
        by_cases hl : tvb.length - b.offset = b.size
        · rw [if_pos hl] at h; cases h; rfl
        rw [if_neg hl] at h
        cases hg : getBlock tvb (tvb.length - (tvb.length - b.offset - b.size)) with
        | error e => exact absurd hg (getBlock_not_error _ _ _)
        | ok o =>
          rw [hg] at h
          cases o with
          | none => cases h; rfl
          | some b' =>
            dsimp only at h
            cases hv : canBeValidNdnPacket b' with
            | true => rw [hv, if_pos rfl] at h; cases h
            | false => rw [hv, if_neg (by decide)] at h; cases h; rfl
    · rw [if_neg hs] at h; cases h

/-! ## What `Good` says -/

theorem Good.start_le {tvb : Bytes} {x : Tree} (h : Good tvb x) : x.block.start + x.block.length ≤ tvb.length := by
  have h1 := h.inside
  have h2 := size_eq h.narrow
  have : x.block.start = x.block.offset + x.block.typeLen + x.block.lengthLen := rfl
  omega

theorem Good.element {tvb : Bytes} {x : Tree} (h : Good tvb x) : IsElementAt tvb x.block := by
  obtain ⟨-, -, t, l, r, e, ht, hl, e1, e2⟩ := getBlock_sound h.header
  have h1 := h.start_le
  have hs : x.block.start = x.block.offset + x.block.typeLen + x.block.lengthLen := rfl
  simp only [Block.plain] at ht hl e1 e2
  have hlen := congrArg List.length e
  rw [List.length_drop, List.length_append, List.length_append] at hlen
  refine ⟨t, l, r.take x.block.length, r.drop x.block.length, ?_, ht, hl, e1, e2, ?_⟩
  · rw [List.append_assoc, List.take_append_drop]; exact e
  · rw [List.length_take]; omega

theorem consecutive_plain {a z : Nat} {bs : List Tree} (h : Consecutive a (bs.map fun y => y.block.plain) z) :
    Consecutive a (bs.map Tree.block) z := by
  induction bs generalizing a with
  | nil => cases h; exact .nil _
  | cons b bs ih =>
    cases h with
    | cons h1 h2 => exact .cons h1 (ih h2)

theorem Good.tiles {tvb : Bytes} {x : Tree} (h : Good tvb x) (hp : x.parsed = true) :
    Consecutive x.block.start (x.elements.map Tree.block) (x.block.start + x.block.length) := by
  have h1 := h.subs
  rw [hp, if_pos rfl] at h1
  have h2 := (getSubBlocks_sound _ _ (Nat.le_refl _) (Nat.le_refl _) h1).1
  rw [Nat.sub_self, Nat.add_zero] at h2
  exact consecutive_plain h2

theorem Good.complete {tvb : Bytes} {x : Tree} (h : Good tvb x) {xs : List Verif.Block}
    (hx : ∀ y ∈ xs, y.type < 2 ^ 32 ∧ y.value.length < 2 ^ 32)
    (hv : valueOf tvb x.block = (xs.map Block.encode).flatten) :
    x.parsed = true ∧ x.elements.map (fun y => (⟨y.block.type, valueOf tvb y.block⟩ : Verif.Block)) = xs := by
  obtain ⟨bs, i1, i2, -⟩ := getSubBlocks_complete h.start_le xs x.block.length (Nat.le_refl _) (by
    rw [Nat.sub_self, Nat.add_zero]; exact hv) hx
  have h1 := h.subs
  rw [i1] at h1
  cases hp : x.parsed with
  | false => rw [hp] at h1; cases h1
  | true =>
    rw [hp] at h1
    cases h1
    refine ⟨rfl, ?_⟩
    rw [← i2, List.map_map]
    rfl

/-! ## Errors -/

theorem uint_ok {tvb : Bytes} {o n : Nat} (h : o + n ≤ tvb.length) : uint tvb o n = .ok (beNat (slice tvb o n)) := by
  unfold uint; rw [range_ok h]; rfl

theorem componentUri_err {tvb : Bytes} {b : Block} (hin : b.start + b.length ≤ tvb.length) {e : Err}
    (h : componentUri tvb b = .error e) : e = .badArgument ∧ b.typeLen = 9 := by
  unfold componentUri at h
  rw [range_ok hin] at h
  dsimp only at h
  split at h
  · cases h
  · split at h
    · cases h
    · split at h
      · cases h; exact ⟨rfl, by assumption⟩
      · cases h

/-- The errors of `addInfo`. -/
theorem addInfo_err {tvb : Bytes} {b : Block} {es : Option (List Block)} {e : Err}
    (hb : b.lengthLen ≠ 9) (hin : b.offset + b.size ≤ tvb.length)
    (hes : ∀ cs, es = some cs → ∀ c ∈ cs, c.start + c.length ≤ tvb.length)
    (h : addInfo tvb b es = .error e) :
    (e = .badArgument ∧ (b.typeLen = 9 ∨ (b.type = 10 ∧ b.length ≠ 4) ∨ (b.type = 34 ∧ b.length ≠ 1) ∨
      ∃ cs, es = some cs ∧ ∃ c ∈ cs, c.typeLen = 9)) ∨
    (e = .nilIndex ∧ b.type = 26 ∧ es = some []) := by
  have hsz := size_eq hb
  have hst : b.start + b.length ≤ tvb.length := by
    have : b.start = b.offset + b.typeLen + b.lengthLen := rfl
    omega
  have hnn : ∃ k, getNonNegativeInteger tvb b = .ok k := by
    unfold getNonNegativeInteger
    split
    · exact ⟨_, uint_ok hst⟩
    · exact ⟨_, rfl⟩
  obtain ⟨k, hk⟩ := hnn
  unfold addInfo at h
  rw [range_ok hin] at h
  by_cases h9 : b.typeLen = 9
  · have : lookup b = none := by unfold lookup; rw [if_pos h9]
    rw [this] at h
    dsimp only at h
    cases hg : genericInfo b with
    | ok v => rw [hg] at h; cases h
    | error e' =>
      rw [hg] at h
      cases h
      left
      unfold genericInfo at hg
      split at hg
      · cases hg
      split at hg
      · cases hg
      split at hg
      · split at hg
        · cases hg; exact ⟨rfl, .inl h9⟩
        · cases hg
      · cases hg
  have hl : lookup b = ndnDict.lookup b.type := by unfold lookup; rw [if_neg h9]
  cases hd : lookup b with
  | none =>
    rw [hd] at h
    dsimp only at h
    cases hg : genericInfo b with
    | ok v => rw [hg] at h; cases h
    | error e' =>
      unfold genericInfo at hg
      rw [if_neg h9] at hg
      split at hg
      · cases hg
      split at hg
      · cases hg
      split at hg
      · split at hg <;> cases hg
      · cases hg
  | some i =>
    rw [hd] at h
    dsimp only at h
    have hi : ndnDict.lookup b.type = some i := by rw [← hl]; exact hd
    have hmem : (b.type, i) ∈ ndnDict := by
      clear h hk hl hd
      revert hi
      generalize ndnDict = L
      induction L with
      | nil => intro h; cases h
      | cons y l ih =>
        intro h
        obtain ⟨k, v⟩ := y
        rw [List.lookup_cons] at h
        split at h
        · rename_i heq
          cases h
          rw [beq_iff_eq] at heq
          rw [heq]; exact List.mem_cons_self
        · exact List.mem_cons_of_mem _ (ih h)
    -- only these two entries have fields that may refuse the value
    have hnum : ∀ y ∈ ndnDict, (y.2.field = some .uint8 → y.1 = 34 ∧ y.2.fmt = some .hopLimit) ∧
        (y.2.field = some .uint32 → y.1 = 10 ∧ y.2.fmt = some .nonce) ∧
        (y.2.fmt = some .hopLimit → y.1 = 34) ∧ (y.2.fmt = some .nonce → y.1 = 10) ∧
        (y.2.fmt = some .finalBlockId → y.1 = 26) := by decide
    obtain ⟨n8, n32, nh, nn, nf⟩ := hnum _ hmem
    cases hf : i.fmt with
    | none => rw [hf] at h; cases h
    | some f =>
      rw [hf] at h
      dsimp only at h
      cases hv : f.value tvb b es with
      | error e' =>
        rw [hv] at h
        cases h
        cases f with
        | name =>
          cases es with
          | none => cases hv
          | some cs =>
            simp only [Fmt.value, nameUri] at hv
            cases hm : cs.mapM (componentUri tvb) with
            | ok _ => rw [hm] at hv; cases hv
            | error e'' =>
              rw [hm] at hv
              cases hv
              obtain ⟨c, hc, he⟩ := mapM_error hm
              obtain ⟨e1, e2⟩ := componentUri_err (hes cs rfl c hc) he
              exact .inl ⟨e1, .inr (.inr (.inr ⟨cs, rfl, c, hc, e2⟩))⟩
        | component =>
          simp only [Fmt.value] at hv
          cases hm : componentUri tvb b with
          | ok _ => rw [hm] at hv; cases hv
          | error e'' => rw [hm] at hv; cases hv; exact .inl ⟨(componentUri_err hst hm).1, .inl (componentUri_err hst hm).2⟩
        | true => cases hv
        | nonce =>
          simp only [Fmt.value] at hv
          split at hv
          · cases hv
          · rw [uint_ok hst] at hv; cases hv
        | number => simp only [Fmt.value] at hv; rw [hk] at hv; cases hv
        | hopLimit =>
          simp only [Fmt.value] at hv
          split at hv
          · cases hv
          · rw [uint_ok hst] at hv; cases hv
        | finalBlockId =>
          cases es with
          | none => cases hv
          | some cs =>
            cases cs with
            | nil => cases hv; exact .inr ⟨rfl, nf hf, rfl⟩
            | cons c cs =>
              simp only [Fmt.value] at hv
              cases hm : componentUri tvb c with
              | ok _ => rw [hm] at hv; cases hv
              | error e'' =>
                rw [hm] at hv
                cases hv
                obtain ⟨e1, e2⟩ := componentUri_err (hes _ rfl c List.mem_cons_self) hm
                exact .inl ⟨e1, .inr (.inr (.inr ⟨_, rfl, c, List.mem_cons_self, e2⟩))⟩
        | nackReason => simp only [Fmt.value] at hv; rw [hk] at hv; cases hv
        | cachePolicy => simp only [Fmt.value] at hv; rw [hk] at hv; cases hv
      | ok v =>
        rw [hv] at h
        dsimp only at h
        left
        split at h
        · cases h
          rename_i h8
          obtain ⟨a1, a2⟩ := n8 h8
          rw [a2] at hf; cases hf
          simp only [Fmt.value] at hv
          by_cases hne : b.length ≠ 1
          · exact ⟨rfl, .inr (.inr (.inl ⟨a1, hne⟩))⟩
          · rw [if_neg hne, uint_ok hst] at hv; cases hv
        · cases h
          rename_i h8
          obtain ⟨a1, a2⟩ := n32 h8
          rw [a2] at hf; cases hf
          simp only [Fmt.value] at hv
          by_cases hne : b.length ≠ 4
          · exact ⟨rfl, .inr (.inl ⟨a1, hne⟩)⟩
          · rw [if_neg hne, uint_ok hst] at hv; cases hv
        · cases h

theorem getBlock_header {tvb : Bytes} {o : Nat} {b : Block} (h : getBlock tvb o = .ok (some b)) :
    b.offset = o ∧ HasHeader tvb b := by
  obtain ⟨h1, -, t, l, r, e, ht, hl, e1, e2⟩ := getBlock_sound h
  exact ⟨h1, t, l, r, by rw [h1]; exact e, ht, hl, e1, e2⟩

theorem getSubBlocks_err {tvb : Bytes} {b : Block} : ∀ (n left : Nat), left ≤ n → left ≤ b.length → ∀ {e},
    getSubBlocks tvb b left = .error e →
    e = .badArgument ∧ ∃ bs c, Consecutive (b.start + (b.length - left)) bs c.offset ∧ (∀ x ∈ bs, HasHeader tvb x) ∧
      c.offset < b.start + b.length ∧ HasHeader tvb c ∧ c.lengthLen = 9 := by
  intro n
  induction n with
  | zero =>
    intro left hn hl e h
    have : left = 0 := by omega
    subst this
    rw [getSubBlocks_zero] at h
    cases h
  | succ n ih =>
    intro left hn hl e h
    by_cases h0 : left = 0
    · subst h0
      rw [getSubBlocks_zero] at h
      cases h
    cases hg : getBlock tvb (b.start + (b.length - left)) with
    | error e => exact absurd hg (getBlock_not_error _ _ _)
    | ok o =>
      cases o with
      | none => rw [getSubBlocks_none h0 hg] at h; cases h
      | some c =>
        rw [getSubBlocks_some h0 hg] at h
        obtain ⟨hoff, hh⟩ := getBlock_header hg
        by_cases h9 : c.lengthLen = 9
        · rw [if_pos h9] at h
          split at h
          · cases h
          · cases h
            exact ⟨rfl, [], c, by rw [hoff]; exact .nil _, by simp, by omega, hh, h9⟩
        rw [if_neg h9] at h
        by_cases hs : c.size > left
        · rw [if_pos hs] at h; cases h
        rw [if_neg hs] at h
        have hpos := getBlock_pos hg
        have hsz := size_eq h9
        cases hr : getSubBlocks tvb b (left - c.size) with
        | ok o => rw [hr] at h; cases h
        | error e' =>
          rw [hr] at h
          cases h
          obtain ⟨i0, bs, d, i1, i2, i3⟩ := ih (left - c.size) (by omega) (by omega) hr
          refine ⟨i0, c :: bs, d, .cons hoff ?_, ?_, i3⟩
          · have : b.start + (b.length - left) + c.typeLen + c.lengthLen + c.length =
                b.start + (b.length - (left - c.size)) := by omega
            rw [this]; exact i1
          · intro x hx
            rcases List.mem_cons.mp hx with rfl | hx
            · exact hh
            · exact i2 x hx

theorem consecutive_split {a z : Nat} {bs : List Block} (h : Consecutive a bs z) {c : Block} (hc : c ∈ bs) :
    ∃ l, (∀ x ∈ l, x ∈ bs) ∧ Consecutive a l c.offset := by
  induction h with
  | nil => cases hc
  | cons h1 hs ih =>
    rcases List.mem_cons.mp hc with rfl | hc
    · exact ⟨[], by simp, by rw [h1]; exact .nil _⟩
    · obtain ⟨l, i1, i2⟩ := ih hc
      refine ⟨_ :: l, ?_, .cons h1 i2⟩
      intro x hx
      rcases List.mem_cons.mp hx with rfl | hx
      · exact List.mem_cons_self
      · exact List.mem_cons_of_mem _ (i1 x hx)

/-- The errors of `build`. -/
theorem build_err {tvb : Bytes} {root : Block} : ∀ {n : Nat} {b : Block} {e : Err}, build tvb n b = .error e →
    getBlock tvb b.offset = .ok (some b.plain) → b.lengthLen ≠ 9 → b.offset + b.size ≤ tvb.length → b.length < n →
    Reached tvb root b →
    (e = .badArgument ∨ e = .nilIndex) ∧ ∃ c, Reached tvb root c ∧ Bad c := by
  intro n
  induction n with
  | zero => intro b e _ _ _ _ h; omega
  | succ n ih =>
    intro b e h hg h9 hin hn hr
    have hsz := size_eq h9
    have hstart : b.start = b.offset + b.typeLen + b.lengthLen := rfl
    rw [build] at h
    cases hs : getSubBlocks tvb b b.length with
    | error e' =>
      rw [hs] at h
      cases h
      obtain ⟨e1, bs, c, i1, i2, i3, i4, i5⟩ := getSubBlocks_err _ _ (Nat.le_refl _) (Nat.le_refl _) hs
      rw [Nat.sub_self, Nat.add_zero] at i1
      exact ⟨.inl e1, c, .step hr i1 i2 i3 i4, .inr (.inl i5)⟩
    | ok es =>
      rw [hs] at h
      dsimp only at h
      have hall : ∀ cs, es = some cs → ∀ c ∈ cs, (getBlock tvb c.offset = .ok (some c) ∧ c.lengthLen ≠ 9 ∧
          c.size ≤ b.length ∧ b.start ≤ c.offset ∧ c.offset + c.size ≤ b.start + b.length) ∧
          Reached tvb root c ∧ Reached tvb root { c with tree := true } := by
        rintro cs rfl c hc
        obtain ⟨s1, s2⟩ := getSubBlocks_sound _ _ (Nat.le_refl _) (Nat.le_refl _) hs
        rw [Nat.sub_self, Nat.add_zero] at s1
        have hc' := s2 c hc
        refine ⟨hc', ?_⟩
        obtain ⟨l, l1, l2⟩ := consecutive_split s1 hc
        have hpos := getBlock_pos hc'.1
        have := size_eq hc'.2.1
        have hd := fun x hx => (getBlock_header (s2 x (l1 x hx)).1).2
        exact ⟨.step hr l2 hd (by omega) (getBlock_header hc'.1).2,
          .step (c := { c with tree := true }) hr l2 hd (by dsimp only; omega) (getBlock_header hc'.1).2⟩
      cases hi : addInfo tvb b es with
      | error e' =>
        rw [hi] at h
        cases h
        rcases addInfo_err h9 hin (fun cs hcs c hc => by
          have := (hall cs hcs c hc).1
          have := size_eq this.2.1
          have : c.start = c.offset + c.typeLen + c.lengthLen := rfl
          omega) hi with ⟨e1, h' | h' | h' | ⟨cs, hcs, c, hc, hc9⟩⟩ | ⟨e1, h1, h2⟩
        · exact ⟨.inl e1, b, hr, .inl h'⟩
        · exact ⟨.inl e1, b, hr, .inr (.inr (.inl h'))⟩
        · exact ⟨.inl e1, b, hr, .inr (.inr (.inr (.inl h')))⟩
        · exact ⟨.inl e1, c, (hall cs hcs c hc).2.1, .inl hc9⟩
        · refine ⟨.inr e1, b, hr, .inr (.inr (.inr (.inr ⟨h1, ?_⟩)))⟩
          subst h2
          have s1 := (getSubBlocks_sound _ _ (Nat.le_refl _) (Nat.le_refl _) hs).1
          rw [Nat.sub_self, Nat.add_zero] at s1
          generalize hz : b.start + b.length = z at s1
          generalize hy : b.start = y at s1
          cases s1
          omega
      | ok v =>
        rw [hi] at h
        dsimp only at h
        cases hm : (es.getD []).mapM fun c => build tvb n { c with tree := true } with
        | ok ts => rw [hm] at h; cases h
        | error e' =>
          rw [hm] at h
          cases h
          obtain ⟨c, hc, he⟩ := mapM_error hm
          cases es with
          | none => cases hc
          | some cs =>
            obtain ⟨⟨c1, c2, c3, c4, c5⟩, c6⟩ := hall cs rfl c hc
            have hpl : ({ c with tree := true } : Block).plain = c := by
              have : c.tree = false := (getBlock_sound c1).2.1
              cases c; simp only [Block.plain] at this ⊢; rw [this]
            have hsz' : ({ c with tree := true } : Block).size = c.size := rfl
            have hpos := getBlock_pos c1
            have := size_eq c2
            exact ih he (by rw [hpl]; exact c1) c2 (by rw [hsz']; dsimp only; omega) (by dsimp only; omega) c6.2

end Verif.Wireshark
