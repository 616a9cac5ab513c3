import Verif.Proofs.Agree

/-!
# C104: ndn-dissect and the Wireshark dissector show the same elements

The property theorems. Their vocabulary is in `Spec/Agree.lean`, `Spec/Dissect.lean` and `Spec/Wireshark.lean`.
-/

namespace Verif.Agree

open Wireshark (dissector)
open Wireshark.Spec
open Dissect (Opts dissect Shows topLines shows_topLines C41_lines_partial Fits Encodings NotElements)

/-- The full claim: of a packet that Wireshark shows, ndn-dissect shows the same elements, and in the same tree. -/
def C104_full (o : Opts) : Prop :=
  ∀ (tvb : Bytes) (n : Nat) (t : Wireshark.Tree), t ∈ Result.shown (dissector tvb n) →
    Shows [asTree o tvb t] (dissect o (slice tvb t.block.offset (endOf t.block - t.block.offset))).out

/-- **C104** It holds if the packet has at most 8796 bytes in its value and on whatever way an element that is shown can be read as a
sequence of elements, these are usual ones: with a type number that is allowed, the length not in 9 octets, and not an empty
element at the end of the buffer with its length in more than one octet. If `Block::parse` of ndn-cxx keeps the elements before
a wrong header, the values without elements must be free from those, too. Missing from the full claim: the other packets,
see `C104_type_zero`, `C104_long_length`, `C104_last_element` and `C104_large`. -/
theorem C104_same_partial {o : Opts} {tvb : Bytes} {n : Nat} {t : Wireshark.Tree} (ht : t ∈ Result.shown (dissector tvb n))
    (hl : t.block.length ≤ 8796)
    (hu : ∀ x, Seen o t x → ∀ bs, Fills tvb x.block bs → ∀ c ∈ bs, Usual tvb c)
    (hk : o.keep = true → ∀ x, Seen o t x → x.elements = [] → Unbroken (valueOf tvb x.block)) :
    (dissect o (slice tvb t.block.offset (endOf t.block - t.block.offset))).error = none ∧
    Shows [asTree o tvb t] (dissect o (slice tvb t.block.offset (endOf t.block - t.block.offset))).out := by
  obtain ⟨-, hv, -, hg⟩ := Wireshark.dissector_shown ht
  have g := hg t (.self t)
  obtain ⟨hty, -, -⟩ := (Wireshark.valid_iff _).mp hv
  have he := isElement g (by omega) (by omega)
  have hfit : Fits o (asTree o tvb t) := fits t.block.length t (Nat.le_refl _) hg hu hk
  have := C41_lines_partial (o := o) (f := [asTree o tvb t])
    (es := [slice tvb t.block.offset (endOf t.block - t.block.offset)])
    ⟨by rw [asTree_eq]; exact he, trivial⟩ (by
      intro x hx
      rw [List.mem_singleton] at hx
      subst hx
      rw [asTree_eq]
      have hlen : (valueOf tvb t.block).length = t.block.length := Wireshark.length_slice g.start_le
      show sizeOfVarNumber t.block.type + sizeOfVarNumber (valueOf tvb t.block).length + (valueOf tvb t.block).length ≤ 8800
      rw [hlen]
      have h1 : sizeOfVarNumber t.block.type = 1 := by unfold sizeOfVarNumber; rw [if_pos (by omega)]
      have h2 : sizeOfVarNumber t.block.length ≤ 3 := by
        unfold sizeOfVarNumber
        split
        · omega
        · rw [if_pos (by omega)]
      omega) (by
      intro x hx
      rw [List.mem_singleton] at hx
      subst hx
      exact hfit)
  simpa using this

/-- In a buffer without the bytes 00 and FF, every element is a usual one. -/
theorem usual_of_bytes {tvb : Bytes} (h : ∀ b ∈ tvb, b ≠ 0 ∧ b ≠ 255) {c : Wireshark.Block} (hc : HasHeader tvb c) :
    Usual tvb c := by
  obtain ⟨t, l, r, e, ht, hl, e1, e2⟩ := hc
  have hmem : ∀ b ∈ t ++ l ++ r, b ≠ 0 ∧ b ≠ 255 := by
    intro b hb
    exact h b (List.mem_of_mem_drop (by rw [e]; exact hb))
  have hpos : ∀ (bs : Bytes), (∀ b ∈ bs, b ≠ 0) → bs ≠ [] → 0 < beNat bs := by
    intro bs hb hne
    rcases List.eq_nil_or_concat bs with rfl | ⟨i, x, rfl⟩
    · exact absurd rfl hne
    · have hx : x ≠ 0 := hb x (by simp)
      have : 0 < x.toNat := Nat.pos_of_ne_zero (fun h0 => hx (UInt8.toNat_inj.mp h0))
      rw [List.concat_eq_append, beNat_snoc]
      omega
  have num : ∀ {m : Nat} {e : Bytes}, IsVarNumber m e → (∀ b ∈ e, b ≠ 0 ∧ b ≠ 255) → 0 < m ∧ m < 2 ^ 32 ∧ e.length ≠ 9 := by
    intro m e hm hb
    rcases hm with ⟨x, rfl, h1, h2⟩ | ⟨v, rfl, h1, h2⟩ | ⟨v, rfl, h1, h2⟩ | ⟨v, rfl, h1, h2⟩
    · have hx := (hb x List.mem_cons_self).1
      have : x.toNat ≠ 0 := fun h0 => hx (UInt8.toNat_inj.mp h0)
      exact ⟨by omega, by omega, by simp⟩
    · have := hpos v (fun b hb' => (hb b (List.mem_cons_of_mem _ hb')).1) (by rintro rfl; cases h1)
      have hlt := beNat_lt v
      rw [h1] at hlt
      refine ⟨by omega, ?_, by simp [h1]⟩
      rw [← h2]
      exact Nat.lt_trans hlt (by decide)
    · have := hpos v (fun b hb' => (hb b (List.mem_cons_of_mem _ hb')).1) (by rintro rfl; cases h1)
      have hlt := beNat_lt v
      rw [h1] at hlt
      refine ⟨by omega, ?_, by simp [h1]⟩
      rw [← h2]
      exact Nat.lt_of_lt_of_le hlt (by decide)
    · exact absurd rfl (hb 255 List.mem_cons_self).2
  have nt := num ht (fun b hb => hmem b (by simp [hb]))
  have nl := num hl (fun b hb => hmem b (by simp [hb]))
  exact ⟨nt.1, nt.2.1, by rw [e2]; exact nl.2.2, fun h0 => absurd h0 (by omega)⟩

/-- In particular, of a buffer in which no byte is 00 or FF. -/
theorem C104_bytes {o : Opts} (hk : o.keep = false) {tvb : Bytes} (hb : ∀ b ∈ tvb, b ≠ 0 ∧ b ≠ 255) {n : Nat}
    {t : Wireshark.Tree} (ht : t ∈ Result.shown (dissector tvb n)) (hl : t.block.length ≤ 8796) :
    Shows [asTree o tvb t] (dissect o (slice tvb t.block.offset (endOf t.block - t.block.offset))).out :=
  (C104_same_partial ht hl (fun _ _ _ hf c hc => usual_of_bytes hb (hf.2 c hc)) (fun h => by rw [hk] at h; cases h)).2

/-! ## Where they differ -/

/-- A larger packet is shown by Wireshark, as it accepts up to 8800 bytes in the value, but ndn-dissect reports an error and
shows nothing. -/
theorem C104_large {o : Opts} {tvb : Bytes} {n : Nat} {t : Wireshark.Tree} (ht : t ∈ Result.shown (dissector tvb n))
    (hl : 8797 ≤ t.block.length) :
    (dissect o (slice tvb t.block.offset (endOf t.block - t.block.offset))).out = [] ∧
    (dissect o (slice tvb t.block.offset (endOf t.block - t.block.offset))).error = some 0 := by
  obtain ⟨-, hv, -, hg⟩ := Wireshark.dissector_shown ht
  have g := hg t (.self t)
  obtain ⟨hty, -, -⟩ := (Wireshark.valid_iff _).mp hv
  have he := isElement g (by omega) (by omega)
  generalize hs : slice tvb t.block.offset (endOf t.block - t.block.offset) = s at he
  have hlen : (valueOf tvb t.block).length = t.block.length := Wireshark.length_slice g.start_le
  have hnone : fromStream s = none := by
    cases hf : fromStream s with
    | none => rfl
    | some p =>
      exfalso
      obtain ⟨b, r⟩ := p
      obtain ⟨h1, h2⟩ := (fromStream_iff _ _ _).mp hf
      have r1 := (readBlock_iff s b r).mpr h2
      have r2 := (readBlock_iff s ⟨t.block.type, valueOf tvb t.block⟩ []).mpr ⟨s, he, by simp⟩
      rw [r1] at r2
      cases r2
      unfold Block.size at h1
      dsimp only at h1
      rw [hlen] at h1
      have h3 : 3 ≤ sizeOfVarNumber t.block.length := by
        unfold sizeOfVarNumber
        rw [if_neg (by omega)]
        split
        · omega
        · split <;> omega
      have h4 : 1 ≤ sizeOfVarNumber t.block.type := by
        unfold sizeOfVarNumber
        split
        · omega
        · split
          · omega
          · split <;> omega
      unfold maxStreamBlock at h1
      omega
  have hne : s ≠ [] := by
    rintro rfl
    obtain ⟨-, -, a, b, h1, -, h2⟩ := he
    have := Wireshark.isVarNumber_len h1
    have := congrArg List.length h2
    simp only [List.length_nil, List.length_append] at this
    omega
  unfold dissect
  rw [Dissect.dissectLoop_bad hne hnone]
  exact ⟨rfl, rfl⟩

/-- No element begins with the byte 00. -/
theorem not_elements_zero {keep : Bool} {r : Bytes} : NotElements keep (0 :: r) := by
  intro ts es rest h hn hv
  exfalso
  cases ts with
  | nil => exact hn rfl
  | cons t ts =>
    cases es with
    | nil => exact h
    | cons e es =>
      obtain ⟨⟨h1, -, a, b, ha, -, he⟩, -⟩ := h
      rw [he, List.flatten_cons] at hv
      rcases ha with ⟨x, rfl, h2, -⟩ | ⟨v, rfl, -⟩ | ⟨v, rfl, -⟩ | ⟨v, rfl, -⟩
      · simp only [List.cons_append, List.cons.injEq] at hv
        rw [← hv.1] at h2
        simp at h2
        omega
      all_goals
        simp only [List.cons_append, List.cons.injEq] at hv
        exact absurd hv.1 (by decide)

/-- The lines that a tree has. -/
def lineCounts (o : Opts) (tvb : Bytes) : List Nat :=
  (Result.shown (dissector tvb tvb.length)).map fun t => (topLines [asTree o tvb t]).length

/-- An element of type 0 is shown by Wireshark. -/
def bufferZero : Bytes := [6, 2, 0, 0]
/-- A length in 9 octets is not accepted by Wireshark, although the packet is shown. -/
def bufferNine : Bytes := [6, 11, 8, 255, 0, 0, 0, 0, 0, 0, 0, 1, 65]
/-- The length of the last element, 0, in three octets is not accepted by Wireshark. -/
def bufferLast : Bytes := [6, 4, 8, 253, 0, 0]

theorem opts_cases {P : Opts → Prop} (h : ∀ a b, P { dissectContent := a, keep := b }) (o : Opts) : P o := h o.dissectContent o.keep

theorem lines_zero (o : Opts) : lineCounts o bufferZero = [2] :=
  opts_cases (P := fun o => lineCounts o bufferZero = [2]) (by decide +kernel) o
theorem lines_nine (o : Opts) : lineCounts o bufferNine = [1] :=
  opts_cases (P := fun o => lineCounts o bufferNine = [1]) (by decide +kernel) o
theorem lines_last (o : Opts) : lineCounts o bufferLast = [1] :=
  opts_cases (P := fun o => lineCounts o bufferLast = [1]) (by decide +kernel) o

theorem leaf_short (o : Opts) (ty : Nat) {v : Bytes} (hv : v.length ≤ 1) : Fits o (.mk ty v []) := by
  refine .leaf (.inr ?_)
  intro ts es rest h hn hval
  exfalso
  cases ts with
  | nil => exact hn rfl
  | cons t ts =>
    cases es with
    | nil => exact h
    | cons e es =>
      obtain ⟨⟨-, -, a, b, ha, hb, he⟩, -⟩ := h
      have l1 := Wireshark.isVarNumber_len ha
      have l2 := Wireshark.isVarNumber_len hb
      have := congrArg List.length hval
      rw [he] at this
      simp only [List.flatten_cons, List.length_append] at this
      omega

/-- ndn-dissect prints one line for the first buffer and two for each of the others. -/
theorem printed_zero (o : Opts) : (dissect o bufferZero).out.length = 1 := by
  have := (C41_lines_partial (o := o) (f := [.mk 6 [0, 0] []]) (es := [bufferZero])
    ⟨⟨by decide, by decide, [6], [2], .inl ⟨6, rfl, rfl, by decide⟩, .inl ⟨2, rfl, rfl, by decide⟩, rfl⟩, trivial⟩
    (by intro t ht; rw [List.mem_singleton] at ht; subst ht; decide)
    (by intro t ht; rw [List.mem_singleton] at ht; subst ht; exact .leaf (.inr not_elements_zero))).2
  have h := this.unique (shows_topLines _)
  simp only [List.flatten_cons, List.flatten_nil, List.append_nil] at h
  rw [h]
  rfl

theorem printed_nine (o : Opts) : (dissect o bufferNine).out.length = 2 := by
  have := (C41_lines_partial (o := o) (f := [.mk 6 [8, 255, 0, 0, 0, 0, 0, 0, 0, 1, 65] [.mk 8 [65] []]]) (es := [bufferNine])
    ⟨⟨by decide, by decide, [6], [11], .inl ⟨6, rfl, rfl, by decide⟩, .inl ⟨11, rfl, rfl, by decide⟩, rfl⟩, trivial⟩
    (by intro t ht; rw [List.mem_singleton] at ht; subst ht; decide)
    (by
      intro t ht
      rw [List.mem_singleton] at ht
      subst ht
      refine .inner (es := [[8, 255, 0, 0, 0, 0, 0, 0, 0, 1, 65]]) (by unfold Dissect.IsOpaque; omega) (by simp)
        ⟨⟨by decide, by decide, [8], [255, 0, 0, 0, 0, 0, 0, 0, 1], .inl ⟨8, rfl, rfl, by decide⟩,
          .inr (.inr (.inr ⟨[0, 0, 0, 0, 0, 0, 0, 1], rfl, rfl, by decide⟩)), rfl⟩, trivial⟩ rfl ?_
      intro c hc
      rw [List.mem_singleton] at hc
      subst hc
      exact leaf_short o 8 (by simp))).2
  have h := this.unique (shows_topLines _)
  simp only [List.flatten_cons, List.flatten_nil, List.append_nil] at h
  rw [h]
  rfl

theorem printed_last (o : Opts) : (dissect o bufferLast).out.length = 2 := by
  have := (C41_lines_partial (o := o) (f := [.mk 6 [8, 253, 0, 0] [.mk 8 [] []]]) (es := [bufferLast])
    ⟨⟨by decide, by decide, [6], [4], .inl ⟨6, rfl, rfl, by decide⟩, .inl ⟨4, rfl, rfl, by decide⟩, rfl⟩, trivial⟩
    (by intro t ht; rw [List.mem_singleton] at ht; subst ht; decide)
    (by
      intro t ht
      rw [List.mem_singleton] at ht
      subst ht
      refine .inner (es := [[8, 253, 0, 0]]) (by unfold Dissect.IsOpaque; omega) (by simp)
        ⟨⟨by decide, by decide, [8], [253, 0, 0], .inl ⟨8, rfl, rfl, by decide⟩,
          .inr (.inl ⟨[0, 0], rfl, rfl, by decide⟩), rfl⟩, trivial⟩ rfl ?_
      intro c hc
      rw [List.mem_singleton] at hc
      subst hc
      exact leaf_short o 8 (by simp))).2
  have h := this.unique (shows_topLines _)
  simp only [List.flatten_cons, List.flatten_nil, List.append_nil] at h
  rw [h]
  rfl

/-- The packet fills the buffer. -/
def fullWidth (tvb : Bytes) : Bool :=
  (Result.shown (dissector tvb tvb.length)).all fun t => t.block.offset == 0 && endOf t.block == tvb.length

/-- If the numbers of lines differ, so does what is shown. -/
theorem not_shows {o : Opts} {tvb : Bytes} {a b : Nat} (h1 : lineCounts o tvb = [a]) (h2 : (dissect o tvb).out.length = b)
    (hab : a ≠ b) (hw : fullWidth tvb = true) :
    ∃ t, Result.shown (dissector tvb tvb.length) = [t] ∧
      slice tvb t.block.offset (endOf t.block - t.block.offset) = tvb ∧ ¬ Shows [asTree o tvb t] (dissect o tvb).out := by
  unfold lineCounts at h1
  unfold fullWidth at hw
  cases hs : Result.shown (dissector tvb tvb.length) with
  | nil => rw [hs] at h1; cases h1
  | cons t l =>
    rw [hs] at h1 hw
    cases l with
    | cons => cases h1
    | nil =>
      rw [List.map_cons, List.map_nil, List.cons.injEq] at h1
      simp only [List.all_cons, List.all_nil, Bool.and_true, Bool.and_eq_true, beq_iff_eq] at hw
      refine ⟨t, rfl, ?_, fun h => ?_⟩
      · rw [hw.1, hw.2, Nat.sub_zero]
        simp [slice]
      · rw [h.unique (shows_topLines _)] at h2
        exact hab (h1.1.symm.trans h2)

/-- Wireshark shows an element of type 0 inside of the Data packet 06 02 00 00, which ndn-dissect shows as a value. -/
theorem C104_type_zero (o : Opts) : ∃ t, Result.shown (dissector bufferZero 4) = [t] ∧
    ¬ Shows [asTree o bufferZero t] (dissect o bufferZero).out := by
  obtain ⟨t, h1, -, h2⟩ := not_shows (lines_zero o) (printed_zero o) (by decide) (by decide +kernel)
  exact ⟨t, h1, h2⟩

/-- ndn-dissect shows an element whose length is in 9 octets; Wireshark shows the value. -/
theorem C104_long_length (o : Opts) : ∃ t, Result.shown (dissector bufferNine 13) = [t] ∧
    ¬ Shows [asTree o bufferNine t] (dissect o bufferNine).out := by
  obtain ⟨t, h1, -, h2⟩ := not_shows (lines_nine o) (printed_nine o) (by decide) (by decide +kernel)
  exact ⟨t, h1, h2⟩

/-- ndn-dissect shows an empty element at the end with its length in three octets; Wireshark shows the value. -/
theorem C104_last_element (o : Opts) : ∃ t, Result.shown (dissector bufferLast 6) = [t] ∧
    ¬ Shows [asTree o bufferLast t] (dissect o bufferLast).out := by
  obtain ⟨t, h1, -, h2⟩ := not_shows (lines_last o) (printed_last o) (by decide) (by decide +kernel)
  exact ⟨t, h1, h2⟩

/-- **C104 refuted** as it stands. -/
theorem C104_refuted (o : Opts) : ¬ C104_full o := by
  intro h
  obtain ⟨t, h1, h2, h3⟩ := not_shows (lines_zero o) (printed_zero o) (by decide) (by decide +kernel)
  have := h bufferZero 4 t (by rw [show (4 : Nat) = bufferZero.length from rfl, h1]; exact List.mem_cons_self)
  rw [h2] at this
  exact h3 this

/-- A Data packet with the name /A and the content 01 02 03, after two other bytes. -/
def exampleBuffer : Bytes := [2, 3, 6, 10, 7, 3, 8, 1, 65, 0x15, 3, 1, 2, 3]

example : ∀ b ∈ exampleBuffer, b ≠ 0 ∧ b ≠ 255 := by decide
example : lineCounts { keep := false } exampleBuffer = [4] := by decide +kernel
example : ((Result.shown (dissector exampleBuffer 14)).map fun t => (t.block.offset, t.block.length)) = [(2, 10)] := by
  decide +kernel

end Verif.Agree
