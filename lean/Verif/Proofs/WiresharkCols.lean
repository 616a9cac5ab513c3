import Verif.Proofs.WiresharkErr

/-! # The info column, and the values of the Wireshark dissector -/

namespace Verif.Wireshark

open Spec

theorem inside_trans {t x y : Tree} (h : Inside t x) (h' : Inside x y) : Inside t y := by
  induction h with
  | self => exact h'
  | child hc _ ih => exact .child hc (ih h')

theorem is_iff {b : Block} {k : Nat} : b.is k = true ↔ b.type = k ∧ b.typeLen ≠ 9 := by
  unfold Block.is; rw [decide_eq_true_eq]; exact And.comm

theorem is_false {b : Block} {k : Nat} (h : b.type ≠ k) : b.is k = false := by
  cases hb : b.is k with
  | false => rfl
  | true => exact absurd (is_iff.mp hb).1 h

theorem fold_type_keep {l : List Tree} (h : ∀ x ∈ l, x.block.is 5 = false ∧ x.block.is 6 = false ∧ x.block.is 800 = false)
    (c : Cols) : (l.foldl Cols.update c).type = c.type := by
  induction l generalizing c with
  | nil => rfl
  | cons x l ih =>
    rw [List.foldl_cons, ih (fun y hy => h y (List.mem_cons_of_mem _ hy))]
    obtain ⟨h1, h2, h3⟩ := h x List.mem_cons_self
    simp [Cols.update, h1, h2, h3]

theorem fold_name_keep {l : List Tree} (h : ∀ x ∈ l, x.block.is 7 = false) (c : Cols) :
    (l.foldl Cols.update c).name = c.name := by
  induction l generalizing c with
  | nil => rfl
  | cons x l ih =>
    rw [List.foldl_cons, ih (fun y hy => h y (List.mem_cons_of_mem _ hy))]
    simp [Cols.update, h x List.mem_cons_self]

theorem fold_not_nack {l : List Tree} (h : ∀ x ∈ l, x.block.is 800 = false) (c : Cols) (hc : c.type ≠ "Nack") :
    (l.foldl Cols.update c).type ≠ "Nack" := by
  induction l generalizing c with
  | nil => exact hc
  | cons x l ih =>
    rw [List.foldl_cons]
    refine ih (fun y hy => h y (List.mem_cons_of_mem _ hy)) _ ?_
    simp only [Cols.update, h x List.mem_cons_self]
    split
    · decide
    · split
      · decide
      · simpa using hc

theorem fold_nack {l : List Tree} (h : ∀ x ∈ l, x.block.is 6 = false) (c : Cols) (hc : c.type = "Nack") :
    (l.foldl Cols.update c).type = "Nack" := by
  induction l generalizing c with
  | nil => exact hc
  | cons x l ih =>
    rw [List.foldl_cons]
    refine ih (fun y hy => h y (List.mem_cons_of_mem _ hy)) _ ?_
    simp [Cols.update, h x List.mem_cons_self, hc]

theorem cols_data {t : Tree} (h : HasType t 6) (c : Cols) : ((trace t).foldl Cols.update c).type = "Data" := by
  obtain ⟨l, e, -⟩ := trace_last t
  have h6 : t.block.is 6 = true := is_iff.mpr h
  have h5 : t.block.is 5 = false := is_false (by rw [h.1]; decide)
  rw [e, List.foldl_append, List.foldl_cons, List.foldl_nil]
  simp [Cols.update, h5, h6]

theorem cols_interest {t : Tree} (h : HasType t 5) (hn : NoneInside t 800) (c : Cols) (hc : c.type ≠ "Nack") :
    ((trace t).foldl Cols.update c).type = "Interest" := by
  obtain ⟨l, e, hl⟩ := trace_last t
  have h5 : t.block.is 5 = true := is_iff.mpr h
  rw [e, List.foldl_append, List.foldl_cons, List.foldl_nil]
  have := fold_not_nack (l := l) (fun x hx => is_false (hn x (hl x hx))) c hc
  simp [Cols.update, h5, this]

theorem trace_parsed {t : Tree} (h : t.parsed = true) : trace t = t :: (traceAll t.elements ++ [t]) := by
  cases t with
  | node b v p es => simp only [Tree.parsed] at h; rw [trace, h, if_pos rfl]; rfl

theorem cols_name {t nm : Tree} {rest : List Tree} {s : Bytes} (hp : t.parsed = true) (he : t.elements = nm :: rest)
    (h7 : t.block.is 7 = false) (hn : nm.block.is 7 = true) (hv : nm.value = some (.text s)) (c : Cols) :
    ((trace t).foldl Cols.update c).name = s := by
  rw [trace_parsed hp, he, traceAll]
  obtain ⟨l, e, -⟩ := trace_last nm
  rw [e, List.foldl_cons, List.foldl_append, List.foldl_append, List.foldl_append]
  simp [Cols.update, h7, hn, hv]

theorem cols_nack {t nk : Tree} {pre post : List Tree} (hp : t.parsed = true) (he : t.elements = pre ++ nk :: post)
    (ht : t.block.type = 100) (hn : HasType nk 800) (h6 : ∀ x ∈ pre, NoneInside x 6) (c : Cols) :
    ((trace t).foldl Cols.update c).type = "Nack" := by
  rw [trace_parsed hp, he, traceAll_append, traceAll]
  obtain ⟨l, e, -⟩ := trace_last nk
  rw [e, List.foldl_cons, List.foldl_append, List.foldl_append, List.foldl_append, List.foldl_append]
  have h8 : nk.block.is 800 = true := is_iff.mpr hn
  have h6' : nk.block.is 6 = false := is_false (by rw [hn.1]; decide)
  have h5' : nk.block.is 5 = false := is_false (by rw [hn.1]; decide)
  refine fold_nack (by intro x hx; rw [List.mem_singleton.mp hx]; exact is_false (by rw [ht]; decide)) _ ?_
  refine fold_nack ?_ _ ?_
  · intro x hx
    obtain ⟨y, hy, hi⟩ := mem_traceAll pre hx
    exact is_false (h6 y hy x hi)
  · simp [Cols.update, h8, h6', h5']

theorem cols_lp {t fr p : Tree} {pre : List Tree} (hp : t.parsed = true) (he : t.elements = pre ++ [fr])
    (ht : t.block.type = 100) (hf : fr.block.type = 80) (hfp : fr.parsed = true) (hfe : fr.elements = [p])
    (hpre : ∀ x ∈ pre, NoneInside x 5 ∧ NoneInside x 6 ∧ NoneInside x 7 ∧ NoneInside x 800) (c : Cols) :
    ((trace t).foldl Cols.update c) = (trace p).foldl Cols.update c := by
  have upd : ∀ (x : Tree) (c : Cols), x.block.type ≠ 5 → x.block.type ≠ 6 → x.block.type ≠ 7 → x.block.type ≠ 800 →
      c.update x = c := by
    intro x c h5 h6 h7 h8
    simp [Cols.update, is_false h5, is_false h6, is_false h7, is_false h8]
  have hfold : ∀ (l : List Tree) (c : Cols), (∀ x ∈ l, x.block.type ≠ 5 ∧ x.block.type ≠ 6 ∧ x.block.type ≠ 7 ∧
      x.block.type ≠ 800) → l.foldl Cols.update c = c := by
    intro l
    induction l with
    | nil => intro c _; rfl
    | cons x l ih =>
      intro c h
      obtain ⟨a1, a2, a3, a4⟩ := h x List.mem_cons_self
      rw [List.foldl_cons, upd x c a1 a2 a3 a4]
      exact ih c (fun y hy => h y (List.mem_cons_of_mem _ hy))
  have tr1 : ∀ x : Tree, traceAll [x] = trace x := by intro x; rw [traceAll, traceAll]; rfl
  rw [trace_parsed hp, he, traceAll_append, tr1, trace_parsed hfp, hfe, tr1]
  have e : t :: (fr :: (trace p ++ [fr]) ++ traceAll pre ++ [t]) = [t, fr] ++ (trace p ++ ([fr] ++ traceAll pre ++ [t])) := by
    simp
  rw [e, List.foldl_append, hfold [t, fr] c (by
    intro x hx
    simp only [List.mem_cons, List.not_mem_nil, or_false] at hx
    rcases hx with rfl | rfl <;> omega), List.foldl_append]
  refine hfold _ _ ?_
  intro x hx
  rcases List.mem_append.mp hx with hx | hx
  · rcases List.mem_append.mp hx with hx | hx
    · rw [List.mem_singleton.mp hx]; omega
    · obtain ⟨y, hy, hi⟩ := mem_traceAll pre hx
      obtain ⟨q1, q2, q3, q4⟩ := hpre y hy
      exact ⟨q1 x hi, q2 x hi, q3 x hi, q4 x hi⟩
  · rw [List.mem_singleton.mp hx]; omega

/-! ## Values -/

theorem lookup_of {x : Tree} {k : Nat} (h : HasType x k) : lookup x.block = ndnDict.lookup k := by
  unfold lookup; rw [if_neg h.2, h.1]

/-- What `addInfo` stored. -/
theorem Good.value_of {tvb : Bytes} {x : Tree} (h : Good tvb x) {k : Nat} {i : Info} {f : Fmt} (hk : HasType x k)
    (hi : ndnDict.lookup k = some i) (hf : i.fmt = some f) :
    ∃ v, f.value tvb x.block (if x.parsed then some (x.elements.map fun y => y.block.plain) else none) = .ok v ∧
      x.value = some v := by
  have h1 := h.info
  unfold addInfo at h1
  rw [lookup_of hk, hi] at h1
  dsimp only at h1
  rw [hf] at h1
  dsimp only at h1
  generalize (if x.parsed then some (x.elements.map fun y => y.block.plain) else none) = es at h1
  cases hv : f.value tvb x.block es with
  | error e => rw [hv] at h1; cases h1
  | ok v =>
    rw [hv] at h1
    dsimp only at h1
    rw [range_ok h.inside] at h1
    dsimp only at h1
    refine ⟨v, rfl, ?_⟩
    split at h1
    · cases h1
    · cases h1
    · exact (Except.ok.inj h1).symm

theorem mapM_uri {tvb : Bytes} : ∀ {es : List Block} {cs : List Bytes}, (∀ b ∈ es, b.start + b.length ≤ tvb.length) →
    es.mapM (componentUri tvb) = .ok cs → cs = (es.map (component tvb)).map compUri := by
  intro es
  induction es with
  | nil => intro cs _ h; rw [mapM_nil_ok.mp h]; rfl
  | cons b es ih =>
    intro cs hb h
    obtain ⟨t, ts, h1, h2, rfl⟩ := mapM_cons_ok.mp h
    rw [List.map_cons, List.map_cons, ← (componentUri_eq (hb b List.mem_cons_self) h1).2,
      ← ih (fun y hy => hb y (List.mem_cons_of_mem _ hy)) h2]

theorem Good.name_value {tvb : Bytes} {x : Tree} (h : Good tvb x) (hk : HasType x 7)
    (hch : ∀ y ∈ x.elements, Good tvb y) :
    ∃ s, x.value = some (.text s) ∧ (x.parsed = true → s = uri (x.elements.map fun y => component tvb y.block)) ∧
      (x.parsed = false → s = [0x2F]) := by
  obtain ⟨v, h1, h2⟩ := h.value_of hk (i := ⟨"Name", some .string, some .name⟩) (by decide) rfl
  cases hp : x.parsed with
  | false =>
    rw [hp] at h1
    cases h1
    exact ⟨_, h2, (fun e => by cases e), fun _ => rfl⟩
  | true =>
    rw [hp, if_pos rfl] at h1
    simp only [Fmt.value, nameUri] at h1
    cases hm : (x.elements.map fun y => y.block.plain).mapM (componentUri tvb) with
    | error e => rw [hm] at h1; cases h1
    | ok cs =>
      rw [hm] at h1
      cases h1
      refine ⟨_, h2, (fun _ => ?_), (fun e => by cases e)⟩
      have := mapM_uri (by
        intro b hb
        obtain ⟨y, hy, rfl⟩ := List.mem_map.mp hb
        exact (hch y hy).start_le) hm
      rw [this]
      dsimp only [uri]
      rw [List.map_map (f := fun y => Tree.block y |>.plain)]
      rfl

theorem Good.component_value {tvb : Bytes} {x : Tree} (h : Good tvb x) {k : Nat} (hk : HasType x k)
    (h128 : k = 1 ∨ k = 2 ∨ k = 8) : x.value = some (.text (compUri (component tvb x.block))) := by
  obtain ⟨v, h1, h2⟩ : ∃ v, Fmt.component.value tvb x.block
      (if x.parsed then some (x.elements.map fun y => y.block.plain) else none) = .ok v ∧ x.value = some v := by
    rcases h128 with rfl | rfl | rfl
    · exact h.value_of hk (i := ⟨"ImplicitSha256DigestComponent", some .string, some .component⟩) (by decide) rfl
    · exact h.value_of hk (i := ⟨"ParametersSha256DigestComponent", some .string, some .component⟩) (by decide) rfl
    · exact h.value_of hk (i := ⟨"GenericNameComponent", some .string, some .component⟩) (by decide) rfl
  simp only [Fmt.value] at h1
  cases hc : componentUri tvb x.block with
  | error e => rw [hc] at h1; cases h1
  | ok u =>
    rw [hc] at h1
    cases h1
    rw [h2, (componentUri_eq h.start_le hc).2]

theorem unreserved_iff (b : UInt8) : unreserved b = true ↔ b ∈ unreservedChars := by
  have key : ∀ n : Fin 256, unreserved (UInt8.ofNat n.val) = true ↔ UInt8.ofNat n.val ∈ unreservedChars := by
    decide +kernel
  have := key ⟨b.toNat, b.toNat_lt⟩
  simpa using this

theorem unescape_esc1 (b : UInt8) (r : Bytes) : unescape (esc1 b ++ r) = b :: unescape r := by
  unfold esc1
  by_cases h : unreserved b = true
  · rw [if_pos h]
    have : b ≠ 0x25 := by rintro rfl; exact absurd h (by decide)
    rw [List.singleton_append, unescape.eq_2]
    intro a c r' h1
    exact fun _ => this h1
  · rw [if_neg h]
    have key : ∀ n : Fin 256, UInt8.ofNat (16 * hexValue (hexDigit true (n.val / 16)) + hexValue (hexDigit true (n.val % 16)))
        = UInt8.ofNat n.val := by decide +kernel
    have := key ⟨b.toNat, b.toNat_lt⟩
    rw [hex2]
    show unescape (0x25 :: _ :: _ :: r) = _
    rw [unescape.eq_1]
    dsimp only at this
    rw [this]
    simp

theorem unescape_flatMap (v r : Bytes) : unescape (v.flatMap esc1 ++ r) = v ++ unescape r := by
  induction v with
  | nil => rfl
  | cons a v ih => rw [List.flatMap_cons, List.append_assoc, unescape_esc1, ih]; rfl

theorem unescape_escape (v : Bytes) :
    unescape (escape v) = v ++ (if v.any (· != 0x2E) then [] else [0x2E, 0x2E, 0x2E]) := by
  rw [escape_eq, unescape_flatMap]
  split
  · rfl
  · rfl

theorem Good.number_value {tvb : Bytes} {x : Tree} (h : Good tvb x) {k : Nat} (hk : HasType x k) (hn : k ∈ numberTypes) :
    x.value = some (.object (if x.block.length = 1 ∨ x.block.length = 2 ∨ x.block.length = 4 ∨ x.block.length = 8 then
      beNat (valueOf tvb x.block) else 2 ^ 64 - 1)) := by
  have hall : ∀ k ∈ numberTypes, ∃ i, ndnDict.lookup k = some i ∧ i.fmt = some .number := by
    intro k hk
    simp only [numberTypes, List.mem_cons, List.not_mem_nil, or_false] at hk
    rcases hk with rfl | rfl | rfl | rfl | rfl | rfl | rfl | rfl | rfl | rfl | rfl | rfl <;> exact ⟨_, rfl, rfl⟩
  obtain ⟨i, hi, hf⟩ := hall k hn
  obtain ⟨v, h1, h2⟩ := h.value_of hk hi hf
  simp only [Fmt.value, getNonNegativeInteger] at h1
  rw [h2]
  split at h1
  · rw [uint_ok h.start_le] at h1
    cases h1
    rw [if_pos (by assumption)]
    rfl
  · cases h1
    rw [if_neg (by assumption)]

theorem Good.fixed_value {tvb : Bytes} {x : Tree} (h : Good tvb x) {k len : Nat} {f : Fmt} {fld : Field} {name : String}
    (hk : HasType x k) (hi : ndnDict.lookup k = some ⟨name, some fld, some f⟩)
    (hf : (f = .nonce ∧ fld = .uint32 ∧ len = 4) ∨ (f = .hopLimit ∧ fld = .uint8 ∧ len = 1)) :
    x.block.length = len ∧ x.value = some (.num (beNat (valueOf tvb x.block))) := by
  obtain ⟨v, h1, h2⟩ := h.value_of hk hi rfl
  have h3 := h.info
  unfold addInfo at h3
  rw [lookup_of hk, hi] at h3
  dsimp only at h3
  rw [h1, range_ok h.inside] at h3
  dsimp only at h3
  rw [h2] at h3 ⊢
  rcases hf with ⟨rfl, rfl, rfl⟩ | ⟨rfl, rfl, rfl⟩ <;>
  · simp only [Fmt.value] at h1
    split at h1
    · cases h1
      cases h3
    · rw [uint_ok h.start_le] at h1
      cases h1
      rename_i hl
      exact ⟨Decidable.not_not.mp hl, rfl⟩

end Verif.Wireshark
