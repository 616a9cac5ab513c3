import Verif.Spec.WiresharkText
import Verif.Proofs.WiresharkTop
import Verif.Proofs.WiresharkUri
import Verif.Proofs.WiresharkCols

/-! # Lemmas about the texts of the Wireshark dissector -/

namespace Verif.Wireshark

open Spec

/-! ## Names -/

theorem hexByte_eq (u : Bool) (b : UInt8) : hexByte u b = hex2 u b := by
  have key : ∀ n : Fin 256, hexByte u (UInt8.ofNat n.val) = hex2 u (UInt8.ofNat n.val) := by
    cases u <;> decide +kernel
  have := key ⟨b.toNat, b.toNat_lt⟩
  simpa using this

theorem percent_eq (v : Bytes) : percent v = escape v := by
  unfold percent escape
  congr 1
  · congr 1
    funext b
    by_cases h : unreserved b = true
    · rw [if_pos ((unreserved_iff b).mp h), if_pos h]
    · rw [if_neg (fun h' => h ((unreserved_iff b).mpr h')), if_neg h, hexByte_eq]
  · by_cases h : v.any (· != 0x2E) = true
    · rw [if_pos h, if_neg]
      intro h'
      rw [(any_period v).mpr h'] at h
      cases h
    · rw [if_neg h, if_pos]
      · decide +kernel
      · exact (any_period v).mp (by simpa using h)

theorem flatMap_hexByte (v : Bytes) : v.flatMap (hexByte false) = v.flatMap (hex2 false) := by
  congr 1; funext b; exact hexByte_eq false b

theorem compText_eq (c : Comp) : compText c = compUri c := by
  obtain ⟨k, v⟩ := c
  unfold compText compUri digestUri
  dsimp only
  split
  · rw [if_pos (.inl rfl), flatMap_hexByte, if_pos rfl]; congr 1; decide +kernel
  · rw [if_pos (.inr rfl), flatMap_hexByte, if_neg (by decide)]; congr 1; decide +kernel
  · rw [if_neg (by decide), if_pos rfl, percent_eq]
  · rename_i h1 h2 h8
    rw [if_neg (by rintro (h | h); exacts [h1 h, h2 h]), if_neg h8, percent_eq, List.append_assoc,
      show Spec.text "=" = [0x3D] by decide +kernel]; rfl

theorem nameText_eq (n : Name) : nameText n = uri n := by
  have : Spec.text "/" = [0x2F] := by decide +kernel
  unfold nameText uri
  rw [this, show n.map compText = n.map compUri from List.map_congr_left (fun c _ => compText_eq c)]
  rfl

/-! ## Elements -/

/-- `Good.complete`, with the sizes of the type numbers. -/
theorem Good.complete' {tvb : Bytes} {x : Tree} (h : Good tvb x) {xs : List Verif.Block}
    (hx : ∀ y ∈ xs, y.type < 2 ^ 32 ∧ y.value.length < 2 ^ 32)
    (hv : valueOf tvb x.block = (xs.map Block.encode).flatten) :
    x.parsed = true ∧ x.elements.map (fun y => (⟨y.block.type, valueOf tvb y.block⟩ : Verif.Block)) = xs ∧
      ∀ y ∈ x.elements, y.block.typeLen ≠ 9 := by
  obtain ⟨bs, i1, i2, i3⟩ := getSubBlocks_complete h.start_le xs x.block.length (Nat.le_refl _) (by
    rw [Nat.sub_self, Nat.add_zero]; exact hv) hx
  have h1 := h.subs
  rw [i1] at h1
  cases hp : x.parsed with
  | false => rw [hp] at h1; cases h1
  | true =>
    rw [hp] at h1
    cases h1
    refine ⟨rfl, ?_, ?_⟩
    · rw [← i2, List.map_map]
      rfl
    · intro y hy
      exact i3 y.block.plain (List.mem_map_of_mem (f := fun y : Tree => y.block.plain) hy)

theorem Good.length_value {tvb : Bytes} {x : Tree} (h : Good tvb x) : (valueOf tvb x.block).length = x.block.length :=
  length_slice h.start_le

/-- The blocks of elements. -/
def Spec.Elem.toBlock (e : Elem) : Verif.Block := ⟨e.type, e.value⟩

theorem encodeAll_eq : ∀ es : List Elem, encodeAll es = ((es.map Elem.toBlock).map Block.encode).flatten
  | [] => by simp [encodeAll]
  | e :: es => by rw [encodeAll, encodeAll_eq es]; rfl

theorem length_value_le (x : Verif.Block) : x.value.length ≤ x.encode.length := by
  unfold Block.encode
  simp only [List.length_append]; omega

theorem length_mem_flatten {x : Verif.Block} : ∀ {xs : List Verif.Block}, x ∈ xs →
    x.value.length ≤ ((xs.map Block.encode).flatten).length
  | y :: ys, h => by
    rw [List.map_cons, List.flatten_cons, List.length_append]
    rcases List.mem_cons.mp h with rfl | h
    · have := length_value_le x; omega
    · have := length_mem_flatten h; omega

theorem type_lt {e : Elem} (h : e.Valid) : e.type < 2 ^ 32 := by
  cases e <;> simp only [Elem.Valid] at h <;> simp only [Elem.type] <;> try omega
  case number t n =>
    have : ∀ t ∈ numberTypes, t < 2 ^ 32 := by decide
    exact this _ h.1
  case group t es =>
    have : ∀ t ∈ groupTypes, t < 2 ^ 32 := by decide
    exact this _ h.1

theorem validAll_mem : ∀ {es : List Elem}, ValidAll es → ∀ e ∈ es, e.Valid
  | _ :: _, h, e, he => by
    unfold ValidAll at h
    rcases List.mem_cons.mp he with rfl | he
    · exact h.1
    · exact validAll_mem h.2 e he

/-- What is known about types: whether there is an entry, its name and its function. -/
theorem entry_silent : ∀ t ∈ silentTypes, ∃ i, ndnDict.lookup t = some i ∧ i.fmt = none ∧ summaryTypes.contains t = false := by
  intro t ht
  simp only [silentTypes, List.mem_cons, List.not_mem_nil, or_false] at ht
  rcases ht with rfl | rfl | rfl | rfl | rfl | rfl <;> exact ⟨_, rfl, rfl, rfl⟩

theorem entry_group : ∀ t ∈ groupTypes, ∃ i, ndnDict.lookup t = some i ∧ i.fmt = none ∧ summaryTypes.contains t = true := by
  intro t ht
  simp only [groupTypes, List.mem_cons, List.not_mem_nil, or_false] at ht
  rcases ht with rfl | rfl | rfl | rfl | rfl | rfl | rfl | rfl | rfl <;> exact ⟨_, rfl, rfl, rfl⟩

theorem entry_none {t : Nat} (h1 : t ∉ silentTypes) (h2 : t ∉ groupTypes) (h3 : t ∉ leafTypes) : ndnDict.lookup t = none := by
  have key : ∀ p ∈ ndnDict, p.1 ∈ silentTypes ∨ p.1 ∈ groupTypes ∨ p.1 ∈ leafTypes := by decide
  rw [List.lookup_eq_none_iff]
  intro p hp
  rcases key p hp with h | h | h <;> simp only [bne_iff_ne, ne_eq] <;> intro e <;> rw [← e] at h
  · exact absurd h h1
  · exact absurd h h2
  · exact absurd h h3

theorem label_eq : ∀ p ∈ ndnDict, ascii p.2.name = label p.1 := by decide +kernel

theorem lookup_mem {t : Nat} {i : Info} (h : ndnDict.lookup t = some i) : (t, i) ∈ ndnDict := by
  have key : ∀ {l : List (Nat × Info)}, l.lookup t = some i → (t, i) ∈ l := by
    intro l
    induction l with
    | nil => intro h; cases h
    | cons p l ih =>
      intro h
      rw [List.lookup_cons] at h
      split at h
      · rename_i e
        cases h
        rw [beq_iff_eq.mp e]
        exact List.mem_cons_self
      · exact List.mem_cons_of_mem _ (ih h)
  exact key h

theorem label_lookup {t : Nat} {i : Info} (h : ndnDict.lookup t = some i) : ascii i.name = label t := label_eq _ (lookup_mem h)

theorem shownText_value {x : Tree} {v : Val} (h : x.value = some v) : x.shownText = some v.string := by
  cases x with
  | node b v' p es => simp only [Tree.value] at h; subst h; rw [Tree.shownText]

theorem shownText_summary {x : Tree} (h : x.value = none) : x.shownText = x.summary := by
  cases x with
  | node b v' p es =>
    simp only [Tree.value] at h
    subst h
    rw [Tree.shownText, Tree.summary]
    rfl

theorem nni_length (n : Nat) : (nniEncode n).length = 1 ∨ (nniEncode n).length = 2 ∨ (nniEncode n).length = 4 ∨
    (nniEncode n).length = 8 := by
  unfold nniEncode
  split
  · rw [length_beBytes]; omega
  · split
    · rw [length_beBytes]; omega
    · split <;> rw [length_beBytes] <;> omega

theorem beNat_nni {n : Nat} (h : n < 2 ^ 64) : beNat (nniEncode n) = n := by
  unfold nniEncode
  split
  · rw [beNat_beBytes]; omega
  · split
    · rw [beNat_beBytes]; omega
    · split <;> rw [beNat_beBytes] <;> omega

/-- The value of an entry without function. -/
theorem Good.no_value {tvb : Bytes} {x : Tree} (h : Good tvb x) {k : Nat} {i : Info} (hk : HasType x k)
    (hi : ndnDict.lookup k = some i) (hf : i.fmt = none) : x.value = none := by
  have h1 := h.info
  unfold addInfo at h1
  rw [lookup_of hk, hi] at h1
  dsimp only at h1
  rw [hf] at h1
  dsimp only at h1
  rw [range_ok h.inside] at h1
  cases hv : x.value with
  | none => rfl
  | some v => rw [hv] at h1; cases h1

theorem number_ok {tvb : Bytes} {x : Tree} (g : Good tvb x) {n : Nat} (hn : n < 2 ^ 64) (hv : valueOf tvb x.block = nniEncode n) :
    getNonNegativeInteger tvb x.block = .ok n := by
  have hl := g.length_value
  rw [hv] at hl
  have := nni_length n
  unfold getNonNegativeInteger
  rw [if_pos (by omega), uint_ok g.start_le]
  have e : slice tvb x.block.start x.block.length = valueOf tvb x.block := rfl
  rw [e, hv, beNat_nni hn]

theorem reason_eq (n : Nat) : (if n = 0 then ascii "None" else if n = 50 then ascii "Congestion" else if n = 100 then ascii "Duplicate"
    else if n = 150 then ascii "NoRoute" else decimal n) = reasonText n := by
  by_cases h0 : n = 0
  · subst h0; decide +kernel
  by_cases h1 : n = 50
  · subst h1; decide +kernel
  by_cases h2 : n = 100
  · subst h2; decide +kernel
  by_cases h3 : n = 150
  · subst h3; decide +kernel
  rw [if_neg h0, if_neg h1, if_neg h2, if_neg h3, reasonText.eq_5 _ h0 h1 h2 h3]

theorem policy_eq (n : Nat) : (if n = 0 then ascii "None" else if n = 1 then ascii "NoCache" else decimal n ++ ascii " (unknown)") =
    policyText n := by
  by_cases h0 : n = 0
  · subst h0; decide +kernel
  by_cases h1 : n = 1
  · subst h1; decide +kernel
  rw [if_neg h0, if_neg h1, show ascii " (unknown)" = Spec.text " (unknown)" by decide +kernel, policyText.eq_3 _ h0 h1]

theorem map_cons_inv {α β : Type} {f : α → β} {l : List α} {b : β} {bs : List β} (h : l.map f = b :: bs) :
    ∃ a as, l = a :: as ∧ f a = b ∧ as.map f = bs := by
  cases l with
  | nil => cases h
  | cons a as => cases h; exact ⟨a, as, rfl, rfl, rfl⟩

mutual
/-- What is shown of a valid element. -/
theorem shown_elem {tvb : Bytes} (e : Elem) (hv : e.Valid) (x : Tree) (g : ∀ y, Inside x y → Good tvb y)
    (hl : x.block.length < 2 ^ 32) (ht : HasType x e.type) (hval : valueOf tvb x.block = e.value) :
    (lookup x.block = none → e.text = none) ∧
    (∀ i, lookup x.block = some i → x.shownText = e.text ∧ ascii i.name = label e.type) := by
  have gx := g x (.self x)
  have hlk := lookup_of ht
  have hlab : ∀ i, lookup x.block = some i → ascii i.name = label e.type := fun i hi => label_lookup (hlk ▸ hi)
  have hlen := gx.length_value
  rw [hval] at hlen
  -- it is enough to know the value
  have fin : ∀ v : Val, x.value = some v → (∃ i, ndnDict.lookup e.type = some i) → some v.string = e.text →
      (lookup x.block = none → e.text = none) ∧
      (∀ i, lookup x.block = some i → x.shownText = e.text ∧ ascii i.name = label e.type) := by
    intro v h1 ⟨i, h2⟩ h3
    refine ⟨fun h => ?_, fun i hi => ⟨?_, hlab i hi⟩⟩
    · rw [hlk, h2] at h; cases h
    · rw [shownText_value h1, h3]
  cases e with
  | name n =>
    have hv' : valueOf tvb x.block = ((n.map fun c => (⟨c.type, c.value⟩ : Verif.Block)).map Block.encode).flatten := by
      rw [hval, Elem.value, List.map_map]; rfl
    have hc : ∀ y ∈ n.map fun c => (⟨c.type, c.value⟩ : Verif.Block), y.type < 2 ^ 32 ∧ y.value.length < 2 ^ 32 := by
      intro y hy
      have h1 := length_mem_flatten hy
      rw [← hv', gx.length_value] at h1
      obtain ⟨c, hc, rfl⟩ := List.mem_map.mp hy
      unfold Elem.Valid at hv
      exact ⟨hv c hc, by omega⟩
    obtain ⟨h1, h2⟩ := gx.complete hc hv'
    obtain ⟨s, h3, h4, -⟩ := gx.name_value ht (fun y hy => g y (.child hy (.self y)))
    refine fin _ h3 ⟨_, rfl⟩ ?_
    rw [h4 h1]
    have : x.elements.map (fun y => component tvb y.block) = n := by
      have := congrArg (List.map fun b : Verif.Block => (⟨b.type, b.value⟩ : Comp)) h2
      rw [List.map_map, List.map_map] at this
      rw [show n = n.map ((fun b : Verif.Block => (⟨b.type, b.value⟩ : Comp)) ∘ fun c : Comp => ⟨c.type, c.value⟩) by
        conv_lhs => rw [← List.map_id n]
        rfl]
      rw [← this]; rfl
    rw [this, Elem.text, nameText_eq]; rfl
  | flag t =>
    simp only [Elem.Valid] at hv
    rcases hv with rfl | rfl
    · obtain ⟨v, h1, h2⟩ := gx.value_of ht (i := ⟨"CanBePrefix", some .string, some .true⟩) (by decide) rfl
      cases h1
      exact fin _ h2 ⟨_, rfl⟩ (by rw [Elem.text]; decide +kernel)
    · obtain ⟨v, h1, h2⟩ := gx.value_of ht (i := ⟨"MustBeFresh", some .string, some .true⟩) (by decide) rfl
      cases h1
      exact fin _ h2 ⟨_, rfl⟩ (by rw [Elem.text]; decide +kernel)
  | nonce v =>
    have h1 := (gx.fixed_value ht (f := .nonce) (fld := .uint32) (len := 4) (name := "Nonce") rfl (.inl ⟨rfl, rfl, rfl⟩)).2
    refine fin _ h1 ⟨_, rfl⟩ ?_
    rw [hval, Elem.text, Elem.value]; rfl
  | hopLimit v =>
    have h1 := (gx.fixed_value ht (f := .hopLimit) (fld := .uint8) (len := 1) (name := "HopLimit") rfl (.inr ⟨rfl, rfl, rfl⟩)).2
    refine fin _ h1 ⟨_, rfl⟩ ?_
    rw [hval, Elem.text, Elem.value]
    simp [Val.string, beNat]
  | number t n =>
    simp only [Elem.Valid] at hv
    have h1 := gx.number_value ht hv.1
    have h2 := nni_length n
    rw [Elem.value] at hval hlen
    rw [hlen] at h2
    rw [if_pos h2, hval, beNat_nni hv.2] at h1
    have hall : ∀ k ∈ numberTypes, ∃ i, ndnDict.lookup k = some i := by
      intro k hk
      simp only [numberTypes, List.mem_cons, List.not_mem_nil, or_false] at hk
      rcases hk with rfl | rfl | rfl | rfl | rfl | rfl | rfl | rfl | rfl | rfl | rfl | rfl <;> exact ⟨_, rfl⟩
    exact fin _ h1 (hall t hv.1) (by rw [Elem.text]; rfl)
  | final c =>
    have hv' : valueOf tvb x.block = (([(⟨c.type, c.value⟩ : Verif.Block)]).map Block.encode).flatten := by
      rw [hval, Elem.value]; simp
    have hc : ∀ y ∈ [(⟨c.type, c.value⟩ : Verif.Block)], y.type < 2 ^ 32 ∧ y.value.length < 2 ^ 32 := by
      intro y hy
      have h1 := length_mem_flatten hy
      rw [← hv', gx.length_value] at h1
      rw [List.mem_singleton] at hy
      subst hy
      unfold Elem.Valid at hv
      exact ⟨hv, by omega⟩
    obtain ⟨h1, h2⟩ := gx.complete hc hv'
    obtain ⟨y, ys, h3, h4, h5⟩ := map_cons_inv h2
    rw [List.map_eq_nil_iff] at h5
    subst h5
    obtain ⟨v, h6, h7⟩ := gx.value_of ht (i := ⟨"FinalBlockId", some .string, some .finalBlockId⟩) rfl rfl
    rw [h1, h3, if_pos rfl, List.map_cons, List.map_nil] at h6
    simp only [Fmt.value] at h6
    cases hu : componentUri tvb y.block.plain with
    | error e => rw [hu] at h6; cases h6
    | ok u =>
      rw [hu] at h6
      cases h6
      have gy := g y (.child (by rw [h3]; exact List.mem_cons_self) (.self y))
      have := (componentUri_eq (b := y.block.plain) gy.start_le hu).2
      refine fin _ h7 ⟨_, rfl⟩ ?_
      rw [Elem.text, compText_eq]
      have e2 : component tvb y.block.plain = c := by
        have h41 := congrArg Verif.Block.type h4
        have h42 := congrArg Verif.Block.value h4
        cases c
        simp only at h41 h42
        unfold component
        congr 1
      rw [this, e2]; rfl
  | reason n =>
    simp only [Elem.Valid] at hv
    rw [Elem.value] at hval
    obtain ⟨v, h1, h2⟩ := gx.value_of ht (i := ⟨"NackReason", some .string, some .nackReason⟩) rfl rfl
    simp only [Fmt.value, number_ok gx hv hval] at h1
    cases h1
    refine fin _ h2 ⟨_, rfl⟩ ?_
    rw [Elem.text, ← reason_eq]; rfl
  | policy n =>
    simp only [Elem.Valid] at hv
    rw [Elem.value] at hval
    obtain ⟨v, h1, h2⟩ := gx.value_of ht (i := ⟨"CachePolicyType", some .string, some .cachePolicy⟩) rfl rfl
    simp only [Fmt.value, number_ok gx hv hval] at h1
    cases h1
    refine fin _ h2 ⟨_, rfl⟩ ?_
    rw [Elem.text, ← policy_eq]; rfl
  | silent t v =>
    have htx : (Elem.silent t v).text = none := by rw [Elem.text]
    refine ⟨fun _ => htx, fun i hi => ⟨?_, hlab i hi⟩⟩
    simp only [Elem.Valid] at hv
    rcases hv.2 with hs | ⟨h1, h2, h3⟩
    · obtain ⟨i', e1, e2, e3⟩ := entry_silent t hs
      rw [htx, shownText_summary (gx.no_value ht e1 e2)]
      unfold Tree.summary Block.hasSummary
      rw [show x.block.type = t from ht.1, e3]
      simp
    · rw [hlk] at hi
      have := entry_none h1 h2 h3
      rw [show (Elem.silent t v).type = t from rfl, this] at hi
      cases hi
  | group t es =>
    unfold Elem.Valid at hv
    obtain ⟨i', e1, e2, e3⟩ := entry_group t hv.1
    refine ⟨fun h => ?_, fun i hi => ⟨?_, hlab i hi⟩⟩
    · rw [hlk] at h
      rw [show (Elem.group t es).type = t from rfl, e1] at h
      cases h
    · rw [Elem.value] at hval
      rw [encodeAll_eq] at hval
      have hc : ∀ y ∈ es.map Elem.toBlock, y.type < 2 ^ 32 ∧ y.value.length < 2 ^ 32 := by
        intro y hy
        have h1 := length_mem_flatten hy
        rw [← hval, gx.length_value] at h1
        obtain ⟨c, hc, rfl⟩ := List.mem_map.mp hy
        exact ⟨type_lt (validAll_mem hv.2 c hc), by omega⟩
      obtain ⟨h1, h2, h3⟩ := gx.complete' hc hval
      have hle : ∀ y ∈ x.elements, y.block.length < 2 ^ 32 := by
        intro y hy
        have := hc ⟨y.block.type, valueOf tvb y.block⟩ (by rw [← h2]; exact List.mem_map_of_mem (f := fun y : Tree => (⟨y.block.type, valueOf tvb y.block⟩ : Verif.Block)) hy)
        rw [(g y (.child hy (.self y))).length_value] at this
        exact this.2
      have h4 := shown_elems es hv.2 x.elements (fun y hy z hz => g z (.child hy hz)) hle h2 h3
      rw [shownText_summary (gx.no_value ht e1 e2), Elem.text, Tree.summary, h4]
      unfold Block.hasSummary
      rw [show x.block.type = t from ht.1, e3, h1]
      have : x.block.typeLen ≠ 9 := ht.2
      by_cases hp : textParts es = []
      · rw [if_pos hp]; simp [hp]
      · rw [if_neg hp, if_pos (by simp [hp, this])]
        have : ascii ", " = Spec.text ", " := by decide +kernel
        rw [joinParts, this]
/-- What is shown of valid elements. -/
theorem shown_elems {tvb : Bytes} (es : List Elem) (hv : ValidAll es) (xs : List Tree)
    (g : ∀ x ∈ xs, ∀ y, Inside x y → Good tvb y) (hl : ∀ x ∈ xs, x.block.length < 2 ^ 32)
    (hm : xs.map (fun y => (⟨y.block.type, valueOf tvb y.block⟩ : Verif.Block)) = es.map Elem.toBlock)
    (h9 : ∀ x ∈ xs, x.block.typeLen ≠ 9) : summaryParts xs = textParts es := by
  cases es with
  | nil =>
    rw [List.map_nil, List.map_eq_nil_iff] at hm
    subst hm
    rw [summaryParts, textParts]
  | cons e es =>
    rw [List.map_cons] at hm
    obtain ⟨x, ys, rfl, h1, h2⟩ := map_cons_inv hm
    unfold ValidAll at hv
    have h3 := shown_elems es hv.2 ys (fun y hy => g y (List.mem_cons_of_mem _ hy)) (fun y hy => hl y (List.mem_cons_of_mem _ hy)) h2
      (fun y hy => h9 y (List.mem_cons_of_mem _ hy))
    have h4 := shown_elem e hv.1 x (g x List.mem_cons_self) (hl x List.mem_cons_self)
      ⟨congrArg Verif.Block.type h1, h9 x List.mem_cons_self⟩ (congrArg Verif.Block.value h1)
    rw [summaryParts, textParts, h3]
    have hcs : ascii ": " = Spec.text ": " := by decide +kernel
    cases hlk : lookup x.block with
    | none =>
      rw [h4.1 hlk]
      cases x.shownText <;> rfl
    | some i =>
      obtain ⟨h5, h6⟩ := h4.2 i hlk
      rw [h5]
      cases e.text with
      | none => rfl
      | some s => dsimp only; rw [h6, hcs]
end

/-! ## Sizes -/

theorem consecutive_length {a z : Nat} {bs : List Block} (h : Consecutive a bs z) : a ≤ z ∧ ∀ c ∈ bs, c.length ≤ z - a := by
  induction h with
  | nil => exact ⟨Nat.le_refl _, fun _ h => by cases h⟩
  | cons h1 h2 ih =>
    refine ⟨by omega, fun c hc => ?_⟩
    rcases List.mem_cons.mp hc with rfl | hc
    · omega
    · have := ih.2 c hc; omega

theorem inside_length {tvb : Bytes} {t x : Tree} (h : Inside t x) (g : ∀ y, Inside t y → Good tvb y) :
    x.block.length ≤ t.block.length := by
  induction h with
  | self => exact Nat.le_refl _
  | @child t c x hc h ih =>
    have h1 := ih (fun y hy => g y (.child hc hy))
    have gt := g t (.self t)
    have hp : t.parsed = true := by
      cases hp : t.parsed with
      | true => rfl
      | false => rw [gt.leaf hp] at hc; cases hc
    have := (consecutive_length (gt.tiles hp)).2 c.block (List.mem_map_of_mem hc)
    omega

/-! ## Texts with commas -/

theorem comma_head {x y r r' : Bytes} (hx : ∀ c ∈ x, c ≠ 0x2C) (hy : ∀ c ∈ y, c ≠ 0x2C) (hr : r = [] ∨ ∃ s, r = 0x2C :: s)
    (hr' : r' = [] ∨ ∃ s, r' = 0x2C :: s) (h : x ++ r = y ++ r') : x = y ∧ r = r' := by
  induction x generalizing y with
  | nil =>
    cases y with
    | nil => exact ⟨rfl, h⟩
    | cons b y =>
      rcases hr with rfl | ⟨s, rfl⟩
      · cases h
      · rw [List.nil_append, List.cons_append] at h
        exact absurd (List.cons.inj h).1.symm (hy b List.mem_cons_self)
  | cons a x ih =>
    cases y with
    | nil =>
      rcases hr' with rfl | ⟨s, rfl⟩
      · cases h
      · rw [List.nil_append, List.cons_append] at h
        exact absurd (List.cons.inj h).1 (hx a List.mem_cons_self)
    | cons b y =>
      rw [List.cons_append, List.cons_append] at h
      obtain ⟨h1, h2⟩ := List.cons.inj h
      obtain ⟨h3, h4⟩ := ih (fun c hc => hx c (List.mem_cons_of_mem _ hc)) (fun c hc => hy c (List.mem_cons_of_mem _ hc)) h2
      exact ⟨by rw [h1, h3], h4⟩

theorem comma_rest (xs : List Bytes) : xs.flatMap (Spec.text ", " ++ ·) = [] ∨ ∃ s, xs.flatMap (Spec.text ", " ++ ·) = 0x2C :: s := by
  cases xs with
  | nil => exact .inl rfl
  | cons x xs =>
    right
    rw [List.flatMap_cons, show Spec.text ", " = [0x2C, 0x20] by decide +kernel]
    exact ⟨_, rfl⟩

theorem comma_flatMap_inj : ∀ {xs ys : List Bytes}, (∀ x ∈ xs, ∀ c ∈ x, c ≠ 0x2C) → (∀ y ∈ ys, ∀ c ∈ y, c ≠ 0x2C) →
    xs.flatMap (Spec.text ", " ++ ·) = ys.flatMap (Spec.text ", " ++ ·) → xs = ys := by
  have e : Spec.text ", " = [0x2C, 0x20] := by decide +kernel
  intro xs
  induction xs with
  | nil =>
    intro ys _ _ h
    cases ys with
    | nil => rfl
    | cons y ys => rw [List.flatMap_cons, e] at h; cases h
  | cons x xs ih =>
    intro ys hx hy h
    cases ys with
    | nil => rw [List.flatMap_cons, e] at h; cases h
    | cons y ys =>
      rw [List.flatMap_cons, List.flatMap_cons, List.append_assoc, List.append_assoc] at h
      have h := List.append_cancel_left h
      obtain ⟨h1, h2⟩ := comma_head (hx x List.mem_cons_self) (hy y List.mem_cons_self) (comma_rest xs) (comma_rest ys) h
      rw [h1, ih (fun z hz => hx z (List.mem_cons_of_mem _ hz)) (fun z hz => hy z (List.mem_cons_of_mem _ hz)) h2]

/-- Texts without commas, none of them empty, can be told from what they are joined to. -/
theorem comma_join_inj {xs ys : List Bytes} (hx : ∀ x ∈ xs, x ≠ [] ∧ ∀ c ∈ x, c ≠ 0x2C) (hy : ∀ y ∈ ys, y ≠ [] ∧ ∀ c ∈ y, c ≠ 0x2C)
    (h : List.intercalate (Spec.text ", ") xs = List.intercalate (Spec.text ", ") ys) : xs = ys := by
  cases xs with
  | nil =>
    cases ys with
    | nil => rfl
    | cons y ys =>
      rw [intercalate_cons] at h
      have := (hy y List.mem_cons_self).1
      rw [show List.intercalate (Spec.text ", ") [] = [] from rfl] at h
      exact absurd (List.append_eq_nil_iff.mp h.symm).1 this
  | cons x xs =>
    cases ys with
    | nil =>
      rw [intercalate_cons] at h
      have := (hx x List.mem_cons_self).1
      rw [show List.intercalate (Spec.text ", ") [] = [] from rfl] at h
      exact absurd (List.append_eq_nil_iff.mp h).1 this
    | cons y ys =>
      rw [intercalate_cons, intercalate_cons] at h
      obtain ⟨h1, h2⟩ := comma_head (hx x List.mem_cons_self).2 (hy y List.mem_cons_self).2 (comma_rest xs) (comma_rest ys) h
      rw [h1, comma_flatMap_inj (fun z hz => (hx z (List.mem_cons_of_mem _ hz)).2) (fun z hz => (hy z (List.mem_cons_of_mem _ hz)).2) h2]

theorem compUri_no_comma (c : Comp) : ∀ x ∈ compUri c, x ≠ 0x2C := by
  intro x hx e
  subst e
  rcases compUri_chars c _ hx with (h | h) | h
  · exact absurd h (by decide)
  · cases h
  · cases h

theorem uri_no_comma (n : Name) : ∀ x ∈ uri n, x ≠ 0x2C := by
  intro x hx
  unfold uri at hx
  rcases List.mem_cons.mp hx with rfl | hx
  · decide
  · cases n with
    | nil => cases hx
    | cons c n =>
      rw [List.map_cons, intercalate_cons] at hx
      rcases List.mem_append.mp hx with hx | hx
      · exact compUri_no_comma c x hx
      · obtain ⟨y, hy, hx⟩ := List.mem_flatMap.mp hx
        obtain ⟨d, -, rfl⟩ := List.mem_map.mp hy
        rcases List.mem_append.mp hx with hx | hx
        · rw [List.mem_singleton.mp hx]; decide
        · exact compUri_no_comma d x hx

theorem decimal_no_comma (n : Nat) : ∀ x ∈ decimal n, x ≠ 0x2C := by
  intro x hx e
  subst e
  have := Dump.decimal_digits _ _ hx
  revert this; decide

theorem reasonText_cases (n : Nat) : (n = 0 ∧ reasonText n = Spec.text "None") ∨ (n = 50 ∧ reasonText n = Spec.text "Congestion") ∨
    (n = 100 ∧ reasonText n = Spec.text "Duplicate") ∨ (n = 150 ∧ reasonText n = Spec.text "NoRoute") ∨ reasonText n = decimal n := by
  by_cases h0 : n = 0
  · subst h0; exact .inl ⟨rfl, rfl⟩
  by_cases h1 : n = 50
  · subst h1; exact .inr (.inl ⟨rfl, rfl⟩)
  by_cases h2 : n = 100
  · subst h2; exact .inr (.inr (.inl ⟨rfl, rfl⟩))
  by_cases h3 : n = 150
  · subst h3; exact .inr (.inr (.inr (.inl ⟨rfl, rfl⟩)))
  exact .inr (.inr (.inr (.inr (reasonText.eq_5 _ h0 h1 h2 h3))))

theorem policyText_cases (n : Nat) : (n = 0 ∧ policyText n = Spec.text "None") ∨ (n = 1 ∧ policyText n = Spec.text "NoCache") ∨
    policyText n = decimal n ++ Spec.text " (unknown)" := by
  by_cases h0 : n = 0
  · subst h0; exact .inl ⟨rfl, rfl⟩
  by_cases h1 : n = 1
  · subst h1; exact .inr (.inl ⟨rfl, rfl⟩)
  exact .inr (.inr (policyText.eq_3 _ h0 h1))

theorem reasonText_inj {n m : Nat} (h : reasonText n = reasonText m) : n = m := by
  have nd : ∀ s : String, (∃ x ∈ Spec.text s, ¬ (48 ≤ x.toNat ∧ x.toNat ≤ 57)) → ∀ k, Spec.text s = decimal k → False :=
    fun s hs k e => not_digits e hs
  have n1 := nd "None" (by decide +kernel)
  have n2 := nd "Congestion" (by decide +kernel)
  have n3 := nd "Duplicate" (by decide +kernel)
  have n4 := nd "NoRoute" (by decide +kernel)
  rcases reasonText_cases n with ⟨rfl, e⟩ | ⟨rfl, e⟩ | ⟨rfl, e⟩ | ⟨rfl, e⟩ | e <;>
  rcases reasonText_cases m with ⟨rfl, e'⟩ | ⟨rfl, e'⟩ | ⟨rfl, e'⟩ | ⟨rfl, e'⟩ | e' <;>
  first
  | rfl
  | (rw [e, e'] at h
     first
     | exact absurd h (by decide +kernel)
     | exact (n1 _ h).elim
     | exact (n2 _ h).elim
     | exact (n3 _ h).elim
     | exact (n4 _ h).elim
     | exact (n1 _ h.symm).elim
     | exact (n2 _ h.symm).elim
     | exact (n3 _ h.symm).elim
     | exact (n4 _ h.symm).elim
     | exact decimal_inj h)

theorem policyText_inj {n m : Nat} (h : policyText n = policyText m) : n = m := by
  have ne : ∀ (s : String) (k : Nat), (∃ a l, Spec.text s = a :: l ∧ ¬ (48 ≤ a.toNat ∧ a.toNat ≤ 57)) →
      Spec.text s = decimal k ++ Spec.text " (unknown)" → False := by
    intro s k ⟨a, l, e1, e2⟩ h
    rw [e1] at h
    cases hd : decimal k with
    | nil => exact absurd hd (by rw [decimal]; split <;> simp)
    | cons b r =>
      rw [hd] at h
      have := (List.cons.inj h).1
      subst this
      exact e2 (Dump.decimal_digits k a (by rw [hd]; exact List.mem_cons_self))
  have n1 := fun k => ne "None" k ⟨78, [111, 110, 101], by decide +kernel, by decide⟩
  have n2 := fun k => ne "NoCache" k ⟨78, [111, 67, 97, 99, 104, 101], by decide +kernel, by decide⟩
  rcases policyText_cases n with ⟨rfl, e⟩ | ⟨rfl, e⟩ | e <;>
  rcases policyText_cases m with ⟨rfl, e'⟩ | ⟨rfl, e'⟩ | e' <;>
  first
  | rfl
  | (rw [e, e'] at h
     first
     | exact absurd h (by decide +kernel)
     | exact (n1 _ h).elim
     | exact (n2 _ h).elim
     | exact (n1 _ h.symm).elim
     | exact (n2 _ h.symm).elim
     | exact decimal_inj (List.append_cancel_right h))

/-! ## Elements that are told -/

theorem told_type {e : Elem} (hv : e.Valid) (ht : e.Told) : e.type ∈ leafTypes := by
  cases e <;> simp only [Elem.Valid, Elem.Told] at hv ht <;> simp only [Elem.type]
  case name | nonce | hopLimit | final | reason | policy => decide
  case flag t => rcases hv with rfl | rfl <;> decide
  case number t n => unfold leafTypes; exact List.mem_append_right _ hv.1

theorem told_text {e : Elem} (hv : e.Valid) (ht : e.Told) : ∃ s, e.text = some s ∧ ∀ c ∈ s, c ≠ 0x2C := by
  cases e <;> simp only [Elem.Valid, Elem.Told] at hv ht <;> rw [Elem.text]
  case name n => exact ⟨_, rfl, by rw [nameText_eq]; exact uri_no_comma n⟩
  case flag t => exact ⟨_, rfl, by decide +kernel⟩
  case nonce v => exact ⟨_, rfl, decimal_no_comma _⟩
  case hopLimit v => exact ⟨_, rfl, decimal_no_comma _⟩
  case number t n => exact ⟨_, rfl, decimal_no_comma _⟩
  case final c => exact ⟨_, rfl, by rw [compText_eq]; exact compUri_no_comma c⟩
  case reason n =>
    refine ⟨_, rfl, ?_⟩
    rcases reasonText_cases n with ⟨_, e⟩ | ⟨_, e⟩ | ⟨_, e⟩ | ⟨_, e⟩ | e <;> rw [e]
    case inr.inr.inr.inr => exact decimal_no_comma _
    all_goals decide +kernel
  case policy n =>
    refine ⟨_, rfl, ?_⟩
    rcases policyText_cases n with ⟨_, e⟩ | ⟨_, e⟩ | e <;> rw [e]
    case inr.inr =>
      intro c hc
      rcases List.mem_append.mp hc with hc | hc
      · exact decimal_no_comma _ c hc
      · exact (by decide +kernel : ∀ c ∈ Spec.text " (unknown)", c ≠ 0x2C) c hc
    all_goals decide +kernel

theorem beNat_inj : ∀ {k : Nat} {a b : Bytes}, a.length = k → b.length = k → beNat a = beNat b → a = b := by
  intro k
  induction k with
  | zero =>
    intro a b ha hb _
    rw [List.length_eq_zero_iff.mp ha, List.length_eq_zero_iff.mp hb]
  | succ k ih =>
    intro a b ha hb h
    rcases List.eq_nil_or_concat a with rfl | ⟨a, x, rfl⟩
    · simp at ha
    rcases List.eq_nil_or_concat b with rfl | ⟨b, y, rfl⟩
    · simp at hb
    rw [List.concat_eq_append] at ha hb h ⊢
    rw [List.concat_eq_append] at h ⊢
    rw [List.length_append] at ha hb
    rw [beNat_snoc, beNat_snoc] at h
    have hx := x.toNat_lt
    have hy := y.toNat_lt
    rw [ih (by simpa using ha) (by simpa using hb) (by omega : beNat a = beNat b), UInt8.toNat_inj.mp (by omega : x.toNat = y.toNat)]

theorem told_inj {e e' : Elem} (hv : e.Valid) (ht : e.Told) (hv' : e'.Valid) (ht' : e'.Told) (hty : e.type = e'.type)
    (htx : e.text = e'.text) : e = e' := by
  have num : ∀ t ∈ numberTypes, t ≠ 7 ∧ t ≠ 33 ∧ t ≠ 18 ∧ t ≠ 10 ∧ t ≠ 34 ∧ t ≠ 26 ∧ t ≠ 801 ∧ t ≠ 821 := by decide
  cases e <;> cases e' <;> simp only [Elem.Valid, Elem.Told] at hv ht hv' ht' <;> simp only [Elem.type] at hty <;>
    first
    | omega
    | (have := num _ hv.1; omega)
    | (have := num _ hv'.1; omega)
    | (rw [Elem.text, Elem.text] at htx
       have htx := Option.some.inj htx
       first
       | (rw [nameText_eq, nameText_eq] at htx; rw [uri_inj htx])
       | (rw [compText_eq, compText_eq] at htx; rw [compUri_inj htx])
       | rw [reasonText_inj htx]
       | rw [policyText_inj htx]
       | (rw [hty, decimal_inj htx])
       | rw [hty]
       | (have := decimal_inj htx; rw [UInt8.toNat_inj.mp this])
       | (have := decimal_inj htx; rw [beNat_inj hv hv' this]))

theorem told_parts {es : List Elem} (hv : ValidAll es) (ht : ∀ e ∈ es, e.Told) :
    textParts es = es.map fun e => label e.type ++ Spec.text ": " ++ e.text.getD [] := by
  induction es with
  | nil => rw [textParts]; rfl
  | cons e es ih =>
    unfold ValidAll at hv
    obtain ⟨s, h1, -⟩ := told_text hv.1 (ht e List.mem_cons_self)
    rw [textParts, h1, ih hv.2 (fun x hx => ht x (List.mem_cons_of_mem _ hx)), List.map_cons, h1]
    rfl

theorem colon_split {a a' b b' : Bytes} (h : a ++ 0x3A :: b = a' ++ 0x3A :: b') (ha : ∀ x ∈ a, x ≠ 0x3A)
    (ha' : ∀ x ∈ a', x ≠ 0x3A) : a = a' ∧ b = b' := by
  induction a generalizing a' with
  | nil =>
    cases a' with
    | nil => exact ⟨rfl, (List.cons.inj h).2⟩
    | cons c a' => exact absurd (List.cons.inj h).1.symm (ha' c List.mem_cons_self)
  | cons c a ih =>
    cases a' with
    | nil => exact absurd (List.cons.inj h).1 (ha c List.mem_cons_self)
    | cons d a' =>
      obtain ⟨h1, h2⟩ := List.cons.inj h
      obtain ⟨h3, h4⟩ := ih h2 (fun x hx => ha x (List.mem_cons_of_mem _ hx)) (fun x hx => ha' x (List.mem_cons_of_mem _ hx))
      exact ⟨by rw [h1, h3], h4⟩

theorem label_chars : ∀ t ∈ leafTypes, ∀ c ∈ label t, c ≠ 0x2C ∧ c ≠ 0x3A := by decide +kernel

theorem label_inj : ∀ t ∈ leafTypes, ∀ u ∈ leafTypes, label t = label u → t = u := by decide +kernel

theorem part_chars {e : Elem} (hv : e.Valid) (ht : e.Told) :
    (label e.type ++ Spec.text ": " ++ e.text.getD []) ≠ [] ∧ ∀ c ∈ label e.type ++ Spec.text ": " ++ e.text.getD [], c ≠ 0x2C := by
  obtain ⟨s, h1, h2⟩ := told_text hv ht
  rw [h1, Option.getD_some]
  refine ⟨?_, ?_⟩
  · rw [show Spec.text ": " = [0x3A, 0x20] by decide +kernel]; simp
  · intro c hc
    rcases List.mem_append.mp hc with hc | hc
    · rcases List.mem_append.mp hc with hc | hc
      · exact (label_chars _ (told_type hv ht) c hc).1
      · exact (by decide +kernel : ∀ c ∈ Spec.text ": ", c ≠ 0x2C) c hc
    · exact h2 c hc

theorem part_inj {e e' : Elem} (hv : e.Valid) (ht : e.Told) (hv' : e'.Valid) (ht' : e'.Told)
    (h : label e.type ++ Spec.text ": " ++ e.text.getD [] = label e'.type ++ Spec.text ": " ++ e'.text.getD []) : e = e' := by
  obtain ⟨s, h1, -⟩ := told_text hv ht
  obtain ⟨s', h1', -⟩ := told_text hv' ht'
  rw [h1, h1', Option.getD_some, Option.getD_some, show Spec.text ": " = [0x3A, 0x20] by decide +kernel, List.append_assoc,
    List.append_assoc] at h
  obtain ⟨h2, h3⟩ := colon_split h (fun x hx => (label_chars _ (told_type hv ht) x hx).2)
    (fun x hx => (label_chars _ (told_type hv' ht') x hx).2)
  refine told_inj hv ht hv' ht' (label_inj _ (told_type hv ht) _ (told_type hv' ht') h2) ?_
  rw [h1, h1']
  have := (List.cons.inj h3).2
  rw [show s = s' from this]

theorem map_part_inj {es es' : List Elem} (hv : ∀ e ∈ es, e.Valid ∧ e.Told) (hv' : ∀ e ∈ es', e.Valid ∧ e.Told)
    (h : (es.map fun e => label e.type ++ Spec.text ": " ++ e.text.getD []) =
      es'.map fun e => label e.type ++ Spec.text ": " ++ e.text.getD []) : es = es' := by
  induction es generalizing es' with
  | nil => cases es' with
    | nil => rfl
    | cons => cases h
  | cons e es ih =>
    cases es' with
    | nil => cases h
    | cons e' es' =>
      rw [List.map_cons, List.map_cons] at h
      obtain ⟨h1, h2⟩ := List.cons.inj h
      rw [part_inj (hv e List.mem_cons_self).1 (hv e List.mem_cons_self).2 (hv' e' List.mem_cons_self).1 (hv' e' List.mem_cons_self).2 h1,
        ih (fun x hx => hv x (List.mem_cons_of_mem _ hx)) (fun x hx => hv' x (List.mem_cons_of_mem _ hx)) h2]

end Verif.Wireshark
