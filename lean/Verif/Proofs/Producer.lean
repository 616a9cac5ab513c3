import Verif.Spec.Producer
import Verif.Proofs.Name

/-! # Lemmas about the producer -/

namespace Verif.Producer

/-! ## Segmentation -/

theorem readLoop_flatten {m : Nat} (hm : 0 < m) : ∀ fuel input, input.length ≤ fuel →
    (readLoop m fuel input).flatten = input := by
  intro fuel
  induction fuel with
  | zero => intro input h; simp at h; subst h; simp [readLoop]
  | succ fuel ih =>
    intro input h
    cases input with
    | nil => simp [readLoop]
    | cons b bs =>
      rw [readLoop, List.flatten_cons, ih _ (by simp at h ⊢; omega), List.take_append_drop]

theorem readLoop_eq_nil {m fuel : Nat} {input : Bytes} (h : input.length ≤ fuel) :
    readLoop m fuel input = [] ↔ input = [] := by
  cases fuel with
  | zero => simp at h; simp [h, readLoop]
  | succ fuel => cases input <;> simp [readLoop]

theorem readLoop_length {m : Nat} (hm : 0 < m) : ∀ fuel input, input.length ≤ fuel →
    (readLoop m fuel input).length = (input.length + m - 1) / m := by
  intro fuel
  induction fuel with
  | zero =>
    intro input h; simp at h; subst h
    simp only [readLoop, List.length_nil]
    rw [Nat.div_eq_of_lt (by omega)]
  | succ fuel ih =>
    intro input h
    cases input with
    | nil =>
      simp only [readLoop, List.length_nil]
      rw [Nat.div_eq_of_lt (by omega)]
    | cons b bs =>
      have hlen : 0 < (b :: bs).length := by simp
      generalize hL : (b :: bs) = L at *
      rw [← hL, readLoop, hL, List.length_cons, ih _ (by rw [List.length_drop]; omega), List.length_drop]
      rcases Nat.lt_or_ge m L.length with hlt | hge
      · rw [show L.length + m - 1 = (L.length - m + m - 1) + m by omega, Nat.add_div_right _ hm]
      · rw [show L.length - m + m - 1 = m - 1 by omega, Nat.div_eq_of_lt (by omega)]
        symm
        apply Nat.div_eq_of_lt_le <;> omega

theorem readLoop_sizes {m : Nat} (hm : 0 < m) : ∀ fuel input, input.length ≤ fuel →
    ∀ (k : Nat) c, (readLoop m fuel input)[k]? = some c →
      0 < c.length ∧ c.length ≤ m ∧ (k + 1 < (readLoop m fuel input).length → c.length = m) := by
  intro fuel
  induction fuel with
  | zero => intro input h k c hc; simp [readLoop] at hc
  | succ fuel ih =>
    intro input h k c hc
    cases input with
    | nil => simp [readLoop] at hc
    | cons b bs =>
      have hlen : 0 < (b :: bs).length := by simp
      generalize hL : (b :: bs) = L at *
      rw [← hL, readLoop, hL] at hc ⊢
      have hd : (L.drop m).length ≤ fuel := by rw [List.length_drop]; omega
      cases k with
      | zero =>
        simp only [List.getElem?_cons_zero, Option.some.injEq] at hc
        subst hc
        rw [List.length_take]
        refine ⟨by omega, by omega, ?_⟩
        intro h2
        simp only [List.length_cons] at h2
        have : readLoop m fuel (L.drop m) ≠ [] := by
          intro h3; rw [h3] at h2; simp at h2
        rw [Ne, readLoop_eq_nil hd] at this
        have : (L.drop m).length ≠ 0 := fun h3 => this (List.length_eq_zero_iff.mp h3)
        rw [List.length_drop] at this
        omega
      | succ k =>
        rw [List.getElem?_cons_succ] at hc
        obtain ⟨h1, h2, h3⟩ := ih _ hd k c hc
        exact ⟨h1, h2, fun h4 => h3 (by simp only [List.length_cons] at h4; omega)⟩

theorem split_cases (m : Nat) (input : Bytes) :
    (input = [] ∧ split m input = [[]]) ∨
    (input ≠ [] ∧ split m input = readLoop m input.length input) := by
  unfold split
  by_cases h : input = []
  · left; subst h; simp [readLoop]
  · right
    refine ⟨h, ?_⟩
    have : readLoop m input.length input ≠ [] := by
      rw [Ne, readLoop_eq_nil (Nat.le_refl _)]; exact h
    simp [this]

theorem split_flatten {m : Nat} (hm : 0 < m) (input : Bytes) : (split m input).flatten = input := by
  rcases split_cases m input with ⟨h1, h2⟩ | ⟨_, h2⟩
  · rw [h2, h1]; rfl
  · rw [h2, readLoop_flatten hm _ _ (Nat.le_refl _)]

theorem split_length {m : Nat} (hm : 0 < m) (input : Bytes) :
    (split m input).length = max 1 ((input.length + m - 1) / m) := by
  rcases split_cases m input with ⟨h1, h2⟩ | ⟨h1, h2⟩
  · rw [h2, h1]
    simp only [List.length_nil, List.length_cons]
    rw [Nat.div_eq_of_lt (by omega)]; rfl
  · rw [h2, readLoop_length hm _ _ (Nat.le_refl _)]
    have : 0 < input.length := List.length_pos_iff.mpr h1
    have : 1 ≤ (input.length + m - 1) / m := (Nat.one_le_div_iff hm).mpr (by omega)
    omega

theorem split_sizes {m : Nat} (hm : 0 < m) (input : Bytes) (k : Nat) (c : Bytes)
    (hc : (split m input)[k]? = some c) :
    c.length ≤ m ∧ (k + 1 < (split m input).length → c.length = m) := by
  rcases split_cases m input with ⟨h1, h2⟩ | ⟨h1, h2⟩
  · rw [h2] at hc ⊢
    cases k with
    | zero => simp at hc; subst hc; simp
    | succ k => simp at hc
  · rw [h2] at hc ⊢
    exact (readLoop_sizes hm _ _ (Nat.le_refl _) k c hc).2

/-! ## The store -/

theorem store_eq (o : Opts) (pre : Name) (now : Nat) (input : Bytes) :
    (construct o pre now input).store =
      makeStore o (construct o pre now input).versionedPrefix input := rfl

theorem store_length (o : Opts) (pre : Name) (now : Nat) (input : Bytes) :
    (construct o pre now input).store.length = (split o.maxSegmentSize input).length := by
  rw [store_eq]; simp [makeStore]

theorem store_get {o : Opts} {pre : Name} {now : Nat} {input : Bytes} {k : Nat} {d : Data}
    (h : (construct o pre now input).store[k]? = some d) :
    (split o.maxSegmentSize input)[k]? = some d.content ∧
    d.name = (construct o pre now input).versionedPrefix ++ [.fromSegment o.conv k] ∧
    d.final = some (.fromSegment o.conv ((construct o pre now input).store.length - 1)) ∧
    d.freshness = o.freshness ∧ d.isBlob = true := by
  rw [store_length]
  rw [store_eq, makeStore, List.getElem?_map, List.getElem?_zipIdx] at h
  cases hs : (split o.maxSegmentSize input)[k]? with
  | none => rw [hs] at h; simp at h
  | some c =>
    rw [hs] at h
    simp only [Option.map_some, Option.some.injEq, Nat.zero_add] at h
    subst h
    exact ⟨rfl, rfl, rfl, rfl, rfl⟩

theorem store_ne_nil {o : Opts} {pre : Name} {now : Nat} {input : Bytes} (hm : 0 < o.maxSegmentSize) :
    (construct o pre now input).store ≠ [] := by
  intro h
  have := store_length o pre now input
  rw [h, split_length hm] at this
  simp at this
  omega

theorem construct_vp {o : Opts} {pre : Name} {now : Nat} {input : Bytes} (hn : now < 2 ^ 64) :
    ∃ v, (construct o pre now input).versionedPrefix = (construct o pre now input).pre ++ [v] ∧
      v.isVersion = true := by
  unfold construct
  dsimp only
  by_cases h : pre.endsWithVersion = true
  · rw [if_pos h, if_pos h]
    obtain ⟨a, c, rfl, h2⟩ := endsWithVersion_iff.mp h
    exact ⟨c, by simp, h2⟩
  · rw [if_neg h, if_neg h]
    exact ⟨_, rfl, by simp [Comp.isVersion, toVersion_fromVersion hn]⟩

/-! ## Filters -/

theorem prefix_unique {a n : Name} {x y : Comp} (h1 : a ++ [x] <+: n) (h2 : a ++ [y] <+: n) : x = y := by
  obtain ⟨t1, h1⟩ := h1
  obtain ⟨t2, h2⟩ := h2
  rw [← h2] at h1
  simp at h1
  exact h1.1

theorem not_prefix_self {a : Name} {x : Comp} : ¬ a ++ [x] <+: a := by
  intro h
  have := h.length_le
  simp at this

/-- The handler of exactly one filter is called. -/
theorem onInterest_versioned {digest : Data → Bytes} {o : Opts} {pre : Name} {now now' : Nat} {input : Bytes}
    {i : Interest} (hn : now < 2 ^ 64)
    (h : (construct o pre now input).versionedPrefix <+: i.name) :
    (construct o pre now input).onInterest digest now' i =
      [(construct o pre now input).processSegmentInterest digest i] := by
  obtain ⟨v, h1, h2⟩ := construct_vp (o := o) (pre := pre) (input := input) hn
  generalize construct o pre now input = p at *
  unfold Prod.onInterest
  rw [if_pos (isPrefixOf_iff.mpr h)]
  rw [h1] at h
  rw [if_neg (by intro h3; rw [h3] at h; exact not_prefix_self h), if_neg]
  · rfl
  · rw [isPrefixOf_iff]
    intro h3
    have := prefix_unique h h3
    subst this
    rw [metadataComp_not_version] at h2
    cases h2

theorem onInterest_exact {digest : Data → Bytes} {o : Opts} {pre : Name} {now now' : Nat} {input : Bytes}
    {i : Interest} (hn : now < 2 ^ 64) (h : i.name = (construct o pre now input).pre) :
    (construct o pre now input).onInterest digest now' i =
      [(construct o pre now input).processSegmentInterest digest i] := by
  obtain ⟨v, h1, h2⟩ := construct_vp (o := o) (pre := pre) (input := input) hn
  generalize construct o pre now input = p at *
  unfold Prod.onInterest
  rw [if_neg, if_pos h, if_neg]
  · rfl
  · rw [isPrefixOf_iff, h]; exact not_prefix_self
  · rw [isPrefixOf_iff, h, h1]; exact not_prefix_self

theorem onInterest_discovery {digest : Data → Bytes} {o : Opts} {pre : Name} {now now' : Nat} {input : Bytes}
    {i : Interest} (hn : now < 2 ^ 64) (h : (construct o pre now input).pre ++ [metadataComp] <+: i.name) :
    (construct o pre now input).onInterest digest now' i =
      [(construct o pre now input).processDiscoveryInterest now' i] := by
  obtain ⟨v, h1, h2⟩ := construct_vp (o := o) (pre := pre) (input := input) hn
  generalize construct o pre now input = p at *
  unfold Prod.onInterest
  rw [if_neg, if_neg, if_pos]
  · rfl
  · exact isPrefixOf_iff.mpr h
  · intro h3; rw [h3] at h; exact not_prefix_self h
  · rw [isPrefixOf_iff, h1]
    intro h3
    have := prefix_unique h h3
    subst this
    rw [metadataComp_not_version] at h2
    cases h2

theorem onInterest_other {digest : Data → Bytes} {p : Prod} {now' : Nat} {i : Interest}
    (h : ¬ Concerns p i) : p.onInterest digest now' i = [] := by
  unfold Concerns at h
  simp only [not_or] at h
  unfold Prod.onInterest
  rw [if_neg, if_neg h.2.1, if_neg]
  · rfl
  · rw [isPrefixOf_iff]; exact h.2.2
  · rw [isPrefixOf_iff]; exact h.1

/-! ## Handlers -/

theorem matchesData_iff {digest : Data → Bytes} {i : Interest} {d : Data} :
    i.matchesData digest d = true ↔ Satisfies digest d i := by
  unfold Interest.matchesData Satisfies
  dsimp only
  rw [Bool.and_eq_true, Bool.or_eq_true, Bool.not_eq_true', decide_eq_true_eq]
  have hF : (i.mustBeFresh = false ∨ 0 < d.freshness) ↔ (i.mustBeFresh = true → 0 < d.freshness) := by
    cases i.mustBeFresh <;> simp
  rw [hF, and_comm]
  refine and_congr_left' ?_
  by_cases hl : i.name.length = (d.name ++ [(⟨ttImplicitDigest, digest d⟩ : Comp)]).length
  · rw [if_pos hl, decide_eq_true_eq]
    constructor
    · intro h; exact Or.inr (Or.inr h)
    · rintro (h | ⟨_, h⟩ | h)
      · exfalso; rw [h] at hl; simp at hl
      · exfalso; have := h.length_le; rw [hl] at this; simp at this
      · exact h
  · rw [if_neg hl]
    cases hc : i.canBePrefix with
    | true =>
      rw [if_pos rfl, isPrefixOf_iff]
      constructor
      · intro h; exact Or.inr (Or.inl ⟨rfl, h⟩)
      · rintro (h | ⟨_, h⟩ | h)
        · simp only [h, List.prefix_rfl]
        · exact h
        · exfalso; apply hl; rw [h]
    | false =>
      rw [if_neg (by simp), decide_eq_true_eq]
      constructor
      · intro h; exact Or.inl h
      · rintro (h | ⟨h, _⟩ | h)
        · exact h
        · cases h
        · exfalso; apply hl; rw [h]

theorem process_segment {digest : Data → Bytes} {p : Prod} {i : Interest} {c : Comp} {k : Nat}
    (h : i.name = p.versionedPrefix ++ [c]) (hc : c.toSegment = some k) :
    p.processSegmentInterest digest i = match p.store[k]? with | some d => .data d | none => .nack := by
  unfold Prod.processSegmentInterest
  have hl : i.name.getLast? = some c := by rw [h]; simp
  rw [hl]
  dsimp only
  rw [if_pos (by simp [h, Comp.isSegment, hc])]
  simp only [Option.bind_some, hc]
  try rfl

theorem process_other {digest : Data → Bytes} {p : Prod} {i : Interest} {d : Data}
    (hd : p.store[0]? = some d)
    (h : ∀ a c, i.name = a ++ [c] → a.length = p.versionedPrefix.length → c.isSegment = false) :
    p.processSegmentInterest digest i = if i.matchesData digest d then .data d else .nack := by
  unfold Prod.processSegmentInterest
  dsimp only
  rw [if_neg]
  · cases hs : p.store with
    | nil => rw [hs] at hd; simp at hd
    | cons x xs =>
      rw [hs] at hd
      simp only [List.getElem?_cons_zero, Option.some.injEq] at hd
      rw [hd]
  · rw [Bool.and_eq_true, decide_eq_true_eq]
    rintro ⟨h1, h2⟩
    rcases List.eq_nil_or_concat i.name with h3 | ⟨a, c, h3⟩
    · rw [h3] at h2; simp at h2
    · rw [List.concat_eq_append] at h3
      rw [h3] at h1 h2
      simp only [List.getLast?_append, List.getLast?_singleton, Option.some_or, Option.any_some] at h2
      simp only [List.length_append, List.length_cons, List.length_nil] at h1
      rw [h a c h3 (by omega)] at h2
      cases h2

/-- A name that is not `vp/segment` does not take the segment branch, for names below `vp`. -/
theorem not_segment_branch {vp n : Name} (h : vp <+: n)
    (hs : ∀ c, n = vp ++ [c] → c.isSegment = false) :
    ∀ a c, n = a ++ [c] → a.length = vp.length → c.isSegment = false := by
  intro a c h1 h2
  obtain ⟨t, ht⟩ := h
  have h3 : vp ++ t = a ++ [c] := by rw [ht, h1]
  have := List.append_inj h3 h2.symm
  apply hs
  rw [← ht, this.2]

theorem valid_iff {n : Name} : isValidMetadataName n = true ↔
    ∃ a v s, n = a ++ [metadataComp, v, s] ∧ v.isVersion = true ∧ s.isSegment = true := by
  unfold isValidMetadataName
  constructor
  · intro h
    split at h
    · rename_i s v k r e
      simp only [Bool.and_eq_true, decide_eq_true_eq] at h
      have := congrArg List.reverse e
      rw [List.reverse_reverse] at this
      refine ⟨r.reverse, v, s, ?_, h.1.2, h.1.1⟩
      rw [this, ← h.2]; simp
    · cases h
  · rintro ⟨a, v, s, rfl, h1, h2⟩
    simp [h1, h2]

theorem metadataName_exact {conv : Convention} {now : Nat} {n : Name} (hn : now < 2 ^ 64) :
    metadataName conv now (n ++ [metadataComp]) =
      some (n ++ [metadataComp, .fromVersion conv now, .fromSegment conv 0]) := by
  unfold metadataName
  dsimp only
  have hl : (n ++ [metadataComp]).getLast? = some metadataComp := by simp
  rw [if_pos hl]
  have : isValidMetadataName (n ++ [metadataComp] ++ [.fromVersion conv now, .fromSegment conv 0]) = true := by
    rw [valid_iff]
    exact ⟨n, .fromVersion conv now, .fromSegment conv 0, by simp, by simp [Comp.isVersion, toVersion_fromVersion hn],
      by simp [Comp.isSegment, toSegment_fromSegment (show 0 < 2 ^ 64 by norm_num)]⟩
  rw [if_pos this]; simp

theorem metadataName_valid {conv : Convention} {now : Nat} {n : Name} (h : isValidMetadataName n = true) :
    metadataName conv now n = some n := by
  unfold metadataName
  dsimp only
  obtain ⟨a, v, s, rfl, h1, h2⟩ := valid_iff.mp h
  have hs : s ≠ metadataComp := by
    rintro rfl; rw [metadataComp_not_segment] at h2; cases h2
  have hl : (a ++ [metadataComp, v, s]).getLast? ≠ some metadataComp := by simpa using hs
  rw [if_neg hl, if_pos h]

theorem metadataName_invalid {conv : Convention} {now : Nat} {n : Name}
    (h1 : n.getLast? ≠ some metadataComp) (h2 : isValidMetadataName n = false) :
    metadataName conv now n = none := by
  unfold metadataName
  dsimp only
  rw [if_neg h1, if_neg (by simp [h2])]

theorem metadataName_prefix {conv : Convention} {now : Nat} {n n' : Name}
    (h : metadataName conv now n = some n') : n <+: n' := by
  unfold metadataName at h
  dsimp only at h
  by_cases hl : n.getLast? = some metadataComp
  · rw [if_pos hl] at h
    split at h
    · simp only [Option.some.injEq] at h
      subst h
      exact List.prefix_append _ _
    · cases h
  · rw [if_neg hl] at h
    split at h
    · simp only [Option.some.injEq] at h
      subst h
      exact List.prefix_refl _
    · cases h

/-- The metadata packets of the producer. -/
theorem metadata_reply {digest : Data → Bytes} {o : Opts} {pre : Name} {now now' : Nat} {input : Bytes}
    {i : Interest} (hn : now < 2 ^ 64) {x f n}
    (h : Reply.metadata x f n ∈ (construct o pre now input).onInterest digest now' i) :
    n = (construct o pre now input).versionedPrefix ∧ isValidMetadataName x = true ∧
      (construct o pre now input).pre ++ [metadataComp] <+: x := by
  by_cases hdisc : (construct o pre now input).pre ++ [metadataComp] <+: i.name
  · rw [onInterest_discovery hn hdisc] at h
    unfold Prod.processDiscoveryInterest at h
    split at h
    · simp at h
    · cases hmn : metadataName (construct o pre now input).opts.conv now' i.name with
      | none => rw [hmn] at h; simp at h
      | some y =>
        rw [hmn] at h
        simp only [List.mem_singleton, Reply.metadata.injEq] at h
        obtain ⟨rfl, _, rfl⟩ := h
        refine ⟨rfl, ?_, hdisc.trans (metadataName_prefix hmn)⟩
        unfold metadataName at hmn
        dsimp only at hmn
        generalize (if i.name.getLast? = some metadataComp then _ else _) = z at hmn
        split at hmn
        · rename_i hv
          simp only [Option.some.injEq] at hmn
          rw [← hmn]; exact hv
        · cases hmn
  · exfalso
    unfold Prod.onInterest at h
    rw [if_neg (c := (makeDiscoveryInterest (construct o pre now input).pre).name.isPrefixOf _ = true)
      (by rw [isPrefixOf_iff]; exact hdisc)] at h
    have hne : ∀ x y z, Reply.metadata x y z ≠ (construct o pre now input).processSegmentInterest digest i := by
      intro x y z
      unfold Prod.processSegmentInterest
      dsimp only
      split
      · split
        · simp
        · split <;> simp
      · split
        · simp
        · split <;> simp
    simp only [List.append_nil, List.mem_append] at h
    rcases h with h | h
    · split at h
      · exact hne _ _ _ (List.mem_singleton.mp h)
      · cases h
    · split at h
      · exact hne _ _ _ (List.mem_singleton.mp h)
      · cases h

/-- The Data packets of the producer are its segments. -/
theorem data_reply {digest : Data → Bytes} {p : Prod} {now' : Nat} {i : Interest} {d}
    (h : Reply.data d ∈ p.onInterest digest now' i) : ∃ k : Nat, p.store[k]? = some d := by
  have hs : Reply.data d = p.processSegmentInterest digest i → ∃ k : Nat, p.store[k]? = some d := by
    intro h
    unfold Prod.processSegmentInterest at h
    dsimp only at h
    split at h
    · split at h
      · cases h
      · split at h
        · rename_i hd
          simp only [Reply.data.injEq] at h
          exact ⟨_, by rw [h]; exact hd⟩
        · cases h
    · split at h
      · cases h
      · rename_i hd
        split at h
        · simp only [Reply.data.injEq] at h
          refine ⟨0, ?_⟩
          rw [hd, h]; rfl
        · cases h
  unfold Prod.onInterest at h
  simp only [List.mem_append] at h
  rcases h with (h | h) | h
  · split at h
    · exact hs (List.mem_singleton.mp h)
    · cases h
  · split at h
    · exact hs (List.mem_singleton.mp h)
    · cases h
  · split at h
    · have := List.mem_singleton.mp h
      unfold Prod.processDiscoveryInterest at this
      split at this
      · cases this
      · split at this <;> cases this
    · cases h

end Verif.Producer
