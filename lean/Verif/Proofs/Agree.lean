import Verif.Spec.Agree
import Verif.Proofs.WiresharkText
import Verif.Proofs.WiresharkTop
import Verif.Props.Dissect

/-! # Lemmas: ndn-dissect and the Wireshark dissector -/

namespace Verif.Agree

open Wireshark (Good slice_append length_slice getBlock_complete getSubBlocks getSubBlocks_zero getSubBlocks_some
  getSubBlocks_sound size_eq)
open Wireshark.Spec

theorem asTree_eq (o : Dissect.Opts) (tvb : Bytes) (x : Wireshark.Tree) :
    asTree o tvb x = .mk x.block.type (valueOf tvb x.block)
      (if Dissect.IsOpaque o x.block.type then [] else x.elements.map (asTree o tvb)) := by
  cases x with
  | node b v p es =>
    have : ∀ l, asTrees o tvb l = l.map (asTree o tvb) := by
      intro l
      induction l with
      | nil => rw [asTrees]; rfl
      | cons a l ih => rw [asTrees, ih]; rfl
    rw [asTree, this]
    rfl

theorem consecutive_le {a z : Nat} {bs : List Wireshark.Block} (h : Consecutive a bs z) : a ≤ z := by
  induction h with
  | nil a => exact Nat.le_refl _
  | cons h hs ih => omega

/-- Elements that cover the value are found. -/
theorem subs_of_tiling {tvb : Bytes} {b : Wireshark.Block} (hb : b.start + b.length ≤ tvb.length) :
    ∀ (bs : List Wireshark.Block) (left : Nat), left ≤ b.length →
    Consecutive (b.start + (b.length - left)) bs (b.start + b.length) →
    (∀ c ∈ bs, HasHeader tvb c ∧ Usual tvb c) →
    getSubBlocks tvb b left = .ok (some (bs.map Wireshark.Block.plain)) := by
  intro bs
  induction bs with
  | nil =>
    intro left hl h _
    have : left = 0 := by
      generalize ha : b.start + (b.length - left) = a at h
      generalize hz : b.start + b.length = z at h
      cases h
      omega
    subst this
    exact getSubBlocks_zero _ _
  | cons c bs ih =>
    intro left hl h hc
    obtain ⟨⟨t, l, r, e, ht, hle, e1, e2⟩, -, -, h9, hend⟩ := hc c List.mem_cons_self
    generalize ha : b.start + (b.length - left) = a at h
    generalize hz : b.start + b.length = z at h
    cases h with
    | cons h1 h2 =>
      have hm := consecutive_le h2
      have hlen := congrArg List.length e
      rw [List.length_drop, List.length_append, List.length_append] at hlen
      have l1 := Wireshark.isVarNumber_len ht
      have l2 := Wireshark.isVarNumber_len hle
      have hr : l.length = 1 ∨ r ≠ [] := by
        by_cases hr : r = []
        · left
          subst hr
          rw [List.length_nil] at hlen
          rw [← e2]
          apply hend
          · omega
          · unfold endOf; omega
        · exact .inr hr
      have hg : Wireshark.getBlock tvb (b.start + (b.length - left)) = .ok (some c.plain) := by
        rw [ha, ← h1, getBlock_complete e ht hle hr, ← e1, ← e2]
        rfl
      have hs : c.plain.size = c.typeLen + c.lengthLen + c.length := size_eq (b := c.plain) h9
      rw [getSubBlocks_some (by omega) hg]
      rw [if_neg (show ¬ c.plain.lengthLen = 9 from h9), if_neg (by omega), ih (left - c.plain.size) (by omega) ?_
        (fun x hx => hc x (List.mem_cons_of_mem _ hx))]
      · rfl
      · rw [hz, show b.start + (b.length - (left - c.plain.size)) = a + c.typeLen + c.lengthLen + c.length by omega]
        exact h2

/-- A sequence of encodings in the buffer. -/
theorem blocks_of_encodings {tvb : Bytes} : ∀ (ts : List Dissect.Tree) (es : List Bytes) (a : Nat) (r : Bytes),
    Dissect.Encodings ts es → tvb.drop a = es.flatten ++ r →
    ∃ bs, Consecutive a bs (a + es.flatten.length) ∧ (∀ c ∈ bs, HasHeader tvb c) ∧ bs.length = ts.length := by
  intro ts
  induction ts with
  | nil =>
    intro es a r h hd
    cases es with
    | nil => exact ⟨[], by simpa using Consecutive.nil a, by simp, rfl⟩
    | cons e es => exact h.elim
  | cons t ts ih =>
    intro es a r h hd
    cases es with
    | nil => exact h.elim
    | cons e es =>
      obtain ⟨⟨-, -, t1, l1, ht, hl, he⟩, hrest⟩ := h
      rw [List.flatten_cons, List.append_assoc] at hd
      have hd2 : tvb.drop (a + e.length) = es.flatten ++ r := by
        rw [← List.drop_drop, hd, List.drop_left]
      obtain ⟨bs, h1, h2, h3⟩ := ih es (a + e.length) r hrest hd2
      refine ⟨⟨a, t.type, t1.length, t.value.length, l1.length, false⟩ :: bs, .cons rfl ?_, ?_, by simp [h3]⟩
      · have : a + t1.length + l1.length + t.value.length = a + e.length := by
          rw [he]; simp only [List.length_append]; omega
        simp only [this]
        rw [List.flatten_cons, List.length_append, ← Nat.add_assoc]
        exact h1
      · intro c hc
        rcases List.mem_cons.mp hc with rfl | hc
        · exact ⟨t1, l1, t.value ++ (es.flatten ++ r), by rw [hd, he]; simp, ht, hl, rfl, rfl⟩
        · exact h2 c hc

theorem value_drop {tvb : Bytes} {x : Wireshark.Tree} :
    ∃ r, tvb.drop x.block.start = valueOf tvb x.block ++ r :=
  ⟨(tvb.drop x.block.start).drop x.block.length, (List.take_append_drop _ _).symm⟩

/-- A shown element without elements is not a sequence of elements. -/
theorem leaf_not_elements {tvb : Bytes} {x : Wireshark.Tree} (g : Good tvb x)
    (hu : ∀ bs, Fills tvb x.block bs → ∀ c ∈ bs, Usual tvb c) (hp : x.elements = []) {ts : List Dissect.Tree} {es : List Bytes}
    (he : Dissect.Encodings ts es) (hn : ts ≠ []) : valueOf tvb x.block ≠ es.flatten := by
  intro hv
  obtain ⟨r, hr⟩ := value_drop (tvb := tvb) (x := x)
  rw [hv] at hr
  obtain ⟨bs, h1, h2, h3⟩ := blocks_of_encodings ts es _ r he hr
  have hlen : es.flatten.length = x.block.length := by rw [← hv]; exact length_slice g.start_le
  rw [hlen] at h1
  have hf : Fills tvb x.block bs := ⟨h1, h2⟩
  have := subs_of_tiling g.start_le bs x.block.length (Nat.le_refl _) (by rw [Nat.sub_self, Nat.add_zero]; exact h1)
    (fun c hc => ⟨h2 c hc, hu bs hf c hc⟩)
  rw [g.subs, hp] at this
  cases bs with
  | nil => cases ts with
    | nil => exact hn rfl
    | cons t ts => cases h3
  | cons b bs =>
    split at this <;> cases this

/-- A shown element is one of the packet format. -/
theorem isElement {tvb : Bytes} {x : Wireshark.Tree} (g : Good tvb x) (h1 : 1 ≤ x.block.type) (h2 : x.block.type < 2 ^ 32) :
    IsElement x.block.type (valueOf tvb x.block) (slice tvb x.block.offset (endOf x.block - x.block.offset)) := by
  obtain ⟨t, l, v, r, e, ht, hl, e1, e2, e3⟩ := g.element
  have hv : valueOf tvb x.block = v := by
    have : tvb.drop (x.block.offset + x.block.typeLen + x.block.lengthLen) = v ++ r := by
      rw [Nat.add_assoc, ← List.drop_drop, e, e1, e2, ← List.length_append, List.append_assoc (t ++ l), List.drop_left]
    unfold valueOf
    rw [e3]
    exact (slice_append this).1
  refine ⟨h1, h2, t, l, ht, by rw [hv, ← e3]; exact hl, ?_⟩
  rw [hv, show endOf x.block - x.block.offset = (t ++ l ++ v).length by
    unfold endOf; simp only [List.length_append]; omega]
  exact (slice_append e).1

theorem slice_add {tvb : Bytes} {a m n : Nat} : slice tvb a (m + n) = slice tvb a m ++ slice tvb (a + m) n := by
  unfold slice
  rw [List.take_add, List.drop_drop]

/-- Shown elements one after the other. -/
theorem encodings_of {o : Dissect.Opts} {tvb : Bytes} : ∀ (xs : List Wireshark.Tree) (a z : Nat),
    Consecutive a (xs.map Wireshark.Tree.block) z →
    (∀ x ∈ xs, Good tvb x ∧ 1 ≤ x.block.type ∧ x.block.type < 2 ^ 32) →
    ∃ es, Dissect.Encodings (xs.map (asTree o tvb)) es ∧ es.flatten = slice tvb a (z - a) := by
  intro xs
  induction xs with
  | nil =>
    intro a z h _
    refine ⟨[], trivial, ?_⟩
    cases h
    simp [slice]
  | cons x xs ih =>
    intro a z h hx
    rw [List.map_cons] at h
    cases h with
    | cons h1 h2 =>
      obtain ⟨es, i1, i2⟩ := ih _ _ h2 (fun y hy => hx y (List.mem_cons_of_mem _ hy))
      obtain ⟨g, g1, g2⟩ := hx x List.mem_cons_self
      have hm := consecutive_le h2
      refine ⟨slice tvb x.block.offset (endOf x.block - x.block.offset) :: es, ⟨?_, i1⟩, ?_⟩
      · rw [asTree_eq]
        exact isElement g g1 g2
      · have he : endOf x.block = a + x.block.typeLen + x.block.lengthLen + x.block.length := by unfold endOf; omega
        rw [List.flatten_cons, i2, h1, ← he, show z - a = (endOf x.block - a) + (z - endOf x.block) by omega, slice_add,
          show a + (endOf x.block - a) = endOf x.block by omega]

theorem Seen.inside {o : Dissect.Opts} {t x : Wireshark.Tree} (h : Seen o t x) : Inside t x := by
  induction h with
  | self t => exact .self t
  | child _ hc _ ih => exact .child hc ih

/-- The tree that Wireshark shows is one that ndn-dissect shows. -/
theorem fits {o : Dissect.Opts} {tvb : Bytes} : ∀ (n : Nat) (x : Wireshark.Tree), x.block.length ≤ n →
    (∀ y, Inside x y → Good tvb y) →
    (∀ y, Seen o x y → ∀ bs, Fills tvb y.block bs → ∀ c ∈ bs, Usual tvb c) →
    (o.keep = true → ∀ y, Seen o x y → y.elements = [] → Unbroken (valueOf tvb y.block)) →
    Dissect.Fits o (asTree o tvb x) := by
  intro n
  induction n with
  | zero =>
    intro x hn hg hu hk
    have g := hg x (.self x)
    rw [asTree_eq]
    have hv : valueOf tvb x.block = [] := List.length_eq_zero_iff.mp (by
      have : (valueOf tvb x.block).length = x.block.length := length_slice g.start_le
      omega)
    have he : x.elements = [] := by
      by_cases hp : x.parsed = true
      · have := g.tiles hp
        rw [show x.block.length = 0 by omega, Nat.add_zero] at this
        cases hxs : x.elements with
        | nil => rfl
        | cons y ys =>
          exfalso
          have gy := hg y (.child (by rw [hxs]; exact List.mem_cons_self) (.self y))
          obtain ⟨t, l, v, r, e, ht, hl, e1, e2, e3⟩ := gy.element
          have l1 := Wireshark.isVarNumber_len ht
          rw [hxs, List.map_cons] at this
          generalize hz : x.block.start = z at this
          have hcons : ∀ {a : Nat} {b : Wireshark.Block} {l : List Wireshark.Block} {y : Nat}, Consecutive a (b :: l) y →
              a + b.typeLen ≤ y := by
            intro a b l y h
            cases h with
            | cons h1 h2 => have := consecutive_le h2; omega
          have := hcons this
          omega
      · exact g.leaf (by simpa using hp)
    rw [he, List.map_nil, ite_self]
    refine .leaf (.inr ?_)
    intro ts es rest hts hne hval
    exfalso
    rw [hv] at hval
    cases ts with
    | nil => exact hne rfl
    | cons t ts =>
      cases es with
      | nil => exact hts
      | cons e es =>
        obtain ⟨⟨-, -, t1, l1, ht, -, hel⟩, -⟩ := hts
        have l1 := Wireshark.isVarNumber_len ht
        have := congrArg List.length hval
        rw [hel] at this
        simp only [List.length_nil, List.flatten_cons, List.length_append] at this
        omega
  | succ n ih =>
    intro x hn hg hu hk
    have g := hg x (.self x)
    rw [asTree_eq]
    by_cases ho : Dissect.IsOpaque o x.block.type
    · rw [if_pos ho]; exact .leaf (.inl ho)
    rw [if_neg ho]
    by_cases he : x.elements = []
    · rw [he, List.map_nil]
      refine .leaf (.inr ?_)
      intro ts es rest hts hne hval
      have hr : rest ≠ [] := by
        rintro rfl
        rw [List.append_nil] at hval
        exact leaf_not_elements g (hu x (.self x)) he hts hne hval
      exact ⟨hr, fun hkeep => hk hkeep x (.self x) he ts es rest hts hne hval hr⟩
    · have hp : x.parsed = true := by
        cases hp : x.parsed with
        | true => rfl
        | false => exact absurd (g.leaf hp) he
      have htile := g.tiles hp
      have hgood : ∀ y ∈ x.elements, Good tvb y := fun y hy => hg y (.child hy (.self y))
      have hfill : Fills tvb x.block (x.elements.map Wireshark.Tree.block) := by
        refine ⟨htile, ?_⟩
        intro c hc
        obtain ⟨y, hy, rfl⟩ := List.mem_map.mp hc
        obtain ⟨t, l, v, r, e, ht, hl, e1, e2, e3⟩ := (hgood y hy).element
        exact ⟨t, l, v ++ r, by rw [e, List.append_assoc], ht, hl, e1, e2⟩
      have husual := hu x (.self x) _ hfill
      obtain ⟨es, h1, h2⟩ := encodings_of (o := o) x.elements _ _ htile (fun y hy =>
        ⟨hgood y hy, (husual _ (List.mem_map_of_mem hy)).1, (husual _ (List.mem_map_of_mem hy)).2.1⟩)
      refine .inner ho (by simpa using he) h1 ?_ ?_
      · rw [h2, Nat.add_sub_cancel_left]
        rfl
      · intro c hc
        obtain ⟨y, hy, rfl⟩ := List.mem_map.mp hc
        refine ih y ?_ (fun z hz => hg z (.child hy hz)) (fun z hz => hu z (.child ho hy hz))
          (fun hkeep z hz => hk hkeep z (.child ho hy hz))
        -- an element is shorter than the value that contains it
        have hshort : ∀ (xs : List Wireshark.Tree) (a z : Nat), Consecutive a (xs.map Wireshark.Tree.block) z → ∀ y ∈ xs,
            a + y.block.typeLen + y.block.length ≤ z := by
          intro xs
          induction xs with
          | nil => intro _ _ _ _ h; cases h
          | cons w xs ihx =>
            intro a z h y hy
            rw [List.map_cons] at h
            cases h with
            | cons h1 h2 =>
              rcases List.mem_cons.mp hy with rfl | hy
              · have := consecutive_le h2; omega
              · have := ihx _ _ h2 y hy; omega
        have := hshort _ _ _ htile y hy
        obtain ⟨t, l, v, r, e, ht, hl, e1, e2, e3⟩ := (hgood y hy).element
        have l1 := Wireshark.isVarNumber_len ht
        omega

end Verif.Agree
