import Verif.Props.DissectData

/-!
# Which segment numbers ndn-dissect shows (C83)

C83 is false for packets whose numbers look like elements. Here it is settled which numbers below 2^24 do: the multiples of
256 from 256 to 64512. A packet with such a number is never shown right, whatever else is in it; all others are.
-/

namespace Verif.Dissect

open Verif.Wire

/-- The numbers that ndn-dissect does not show: two octets, the second of which is 0 and the first of which is a type. -/
def Hidden (n : Nat) : Prop := 256 ∣ n ∧ 256 ≤ n ∧ n ≤ 64512

instance (n : Nat) : Decidable (Hidden n) := by unfold Hidden; infer_instance

private theorem beBytes2 (n : Nat) : beBytes 2 n = [UInt8.ofNat (n / 256 % 256), UInt8.ofNat (n % 256)] := by
  simp [beBytes]

private theorem ofNat_toNat {n : Nat} (h : n < 256) : (UInt8.ofNat n).toNat = n := by
  simp [Nat.mod_eq_of_lt h]

private theorem readVarNumber_short {b : UInt8} {r : Bytes} (h : r.length < 2) :
    readVarNumber (b :: r) = if b.toNat < 253 then some (b.toNat, r) else none := by
  unfold readVarNumber
  dsimp only
  by_cases h1 : b.toNat < 253
  · rw [if_pos h1, if_pos h1]
  · rw [if_neg h1, if_neg h1, if_pos]
    split_ifs <;> omega

private theorem readBlock_one (a : UInt8) : ∀ x, readBlock [a] ≠ .ok x := by
  intro x hx
  unfold readBlock readType at hx
  rw [readVarNumber_short (by simp)] at hx
  by_cases h1 : a.toNat < 253
  · simp only [if_pos h1] at hx
    by_cases h0 : a.toNat = 0 ∨ 2 ^ 32 ≤ a.toNat
    · simp only [if_pos h0] at hx; cases hx
    · simp only [if_neg h0] at hx; cases hx
  · simp only [if_neg h1] at hx; cases hx

private theorem readBlock_two {a b : UInt8} (h0 : a ≠ 0) :
    readBlock [a, b] = if a.toNat < 253 ∧ b.toNat < 253 then (if b.toNat = 0 then .ok (⟨a.toNat, []⟩, []) else .error .value)
      else .error .number := by
  have hz : a.toNat ≠ 0 := fun h => h0 (UInt8.toNat_inj.mp (by simpa using h))
  unfold readBlock readType
  rw [readVarNumber_short (by simp)]
  by_cases h1 : a.toNat < 253
  · have h2 : ¬ (a.toNat = 0 ∨ 2 ^ 32 ≤ a.toNat) := by omega
    simp only [if_pos h1, if_neg h2]
    rw [readVarNumber_short (by simp)]
    by_cases h3 : b.toNat < 253
    · simp only [h1, h3, and_self, if_true, List.length_nil, List.take_nil, List.drop_nil]
      by_cases h4 : b.toNat = 0
      · rw [if_neg (by omega), if_pos h4]
      · rw [if_pos (by omega), if_neg h4]
    · simp only [h3, and_false, if_false]
  · simp only [h1, false_and, if_false]

/-- Numbers that are not hidden do not begin with an element. -/
theorem number_error {n : Nat} (hn : n < 2 ^ 24) (hh : ¬ Hidden n) : ∀ x, readBlock (nniEncode n) ≠ .ok x := by
  unfold nniEncode
  by_cases h1 : n < 2 ^ 8
  · rw [if_pos h1]
    exact readBlock_one _
  rw [if_neg h1]
  by_cases h2 : n < 2 ^ 16
  · rw [if_pos h2, beBytes2]
    have ha : (UInt8.ofNat (n / 256 % 256)).toNat = n / 256 := by rw [ofNat_toNat (by omega)]; omega
    have hb : (UInt8.ofNat (n % 256)).toNat = n % 256 := ofNat_toNat (by omega)
    intro x hx
    rw [readBlock_two (fun h => by rw [h] at ha; simp at ha; omega), ha, hb] at hx
    unfold Hidden at hh
    split_ifs at hx <;> omega
  · rw [if_neg h2, if_pos (by omega)]
    have e : beBytes 4 n = 0 :: [UInt8.ofNat (n / 65536 % 256), UInt8.ofNat (n / 256 % 256), UInt8.ofNat (n % 256)] := by
      have : n / 16777216 = 0 := by omega
      simp [beBytes, Nat.div_div_eq_div_mul, this]
    rw [e]
    intro x hx
    simp [readBlock, readType, readVarNumber] at hx

/-- Hidden numbers are one element. -/
theorem number_element {n : Nat} (hh : Hidden n) : readBlock (nniEncode n) = .ok (⟨n / 256, []⟩, []) := by
  obtain ⟨hd, h1, h2⟩ := hh
  have ha : (UInt8.ofNat (n / 256 % 256)).toNat = n / 256 := by rw [ofNat_toNat (by omega)]; omega
  have hb : (UInt8.ofNat (n % 256)).toNat = 0 := by rw [ofNat_toNat (by omega)]; omega
  unfold nniEncode
  rw [if_neg (by omega), if_pos (by omega), beBytes2, readBlock_two (fun h => by rw [h] at ha; simp at ha; omega), ha, hb,
    if_pos ⟨by omega, by omega⟩, if_pos rfl]

/-- What holds of a line: if it has a value, no elements were found in it. -/
private def Plain (o : Opts) (l : Line) : Prop := l.label = typeLabel l.type ∧ ∀ v ∈ l.value, elements o ⟨l.type, v⟩ = []

private theorem plain_blockLine (o : Opts) (br : List Bool) (b : Block) : Plain o (blockLine br b (elements o b)) := by
  refine ⟨rfl, fun v hv => ?_⟩
  unfold blockLine at hv ⊢
  dsimp only at hv ⊢
  split_ifs at hv with h
  · cases hv; exact h
  · cases hv

private theorem plain_printElements {o : Opts} {p : St → Block → St}
    (hp : ∀ s b, (∀ l ∈ s.out, Plain o l) → ∀ l ∈ (p s b).out, Plain o l) :
    ∀ (es : List Block) (s : St), (∀ l ∈ s.out, Plain o l) → ∀ l ∈ (printElements p es s).out, Plain o l := by
  intro es
  induction es with
  | nil => exact fun s h => h
  | cons e rest ih =>
    intro s h
    unfold printElements
    refine ih _ (hp _ _ ?_)
    split_ifs <;> exact h

private theorem plain_printBlock (o : Opts) : ∀ (depth : Nat) (s : St) (b : Block), (∀ l ∈ s.out, Plain o l) →
    ∀ l ∈ (printBlock o depth s b).out, Plain o l := by
  intro depth
  induction depth with
  | zero => exact fun s b h => h
  | succ depth ih =>
    intro s b h
    unfold printBlock
    dsimp only
    refine plain_printElements ih _ _ ?_
    intro l hl
    rcases List.mem_append.mp hl with hl | hl
    · exact h l hl
    · rw [List.mem_singleton.mp hl]; exact plain_blockLine o _ b

private theorem plain_dissectLoop (o : Opts) : ∀ (k : Nat) (off : Nat) (s : St) (input : Bytes), input.length ≤ k → (∀ l ∈ s.out, Plain o l) →
    ∀ l ∈ (dissectLoop o off s input).out, Plain o l := by
  intro k
  induction k with
  | zero =>
    intro off s input hk h
    rw [List.length_eq_zero_iff.mp (Nat.le_zero.mp hk), dissectLoop, if_pos rfl]
    exact h
  | succ k ih =>
    intro off s input hk h
    by_cases hi : input = []
    · rw [hi, dissectLoop, if_pos rfl]; exact h
    · cases hf : fromStream input with
      | none => rw [dissectLoop_bad hi hf]; exact h
      | some x =>
        obtain ⟨b, r⟩ := x
        rw [dissectLoop_good hf]
        have := fromStream_shorter hf
        exact ih _ _ _ (by omega) (plain_printBlock o _ s b h)

/-- **C83 (hidden numbers)** Whatever the input and the options: no line shows one of the hidden numbers as the value of a
SegmentNameComponent. So every packet with such a segment number, or with such a last segment, is shown wrong. -/
theorem C83_hidden {n : Nat} (hn : Hidden n) (o : Opts) (input : Bytes) (depth : Nat) :
    (depth, "SegmentNameComponent", some (nniEncode n)) ∉ (dissect o input).out.map Line.told := by
  intro h
  obtain ⟨l, hl, ht⟩ := List.mem_map.mp h
  obtain ⟨h1, h2⟩ := plain_dissectLoop o _ 0 {} input le_rfl (fun l h => by cases h) l hl
  simp only [Line.told, Prod.mk.injEq] at ht
  have h3 := h2 (nniEncode n) (by rw [ht.2.2]; rfl)
  rw [ht.2.1] at h1
  unfold elements at h3
  rw [if_pos] at h3
  · have hne : nniEncode n ≠ [] := by
      intro h
      have := number_element hn
      rw [h] at this
      cases this
    rw [parse, if_neg hne] at h3
    split at h3
    · rename_i x r hx
      rw [number_element hn] at hx
      cases hx
      rw [parse, if_pos rfl] at h3
      cases h3
    all_goals
      rename_i hx
      rw [number_element hn] at hx
      cases hx
  · refine ⟨?_, ?_, .inl ?_⟩ <;> intro h <;> dsimp only at h <;> rw [h] at h1 <;> revert h1 <;> decide +kernel

/-- **C83 (segments, exact)** What ndnputchunks publishes with the typed convention, up to 2^24 segments, any freshness period between
1 and 2^24 - 1 and any key: if neither the segment number nor the last one nor the freshness period is hidden, and the components
of the prefix and of the name of the key are of known types and do not look like elements, then the packet is shown exactly.
The condition on the numbers is necessary (`C83_hidden`). -/
theorem C83_numbers_partial {o : Opts} (hc : o.dissectContent = false) {po : Producer.Opts} (hconv : po.conv = .typed)
    (hfr : po.freshness ≠ 0) (hfr2 : po.freshness < 2 ^ 24) (hfr3 : ¬ Hidden po.freshness)
    {vp : Name} {input : Bytes} {vpTold key : List (Nat × String × Option Bytes)}
    (hvp : TellsName 2 vp vpTold) (pvp : ∀ c ∈ vp, NotElements o.keep c.value)
    {t : UInt8} {k : Option Name} {sig : Data → Bytes}
    (hk : ∀ n ∈ k, n ≠ []) (h3 : ∀ n ∈ k, TellsName 4 n key) (p4 : ∀ n ∈ k, ∀ c ∈ n, NotElements o.keep c.value)
    (hlen : (Producer.split po.maxSegmentSize input).length ≤ 2 ^ 24)
    (hlast : ¬ Hidden ((Producer.split po.maxSegmentSize input).length - 1)) {j : Nat} (hj : ¬ Hidden j) {d : Data}
    (hd : (Producer.makeStore po vp input)[j]? = some d)
    (size : (encodeData ⟨sigInfo t k, sig d⟩ d).length ≤ maxPacket) :
    (dissect o (encodeData ⟨sigInfo t k, sig d⟩ d)).error = none ∧
    (dissect o (encodeData ⟨sigInfo t k, sig d⟩ d)).out.map Line.told =
      dataTold (vpTold ++ [(2, "SegmentNameComponent", some (nniEncode j))])
        [(3, "SegmentNameComponent", some (nniEncode ((Producer.split po.maxSegmentSize input).length - 1)))] key d t k (sig d) := by
  unfold Producer.makeStore at hd
  dsimp only at hd
  rw [List.getElem?_map, List.getElem?_zipIdx] at hd
  cases hcs : (Producer.split po.maxSegmentSize input)[j]? with
  | none => rw [hcs] at hd; cases hd
  | some cont =>
    rw [hcs] at hd
    have hj' : j < (Producer.split po.maxSegmentSize input).length := (List.getElem?_eq_some_iff.mp hcs).1
    generalize (Producer.split po.maxSegmentSize input).length = len at hlen hlast hj' hd ⊢
    have one : ∀ n, Comp.fromSegment po.conv n = ⟨50, nniEncode n⟩ := by
      intro n
      rw [hconv]
      rfl
    simp only [Option.map_some, Option.some.injEq, Nat.zero_add] at hd
    subst hd
    rw [one j, one (len - 1)] at size ⊢
    refine C83_data_partial hc (by simp) hfr ?_ ?_ hk h3 p4 ?_ ?_ ?_ size
    · clear * - hvp
      dsimp only
      induction hvp with
      | nil => exact .cons .segment .nil
      | cons h1 _ ih => exact .cons h1 ih
    · intro c hc
      cases hc
      exact .cons .segment .nil
    · intro c hc
      rcases List.mem_append.mp hc with hc | hc
      · exact pvp c hc
      · rw [List.mem_singleton.mp hc]
        exact notElements_of_error (number_error (by omega) hj)
    · exact notElements_of_error (number_error hfr2 hfr3)
    · intro c hc
      cases hc
      exact notElements_of_error (number_error (by omega) hlast)

example : Hidden 256 ∧ Hidden 64512 ∧ ¬ Hidden 255 ∧ ¬ Hidden 257 ∧ ¬ Hidden 64768 ∧ ¬ Hidden 65536 ∧ ¬ Hidden 10000 := by decide

/-- Segment 257 of a transfer of 300 bytes, one byte in each segment. -/
private def exMany : Data :=
  { name := [⟨8, [0x41]⟩, ⟨54, [7]⟩, ⟨50, [1, 1]⟩], content := [0x78], final := some ⟨50, [1, 43]⟩, freshness := 10000 }

/-- The hypotheses of `C83_numbers_partial` can be met beyond 256 segments. -/
example : (Producer.makeStore { maxSegmentSize := 1 } [⟨8, [0x41]⟩, ⟨54, [7]⟩] (List.replicate 300 0x78))[257]? = some exMany ∧
    (Producer.split 1 (List.replicate 300 0x78)).length = 300 ∧ ¬ Hidden 257 ∧ ¬ Hidden (300 - 1) ∧
    TellsName 2 [⟨8, [0x41]⟩, ⟨54, [7]⟩] [(2, "GenericNameComponent", some [0x41]), (2, "VersionNameComponent", some [7])] ∧
    (encodeData ⟨sigInfo 3 (some [⟨8, [0x4b]⟩]), [1, 2, 3]⟩ exMany).length ≤ maxPacket :=
  ⟨by decide +kernel, by decide +kernel, by decide, by decide, .cons .generic (.cons .version .nil), by decide +kernel⟩

end Verif.Dissect
