import Verif.Proofs.WiresharkText

/-!
# The texts that the Wireshark dissector shows

`tools/dissect-wireshark/ndn.lua`: C101.
-/

namespace Verif.Wireshark

open Spec

/-! ## C101: the summaries of packets and elements -/

/-- The summary of an element that consists of elements tells the names and values of these elements, and of their elements, in order. -/
theorem C101_summary {tvb : Bytes} {n : Nat} {t x : Tree} {k : Nat} {es : List Elem} (ht : t ∈ Result.shown (dissector tvb n))
    (hx : Inside t x) (hk : HasType x k) (hg : k ∈ groupTypes) (hv : valueOf tvb x.block = encodeAll es) (hes : ValidAll es) :
    x.summary = if textParts es = [] then none else some (allText es) := by
  obtain ⟨-, h1, -, h2⟩ := dissector_shown ht
  have h3 := inside_length hx h2
  have h4 := ((valid_iff _).mp h1).2.1
  have gx := h2 x hx
  have h5 := shown_elem (tvb := tvb) (.group k es) (by unfold Elem.Valid; exact ⟨hg, hes⟩) x (fun y hy => h2 y (inside_trans hx hy))
    (by omega) hk (by rw [Elem.value]; exact hv)
  obtain ⟨i, e1, e2, -⟩ := entry_group k hg
  have h6 := (h5.2 i (by rw [lookup_of hk]; exact e1)).1
  rw [shownText_summary (gx.no_value hk e1 e2), Elem.text] at h6
  exact h6

/-- The text of a packet: what it is, and the summary. -/
theorem C101_packet {tvb : Bytes} {n : Nat} {t : Tree} {es : List Elem} (ht : t ∈ Result.shown (dissector tvb n))
    (hv : valueOf tvb t.block = encodeAll es) (hes : ValidAll es) :
    packetText t = Spec.text ", " ++ label t.block.type ++ (if textParts es = [] then [] else Spec.text ", " ++ allText es) := by
  obtain ⟨-, h1, -, -⟩ := dissector_shown ht
  obtain ⟨h2, -, h3⟩ := (valid_iff _).mp h1
  have hg : t.block.type ∈ groupTypes := by rcases h2 with h | h | h <;> rw [h] <;> decide
  have hs := C101_summary ht (.self t) ⟨rfl, h3⟩ hg hv hes
  obtain ⟨i, e1, -, -⟩ := entry_group _ hg
  have hc : ascii ", " = Spec.text ", " := by decide +kernel
  unfold packetText
  rw [lookup_of ⟨rfl, h3⟩, e1, hs]
  dsimp only
  by_cases hp : textParts es = []
  · rw [if_pos hp, if_pos hp, List.append_nil, hc, label_lookup e1]
  · rw [if_neg hp, if_neg hp]
    dsimp only
    rw [hc, label_lookup e1, List.append_assoc, List.append_assoc]

/-- The text of an Interest or Data packet tells which of both it is, and its name: packets with the same text have the same. -/
theorem C101_name {tvb tvb' : Bytes} {n n' : Nat} {t t' : Tree} {nm nm' : Name} {es es' : List Elem}
    (ht : t ∈ Result.shown (dissector tvb n)) (ht' : t' ∈ Result.shown (dissector tvb' n'))
    (hk : t.block.type ≠ 100) (hk' : t'.block.type ≠ 100)
    (hv : valueOf tvb t.block = encodeAll (.name nm :: es)) (hv' : valueOf tvb' t'.block = encodeAll (.name nm' :: es'))
    (hes : ValidAll (.name nm :: es)) (hes' : ValidAll (.name nm' :: es')) (h : packetText t = packetText t') :
    t.block.type = t'.block.type ∧ nm = nm' := by
  have form : ∀ {tvb : Bytes} {n : Nat} {t : Tree} {nm : Name} {es : List Elem}, t ∈ Result.shown (dissector tvb n) →
      valueOf tvb t.block = encodeAll (.name nm :: es) → ValidAll (.name nm :: es) →
      packetText t = Spec.text ", " ++ (label t.block.type ++ (Spec.text ", " ++ (Spec.text "Name: " ++
        (uri nm ++ (textParts es).flatMap (Spec.text ", " ++ ·))))) := by
    intro tvb n t nm es ht hv hes
    have e : textParts (.name nm :: es) = (label 7 ++ Spec.text ": " ++ uri nm) :: textParts es := by
      rw [textParts, Elem.text, nameText_eq]; rfl
    rw [C101_packet ht hv hes, if_neg (by rw [e]; simp), allText, e, intercalate_cons,
      show label 7 ++ Spec.text ": " = Spec.text "Name: " by decide +kernel]
    simp only [List.append_assoc]
  rw [form ht hv hes, form ht' hv' hes'] at h
  have h := List.append_cancel_left h
  have k5 : ∀ {tvb : Bytes} {n : Nat} {t : Tree}, t ∈ Result.shown (dissector tvb n) → t.block.type ≠ 100 →
      t.block.type = 5 ∨ t.block.type = 6 := by
    intro tvb n t ht hk
    have := ((valid_iff _).mp (dissector_shown ht).2.1).1
    omega
  have l5 : label 5 = 73 :: Spec.text "nterest" := by decide +kernel
  have l6 : label 6 = 68 :: Spec.text "ata" := by decide +kernel
  have hty : t.block.type = t'.block.type := by
    rcases k5 ht hk with e | e <;> rcases k5 ht' hk' with e' | e' <;> rw [e, e'] at h ⊢ <;> rw [l5, l6] at h <;>
      exact absurd (List.cons.inj h).1 (by decide)
  refine ⟨hty, ?_⟩
  rw [hty] at h
  have h := List.append_cancel_left (List.append_cancel_left (List.append_cancel_left h))
  exact uri_inj (comma_head (uri_no_comma nm) (uri_no_comma nm') (comma_rest _) (comma_rest _) h).1

/-- The summary tells the elements completely, if all of them are of those that have a value: elements with the same text are the same. -/
theorem C101_unambiguous {es es' : List Elem} (hes : ValidAll es) (hes' : ValidAll es') (ht : ∀ e ∈ es, e.Told) (ht' : ∀ e ∈ es', e.Told)
    (h : allText es = allText es') : es = es' := by
  have hv := fun e he => And.intro (validAll_mem hes e he) (ht e he)
  have hv' := fun e he => And.intro (validAll_mem hes' e he) (ht' e he)
  unfold allText at h
  rw [told_parts hes ht, told_parts hes' ht'] at h
  refine map_part_inj hv hv' (comma_join_inj ?_ ?_ h)
  · intro x hx
    obtain ⟨e, he, rfl⟩ := List.mem_map.mp hx
    exact part_chars (hv e he).1 (hv e he).2
  · intro x hx
    obtain ⟨e, he, rfl⟩ := List.mem_map.mp hx
    exact part_chars (hv' e he).1 (hv' e he).2

/-- With elements inside of elements this is not so: the text does not tell where the inner elements end. -/
theorem C101_ambiguous : ∃ es es' : List Elem, ValidAll es ∧ ValidAll es' ∧ allText es = allText es' ∧ encodeAll es ≠ encodeAll es' := by
  refine ⟨[.group 20 [.number 24 0], .number 25 10], [.group 20 [.number 24 0, .number 25 10]], ?_, ?_, by decide +kernel, by decide +kernel⟩
  · simp [ValidAll, Elem.Valid, groupTypes, numberTypes]
  · simp [ValidAll, Elem.Valid, groupTypes, numberTypes]

/-- What is appended to the item of an element: type number and length if it has a name but no value; the summary if it has one; and nothing
if it has a value or no name. -/
theorem C101_item {tvb : Bytes} {n : Nat} {t x : Tree} {k : Nat} (ht : t ∈ Result.shown (dissector tvb n)) (hx : Inside t x)
    (hk : HasType x k) :
    (∀ es, k ∈ groupTypes → valueOf tvb x.block = encodeAll es → ValidAll es →
      x.appended = Spec.text ", Type: " ++ decimal k ++ Spec.text ", Length: " ++ decimal x.block.length ++
        (if textParts es = [] then [] else Spec.text ", " ++ allText es)) ∧
    (k ∈ silentTypes → x.appended = Spec.text ", Type: " ++ decimal k ++ Spec.text ", Length: " ++ decimal x.block.length) ∧
    (k ∉ groupTypes → k ∉ silentTypes → x.appended = []) := by
  have c1 : ascii ", Type: " = Spec.text ", Type: " := by decide +kernel
  have c2 : ascii ", Length: " = Spec.text ", Length: " := by decide +kernel
  have c3 : ascii ", " = Spec.text ", " := by decide +kernel
  refine ⟨fun es hg hv hes => ?_, fun hs => ?_, fun hg hs => ?_⟩
  · have h1 := C101_summary ht hx hk hg hv hes
    obtain ⟨i, e1, e2, -⟩ := entry_group k hg
    unfold Tree.appended
    rw [lookup_of hk, e1, h1, hk.1, c1, c2, c3, if_pos (by simp [e2])]
    congr 1
    by_cases hp : textParts es = []
    · rw [if_pos hp, if_pos hp]
    · rw [if_neg hp, if_neg hp]
  · obtain ⟨i, e1, e2, e3⟩ := entry_silent k hs
    unfold Tree.appended Tree.summary Block.hasSummary
    rw [lookup_of hk, e1, hk.1, c1, c2, e3, if_pos (by simp [e2])]
    simp
  · have h1 : (ndnDict.lookup k).any (fun i => i.fmt.isNone) = false := by
      cases h : ndnDict.lookup k with
      | none => rfl
      | some i =>
        have key : ∀ p ∈ ndnDict, p.1 ∉ groupTypes → p.1 ∉ silentTypes → p.2.fmt.isNone = false := by decide
        exact key _ (lookup_mem h) hg hs
    have h2 : summaryTypes.contains k = false := by
      rw [Bool.eq_false_iff]
      intro h
      have key : ∀ k ∈ summaryTypes, k ∈ groupTypes := by decide
      exact hg (key k (by simpa using h))
    unfold Tree.appended Tree.summary Block.hasSummary
    rw [lookup_of hk, h1, hk.1, h2]
    simp

/-- An element without name in the dissector is shown with a text that tells its type number, its length and the range of numbers to which
the type number belongs. -/
theorem C101_generic {tvb : Bytes} {n : Nat} {t x : Tree} (ht : t ∈ Result.shown (dissector tvb n)) (hx : Inside t x)
    (hk : x.block.typeLen = 9 ∨ (x.block.type ∉ silentTypes ∧ x.block.type ∉ groupTypes ∧ x.block.type ∉ leafTypes)) :
    x.shownText = some (unknownLabel x.block.type ++ Spec.text ", Type: " ++ decimal x.block.type ++ Spec.text ", Length: " ++
      decimal x.block.length) := by
  have g := (dissector_shown ht).2.2.2 x hx
  have hl : lookup x.block = none := by
    unfold lookup
    by_cases h9 : x.block.typeLen = 9
    · rw [if_pos h9]
    · rw [if_neg h9]
      obtain ⟨h1, h2, h3⟩ := hk.resolve_left h9
      exact entry_none h1 h2 h3
  have h1 := g.info
  unfold addInfo at h1
  rw [hl] at h1
  dsimp only at h1
  cases hg : genericInfo x.block with
  | error e => rw [hg] at h1; cases h1
  | ok v =>
    rw [hg, range_ok g.inside] at h1
    have h2 : x.value = some v := (Except.ok.inj h1).symm
    rw [shownText_value h2]
    have c1 : ascii ", Type: " = Spec.text ", Type: " := by decide +kernel
    have c2 : ascii ", Length: " = Spec.text ", Length: " := by decide +kernel
    have key : ∀ s, v = .generic s x.block.type x.block.length → ascii s = unknownLabel x.block.type →
        some v.string = some (unknownLabel x.block.type ++ Spec.text ", Type: " ++ decimal x.block.type ++ Spec.text ", Length: " ++
          decimal x.block.length) := by
      intro s e1 e2
      rw [e1, Val.string, e2, c1, c2]
    unfold genericInfo at hg
    unfold unknownLabel at key ⊢
    simp only [List.mem_range] at key ⊢
    split at hg
    · cases hg
      exact key _ rfl (by rw [if_pos (by omega)]; decide +kernel)
    · split at hg
      · cases hg
        exact key _ rfl (by rw [if_neg (by omega), if_pos (by omega)]; decide +kernel)
      · split at hg
        · split at hg
          · split at hg
            · cases hg
            · cases hg
              refine key _ rfl ?_
              rw [if_neg (c := x.block.type < 101) (by omega), if_neg (c := x.block.type < 800) (by omega),
                if_neg (c := x.block.type > 1000) (by omega)]
              by_cases ho : x.block.type % 2 = 1
              · rw [if_pos ho, if_pos ho]; decide +kernel
              · rw [if_neg ho, if_neg ho]; decide +kernel
          · cases hg
            refine key _ rfl ?_
            have : x.block.type = 1000 := by omega
            rw [this]; decide +kernel
        · cases hg
          exact key _ rfl (by rw [if_neg (by omega), if_neg (by omega), if_pos (by omega)]; decide +kernel)

/-- The word "(ignored)" is wrong for the fields of NDNLPv2: those that have to be ignored are shown without it, and those that are shown with
it must not be ignored. -/
theorem C101_ignored_refuted {tvb : Bytes} {n : Nat} {t x : Tree} (ht : t ∈ Result.shown (dissector tvb n)) (hx : Inside t x)
    (hk : x.block.typeLen = 9 ∨ (x.block.type ∉ silentTypes ∧ x.block.type ∉ groupTypes ∧ x.block.type ∉ leafTypes)) :
    ∃ s, x.shownText = some s ∧ (Ignorable x.block.type → Spec.text "Unknown field, Type: " <+: s) ∧
      (Spec.text "Unknown field (ignored)" <+: s → ¬ Ignorable x.block.type) := by
  have hi : Ignorable x.block.type → unknownLabel x.block.type = Spec.text "Unknown field" := by
    rintro ⟨h1, h2, h3⟩
    unfold unknownLabel
    simp only [List.mem_range]
    rw [if_neg (by omega), if_neg (by omega), if_neg (by omega), if_neg (by omega)]
  refine ⟨_, C101_generic ht hx hk, fun h => ?_, fun h h' => ?_⟩
  · rw [hi h, show Spec.text "Unknown field, Type: " = Spec.text "Unknown field" ++ Spec.text ", Type: " by decide +kernel]
    simp only [List.append_assoc]
    exact ⟨_, by rw [List.append_assoc]⟩
  · rw [hi h', show Spec.text "Unknown field (ignored)" = Spec.text "Unknown field" ++ (32 :: Spec.text "(ignored)") by decide +kernel,
      show Spec.text ", Type: " = 44 :: Spec.text " Type: " by decide +kernel] at h
    obtain ⟨r, h⟩ := h
    simp only [List.append_assoc] at h
    have h := List.append_cancel_left h
    exact absurd (List.cons.inj h).1 (by decide)

/-! ### Examples -/

/-- The text of the only packet that is shown. -/
def shownPacketText (r : Result) : Option Bytes :=
  match Result.shown r with
  | [t] => some (packetText t)
  | _ => none

/-- The texts of the elements of the only packet that is shown. -/
def shownElementTexts (r : Result) : List (Option Bytes) :=
  match Result.shown r with
  | [t] => t.elements.map Tree.shownText
  | _ => []

/-- What is appended to the elements of the only packet that is shown. -/
def shownAppended (r : Result) : List Bytes :=
  match Result.shown r with
  | [t] => t.elements.map Tree.appended
  | _ => []

/-- The elements of an Interest. -/
def exampleElems : List Elem := [.name [⟨8, [65]⟩, ⟨8, [66]⟩], .flag 33, .nonce [1, 2, 3, 4], .number 12 4000, .hopLimit 7]

theorem exampleElems_valid : ValidAll exampleElems := by
  simp [exampleElems, ValidAll, Elem.Valid, CompOk, numberTypes]

theorem exampleElems_told : ∀ e ∈ exampleElems, e.Told := by decide

-- an Interest whose elements are these, and the text that is shown
example : Block.encode ⟨5, encodeAll exampleElems⟩ =
    [5, 23, 7, 6, 8, 1, 65, 8, 1, 66, 33, 0, 10, 4, 1, 2, 3, 4, 12, 2, 15, 160, 34, 1, 7] := by decide +kernel

example : shownPacketText (dissector [5, 23, 7, 6, 8, 1, 65, 8, 1, 66, 33, 0, 10, 4, 1, 2, 3, 4, 12, 2, 15, 160, 34, 1, 7] 25) =
    some (ascii ", Interest, Name: /A/B, CanBePrefix: Yes, Nonce: 16909060, InterestLifetime: 4000, HopLimit: 7") := by decide +kernel

example : Spec.text ", " ++ label 5 ++ Spec.text ", " ++ allText exampleElems =
    ascii ", Interest, Name: /A/B, CanBePrefix: Yes, Nonce: 16909060, InterestLifetime: 4000, HopLimit: 7" := by decide +kernel

-- a Nack: what is in the fragment is not part of the text
example : shownPacketText (dissector [100, 18, 253, 3, 32, 5, 253, 3, 33, 1, 150, 80, 7, 5, 5, 7, 3, 8, 1, 65] 20) =
    some (ascii ", LpPacket, Nack: NackReason: NoRoute") := by decide +kernel

example : shownAppended (dissector [100, 18, 253, 3, 32, 5, 253, 3, 33, 1, 150, 80, 7, 5, 5, 7, 3, 8, 1, 65] 20) =
    [ascii ", Type: 800, Length: 5, NackReason: NoRoute", ascii ", Type: 80, Length: 7"] := by decide +kernel

-- the two packets with the same text
example : shownPacketText (dissector (Block.encode ⟨6, encodeAll [.group 20 [.number 24 0], .number 25 10]⟩) 10) =
    some (ascii ", Data, MetaInfo: ContentType: 0, FreshnessPeriod: 10") ∧
    shownPacketText (dissector (Block.encode ⟨6, encodeAll [.group 20 [.number 24 0, .number 25 10]]⟩) 10) =
    some (ascii ", Data, MetaInfo: ContentType: 0, FreshnessPeriod: 10") := by decide +kernel

-- an LpPacket with the fields 844, which has to be ignored by those who do not know it, and 845, which must not be ignored
example : shownElementTexts (dissector [100, 10, 253, 3, 76, 1, 0, 253, 3, 77, 1, 0] 12) =
    [some (ascii "Unknown field, Type: 844, Length: 1"), some (ascii "Unknown field (ignored), Type: 845, Length: 1")] := by decide +kernel

-- the types 99, 101, 1000 and 1001
example : shownElementTexts (dissector [100, 14, 99, 0, 101, 0, 253, 3, 232, 1, 0, 253, 3, 233, 1, 0] 16) =
    [some (ascii "Unrecognized from the reserved range 0-100, Type: 99, Length: 0"),
     some (ascii "Unrecognized from the reserved range 101-799, Type: 101, Length: 0"),
     some (ascii "Unknown field, Type: 1000, Length: 1"), some (ascii "RESERVED_3, Type: 1001, Length: 1")] := by decide +kernel

end Verif.Wireshark
