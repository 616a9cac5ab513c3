import Verif.Proofs.WiresharkTop

/-!
# Properties of the Wireshark dissector

`tools/dissect-wireshark/ndn.lua`: C64 to C71.
-/

namespace Verif.Wireshark

open Spec

/-! ## C64: what is shown has the structure of the packet -/

/-- Every shown element is an element of the packet format at that place of the buffer, entirely inside of it. Either its
children cover its value without gap, or it has none. -/
theorem C64_structure {tvb : Bytes} {n : Nat} {t x : Tree} (ht : t ∈ Result.shown (dissector tvb n)) (hx : Inside t x) :
    IsElementAt tvb x.block ∧
    (x.parsed = true → Consecutive (x.block.offset + x.block.typeLen + x.block.lengthLen) (x.elements.map Tree.block)
      (endOf x.block)) ∧
    (x.parsed = false → x.elements = []) := by
  have g := (dissector_shown ht).2.2.2 x hx
  exact ⟨g.element, g.tiles, g.leaf⟩

/-- If the value of a shown element is a sequence of elements, then these are shown, in order. -/
theorem C64_complete {tvb : Bytes} {n : Nat} {t x : Tree} (ht : t ∈ Result.shown (dissector tvb n)) (hx : Inside t x)
    {xs : List Verif.Block} (hxs : ∀ y ∈ xs, y.type < 2 ^ 32 ∧ y.value.length < 2 ^ 32)
    (hv : valueOf tvb x.block = (xs.map Block.encode).flatten) :
    x.parsed = true ∧ x.elements.map (fun y => (⟨y.block.type, valueOf tvb y.block⟩ : Verif.Block)) = xs :=
  ((dissector_shown ht).2.2.2 x hx).complete hxs hv

/-- A Data packet with the name /A and the content 01 02 03. -/
def exampleData : Bytes := [6, 10, 7, 3, 8, 1, 65, 0x15, 3, 1, 2, 3]

/-- The types of the elements of the packets that are shown. -/
def shownTypes (r : Result) : List (List Nat) := (Result.shown r).map fun t => t.elements.map fun x => x.block.type

example : shownTypes (dissector exampleData 12) = [[7, 0x15]] := by decide +kernel

/-! ## C65: names -/

/-- Names with the same text are the same, also if they were shown for different buffers. -/
theorem C65_names_injective {tvb tvb' : Bytes} {n n' : Nat} {t t' x x' : Tree}
    (ht : t ∈ Result.shown (dissector tvb n)) (hx : Inside t x) (h7 : HasType x 7) (hp : x.parsed = true)
    (ht' : t' ∈ Result.shown (dissector tvb' n')) (hx' : Inside t' x') (h7' : HasType x' 7) (hp' : x'.parsed = true)
    (h : x.value = x'.value) :
    x.elements.map (fun y => component tvb y.block) = x'.elements.map fun y => component tvb' y.block := by
  have g := (dissector_shown ht).2.2.2
  have g' := (dissector_shown ht').2.2.2
  obtain ⟨s, h1, h2, -⟩ := (g x hx).name_value h7 (fun y hy => g y (inside_trans hx (.child hy (.self _))))
  obtain ⟨s', h1', h2', -⟩ := (g' x' hx').name_value h7' (fun y hy => g' y (inside_trans hx' (.child hy (.self _))))
  rw [h1, h1'] at h
  cases h
  exact uri_inj (by rw [← h2 hp, ← h2' hp'])

/-- The text of a name begins with a slash and has only unreserved characters, `%`, `=` and `/`. -/
theorem C65_characters {tvb : Bytes} {n : Nat} {t x : Tree} (ht : t ∈ Result.shown (dissector tvb n)) (hx : Inside t x)
    (h7 : HasType x 7) :
    ∃ s, x.value = some (.text s) ∧ s.head? = some 0x2F ∧ ∀ c ∈ s, c ∈ unreservedChars ∨ c ∈ text "%=/" := by
  have g := (dissector_shown ht).2.2.2
  obtain ⟨s, h1, h2, h3⟩ := (g x hx).name_value h7 (fun y hy => g y (inside_trans hx (.child hy (.self _))))
  have hslash : (0x2F : UInt8) ∈ text "%=/" := by decide +kernel
  have heq : (0x3D : UInt8) ∈ text "%=/" := by decide +kernel
  have hpct : (0x25 : UInt8) ∈ text "%=/" := by decide +kernel
  refine ⟨s, h1, ?_⟩
  cases hp : x.parsed with
  | false =>
    rw [h3 hp]
    refine ⟨rfl, ?_⟩
    intro c hc
    rw [List.mem_singleton.mp hc]
    exact .inr hslash
  | true =>
    rw [h2 hp]
    refine ⟨rfl, ?_⟩
    intro c hc
    unfold uri at hc
    rcases List.mem_cons.mp hc with rfl | hc
    · exact .inr hslash
    · generalize x.elements.map (fun y => component tvb y.block) = nm at hc
      cases nm with
      | nil => cases hc
      | cons a l =>
        rw [List.map_cons, intercalate_cons] at hc
        have hcomp : ∀ a : Comp, c ∈ compUri a → c ∈ unreservedChars ∨ c ∈ text "%=/" := by
          intro a ha
          rcases compUri_chars a c ha with (h | rfl) | rfl
          · exact .inl ((unreserved_iff c).mp h)
          · exact .inr hpct
          · exact .inr heq
        rcases List.mem_append.mp hc with hc | hc
        · exact hcomp a hc
        · obtain ⟨b, hb, hc⟩ := List.mem_flatMap.mp hc
          obtain ⟨d, -, rfl⟩ := List.mem_map.mp hb
          rcases List.mem_append.mp hc with hc | hc
          · rw [List.mem_singleton.mp hc]; exact .inr hslash
          · exact hcomp d hc

/-- A generic component is shown with percent-encoding: decoding gives its value, and three more periods if it has nothing but
periods. -/
theorem C65_generic {tvb : Bytes} {n : Nat} {t x : Tree} (ht : t ∈ Result.shown (dissector tvb n)) (hx : Inside t x)
    (h8 : HasType x 8) :
    ∃ s, x.value = some (.text s) ∧ (∀ c ∈ s, c ∈ unreservedChars ∨ c = 0x25) ∧
      unescape s = valueOf tvb x.block ++ (if ∀ c ∈ valueOf tvb x.block, c = 0x2E then [0x2E, 0x2E, 0x2E] else []) := by
  have g := (dissector_shown ht).2.2.2 x hx
  have h := g.component_value h8 (.inr (.inr rfl))
  have e : compUri (component tvb x.block) = escape (valueOf tvb x.block) := by
    simp only [compUri, component, h8.1]; rfl
  rw [e] at h
  refine ⟨_, h, ?_, ?_⟩
  · intro c hc
    rcases escape_plain _ c hc with h | h
    · exact .inl ((unreserved_iff c).mp h)
    · exact .inr h
  · rw [unescape_escape]
    congr 1
    by_cases hall : ∀ c ∈ valueOf tvb x.block, c = 0x2E
    · rw [if_pos hall, if_neg (by rw [(any_period _).mpr hall]; decide)]
    · rw [if_neg hall, if_pos]
      cases ha : (valueOf tvb x.block).any (· != 0x2E) with
      | true => rfl
      | false => exact absurd ((any_period _).mp ha) hall

/-- A name of generic components that consist of unreserved characters, not of periods only, is shown as it is. -/
theorem C65_plain {tvb : Bytes} {n : Nat} {t x : Tree} (ht : t ∈ Result.shown (dissector tvb n)) (hx : Inside t x)
    (h7 : HasType x 7) (hp : x.parsed = true) (hne : x.elements ≠ [])
    (h : ∀ y ∈ x.elements, y.block.type = 8 ∧ (∀ c ∈ valueOf tvb y.block, c ∈ unreservedChars) ∧
      ∃ c ∈ valueOf tvb y.block, c ≠ 0x2E) :
    x.value = some (.text (x.elements.flatMap fun y => 0x2F :: valueOf tvb y.block)) := by
  have g := (dissector_shown ht).2.2.2
  obtain ⟨s, h1, h2, -⟩ := (g x hx).name_value h7 (fun y hy => g y (inside_trans hx (.child hy (.self _))))
  rw [h1, h2 hp]
  have hcomp : ∀ y ∈ x.elements, compUri (component tvb y.block) = valueOf tvb y.block := by
    intro y hy
    obtain ⟨h8, hu, c, hc, hc'⟩ := h y hy
    have e : compUri (component tvb y.block) = escape (valueOf tvb y.block) := by
      simp only [compUri, component, h8]; rfl
    rw [e, escape_eq, if_pos (by rw [List.any_eq_true]; exact ⟨c, hc, by simpa using hc'⟩), List.append_nil]
    generalize valueOf tvb y.block = v at hu
    induction v with
    | nil => rfl
    | cons a v ih =>
      rw [List.flatMap_cons, ih (fun b hb => hu b (List.mem_cons_of_mem _ hb)), esc1,
        if_pos ((unreserved_iff a).mpr (hu a List.mem_cons_self))]
      rfl
  have hm : (x.elements.map fun y => component tvb y.block).map compUri = x.elements.map fun y => valueOf tvb y.block := by
    rw [List.map_map]
    exact List.map_congr_left (fun y hy => hcomp y hy)
  rw [uri, hm]
  cases hel : x.elements with
  | nil => exact absurd hel hne
  | cons a l =>
    rw [List.map_cons, intercalate_cons, List.flatMap_cons, List.flatMap_map]
    rfl

/-- The texts of the names inside of the first level. -/
def shownNames (r : Result) : List (Option Val) :=
  (Result.shown r).flatMap fun t => (t.elements.filter fun x => x.block.type = 7).map Tree.value

example : shownNames (dissector exampleData 12) = [some (.text [0x2F, 65])] := by decide +kernel

-- /%2F/.../8=a: a slash as value, a component without value, a component of type 9
example : shownNames (dissector [6, 10, 7, 8, 8, 1, 0x2F, 8, 0, 9, 1, 97] 12) =
    [some (.text (ascii "/%2F/.../9=a"))] := by decide +kernel

/-! ## C66: the info column -/

/-- The whole claim: an Interest is shown as Interest, and with its own name also if it is in an LpPacket. -/
def C66_full : Prop :=
  (∀ tvb n t c d, dissector tvb n = .done [t] c d → HasType t 5 → c.type = "Interest") ∧
  (∀ tvb n t c d, dissector tvb n = .done [t] c d → HasType t 100 → ∀ pre fr p nm rest, t.elements = pre ++ [fr] →
    HasType fr 80 → fr.elements = [p] → (HasType p 5 ∨ HasType p 6) → p.elements = nm :: rest → HasType nm 7 →
    nm.value = some (.text c.name))

/-- The result as (type, name). -/
def column : Result → Option (String × Bytes)
  | .done _ c _ => some (c.type, c.name)
  | _ => none

/-- An Interest /A with an element of type 800 inside of its ApplicationParameters. -/
def interest800 : Bytes := [5, 12, 7, 3, 8, 1, 65, 0x24, 5, 253, 3, 32, 1, 0]

/-- An LpPacket with the Interest /A and a PIT token that reads as the Name /B. -/
def tokenB : Bytes := [100, 16, 98, 5, 7, 3, 8, 1, 66, 80, 7, 5, 5, 7, 3, 8, 1, 65]

example : column (dissector tokenB 18) = some ("Interest", ascii "/B") := by decide +kernel

/-- An Interest is shown as Nack if there is something of type 800 inside of its parameters. -/
theorem C66_refuted : ¬ C66_full := by
  intro h
  have key : ∃ t c d, dissector interest800 14 = .done [t] c d ∧ HasType t 5 ∧ c.type = "Nack" := by
    have h1 : (match dissector interest800 14 with
      | .done [t] c _ => decide (t.block.type = 5 ∧ t.block.typeLen ≠ 9) && c.type == "Nack"
      | _ => false) = true := by decide +kernel
    split at h1
    · rename_i t c d he
      rw [Bool.and_eq_true, decide_eq_true_eq, beq_iff_eq] at h1
      exact ⟨t, c, d, he, h1.1, h1.2⟩
    · cases h1
  obtain ⟨t, c, d, h1, h2, h3⟩ := key
  have := h.1 _ _ _ _ _ h1 h2
  rw [h3] at this
  exact absurd this (by decide)

/-- The other half is false, too: the name comes from a PIT token. -/
theorem C66_refuted_name : ¬ ∀ tvb n t c d, dissector tvb n = .done [t] c d → HasType t 100 → ∀ pre fr p nm rest,
    t.elements = pre ++ [fr] → HasType fr 80 → fr.elements = [p] → (HasType p 5 ∨ HasType p 6) → p.elements = nm :: rest →
    HasType nm 7 → nm.value = some (.text c.name) := by
  intro h
  have h1 : (match dissector tokenB 18 with
    | .done [t] c _ => match t.elements with
      | [x, fr] => match fr.elements with
        | [p] => match p.elements with
          | [nm] => decide ((t.block.type = 100 ∧ t.block.typeLen ≠ 9) ∧ (fr.block.type = 80 ∧ fr.block.typeLen ≠ 9) ∧
              (p.block.type = 5 ∧ p.block.typeLen ≠ 9) ∧ (nm.block.type = 7 ∧ nm.block.typeLen ≠ 9) ∧
              nm.value ≠ some (.text c.name))
          | _ => false
        | _ => false
      | _ => false
    | _ => false) = true := by decide +kernel
  split at h1
  · rename_i t c d he
    split at h1
    · rename_i x fr hte
      split at h1
      · rename_i p hfe
        split at h1
        · rename_i nm hpe
          rw [decide_eq_true_eq] at h1
          obtain ⟨a1, a2, a3, a4, a5⟩ := h1
          exact a5 (h _ _ _ _ _ he a1 [x] fr p nm [] hte a2 hfe (.inl a3) hpe a4)
        · cases h1
      · cases h1
    · cases h1
  · cases h1

/-- What holds: a Data packet is shown as Data; an Interest without anything of type 800 is shown as Interest; the name is that of
the packet; an LpPacket with a Nack header, before which there is no Data, is shown as Nack; and an LpPacket whose other
header fields have nothing of the types 5, 6, 7 and 800 is shown like the packet in its fragment. -/
theorem C66_columns_partial {tvb : Bytes} {n : Nat} {t : Tree} {c : Cols} {d : Option Nat}
    (h : dissector tvb n = .done [t] c d) :
    (HasType t 6 → c.type = "Data") ∧
    (HasType t 5 → NoneInside t 800 → c.type = "Interest") ∧
    (HasType t 5 ∨ HasType t 6 → ∀ nm rest, t.elements = nm :: rest → HasType nm 7 → nm.value = some (.text c.name)) ∧
    (HasType t 100 → ∀ pre nk post, t.elements = pre ++ nk :: post → HasType nk 800 → (∀ x ∈ pre, NoneInside x 6) →
      c.type = "Nack") ∧
    (HasType t 100 → ∀ pre fr p, t.elements = pre ++ [fr] → HasType fr 80 → fr.elements = [p] →
      (∀ x ∈ pre, NoneInside x 5 ∧ NoneInside x 6 ∧ NoneInside x 7 ∧ NoneInside x 800) →
      (HasType p 6 → c.type = "Data") ∧
      (HasType p 5 → NoneInside p 800 → c.type = "Interest") ∧
      (HasType p 5 ∨ HasType p 6 → ∀ nm rest, p.elements = nm :: rest → HasType nm 7 → nm.value = some (.text c.name))) := by
  have hmem : t ∈ Result.shown (dissector tvb n) := by rw [h]; exact List.mem_cons_self
  have g := (dissector_shown hmem).2.2.2
  have hparsed : ∀ x, Inside t x → x.elements ≠ [] → x.parsed = true := by
    intro x hx hne
    cases hp : x.parsed with
    | true => rfl
    | false => exact absurd ((g x hx).leaf hp) hne
  have hname : ∀ x, Inside t x → (HasType x 5 ∨ HasType x 6) → ∀ nm rest, x.elements = nm :: rest → HasType nm 7 →
      ∀ c0 : Cols, nm.value = some (.text ((trace x).foldl Cols.update c0).name) := by
    intro x hx h56 nm rest he h7 c0
    have hnm : Inside x nm := .child (by rw [he]; exact List.mem_cons_self) (.self _)
    obtain ⟨s, h1, -⟩ := (g nm (inside_trans hx hnm)).name_value h7
      (fun y hy => g y (inside_trans hx (inside_trans hnm (.child hy (.self _)))))
    rw [cols_name (hparsed x hx (by rw [he]; simp)) he
      (is_false (by rcases h56 with h | h <;> rw [h.1] <;> decide)) (is_iff.mpr h7) h1, h1]
  rw [dissector_cols h]
  refine ⟨fun h6 => cols_data h6 _, fun h5 h8 => cols_interest h5 h8 _ (by decide), ?_, ?_, ?_⟩
  · intro h56 nm rest he h7
    exact hname t (.self _) h56 nm rest he h7 _
  · intro h100 pre nk post he hk hpre
    exact cols_nack (hparsed t (.self _) (by rw [he]; simp)) he h100.1 hk hpre _
  · intro h100 pre fr p he hf hfe hpre
    have hfr : Inside t fr := .child (by rw [he]; simp) (.self _)
    have hpi : Inside t p := inside_trans hfr (.child (by rw [hfe]; simp) (.self _))
    rw [cols_lp (hparsed t (.self _) (by rw [he]; simp)) he h100.1 hf.1 (hparsed fr hfr (by rw [hfe]; simp)) hfe hpre]
    exact ⟨fun h6 => cols_data h6 _, fun h5 h8 => cols_interest h5 h8 _ (by decide),
      fun h56 nm rest he h7 => hname p hpi h56 nm rest he h7 _⟩

example : column (dissector exampleData 12) = some ("Data", ascii "/A") := by decide +kernel

-- an LpPacket with a Nack of reason 150 and an Interest
example : column (dissector [100, 18, 253, 3, 32, 5, 253, 3, 33, 1, 150, 80, 7, 5, 5, 7, 3, 8, 1, 65] 20) =
    some ("Nack", ascii "/A") := by decide +kernel

/-! ## C67: no access outside of the buffer -/

/-- No range outside of the buffer is ever asked for, whatever the buffer contains. -/
theorem C67_in_bounds (tvb : Bytes) (n : Nat) (shown : List Tree) : dissector tvb n ≠ .error shown .outOfRange := by
  intro h
  rcases dissector_ends tvb n with ⟨h1, -⟩ | ⟨-, b, -, -, -, -, ⟨-, h1⟩ | ⟨-, ⟨e, h1, he, -⟩ | ⟨t, -, ⟨-, h1⟩ |
    ⟨-, ⟨-, h1⟩ | ⟨b', -, ⟨-, h1⟩ | ⟨-, h1⟩⟩⟩⟩⟩⟩ <;> rw [h1] at h <;> cases h
  rcases he with h | h <;> cases h

/-- The bounds that the model needs to be defined are never reached. -/
theorem C67_bound (tvb : Bytes) (n : Nat) (shown : List Tree) : dissector tvb n ≠ .error shown .bound := by
  intro h
  rcases dissector_ends tvb n with ⟨h1, -⟩ | ⟨-, b, -, -, -, -, ⟨-, h1⟩ | ⟨-, ⟨e, h1, he, -⟩ | ⟨t, -, ⟨-, h1⟩ |
    ⟨-, ⟨-, h1⟩ | ⟨b', -, ⟨-, h1⟩ | ⟨-, h1⟩⟩⟩⟩⟩⟩ <;> rw [h1] at h <;> cases h
  rcases he with h | h <;> cases h

-- the element says 5 octets, but there are only 3: the value is not read
example : (match dissector [6, 5, 7, 5, 8, 1, 65] 7 with | .done [t] _ _ => t.parsed | _ => true) = false := by
  decide +kernel

/-! ## C68: errors -/

/-- The whole claim: no packet makes the dissector fail. -/
def C68_full : Prop := ∀ tvb n shown e, dissector tvb n ≠ .error shown e

/-- The error, if any. -/
def failure : Result → Option Err
  | .error _ e => some e
  | _ => none

/-- A valid Data packet: the name /A, the content 0A 00, and a DigestSha256 signature of 32 octets. -/
def exampleContent : Bytes :=
  [6, 48, 7, 3, 8, 1, 65, 0x15, 2, 10, 0, 0x16, 3, 0x1B, 1, 0, 0x17, 32] ++ List.replicate 32 7

example : List.length exampleContent = 50 := rfl

/-- The content 0A 00 looks like a Nonce without value: the dissector fails on a valid Data packet. -/
theorem C68_refuted : ¬ C68_full := by
  intro h
  have key : failure (dissector exampleContent 50) = some .badArgument := by decide +kernel
  cases hd : dissector exampleContent 50 with
  | ignored => rw [hd] at key; cases key
  | done _ _ _ => rw [hd] at key; cases key
  | error s e => exact h _ _ _ _ hd

/-- What holds: if it fails before anything is shown, then something that it reads as an element is one that it cannot show;
otherwise the packet that was shown is followed by another one. -/
theorem C68_errors_partial {tvb : Bytes} {n : Nat} {shown : List Tree} {e : Err} (h : dissector tvb n = .error shown e) :
    (shown = [] ∧ ∃ b c, PacketHeader tvb b ∧ Reached tvb b c ∧ Bad c) ∨
    (∃ t b, shown = [t] ∧ e = .nilIndex ∧ PacketHeader tvb b ∧ b.offset = endOf t.block) := by
  rcases dissector_ends tvb n with ⟨h1, -⟩ | ⟨-, b, hb, -, -, -, ⟨-, h1⟩ | ⟨-, ⟨e', h1, he, c, hc⟩ | ⟨t, ht, ⟨-, h1⟩ |
    ⟨-, ⟨-, h1⟩ | ⟨b', hb', ⟨hv, h1⟩ | ⟨-, h1⟩⟩⟩⟩⟩⟩ <;> rw [h1] at h <;> cases h
  · exact .inl ⟨rfl, b, c, hb, hc⟩
  · right
    obtain ⟨h2, h3⟩ := packetHeader_of hb' hv
    exact ⟨t, b', rfl, rfl, h3, by rw [h2, ht]; rfl⟩

-- and the same with other contents: no failure
example : failure (dissector ([6, 48, 7, 3, 8, 1, 65, 0x15, 2, 1, 0, 0x16, 3, 0x1B, 1, 0, 0x17, 32] ++
    List.replicate 32 7) 50) = none := by decide +kernel

/-! ## C69: packets found -/

/-- The whole claim: if the buffer consists of packets, each in the shortest encoding, then each is shown. -/
def C69_full : Prop :=
  ∀ (tvb : Bytes) (xs : List Verif.Block), tvb = (xs.map Block.encode).flatten →
    (∀ x ∈ xs, (x.type = 5 ∨ x.type = 6 ∨ x.type = 100) ∧ x.value.length ≤ 8800) →
    (Result.shown (dissector tvb tvb.length)).map (fun t => (⟨t.block.type, valueOf tvb t.block⟩ : Verif.Block)) = xs

/-- Never more than one packet is shown. -/
theorem C69_at_most_one (tvb : Bytes) (n : Nat) : (Result.shown (dissector tvb n)).length ≤ 1 := by
  cases h : Result.shown (dissector tvb n) with
  | nil => simp
  | cons t l =>
    have := (dissector_shown (tvb := tvb) (n := n) (t := t) (by rw [h]; exact List.mem_cons_self)).1
    rw [this] at h
    cases h
    simp

/-- Of two packets in the buffer, only the first is shown. -/
theorem C69_refuted : ¬ C69_full := by
  intro h
  have := h (exampleData ++ exampleData) [⟨6, [7, 3, 8, 1, 65, 0x15, 3, 1, 2, 3]⟩, ⟨6, [7, 3, 8, 1, 65, 0x15, 3, 1, 2, 3]⟩]
    (by decide) (by decide)
  have h2 := congrArg List.length this
  rw [List.length_map] at h2
  have := C69_at_most_one (exampleData ++ exampleData) (exampleData ++ exampleData).length
  rw [h2] at this
  exact absurd this (by decide)

example : failure (dissector (exampleData ++ exampleData) 24) = some .nilIndex := by decide +kernel

/-- What holds: the first packet is shown if it is entirely in the buffer, its value is not empty, and there is nothing in it that
the dissector cannot show. -/
theorem C69_first_partial {tvb : Bytes} {b : Block} (hb : PacketHeader tvb b) (h1 : NoneBefore tvb b.offset)
    (hl : 0 < b.length) (he : endOf b ≤ tvb.length) (hok : ∀ c, Reached tvb b c → ¬ Bad c) :
    ∃ t, Result.shown (dissector tvb tvb.length) = [t] ∧ t.block.offset = b.offset ∧ t.block.type = b.type ∧
      t.block.length = b.length ∧ valueOf tvb t.block = valueOf tvb b := by
  have hr : b.offset + b.typeLen + b.lengthLen < tvb.length := by unfold endOf at he; omega
  obtain ⟨f1, f2, f3⟩ := dissector_first rfl hb hr h1
  have hplain : endOf b.plain = endOf b := rfl
  rcases dissector_ends tvb tvb.length with ⟨-, h2 | h2⟩ | ⟨-, c, hc, c1, c2, c3, c4⟩
  · exact absurd rfl h2
  · exact absurd (h2 b hb hr) id
  · have hoff : c.offset = b.offset := by
      have := h1 c hc
      have := c1 b hb hr
      omega
    rw [hoff, getBlock_of_header hb.1 hr] at c2
    cases c2
    have hplain : endOf b.plain = endOf b := rfl
    have hshown : ∀ t : Tree, t.block = { b.plain with tree := true } → t.block.offset = b.offset ∧ t.block.type = b.type ∧
        t.block.length = b.length ∧ valueOf tvb t.block = valueOf tvb b := by
      intro t ht; rw [ht]; exact ⟨rfl, rfl, rfl, rfl⟩
    rcases c4 with ⟨h2, -⟩ | ⟨-, ⟨e', -, -, d, d1, d2⟩ | ⟨t, ht, h2⟩⟩
    · omega
    · rcases reached_plain d1 with rfl | d1
      · exact absurd d2 (hok b .root)
      · exact absurd d2 (hok d d1)
    · refine ⟨t, ?_, hshown t ht⟩
      rcases h2 with ⟨-, h2⟩ | ⟨-, ⟨-, h2⟩ | ⟨b', -, ⟨-, h2⟩ | ⟨-, h2⟩⟩⟩ <;> rw [h2] <;> rfl

example : PacketHeader exampleData ⟨0, 6, 1, 10, 1, false⟩ ∧ endOf ⟨0, 6, 1, 10, 1, false⟩ = 12 :=
  ⟨⟨⟨[6], [10], exampleData.drop 2, by decide, .inl ⟨6, rfl, rfl, by decide⟩, .inl ⟨10, rfl, rfl, by decide⟩, rfl, rfl⟩,
    .inr (.inl rfl), by decide, by decide⟩, rfl⟩

/-- Nothing is shown for a buffer that was not captured entirely or that has no packet; and only then. -/
theorem C69_ignored (tvb : Bytes) (n : Nat) :
    (dissector tvb n = .ignored → tvb.length ≠ n ∨
      ∀ b, PacketHeader tvb b → tvb.length ≤ b.offset + b.typeLen + b.lengthLen) ∧
    (tvb.length ≠ n ∨ (∀ b, ¬ PacketHeader tvb b) → dissector tvb n = .ignored) := by
  constructor
  · intro h
    rcases dissector_ends tvb n with ⟨-, h1 | h1⟩ | ⟨-, b, -, -, -, -, ⟨-, h1⟩ | ⟨-, ⟨e, h1, -⟩ | ⟨t, -, ⟨-, h1⟩ |
      ⟨-, ⟨-, h1⟩ | ⟨b', -, ⟨-, h1⟩ | ⟨-, h1⟩⟩⟩⟩⟩⟩
    · exact .inl h1
    · right
      intro b hb
      exact Nat.le_of_not_lt (fun hr => h1 b hb hr)
    all_goals rw [h1] at h; cases h
  · intro h
    rcases dissector_ends tvb n with ⟨h1, -⟩ | ⟨hn, b, hb, -⟩
    · exact h1
    · rcases h with h | h
      · exact absurd hn h
      · exact absurd hb (h b)

/-! ## C70: packets that are split over several segments -/

/-- The offset from which on more data is requested. -/
def requested : Result → Option Nat
  | .done _ _ d => d
  | _ => none

/-- The whole claim: if the buffer consists of packets and the beginning of one more (at least type and length, and something),
then more data is requested, from the beginning of that packet on; and nothing is requested if the buffer is a packet and
something that is not a packet. -/
def C70_full : Prop :=
  (∀ (tvb : Bytes) (xs : List Verif.Block) (y : Verif.Block) (k : Nat),
    (∀ x ∈ y :: xs, (x.type = 5 ∨ x.type = 6 ∨ x.type = 100) ∧ x.value.length ≤ 8800) →
    5 ≤ k → k < y.encode.length → tvb = (xs.map Block.encode).flatten ++ y.encode.take k →
    requested (dissector tvb tvb.length) = some (xs.map Block.encode).flatten.length) ∧
  (∀ (tvb : Bytes) (d : Nat), requested (dissector tvb tvb.length) = some d → ∃ b, PacketHeader tvb b ∧ b.offset = d)

/-- After a complete packet, the beginning of the next one makes the dissector fail. -/
theorem C70_refuted : ¬ C70_full := by
  intro h
  have := h.1 (exampleData ++ exampleData.take 5) [⟨6, [7, 3, 8, 1, 65, 0x15, 3, 1, 2, 3]⟩]
    ⟨6, [7, 3, 8, 1, 65, 0x15, 3, 1, 2, 3]⟩ 5 (by decide) (by decide) (by decide) (by decide)
  have h2 : requested (dissector (exampleData ++ exampleData.take 5) (exampleData ++ exampleData.take 5).length) = none := by
    decide +kernel
  rw [h2] at this
  cases this

/-- And after a packet, two octets that cannot be a packet make it wait for more data. -/
theorem C70_refuted_junk : ¬ ∀ (tvb : Bytes) (d : Nat), requested (dissector tvb tvb.length) = some d →
    ∃ b, PacketHeader tvb b ∧ b.offset = d := by
  intro h
  obtain ⟨b, ⟨⟨t, l, r, e, ht, -⟩, hb, -⟩, ho⟩ := h (exampleData ++ [1, 200]) 12 (by decide +kernel)
  rw [ho] at e
  have e' : [(1 : UInt8), 200] = t ++ l ++ r := e
  rcases ht with ⟨x, rfl, h1, h2⟩ | ⟨x, rfl, h1, h2⟩ | ⟨x, rfl, h1, h2⟩ | ⟨x, rfl, h1, h2⟩
  · rw [List.singleton_append, List.cons_append] at e'
    rw [← (List.cons.inj e').1] at h1
    rw [← h1] at hb
    exact absurd hb (by decide)
  all_goals (rw [List.cons_append, List.cons_append] at e'; exact absurd (List.cons.inj e').1 (by decide))

/-- What holds: if the first packet is not complete, more data is requested from its beginning on, and nothing is shown. -/
theorem C70_incomplete_partial {tvb : Bytes} {b : Block} (hb : PacketHeader tvb b) (h1 : NoneBefore tvb b.offset)
    (hr : b.offset + b.typeLen + b.lengthLen < tvb.length) (he : tvb.length < endOf b) :
    dissector tvb tvb.length = .done [] {} (some b.offset) := by
  rcases dissector_ends tvb tvb.length with ⟨-, h2 | h2⟩ | ⟨-, c, hc, c1, c2, c3, c4⟩
  · exact absurd rfl h2
  · exact absurd (h2 b hb hr) id
  · have hoff : c.offset = b.offset := by
      have := h1 c hc
      have := c1 b hb hr
      omega
    rw [hoff, getBlock_of_header hb.1 hr] at c2
    cases c2
    have hplain : endOf b.plain = endOf b := rfl
    rcases c4 with ⟨-, h2⟩ | ⟨h2, -⟩
    · exact h2
    · omega

example : requested (dissector (exampleData.take 5) 5) = some 0 := by decide +kernel

/-- More data is requested only if the first packet is not complete, or if what follows it, though not a packet, is not complete
when it is read as an element. -/
theorem C70_requested_partial {tvb : Bytes} {n : Nat} {shown : List Tree} {c : Cols} {d : Nat}
    (h : dissector tvb n = .done shown c (some d)) :
    (shown = [] ∧ ∃ b, PacketHeader tvb b ∧ b.offset = d ∧ tvb.length < endOf b) ∨
    (∃ t b, shown = [t] ∧ endOf t.block = d ∧ d < tvb.length ∧ HasHeader tvb b ∧ b.offset = d ∧ ¬ PacketHeader tvb b ∧
      tvb.length < endOf b) := by
  rcases dissector_ends tvb n with ⟨h1, -⟩ | ⟨-, b, hb, -, -, -, ⟨hl, h1⟩ | ⟨-, ⟨e', h1, he, c, hc⟩ | ⟨t, ht, ⟨-, h1⟩ |
    ⟨hlt, ⟨-, h1⟩ | ⟨b', hb', ⟨hv, h1⟩ | ⟨hv, h1⟩⟩⟩⟩⟩⟩ <;> rw [h1] at h
  · cases h
  · cases h; exact .inl ⟨rfl, b, hb, rfl, hl⟩
  · cases h
  · cases h
  · cases h
  · cases h
  · right
    by_cases hgt : b'.size > tvb.length - endOf b
    · rw [if_pos hgt] at h
      cases h
      obtain ⟨o1, o2⟩ := getBlock_header hb'
      have het : endOf t.block = endOf b := by rw [ht]; rfl
      refine ⟨t, b', rfl, het, hlt, o2, o1, ?_, ?_⟩
      · intro hph
        rw [(valid_iff b').mpr ⟨hph.2.1, hph.2.2.1, hph.2.2.2⟩] at hv
        cases hv
      · have : b'.size ≤ b'.typeLen + b'.lengthLen + b'.length := by
          unfold Block.size
          split
          · exact Nat.mod_le _ _
          · exact Nat.le_refl _
        unfold endOf at hgt hlt o1 ⊢
        omega
    · rw [if_neg hgt] at h
      cases h

/-! ## C71: values -/

/-- Numbers are shown as they are: the big-endian value of 1, 2, 4 or 8 octets, and 2^64 - 1 if the length is not allowed; Nonce
and HopLimit likewise. -/
theorem C71_numbers {tvb : Bytes} {n : Nat} {t x : Tree} (ht : t ∈ Result.shown (dissector tvb n)) (hx : Inside t x) :
    (∀ k ∈ numberTypes, HasType x k →
      ((x.block.length = 1 ∨ x.block.length = 2 ∨ x.block.length = 4 ∨ x.block.length = 8) →
        x.value = some (.object (beNat (valueOf tvb x.block)))) ∧
      (¬ (x.block.length = 1 ∨ x.block.length = 2 ∨ x.block.length = 4 ∨ x.block.length = 8) →
        x.value = some (.object (2 ^ 64 - 1)))) ∧
    (HasType x 10 → x.block.length = 4 ∧ x.value = some (.num (beNat (valueOf tvb x.block)))) ∧
    (HasType x 34 → x.block.length = 1 ∧ x.value = some (.num (beNat (valueOf tvb x.block)))) := by
  have g := (dissector_shown ht).2.2.2 x hx
  refine ⟨?_, ?_, ?_⟩
  · intro k hk h
    rw [g.number_value h hk]
    exact ⟨fun hl => by rw [if_pos hl], fun hl => by rw [if_neg hl]⟩
  · intro h
    exact g.fixed_value h (f := .nonce) (fld := .uint32) (len := 4) (name := "Nonce") (by decide) (.inl ⟨rfl, rfl, rfl⟩)
  · intro h
    exact g.fixed_value h (f := .hopLimit) (fld := .uint8) (len := 1) (name := "HopLimit") (by decide) (.inr ⟨rfl, rfl, rfl⟩)

/-- The reason of a Nack and the cache policy are shown by their names. -/
theorem C71_names {tvb : Bytes} {n : Nat} {t x : Tree} (ht : t ∈ Result.shown (dissector tvb n)) (hx : Inside t x)
    (hl : x.block.length = 1 ∨ x.block.length = 2 ∨ x.block.length = 4 ∨ x.block.length = 8) :
    (HasType x 801 → x.value = some (.text (match beNat (valueOf tvb x.block) with
      | 0 => text "None" | 50 => text "Congestion" | 100 => text "Duplicate" | 150 => text "NoRoute" | k => decimal k))) ∧
    (HasType x 821 → x.value = some (.text (match beNat (valueOf tvb x.block) with
      | 0 => text "None" | 1 => text "NoCache" | k => decimal k ++ text " (unknown)"))) := by
  have g := (dissector_shown ht).2.2.2 x hx
  have hk : getNonNegativeInteger tvb x.block = .ok (beNat (valueOf tvb x.block)) := by
    unfold getNonNegativeInteger
    rw [if_pos hl, uint_ok g.start_le]
    rfl
  constructor
  · intro h
    obtain ⟨v, h1, h2⟩ := g.value_of h (i := ⟨"NackReason", some .string, some .nackReason⟩) (by decide) rfl
    simp only [Fmt.value, hk] at h1
    cases h1
    rw [h2]
    generalize beNat (valueOf tvb x.block) = k
    congr 2
    split
    · decide +kernel
    · decide +kernel
    · decide +kernel
    · decide +kernel
    · rename_i a b c d
      dsimp only
      rw [if_neg a, if_neg b, if_neg c, if_neg d]
  · intro h
    obtain ⟨v, h1, h2⟩ := g.value_of h (i := ⟨"CachePolicyType", some .string, some .cachePolicy⟩) (by decide) rfl
    simp only [Fmt.value, hk] at h1
    cases h1
    rw [h2]
    generalize beNat (valueOf tvb x.block) = k
    congr 2
    split
    · decide +kernel
    · decide +kernel
    · rename_i a b
      dsimp only
      rw [if_neg a, if_neg b]
      have : ascii " (unknown)" = text " (unknown)" := by decide +kernel
      rw [this]

/-- The values of the first level. -/
def shownValues (r : Result) : List (Option Val) := (Result.shown r).flatMap fun t => t.elements.map Tree.value

-- an Interest with a Nonce and a lifetime of 4000 ms
example : shownValues (dissector [5, 15, 7, 3, 8, 1, 65, 10, 4, 0, 0, 1, 2, 12, 2, 15, 160] 17) =
    [some (.text (ascii "/A")), some (.num 258), some (.object 4000)] := by decide +kernel

end Verif.Wireshark
