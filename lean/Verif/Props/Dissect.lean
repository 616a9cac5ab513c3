import Verif.Proofs.DissectTree

/-! # C40 to C43: TLV elements and ndn-dissect -/

namespace Verif.Dissect

/-- **C40 (reading)** A block is read from a byte string exactly if the byte string starts with an encoding of it in the sense
of the packet format, with numbers of any width, and the bytes after this encoding are left. From a stream the same holds
for elements up to the size limit of ndn-cxx. -/
theorem C40_read_iff (s : Bytes) (b : Block) (r : Bytes) :
    (readBlock s = .ok (b, r) ↔ ∃ e, IsElement b.type b.value e ∧ s = e ++ r) ∧
    (fromStream s = some (b, r) ↔ b.size ≤ 8800 ∧ ∃ e, IsElement b.type b.value e ∧ s = e ++ r) :=
  ⟨readBlock_iff s b r, fromStream_iff s b r⟩

/-- **C40 (round trip)** Encoding a block and reading it back gives the same block and leaves exactly the following bytes.
The encoding has as many bytes as `size` says, and no encoding is shorter. -/
theorem C40_roundtrip {b : Block} (h1 : 1 ≤ b.type) (h2 : b.type < 2 ^ 32) (h3 : b.value.length < 2 ^ 64) (r : Bytes) :
    readBlock (b.encode ++ r) = .ok (b, r) ∧ fromBuffer (b.encode ++ r) = some b ∧
    (b.size ≤ 8800 → fromStream (b.encode ++ r) = some (b, r)) ∧
    b.encode.length = b.size ∧ ∀ e, IsElement b.type b.value e → b.encode.length ≤ e.length := by
  have he := isElement_encode (b := b) ⟨h1, h2, h3⟩
  have hr : readBlock (b.encode ++ r) = .ok (b, r) := (readBlock_iff _ _ _).mpr ⟨_, he, rfl⟩
  refine ⟨hr, ?_, fun hs => (fromStream_iff _ _ _).mpr ⟨hs, _, he, rfl⟩, length_encode b, ?_⟩
  · unfold fromBuffer; rw [hr]
  · rintro e ⟨_, _, t, l, ht, hl, rfl⟩
    rw [length_encode]
    unfold Block.size
    have := sizeOfVarNumber_le ht
    have := sizeOfVarNumber_le hl
    simp only [List.length_append]
    omega

/-- Encodings of a block with a type number of five bytes and a length of three bytes. -/
example : Block.encode ⟨70000, List.replicate 300 1⟩ = [254, 0, 1, 17, 112, 253, 1, 44] ++ List.replicate 300 1 := by
  decide +kernel

/-- The same small block in a longer encoding, followed by other bytes. -/
example : readBlock [253, 0, 8, 253, 0, 1, 65, 9, 9] = .ok (⟨8, [65]⟩, [9, 9]) := by decide

/-- All elements of the forest are within the size limit of ndn-cxx for elements read from a stream. -/
def Small (f : List Tree) : Prop := ∀ t ∈ f, Block.size ⟨t.type, t.value⟩ ≤ 8800

/-- No element can be read at the start of the byte string. -/
def Malformed (b : Bytes) : Prop :=
  b ≠ [] ∧ ¬ ∃ t v e r, IsElement t v e ∧ Block.size ⟨t, v⟩ ≤ 8800 ∧ b = e ++ r

theorem dissectLoop_encodings (o : Opts) : ∀ (f : List Tree) (es : List Bytes), Encodings f es → Small f →
    (∀ t ∈ f, Fits o t) → ∀ (off : Nat) (out : List Line) (rest : Bytes),
    dissectLoop o off { out := out } (es.flatten ++ rest) =
      dissectLoop o (off + (f.map fun t => Block.size ⟨t.type, t.value⟩).sum) { out := out ++ topLines f } rest := by
  intro f
  induction f with
  | nil =>
    intro es h _ _ off out rest
    cases es with
    | nil => simp [topLines]
    | cons => cases h
  | cons t ts ih =>
    intro es h hs hf off out rest
    cases es with
    | nil => cases h
    | cons e es =>
      obtain ⟨h1, h2⟩ := h
      have hr : fromStream ((e :: es).flatten ++ rest) = some (t.block, es.flatten ++ rest) :=
        (fromStream_iff _ _ _).mpr ⟨hs t (by simp), e, h1, by simp⟩
      have hne : (e :: es).flatten ++ rest ≠ [] := by
        intro h; rw [h] at hr; cases hr
      rw [dissectLoop, if_neg hne]
      split
      · rename_i h3; rw [hr] at h3; cases h3
      · rename_i h3
        rw [hr] at h3; cases h3
        rw [printBlock_lines (hf t (by simp)) (t.block.value.length + 1) (Nat.lt_succ_self _)]
        dsimp only
        rw [ih es h2 (fun x hx => hs x (List.mem_cons_of_mem _ hx)) (fun x hx => hf x (List.mem_cons_of_mem _ hx))]
        unfold topLines
        simp [Tree.block, Nat.add_assoc]

/-- **C41** For an input that is a sequence of elements, ndn-dissect reports no error, and prints the line of every element
of the input, at any depth, exactly once and in document order. Missing from the full claim: if `Block::parse` of ndn-cxx keeps
elements read before a wrong header, values that start with an element but go on with a wrong header, see
`C41_kept_refuted`. -/
theorem C41_lines_partial {o : Opts} {f : List Tree} {es : List Bytes} (h : Encodings f es) (hs : Small f)
    (hf : ∀ t ∈ f, Fits o t) :
    (dissect o es.flatten).error = none ∧ Shows f (dissect o es.flatten).out := by
  have := dissectLoop_encodings o f es h hs hf 0 [] []
  rw [List.append_nil] at this
  unfold dissect
  rw [this, dissectLoop, if_pos rfl]
  exact ⟨rfl, by simpa using shows_topLines f⟩

/-- **C42** For every element of the input, its line has one branch symbol for each level below the top. The last symbol is a
tee if a sibling of the element follows, otherwise a corner; the symbol of an earlier level is a bar if a sibling of the
ancestor at this level follows, otherwise blank. -/
theorem C42_branches {o : Opts} {f : List Tree} {es : List Bytes} (h : Encodings f es) (hs : Small f)
    (hf : ∀ t ∈ f, Fits o t) {p : List Nat} {t : Tree} (hp : at? f p = some t) :
    ∃ l ∈ (dissect o es.flatten).out, l.type = t.type ∧ l.size = t.value.length ∧ l.glyphs.length + 1 = p.length ∧
      ∀ q i r, q ≠ [] → p = q ++ i :: r →
        l.glyphs[q.length - 1]? = some (match r, (at? f (q ++ [i + 1])).isSome with
          | [], true => .verticalAndRight
          | [], false => .upAndRight
          | _ :: _, true => .vertical
          | _ :: _, false => .space) := by
  obtain ⟨ps, _, h2, h3⟩ := (C41_lines_partial h hs hf).2
  have hpn : p ≠ [] := by rintro rfl; simp [at?] at hp
  have hpl : 0 < p.length := List.length_pos_iff.mpr hpn
  refine ⟨lineAt f p t, ?_, rfl, rfl, ?_, ?_⟩
  · rw [h3]
    exact List.mem_map.mpr ⟨(p, t), (h2 p t).mpr hp, rfl⟩
  · unfold lineAt glyphsAt
    simp; omega
  · rintro q i r hq rfl
    have hql : 0 < q.length := List.length_pos_iff.mpr hq
    unfold lineAt glyphsAt
    dsimp only
    have hk : q.length - 1 < (q ++ i :: r).length - 1 := by simp; omega
    rw [List.getElem?_map, List.getElem?_range hk]
    have hmore : more f (q ++ [i]) = (at? f (q ++ [i + 1])).isSome := by
      unfold more
      rw [List.getLast?_concat]
      dsimp only
      rw [List.dropLast_concat]
    cases r with
    | nil =>
      have e1 : q.length - 1 + 2 = (q ++ [i]).length := by simp; omega
      simp only [Option.map_some, if_pos e1, hmore]
      cases (at? f (q ++ [i + 1])).isSome <;> rfl
    | cons j r =>
      have e1 : ¬ (q.length - 1 + 2 = (q ++ i :: j :: r).length) := by simp; omega
      have e2 : (q ++ i :: j :: r).take (q.length - 1 + 2) = q ++ [i] := by
        have : q ++ i :: j :: r = (q ++ [i]) ++ (j :: r) := by simp
        rw [this, List.take_left' (by simp; omega)]
      simp only [Option.map_some, if_neg e1, e2, hmore]
      cases (at? f (q ++ [i + 1])).isSome <;> rfl

/-- **C43** If the input consists of elements in their shortest encodings followed by bytes at which no element can be read,
all elements are printed and the reported offset is the number of bytes before the bad ones. Missing from the full claim:
encodings that are not the shortest, see `C43_refuted`. -/
theorem C43_offset_partial {o : Opts} {f : List Tree} {rest : Bytes} (hs : Small f) (hf : ∀ t ∈ f, Fits o t)
    (hv : ∀ t ∈ f, 1 ≤ t.type ∧ t.type < 2 ^ 32) (hr : Malformed rest) :
    let input := f.flatMap fun t => Block.encode ⟨t.type, t.value⟩
    (dissect o (input ++ rest)).error = some input.length ∧ Shows f (dissect o (input ++ rest)).out := by
  intro input
  have enc : ∀ f : List Tree, Small f → (∀ t ∈ f, 1 ≤ t.type ∧ t.type < 2 ^ 32) →
      Encodings f (f.map fun t => Block.encode ⟨t.type, t.value⟩) := by
    intro f
    induction f with
    | nil => intro _ _; trivial
    | cons t f ih =>
      intro hs hv
      refine ⟨isElement_encode (b := ⟨t.type, t.value⟩) ⟨(hv t (by simp)).1, (hv t (by simp)).2, ?_⟩,
        ih (fun x hx => hs x (List.mem_cons_of_mem _ hx)) (fun x hx => hv x (List.mem_cons_of_mem _ hx))⟩
      have := hs t (by simp)
      unfold Block.size at this
      dsimp only at this ⊢
      omega
  have hin : input = (f.map fun t => Block.encode ⟨t.type, t.value⟩).flatten := List.flatMap_def
  have hsum : (f.map fun t => Block.size ⟨t.type, t.value⟩).sum = input.length := by
    rw [hin, List.length_flatten, List.map_map]
    congr 1
    apply List.map_congr_left
    intro t _
    exact (length_encode _).symm
  have hl := dissectLoop_encodings o f _ (enc f hs hv) hs hf 0 [] rest
  rw [← hin, hsum, Nat.zero_add] at hl
  have hn : fromStream rest = none := by
    cases h : fromStream rest with
    | none => rfl
    | some p =>
      obtain ⟨b, r⟩ := p
      obtain ⟨h1, e, h2, h3⟩ := (fromStream_iff _ _ _).mp h
      exact absurd ⟨b.type, b.value, e, r, h2, h1, h3⟩ hr.2
  unfold dissect
  rw [hl, dissectLoop, if_neg hr.1]
  split
  · exact ⟨rfl, by simpa using shows_topLines f⟩
  · rename_i h3; rw [hn] at h3; cases h3

/-- In `dissectLoop`, the case of a bad input. -/
theorem dissectLoop_bad {o : Opts} {off : Nat} {s : St} {input : Bytes} (hi : input ≠ []) (h : fromStream input = none) :
    dissectLoop o off s input = ⟨s.out, some off⟩ := by
  rw [dissectLoop, if_neg hi]
  split
  · rfl
  · rename_i h3; rw [h] at h3; cases h3

theorem dissectLoop_good {o : Opts} {off : Nat} {s : St} {input : Bytes} {b r} (h : fromStream input = some (b, r)) :
    dissectLoop o off s input = dissectLoop o (off + b.size) (printBlock o (b.value.length + 1) s b) r := by
  have hi : input ≠ [] := by rintro rfl; cases h
  rw [dissectLoop, if_neg hi]
  split
  · rename_i h3; rw [h] at h3; cases h3
  · rename_i h3; rw [h] at h3; cases h3; rfl

/-- **C43 refuted** For numbers that are not in the shortest encoding, the offset is too small: here the bad byte is at offset
4 and offset 2 is reported. -/
theorem C43_refuted : ∃ (f : List Tree) (es : List Bytes) (rest : Bytes), Encodings f es ∧ Small f ∧
    (∀ o, ∀ t ∈ f, Fits o t) ∧ Malformed rest ∧ es.flatten.length = 4 ∧
    ∀ o, (dissect o (es.flatten ++ rest)).error = some 2 := by
  have hf : ∀ o, ∀ t ∈ [Tree.mk 8 [] []], Fits o t := by
    intro o t ht
    rw [List.mem_singleton.mp ht]
    refine Fits.leaf (Or.inr ?_)
    intro ts es rest he hts hv
    exfalso
    have h0 : es.flatten = [] := (List.append_eq_nil_iff.mp hv.symm).1
    obtain ⟨t, ts, rfl⟩ := List.exists_cons_of_ne_nil hts
    have := he.length_lt t (by simp)
    rw [h0] at this
    simp at this
  have henc : Encodings [Tree.mk 8 [] []] [[253, 0, 8, 0]] :=
    ⟨⟨by decide, by decide, [253, 0, 8], [0], Or.inr (Or.inl ⟨[0, 8], rfl, rfl, rfl⟩),
      Or.inl ⟨0, rfl, rfl, by decide⟩, rfl⟩, trivial⟩
  have hsm : Small [Tree.mk 8 [] []] := by
    intro t ht; rw [List.mem_singleton.mp ht]; decide
  have hbad : fromStream [0] = none := by decide
  refine ⟨[.mk 8 [] []], [[253, 0, 8, 0]], [0], henc, hsm, hf, ⟨by simp, ?_⟩, rfl, ?_⟩
  · rintro ⟨t, v, e, r, h1, h2, h3⟩
    have := (fromStream_iff [0] ⟨t, v⟩ r).mpr ⟨h2, e, h1, h3⟩
    rw [hbad] at this; cases this
  · intro o
    unfold dissect
    rw [dissectLoop_encodings o _ _ henc hsm (hf o), dissectLoop_bad (by simp) hbad]
    rfl

private theorem size_le {t : Tree} {e : Bytes} (h : IsElement t.type t.value e) : Block.size ⟨t.type, t.value⟩ ≤ e.length := by
  obtain ⟨_, _, a, b, ha, hb, rfl⟩ := h
  have h1 := sizeOfVarNumber_le ha
  have h2 := sizeOfVarNumber_le hb
  simp only [Block.size, List.length_append]
  omega

private theorem sizes_le : ∀ (f : List Tree) (es : List Bytes), Encodings f es →
    (f.map fun t => Block.size ⟨t.type, t.value⟩).sum ≤ es.flatten.length ∧
    ((f.map fun t => Block.size ⟨t.type, t.value⟩).sum = es.flatten.length ↔
      ∀ (i : Nat) (t : Tree) (e : Bytes), f[i]? = some t → es[i]? = some e → Block.size ⟨t.type, t.value⟩ = e.length) := by
  intro f
  induction f with
  | nil =>
    intro es h
    cases es with
    | nil => simp
    | cons e es => exact h.elim
  | cons t f ih =>
    intro es h
    cases es with
    | nil => exact h.elim
    | cons e es =>
      obtain ⟨h1, h2⟩ := h
      obtain ⟨g1, g2⟩ := ih es h2
      have h3 := size_le h1
      simp only [List.map_cons, List.sum_cons, List.flatten_cons, List.length_append]
      refine ⟨by omega, fun he => ?_, fun hall => ?_⟩
      · have e1 : Block.size ⟨t.type, t.value⟩ = e.length := by omega
        have e2 := g2.1 (by omega)
        intro i t' e' hi hj
        cases i with
        | zero =>
          simp only [List.getElem?_cons_zero, Option.some.injEq] at hi hj
          subst hi hj
          exact e1
        | succ i =>
          simp only [List.getElem?_cons_succ] at hi hj
          exact e2 i t' e' hi hj
      · have e1 := hall 0 t e rfl rfl
        have e2 := g2.2 fun i t' e' hi hj => hall (i + 1) t' e' (by simpa using hi) (by simpa using hj)
        omega

/-- **C43 (exactly when)** For elements in any encodings, followed by bytes at which no element can be read, all elements are printed. The
reported offset is never too large; it is the number of bytes before the bad ones if and only if no element has a shorter encoding. -/
theorem C43_exactly_when {o : Opts} {f : List Tree} {es : List Bytes} {rest : Bytes} (he : Encodings f es) (hs : Small f)
    (hf : ∀ t ∈ f, Fits o t) (hr : Malformed rest) :
    Shows f (dissect o (es.flatten ++ rest)).out ∧
    ∃ n, (dissect o (es.flatten ++ rest)).error = some n ∧ n ≤ es.flatten.length ∧
      (n = es.flatten.length ↔ ∀ (i : Nat) (t : Tree) (e e' : Bytes), f[i]? = some t → es[i]? = some e →
        IsElement t.type t.value e' → e.length ≤ e'.length) := by
  have hn : fromStream rest = none := by
    cases h : fromStream rest with
    | none => rfl
    | some p =>
      obtain ⟨b, r⟩ := p
      obtain ⟨h1, e, h2, h3⟩ := (fromStream_iff _ _ _).mp h
      exact absurd ⟨b.type, b.value, e, r, h2, h1, h3⟩ hr.2
  have hd : dissect o (es.flatten ++ rest) = ⟨[] ++ topLines f, some (0 + (f.map fun t => Block.size ⟨t.type, t.value⟩).sum)⟩ := by
    unfold dissect
    rw [dissectLoop_encodings o f es he hs hf 0 [] rest, dissectLoop_bad hr.1 hn]
  obtain ⟨g1, g2⟩ := sizes_le f es he
  have hget : ∀ (f : List Tree) (es : List Bytes), Encodings f es → ∀ (i : Nat) (t : Tree) (e : Bytes), f[i]? = some t → es[i]? = some e →
      IsElement t.type t.value e := by
    intro f
    induction f with
    | nil => intro es _ i t e hi; simp at hi
    | cons x f ih =>
      intro es h i t e hi hj
      cases es with
      | nil => exact h.elim
      | cons y es =>
        cases i with
        | zero =>
          simp only [List.getElem?_cons_zero, Option.some.injEq] at hi hj
          subst hi hj
          exact h.1
        | succ i =>
          simp only [List.getElem?_cons_succ] at hi hj
          exact ih es h.2 i t e hi hj
  rw [hd]
  refine ⟨by simpa using shows_topLines f, _, rfl, by simpa using g1, ?_⟩
  rw [Nat.zero_add, g2]
  refine ⟨fun h i t e e' hi hj hel => ?_, fun h i t e hi hj => ?_⟩
  · rw [← h i t e hi hj]
    exact size_le hel
  · have hel := hget f es he i t e hi hj
    refine Nat.le_antisymm (size_le hel) ?_
    have hv : Block.Valid ⟨t.type, t.value⟩ := by
      refine ⟨hel.1, hel.2.1, ?_⟩
      have := hs t (List.mem_of_getElem? hi)
      unfold Block.size at this
      dsimp only at this ⊢
      omega
    have := h i t e _ hi hj (isElement_encode hv)
    rwa [length_encode] at this

/-- Two elements `08 00`, the second with its type in three bytes, and a bad byte at offset 6: offset 4 is reported. -/
example : ∀ o, (dissect o ([8, 0, 253, 0, 8, 0] ++ [0])).error = some 4 := by
  intro o
  unfold dissect
  rw [dissectLoop_good (b := ⟨8, []⟩) (r := [253, 0, 8, 0, 0]) (by decide), dissectLoop_good (b := ⟨8, []⟩) (r := [0]) (by decide),
    dissectLoop_bad (by decide) (by decide)]
  rfl

/-- If ndn-cxx forgets the elements when a block cannot be parsed, every block has a tree. -/
theorem exists_tree {o : Opts} (hk : o.keep = false) : ∀ (n : Nat) (b : Block), b.value.length ≤ n →
    ∃ t : Tree, t.block = b ∧ Fits o t := by
  intro n
  induction n with
  | zero =>
    intro b hb
    have : b.value = [] := List.length_eq_zero_iff.mp (by omega)
    refine ⟨.mk b.type b.value [], rfl, Fits.leaf (Or.inr ?_)⟩
    intro ts es rest he hts hv
    exfalso
    rw [this] at hv
    have h0 : es.flatten = [] := (List.append_eq_nil_iff.mp hv.symm).1
    obtain ⟨t, ts, rfl⟩ := List.exists_cons_of_ne_nil hts
    have := he.length_lt t (by simp)
    rw [h0] at this
    simp at this
  | succ n ih =>
    intro b hb
    by_cases ho : IsOpaque o b.type
    · exact ⟨.mk b.type b.value [], rfl, Fits.leaf (Or.inl ho)⟩
    · by_cases hp : parse o.keep [] b.value = []
      · refine ⟨.mk b.type b.value [], rfl, Fits.leaf (Or.inr ?_)⟩
        intro ts es rest he hts hv
        refine ⟨?_, fun h => by rw [hk] at h; cases h⟩
        rintro rfl
        rw [hv, parse_encodings _ _ _ _ _ he, parse_nil] at hp
        simp at hp
        exact hts hp
      · obtain ⟨ts, es, rest, h1, h2, _, h3⟩ := parse_cases o.keep b.value.length b.value (Nat.le_refl _) []
        rcases h3 with ⟨h3, h4⟩ | ⟨_, _, h4⟩ | ⟨_, _, h4⟩
        · subst h3
          rw [List.append_nil] at h2
          have hts : ts ≠ [] := by
            rintro rfl; rw [h4] at hp; exact hp rfl
          have hl := h1.length_lt
          have sub : ∀ (ts : List Tree) (es : List Bytes), Encodings ts es → (∀ t ∈ ts, t.value.length < b.value.length) →
              ∃ us : List Tree, Encodings us es ∧ us.map Tree.block = ts.map Tree.block ∧ ∀ u ∈ us, Fits o u := by
            intro ts
            induction ts with
            | nil =>
              intro es h _
              exact ⟨[], h, rfl, by simp⟩
            | cons t ts ihts =>
              intro es h hlt
              cases es with
              | nil => cases h
              | cons e es =>
                obtain ⟨us, g1, g2, g3⟩ := ihts es h.2 (fun x hx => hlt x (List.mem_cons_of_mem _ hx))
                obtain ⟨u, k1, k2⟩ := ih t.block (by
                  have := hlt t (by simp)
                  show t.value.length ≤ n
                  omega)
                have k3 : u.type = t.type ∧ u.value = t.value := by
                  have : (Block.mk u.type u.value) = ⟨t.type, t.value⟩ := k1
                  exact ⟨congrArg Block.type this, congrArg Block.value this⟩
                refine ⟨u :: us, ⟨by rw [k3.1, k3.2]; exact h.1, g1⟩, by simp [g2, k1], ?_⟩
                intro x hx
                rcases List.mem_cons.mp hx with rfl | hx
                · exact k2
                · exact g3 x hx
          obtain ⟨us, g1, g2, g3⟩ := sub ts es h1 (by intro t ht; have := hl t ht; rw [h2]; exact this)
          refine ⟨.mk b.type b.value us, rfl, Fits.inner ho ?_ g1 h2 g3⟩
          rintro rfl
          simp at g2
          exact hts g2
        · exact absurd h4 hp
        · rw [hk] at h4 hp; exact absurd h4 hp

/-- **C41 (every input)** If ndn-cxx forgets the elements when a block cannot be parsed: for every input whatsoever, there is a
forest of elements such that the input consists of their encodings and a rest; exactly the elements of this forest are
printed; and an error is reported exactly if the rest is not empty, in which case no element can be read there. -/
theorem C41_every_input {o : Opts} (hk : o.keep = false) (input : Bytes) : ∃ (f : List Tree) (es : List Bytes) (rest : Bytes),
    input = es.flatten ++ rest ∧ Encodings f es ∧ (∀ t ∈ f, Fits o t) ∧ Shows f (dissect o input).out ∧
    ((rest = [] ∧ (dissect o input).error = none) ∨ (Malformed rest ∧ (dissect o input).error.isSome = true)) := by
  have split : ∀ (n : Nat) (input : Bytes), input.length ≤ n → ∃ (f : List Tree) (es : List Bytes) (rest : Bytes),
      input = es.flatten ++ rest ∧ Encodings f es ∧ Small f ∧ (∀ t ∈ f, Fits o t) ∧
      (rest = [] ∨ (rest ≠ [] ∧ fromStream rest = none)) := by
    intro n
    induction n with
    | zero =>
      intro input hi
      have : input = [] := List.length_eq_zero_iff.mp (by omega)
      exact ⟨[], [], [], this, trivial, (fun t ht => by cases ht), (fun t ht => by cases ht), Or.inl rfl⟩
    | succ n ih =>
      intro input hi
      by_cases h0 : input = []
      · exact ⟨[], [], [], h0, trivial, (fun t ht => by cases ht), (fun t ht => by cases ht), Or.inl rfl⟩
      · cases h : fromStream input with
        | none => exact ⟨[], [], input, rfl, trivial, (fun t ht => by cases ht), (fun t ht => by cases ht), Or.inr ⟨h0, h⟩⟩
        | some p =>
          obtain ⟨b, r⟩ := p
          have hs := fromStream_shorter h
          obtain ⟨h1, e, h2, rfl⟩ := (fromStream_iff _ _ _).mp h
          obtain ⟨f, es, rest, g1, g2, g3, g4, g5⟩ := ih r (by omega)
          obtain ⟨t, k1, k2⟩ := exists_tree hk b.value.length b (Nat.le_refl _)
          have k3 : t.type = b.type ∧ t.value = b.value := by
            rw [← k1]; exact ⟨rfl, rfl⟩
          refine ⟨t :: f, e :: es, rest, by rw [g1]; simp, ⟨by rw [k3.1, k3.2]; exact h2, g2⟩, ?_, ?_, g5⟩
          · intro x hx
            rcases List.mem_cons.mp hx with rfl | hx
            · rw [k3.1, k3.2]; exact h1
            · exact g3 x hx
          · intro x hx
            rcases List.mem_cons.mp hx with rfl | hx
            · exact k2
            · exact g4 x hx
  obtain ⟨f, es, rest, h1, h2, h3, h4, h5⟩ := split input.length input (Nat.le_refl _)
  refine ⟨f, es, rest, h1, h2, h4, ?_⟩
  unfold dissect
  rw [h1, dissectLoop_encodings o f es h2 h3 h4]
  rcases h5 with rfl | ⟨g1, g2⟩
  · rw [dissectLoop, if_pos rfl]
    exact ⟨by simpa using shows_topLines f, Or.inl ⟨rfl, rfl⟩⟩
  · rw [dissectLoop_bad g1 g2]
    refine ⟨by simpa using shows_topLines f, Or.inr ⟨⟨g1, ?_⟩, rfl⟩⟩
    rintro ⟨t, v, e, r, a1, a2, a3⟩
    have := (fromStream_iff rest ⟨t, v⟩ r).mpr ⟨a2, e, a1, a3⟩
    rw [g2] at this; cases this

/-- The elements of a block that cannot be parsed to the end, if ndn-cxx keeps what was read before a wrong type number. -/
theorem parse_example : parse true [] [8, 0, 0] = [⟨8, []⟩] ∧ parse true [] [8, 0, 253] = [⟨8, []⟩] := by
  have h1 : readBlock [8, 0, 0] = .ok (⟨8, []⟩, [0]) := by decide
  have h2 : readBlock [8, 0, 253] = .ok (⟨8, []⟩, [253]) := by decide
  rw [parse_ok h1, parse_ok h2, parse_error (e := .number) (by simp) (by decide),
    parse_error (e := .number) (by simp) (by decide)]
  exact ⟨rfl, rfl⟩

/-- **C41 refuted if ndn-cxx keeps the elements before a wrong header** A value that starts with an element and goes on with
something else is shown as this element only; the other bytes are not printed: two different inputs, which consist
of one element each, give the same output. -/
theorem C41_kept_refuted : ∃ a b : Bytes, a ≠ b ∧ (∃ v, IsElement 200 v a) ∧ (∃ v, IsElement 200 v b) ∧
    dissect { keep := true } a = dissect { keep := true } b ∧ (dissect { keep := true } a).error = none := by
  have h1 : fromStream [200, 3, 8, 0, 0] = some (⟨200, [8, 0, 0]⟩, []) := by decide
  have h2 : fromStream [200, 3, 8, 0, 253] = some (⟨200, [8, 0, 253]⟩, []) := by decide
  have e1 : elements { keep := true } ⟨200, [8, 0, 0]⟩ = [⟨8, []⟩] := by
    rw [elements_parse (by decide)]; exact parse_example.1
  have e2 : elements { keep := true } ⟨200, [8, 0, 253]⟩ = [⟨8, []⟩] := by
    rw [elements_parse (by decide)]; exact parse_example.2
  have hv : ∀ x : UInt8, IsElement 200 [8, 0, x] [200, 3, 8, 0, x] := fun x =>
    ⟨by decide, by decide, [200], [3], Or.inl ⟨200, rfl, rfl, by decide⟩, Or.inl ⟨3, rfl, rfl, by simp⟩, rfl⟩
  refine ⟨[200, 3, 8, 0, 0], [200, 3, 8, 0, 253], by decide, ⟨_, hv 0⟩, ⟨_, hv 253⟩, ?_, ?_⟩
  · unfold dissect
    rw [dissectLoop_good h1, dissectLoop_good h2, dissectLoop, if_pos rfl, dissectLoop, if_pos rfl]
    simp only [List.length_cons, List.length_nil]
    rw [printBlock, printBlock, e1, e2]
    rfl
  · unfold dissect
    rw [dissectLoop_good h1, dissectLoop, if_pos rfl]

/-- A Name with two components, followed by a top-level element: the tree and the printed text. -/
private def exTree : List Tree :=
  [.mk 5 [7, 6, 8, 1, 65, 8, 1, 66, 10, 1, 0]
    [.mk 7 [8, 1, 65, 8, 1, 66] [.mk 8 [65] [], .mk 8 [66] []], .mk 10 [0] []]]

private theorem exLeaf (o : Opts) (ty : Nat) (x : UInt8) : Fits o (.mk ty [x] []) := by
  refine Fits.leaf (Or.inr ?_)
  intro ts es rest he hts hv
  exfalso
  obtain ⟨t, ts, rfl⟩ := List.exists_cons_of_ne_nil hts
  cases es with
  | nil => cases he
  | cons e es =>
    obtain ⟨⟨_, _, a, b, h1, h2, rfl⟩, _⟩ := he
    have l1 := sizeOfVarNumber_le h1
    have l2 := sizeOfVarNumber_le h2
    have l3 : ∀ n, 1 ≤ sizeOfVarNumber n := by
      intro n; unfold sizeOfVarNumber; split <;> (try split) <;> (try split) <;> omega
    have l4 := l3 t.type
    have l5 := l3 t.value.length
    have := congrArg List.length hv
    simp at this
    omega

private theorem exElem (ty n : Nat) (a b : UInt8) (v : Bytes) (h1 : a.toNat = ty) (h2 : b.toNat = n) (h3 : v.length = n)
    (h4 : 1 ≤ ty) (h5 : ty < 253) (h6 : n < 253) : IsElement ty v (a :: b :: v) :=
  ⟨h4, by omega, [a], [b], Or.inl ⟨a, rfl, h1, h5⟩, Or.inl ⟨b, rfl, h2.trans h3.symm, by omega⟩, rfl⟩

example (o : Opts) : Encodings exTree [[5, 11, 7, 6, 8, 1, 65, 8, 1, 66, 10, 1, 0]] ∧ Small exTree ∧
    (∀ t ∈ exTree, Fits o t) := by
  refine ⟨⟨exElem 5 11 _ _ _ rfl rfl rfl (by decide) (by decide) (by decide), trivial⟩, ?_, ?_⟩
  · intro t ht; rw [List.mem_singleton.mp ht]; decide
  · intro t ht
    rw [List.mem_singleton.mp ht]
    refine Fits.inner (es := [[7, 6, 8, 1, 65, 8, 1, 66], [10, 1, 0]]) ?_ (by simp)
      ⟨exElem 7 6 _ _ _ rfl rfl rfl (by decide) (by decide) (by decide),
       exElem 10 1 _ _ _ rfl rfl rfl (by decide) (by decide) (by decide), trivial⟩ rfl ?_
    · rintro (h | h | ⟨h, _⟩) <;> cases h
    · intro c hc
      simp only [List.mem_cons, List.not_mem_nil, or_false] at hc
      rcases hc with rfl | rfl
      · refine Fits.inner (es := [[8, 1, 65], [8, 1, 66]]) ?_ (by simp)
          ⟨exElem 8 1 _ _ _ rfl rfl rfl (by decide) (by decide) (by decide),
           exElem 8 1 _ _ _ rfl rfl rfl (by decide) (by decide) (by decide), trivial⟩ rfl ?_
        · rintro (h | h | ⟨h, _⟩) <;> cases h
        · intro c hc
          simp only [List.mem_cons, List.not_mem_nil, or_false] at hc
          rcases hc with rfl | rfl
          · exact exLeaf o _ _
          · exact exLeaf o _ _
      · exact exLeaf o _ _

example : (topLines exTree).map Line.text =
    ["5 (Interest) (size: 11)\n",
     "├─7 (Name) (size: 6)\n",
     "│ ├─8 (GenericNameComponent) (size: 1) [[A]]\n",
     "│ └─8 (GenericNameComponent) (size: 1) [[B]]\n",
     "└─10 (Nonce) (size: 1) [[%00]]\n"].map (fun s : String => s.toByteArray.data.toList) := by decide +kernel

/-- Bytes at which no element can be read: type number 0, and a value that is too short. -/
example : Malformed [0, 1, 2] ∧ Malformed [8, 5, 1] := by
  have key : ∀ b : Bytes, b ≠ [] → fromStream b = none → Malformed b := by
    intro b hb h
    refine ⟨hb, ?_⟩
    rintro ⟨t, v, e, r, a1, a2, a3⟩
    have := (fromStream_iff b ⟨t, v⟩ r).mpr ⟨a2, e, a1, a3⟩
    rw [h] at this; cases this
  exact ⟨key _ (by simp) (by decide), key _ (by simp) (by decide)⟩

end Verif.Dissect
