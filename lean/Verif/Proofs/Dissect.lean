import Verif.Spec.Dissect
import Verif.Proofs.Tlv

/-! # Lemmas about ndn-dissect -/

namespace Verif.Dissect

def Tree.block (t : Tree) : Block := ⟨t.type, t.value⟩

theorem hasHeader_of_not_number {b : Bytes} (h : readBlock b ≠ .error .number) : HasHeader b := by
  unfold readBlock at h
  split at h
  · exact absurd rfl h
  · rename_i t r1 h1
    split at h
    · exact absurd rfl h
    · rename_i n r2 h2
      obtain ⟨a1, a2, e1, he1, rfl⟩ := (readType_iff _ _ _).mp h1
      obtain ⟨e2, he2, rfl⟩ := (readVarNumber_iff _ _ _).mp h2
      exact ⟨t, n, e1, e2, r2, a1, a2, he1, he2, by simp⟩

theorem not_number_of_hasHeader {b : Bytes} (h : HasHeader b) : readBlock b ≠ .error .number := by
  obtain ⟨t, n, e1, e2, r, a1, a2, he1, he2, rfl⟩ := h
  have h1 : readType (e1 ++ e2 ++ r) = some (t, e2 ++ r) := (readType_iff _ _ _).mpr ⟨a1, a2, e1, he1, by simp⟩
  have h2 : readVarNumber (e2 ++ r) = some (n, r) := (readVarNumber_iff _ _ _).mpr ⟨e2, he2, rfl⟩
  unfold readBlock
  rw [h1]; dsimp only
  rw [h2]; dsimp only
  split
  · intro h; cases h
  · intro h; cases h

theorem parse_nil (keep : Bool) (acc : List Block) : parse keep acc [] = acc := by
  rw [parse, if_pos rfl]

theorem parse_ok {keep : Bool} {acc : List Block} {b : Bytes} {x r} (h : readBlock b = .ok (x, r)) :
    parse keep acc b = parse keep (acc ++ [x]) r := by
  have hb : b ≠ [] := by
    rintro rfl; have := readBlock_shorter h; simp at this
  rw [parse, if_neg hb]
  split
  · rename_i h2; rw [h] at h2; cases h2; rfl
  · rename_i h2; rw [h] at h2; cases h2
  · rename_i h2; rw [h] at h2; cases h2

theorem parse_error {keep : Bool} {acc : List Block} {b : Bytes} {e} (hb : b ≠ []) (h : readBlock b = .error e) :
    parse keep acc b = if e = .number ∧ keep = true then acc else [] := by
  rw [parse, if_neg hb]
  split
  · rename_i h2; rw [h] at h2; cases h2
  · rename_i h2; rw [h] at h2; cases h2; simp
  · rename_i h2; rw [h] at h2; cases h2; simp

theorem parse_encodings (keep : Bool) : ∀ (ts : List Tree) (es : List Bytes) (acc : List Block) (rest : Bytes),
    Encodings ts es → parse keep acc (es.flatten ++ rest) = parse keep (acc ++ ts.map Tree.block) rest := by
  intro ts
  induction ts with
  | nil =>
    intro es acc rest h
    cases es with
    | nil => simp
    | cons => cases h
  | cons t ts ih =>
    intro es acc rest h
    cases es with
    | nil => cases h
    | cons e es =>
      obtain ⟨h1, h2⟩ := h
      have hr : readBlock ((e :: es).flatten ++ rest) = .ok (t.block, es.flatten ++ rest) :=
        (readBlock_iff _ _ _).mpr ⟨e, h1, by simp⟩
      rw [parse_ok hr, ih es _ rest h2]
      simp

/-- How `parse` ends. -/
theorem parse_cases (keep : Bool) : ∀ (n : Nat) (b : Bytes), b.length ≤ n → ∀ acc, ∃ ts es rest, Encodings ts es ∧
    b = es.flatten ++ rest ∧ (∀ t ∈ ts, t.children = []) ∧
    ((rest = [] ∧ parse keep acc b = acc ++ ts.map Tree.block) ∨
     (rest ≠ [] ∧ readBlock rest = .error .value ∧ parse keep acc b = []) ∨
     (rest ≠ [] ∧ readBlock rest = .error .number ∧
        parse keep acc b = if keep = true then acc ++ ts.map Tree.block else [])) := by
  intro n
  induction n with
  | zero =>
    intro b hb acc
    have : b = [] := List.length_eq_zero_iff.mp (by omega)
    subst this
    exact ⟨[], [], [], trivial, rfl, by simp, Or.inl ⟨rfl, by rw [parse_nil]; simp⟩⟩
  | succ n ih =>
    intro b hb acc
    by_cases hz : b = []
    · subst hz
      exact ⟨[], [], [], trivial, rfl, by simp, Or.inl ⟨rfl, by rw [parse_nil]; simp⟩⟩
    · cases h : readBlock b with
      | error e =>
        refine ⟨[], [], b, trivial, rfl, by simp, ?_⟩
        have := parse_error (keep := keep) (acc := acc) hz h
        cases e with
        | value => right; left; exact ⟨hz, h, by rw [this]; simp⟩
        | number => right; right; exact ⟨hz, h, by rw [this]; simp⟩
      | ok p =>
        obtain ⟨x, r⟩ := p
        have hs := readBlock_shorter h
        obtain ⟨e, he, rfl⟩ := (readBlock_iff _ _ _).mp h
        obtain ⟨ts, es, rest, h1, h2, hc, h3⟩ := ih r (by omega) (acc ++ [x])
        refine ⟨.mk x.type x.value [] :: ts, e :: es, rest, ⟨he, h1⟩, ?_, ?_, ?_⟩
        · rw [h2]; simp
        · intro t ht
          rcases List.mem_cons.mp ht with rfl | ht
          · rfl
          · exact hc t ht
        · rw [parse_ok h]
          have e1 : acc ++ (Tree.mk x.type x.value [] :: ts).map Tree.block = acc ++ [x] ++ ts.map Tree.block := by
            simp [Tree.block, Tree.type, Tree.value]
          rw [e1]; exact h3

theorem parse_notElements {keep : Bool} {v : Bytes} (h : NotElements keep v) : parse keep [] v = [] := by
  obtain ⟨ts, es, rest, h1, h2, _, h3⟩ := parse_cases keep v.length v (Nat.le_refl _) []
  by_cases ht : ts = []
  · subst ht
    rcases h3 with ⟨_, h⟩ | ⟨_, _, h⟩ | ⟨_, _, h⟩
    · simpa using h
    · exact h
    · simpa using h
  · obtain ⟨g1, g2⟩ := h ts es rest h1 ht h2
    rcases h3 with ⟨h, _⟩ | ⟨_, _, h⟩ | ⟨_, hn, h⟩
    · exact absurd h g1
    · exact h
    · cases keep with
      | false => simpa using h
      | true => exact absurd hn (not_number_of_hasHeader (g2 rfl))

instance (o : Opts) (type : Nat) : Decidable (IsOpaque o type) := by unfold IsOpaque; infer_instance

theorem elements_opaque {o : Opts} {b : Block} (h : IsOpaque o b.type) : elements o b = [] := by
  unfold elements
  rw [if_neg]
  rintro ⟨h1, h2, h3⟩
  rcases h with h | h | ⟨h, h'⟩
  · exact h1 h
  · exact h2 h
  · rcases h3 with h3 | h3
    · exact h3 h
    · rw [h'] at h3; cases h3

theorem elements_parse {o : Opts} {b : Block} (h : ¬ IsOpaque o b.type) : elements o b = parse o.keep [] b.value := by
  unfold elements
  rw [if_pos]
  refine ⟨fun h1 => h (Or.inl h1), fun h1 => h (Or.inr (Or.inl h1)), ?_⟩
  by_cases h1 : b.type = 21
  · right
    cases h2 : o.dissectContent
    · exact absurd (Or.inr (Or.inr ⟨h1, h2⟩)) h
    · rfl
  · exact Or.inl h1

theorem Fits.elements {o : Opts} {t : Tree} (h : Fits o t) : elements o t.block = t.children.map Tree.block := by
  cases h with
  | inner h1 h2 h3 h4 h5 =>
    rename_i type value children es
    rw [elements_parse h1]
    have : (Tree.mk type value children).block.value = es.flatten ++ [] := by rw [List.append_nil]; exact h4
    rw [this, parse_encodings _ _ _ _ _ h3, parse_nil]
    rfl
  | leaf h =>
    rename_i type value
    by_cases ho : IsOpaque o (Tree.block (.mk type value [])).type
    · exact elements_opaque ho
    · rw [elements_parse ho]
      rcases h with h | h
      · exact absurd h ho
      · exact parse_notElements h

/-- The line of an element, below the given branches. -/
def treeLine (br : List Bool) (t : Tree) : Line :=
  { glyphs := printBranches br
    type := t.type
    label := typeLabel t.type
    size := t.value.length
    value := if t.children.isEmpty then some t.value else none }

mutual
/-- The lines of an element and everything below it. -/
def Tree.lines (br : List Bool) : Tree → List Line
  | .mk t v cs => treeLine br (.mk t v cs) :: forestLines br cs
/-- The lines of elements that are siblings. -/
def forestLines (br : List Bool) : List Tree → List Line
  | [] => []
  | c :: cs => c.lines (br ++ [!cs.isEmpty]) ++ forestLines br cs
end

theorem printElements_lines {p : St → Block → St} : ∀ (cs : List Tree),
    (∀ c ∈ cs, ∀ s, p s c.block = { s with out := s.out ++ c.lines s.branches }) → ∀ (br : List Bool) (out : List Line),
    printElements p (cs.map Tree.block) { branches := br ++ [true], out := out } =
      { branches := br ++ [cs.isEmpty], out := out ++ forestLines br cs } := by
  intro cs
  induction cs with
  | nil => intro _ br out; simp [printElements, forestLines]
  | cons c cs ih =>
    intro h br out
    rw [List.map_cons, printElements]
    dsimp only
    cases cs with
    | nil =>
      rw [if_pos (by rfl), h c (by simp)]
      simp [printElements, forestLines]
    | cons c' cs =>
      rw [if_neg (by simp), h c (by simp)]
      dsimp only
      rw [ih (fun x hx => h x (List.mem_cons_of_mem _ hx))]
      rw [forestLines.eq_2 br c (c' :: cs)]
      simp

theorem Encodings.length_lt : ∀ {ts : List Tree} {es : List Bytes}, Encodings ts es → ∀ t ∈ ts,
    t.value.length < es.flatten.length := by
  intro ts
  induction ts with
  | nil => intro es _ t ht; cases ht
  | cons t ts ih =>
    intro es h x hx
    cases es with
    | nil => cases h
    | cons e es =>
      obtain ⟨⟨_, _, e1, e2, h1, _, rfl⟩, h2⟩ := h
      have h3 := sizeOfVarNumber_le h1
      have h4 : 1 ≤ sizeOfVarNumber t.type := by unfold sizeOfVarNumber; split <;> (try split) <;> omega
      rcases List.mem_cons.mp hx with rfl | hx
      · simp; omega
      · have := ih h2 x hx
        simp only [List.flatten_cons, List.length_append]; omega

theorem printBlock_lines {o : Opts} {t : Tree} (h : Fits o t) : ∀ depth, t.value.length < depth → ∀ s,
    printBlock o depth s t.block = { s with out := s.out ++ t.lines s.branches } := by
  induction h with
  | inner h1 h2 h3 h4 h5 ih =>
    rename_i type value children es
    intro depth hd s
    cases depth with
    | zero => omega
    | succ depth =>
      rw [printBlock]
      have he := (Fits.inner (o := o) h1 h2 h3 h4 h5).elements
      dsimp only
      rw [he]
      have hch : ∀ c ∈ children, ∀ s, printBlock o depth s c.block = { s with out := s.out ++ c.lines s.branches } := by
        intro c hc s
        refine ih c hc depth ?_ s
        have := h3.length_lt c hc
        have hv : (Tree.mk type value children).value = es.flatten := h4
        rw [hv] at hd
        omega
      have hc : (Tree.mk type value children).children = children := rfl
      rw [hc, printElements_lines children hch]
      rw [Tree.lines]
      have hne : ¬ (children.map Tree.block = []) := by simpa using h2
      have hne' : children.isEmpty = false := by simpa using h2
      simp [blockLine, treeLine, hne, hne', Tree.block, Tree.type, Tree.value, Tree.children]
  | leaf h =>
    rename_i type value
    intro depth hd s
    cases depth with
    | zero => omega
    | succ depth =>
      rw [printBlock]
      have he := (Fits.leaf (o := o) (type := type) h).elements
      dsimp only
      rw [he]
      simp [printElements, Tree.lines, forestLines, Tree.children, blockLine, treeLine, Tree.block, Tree.type,
        Tree.value]

end Verif.Dissect
