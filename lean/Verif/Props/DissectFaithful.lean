import Verif.Props.Dissect
import Verif.Proofs.Format

/-! # C60: the output of ndn-dissect determines its input -/

namespace Verif.Dissect

/-- All numbers, at every depth, are in the shortest encoding: the value of an inner node is made of the shortest encodings of
its children. -/
inductive Shortest : Tree → Prop
  | inner {type value children} : children ≠ [] →
      value = (children.flatMap fun c => Block.encode ⟨c.type, c.value⟩) → (∀ c ∈ children, Shortest c) →
      Shortest (.mk type value children)
  | leaf {type value} : Shortest (.mk type value [])

theorem length_printBranches (br : List Bool) : (printBranches br).length = br.length := by
  unfold printBranches; simp

/-- The next line, if any, is at most at depth `n`. -/
def Shallow (n : Nat) (l : List Line) : Prop := ∀ x ∈ l.head?, x.glyphs.length ≤ n

private theorem lines_head (br : List Bool) (t : Tree) : ∃ l, t.lines br = treeLine br t :: l := by
  cases t; rw [Tree.lines]; exact ⟨_, rfl⟩

mutual
private theorem lines_inj : ∀ (t t' : Tree), Shortest t → Shortest t' → ∀ (br br' : List Bool), br.length = br'.length →
    ∀ (l l' : List Line), Shallow br.length l → Shallow br.length l' → t.lines br ++ l = t'.lines br' ++ l' →
    t = t' ∧ l = l'
  | .mk ty v cs, .mk ty' v' cs', h, h', br, br', hb, l, l', hl, hl', e => by
    rw [Tree.lines, Tree.lines, List.cons_append, List.cons_append] at e
    obtain ⟨e1, e2⟩ := List.cons.inj e
    have t1 : ty = ty' := congrArg Line.type e1
    have t2 : (if cs.isEmpty then some v else none) = if cs'.isEmpty then some v' else none := congrArg Line.value e1
    have hcs : ∀ c ∈ cs, Shortest c := by
      cases h with
      | inner _ _ h => exact h
      | leaf => intro c hc; cases hc
    have hcs' : ∀ c ∈ cs', Shortest c := by
      cases h' with
      | inner _ _ h => exact h
      | leaf => intro c hc; cases hc
    obtain ⟨f1, f2⟩ := forestLines_inj cs cs' hcs hcs' br br' hb l l' hl hl' e2
    subst f1
    refine ⟨?_, f2⟩
    subst t1
    have hv : v = v' := by
      cases h with
      | inner a1 a2 _ =>
        cases h' with
        | inner _ b2 _ => rw [a2, b2]
        | leaf => exact absurd rfl a1
      | leaf => simpa using t2
    rw [hv]
private theorem forestLines_inj : ∀ (cs cs' : List Tree), (∀ c ∈ cs, Shortest c) → (∀ c ∈ cs', Shortest c) →
    ∀ (br br' : List Bool), br.length = br'.length →
    ∀ (l l' : List Line), Shallow br.length l → Shallow br.length l' → forestLines br cs ++ l = forestLines br' cs' ++ l' →
    cs = cs' ∧ l = l'
  | [], [], _, _, br, br', _, l, l', _, _, e => by
    rw [forestLines, forestLines] at e
    exact ⟨rfl, e⟩
  | [], c :: cs, _, _, br, br', hb, l, l', hl, _, e => by
    exfalso
    rw [forestLines, forestLines, List.nil_append] at e
    obtain ⟨m, hm⟩ := lines_head (br' ++ [!cs.isEmpty]) c
    rw [hm] at e
    have := hl _ (by rw [e]; rfl)
    unfold treeLine at this
    simp [length_printBranches] at this
    omega
  | c :: cs, [], _, _, br, br', hb, l, l', _, hl', e => by
    exfalso
    rw [forestLines, forestLines, List.nil_append] at e
    obtain ⟨m, hm⟩ := lines_head (br ++ [!cs.isEmpty]) c
    rw [hm] at e
    have := hl' _ (by rw [← e]; rfl)
    unfold treeLine at this
    simp [length_printBranches] at this
  | c :: cs, c' :: cs', h, h', br, br', hb, l, l', hl, hl', e => by
    rw [forestLines, forestLines, List.append_assoc, List.append_assoc] at e
    have sh : ∀ (br : List Bool) (ds : List Tree) (m : List Line), Shallow br.length m →
        Shallow (br.length + 1) (forestLines br ds ++ m) := by
      intro br ds m hm x hx
      cases ds with
      | nil => rw [forestLines, List.nil_append] at hx; have := hm x hx; omega
      | cons d ds =>
        rw [forestLines] at hx
        obtain ⟨k, hk⟩ := lines_head (br ++ [!ds.isEmpty]) d
        rw [hk] at hx
        simp at hx
        subst hx
        unfold treeLine
        simp [length_printBranches]
    have e3 : (br ++ [!cs.isEmpty]).length = (br' ++ [!cs'.isEmpty]).length := by simp [hb]
    have e4 : (br ++ [!cs.isEmpty]).length = br.length + 1 := by simp
    obtain ⟨f1, f2⟩ := lines_inj c c' (h c (by simp)) (h' c' (by simp)) _ _ e3 _ _
      (by rw [e4]; exact sh br cs l hl) (by rw [e4, hb]; rw [hb] at hl'; exact sh br' cs' l' hl') e
    obtain ⟨g1, g2⟩ := forestLines_inj cs cs' (fun x hx => h x (List.mem_cons_of_mem _ hx))
      (fun x hx => h' x (List.mem_cons_of_mem _ hx)) br br' hb l l' hl hl' f2
    exact ⟨by rw [f1, g1], g2⟩
end

private theorem topLines_inj : ∀ (f f' : List Tree), (∀ c ∈ f, Shortest c) → (∀ c ∈ f', Shortest c) →
    topLines f = topLines f' → f = f' := by
  intro f
  induction f with
  | nil =>
    intro f' _ _ e
    cases f' with
    | nil => rfl
    | cons c cs =>
      obtain ⟨m, hm⟩ := lines_head [] c
      unfold topLines at e
      rw [List.flatMap_cons, hm] at e
      cases e
  | cons c cs ih =>
    intro f' h h' e
    cases f' with
    | nil =>
      obtain ⟨m, hm⟩ := lines_head [] c
      unfold topLines at e
      rw [List.flatMap_cons, hm] at e
      cases e
    | cons c' cs' =>
      have sh : ∀ ds : List Tree, Shallow 0 (topLines ds) := by
        intro ds x hx
        cases ds with
        | nil => cases hx
        | cons d ds =>
          obtain ⟨m, hm⟩ := lines_head [] d
          unfold topLines at hx
          rw [List.flatMap_cons, hm] at hx
          simp at hx
          subst hx
          unfold treeLine
          simp [length_printBranches]
      have e' : Tree.lines [] c ++ topLines cs = Tree.lines [] c' ++ topLines cs' := by
        unfold topLines at e ⊢
        rwa [List.flatMap_cons, List.flatMap_cons] at e
      obtain ⟨g1, g2⟩ := lines_inj c c' (h c (by simp)) (h' c' (by simp)) [] [] rfl _ _ (sh cs) (sh cs') e'
      rw [g1, ih cs' (fun x hx => h x (List.mem_cons_of_mem _ hx)) (fun x hx => h' x (List.mem_cons_of_mem _ hx)) g2]

/-! ### The text of the lines -/

private theorem span_inj {P : UInt8 → Bool} {a a' : Bytes} {c c' : UInt8} {x x' : Bytes} (ha : a.all P = true)
    (ha' : a'.all P = true) (hc : P c = false) (hc' : P c' = false) (e : a ++ c :: x = a' ++ c' :: x') :
    a = a' ∧ c :: x = c' :: x' := by
  induction a generalizing a' with
  | nil =>
    cases a' with
    | nil => exact ⟨rfl, e⟩
    | cons b' a' =>
      injection e with e1 _
      rw [List.all_cons, Bool.and_eq_true] at ha'
      rw [← e1, hc] at ha'
      cases ha'.1
  | cons b a ih =>
    rw [List.all_cons, Bool.and_eq_true] at ha
    cases a' with
    | nil =>
      injection e with e1 _
      rw [e1, hc'] at ha
      cases ha.1
    | cons b' a' =>
      rw [List.all_cons, Bool.and_eq_true] at ha'
      injection e with e1 e2
      obtain ⟨g1, g2⟩ := ih ha.2 ha'.2 e2
      exact ⟨by rw [e1, g1], g2⟩

private theorem decimal_inj {n m : Nat} {c c' : UInt8} {x x' : Bytes} (hc : isDigit c = false) (hc' : isDigit c' = false)
    (e : decimal n ++ c :: x = decimal m ++ c' :: x') : n = m ∧ c :: x = c' :: x' := by
  obtain ⟨h1, h2⟩ := span_inj (decimal_isDigit n) (decimal_isDigit m) hc hc' e
  exact ⟨by rw [← digitsValue_decimal n, h1, digitsValue_decimal], h2⟩

/-- Percent-decoding of one byte. -/
private def unescape : Bytes → Nat
  | [b] => b.toNat
  | [_, h, l] =>
    let v (x : UInt8) : Nat := if x.toNat < 58 then x.toNat - 48 else x.toNat - 55
    v h * 16 + v l
  | _ => 0

private theorem unescape_escape : ∀ n : Fin 256, unescape (escapeByte (UInt8.ofNat n)) = n ∧
    ((escapeByte (UInt8.ofNat n)).length = if (escapeByte (UInt8.ofNat n)).head? = some 37 then 3 else 1) ∧
    (escapeByte (UInt8.ofNat n)).all (fun c => c != 93) = true ∧ escapeByte (UInt8.ofNat n) ≠ [] := by decide +kernel

private theorem escapeByte_facts (b : UInt8) : unescape (escapeByte b) = b.toNat ∧
    ((escapeByte b).length = if (escapeByte b).head? = some 37 then 3 else 1) ∧
    (escapeByte b).all (fun c => c != 93) = true ∧ escapeByte b ≠ [] := by
  have := unescape_escape ⟨b.toNat, b.toNat_lt⟩
  simpa using this

theorem escape_inj : ∀ {v v' : Bytes}, v.flatMap escapeByte = v'.flatMap escapeByte → v = v' := by
  intro v
  induction v with
  | nil =>
    intro v' e
    cases v' with
    | nil => rfl
    | cons b v' =>
      rw [List.flatMap_cons, List.flatMap_nil] at e
      exact absurd (List.append_eq_nil_iff.mp e.symm).1 (escapeByte_facts b).2.2.2
  | cons b v ih =>
    intro v' e
    cases v' with
    | nil =>
      rw [List.flatMap_cons, List.flatMap_nil] at e
      exact absurd (List.append_eq_nil_iff.mp e).1 (escapeByte_facts b).2.2.2
    | cons b' v' =>
      rw [List.flatMap_cons, List.flatMap_cons] at e
      obtain ⟨a1, a2, -, a4⟩ := escapeByte_facts b
      obtain ⟨b1, b2, -, b4⟩ := escapeByte_facts b'
      have hh : (escapeByte b).head? = (escapeByte b').head? := by
        have := congrArg List.head? e
        rwa [List.head?_append_of_ne_nil _ a4, List.head?_append_of_ne_nil _ b4] at this
      obtain ⟨g1, g2⟩ := List.append_inj e (by rw [a2, b2, hh])
      have : b = b' := UInt8.toNat_inj.mp (by rw [← a1, ← b1, g1])
      rw [this, ih g2]

private theorem glyphs_inj : ∀ {g g' : List Glyph} {n m : Nat} {x x' : Bytes},
    g.flatMap Glyph.text ++ (decimal n ++ x) = g'.flatMap Glyph.text ++ (decimal m ++ x') →
    g = g' ∧ decimal n ++ x = decimal m ++ x' := by
  have hd : ∀ n : Nat, ∃ c r, decimal n = c :: r ∧ isDigit c = true := by
    intro n
    have h := decimal_isDigit n
    cases hx : decimal n with
    | nil => exact absurd hx (decimal_ne_nil' n)
    | cons c r => rw [hx, List.all_cons, Bool.and_eq_true] at h; exact ⟨c, r, rfl, h.1⟩
  have hg : ∀ g : Glyph, ∃ c r, g.text = c :: r ∧ isDigit c = false := by
    intro g; cases g <;> exact ⟨_, _, rfl, by decide⟩
  intro g
  induction g with
  | nil =>
    intro g' n m x x' e
    cases g' with
    | nil => exact ⟨rfl, e⟩
    | cons a g' =>
      obtain ⟨c, r, h1, h2⟩ := hd n
      obtain ⟨c', r', h3, h4⟩ := hg a
      rw [List.flatMap_cons, h1, h3] at e
      injection e with e1 _
      rw [e1, h4] at h2; cases h2
  | cons a g ih =>
    intro g' n m x x' e
    cases g' with
    | nil =>
      obtain ⟨c, r, h1, h2⟩ := hd m
      obtain ⟨c', r', h3, h4⟩ := hg a
      rw [List.flatMap_cons, h1, h3] at e
      injection e with e1 _
      rw [← e1, h4] at h2; cases h2
    | cons a' g' =>
      rw [List.flatMap_cons, List.flatMap_cons, List.append_assoc, List.append_assoc] at e
      have : a = a' ∧ g.flatMap Glyph.text ++ (decimal n ++ x) = g'.flatMap Glyph.text ++ (decimal m ++ x') := by
        cases a <;> cases a' <;> simp only [Glyph.text, List.cons_append, List.nil_append, List.cons.injEq] at e <;>
          first
          | exact ⟨rfl, by simpa using e⟩
          | (exfalso; revert e; simp)
      obtain ⟨g1, g2⟩ := ih this.2
      exact ⟨by rw [this.1, g1], g2⟩

private theorem line_inj {l l' : Line} (h : l.label = typeLabel l.type) (h' : l'.label = typeLabel l'.type) {x x' : Bytes}
    (e : l.text ++ x = l'.text ++ x') : l = l' ∧ x = x' := by
  obtain ⟨g, ty, la, sz, va⟩ := l
  obtain ⟨g', ty', la', sz', va'⟩ := l'
  dsimp only at h h'
  unfold Line.text at e
  simp only [List.append_assoc] at e
  obtain ⟨hgl, e⟩ := glyphs_inj e
  clear * - hgl e h h'
  have t1 : Verif.text " (" = [32, 40] := by decide +kernel
  have t2 : Verif.text ")" = [41] := by decide +kernel
  have t3 : Verif.text " [[" = [32, 91, 91] := by decide +kernel
  have t4 : Verif.text "]]" = [93, 93] := by decide +kernel
  have t5 : Verif.text "\n" = [10] := by decide +kernel
  rw [t1, t2] at e
  simp only [t3, t4, t5, List.cons_append, List.nil_append, List.append_assoc] at e
  obtain ⟨hty, e⟩ := decimal_inj (by decide) (by decide) e
  rw [hty, ← h'] at h
  rw [h] at e
  injection e with _ e
  injection e with _ e
  have e := List.append_cancel_left e
  injection e with _ e
  have e := List.append_cancel_left e
  obtain ⟨hsz, e⟩ := decimal_inj (by decide) (by decide) e
  injection e with _ e
  rw [hgl, hty, h, hsz]
  cases va with
  | none =>
    cases va' with
    | none => injection e with _ e; exact ⟨rfl, e⟩
    | some v => injection e with e1 _; exact absurd e1 (by decide)
  | some v =>
    cases va' with
    | none => injection e with e1 _; exact absurd e1 (by decide)
    | some v' =>
      simp only [List.cons_append, List.nil_append, List.append_assoc, List.cons.injEq, true_and] at e
      have hall : ∀ v : Bytes, (v.flatMap escapeByte).all (fun c => c != 93) = true := by
        intro v
        rw [List.all_flatMap, List.all_eq_true]
        exact fun b _ => (escapeByte_facts b).2.2.1
      obtain ⟨g1, g2⟩ := span_inj (hall v) (hall v') (by decide) (by decide) e
      rw [escape_inj g1]
      injection g2 with _ g2
      injection g2 with _ g2
      injection g2 with _ g2
      exact ⟨rfl, g2⟩

/-- The text determines the lines. -/
private theorem text_inj : ∀ {ls ls' : List Line}, (∀ l ∈ ls, l.label = typeLabel l.type) →
    (∀ l ∈ ls', l.label = typeLabel l.type) → ls.flatMap Line.text = ls'.flatMap Line.text → ls = ls' := by
  have hne : ∀ l : Line, l.text ≠ [] := by
    intro l e
    unfold Line.text at e
    exact absurd (List.append_eq_nil_iff.mp e).2 (by decide)
  intro ls
  induction ls with
  | nil =>
    intro ls' _ _ e
    cases ls' with
    | nil => rfl
    | cons l ls' => rw [List.flatMap_cons] at e; exact absurd (List.append_eq_nil_iff.mp e.symm).1 (hne l)
  | cons l ls ih =>
    intro ls' h h' e
    cases ls' with
    | nil => rw [List.flatMap_cons] at e; exact absurd (List.append_eq_nil_iff.mp e).1 (hne l)
    | cons l' ls' =>
      rw [List.flatMap_cons, List.flatMap_cons] at e
      obtain ⟨g1, g2⟩ := line_inj (h l (by simp)) (h' l' (by simp)) e
      rw [g1, ih (fun x hx => h x (List.mem_cons_of_mem _ hx)) (fun x hx => h' x (List.mem_cons_of_mem _ hx)) g2]

private theorem shows_label {f : List Tree} {out : List Line} (h : Shows f out) : ∀ l ∈ out, l.label = typeLabel l.type := by
  obtain ⟨ps, -, -, rfl⟩ := h
  intro l hl
  obtain ⟨x, -, rfl⟩ := List.mem_map.mp hl
  rfl

private theorem encodings_shortest : ∀ f : List Tree, Small f → (∀ t ∈ f, 1 ≤ t.type ∧ t.type < 2 ^ 32) →
    Encodings f (f.map fun t => Block.encode ⟨t.type, t.value⟩) := by
  intro f
  induction f with
  | nil => intro _ _; trivial
  | cons t f ih =>
    intro hs hv
    refine ⟨isElement_encode (b := ⟨t.type, t.value⟩) ⟨(hv t (by simp)).1, (hv t (by simp)).2, ?_⟩,
      ih (fun x hx => hs x (List.mem_cons_of_mem _ hx)) (fun x hx => hv x (List.mem_cons_of_mem _ hx))⟩
    have := hs t (by simp)
    unfold Block.size at this
    dsimp only at this ⊢
    omega

/-- **C60** Two inputs that are sequences of elements in the shortest encoding and for which ndn-dissect prints the same text
are the same. -/
theorem C60_faithful {o : Opts} {f f' : List Tree} (hs : Small f) (hs' : Small f')
    (hv : ∀ t ∈ f, 1 ≤ t.type ∧ t.type < 2 ^ 32) (hv' : ∀ t ∈ f', 1 ≤ t.type ∧ t.type < 2 ^ 32)
    (hf : ∀ t ∈ f, Fits o t) (hf' : ∀ t ∈ f', Fits o t) (hc : ∀ t ∈ f, Shortest t) (hc' : ∀ t ∈ f', Shortest t)
    (h : (dissect o (f.flatMap fun t => Block.encode ⟨t.type, t.value⟩)).text =
      (dissect o (f'.flatMap fun t => Block.encode ⟨t.type, t.value⟩)).text) :
    (f.flatMap fun t => Block.encode ⟨t.type, t.value⟩) = f'.flatMap fun t => Block.encode ⟨t.type, t.value⟩ := by
  have s1 := (C41_lines_partial (encodings_shortest f hs hv) hs hf).2
  have s2 := (C41_lines_partial (encodings_shortest f' hs' hv') hs' hf').2
  have h1 := s1.unique (shows_topLines f)
  have h2 := s2.unique (shows_topLines f')
  rw [← List.flatMap_def] at h1 h2 s1 s2
  have h := text_inj (shows_label s1) (shows_label s2) h
  rw [h1, h2] at h
  rw [topLines_inj f f' hc hc' h]

/-- A tree of three levels in the shortest encoding. -/
example : Shortest (.mk 7 [8, 1, 65, 9, 2, 8, 0] [.mk 8 [65] [], .mk 9 [8, 0] [.mk 8 [] []]]) :=
  .inner (by simp) (by simp [Tree.type, Tree.value]; decide) (by
    intro c hc
    simp only [List.mem_cons, List.not_mem_nil, or_false] at hc
    rcases hc with rfl | rfl
    · exact .leaf
    · exact .inner (by simp) (by simp [Tree.type, Tree.value]; decide) (by
        intro c hc
        rw [List.mem_singleton.mp hc]; exact .leaf))

private theorem lookup_mem {l : List (Nat × String)} {n s} (h : l.lookup n = some s) : (n, s) ∈ l := by
  induction l with
  | nil => cases h
  | cons p l ih =>
    obtain ⟨a, b⟩ := p
    rw [List.lookup_cons] at h
    by_cases e : n = a
    · subst e; simp at h; subst h; simp
    · have : (n == a) = false := by simpa using e
      rw [this] at h
      exact List.mem_cons_of_mem _ (ih h)

/-- **C61** No two types have the same name, except types unknown to the program; those are called `RESERVED`, or `UNKNOWN_APP`
if they are in a range for applications. -/
theorem C61_type_names (a b : Nat) (h : typeLabel a = typeLabel b) :
    a = b ∨ (typeLabel a = "RESERVED" ∧ ¬ (128 ≤ a ∧ a ≤ 252) ∧ ¬ 32767 ≤ a) ∨
      (typeLabel a = "UNKNOWN_APP" ∧ ((128 ≤ a ∧ a ≤ 252) ∨ 32767 ≤ a)) := by
  have uniq : ∀ x ∈ tlvDict, ∀ y ∈ tlvDict, x.2 = y.2 → x.1 = y.1 := by decide +kernel
  have known : ∀ x ∈ tlvDict, x.2 ≠ "RESERVED" ∧ x.2 ≠ "UNKNOWN_APP" := by decide +kernel
  unfold typeLabel at h ⊢
  cases ha : tlvDict.lookup a with
  | none =>
    right
    dsimp only
    split
    · right; exact ⟨rfl, by assumption⟩
    · left; refine ⟨rfl, ?_⟩
      constructor
      · intro h; exact absurd (Or.inl h) (by assumption)
      · intro h; exact absurd (Or.inr h) (by assumption)
  | some s =>
    have hm := lookup_mem ha
    rw [ha] at h
    cases hb : tlvDict.lookup b with
    | none =>
      rw [hb] at h
      dsimp only at h
      split at h
      · exact absurd h (known _ hm).2
      · exact absurd h (known _ hm).1
    | some t =>
      rw [hb] at h
      exact Or.inl (uniq _ hm _ (lookup_mem hb) h)

example : typeLabel 7 = "Name" ∧ typeLabel 128 = "SafeBag" ∧ typeLabel 130 = "UNKNOWN_APP" ∧ typeLabel 9 = "RESERVED" ∧
    typeLabel 32766 = "RESERVED" ∧ typeLabel 32767 = "UNKNOWN_APP" := by decide

/-- **C61 (the assigned names)** Every type has the name that the packet format assigns to it; the others are called `UNKNOWN_APP` if they
are in a range for applications, and `RESERVED` if not. -/
theorem C61_assigned (t : Nat) : (∀ n, (t, n) ∈ assigned → typeLabel t = n) ∧
    ((∀ n, (t, n) ∉ assigned) → typeLabel t = if (128 ≤ t ∧ t ≤ 252) ∨ 32767 ≤ t then "UNKNOWN_APP" else "RESERVED") := by
  have h1 : ∀ x ∈ assigned, typeLabel x.1 = x.2 := by decide +kernel
  have h2 : ∀ x ∈ tlvDict, x ∈ assigned := by decide +kernel
  refine ⟨fun n hn => h1 _ hn, fun hn => ?_⟩
  unfold typeLabel
  cases ha : tlvDict.lookup t with
  | none => rfl
  | some s => exact absurd (h2 _ (lookup_mem ha)) (hn s)

example : (0x201, "DescriptionKey") ∈ assigned ∧ (∀ n, (9, n) ∉ assigned) ∧ (∀ n, (200, n) ∉ assigned) := by
  refine ⟨by decide, ?_, ?_⟩ <;> (intro n h; exact absurd (List.mem_map_of_mem (f := (·.1)) h) (by dsimp only; decide))

end Verif.Dissect
