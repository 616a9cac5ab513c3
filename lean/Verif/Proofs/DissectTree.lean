import Verif.Proofs.Dissect

/-! # The lines of a forest are those of its positions in document order -/

namespace Verif.Dissect

mutual
/-- The element at position `p` and everything below it, with positions. -/
def Tree.entries (p : List Nat) : Tree → List (List Nat × Tree)
  | .mk t v cs => (p, .mk t v cs) :: forestEntries p 0 cs
/-- Siblings below position `p`, the first one with index `i`. -/
def forestEntries (p : List Nat) (i : Nat) : List Tree → List (List Nat × Tree)
  | [] => []
  | c :: cs => c.entries (p ++ [i]) ++ forestEntries p (i + 1) cs
end

theorem at?_cons {f : List Tree} {i : Nat} {p : List Nat} (hp : p ≠ []) :
    at? f (i :: p) = f[i]?.bind fun t => at? t.children p := by
  cases p with
  | nil => exact absurd rfl hp
  | cons j p =>
    rw [at?]
    · cases f[i]? <;> rfl
    · intro h; cases h

theorem at?_append {p : List Nat} (hp : p ≠ []) {r : List Nat} (hr : r ≠ []) : ∀ {f : List Tree},
    at? f (p ++ r) = (at? f p).bind fun t => at? t.children r := by
  induction p with
  | nil => exact absurd rfl hp
  | cons i p ih =>
    intro f
    rw [List.cons_append, at?_cons (by simp [hr])]
    cases p with
    | nil => rfl
    | cons j p =>
      rw [at?_cons (f := f) (i := i) (p := j :: p) (by simp)]
      cases f[i]? with
      | none => rfl
      | some t => exact ih (by simp)

/-! ### Order -/

theorem append_lt_append {p x y : List Nat} (h : x < y) : p ++ x < p ++ y := by
  induction p with
  | nil => exact h
  | cons a p ih =>
    rw [List.cons_append, List.cons_append]
    exact List.cons_lt_cons_iff.mpr (Or.inr ⟨rfl, ih⟩)

mutual
theorem entries_prefix : ∀ (t : Tree) (p : List Nat) (x : List Nat × Tree), x ∈ t.entries p → ∃ r, x.1 = p ++ r
  | .mk ty v cs, p, x, h => by
    rw [Tree.entries, List.mem_cons] at h
    rcases h with rfl | h
    · exact ⟨[], by simp⟩
    · obtain ⟨j, r, _, h⟩ := forestEntries_prefix cs p 0 x h
      exact ⟨j :: r, h⟩
theorem forestEntries_prefix : ∀ (cs : List Tree) (p : List Nat) (i : Nat) (x : List Nat × Tree),
    x ∈ forestEntries p i cs → ∃ j r, i ≤ j ∧ x.1 = p ++ j :: r
  | [], p, i, x, h => by rw [forestEntries] at h; cases h
  | c :: cs, p, i, x, h => by
    rw [forestEntries, List.mem_append] at h
    rcases h with h | h
    · obtain ⟨r, h⟩ := entries_prefix c (p ++ [i]) x h
      exact ⟨i, r, Nat.le_refl _, by rw [h]; simp⟩
    · obtain ⟨j, r, hj, h⟩ := forestEntries_prefix cs p (i + 1) x h
      exact ⟨j, r, by omega, h⟩
end

mutual
theorem entries_sorted : ∀ (t : Tree) (p : List Nat), ((t.entries p).map Prod.fst).Pairwise (· < ·)
  | .mk ty v cs, p => by
    rw [Tree.entries, List.map_cons, List.pairwise_cons]
    refine ⟨?_, forestEntries_sorted cs p 0⟩
    intro q hq
    obtain ⟨x, hx, rfl⟩ := List.mem_map.mp hq
    obtain ⟨j, r, _, h⟩ := forestEntries_prefix cs p 0 x hx
    rw [h]
    show p < p ++ j :: r
    have := append_lt_append (p := p) (List.nil_lt_cons j r)
    rwa [List.append_nil] at this
theorem forestEntries_sorted : ∀ (cs : List Tree) (p : List Nat) (i : Nat),
    ((forestEntries p i cs).map Prod.fst).Pairwise (· < ·)
  | [], p, i => by rw [forestEntries]; exact List.Pairwise.nil
  | c :: cs, p, i => by
    rw [forestEntries, List.map_append, List.pairwise_append]
    refine ⟨entries_sorted c (p ++ [i]), forestEntries_sorted cs p (i + 1), ?_⟩
    intro a ha b hb
    obtain ⟨x, hx, rfl⟩ := List.mem_map.mp ha
    obtain ⟨y, hy, rfl⟩ := List.mem_map.mp hb
    obtain ⟨r, h1⟩ := entries_prefix c (p ++ [i]) x hx
    obtain ⟨j, r', hj, h2⟩ := forestEntries_prefix cs p (i + 1) y hy
    rw [h1, h2, List.append_assoc]
    apply append_lt_append
    exact List.cons_lt_cons_iff.mpr (Or.inl (by omega))
end

/-! ### Membership -/

mutual
theorem mem_entries : ∀ (t : Tree) (p q : List Nat) (u : Tree), (q, u) ∈ t.entries p ↔
    (q = p ∧ u = t) ∨ ∃ r, r ≠ [] ∧ q = p ++ r ∧ at? t.children r = some u
  | .mk ty v cs, p, q, u => by
    rw [Tree.entries, List.mem_cons, mem_forestEntries cs p 0 q u]
    constructor
    · rintro (h | ⟨k, r, rfl, h⟩)
      · cases h; exact Or.inl ⟨rfl, rfl⟩
      · exact Or.inr ⟨_, by simp, by rw [Nat.zero_add], h⟩
    · rintro (⟨rfl, rfl⟩ | ⟨r, hr, rfl, h⟩)
      · exact Or.inl rfl
      · obtain ⟨k, r, rfl⟩ := List.exists_cons_of_ne_nil hr
        exact Or.inr ⟨k, r, by rw [Nat.zero_add], h⟩
theorem mem_forestEntries : ∀ (cs : List Tree) (p : List Nat) (i : Nat) (q : List Nat) (u : Tree),
    (q, u) ∈ forestEntries p i cs ↔ ∃ k r, q = p ++ (i + k) :: r ∧ at? cs (k :: r) = some u
  | [], p, i, q, u => by
    rw [forestEntries]
    constructor
    · intro h; cases h
    · rintro ⟨k, r, _, h⟩
      cases r with
      | nil => simp [at?] at h
      | cons => rw [at?_cons (by simp)] at h; simp at h
  | c :: cs, p, i, q, u => by
    rw [forestEntries, List.mem_append, mem_entries c (p ++ [i]) q u, mem_forestEntries cs p (i + 1) q u]
    constructor
    · rintro ((⟨rfl, rfl⟩ | ⟨r, hr, rfl, h⟩) | ⟨k, r, rfl, h⟩)
      · exact ⟨0, [], by simp, by simp [at?]⟩
      · exact ⟨0, r, by simp, by rw [at?_cons hr]; simpa using h⟩
      · refine ⟨k + 1, r, by rw [show i + (k + 1) = i + 1 + k by omega], ?_⟩
        by_cases hr : r = []
        · subst hr; simpa [at?] using h
        · rw [at?_cons hr] at h ⊢; simpa using h
    · rintro ⟨k, r, rfl, h⟩
      cases k with
      | zero =>
        left
        by_cases hr : r = []
        · subst hr
          left
          simp [at?] at h
          exact ⟨by simp, h.symm⟩
        · right
          rw [at?_cons hr] at h
          exact ⟨r, hr, by simp, by simpa using h⟩
      | succ k =>
        right
        refine ⟨k, r, by rw [show i + (k + 1) = i + 1 + k by omega], ?_⟩
        by_cases hr : r = []
        · subst hr; simpa [at?] using h
        · rw [at?_cons hr] at h ⊢; simpa using h
end

/-! ### Lines -/

/-- For each level below the top: whether a sibling follows. -/
def mores (f : List Tree) (p : List Nat) : List Bool :=
  (List.range (p.length - 1)).map fun k => more f (p.take (k + 2))

theorem length_mores (f : List Tree) (p : List Nat) : (mores f p).length = p.length - 1 := by
  unfold mores; simp

theorem glyphs_mores (f : List Tree) (p : List Nat) : printBranches (mores f p) = glyphsAt f p := by
  apply List.ext_getElem
  · unfold printBranches glyphsAt; simp [length_mores]
  · intro k h1 h2
    have hk : k < p.length - 1 := by
      unfold glyphsAt at h2; simpa using h2
    simp only [printBranches, glyphsAt, List.getElem_map, List.getElem_zipIdx, List.getElem_range, length_mores,
      Nat.zero_add]
    have hm : (mores f p)[k]'(by rw [length_mores]; exact hk) = more f (p.take (k + 2)) := by
      unfold mores; simp
    rw [hm]
    by_cases hl : k + 2 = p.length
    · rw [if_pos (by omega), if_pos hl, hl, List.take_length]
    · rw [if_neg (by omega), if_neg hl]

theorem mores_snoc (f : List Tree) {p : List Nat} (hp : p ≠ []) (i : Nat) :
    mores f (p ++ [i]) = mores f p ++ [more f (p ++ [i])] := by
  unfold mores
  have hl : 0 < p.length := List.length_pos_iff.mpr hp
  have e : (p ++ [i]).length - 1 = (p.length - 1) + 1 := by simp; omega
  rw [e, List.range_succ, List.map_append]
  congr 1
  · apply List.map_congr_left
    intro k hk
    have hk' := List.mem_range.mp hk
    rw [List.take_append_of_le_length (by omega)]
  · simp only [List.map_cons, List.map_nil]
    rw [show p.length - 1 + 2 = (p ++ [i]).length by simp; omega, List.take_length]

mutual
theorem lines_eq (f : List Tree) : ∀ (t : Tree) (p : List Nat), p ≠ [] → at? f p = some t →
    t.lines (mores f p) = (t.entries p).map fun x => lineAt f x.1 x.2
  | .mk ty v cs, p, hp, h => by
    rw [Tree.lines, Tree.entries, List.map_cons]
    congr 1
    · unfold treeLine lineAt
      rw [glyphs_mores]
    · refine forestLines_eq f cs p 0 hp ?_
      intro k
      rw [Nat.zero_add, at?_append hp (by simp), h]
      simp [at?, Tree.children]
theorem forestLines_eq (f : List Tree) : ∀ (cs : List Tree) (p : List Nat) (i : Nat), p ≠ [] →
    (∀ k, at? f (p ++ [i + k]) = cs[k]?) →
    forestLines (mores f p) cs = (forestEntries p i cs).map fun x => lineAt f x.1 x.2
  | [], p, i, _, _ => by rw [forestLines, forestEntries]; rfl
  | c :: cs, p, i, hp, h => by
    rw [forestLines, forestEntries, List.map_append]
    have hm : more f (p ++ [i]) = !cs.isEmpty := by
      unfold more
      rw [List.getLast?_concat]
      dsimp only
      rw [List.dropLast_concat, h 1]
      cases cs <;> simp
    congr 1
    · rw [← hm, ← mores_snoc f hp]
      refine lines_eq f c (p ++ [i]) (by simp) ?_
      have := h 0
      simpa using this
    · refine forestLines_eq f cs p (i + 1) hp ?_
      intro k
      have := h (k + 1)
      rw [show i + (k + 1) = i + 1 + k by omega] at this
      simpa using this
end

/-- The lines of the top-level elements, one after the other. -/
def topLines (f : List Tree) : List Line := f.flatMap (Tree.lines [])

theorem topLines_eq (f : List Tree) : ∀ (cs : List Tree) (i : Nat), (∀ k, f[i + k]? = cs[k]?) →
    topLines cs = (forestEntries [] i cs).map fun x => lineAt f x.1 x.2 := by
  intro cs
  induction cs with
  | nil => intro i _; rw [forestEntries]; rfl
  | cons c cs ih =>
    intro i h
    rw [forestEntries, List.map_append]
    unfold topLines
    rw [List.flatMap_cons]
    congr 1
    · have h0 : at? f [i] = some c := by
        have := h 0
        simpa [at?] using this
      have := lines_eq f c [i] (by simp) h0
      exact this
    · refine ih (i + 1) ?_
      intro k
      have := h (k + 1)
      rw [show i + (k + 1) = i + 1 + k by omega] at this
      simpa using this

theorem shows_topLines (f : List Tree) : Shows f (topLines f) := by
  refine ⟨forestEntries [] 0 f, forestEntries_sorted f [] 0, ?_, topLines_eq f f 0 (by simp)⟩
  intro p t
  rw [mem_forestEntries]
  constructor
  · rintro ⟨k, r, rfl, h⟩
    simpa using h
  · intro h
    cases p with
    | nil => simp [at?] at h
    | cons k r => exact ⟨k, r, by simp, h⟩

theorem Shows.unique {f : List Tree} {a b : List Line} (ha : Shows f a) (hb : Shows f b) : a = b := by
  obtain ⟨ps, h1, h2, rfl⟩ := ha
  obtain ⟨qs, g1, g2, rfl⟩ := hb
  have sorted : ∀ {l : List (List Nat × Tree)}, (l.map Prod.fst).Pairwise (· < ·) →
      l.Pairwise fun x y => x.1 < y.1 := fun h => List.pairwise_map.mp h
  have : ps = qs := by
    have key : ∀ (l m : List (List Nat × Tree)), (l.Pairwise fun x y => x.1 < y.1) → (m.Pairwise fun x y => x.1 < y.1) →
        (∀ x, x ∈ l ↔ x ∈ m) → l = m := by
      intro l
      induction l with
      | nil =>
        intro m _ _ h
        cases m with
        | nil => rfl
        | cons x m => exact absurd ((h x).mpr (by simp)) (by simp)
      | cons x l ih =>
        intro m hl hm h
        cases m with
        | nil => exact absurd ((h x).mp (by simp)) (by simp)
        | cons y m =>
          have hl' := List.pairwise_cons.mp hl
          have hm' := List.pairwise_cons.mp hm
          have hxy : x = y := by
            rcases List.mem_cons.mp ((h x).mp (by simp)) with e | hx
            · exact e
            · rcases List.mem_cons.mp ((h y).mpr (by simp)) with e | hy
              · exact e.symm
              · exact absurd (List.lt_trans (hl'.1 y hy) (hm'.1 x hx)) (List.lt_irrefl _)
          subst hxy
          congr 1
          refine ih m hl'.2 hm'.2 ?_
          intro z
          constructor
          · intro hz
            rcases List.mem_cons.mp ((h z).mp (List.mem_cons_of_mem _ hz)) with e | hz'
            · subst e; exact absurd (hl'.1 z hz) (List.lt_irrefl _)
            · exact hz'
          · intro hz
            rcases List.mem_cons.mp ((h z).mpr (List.mem_cons_of_mem _ hz)) with e | hz'
            · subst e; exact absurd (hm'.1 z hz) (List.lt_irrefl _)
            · exact hz'
    refine key ps qs (sorted h1) (sorted g1) ?_
    rintro ⟨p, t⟩
    rw [h2, g2]
  rw [this]

end Verif.Dissect
