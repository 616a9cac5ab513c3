import Verif.Spec.Consumer
import Mathlib.Data.List.Basic

/-! # Lemmas about the consumer -/

namespace Verif.Consumer

/-- A `std::map` is ordered. -/
abbrev Sorted (l : List (Nat × Bytes)) : Prop := l.Pairwise (fun x y => x.1 < y.1)

theorem mem_mapSet {k c l} (hl : Sorted l) : ∀ x, x ∈ mapSet k c l ↔ x = (k, c) ∨ (x ∈ l ∧ x.1 ≠ k) := by
  induction l with
  | nil => intro x; simp [mapSet]
  | cons y l ih =>
    obtain ⟨j, d⟩ := y
    rintro ⟨i, e⟩
    rw [Sorted, List.pairwise_cons] at hl
    have h1 := hl.1
    simp only [mapSet]
    split
    · rename_i hlt
      constructor
      · intro hx
        rcases List.mem_cons.mp hx with h | h
        · exact Or.inl h
        · refine Or.inr ⟨h, ?_⟩
          rcases List.mem_cons.mp h with h | h
          · simp at h; omega
          · have := h1 _ h; dsimp only at this; omega
      · rintro (h | ⟨h, _⟩)
        · exact List.mem_cons.mpr (Or.inl h)
        · exact List.mem_cons_of_mem _ h
    · split
      · rename_i _ he
        subst he
        constructor
        · intro hx
          rcases List.mem_cons.mp hx with h | h
          · exact Or.inl h
          · have := h1 _ h
            refine Or.inr ⟨List.mem_cons_of_mem _ h, ?_⟩
            dsimp only at this; omega
        · rintro (h | ⟨h, hne⟩)
          · exact List.mem_cons.mpr (Or.inl h)
          · rcases List.mem_cons.mp h with h | h
            · simp only [Prod.mk.injEq] at h; exact absurd h.1 hne
            · exact List.mem_cons_of_mem _ h
      · rename_i hn hne
        rw [List.mem_cons, ih hl.2]
        constructor
        · rintro (h | h | ⟨h, h'⟩)
          · simp only [Prod.mk.injEq] at h
            exact Or.inr ⟨List.mem_cons.mpr (Or.inl (by simp [h])), by omega⟩
          · exact Or.inl h
          · exact Or.inr ⟨List.mem_cons_of_mem _ h, h'⟩
        · rintro (h | ⟨h, h'⟩)
          · exact Or.inr (Or.inl h)
          · rcases List.mem_cons.mp h with h | h
            · exact Or.inl h
            · exact Or.inr (Or.inr ⟨h, h'⟩)

theorem sorted_mapSet {k c l} (hl : Sorted l) : Sorted (mapSet k c l) := by
  induction l with
  | nil => simp [mapSet, Sorted]
  | cons y l ih =>
    obtain ⟨j, d⟩ := y
    have hl' := hl
    rw [Sorted, List.pairwise_cons] at hl
    have h1 := hl.1
    simp only [mapSet]
    split
    · rw [Sorted, List.pairwise_cons]
      refine ⟨?_, hl'⟩
      intro x hx
      rcases List.mem_cons.mp hx with rfl | h
      · assumption
      · have := h1 _ h; dsimp only at this ⊢; omega
    · split
      · rename_i _ he
        subst he
        rw [Sorted, List.pairwise_cons]
        exact ⟨fun x hx => h1 x hx, hl.2⟩
      · rename_i hn hne
        rw [Sorted, List.pairwise_cons]
        refine ⟨?_, ih hl.2⟩
        intro x hx
        rcases (mem_mapSet hl.2 x).mp hx with rfl | ⟨h, _⟩
        · dsimp only; omega
        · exact h1 x h

/-- What the output loop does. -/
theorem writeLoop_spec (l : List (Nat × Bytes)) : ∀ next out, ∃ ds : List Bytes,
    (writeLoop l next out).2.1 = next + ds.length ∧
    (writeLoop l next out).2.2 = out ++ ds.flatten ∧
    (∀ (i : Nat) c, ds[i]? = some c → (next + i, c) ∈ l) ∧
    (writeLoop l next out).1 <:+ l ∧
    (∀ x ∈ l, x ∈ (writeLoop l next out).1 ∨ (next ≤ x.1 ∧ x.1 < next + ds.length)) ∧
    (∀ c, (writeLoop l next out).1.head? ≠ some (next + ds.length, c)) := by
  induction l with
  | nil => intro next out; exact ⟨[], by simp [writeLoop]⟩
  | cons y l ih =>
    obtain ⟨j, c⟩ := y
    intro next out
    simp only [writeLoop]
    split
    · rename_i he
      subst he
      obtain ⟨ds, h1, h2, h3, h4, h5, h6⟩ := ih (j + 1) (out ++ c)
      refine ⟨c :: ds, ?_, ?_, ?_, ?_, ?_, ?_⟩
      · rw [h1]; simp; omega
      · rw [h2]; simp
      · intro i d hd
        cases i with
        | zero => simp at hd; simp [hd]
        | succ i =>
          have := h3 i d (by simpa using hd)
          rw [show j + (i + 1) = j + 1 + i by omega]
          exact List.mem_cons_of_mem _ this
      · exact h4.trans (List.suffix_cons _ _)
      · intro x hx
        rcases List.mem_cons.mp hx with rfl | hx
        · right; simp
        · rcases h5 x hx with h | h
          · exact Or.inl h
          · right; simp; omega
      · intro d
        have := h6 d
        rw [show j + (c :: ds).length = j + 1 + ds.length by simp; omega]
        exact this
    · rename_i hne
      refine ⟨[], by simp, by simp, by simp, List.suffix_refl _, fun x hx => Or.inl hx, ?_⟩
      intro d
      simp only [List.head?_cons, List.length_nil, Nat.add_zero]
      intro h
      simp at h
      exact hne h.1

/-- After the loop, if nothing older was buffered, only later segments are left. -/
theorem writeLoop_later {l : List (Nat × Bytes)} (hl : Sorted l) : ∀ next out,
    (∀ x ∈ l, next ≤ x.1) → ∀ x ∈ (writeLoop l next out).1, (writeLoop l next out).2.1 < x.1 := by
  induction l with
  | nil => intro next out _ x hx; simp [writeLoop] at hx
  | cons y l ih =>
    obtain ⟨j, c⟩ := y
    rw [Sorted, List.pairwise_cons] at hl
    intro next out h
    simp only [writeLoop]
    split
    · rename_i he
      subst he
      exact ih hl.2 _ _ (fun x hx => hl.1 x hx)
    · rename_i hne
      intro x hx
      have h1 := h (j, c) (by simp)
      dsimp only at h1 ⊢
      rcases List.mem_cons.mp hx with rfl | hx
      · dsimp only; omega
      · have := hl.1 x hx; dsimp only at this; omega

/-- What is true at all times, `acc` being the accepted segments so far. -/
structure Inv (acc : List (Nat × Bytes)) (s : St) : Prop where
  sorted : Sorted s.buffered
  from_ : ∀ x ∈ s.buffered, x ∈ acc
  written : ∃ cs : List Bytes, s.out = cs.flatten ∧ s.nextToPrint = cs.length ∧
    ∀ (j : Nat) c, cs[j]? = some c → (j, c) ∈ acc
  kept : ∀ x ∈ acc, x.1 < s.nextToPrint ∨ ∃ c, (x.1, c) ∈ s.buffered
  head : ∀ c, s.buffered.head? ≠ some (s.nextToPrint, c)

theorem inv_init : Inv [] {} :=
  ⟨List.Pairwise.nil, by simp, ⟨[], by simp⟩, by simp, by simp⟩

theorem inv_accept {acc} {s : St} {k : Nat} {p : Pkt} (h : Inv acc s) (hp : p.appNack = false) :
    Inv (acc ++ [(k, p.content)]) (s.onValid k p) := by
  obtain ⟨h1, h2, ⟨cs, h3, h4, h5⟩, h6, h7⟩ := h
  unfold St.onValid
  rw [if_neg (by simp [hp])]
  unfold St.writeInOrderData
  dsimp only
  obtain ⟨ds, g1, g2, g3, g4, g5, g6⟩ := writeLoop_spec (mapSet k p.content s.buffered) s.nextToPrint s.out
  have hm := fun x => mem_mapSet (k := k) (c := p.content) h1 x
  have hin : ∀ x ∈ mapSet k p.content s.buffered, x ∈ acc ++ [(k, p.content)] := by
    intro x hx
    rcases (hm x).mp hx with rfl | ⟨hx, _⟩
    · simp
    · simp [h2 x hx]
  refine ⟨?_, ?_, ⟨cs ++ ds, ?_, ?_, ?_⟩, ?_, ?_⟩
  · exact (sorted_mapSet h1).sublist g4.sublist
  · intro x hx
    exact hin x (g4.subset hx)
  · dsimp only; rw [g2, h3]; simp
  · dsimp only; rw [g1, h4]; simp
  · intro j c hj
    rcases Nat.lt_or_ge j cs.length with hlt | hge
    · rw [List.getElem?_append_left hlt] at hj
      simp [h5 j c hj]
    · rw [List.getElem?_append_right hge] at hj
      have := hin _ (g3 _ c hj)
      rwa [h4, Nat.add_sub_cancel' hge] at this
  · dsimp only
    rw [g1]
    have key : ∀ i, (i < s.nextToPrint ∨ ∃ c, (i, c) ∈ mapSet k p.content s.buffered) →
        i < s.nextToPrint + ds.length ∨ ∃ c, (i, c) ∈ (writeLoop (mapSet k p.content s.buffered) s.nextToPrint s.out).1 := by
      rintro i (hi | ⟨c, hc⟩)
      · left; omega
      · rcases g5 _ hc with h | h
        · exact Or.inr ⟨c, h⟩
        · exact Or.inl h.2
    intro x hx
    apply key
    rcases List.mem_append.mp hx with hx | hx
    · rcases h6 x hx with h | ⟨c, hc⟩
      · exact Or.inl h
      · by_cases hk : x.1 = k
        · exact Or.inr ⟨p.content, (hm _).mpr (Or.inl (by rw [hk]))⟩
        · exact Or.inr ⟨c, (hm _).mpr (Or.inr ⟨hc, hk⟩)⟩
    · simp at hx
      subst hx
      exact Or.inr ⟨p.content, (hm _).mpr (Or.inl rfl)⟩
  · dsimp only; rw [g1]; exact g6

theorem arrived_snoc (es e) : arrived (es ++ [e]) = arrived es ++ arrived [e] := by
  simp [arrived]

/-- The state of the consumer depends on the list of packets under validation in no other way. -/
theorem inv_validating {acc s v} (h : Inv acc s) : Inv acc { s with validating := v } :=
  ⟨h.sorted, h.from_, h.written, h.kept, h.head⟩

theorem step_threw {s : St} {e : Ev} (h : s.threw ≠ none) : s.step e = s := by
  unfold St.step
  rw [if_pos]
  cases hs : s.threw <;> simp_all

theorem onValid_threw {s : St} {k : Nat} {p : Pkt} : (s.onValid k p).threw = if p.appNack then some .appNack else s.threw := by
  unfold St.onValid
  split <;> rfl

theorem step_bad {s : St} {e : Ev} (h : s.threw = none) (he : e.isBad = true) :
    (s.step e).threw = some e.exn ∧ (s.step e).out = s.out := by
  unfold St.step
  rw [if_neg (by simp [h])]
  cases e with
  | data => simp [Ev.isBad] at he
  | valid k p =>
    simp only [Ev.isBad] at he
    simp [St.onValid, he, Ev.exn]
  | invalid k p => simp [St.onInvalid, Ev.exn]

theorem step_good {s : St} {e : Ev} (h : s.threw = none) (he : e.isBad = false) : (s.step e).threw = none := by
  unfold St.step
  rw [if_neg (by simp [h])]
  cases e with
  | data => exact h
  | valid k p =>
    simp only [Ev.isBad] at he
    dsimp only
    rw [onValid_threw, if_neg (by simp [he])]; exact h
  | invalid k p => simp [Ev.isBad] at he

theorem step_inv {acc} {s : St} {e : Ev} (h : Inv acc s) (ht : s.threw = none) (he : e.isBad = false) :
    Inv (acc ++ arrived [e]) (s.step e) := by
  unfold St.step
  rw [if_neg (by simp [ht])]
  cases e with
  | data k p => simpa [arrived] using inv_validating h
  | valid k p =>
    simp only [Ev.isBad] at he
    have : arrived [Ev.valid k p] = [(k, p.content)] := by simp [arrived, he]
    rw [this]
    exact inv_accept (inv_validating h) he
  | invalid k p => simp [Ev.isBad] at he

/-- As long as no bad packet was seen, no exception was thrown and the invariant holds. -/
theorem run_inv {es s} (h : machine.Run es s) (hb : ∀ e ∈ es, e.isBad = false) :
    s.threw = none ∧ Inv (arrived es) s := by
  induction h with
  | nil => exact ⟨rfl, inv_init⟩
  | @snoc es s e hr he ih =>
    obtain ⟨h1, h2⟩ := ih (fun x hx => hb x (by simp [hx]))
    have h3 := hb e (by simp)
    refine ⟨step_good h1 h3, ?_⟩
    rw [arrived_snoc]
    exact step_inv h2 h1 h3

/-- An execution up to its first bad packet. -/
theorem run_prefix {es s} (h : machine.Run es s) : ∀ pre post, es = pre ++ post →
    ∃ s1, machine.Run pre s1 ∧ machine.RunFrom s1 post s := by
  induction h with
  | nil =>
    intro pre post e
    simp only [List.nil_eq, List.append_eq_nil_iff] at e
    obtain ⟨rfl, rfl⟩ := e
    exact ⟨_, Machine.Run.nil, Machine.RunFrom.nil⟩
  | @snoc es s e hr he ih =>
    intro pre post hp
    rcases List.eq_nil_or_concat post with rfl | ⟨post', x, rfl⟩
    · simp only [List.append_nil] at hp
      subst hp
      exact ⟨_, Machine.Run.snoc e hr he, Machine.RunFrom.nil⟩
    · rw [List.concat_eq_append, ← List.append_assoc] at hp
      have := List.append_inj' hp rfl
      simp only [List.cons.injEq, and_true] at this
      obtain ⟨h1, h2⟩ := this
      subst h2
      obtain ⟨s1, g1, g2⟩ := ih pre post' h1
      refine ⟨s1, g1, ?_⟩
      rw [List.concat_eq_append]
      exact Machine.RunFrom.snoc e g2 he

theorem runFrom_threw {s : St} {es s'} (h : machine.RunFrom s es s') (ht : s.threw ≠ none) : s' = s := by
  induction h with
  | nil => rfl
  | snoc e _ _ ih =>
    have : machine.step = St.step := rfl
    rw [this, ih]; exact step_threw ht

/-- Every segment is accepted at a time when not all segments up to it have been accepted. -/
def NotAgain (es : List Ev) : Prop :=
  ∀ pre k p post, es = pre ++ Ev.valid k p :: post → ∃ j ≤ k, ∀ c, (j, c) ∉ arrived pre

theorem notAgain_of_nodup {es} (hd : ((arrived es).map Prod.fst).Nodup) (hb : ∀ e ∈ es, e.isBad = false) :
    NotAgain es := by
  intro pre k p post e
  have hp : p.appNack = false := hb (.valid k p) (by rw [e]; simp)
  have : arrived es = arrived pre ++ (k, p.content) :: arrived post := by
    rw [e]; simp [arrived, hp]
  rw [this, List.map_append, List.nodup_append] at hd
  exact ⟨k, Nat.le_refl _, fun c hc => hd.2.2 k (List.mem_map_of_mem hc) k (by simp) rfl⟩

/-- If no segment is accepted after it was written, only later segments are buffered. -/
theorem run_fresh {es s} (h : machine.Run es s) (hb : ∀ e ∈ es, e.isBad = false)
    (hn : NotAgain es) : ∀ x ∈ s.buffered, s.nextToPrint < x.1 := by
  induction h with
  | nil => simp [machine]
  | @snoc es s e hr he ih =>
    have hb' : ∀ e ∈ es, e.isBad = false := fun x hx => hb x (by simp [hx])
    obtain ⟨h1, h2⟩ := run_inv hr hb'
    have ih := ih hb' (fun pre k p post hp => hn pre k p (post ++ [e]) (by rw [hp]; simp))
    have h3 := hb e (by simp)
    have hst : machine.step = St.step := rfl
    rw [hst]
    unfold St.step
    rw [if_neg (by simp [h1])]
    cases e with
    | data k p => exact ih
    | invalid k p => simp [Ev.isBad] at h3
    | valid k p =>
      simp only [Ev.isBad] at h3
      obtain ⟨j, hj, hjn⟩ := hn es k p [] rfl
      dsimp only
      unfold St.onValid
      rw [if_neg (by simp [h3])]
      unfold St.writeInOrderData
      dsimp only
      apply writeLoop_later (sorted_mapSet h2.sorted)
      intro x hx
      rcases (mem_mapSet h2.sorted x).mp hx with rfl | ⟨hx, _⟩
      · dsimp only
        by_contra hlt
        obtain ⟨cs, _, g2, g3⟩ := h2.written
        have hk : j < cs.length := by omega
        exact hjn _ (g3 j cs[j] (by simp [hk]))
      · exact Nat.le_of_lt (ih x hx)

/-- Then the output consists of all segments before the first one that was not accepted. -/
theorem run_first {es s} (h : machine.Run es s) (hb : ∀ e ∈ es, e.isBad = false)
    (hn : NotAgain es) :
    ∃ cs : List Bytes, s.out = cs.flatten ∧ s.nextToPrint = cs.length ∧
      (∀ (j : Nat) c, cs[j]? = some c → (j, c) ∈ arrived es) ∧
      ∀ c, (cs.length, c) ∉ arrived es := by
  obtain ⟨h1, h2⟩ := run_inv h hb
  obtain ⟨cs, g1, g2, g3⟩ := h2.written
  refine ⟨cs, g1, g2, g3, ?_⟩
  intro c hc
  rcases h2.kept _ hc with h' | ⟨c', h'⟩
  · dsimp only at h'; omega
  · have := run_fresh h hb hn _ h'
    dsimp only at this; omega

/-- A list of segments of an object, starting at the first one. -/
theorem eq_take {segs cs : List Bytes} (hcs : ∀ (j : Nat) c, cs[j]? = some c → segs[j]? = some c) :
    cs = segs.take cs.length ∧ cs.length ≤ segs.length := by
  have htake : cs = segs.take cs.length := by
    apply List.ext_getElem?
    intro i
    rcases Nat.lt_or_ge i cs.length with hlt | hge
    · rw [List.getElem?_take_of_lt hlt, List.getElem?_eq_getElem hlt]
      exact (hcs i _ (List.getElem?_eq_getElem hlt)).symm
    · rw [List.getElem?_eq_none hge, List.getElem?_take_eq_none hge]
  refine ⟨htake, ?_⟩
  have := congrArg List.length htake
  rw [List.length_take] at this
  omega

/-! ## A segment that arrives again after it was written -/

theorem writeLoop_blocked {l : List (Nat × Bytes)} {next out} (hl : Sorted l)
    (hb : ∃ x ∈ l, x.1 < next) : writeLoop l next out = (l, next, out) := by
  cases l with
  | nil => obtain ⟨x, hx, _⟩ := hb; cases hx
  | cons y l =>
    obtain ⟨j, c⟩ := y
    rw [Sorted, List.pairwise_cons] at hl
    obtain ⟨x, hx, hlt⟩ := hb
    have hj : j < next := by
      rcases List.mem_cons.mp hx with rfl | hx
      · exact hlt
      · have := hl.1 x hx; dsimp only at this; omega
    simp only [writeLoop]
    rw [if_neg (by omega)]

/-- A buffered segment is older than the next one to write. -/
def Blocked (s : St) : Prop := Sorted s.buffered ∧ ∃ x ∈ s.buffered, x.1 < s.nextToPrint

theorem onValid_blocked {s : St} {k : Nat} {p : Pkt} (hs : Sorted s.buffered)
    (h : (∃ x ∈ s.buffered, x.1 < s.nextToPrint) ∨ (k < s.nextToPrint ∧ p.appNack = false)) :
    (s.onValid k p).out = s.out ∧ ((s.onValid k p).threw ≠ none ∨ Blocked (s.onValid k p)) := by
  unfold St.onValid
  split
  · exact ⟨rfl, Or.inl (by simp)⟩
  · have hm := fun x => mem_mapSet (k := k) (c := p.content) hs x
    have hb : ∃ x ∈ mapSet k p.content s.buffered, x.1 < s.nextToPrint := by
      rcases h with ⟨x, hx, hlt⟩ | ⟨hk, _⟩
      · by_cases hxk : x.1 = k
        · exact ⟨(k, p.content), (hm _).mpr (Or.inl rfl), by dsimp only; omega⟩
        · exact ⟨x, (hm _).mpr (Or.inr ⟨hx, hxk⟩), hlt⟩
      · exact ⟨(k, p.content), (hm _).mpr (Or.inl rfl), hk⟩
    have := writeLoop_blocked (out := s.out) (sorted_mapSet hs) hb
    unfold St.writeInOrderData
    dsimp only
    rw [this]
    exact ⟨rfl, Or.inr ⟨sorted_mapSet hs, hb⟩⟩

theorem step_blocked {s : St} {e : Ev} (h : s.threw ≠ none ∨ Blocked s) :
    (s.step e).out = s.out ∧ ((s.step e).threw ≠ none ∨ Blocked (s.step e)) := by
  by_cases ht : s.threw = none
  · rcases h with h | h
    · exact absurd ht h
    · unfold St.step
      rw [if_neg (by simp [ht])]
      cases e with
      | data k p => exact ⟨rfl, Or.inr h⟩
      | valid k p =>
        exact onValid_blocked (s := { s with validating := s.validating.erase (k, p) }) h.1 (Or.inl h.2)
      | invalid k p => exact ⟨rfl, Or.inl (by simp [St.onInvalid])⟩
  · rw [step_threw ht]
    exact ⟨rfl, Or.inl ht⟩

theorem runFrom_blocked {s : St} {es s'} (h : machine.RunFrom s es s')
    (hb : s.threw ≠ none ∨ Blocked s) : s'.out = s.out ∧ (s'.threw ≠ none ∨ Blocked s') := by
  induction h with
  | nil => exact ⟨rfl, hb⟩
  | @snoc es s' e _ _ ih =>
    obtain ⟨h1, h2⟩ := step_blocked (e := e) ih.2
    exact ⟨h1.trans ih.1, h2⟩

end Verif.Consumer
