import Verif.Proofs.Wireshark

/-! # Lemmas about the tree of the Wireshark dissector -/

namespace Verif.Wireshark

open Spec

theorem mapM_cons_ok {α β : Type} {f : α → Except Err β} {a : α} {l : List α} {ts : List β} :
    (a :: l).mapM f = .ok ts ↔ ∃ t ts', f a = .ok t ∧ l.mapM f = .ok ts' ∧ ts = t :: ts' := by
  rw [List.mapM_cons]
  cases h1 : f a with
  | error e => constructor
               · intro h; cases h
               · rintro ⟨t, ts', h, _⟩; cases h
  | ok t =>
    cases h2 : l.mapM f with
    | error e => constructor
                 · intro h; cases h
                 · rintro ⟨t, ts', _, h, _⟩; cases h
    | ok ts' =>
      constructor
      · intro h; cases h; exact ⟨t, ts', rfl, rfl, rfl⟩
      · rintro ⟨_, _, h, h', rfl⟩; cases h; cases h'; rfl

theorem mapM_nil_ok {α β : Type} {f : α → Except Err β} {ts : List β} : ([] : List α).mapM f = .ok ts ↔ ts = [] := by
  rw [List.mapM_nil]
  constructor
  · intro h; cases h; rfl
  · rintro rfl; rfl

theorem mapM_error {α β : Type} {f : α → Except Err β} {e : Err} : ∀ {l : List α}, l.mapM f = .error e →
    ∃ a ∈ l, f a = .error e := by
  intro l
  induction l with
  | nil => intro h; cases h
  | cons a l ih =>
    intro h
    rw [List.mapM_cons] at h
    cases h1 : f a with
    | error e' => rw [h1] at h; cases h; exact ⟨a, List.mem_cons_self, h1⟩
    | ok t =>
      rw [h1] at h
      cases h2 : l.mapM f with
      | error e' =>
        rw [h2] at h; cases h
        obtain ⟨x, hx, hf⟩ := ih h2
        exact ⟨x, List.mem_cons_of_mem _ hx, hf⟩
      | ok ts => rw [h2] at h; cases h

/-- The block without the mark that it has a tree. -/
def Block.plain (b : Block) : Block := { b with tree := false }

@[simp] theorem plain_offset (b : Block) : b.plain.offset = b.offset := rfl
@[simp] theorem plain_size (b : Block) : b.plain.size = b.size := rfl

/-- What holds of everything that is shown. -/
structure Good (tvb : Bytes) (x : Tree) : Prop where
  header : getBlock tvb x.block.offset = .ok (some x.block.plain)
  narrow : x.block.lengthLen ≠ 9
  inside : x.block.offset + x.block.size ≤ tvb.length
  subs : getSubBlocks tvb x.block x.block.length =
    .ok (if x.parsed then some (x.elements.map fun y => y.block.plain) else none)
  leaf : x.parsed = false → x.elements = []
  info : addInfo tvb x.block (if x.parsed then some (x.elements.map fun y => y.block.plain) else none) = .ok x.value

theorem build_good {tvb : Bytes} : ∀ {n : Nat} {b : Block} {t : Tree}, build tvb n b = .ok t →
    getBlock tvb b.offset = .ok (some b.plain) → b.lengthLen ≠ 9 → b.offset + b.size ≤ tvb.length →
    t.block = b ∧ ∀ x, Inside t x → Good tvb x := by
  intro n
  induction n with
  | zero => intro b t h; cases h
  | succ n ih =>
    intro b t h hg h9 hin
    rw [build] at h
    cases hs : getSubBlocks tvb b b.length with
    | error e => rw [hs] at h; cases h
    | ok es =>
      rw [hs] at h
      dsimp only at h
      cases hi : addInfo tvb b es with
      | error e => rw [hi] at h; cases h
      | ok v =>
        rw [hi] at h
        dsimp only at h
        cases hm : (es.getD []).mapM fun c => build tvb n { c with tree := true } with
        | error e => rw [hm] at h; cases h
        | ok ts =>
          rw [hm] at h
          cases h
          refine ⟨rfl, ?_⟩
          have key : ∀ (l : List Block) (ts : List Tree), (∀ c ∈ l, getBlock tvb c.offset = .ok (some c) ∧ c.lengthLen ≠ 9 ∧
              c.offset + c.size ≤ tvb.length) →
              (l.mapM fun c => build tvb n { c with tree := true }) = .ok ts →
              ts.map (fun y => y.block.plain) = l ∧ ∀ t ∈ ts, ∀ x, Inside t x → Good tvb x := by
            intro l
            induction l with
            | nil => intro ts _ h; rw [mapM_nil_ok.mp h]; exact ⟨rfl, by simp⟩
            | cons c l ihl =>
              intro ts hc h
              obtain ⟨t, ts', h1, h2, rfl⟩ := mapM_cons_ok.mp h
              obtain ⟨c1, c2, c3⟩ := hc c List.mem_cons_self
              have hpl : ({ c with tree := true } : Block).plain = c := by
                have : c.tree = false := (getBlock_sound c1).2.1
                cases c; simp only [Block.plain] at this ⊢; rw [this]
              obtain ⟨i1, i2⟩ := ih h1 (by rw [hpl]; exact c1) c2 c3
              obtain ⟨j1, j2⟩ := ihl ts' (fun x hx => hc x (List.mem_cons_of_mem _ hx)) h2
              refine ⟨by rw [List.map_cons, j1, i1, hpl], ?_⟩
              intro t' ht'
              rcases List.mem_cons.mp ht' with rfl | ht'
              · exact i2
              · exact j2 t' ht'
          have hsz := size_eq h9
          have hchildren : ∀ c ∈ es.getD [], getBlock tvb c.offset = .ok (some c) ∧ c.lengthLen ≠ 9 ∧
              c.offset + c.size ≤ tvb.length := by
            intro c hc
            cases es with
            | none => cases hc
            | some cs =>
              obtain ⟨-, hall⟩ := getSubBlocks_sound b.length b.length (Nat.le_refl _) (Nat.le_refl _) hs
              obtain ⟨a1, a2, a3, a4, a5⟩ := hall c hc
              refine ⟨a1, a2, ?_⟩
              have : b.start = b.offset + b.typeLen + b.lengthLen := rfl
              omega
          obtain ⟨k1, k2⟩ := key _ _ hchildren hm
          intro x hx
          cases hx with
          | self =>
            have hes : (if es.isSome = true then some (ts.map fun y => y.block.plain) else none) = es := by
              rw [k1]; cases es <;> rfl
            refine ⟨hg, h9, hin, ?_, ?_, ?_⟩
            · show getSubBlocks tvb b b.length = .ok (if es.isSome = true then some (ts.map fun y => y.block.plain) else none)
              rw [hes]; exact hs
            · intro hp
              show ts = []
              cases es with
              | none => exact mapM_nil_ok.mp hm
              | some _ => cases hp
            · show addInfo tvb b (if es.isSome = true then some (ts.map fun y => y.block.plain) else none) = .ok v
              rw [hes]; exact hi
          | child hc hx => exact k2 _ hc x hx

mutual
/-- The visits of the second queue, in order. -/
def trace : Tree → List Tree
  | .node b v p es => .node b v p es :: (if p then traceAll es ++ [.node b v p es] else [])
/-- Of elements: the last first. -/
def traceAll : List Tree → List Tree
  | [] => []
  | e :: es => traceAll es ++ trace e
end

mutual
theorem visit_tree : ∀ (t : Tree) (fuel : Nat) (q : List (Bool × Tree)) (c : Cols),
    visit (fuel + t.rounds) ((false, t) :: q) c = visit fuel q ((trace t).foldl Cols.update c)
  | .node b v p es, fuel, q, c => by
    cases p with
    | false =>
      rw [Tree.rounds, if_neg (by decide), trace, if_neg (by decide), visit]
      rfl
    | true =>
      have h := visit_all es (fuel + 1) ((true, .node b v true es) :: q) (c.update (.node b v true es))
      rw [Tree.rounds, if_pos rfl, trace, if_pos rfl]
      have e : fuel + (2 + roundsAll es) = fuel + 1 + roundsAll es + 1 := by omega
      rw [e, visit]
      rw [if_neg (by simp [Tree.parsed])]
      refine h.trans ?_
      rw [visit]
      simp [Tree.parsed]
theorem visit_all : ∀ (es : List Tree) (fuel : Nat) (q : List (Bool × Tree)) (c : Cols),
    visit (fuel + roundsAll es) (es.foldl (fun q e => (false, e) :: q) q) c =
      visit fuel q ((traceAll es).foldl Cols.update c)
  | [], fuel, q, c => by rw [roundsAll, traceAll]; rfl
  | e :: es, fuel, q, c => by
    have h1 := visit_all es (fuel + e.rounds) ((false, e) :: q) c
    have h2 := visit_tree e fuel q ((traceAll es).foldl Cols.update c)
    rw [roundsAll, traceAll, List.foldl_cons, List.foldl_append, ← h2, ← h1]
    congr 1
    omega
end

theorem visit_eq (t : Tree) (c : Cols) : visit t.rounds [(false, t)] c = some ((trace t).foldl Cols.update c) := by
  have := visit_tree t 0 [] c
  rw [Nat.zero_add] at this
  rw [this, visit]

mutual
theorem mem_trace : ∀ (t : Tree) {x : Tree}, x ∈ trace t → Inside t x
  | .node b v p es, x, h => by
    rw [trace] at h
    rcases List.mem_cons.mp h with rfl | h
    · exact .self _
    · cases p with
      | false => rw [if_neg (by decide)] at h; cases h
      | true =>
        rw [if_pos rfl] at h
        rcases List.mem_append.mp h with h | h
        · obtain ⟨e, he, hx⟩ := mem_traceAll es h
          exact .child he hx
        · rw [List.mem_singleton.mp h]; exact .self _
theorem mem_traceAll : ∀ (es : List Tree) {x : Tree}, x ∈ traceAll es → ∃ e ∈ es, Inside e x
  | [], x, h => by rw [traceAll] at h; cases h
  | e :: es, x, h => by
    rw [traceAll] at h
    rcases List.mem_append.mp h with h | h
    · obtain ⟨y, hy, hx⟩ := mem_traceAll es h
      exact ⟨y, List.mem_cons_of_mem _ hy, hx⟩
    · exact ⟨e, List.mem_cons_self, mem_trace e h⟩
end

theorem traceAll_append (a b : List Tree) : traceAll (a ++ b) = traceAll b ++ traceAll a := by
  induction a with
  | nil => rw [List.nil_append, traceAll, List.append_nil]
  | cons x a ih => rw [List.cons_append, traceAll, traceAll, ih, List.append_assoc]

/-- The last visit of a tree is to its root. -/
theorem trace_last (t : Tree) : ∃ l, trace t = l ++ [t] ∧ ∀ x ∈ l, Inside t x := by
  cases t with
  | node b v p es =>
    rw [trace]
    cases p with
    | false => exact ⟨[], rfl, by simp⟩
    | true =>
      rw [if_pos rfl]
      refine ⟨.node b v true es :: traceAll es, rfl, ?_⟩
      intro x hx
      rcases List.mem_cons.mp hx with rfl | hx
      · exact .self _
      · obtain ⟨e, he, hx⟩ := mem_traceAll es hx
        exact .child he hx

/-! ## The loop over the packets -/

/-- `packets` is never entered again: the next block has no tree. -/
theorem packets_eq {tvb : Bytes} {b : Block} {left : Nat} {shown : List Tree} {cols : Cols} (hb : 0 < b.size) :
    packets tvb b left shown cols =
      if b.size ≤ left then
        if b.lengthLen = 9 then .error shown .badArgument
        else
          match build tvb (b.length + 1) { b with tree := true } with
          | .error e => .error shown e
          | .ok t =>
            if left = b.size then .done (shown ++ [t]) ((trace t).foldl Cols.update cols) none
            else
              match getBlock tvb (tvb.length - (left - b.size)) with
              | .ok (some b') =>
                if canBeValidNdnPacket b' then .error (shown ++ [t]) .nilIndex
                else finish tvb (left - b.size) (some b') (shown ++ [t]) ((trace t).foldl Cols.update cols)
              | _ => .done (shown ++ [t]) ((trace t).foldl Cols.update cols) none
      else finish tvb left (some b) shown cols := by
  rw [packets]
  by_cases h : b.size ≤ left
  · rw [dif_pos ⟨hb, h⟩, if_pos h]
    by_cases h9 : b.lengthLen = 9
    · rw [if_pos h9, if_pos h9]
    rw [if_neg h9, if_neg h9]
    cases hbd : build tvb (b.length + 1) { b with tree := true } with
    | error e => rfl
    | ok t =>
      dsimp only
      rw [visit_eq]
      dsimp only
      by_cases hl : left = b.size
      · rw [if_pos hl, if_neg (by omega)]
        unfold finish
        rw [if_neg (by omega)]
      · rw [if_neg hl, if_pos (by omega)]
        cases hg : getBlock tvb (tvb.length - (left - b.size)) with
        | error e => exact absurd hg (getBlock_not_error _ _ _)
        | ok o =>
          cases o with
          | none => simp [finish]
          | some b' =>
            dsimp only
            cases hv : canBeValidNdnPacket b' with
            | false => rfl
            | true =>
              have : b'.tree = false := (getBlock_sound hg).2.1
              rw [if_neg (by simp), if_pos (by rw [this]; decide), if_pos rfl]
  · rw [dif_neg (fun h' => h h'.2), if_neg h]

theorem findNdnPacket_spec {tvb : Bytes} : ∀ (n o : Nat), tvb.length - o ≤ n →
    (∃ b, findNdnPacket tvb o = .ok (some b) ∧ o ≤ b.offset ∧ b.offset + 2 < tvb.length ∧
      getBlock tvb b.offset = .ok (some b) ∧ canBeValidNdnPacket b = true ∧
      ∀ i c, o ≤ i → i < b.offset → getBlock tvb i = .ok (some c) → canBeValidNdnPacket c = false) ∨
    (findNdnPacket tvb o = .ok none ∧
      ∀ i c, o ≤ i → i + 2 < tvb.length → getBlock tvb i = .ok (some c) → canBeValidNdnPacket c = false) := by
  intro n
  induction n with
  | zero =>
    intro o h
    right
    rw [findNdnPacket, if_neg (by omega)]
    exact ⟨rfl, fun i c h1 h2 => by omega⟩
  | succ n ih =>
    intro o h
    rw [findNdnPacket]
    by_cases hl : o + 2 < tvb.length
    · rw [if_pos hl]
      have step : (∀ c, getBlock tvb o = .ok (some c) → canBeValidNdnPacket c = false) →
          (∃ b, findNdnPacket tvb (o + 1) = .ok (some b) ∧ o ≤ b.offset ∧ b.offset + 2 < tvb.length ∧
            getBlock tvb b.offset = .ok (some b) ∧ canBeValidNdnPacket b = true ∧
            ∀ i c, o ≤ i → i < b.offset → getBlock tvb i = .ok (some c) → canBeValidNdnPacket c = false) ∨
          (findNdnPacket tvb (o + 1) = .ok none ∧
            ∀ i c, o ≤ i → i + 2 < tvb.length → getBlock tvb i = .ok (some c) → canBeValidNdnPacket c = false) := by
        intro ho
        rcases ih (o + 1) (by omega) with ⟨b, h1, h2, h3, h4, h5, h6⟩ | ⟨h1, h2⟩
        · left
          refine ⟨b, h1, by omega, h3, h4, h5, ?_⟩
          intro i c i1 i2 i3
          by_cases e : i = o
          · subst e; exact ho c i3
          · exact h6 i c (by omega) i2 i3
        · right
          refine ⟨h1, ?_⟩
          intro i c i1 i2 i3
          by_cases e : i = o
          · subst e; exact ho c i3
          · exact h2 i c (by omega) i2 i3
      cases hg : getBlock tvb o with
      | error e => exact absurd hg (getBlock_not_error _ _ _)
      | ok x =>
        cases x with
        | none =>
          dsimp only
          exact step (fun c hc => by rw [hg] at hc; cases hc)
        | some b =>
          dsimp only
          have ho := (getBlock_sound hg).1
          cases hv : canBeValidNdnPacket b with
          | true =>
            rw [if_pos rfl]
            left
            exact ⟨b, rfl, by omega, by omega, by rw [ho]; exact hg, hv, fun i c h1 h2 => by omega⟩
          | false =>
            rw [if_neg (by decide)]
            exact step (fun c hc => by rw [hg] at hc; cases hc; exact hv)
    · rw [if_neg hl]
      right
      exact ⟨rfl, fun i c h1 h2 => by omega⟩

end Verif.Wireshark
