import Verif.Proofs.Consumer

/-! # C21, C23, C54: validation and in-order output of the segments -/

namespace Verif.Consumer

/-- **C21** Whatever the order in which segments are delivered and accepted, as long as no segment
is accepted twice and none is bad, the bytes written so far are exactly the contents of the
segments `0, 1, ..., n-1`, where `n` is the first segment that has not been accepted. -/
theorem C21_in_order {es s} (h : machine.Run es s) (hb : ∀ e ∈ es, e.isBad = false)
    (hd : ((arrived es).map Prod.fst).Nodup) :
    s.threw = none ∧
    ∃ cs : List Bytes, s.out = cs.flatten ∧
      (∀ (j : Nat) c, cs[j]? = some c → (j, c) ∈ arrived es) ∧
      ∀ c, (cs.length, c) ∉ arrived es := by
  obtain ⟨cs, h1, _, h3, h4⟩ := run_first h hb (notAgain_of_nodup hd hb)
  exact ⟨(run_inv h hb).1, cs, h1, h3, h4⟩

/-- **C21 (an object)** If moreover the accepted segments are those of the object with segments
`segs`, then at all times the output is the contents of the first so many segments; and once all
segments were accepted, the output is the content of the object. -/
theorem C21_object {segs : List Bytes} {es s} (h : machine.Run es s) (hb : ∀ e ∈ es, e.isBad = false)
    (hd : ((arrived es).map Prod.fst).Nodup) (ho : FromObject segs es) :
    (∃ n ≤ segs.length, s.out = (segs.take n).flatten ∧ ∀ c, (n, c) ∉ arrived es) ∧
    ((∀ k < segs.length, ∃ c, (k, c) ∈ arrived es) → s.out = segs.flatten) := by
  obtain ⟨_, cs, h1, h2, h3⟩ := C21_in_order h hb hd
  obtain ⟨htake, hle⟩ := eq_take (fun j c hj => ho j c (h2 j c hj))
  refine ⟨⟨cs.length, hle, by rw [← htake]; exact h1, h3⟩, ?_⟩
  intro hall
  have : segs.length ≤ cs.length := by
    by_contra hlt
    obtain ⟨c, hc⟩ := hall cs.length (by omega)
    exact h3 c hc
  rw [h1, htake, List.take_of_length_le this]

/-- **C21 (prefix safety)** Even when segments are accepted several times and when bad packets occur,
the output is at all times the contents of the first so many segments of the object, in order. -/
theorem C21_prefix_always {segs : List Bytes} {es s} (h : machine.Run es s) (ho : FromObject segs es) :
    ∃ n ≤ segs.length, s.out = (segs.take n).flatten := by
  have key : ∀ es s, machine.Run es s → FromObject segs es →
      ∃ n ≤ segs.length, s.out = (segs.take n).flatten ∧ (s.threw = none → Inv (arrived es) s) := by
    intro es s h
    induction h with
    | nil => intro _; exact ⟨0, by simp, by simp [machine], fun _ => inv_init⟩
    | @snoc es s e hr he ih =>
      intro ho
      have ho' : FromObject segs es := fun k c hk => ho k c (by rw [arrived_snoc]; simp [hk])
      obtain ⟨n, hn, h1, h2⟩ := ih ho'
      have hst : machine.step = St.step := rfl
      rw [hst]
      by_cases ht : s.threw = none
      · cases hbad : e.isBad with
        | true =>
          obtain ⟨g1, g2⟩ := step_bad ht hbad
          exact ⟨n, hn, by rw [g2, h1], fun h => by rw [g1] at h; cases h⟩
        | false =>
          have hi := step_inv (h2 ht) ht hbad
          rw [← arrived_snoc] at hi
          obtain ⟨cs, g1, _, g3⟩ := hi.written
          obtain ⟨htake, hle⟩ := eq_take (fun j c hj => ho j c (g3 j c hj))
          exact ⟨cs.length, hle, by rw [← htake]; exact g1, fun _ => hi⟩
      · rw [step_threw ht]
        exact ⟨n, hn, h1, fun h => absurd h ht⟩
  obtain ⟨n, hn, h1, _⟩ := key es s h ho
  exact ⟨n, hn, h1⟩

/-- **C23** The first packet that fails validation, or that is accepted and carries an application
Nack, makes the consumer throw the exception for that case; the output then consists of contents
of segments accepted before, and nothing is written afterwards, whatever happens. -/
theorem C23_bad_never_written {pre e post s} (h : machine.Run (pre ++ e :: post) s)
    (hb : ∀ x ∈ pre, x.isBad = false) (he : e.isBad = true) :
    s.threw = some e.exn ∧
    ∃ s1, machine.Run pre s1 ∧ s1.threw = none ∧ s.out = s1.out ∧
      ∃ cs : List Bytes, s.out = cs.flatten ∧
        ∀ (j : Nat) c, cs[j]? = some c → (j, c) ∈ arrived pre := by
  obtain ⟨s2, h1, h2⟩ := run_prefix h (pre ++ [e]) post (by simp)
  obtain ⟨s1, g1, g2⟩ := run_prefix h1 pre [e] rfl
  obtain ⟨g3, g4⟩ := run_inv g1 hb
  have hs2 : s2 = s1.step e := by
    generalize hl : [e] = l at g2
    cases g2 with
    | nil => simp at hl
    | @snoc es s' e' hr he' =>
      have : es = [] ∧ e' = e := by
        cases es with
        | nil => simp at hl; exact ⟨rfl, hl.symm⟩
        | cons a b => simp at hl
      obtain ⟨rfl, rfl⟩ := this
      generalize hl2 : ([] : List Ev) = l2 at hr
      cases hr with
      | nil => rfl
      | snoc => simp at hl2
  subst hs2
  obtain ⟨g5, g6⟩ := step_bad g3 he
  have hs := runFrom_threw h2 (by rw [g5]; simp)
  subst hs
  obtain ⟨cs, c1, _, c3⟩ := g4.written
  exact ⟨g5, s1, g1, g3, g6, cs, by rw [g6, c1], c3⟩

/-- **C23 (converse)** Without such a packet no exception is thrown. -/
theorem C23_good_not_thrown {es s} (h : machine.Run es s) (hb : ∀ e ∈ es, e.isBad = false) :
    s.threw = none := (run_inv h hb).1

/-- **C54 (refuted)** The claim: a segment that is accepted again does not disturb the output. In
fact, once a segment `k` that was already written - because all segments up to `k` were accepted -
is accepted again, nothing is ever written any more, whatever arrives. -/
theorem C54_duplicate_blocks {es s k p} (h : machine.Run es s) (hb : ∀ e ∈ es, e.isBad = false)
    (hd : ((arrived es).map Prod.fst).Nodup) (hk : ∀ j ≤ k, ∃ c, (j, c) ∈ arrived es)
    (hp : p.appNack = false) {es' s'}
    (h' : machine.RunFrom (s.step (.valid k p)) es' s') : s'.out = s.out := by
  obtain ⟨h1, h2⟩ := run_inv h hb
  obtain ⟨cs, _, c2, _, c4⟩ := run_first h hb (notAgain_of_nodup hd hb)
  have hlt : k < s.nextToPrint := by
    by_contra hge
    obtain ⟨c, hc⟩ := hk cs.length (by omega)
    exact c4 c hc
  have h3 : (s.step (.valid k p)) = { s with validating := s.validating.erase (k, p) }.onValid k p := by
    unfold St.step
    rw [if_neg (by simp [h1])]
  rw [h3] at h'
  obtain ⟨g1, g2⟩ := onValid_blocked (s := { s with validating := s.validating.erase (k, p) })
    (k := k) (p := p) h2.sorted (Or.inr ⟨hlt, hp⟩)
  obtain ⟨g3, _⟩ := runFrom_blocked h' g2
  exact g3.trans g1

/-- **C54 (what does hold)** A segment that is accepted again before it was written does no harm: if
at every acceptance of a segment `k` some segment up to `k` had not been accepted, then the output
is as in C21. Missing from the claim: repeats of segments that were written. -/
theorem C54_early_repeat_harmless_partial {segs : List Bytes} {es s} (h : machine.Run es s)
    (hb : ∀ e ∈ es, e.isBad = false) (ho : FromObject segs es)
    (hr : ∀ pre k p post, es = pre ++ Ev.valid k p :: post → ∃ j ≤ k, ∀ c, (j, c) ∉ arrived pre) :
    ∃ n ≤ segs.length, s.out = (segs.take n).flatten ∧ ∀ c, (n, c) ∉ arrived es := by
  obtain ⟨cs, h1, _, h3, h4⟩ := run_first h hb hr
  obtain ⟨htake, hle⟩ := eq_take (fun j c hj => ho j c (h3 j c hj))
  exact ⟨cs.length, hle, by rw [← htake]; exact h1, h4⟩

/-! ## Concrete cases -/

private def pk (b : UInt8) : Pkt := ⟨[b, b], .absent, false, false, true⟩

/-- Three segments, delivered in the order 2, 0, 1, validated in the order 0, 2, 1. -/
def exampleEvents : List Ev :=
  [.data 2 (pk 7), .data 0 (pk 5), .valid 0 (pk 5), .data 1 (pk 6), .valid 2 (pk 7), .valid 1 (pk 6)]

/-- It is an execution that meets the hypotheses of C21. -/
example : ∃ s, machine.Run exampleEvents s ∧ (∀ e ∈ exampleEvents, e.isBad = false) ∧
    ((arrived exampleEvents).map Prod.fst).Nodup ∧
    FromObject [[5, 5], [6, 6], [7, 7]] exampleEvents ∧ s.out = [5, 5, 6, 6, 7, 7] := by
  refine ⟨_, Machine.exec_run (M := machine) (s := (machine.exec machine.init exampleEvents).get (by decide))
    (Option.some_get _).symm, by decide, by decide, ?_, by decide⟩
  intro k c hk
  have : arrived exampleEvents = [(0, [5, 5]), (2, [7, 7]), (1, [6, 6])] := by decide
  rw [this] at hk
  simp only [List.mem_cons, Prod.mk.injEq, List.not_mem_nil, or_false] at hk
  rcases hk with ⟨rfl, rfl⟩ | ⟨rfl, rfl⟩ | ⟨rfl, rfl⟩ <;> rfl

/-- A run with an invalid packet, and one with an application Nack (C23). -/
example : ∃ s, machine.Run [.data 0 (pk 5), .data 1 (pk 6), .valid 0 (pk 5), .invalid 1 (pk 6), .data 2 (pk 7)] s ∧
    s.threw = some .invalid ∧ s.out = [5, 5] := by
  refine ⟨_, Machine.exec_run (M := machine) (s := (machine.exec machine.init
    [.data 0 (pk 5), .data 1 (pk 6), .valid 0 (pk 5), .invalid 1 (pk 6), .data 2 (pk 7)]).get (by decide))
    (Option.some_get _).symm, by decide, by decide⟩

example : ∃ s, machine.Run [.data 0 { pk 5 with appNack := true }, .valid 0 { pk 5 with appNack := true }] s ∧
    s.threw = some .appNack ∧ s.out = [] := by
  refine ⟨_, Machine.exec_run (M := machine) (s := (machine.exec machine.init
    [.data 0 { pk 5 with appNack := true }, .valid 0 { pk 5 with appNack := true }]).get (by decide))
    (Option.some_get _).symm, by decide, by decide⟩

/-- A repeat of the written segment 0 blocks segments 1 and 2 (C54). -/
example : ∃ s, machine.Run [.data 0 (pk 5), .valid 0 (pk 5), .data 0 (pk 5), .valid 0 (pk 5),
      .data 1 (pk 6), .valid 1 (pk 6), .data 2 (pk 7), .valid 2 (pk 7)] s ∧ s.out = [5, 5] := by
  refine ⟨_, Machine.exec_run (M := machine) (s := (machine.exec machine.init
    [.data 0 (pk 5), .valid 0 (pk 5), .data 0 (pk 5), .valid 0 (pk 5),
      .data 1 (pk 6), .valid 1 (pk 6), .data 2 (pk 7), .valid 2 (pk 7)]).get (by decide))
    (Option.some_get _).symm, by decide⟩

/-- A repeat of segment 1 before it was written does not (C54). -/
example : ∃ s, machine.Run [.data 1 (pk 6), .valid 1 (pk 6), .data 1 (pk 6), .valid 1 (pk 6),
      .data 0 (pk 5), .valid 0 (pk 5)] s ∧ s.out = [5, 5, 6, 6] := by
  refine ⟨_, Machine.exec_run (M := machine) (s := (machine.exec machine.init
    [.data 1 (pk 6), .valid 1 (pk 6), .data 1 (pk 6), .valid 1 (pk 6),
      .data 0 (pk 5), .valid 0 (pk 5)]).get (by decide)) (Option.some_get _).symm, by decide⟩

end Verif.Consumer
