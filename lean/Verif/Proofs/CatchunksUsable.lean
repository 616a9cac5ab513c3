import Verif.Proofs.CatchunksLive
import Verif.Proofs.AdaptiveDone

/-! # The whole program with an adaptive pipeline over a usable network -/

namespace Verif.Catchunks

open Verif.DataFetcher (Fetcher)

variable {σ ε : Type}

theorem pipeEvents_snoc_disc (es : List (Ev ε)) (e) : pipeEvents (es ++ [.disc e]) = pipeEvents es := by
  simp [pipeEvents]

theorem pipeEvents_snoc_pipe (es : List (Ev ε)) (e) : pipeEvents (es ++ [.pipe e]) = pipeEvents es ++ [e] := by
  simp [pipeEvents]

/-- An event of the discovery does not touch the pipeline once it runs. -/
theorem disc_keeps {P : Pipe σ ε} {o : Discover.Opts} {name : Name} {Q G} {s : St σ} {e : Discover.Ev}
    (hinv : PInv P o name Q G s) (he : s.disc.enabled name e) {n q} (hp : s.pipe = some (n, q)) :
    (s.step P (.disc e)).pipe = some (n, q) := by
  obtain ⟨f, hf, hen⟩ := he.1
  obtain ⟨des, hdr, _⟩ := hinv.disc
  obtain ⟨hs, _⟩ := hinv.after n q hp
  have hlog : ∃ l, (s.disc.step e).log = s.disc.log ++ l := by
    unfold Discover.St.step
    rw [hf]
    exact ⟨_, rfl⟩
  obtain ⟨l, hl⟩ := hlog
  obtain ⟨a, b, eab⟩ := List.append_of_mem hs
  have hdr' := Machine.Run.snoc (M := Discover.machine o name) e hdr he
  have hlnil := (disc_reports hdr' a (.success n) (b ++ l)
    (by show (s.disc.step e).log = _; rw [hl, eab]; simp) rfl).1
  have hlnil := (List.append_eq_nil_iff.mp hlnil).2
  subst hlnil
  unfold St.step
  dsimp only
  rw [hl]
  simp [hp]

section Usable

variable {A : Adaptive.Alg σ ε} {ao : Adaptive.Opts} {w : σ} {v : Adaptive.Env ε} {digest : Data → Bytes}
  {prod : Producer.Prod} {o : Discover.Opts} {conv : Convention} {fresh : Bool} {name : Name}

theorem usable_net {es s} (h : (usableMachine A ao w v o digest prod conv fresh name).Run es s) :
    (netMachine (adaptivePipe A ao w v) o digest prod conv fresh name).Run es s := by
  induction h with
  | nil => exact Machine.Run.nil
  | snoc e _ he ih => exact Machine.Run.snoc (M := netMachine _ _ _ _ _ _ _) e ih he.1

theorem usable_disc {es s} (h : (usableMachine A ao w v o digest prod conv fresh name).Run es s) :
    ∃ des, (discFair o digest prod name).Run des s.disc := by
  induction h with
  | nil =>
    refine ⟨[], ?_⟩
    have : (usableMachine A ao w v o digest prod conv fresh name).init.disc = (discFair o digest prod name).init :=
      (fold_pipe _ _ _).1
    rw [this]
    exact Machine.Run.nil
  | @snoc es s e _ he ih =>
    obtain ⟨des, ih⟩ := ih
    have hst : (usableMachine A ao w v o digest prod conv fresh name).step = St.step (adaptivePipe A ao w v) := rfl
    rw [hst]
    cases e with
    | disc e =>
      refine ⟨des ++ [e], ?_⟩
      have : (s.step (adaptivePipe A ao w v) (.disc e)).disc = (discFair o digest prod name).step s.disc e :=
        (fold_pipe _ _ _).1
      rw [this]
      exact Machine.Run.snoc e ih ⟨he.1.1.2, he.1.2, he.2⟩
    | pipe e =>
      obtain ⟨n, q, hp, _⟩ := he.1.1.2
      refine ⟨des, ?_⟩
      simp only [St.step, hp]
      exact ih

theorem usable_pinv {es s} (h : (usableMachine A ao w v o digest prod conv fresh name).Run es s) :
    PInv (adaptivePipe A ao w v) o name (Discover.FromProducer digest prod)
      (fun n k p => k < 2 ^ 64 ∧ ∃ i now' r, r ∈ prod.onInterest digest now' i ∧
        Answers digest (segmentInterest conv fresh n k) p r) s :=
  prog_inv adaptive_proper (net_env (usable_net h))

/-- The adaptive pipeline as part of the program. -/
def pipeUsable (A : Adaptive.Alg σ ε) (ao : Adaptive.Opts) (w : σ) (v : Adaptive.Env ε) (digest : Data → Bytes)
    (prod : Producer.Prod) (conv : Convention) (fresh : Bool) (n : Name) : Machine (Adaptive.St σ) (Adaptive.Ev ε) :=
  { init := Adaptive.start A ao w v
    step := Adaptive.St.step A ao
    enabled := fun q e => q.enabled e ∧ (adaptivePipe A ao w v).byUser e = false ∧
      (∀ k p, (adaptivePipe A ao w v).arrival q e = some (k, p) → k < 2 ^ 64 ∧ ∃ i now r, r ∈ prod.onInterest digest now i ∧
        Answers digest (segmentInterest conv fresh n k) p r) ∧
      Adaptive.BeyondEndEv (prod.store.map (·.content)) e ∧ Adaptive.Prompt q e }

theorem usable_pipe {es s} (h : (usableMachine A ao w v o digest prod conv fresh name).Run es s) :
    (s.pipe = none → pipeEvents es = []) ∧
    ∀ n q, s.pipe = some (n, q) → (pipeUsable A ao w v digest prod conv fresh n).Run (pipeEvents es) q := by
  induction h with
  | nil =>
    refine ⟨fun _ => rfl, ?_⟩
    intro n q hq
    rcases (fold_pipe (adaptivePipe A ao w v) (Discover.start o name).log
      { disc := Discover.start o name, pipe := none, cons := {} }).2 with h1 | ⟨n', h1⟩
    · rw [show (usableMachine A ao w v o digest prod conv fresh name).init.pipe = none from h1] at hq
      cases hq
    · rw [show (usableMachine A ao w v o digest prod conv fresh name).init.pipe = some (n', _) from h1] at hq
      simp only [Option.some.injEq, Prod.mk.injEq] at hq
      obtain ⟨rfl, rfl⟩ := hq
      exact Machine.Run.nil
  | @snoc es s e hr he ih =>
    have hst : (usableMachine A ao w v o digest prod conv fresh name).step = St.step (adaptivePipe A ao w v) := rfl
    rw [hst]
    cases e with
    | disc e =>
      rw [pipeEvents_snoc_disc]
      cases hp : s.pipe with
      | some nq =>
        obtain ⟨n, q⟩ := nq
        rw [disc_keeps (usable_pinv hr) he.1.1.2 hp]
        refine ⟨by simp, ?_⟩
        intro n' q' hq
        simp only [Option.some.injEq, Prod.mk.injEq] at hq
        obtain ⟨rfl, rfl⟩ := hq
        exact ih.2 _ _ hp
      | none =>
        rw [ih.1 hp]
        refine ⟨fun _ => rfl, ?_⟩
        intro n q hq
        rcases (fold_pipe (adaptivePipe A ao w v) ((s.disc.step e).log.drop s.disc.log.length)
          { s with disc := s.disc.step e }).2 with h1 | ⟨n', h1⟩
        · rw [show (s.step (adaptivePipe A ao w v) (.disc e)).pipe = s.pipe from h1, hp] at hq
          cases hq
        · rw [show (s.step (adaptivePipe A ao w v) (.disc e)).pipe = some (n', _) from h1] at hq
          simp only [Option.some.injEq, Prod.mk.injEq] at hq
          obtain ⟨rfl, rfl⟩ := hq
          exact Machine.Run.nil
    | pipe e =>
      rw [pipeEvents_snoc_pipe]
      obtain ⟨n', q', hp, hq1, hq2⟩ := he.1.1.2
      simp only [St.step, hp]
      refine ⟨by simp, ?_⟩
      intro n q hq
      simp only [Option.some.injEq, Prod.mk.injEq] at hq
      obtain ⟨rfl, rfl⟩ := hq
      exact Machine.Run.snoc (M := pipeUsable A ao w v digest prod conv fresh n') e (ih.2 n' q' hp)
        ⟨hq1, hq2, fun k p ha => he.1.2 n' q' k p hp ha, he.2.1, he.2.2 n' q' hp⟩

end Usable

section Main

variable {A : Adaptive.Alg σ ε} {ao : Adaptive.Opts} {w : σ} {v : Adaptive.Env ε} {digest : Data → Bytes}
    {po : Producer.Opts}
    {pre0 : Name} {now : Nat} {input : Bytes} {o : Discover.Opts} {conv : Convention} {fresh : Bool} {name : Name}

theorem usable_name (hn : now < 2 ^ 64) (hreq : Requests (Producer.construct po pre0 now input) o name) {es s}
    (h : (usableMachine A ao w v o digest (Producer.construct po pre0 now input) conv fresh name).Run es s) {n q}
    (hp : s.pipe = some (n, q)) : n = (Producer.construct po pre0 now input).versionedPrefix := by
  have hinv := usable_pinv h
  obtain ⟨hsucc, _⟩ := hinv.after n q hp
  obtain ⟨des, hdr, hdq⟩ := hinv.disc
  rcases hreq with hr | ⟨_, h1, h2⟩
  · rw [Discover.C24_not_needed (Or.inr (by rw [hr]; exact vp_version hn)) hdr] at hsucc
    simp only [List.mem_singleton, Discover.Obs.success.injEq] at hsucc
    rw [hsucc]; exact hr
  · exact Discover.C55_honest_producer_partial digest hn h1 h2 hdr hdq hsucc

theorem usable_ev (hn : now < 2 ^ 64) (hm : 0 < po.maxSegmentSize) (hi : input.length < 2 ^ 64) {n : Name} {q e}
    (hnn : ¬ (Producer.construct po pre0 now input).pre ++ [metadataComp] <+: n)
    (he : (pipeUsable A ao w v digest (Producer.construct po pre0 now input) conv fresh n).enabled q e) :
    (Adaptive.servedMachine A ao w v (Producer.split po.maxSegmentSize input)).enabled q e := by
  obtain ⟨h1, h2, h3, h4, h5⟩ := he
  rw [store_contents] at h4
  refine ⟨⟨h1, ?_, h4, h5, ?_⟩, ?_⟩
  · cases e with
    | data k p c v' =>
      obtain ⟨hk, i', now', r, hr, ha'⟩ := h3 k p rfl
      exact (answer_full hn hm hi hk hnn hr ha').2.1
    | _ => trivial
  · cases e with
    | data k p c v' => exact h2
    | cancel => cases h2
    | _ => trivial
  · cases e with
    | data k p c v' =>
      obtain ⟨hk, i', now', r, hr, ha'⟩ := h3 k p rfl
      show p.final ≠ .absent
      rw [(answer_full hn hm hi hk hnn hr ha').2.2.2.2]; simp
    | _ => trivial

theorem served_enabled (hn : now < 2 ^ 64) (hm : 0 < po.maxSegmentSize) (hi : input.length < 2 ^ 64)
    (hreq : Requests (Producer.construct po pre0 now input) o name) {es s}
    (h : (usableMachine A ao w v o digest (Producer.construct po pre0 now input) conv fresh name).Run es s) {e}
    (he : (usableMachine A ao w v o digest (Producer.construct po pre0 now input) conv fresh name).enabled s (.pipe e))
    {n q} (hp : s.pipe = some (n, q)) :
    (Adaptive.servedMachine A ao w v (Producer.split po.maxSegmentSize input)).enabled q e := by
  have hnn : ¬ (Producer.construct po pre0 now input).pre ++ [metadataComp] <+: n := by
    rw [usable_name hn hreq h hp]; exact vp_not_meta hn
  obtain ⟨n', q', hp', hq1, hq2⟩ := he.1.1.2
  rw [hp] at hp'
  simp only [Option.some.injEq, Prod.mk.injEq] at hp'
  obtain ⟨rfl, rfl⟩ := hp'
  exact usable_ev (digest := digest) (conv := conv) (fresh := fresh) hn hm hi hnn
    ⟨hq1, hq2, fun k p ha => he.1.2 n q k p hp ha, he.2.1, he.2.2 n q hp⟩

/-- The pipeline is served. -/
theorem usable_served (hn : now < 2 ^ 64) (hm : 0 < po.maxSegmentSize) (hi : input.length < 2 ^ 64)
    (hreq : Requests (Producer.construct po pre0 now input) o name) {es s}
    (h : (usableMachine A ao w v o digest (Producer.construct po pre0 now input) conv fresh name).Run es s) {n q}
    (hp : s.pipe = some (n, q)) :
    (Adaptive.servedMachine A ao w v (Producer.split po.maxSegmentSize input)).Run (pipeEvents es) q ∧
    ∀ k p, Adaptive.Obs.data k p ∈ q.log → p.valid = true ∧ p.appNack = false := by
  have hnn : ¬ (Producer.construct po pre0 now input).pre ++ [metadataComp] <+: n := by
    rw [usable_name hn hreq h hp]; exact vp_not_meta hn
  refine ⟨?_, ?_⟩
  · have hq := (usable_pipe h).2 n q hp
    clear hp h
    generalize pipeEvents es = qes at hq
    induction hq with
    | nil => exact Machine.Run.nil
    | snoc e _ he ih =>
      exact Machine.Run.snoc (M := Adaptive.servedMachine A ao w v (Producer.split po.maxSegmentSize input)) e ih
        (usable_ev hn hm hi hnn he)
  · intro k p hkp
    obtain ⟨_, ⟨qes, hq⟩, _⟩ := (usable_pinv h).after n q hp
    obtain ⟨hk, i, now', r, hr, ha⟩ := adaptive_proper.came _ _ _ hq k p (adaptive_mem_data.mpr hkp)
    have := (answer_full hn hm hi hk hnn hr ha).2.2
    exact ⟨this.1, this.2.1⟩

theorem split_ne (hm : 0 < po.maxSegmentSize) : Producer.split po.maxSegmentSize input ≠ [] := by
  intro hc
  have := Producer.split_length (input := input) hm
  rw [hc, List.length_nil] at this
  omega

theorem usable_alive (hn : now < 2 ^ 64) (hm : 0 < po.maxSegmentSize) (hi : input.length < 2 ^ 64)
    (hreq : Requests (Producer.construct po pre0 now input) o name) {es s}
    (h : (usableMachine A ao w v o digest (Producer.construct po pre0 now input) conv fresh name).Run es s)
    (hf : Adaptive.FewLosses A ao w v (Producer.split po.maxSegmentSize input) (pipeEvents es)) :
    s.cons.threw = none ∧ ¬ s.ended (adaptivePipe A ao w v) := by
  have hinv := usable_pinv h
  obtain ⟨des, hd⟩ := usable_disc h
  have hdg := (disc_good hn hd).1
  have ht : s.cons.threw = none := by
    cases hp : s.pipe with
    | none =>
      rcases hinv.before hp with ⟨hc, _⟩ | ⟨_, _, r, hc⟩
      · rw [hc]
      · exact absurd hc (hdg r)
    | some nq =>
      obtain ⟨n, q⟩ := nq
      obtain ⟨_, _, hcons⟩ := hinv.after n q hp
      obtain ⟨hq, hdat⟩ := usable_served hn hm hi hreq h hp
      rw [hcons]
      refine (good_run ?_).2
      intro x hx
      cases x with
      | failure m =>
        exact absurd (adaptive_mem_failure.mp hx) ((Adaptive.served_harm (split_ne hm) hq hf).quiet.2 m)
      | data k p =>
        obtain ⟨h1, h2⟩ := hdat k p (adaptive_mem_data.mp hx)
        simp [Call.exn, h1, h2]
  refine ⟨ht, ?_⟩
  rintro (hc | ⟨n, q, hp, hc⟩)
  · exact hc ht
  · obtain ⟨hq, _⟩ := usable_served hn hm hi hreq h hp
    have := (Adaptive.served_threw hq).1
    simp [adaptivePipe, this] at hc

/-- The program exits when the transfer is complete. -/
theorem usable_exits (hn : now < 2 ^ 64) (hm : 0 < po.maxSegmentSize) (hi : input.length < 2 ^ 64)
    (hreq : Requests (Producer.construct po pre0 now input) o name) {es s}
    (h : (usableMachine A ao w v o digest (Producer.construct po pre0 now input) conv fresh name).Run es s)
    (hf : Adaptive.FewLosses A ao w v (Producer.split po.maxSegmentSize input) (pipeEvents es)) {n q}
    (hp : s.pipe = some (n, q)) (hc : Adaptive.Obs.complete ∈ q.log) : s.Exits (adaptivePipe A ao w v) 0 := by
  obtain ⟨ht, hne⟩ := usable_alive hn hm hi hreq h hf
  have hinv := usable_pinv h
  obtain ⟨hq, _⟩ := usable_served hn hm hi hreq h hp
  unfold St.Exits
  rw [ht]
  refine Or.inr ⟨hne, ⟨?_, ?_⟩, rfl⟩
  · intro f hf
    obtain ⟨des, hdr, _⟩ := hinv.disc
    exact (disc_idle hdr (hinv.after n q hp).1 f hf).2
  · intro n' q' hp'
    rw [hp] at hp'
    simp only [Option.some.injEq, Prod.mk.injEq] at hp'
    obtain ⟨rfl, rfl⟩ := hp'
    refine ⟨(Adaptive.served_harm (split_ne hm) hq hf).quiet.1, Adaptive.served_done hq hc, ?_⟩
    have hst : q.isStopping = true := by
      cases hst : q.isStopping with
      | true => rfl
      | false =>
        exact absurd hc ((Adaptive.run_hist (fun h => False.elim h) (Adaptive.served_run hq)).quiet hst).2.2
    have hw := Adaptive.wf_steps (Adaptive.wf_initial w)
      (Adaptive.run_steps (al := Adaptive.servedAllow (Producer.split po.maxSegmentSize input)) (fun h => False.elim h)
        (Adaptive.served_run hq))
    rw [hw.stop hst]
    simp

/-- What the producer sends for an existing segment. -/
theorem answer_comes (hn : now < 2 ^ 64) (hm : 0 < po.maxSegmentSize) (hi : input.length < 2 ^ 64)
    (hconv : conv = po.conv) (hfresh : fresh = true → 0 < po.freshness) {k : Nat}
    (hk : k < (Producer.split po.maxSegmentSize input).length) :
    k < 2 ^ 64 ∧ ∃ i now' r, r ∈ (Producer.construct po pre0 now input).onInterest digest now' i ∧
      Answers digest (segmentInterest conv fresh (Producer.construct po pre0 now input).versionedPrefix k)
        (Adaptive.answer (Producer.split po.maxSegmentSize input) k) r := by
  have hkl : k < (Producer.construct po pre0 now input).store.length := by
    rw [Producer.store_length]; exact hk
  obtain ⟨d, hd⟩ : ∃ d, (Producer.construct po pre0 now input).store[k]? = some d :=
    ⟨_, List.getElem?_eq_getElem hkl⟩
  obtain ⟨g1, g2, g3, g4, g5⟩ := Producer.store_get hd
  have hk64 : k < 2 ^ 64 := Nat.lt_of_lt_of_le hk (split_le hm hi)
  have hL := split_le hm hi
  have hrep := (Producer.C26_segment_reply digest (o := po) (pre := pre0) (input := input) (now' := 0) hn
    (i := segmentInterest conv fresh (Producer.construct po pre0 now input).versionedPrefix k)
    (c := .fromSegment conv k) (k := k) rfl (toSegment_fromSegment hk64)).1 d hd
  refine ⟨hk64, _, 0, .data d, by rw [hrep]; exact List.mem_singleton.mpr rfl, ?_, ?_, ?_, fun _ => rfl, rfl⟩
  · rw [Producer.matchesData_iff]
    refine ⟨Or.inl ?_, ?_⟩
    · rw [g2, hconv]; rfl
    · intro hf; rw [g4]; exact hfresh hf
  · simp [Adaptive.answer, g1]
  · rw [g3, finalOf, toSegment_fromSegment (by rw [Producer.store_length]; omega), Producer.store_length]
    rfl

theorem few_prefix {segs : List Bytes} {es es' : List (Adaptive.Ev ε)} (h : Adaptive.FewLosses A ao w v segs (es ++ es')) :
    Adaptive.FewLosses A ao w v segs es := by
  rcases h with h | h
  · exact Or.inl h
  · refine Or.inr fun k hk => ?_
    have := h k hk
    rw [Adaptive.lossCount_append] at this
    omega

/-- A continuation of the pipeline is one of the program. -/
theorem usable_lift (hn : now < 2 ^ 64) (hm : 0 < po.maxSegmentSize) (hi : input.length < 2 ^ 64)
    (hreq : Requests (Producer.construct po pre0 now input) o name) (hconv : conv = po.conv)
    (hfresh : fresh = true → 0 < po.freshness) {es s}
    (h : (usableMachine A ao w v o digest (Producer.construct po pre0 now input) conv fresh name).Run es s) {n q}
    (hp : s.pipe = some (n, q)) {qes q'}
    (hf : Adaptive.FewLosses A ao w v (Producer.split po.maxSegmentSize input) (pipeEvents es ++ qes))
    (hq : (Adaptive.servedMachine A ao w v (Producer.split po.maxSegmentSize input)).RunFrom q qes q')
    (hqes : ∀ k p c v', Adaptive.Ev.data k p c v' ∈ qes → k < (Producer.split po.maxSegmentSize input).length ∧
      p = Adaptive.answer (Producer.split po.maxSegmentSize input) k) :
    ∃ s', (usableMachine A ao w v o digest (Producer.construct po pre0 now input) conv fresh name).RunFrom s
        (qes.map .pipe) s' ∧ s'.pipe = some (n, q') := by
  induction hq with
  | nil => exact ⟨s, Machine.RunFrom.nil, hp⟩
  | @snoc qes q' e hr he ih =>
    rw [← List.append_assoc] at hf
    have hf' := few_prefix hf
    obtain ⟨s', g1, g2⟩ := ih hf' (fun k p c v' hx => hqes k p c v' (List.mem_append_left _ hx))
    have hrun := h.extend g1
    have hpe : pipeEvents (es ++ qes.map Ev.pipe) = pipeEvents es ++ qes := by
      simp [pipeEvents, List.filterMap_append, List.filterMap_map]
    have hal := usable_alive hn hm hi hreq hrun (by rw [hpe]; exact hf')
    have hnm := usable_name hn hreq hrun g2
    have hen : (usableMachine A ao w v o digest (Producer.construct po pre0 now input) conv fresh name).enabled s'
        (.pipe e) := by
      refine ⟨⟨⟨hal.2, n, q', g2, he.1.1, ?_⟩, ?_⟩, ?_, ?_⟩
      · have hc := he.1.2.2.2.2
        cases e with
        | data k p c v' => exact hc
        | cancel => exact hc.elim
        | _ => rfl
      · intro n1 q1 k p hp1 ha
        rw [g2] at hp1
        simp only [Option.some.injEq, Prod.mk.injEq] at hp1
        obtain ⟨rfl, rfl⟩ := hp1
        cases e with
        | data k' p' c v' =>
          simp only [adaptivePipe, Option.some.injEq, Prod.mk.injEq] at ha
          obtain ⟨rfl, rfl⟩ := ha
          obtain ⟨hk', rfl⟩ := hqes k' p' c v' (by simp)
          rw [hnm]
          exact answer_comes hn hm hi hconv hfresh hk'
        | _ => simp [adaptivePipe] at ha
      · rw [store_contents]; exact he.1.2.2.1
      · intro n1 q1 hp1
        rw [g2] at hp1
        simp only [Option.some.injEq, Prod.mk.injEq] at hp1
        obtain ⟨rfl, rfl⟩ := hp1
        exact he.1.2.2.2.1
    refine ⟨_, by simpa using Machine.RunFrom.snoc _ g1 hen, ?_⟩
    show (s'.step (adaptivePipe A ao w v) (.pipe e)).pipe = _
    simp only [St.step, g2]
    rfl

/-- What the pipeline does in a continuation of the program. -/
theorem usable_from (hn : now < 2 ^ 64) (hm : 0 < po.maxSegmentSize) (hi : input.length < 2 ^ 64)
    (hreq : Requests (Producer.construct po pre0 now input) o name) {es s}
    (h : (usableMachine A ao w v o digest (Producer.construct po pre0 now input) conv fresh name).Run es s) {n q}
    (hp : s.pipe = some (n, q)) {es' s'}
    (h' : (usableMachine A ao w v o digest (Producer.construct po pre0 now input) conv fresh name).RunFrom s es' s') :
    ∃ q', s'.pipe = some (n, q') ∧
      (Adaptive.servedMachine A ao w v (Producer.split po.maxSegmentSize input)).RunFrom q (pipeEvents es') q' := by
  induction h' with
  | nil => exact ⟨q, hp, .nil⟩
  | @snoc es' s' e hr he ih =>
    obtain ⟨q', g1, g2⟩ := ih
    have hrun := h.extend hr
    cases e with
    | disc e =>
      rw [pipeEvents_snoc_disc]
      exact ⟨q', disc_keeps (usable_pinv hrun) he.1.1.2 g1, g2⟩
    | pipe e =>
      rw [pipeEvents_snoc_pipe]
      refine ⟨q'.step A ao e, ?_, ?_⟩
      · show (s'.step (adaptivePipe A ao w v) (.pipe e)).pipe = _
        simp only [St.step, g1]
        rfl
      · refine Machine.RunFrom.snoc (M := Adaptive.servedMachine A ao w v (Producer.split po.maxSegmentSize input)) e g2 ?_
        exact served_enabled hn hm hi hreq hrun he g1

/-- The discovery can be completed: by the metadata, possibly after a backoff. -/
theorem usable_found (hn : now < 2 ^ 64) (hm : 0 < po.maxSegmentSize) (hi : input.length < 2 ^ 64)
    (hreq : Requests (Producer.construct po pre0 now input) o name) {es s}
    (h : (usableMachine A ao w v o digest (Producer.construct po pre0 now input) conv fresh name).Run es s)
    (hf : Adaptive.FewLosses A ao w v (Producer.split po.maxSegmentSize input) (pipeEvents es)) :
    ∃ (des : List Discover.Ev) (s' : St (Adaptive.St σ)) (n : Name) (q : Adaptive.St σ), (usableMachine A ao w v o digest (Producer.construct po pre0 now input) conv fresh name).RunFrom s
        (des.map .disc) s' ∧ s'.pipe = some (n, q) ∧ (∀ e ∈ des, (∃ m, e = Discover.Ev.data m) ∨ e = .timer) := by
  -- with an Interest outstanding the metadata can arrive
  have arrive : ∀ {es s}, (usableMachine A ao w v o digest (Producer.construct po pre0 now input) conv fresh name).Run es s →
      Adaptive.FewLosses A ao w v (Producer.split po.maxSegmentSize input) (pipeEvents es) → s.pipe = none →
      ∀ f, s.disc.fetcher = some f → f.isRunning = true → f.pending = 1 →
      ∃ m s' n q, (usableMachine A ao w v o digest (Producer.construct po pre0 now input) conv fresh name).RunFrom s
        [.disc (.data m)] s' ∧ s'.pipe = some (n, q) := by
    intro es s h hf hp f hfe hrun h1
    obtain ⟨ht, hne⟩ := usable_alive hn hm hi hreq h hf
    have hinv := usable_pinv h
    obtain ⟨des, hdr, _⟩ := hinv.disc
    rcases hinv.before hp with ⟨_, hall⟩ | ⟨hc, _⟩
    case inr => rw [ht] at hc; cases hc
    rcases hreq with hr | ⟨hr, hd1, hd2⟩
    · exfalso
      rw [Discover.C24_not_needed (Or.inr (by rw [hr]; exact vp_version hn)) hdr] at hall
      simp at hall
    obtain ⟨n, hrep, hpre, hval⟩ := (Producer.C26_discovery_reply digest (o := po) (pre := pre0) (input := input)
        (i := makeDiscoveryInterest name) (now' := 0) hn (by decide)
        (by rw [hr]; exact List.prefix_refl _)).2 rfl (Or.inl (by simp [makeDiscoveryInterest]))
    have hfp : Discover.FromProducer digest (Producer.construct po pre0 now input)
        (.data ⟨n, true, some (Producer.construct po pre0 now input).versionedPrefix⟩) :=
      ⟨makeDiscoveryInterest name, 0, 10, _, by rw [hrep]; simp, rfl⟩
    have hen : (usableMachine A ao w v o digest (Producer.construct po pre0 now input) conv fresh name).enabled s
        (.disc (.data ⟨n, true, some (Producer.construct po pre0 now input).versionedPrefix⟩)) := by
      refine ⟨⟨⟨hne, ⟨f, hfe, ?_⟩, ?_⟩, hfp⟩, trivial⟩
      · simp [Discover.Ev.toFetch, Fetcher.enabled, h1]
      · intro m hm'
        simp only [Discover.Ev.data.injEq] at hm'
        subst hm'
        exact hpre
    have hI := disc_fetcher_inv hdr hfe
    have hstep : (f.step .data).2 = [.onData] := by
      have heff := (DataFetcher.step_running hI hrun (e := .data) (by simp [Fetcher.enabled, h1])).2
      generalize (f.step .data).1 = f1 at heff
      generalize (f.step .data).2 = o1 at heff
      cases heff
      rfl
    refine ⟨_, _, (Producer.construct po pre0 now input).versionedPrefix, (adaptivePipe A ao w v).M.init,
      Machine.RunFrom.snoc (es := []) _ .nil hen, ?_⟩
    show (s.step (adaptivePipe A ao w v) _).pipe = _
    unfold St.step
    dsimp only
    unfold Discover.St.step
    rw [hfe]
    dsimp only
    rw [List.drop_left']
    · simp only [Discover.Ev.toFetch, hstep, List.map_cons, List.map_nil, Discover.react, Discover.Ev.meta,
        handle_producer hn hfp, List.foldl_cons, List.foldl_nil, onReport]
    · rfl
  have hinv := usable_pinv h
  obtain ⟨ht, hne⟩ := usable_alive hn hm hi hreq h hf
  cases hp : s.pipe with
  | some nq => exact ⟨[], s, nq.1, nq.2, .nil, hp, by simp⟩
  | none =>
    rcases hinv.before hp with ⟨_, hall⟩ | ⟨hc, _⟩
    case inr => rw [ht] at hc; cases hc
    obtain ⟨des, hdr, _⟩ := hinv.disc
    rcases id hreq with hr | ⟨hr, hd1, hd2⟩
    · exfalso
      rw [Discover.C24_not_needed (Or.inr (by rw [hr]; exact vp_version hn)) hdr] at hall
      simp at hall
    obtain ⟨f, hfe, hrun, hpend⟩ := (Discover.C24_result_comes hd1 hd2 hdr).1 hall
    rcases hpend with ⟨h1, _⟩ | ⟨h0, b, h1⟩
    · obtain ⟨m, s', n, q, g1, g2⟩ := arrive h hf hp f hfe hrun h1
      exact ⟨[.data m], s', n, q, g1, g2, by simp⟩
    · have hen : (usableMachine A ao w v o digest (Producer.construct po pre0 now input) conv fresh name).enabled s
          (.disc .timer) := by
        refine ⟨⟨⟨hne, ⟨f, hfe, ?_⟩, ?_⟩, trivial⟩, trivial⟩
        · simp [Discover.Ev.toFetch, Fetcher.enabled, h1]
        · intro m hm'; cases hm'
      have hrun2 := Machine.Run.snoc _ h hen
      have hI := disc_fetcher_inv hdr hfe
      have heff := (DataFetcher.step_running hI hrun (e := .timer) (by simp [Fetcher.enabled, h1])).2
      have hfe2 : (s.disc.step .timer).fetcher = some (f.step .timer).1 := by
        unfold Discover.St.step; rw [hfe]; rfl
      have hd : ((usableMachine A ao w v o digest (Producer.construct po pre0 now input) conv fresh name).step s
          (.disc .timer)).disc = s.disc.step .timer := (fold_pipe _ _ _).1
      have hpn : ((usableMachine A ao w v o digest (Producer.construct po pre0 now input) conv fresh name).step s
          (.disc .timer)).pipe = none := by
        show (s.step (adaptivePipe A ao w v) _).pipe = _
        unfold St.step
        dsimp only
        have : ∀ x ∈ (s.disc.step .timer).log.drop s.disc.log.length, x = .interest := by
          unfold Discover.St.step
          rw [hfe]
          dsimp only
          rw [List.drop_left' rfl]
          show ∀ x ∈ (f.step .timer).2.map (Discover.react (Discover.Ev.meta .timer)), x = _
          generalize (f.step .timer).1 = f1 at heff
          generalize (f.step .timer).2 = o1 at heff
          cases heff
          simp [Discover.react]
        rw [fold_interests _ _ this]
        exact hp
      have h3 : (f.step .timer).1.isRunning = true ∧ (f.step .timer).1.pending = 1 := by
        generalize (f.step .timer).1 = f1 at heff
        generalize (f.step .timer).2 = o1 at heff
        cases heff
        exact ⟨by assumption, by assumption⟩
      obtain ⟨m, s', n, q, g1, g2⟩ := arrive hrun2 (by rw [pipeEvents_snoc_disc]; exact hf) hpn _
        (by rw [hd]; exact hfe2) h3.1 h3.2
      refine ⟨[.timer, .data m], s', n, q, Machine.RunFrom.cons _ hen g1, g2, by simp⟩

end Main

end Verif.Catchunks
