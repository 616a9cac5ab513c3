import Verif.Proofs.CatchunksAdaptiveTime
import Verif.Props.CatchunksUsable
import Verif.Props.AdaptivePace

/-! # C102: when `ndncatchunks` with an adaptive pipeline ends -/

namespace Verif.CatchunksAdaptiveTime

open Catchunks
open FetchTime (limit)

variable {σ ε : Type} {p : Params σ ε} {d R maxRto : Nat} {name : Name}

/-- **C102 (discovery)** Whatever the network does: with `R` retries and timers at most `d` late, the version is known, or the program has
ended with status 1, after `(1+2R)(life+d) + R(1ms+d)`. (Until then nothing else happens later, and something can happen.) -/
theorem C102_discovery (hR : p.ao.maxRetries = R) {es s} (h : (machine p (some d) name).Run es s) :
    (s.c.pipe = none → s.now ≤ limit p.life d R R ∧ (s.Exits p 1 ∨ ∃ e, (machine p (some d) name).enabled s e)) ∧
    (s.c.pipe.isSome = true → s.begun ≤ limit p.life d R R) := by
  have hC := run_cinv hR h
  refine ⟨fun hp => ⟨hC.clock hp, ?_⟩, hC.begun⟩
  rcases disc_next hR h hp with ht | ⟨-, -, -, -, e, he⟩
  · left
    unfold St.Exits Catchunks.St.Exits
    rw [ht]
  · exact .inr ⟨e, he⟩

section Main

variable {digest : Data → Bytes} {po : Producer.Opts} {pre0 : Name} {now : Nat} {input : Bytes} {conv : Convention} {fresh : Bool}

/-- **C102 (what does hold)** `ndncatchunks` with an adaptive pipeline fetches the object of `ndnputchunks`, over a usable network and
without too many losses, as in `C74_no_failure`; the window always allows a segment, and as long as it is only decreased from its initial
value it allows as many segments as initially; timers are at most `d` late, and the RTO is at most `maxRto`. Then nothing happens later than
`(1+2R)(life+d) + R(1ms+d)` plus `(segments + losses + 1) (maxRto + interval + d)` after the start, and at every moment the program has ended with
status 0 and all of `input` on the standard output, or something can still happen. Missing from the claim C102: other windows, see
`C102_stalls`. -/
theorem C102_ends_partial (hslots : ∀ w', Adaptive.Reach p.A p.w w' → 1 ≤ p.A.slots w')
    (hdec : ∀ w', Adaptive.Decs p.A p.w w' → p.A.slots w' = p.A.slots p.w) (hR : p.ao.maxRetries = R) (hrto : p.rto0 ≤ maxRto)
    (hn : now < 2 ^ 64) (hm : 0 < po.maxSegmentSize) (hi : input.length < 2 ^ 64)
    (hreq : Requests (Producer.construct po pre0 now input) p.disc name) {es s}
    (h : (usableTimed p d maxRto digest (Producer.construct po pre0 now input) conv fresh name).Run es s)
    (hf : FewLosses p ((Producer.construct po pre0 now input).store.map (·.content)) es s) :
    s.now ≤ limit p.life d R R +
      ((Producer.split po.maxSegmentSize input).length + losses p (Producer.split po.maxSegmentSize input).length es s + 1) *
        (maxRto + p.interval + d) ∧
    ((s.Exits p 0 ∧ s.c.stdout = input) ∨
      ∃ e, (usableTimed p d maxRto digest (Producer.construct po pre0 now input) conv fresh name).enabled s e) := by
  have hC := run_cinv hR (usable_plain h)
  have hpr := usable_proj h s.begun (fun _ => rfl)
  unfold FewLosses at hf
  have hf0 := hf
  rw [store_contents] at hf
  cases hp : s.c.pipe with
  | none => exact ⟨Nat.le_trans (hC.clock hp) (Nat.le_add_right _ _), .inr (usable_disc_next hR hn hm hi hreq h hp)⟩
  | some nq =>
    obtain ⟨n, q⟩ := nq
    obtain ⟨aes, a, g1, g2, g3, g4, g5⟩ := (pipe_run hR hn hm hi hreq h).2 n q hp
    have hfa := hf
    rw [← g5] at hfa
    have hv : (p.env s.begun).rto ≤ maxRto := hrto
    have hb := hC.begun (by rw [hp]; rfl)
    refine ⟨?_, ?_⟩
    · have ht := AdaptiveTime.served_time hv (split_ne hm) hslots hdec g1 hfa
      rw [g5, g3] at ht
      have : (p.env s.begun).now = s.begun := rfl
      rw [this] at ht
      unfold losses
      omega
    · obtain ⟨k1, k2⟩ := AdaptiveTime.served_plain g1
      have hi' := Adaptive.served_inv hslots hdec k2
      cases hs : a.p.isStopping with
      | true =>
        left
        have hc := (AdaptiveTime.served_stopped (split_ne hm) hslots hdec k2 hfa hs).1
        have hx := usable_exits hn hm hi hreq hpr hf hp (by rw [← g2]; exact hc)
        exact ⟨hx, ((C74_no_failure hn hm hi hreq hpr hf0).2 0 hx).2⟩
      | false =>
        right
        have ha : AdaptiveTime.Alive a.p := ⟨hs, hi'.threw, hi'.ub⟩
        have ht : a.p.timer = true := (AdaptiveTime.run_ticks k1).resolve_left (by rw [hs]; simp)
        have hl := (AdaptiveTime.run_timer k1).late ha d rfl
        have hpo : a.p.posted = [] := (Adaptive.served_harm (split_ne hm) k2 hfa).quiet.1
        rw [g2] at ht hpo
        rw [g3, g4] at hl
        obtain ⟨-, hne⟩ := usable_alive hn hm hi hreq hpr hf
        obtain ⟨ks, hks⟩ : ∃ ks, q.enabled (.check ks ⟨max s.now s.due, p.rto0, p.win 0⟩ : Adaptive.Ev ε) := ⟨_, ht, .refl _⟩
        have hen : ∀ t, s.c.enabled (p.pipe t) name (.pipe (.check ks ⟨max s.now s.due, p.rto0, p.win 0⟩)) :=
          fun _ => ⟨hne, n, q, hp, hks, rfl⟩
        have hid : ∀ t, ¬ s.c.idle (p.pipe t) := by
          intro t hx
          have := (hx.2 n q hp).2.1
          rw [ht] at this; cases this
        refine ⟨⟨.pipe (.check ks ⟨max s.now s.due, p.rto0, p.win 0⟩), max s.now s.due⟩,
          ⟨⟨hen _, hid _⟩, Nat.le_max_left _ _, ?_, ?_⟩, ⟨⟨hen _, ?_⟩, trivial, fun _ _ _ => trivial⟩, hrto⟩
        · intro f hfe
          refine ⟨by simp, by simp, ?_⟩
          intro d' _ hrun
          have := pipe_none (usable_pinv hpr) hfe hrun
          rw [hp] at this; cases this
        · intro n' q' hq
          rw [hp] at hq
          simp only [Option.some.injEq, Prod.mk.injEq] at hq
          obtain ⟨rfl, rfl⟩ := hq
          refine ⟨?_, ?_⟩
          · intro x hx
            simp only [Catchunks.Ev.pipe.injEq] at hx
            subst hx
            exact ⟨by simp [AdaptiveTime.env?], fun _ => Nat.le_max_right _ _⟩
          · intro d' hd'
            cases hd'
            refine ⟨fun _ => ?_, fun hx => absurd hpo hx⟩
            exact Nat.max_le.mpr ⟨hl, Nat.le_add_right _ _⟩
        · intro n' q' k x hq hx
          simp [adaptivePipe] at hx

/-- **C102 (in terms of the retry limit)** That is at most `(1+2R)(life+d) + R(1ms+d) + (segments (1 + max 1 R) + 1) (maxRto + interval + d)`. -/
theorem C102_limit_partial (hslots : ∀ w', Adaptive.Reach p.A p.w w' → 1 ≤ p.A.slots w')
    (hdec : ∀ w', Adaptive.Decs p.A p.w w' → p.A.slots w' = p.A.slots p.w) (hR : p.ao.maxRetries = R) (hrto : p.rto0 ≤ maxRto)
    (hn : now < 2 ^ 64) (hm : 0 < po.maxSegmentSize) (hi : input.length < 2 ^ 64)
    (hreq : Requests (Producer.construct po pre0 now input) p.disc name) {es s}
    (h : (usableTimed p d maxRto digest (Producer.construct po pre0 now input) conv fresh name).Run es s)
    (hf : FewLosses p ((Producer.construct po pre0 now input).store.map (·.content)) es s) :
    s.now ≤ limit p.life d R R + ((Producer.split po.maxSegmentSize input).length * (1 + max 1 R) + 1) * (maxRto + p.interval + d) := by
  have h' := (C102_ends_partial hslots hdec hR hrto hn hm hi hreq h hf).1
  unfold FewLosses at hf
  rw [store_contents] at hf
  rcases hf with hf | hf
  · rw [hR] at hf; omega
  rw [hR] at hf
  have h1 : ∀ n ≤ (Producer.split po.maxSegmentSize input).length, losses p n es s ≤ n * max 1 R := by
    intro n hn
    induction n with
    | zero => simp [losses, AdaptiveTime.losses]
    | succ n ih =>
      have h2 := ih (by omega)
      have h3 := hf n (by omega)
      unfold losses AdaptiveTime.losses at h2 ⊢
      rw [List.range_succ, List.map_append, List.sum_append, Nat.add_mul, Nat.one_mul]
      simp only [List.map_cons, List.map_nil, List.sum_cons, List.sum_nil, Nat.add_zero]
      omega
  have h2 := h1 _ (Nat.le_refl _)
  refine Nat.le_trans h' (Nat.add_le_add_left (Nat.mul_le_mul_right _ ?_) _)
  rw [Nat.mul_add, Nat.mul_one]
  omega

end Main

/-- **C102 (default pipeline)** With CUBIC, the default, whatever its initial window of at least 1, nothing is missing. -/
theorem C102_cubic {digest : Data → Bytes} {po : Producer.Opts} {pre0 : Name} {now : Nat} {input : Bytes} {conv : Convention} {fresh : Bool}
    {co : Window.CubicOpts} {t0 : ℝ} (h1 : 1 ≤ co.initCwnd) (hb : co.beta ≤ 1) {p : Params Window.Cubic Window.CubicEnv}
    (hA : p.A = Window.Cubic.alg co) (hw : p.w = Window.Cubic.init co t0) (hR : p.ao.maxRetries = R) (hrto : p.rto0 ≤ maxRto)
    (hn : now < 2 ^ 64) (hm : 0 < po.maxSegmentSize) (hi : input.length < 2 ^ 64)
    (hreq : Requests (Producer.construct po pre0 now input) p.disc name) {es s}
    (h : (usableTimed p d maxRto digest (Producer.construct po pre0 now input) conv fresh name).Run es s)
    (hf : FewLosses p ((Producer.construct po pre0 now input).store.map (·.content)) es s) :
    s.now ≤ limit p.life d R R + ((Producer.split po.maxSegmentSize input).length * (1 + max 1 R) + 1) * (maxRto + p.interval + d) ∧
    ((s.Exits p 0 ∧ s.c.stdout = input) ∨
      ∃ e, (usableTimed p d maxRto digest (Producer.construct po pre0 now input) conv fresh name).enabled s e) := by
  obtain ⟨g1, g2⟩ := Adaptive.C73_cubic_windows (t0 := t0) h1 hb
  rw [← hA, ← hw] at g1 g2
  exact ⟨C102_limit_partial g1 g2 hR hrto hn hm hi hreq h hf, (C102_ends_partial g1 g2 hR hrto hn hm hi hreq h hf).2⟩

/-- **C102 (AIMD)** The same for AIMD, if the window is reset to its initial value on every decrease, or its initial value is at least 2
(the default) and less than 3. -/
theorem C102_aimd_partial {digest : Data → Bytes} {po : Producer.Opts} {pre0 : Name} {now : Nat} {input : Bytes} {conv : Convention} {fresh : Bool}
    {co : Window.AimdOpts} (h2 : 0 ≤ co.aiStep)
    (hw0 : co.resetCwndToInit = true ∧ 1 ≤ co.initCwnd ∨ 2 ≤ co.initCwnd ∧ co.initCwnd < 3 ∧ 0 ≤ co.mdCoef ∧ co.mdCoef ≤ 1)
    {p : Params Window.Aimd Unit} (hA : p.A = Window.Aimd.alg co) (hw : p.w = Window.Aimd.init co) (hR : p.ao.maxRetries = R)
    (hrto : p.rto0 ≤ maxRto) (hn : now < 2 ^ 64) (hm : 0 < po.maxSegmentSize) (hi : input.length < 2 ^ 64)
    (hreq : Requests (Producer.construct po pre0 now input) p.disc name) {es s}
    (h : (usableTimed p d maxRto digest (Producer.construct po pre0 now input) conv fresh name).Run es s)
    (hf : FewLosses p ((Producer.construct po pre0 now input).store.map (·.content)) es s) :
    s.now ≤ limit p.life d R R + ((Producer.split po.maxSegmentSize input).length * (1 + max 1 R) + 1) * (maxRto + p.interval + d) ∧
    ((s.Exits p 0 ∧ s.c.stdout = input) ∨
      ∃ e, (usableTimed p d maxRto digest (Producer.construct po pre0 now input) conv fresh name).enabled s e) := by
  obtain ⟨g1, g2⟩ := Adaptive.C73_aimd_windows h2 hw0
  rw [← hA, ← hw] at g1 g2
  exact ⟨C102_limit_partial g1 g2 hR hrto hn hm hi hreq h hf, (C102_ends_partial g1 g2 hR hrto hn hm hi hreq h hf).2⟩

/-! ## Larger initial windows -/

private def twoProd : Producer.Prod := Producer.construct { maxSegmentSize := 1 } [⟨8, [65]⟩] 7 [1, 2]

/-- `ndncatchunks -p aimd --init-cwnd 4`, otherwise with default options; RTO 10, an RTO check every 20. -/
private def stallParams : Params Window.Aimd Unit :=
  { A := Window.Aimd.alg ⟨4, 1000, 1, 1 / 2, false⟩, w := ⟨4, 1000⟩, ao := ⟨15, false, false⟩, interval := 20, disable := false,
    life := 4000, rto0 := 10, win := fun _ => () }

/-- **C102 (refuted for larger initial windows)** AIMD with initial window 4, an object of two segments, each lost once: for every `B` there
is an execution in which later than `B` the program has written nothing, nor has it ended. -/
theorem C102_stalls (digest : Data → Bytes) (B : Nat) : ∃ es s,
    (usableTimed stallParams 0 10 digest twoProd .typed false twoProd.versionedPrefix).Run es s ∧
    FewLosses stallParams (twoProd.store.map (·.content)) es s ∧ losses stallParams 2 es s = 2 ∧
    B < s.now ∧ s.c.stdout = [] ∧ ∀ n, ¬ s.Exits stallParams n := by
  obtain ⟨aes, a, r, hf, hl, hB, hrec, h1, h2, h3, -, hnd⟩ := AdaptiveTime.C100_stalls B
  obtain ⟨s, r', hp, g1, g2, g3⟩ := lift (p := stallParams) (d := 0) (maxRto := 10) (digest := digest) (po := { maxSegmentSize := 1 })
    (pre0 := [⟨8, [65]⟩]) (now := 7) (input := [1, 2]) (conv := .typed) (fresh := false) (by decide) (by decide) (by decide) rfl (by simp)
    r hf (fun k x c v hx => absurd hx (hnd k x c v))
  have hpe : pipeEvents ((aes.map fun e => (⟨.pipe e.ev, e.t⟩ : Ev Unit)).map (·.ev)) = aes.map (·.ev) := by
    rw [List.map_map]
    simp [pipeEvents, List.filterMap_map, Function.comp_def]
  have hpr := usable_proj r' 0 (fun _ => g3.symm)
  have hseg : twoProd.store.map (·.content) = [[1], [2]] := by decide
  have hreq : Requests twoProd stallParams.disc twoProd.versionedPrefix := .inl rfl
  have hfs : FewLosses stallParams (twoProd.store.map (·.content)) (aes.map fun e => ⟨.pipe e.ev, e.t⟩) s := by
    unfold FewLosses
    rw [hseg, hpe, g3]
    exact hf
  have hx : ∀ n, ¬ s.Exits stallParams n := by
    intro n hx
    have hx := hx
    unfold St.Exits at hx
    rw [g3] at hx
    have hfs' := hfs
    unfold FewLosses at hfs'
    rw [g3] at hfs'
    obtain ⟨hne, hn0⟩ := C74_no_failure (by decide) (by decide) (by decide) hreq hpr hfs'
    obtain ⟨rfl, -⟩ := hn0 n hx
    unfold Catchunks.St.Exits at hx
    have ht : s.c.cons.threw = none := by
      by_contra hc
      exact hne (.inl hc)
    rw [ht] at hx
    rcases hx with hx | hx
    · exact hne hx.1
    · have h4 := (hx.2.1.2 _ _ hp).2.1
      have h5 : a.p.timer = true := (AdaptiveTime.run_ticks (AdaptiveTime.served_plain r).1).resolve_left (by rw [h1]; simp)
      rw [h5] at h4; cases h4
  refine ⟨_, s, r', hfs, ?_, by rw [g1]; exact hB, ?_, hx⟩
  · unfold losses
    rw [hpe, g3]
    exact hl
  · have hcons := ((usable_pinv hpr).after _ _ hp).2.2
    unfold Catchunks.St.stdout
    rw [hcons]
    have hno : (adaptivePipe stallParams.A stallParams.ao stallParams.w (stallParams.env 0)).calls a.p = [] := by
      refine List.eq_nil_iff_forall_not_mem.mpr ?_
      rintro (⟨k, x⟩ | m) hk
      · have := adaptive_mem_data.mp hk
        have hk' : k ∈ Adaptive.received a.p.log := by
          unfold Adaptive.received
          exact List.mem_filterMap.mpr ⟨_, this, rfl⟩
        rw [hrec] at hk'; cases hk'
      · exact absurd (adaptive_mem_failure.mp hk) ((Adaptive.served_harm (by simp) (AdaptiveTime.served_plain r).2 hf).quiet.2 m)
    rw [hno]
    rfl

/-! ## The theorems are about something -/

private def threeProd : Producer.Prod := Producer.construct { maxSegmentSize := 1 } [⟨8, [65]⟩] 7 [1, 2, 3]

/-- One retry, RTO 10, a check every 20. -/
private def halvingParams : Params Nat Unit :=
  { A := Adaptive.halving, w := 2, ao := ⟨1, false, false⟩, interval := 20, disable := false, life := 4000, rto0 := 10, win := fun _ => () }

private def threeEvs : List (AdaptiveTime.Ev Unit) :=
  [⟨.data 1 { content := [2], final := .seg 2 } false ⟨5, 10, ()⟩, 5, 0, 0⟩, ⟨.check [0, 2] ⟨20, 10, ()⟩, 20, 0, 0⟩,
    ⟨.data 0 { content := [1], final := .seg 2 } false ⟨25, 10, ()⟩, 25, 0, 0⟩,
    ⟨.data 2 { content := [3], final := .seg 2 } false ⟨38, 10, ()⟩, 38, 0, 0⟩]

/-- Beside `C102_ends_partial`: three segments, the name with its version. Segment 1 arrives at once, the Interests for 0 and 2 are lost once,
which is found at 20. At 38 the program has everything and ends. -/
example (digest : Data → Bytes) : ∃ es s,
    (usableTimed halvingParams 0 10 digest threeProd .typed false threeProd.versionedPrefix).Run es s ∧
    FewLosses halvingParams (threeProd.store.map (·.content)) es s ∧ s.now = 38 ∧ s.Exits halvingParams 0 ∧ s.c.stdout = [1, 2, 3] := by
  let M := AdaptiveTime.servedTimed 0 10 Adaptive.halving ⟨1, false, false⟩ 20 2 ⟨0, 10, ()⟩ [[1], [2], [3]]
  have r : M.Run threeEvs ((M.exec M.init threeEvs).get (by decide +kernel)) := Machine.exec_run (M := M) (Option.some_get _).symm
  have hf : Adaptive.FewLosses Adaptive.halving ⟨1, false, false⟩ 2 ⟨0, 10, ()⟩ [[1], [2], [3]] (threeEvs.map (·.ev)) :=
    .inr (by decide +kernel)
  have hnow : ((M.exec M.init threeEvs).get (by decide +kernel)).now = 38 := by decide +kernel
  have hcomp : Adaptive.Obs.complete ∈ ((M.exec M.init threeEvs).get (by decide +kernel)).p.log := by decide +kernel
  generalize (M.exec M.init threeEvs).get _ = a at r hnow hcomp
  obtain ⟨s, r', hp, g1, g2, g3⟩ := lift (p := halvingParams) (d := 0) (maxRto := 10) (digest := digest) (po := { maxSegmentSize := 1 })
    (pre0 := [⟨8, [65]⟩]) (now := 7) (input := [1, 2, 3]) (conv := .typed) (fresh := false) (by decide) (by decide) (by decide) rfl (by simp)
    r hf (by
      intro k x c v hx
      simp only [threeEvs, List.map_cons, List.map_nil, List.mem_cons, List.not_mem_nil, or_false, Adaptive.Ev.data.injEq, reduceCtorEq,
        false_or] at hx
      rcases hx with ⟨rfl, rfl, -⟩ | ⟨rfl, rfl, -⟩ | ⟨rfl, rfl, -⟩ <;> decide)
  have hpe : pipeEvents ((threeEvs.map fun e => (⟨.pipe e.ev, e.t⟩ : Ev Unit)).map (·.ev)) = threeEvs.map (·.ev) := by
    rw [List.map_map]
    simp [pipeEvents, List.filterMap_map, Function.comp_def]
  have hseg : threeProd.store.map (·.content) = [[1], [2], [3]] := by decide
  have hreq : Requests threeProd halvingParams.disc threeProd.versionedPrefix := .inl rfl
  have hfs : FewLosses halvingParams (threeProd.store.map (·.content)) (threeEvs.map fun e => ⟨.pipe e.ev, e.t⟩) s := by
    unfold FewLosses
    rw [hseg, hpe, g3]
    exact hf
  have hx : s.Exits halvingParams 0 := by
    have hpr := usable_proj r' 0 (fun _ => g3.symm)
    have hf' := hfs
    unfold FewLosses at hf'
    rw [g3, hseg] at hf'
    have := usable_exits (by decide) (by decide) (by decide) hreq hpr hf' hp hcomp
    unfold St.Exits
    rw [g3]
    exact this
  refine ⟨_, s, r', hfs, by rw [g1, hnow], hx, ?_⟩
  have hpr := usable_proj r' s.begun (fun _ => rfl)
  exact ((C74_no_failure (by decide) (by decide) (by decide) hreq hpr hfs).2 0 hx).2

private def discParams : Params Nat Unit := { halvingParams with ao := ⟨0, false, false⟩, life := 4000000000 }
private abbrev discM : Machine (St Nat) (Ev Unit) := machine discParams (some 0) [⟨8, [65]⟩]

/-- Beside `C102_discovery`: a lifetime of 4 s, no retries, the name without its version. The metadata is not answered, so the program fails
after 4 s, which is as late as it may. -/
example : ∃ s, discM.Run [⟨.disc .timeout, 4000000000⟩] s ∧
    s.c.pipe = none ∧ s.now = limit discParams.life 0 0 0 ∧ s.Exits discParams 1 := by
  have hp : discM.init.c.pipe = none := by decide +kernel
  refine ⟨_, .snoc (M := discM) _ .nil ⟨⟨⟨?_, ?_⟩, ?_⟩, Nat.zero_le _, ?_, ?_⟩, by decide +kernel, by decide +kernel, ?_⟩
  · rintro (h | ⟨n, q, h, -⟩)
    · exact h (by decide +kernel)
    · rw [hp] at h; cases h
  · show Discover.St.enabled _ _ _
    decide +kernel
  · rintro ⟨h1, -⟩
    have := (h1 _ rfl).2 (by decide +kernel)
    revert this
    decide +kernel
  · intro f hf
    have : f = (discM.init.c.disc.fetcher).get (by decide +kernel) := (Option.get_of_eq_some _ hf).symm
    subst this
    refine ⟨fun _ => by decide +kernel, fun h => by simp at h, ?_⟩
    rintro d ⟨⟩ -
    decide +kernel
  · intro n q hq
    rw [hp] at hq; cases hq
  · unfold St.Exits Catchunks.St.Exits
    have : (discM.step discM.init ⟨.disc .timeout, 4000000000⟩).c.cons.threw = some .failure := by decide +kernel
    rw [this]

end Verif.CatchunksAdaptiveTime
