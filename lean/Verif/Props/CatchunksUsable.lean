import Verif.Proofs.CatchunksUsable
import Verif.Props.Catchunks
import Verif.Props.AdaptiveFair

/-! # C74: a transfer with an adaptive pipeline over a usable network -/

namespace Verif.Catchunks

variable {σ ε : Type}

/-- **C74 (no failure)** `ndncatchunks` with an adaptive pipeline (with any window adaptation algorithm) fetches the
object of `ndnputchunks`, by its versioned name or, with version discovery, by the name without version. The network
is usable: not all of the Interests that the program may send for the metadata are lost, Nacks other than
Duplicate and Congestion hit only segments that do not exist, and no segment that exists is lost more
often than the retry limit permits repeating its Interest. Then at every moment of every execution the program
has not failed, and the only exit status possible is 0, with `input` written to the standard
output. -/
theorem C74_no_failure {A : Adaptive.Alg σ ε} {ao : Adaptive.Opts} {w : σ} {v : Adaptive.Env ε}
    {digest : Data → Bytes} {po : Producer.Opts} {pre0 : Name} {now : Nat} {input : Bytes} (hn : now < 2 ^ 64)
    (hm : 0 < po.maxSegmentSize) (hi : input.length < 2 ^ 64) {o : Discover.Opts} {conv : Convention} {fresh : Bool}
    {name : Name} (hreq : Requests (Producer.construct po pre0 now input) o name) {es s}
    (h : (usableMachine A ao w v o digest (Producer.construct po pre0 now input) conv fresh name).Run es s)
    (hf : Adaptive.FewLosses A ao w v ((Producer.construct po pre0 now input).store.map (·.content)) (pipeEvents es)) :
    ¬ s.ended (adaptivePipe A ao w v) ∧
    ∀ n, s.Exits (adaptivePipe A ao w v) n → n = 0 ∧ s.stdout = input := by
  rw [store_contents] at hf
  obtain ⟨ht, hne⟩ := usable_alive hn hm hi hreq h hf
  obtain ⟨_, h2, _⟩ := C22_adaptive hn hm hi (requests_not_meta hn hreq) (usable_net h)
  refine ⟨hne, ?_⟩
  intro n hx
  have hx' := hx
  unfold St.Exits at hx'
  rw [ht] at hx'
  rcases hx' with hx' | hx'
  · exact absurd hx'.1 hne
  · obtain ⟨_, _, rfl⟩ := hx'
    exact ⟨rfl, h2 hx⟩

/-- **C74 (completion stays reachable, what does hold)** As in `C74_no_failure`; both programs use the same naming
convention, fresh Data is asked for only if the producer gives it a freshness period, and with a retry limit
no Duplicate Nack hits a segment that exists. The window satisfies the assumptions of
`Adaptive.C73_can_complete_partial`. Then from every state that the program reaches, some continuation without
losses ends with exit status 0 and `input` on the standard output: metadata and segments
arrive, after the end of a backoff at most; without a limit on retries also after one RTO
check. Missing from the claim C74: initial windows that a decrease makes smaller, see `C74_stalls`. -/
theorem C74_can_complete_partial {A : Adaptive.Alg σ ε} {ao : Adaptive.Opts} {w : σ} {v : Adaptive.Env ε}
    (hslots : ∀ w', Adaptive.Reach A w w' → 1 ≤ A.slots w')
    (hdec : ∀ w', Adaptive.Decs A w w' → A.slots w' = A.slots w)
    {digest : Data → Bytes} {po : Producer.Opts} {pre0 : Name} {now : Nat} {input : Bytes} (hn : now < 2 ^ 64)
    (hm : 0 < po.maxSegmentSize) (hi : input.length < 2 ^ 64) {o : Discover.Opts} {conv : Convention} {fresh : Bool}
    {name : Name} (hreq : Requests (Producer.construct po pre0 now input) o name) (hconv : conv = po.conv)
    (hfresh : fresh = true → 0 < po.freshness) {es s}
    (h : (usableMachine A ao w v o digest (Producer.construct po pre0 now input) conv fresh name).Run es s)
    (hf : Adaptive.FewLosses A ao w v ((Producer.construct po pre0 now input).store.map (·.content)) (pipeEvents es))
    (hd : Adaptive.NoDuplicates ao ((Producer.construct po pre0 now input).store.map (·.content)) (pipeEvents es)) :
    ∃ es' s', (usableMachine A ao w v o digest (Producer.construct po pre0 now input) conv fresh name).RunFrom s es' s' ∧
      s'.Exits (adaptivePipe A ao w v) 0 ∧ s'.stdout = input ∧
      ∀ e ∈ es', (∃ m, e = .disc (.data m)) ∨ e = .disc .timer ∨ (∃ k p v', e = .pipe (.data k p false v')) ∨
        (ao.maxRetries = -1 ∧ ∃ order v', e = .pipe (.check order v')) := by
  have hf0 := hf
  rw [store_contents] at hf hd
  obtain ⟨des, s1, n, q, r1, hp, hdes⟩ := usable_found hn hm hi hreq h hf
  have hpd : ∀ l : List Discover.Ev, pipeEvents (l.map (Ev.disc (ε := Adaptive.Ev ε))) = [] := by
    intro l
    simp [pipeEvents]
  have hpe : pipeEvents (es ++ des.map Ev.disc) = pipeEvents es := by
    have := hpd des
    unfold pipeEvents at this ⊢
    rw [List.filterMap_append, this, List.append_nil]
  have h1 := h.extend r1
  obtain ⟨hq, _⟩ := usable_served hn hm hi hreq h1 hp
  rw [hpe] at hq
  obtain ⟨qes, q', r2, hc, hall⟩ := Adaptive.served_can_complete (split_ne hm) hslots hdec hq hf hd v
  have hf2 : Adaptive.FewLosses A ao w v (Producer.split po.maxSegmentSize input) (pipeEvents es ++ qes) := by
    rcases hall with hall | hall
    · clear r2
      induction qes using List.reverseRecOn with
      | nil => simpa using hf
      | append_singleton l e ih =>
        rw [← List.append_assoc]
        obtain ⟨k, _, rfl⟩ := hall e (by simp)
        exact Adaptive.few_data (ih (fun x hx => hall x (List.mem_append_left _ hx)))
    · exact Or.inl hall.1
  have hdata : ∀ e ∈ qes, (∃ k < (Producer.split po.maxSegmentSize input).length,
      e = .data k (Adaptive.answer (Producer.split po.maxSegmentSize input) k) false v) ∨
      (ao.maxRetries = -1 ∧ ∃ order v', e = .check order v') := by
    intro e he
    rcases hall with hall | ⟨hR, order, v', l, rfl, hall⟩
    · exact Or.inl (hall e he)
    · rcases List.mem_cons.mp he with rfl | he
      · exact Or.inr ⟨hR, order, v', rfl⟩
      · exact Or.inl (hall e he)
  obtain ⟨s', r3, hp'⟩ := usable_lift hn hm hi hreq hconv hfresh h1 hp (by rw [hpe]; exact hf2) r2 (by
    intro k p c v' he
    rcases hdata _ he with ⟨k', hk', e⟩ | ⟨_, order, v'', e⟩
    · cases e
      exact ⟨hk', rfl⟩
    · cases e)
  have h2 := h1.extend r3
  have hx := usable_exits hn hm hi hreq h2 (by
    have hpq : pipeEvents (qes.map (Ev.pipe (ε := Adaptive.Ev ε))) = qes := by simp [pipeEvents]
    have : pipeEvents (es ++ des.map Ev.disc ++ qes.map Ev.pipe) = pipeEvents es ++ qes := by
      rw [← hpe]
      unfold pipeEvents at hpq ⊢
      rw [List.filterMap_append, hpq]
    rw [this]; exact hf2) hp' hc
  refine ⟨des.map .disc ++ qes.map .pipe, s', ?_, hx, ?_, ?_⟩
  · clear hx hp' h2
    generalize qes.map Ev.pipe = l at r3
    induction r3 with
    | nil => simpa using r1
    | snoc e _ he ih => rw [← List.append_assoc]; exact Machine.RunFrom.snoc e ih he
  · exact (C22_adaptive hn hm hi (requests_not_meta hn hreq) (usable_net h2)).2.1 hx
  · intro e he
    rcases List.mem_append.mp he with he | he
    · obtain ⟨x, hx, rfl⟩ := List.mem_map.mp he
      rcases hdes x hx with ⟨m, rfl⟩ | rfl
      · exact Or.inl ⟨m, rfl⟩
      · exact Or.inr (Or.inl rfl)
    · obtain ⟨x, hx, rfl⟩ := List.mem_map.mp he
      rcases hdata x hx with ⟨k, _, rfl⟩ | ⟨hR, order, v', rfl⟩
      · exact Or.inr (Or.inr (Or.inl ⟨_, _, _, rfl⟩))
      · exact Or.inr (Or.inr (Or.inr ⟨hR, _, _, rfl⟩))

/-- **C74 (default windows)** With CUBIC (any initial window of at least 1) the transfer of `C74_can_complete_partial`
can always be completed. -/
theorem C74_cubic {co : Window.CubicOpts} {t0 : ℝ} (h1 : 1 ≤ co.initCwnd) (hb : co.beta ≤ 1)
    {ao : Adaptive.Opts} {v : Adaptive.Env Window.CubicEnv}
    {digest : Data → Bytes} {po : Producer.Opts} {pre0 : Name} {now : Nat} {input : Bytes} (hn : now < 2 ^ 64)
    (hm : 0 < po.maxSegmentSize) (hi : input.length < 2 ^ 64) {o : Discover.Opts} {fresh : Bool}
    {name : Name} (hreq : Requests (Producer.construct po pre0 now input) o name)
    (hfresh : fresh = true → 0 < po.freshness) {es s}
    (h : (usableMachine (Window.Cubic.alg co) ao (Window.Cubic.init co t0) v o digest
      (Producer.construct po pre0 now input) po.conv fresh name).Run es s)
    (hf : Adaptive.FewLosses (Window.Cubic.alg co) ao (Window.Cubic.init co t0) v
      ((Producer.construct po pre0 now input).store.map (·.content)) (pipeEvents es))
    (hd : Adaptive.NoDuplicates ao ((Producer.construct po pre0 now input).store.map (·.content)) (pipeEvents es)) :
    ∃ es' s', (usableMachine (Window.Cubic.alg co) ao (Window.Cubic.init co t0) v o digest
        (Producer.construct po pre0 now input) po.conv fresh name).RunFrom s es' s' ∧
      s'.Exits (adaptivePipe (Window.Cubic.alg co) ao (Window.Cubic.init co t0) v) 0 ∧ s'.stdout = input := by
  obtain ⟨g1, g2⟩ := Adaptive.C73_cubic_windows (t0 := t0) h1 hb
  obtain ⟨es', s', r, hx, ho, _⟩ := C74_can_complete_partial g1 g2 hn hm hi hreq rfl hfresh h hf hd
  exact ⟨es', s', r, hx, ho⟩

/-- The same for AIMD, if the window is reset to its initial value on every decrease, or its initial value is at least 2
(the default) and less than 3. -/
theorem C74_aimd {co : Window.AimdOpts} (h2 : 0 ≤ co.aiStep)
    (hw : co.resetCwndToInit = true ∧ 1 ≤ co.initCwnd ∨ 2 ≤ co.initCwnd ∧ co.initCwnd < 3 ∧ 0 ≤ co.mdCoef ∧ co.mdCoef ≤ 1)
    {ao : Adaptive.Opts} {v : Adaptive.Env Unit}
    {digest : Data → Bytes} {po : Producer.Opts} {pre0 : Name} {now : Nat} {input : Bytes} (hn : now < 2 ^ 64)
    (hm : 0 < po.maxSegmentSize) (hi : input.length < 2 ^ 64) {o : Discover.Opts} {fresh : Bool}
    {name : Name} (hreq : Requests (Producer.construct po pre0 now input) o name)
    (hfresh : fresh = true → 0 < po.freshness) {es s}
    (h : (usableMachine (Window.Aimd.alg co) ao (Window.Aimd.init co) v o digest
      (Producer.construct po pre0 now input) po.conv fresh name).Run es s)
    (hf : Adaptive.FewLosses (Window.Aimd.alg co) ao (Window.Aimd.init co) v
      ((Producer.construct po pre0 now input).store.map (·.content)) (pipeEvents es))
    (hd : Adaptive.NoDuplicates ao ((Producer.construct po pre0 now input).store.map (·.content)) (pipeEvents es)) :
    ∃ es' s', (usableMachine (Window.Aimd.alg co) ao (Window.Aimd.init co) v o digest
        (Producer.construct po pre0 now input) po.conv fresh name).RunFrom s es' s' ∧
      s'.Exits (adaptivePipe (Window.Aimd.alg co) ao (Window.Aimd.init co) v) 0 ∧ s'.stdout = input := by
  obtain ⟨g1, g2⟩ := Adaptive.C73_aimd_windows h2 hw
  obtain ⟨es', s', r, hx, ho, _⟩ := C74_can_complete_partial g1 g2 hn hm hi hreq rfl hfresh h hf hd
  exact ⟨es', s', r, hx, ho⟩

/-! ## Larger initial windows -/

private theorem run_from {M : Machine σ ε} {es s} (h : M.Run es s) : M.RunFrom M.init es s := by
  induction h with
  | nil => exact .nil
  | snoc e _ he ih => exact .snoc e ih he

private def twoProd : Producer.Prod := Producer.construct { maxSegmentSize := 1 } [⟨8, [65]⟩] 7 [1, 2]

/-- **C74 (refuted for larger initial windows)** `ndncatchunks -p aimd --init-cwnd 4`, otherwise with default options,
fetches an object of two segments. Both segments are lost once and the producer rejects
the Interest for the third. From then on the program neither writes anything nor exits, whatever
happens, although both segments are available. -/
theorem C74_stalls (digest : Data → Bytes) :
    let ao : Adaptive.Opts := ⟨15, false, false⟩
    let A := Window.Aimd.alg ⟨4, 1000, 1, 1 / 2, false⟩
    let w : Window.Aimd := ⟨4, 1000⟩
    let M := usableMachine A ao w ⟨0, 10, ()⟩ ⟨true, 15⟩ digest twoProd .typed false twoProd.versionedPrefix
    ∃ s, M.Run (Adaptive.servedStall.map .pipe) s ∧
    Adaptive.FewLosses A ao w ⟨0, 10, ()⟩ (twoProd.store.map (·.content)) Adaptive.servedStall ∧
    Adaptive.NoDuplicates ao (twoProd.store.map (·.content)) Adaptive.servedStall ∧
    ∀ es' s', M.RunFrom s es' s' → s'.stdout = [] ∧ ∀ n, ¬ s'.Exits (adaptivePipe A ao w ⟨0, 10, ()⟩) n := by
  intro ao A w M
  have hseg : twoProd.store.map (·.content) = [[1], [2]] := by decide
  obtain ⟨q, hrun, hf, hd, hst, htq, hqq, _, _, hall⟩ := Adaptive.C73_stalls
  have hreq : Requests twoProd ⟨true, 15⟩ twoProd.versionedPrefix := Or.inl rfl
  have hinit : M.init.pipe = some (twoProd.versionedPrefix, Adaptive.start A ao w ⟨0, 10, ()⟩) := rfl
  obtain ⟨s, r, hp⟩ := usable_lift (A := A) (ao := ao) (w := w) (v := ⟨0, 10, ()⟩) (digest := digest)
    (po := { maxSegmentSize := 1 }) (pre0 := [⟨8, [65]⟩]) (now := 7) (input := [1, 2]) (o := ⟨true, 15⟩)
    (conv := .typed) (fresh := false) (name := twoProd.versionedPrefix) (by decide) (by decide) (by decide) hreq rfl
    (by simp) (Machine.Run.nil (M := M)) hinit hf (run_from hrun)
    (by intro k p c v' hx; simp at hx)
  have hr : M.Run (Adaptive.servedStall.map .pipe) s := by
    have := (Machine.Run.nil (M := M)).extend r
    exact this
  rw [hseg]
  refine ⟨s, hr, hf, hd, ?_⟩
  intro es' s' h'
  obtain ⟨q', hp', r'⟩ := usable_from (A := A) (ao := ao) (w := w) (v := ⟨0, 10, ()⟩) (digest := digest)
    (po := { maxSegmentSize := 1 }) (pre0 := [⟨8, [65]⟩]) (now := 7) (input := [1, 2]) (o := ⟨true, 15⟩)
    (conv := .typed) (fresh := false) (name := twoProd.versionedPrefix) (by decide) (by decide) (by decide) hreq hr hp h'
  obtain ⟨g1, g2, g3⟩ := hall _ _ r'
  have hr' := hr.extend h'
  have hinv := usable_pinv hr'
  have hcalls : ∀ t : Adaptive.St Window.Aimd, t.log = q.log →
      (adaptivePipe A ao w ⟨0, 10, ()⟩).calls t = (adaptivePipe A ao w ⟨0, 10, ()⟩).calls q := by
    intro t ht
    simp only [adaptivePipe, ht]
  have hnone : (adaptivePipe A ao w ⟨0, 10, ()⟩).calls q = [] := by
    rw [Fixed.run_foldl hrun]
    decide +kernel
  have hcons : s'.cons = {} := by
    rw [(hinv.after _ _ hp').2.2, hcalls _ g1, hnone]; rfl
  refine ⟨by unfold St.stdout; rw [hcons], ?_⟩
  obtain ⟨hq', _⟩ := usable_served (po := { maxSegmentSize := 1 }) (pre0 := [⟨8, [65]⟩]) (now := 7) (input := [1, 2])
    (by decide) (by decide) (by decide) hreq hr' hp'
  have hthrew := (Adaptive.served_threw hq').1
  have htim : q'.timer = true := by
    have hw : Adaptive.Why true q' := by
      refine Machine.Run.invariant (M := Adaptive.servedMachine A ao w ⟨0, 10, ()⟩ (Producer.split 1 [1, 2]))
        (P := Adaptive.Why true) ?_ (fun s e hs he => Adaptive.why_step hs he.1.2.2.2.2) hq'
      have h0 : Adaptive.Why true ({ win := w, timer := true } : Adaptive.St Window.Aimd) :=
        ⟨Or.inr rfl, fun h => by cases h⟩
      exact Adaptive.why_schedulePackets h0 A ao _
    rcases hw.tim with h | h
    · rw [g2] at h; cases h
    · exact h
  intro n hx
  unfold St.Exits at hx
  rw [hcons] at hx
  rcases hx with ⟨he, _⟩ | ⟨_, hidle, _⟩
  · rcases he with he | ⟨n', q'', hp'', ht⟩
    · rw [hcons] at he; exact he rfl
    · rw [hp'] at hp''
      simp only [Option.some.injEq, Prod.mk.injEq] at hp''
      obtain ⟨rfl, rfl⟩ := hp''
      simp [adaptivePipe, hthrew] at ht
  · have := (hidle.2 _ _ hp').2.1
    rw [htim] at this; cases this

/-! ## Concrete cases -/

/-- Beside `C74_no_failure` and `C74_can_complete_partial`: one retry is permitted; the version is discovered,
both segments are lost once. The hypotheses hold and the program has not exited; it can, with status 0. -/
example :
    let A := Adaptive.halving
    let ao : Adaptive.Opts := ⟨1, false, false⟩
    let M := usableMachine A ao 2 ⟨0, 10, ()⟩ ⟨false, 1⟩ (fun _ => []) twoProd .typed false [⟨8, [65]⟩]
    ∃ es s, M.Run es s ∧
      Adaptive.FewLosses A ao 2 ⟨0, 10, ()⟩ (twoProd.store.map (·.content)) (pipeEvents es) ∧
      Adaptive.NoDuplicates ao (twoProd.store.map (·.content)) (pipeEvents es) ∧
      pipeEvents es = [.expire 1 ⟨5, 10, ()⟩, .expire 0 ⟨6, 10, ()⟩] ∧ s.stdout = [] ∧
      ∃ es' s', M.RunFrom s es' s' ∧ s'.Exits (adaptivePipe A ao 2 ⟨0, 10, ()⟩) 0 ∧ s'.stdout = [1, 2] := by
  intro A ao M
  have hseg : twoProd.store.map (·.content) = [[1], [2]] := by decide
  have hreq : Requests twoProd ⟨false, 1⟩ [⟨8, [65]⟩] := Or.inr ⟨by decide, rfl, by decide⟩
  have hf0 : Adaptive.FewLosses A ao 2 ⟨0, 10, ()⟩ [[1], [2]] (pipeEvents ([] : List (Ev (Adaptive.Ev Unit)))) :=
    Or.inr (by decide)
  obtain ⟨des, s1, n, q, r1, hp, hdes⟩ := usable_found (A := A) (ao := ao) (w := 2) (v := ⟨0, 10, ()⟩)
    (digest := fun _ => []) (po := { maxSegmentSize := 1 }) (pre0 := [⟨8, [65]⟩]) (now := 7) (input := [1, 2])
    (o := ⟨false, 1⟩) (conv := .typed) (fresh := false) (name := [⟨8, [65]⟩]) (by decide) (by decide) (by decide) hreq
    (Machine.Run.nil (M := M)) hf0
  have h1 : M.Run (des.map Ev.disc) s1 := by simpa using (Machine.Run.nil (M := M)).extend r1
  have hpe : pipeEvents (des.map (Ev.disc (ε := Adaptive.Ev Unit))) = [] := by simp [pipeEvents]
  obtain ⟨hq, _⟩ := usable_served (po := { maxSegmentSize := 1 }) (pre0 := [⟨8, [65]⟩]) (now := 7) (input := [1, 2])
    (by decide) (by decide) (by decide) hreq h1 hp
  rw [hpe] at hq
  have hq0 := Fixed.run_foldl hq
  let M1 := Adaptive.servedMachine A ao 2 ⟨0, 10, ()⟩ [[1], [2]]
  let qes : List (Adaptive.Ev Unit) := [.expire 1 ⟨5, 10, ()⟩, .expire 0 ⟨6, 10, ()⟩]
  have hr : M1.Run qes ((M1.exec M1.init qes).get (by decide)) := Machine.exec_run (M := M1) (Option.some_get _).symm
  have hfq : Adaptive.FewLosses A ao 2 ⟨0, 10, ()⟩ [[1], [2]] qes := Or.inr (by decide)
  obtain ⟨s, r2, hp2⟩ := usable_lift (A := A) (ao := ao) (w := 2) (v := ⟨0, 10, ()⟩) (digest := fun _ => [])
    (po := { maxSegmentSize := 1 }) (pre0 := [⟨8, [65]⟩]) (now := 7) (input := [1, 2]) (o := ⟨false, 1⟩)
    (conv := .typed) (fresh := false) (name := [⟨8, [65]⟩]) (by decide) (by decide) (by decide) hreq rfl
    (by simp) h1 hp (by rw [hpe]; exact hfq) (by rw [hq0]; exact run_from hr) (by
      intro k p c v' hx; simp at hx)
  have h2 := h1.extend r2
  have hpe2 : pipeEvents (des.map Ev.disc ++ qes.map Ev.pipe) = qes := by simp [pipeEvents]
  have hd : Adaptive.NoDuplicates ao [[1], [2]] qes := Or.inr (by intro k _ v hv; simp [qes] at hv)
  refine ⟨_, s, h2, by rw [hseg, hpe2]; exact hfq, by rw [hseg, hpe2]; exact hd, hpe2, ?_, ?_⟩
  · unfold St.stdout
    rw [((usable_pinv h2).after _ _ hp2).2.2]
    decide
  · have w1 : ∀ w', Adaptive.Reach A 2 w' → 1 ≤ A.slots w' := by
      intro w' h
      have : 2 ≤ w' := by
        induction h with
        | init => exact Nat.le_refl 2
        | inc _ _ ih => exact ih
        | dec _ _ _ => exact Nat.le_max_left ..
      simp only [A, Adaptive.halving]; omega
    have w2 : ∀ w', Adaptive.Decs A 2 w' → A.slots w' = A.slots 2 := by
      intro w' h
      have : w' = 2 := by
        induction h with
        | init => rfl
        | dec _ _ ih => rw [ih]; rfl
      rw [this]
    obtain ⟨es', s', r3, hx, ho, _⟩ := C74_can_complete_partial (po := { maxSegmentSize := 1 }) (pre0 := [⟨8, [65]⟩])
      (now := 7) (input := [1, 2]) w1 w2 (by decide) (by decide) (by decide) hreq rfl (by simp) h2
      (by rw [hpe2]; change Adaptive.FewLosses A ao 2 _ (twoProd.store.map (·.content)) _; rw [hseg]; exact hfq)
      (by rw [hpe2]; change Adaptive.NoDuplicates ao (twoProd.store.map (·.content)) _; rw [hseg]; exact hd)
    exact ⟨es', s', r3, hx, ho⟩

end Verif.Catchunks
