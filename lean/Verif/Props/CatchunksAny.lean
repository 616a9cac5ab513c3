import Verif.Props.Catchunks
import Verif.Model.Window

/-!
# What ndncatchunks writes when nothing is known about the producer (C110)

C22 assumes that the Data come from ndnputchunks. Here they may contain anything, also FinalBlockIds that contradict each
other or the numbers of the segments.
-/

namespace Verif.Catchunks

variable {σ ε : Type}

/-- The output consists of the contents of the segments 0 to `m - 1`, in order, each of them delivered under this
number, valid and no application Nack. -/
def Wrote (calls : List Call) (out : Bytes) (m : Nat) : Prop :=
  ∃ cs : List Bytes, cs.length = m ∧ out = cs.flatten ∧
    ∀ (j : Nat) c, cs[j]? = some c → ∃ p, Call.data j p ∈ calls ∧ p.valid = true ∧ p.appNack = false ∧ p.content = c

/-- Runs with the Data that the events brought. -/
private theorem run_brought {P : Pipe σ ε} {o : Discover.Opts} {name : Name} {es s} (h : (machine P o name).Run es s) :
    ∀ S, es ⊆ S → (envMachine P o name (fun _ => True) (fun _ k p => ∃ q e, Ev.pipe e ∈ S ∧ P.arrival q e = some (k, p))).Run es s := by
  induction h with
  | nil => exact fun _ _ => Machine.Run.nil
  | snoc e _ he ih =>
    intro S hS
    refine Machine.Run.snoc (M := envMachine P o name _ _) e (ih S (fun x hx => hS (by simp [hx]))) ⟨he, ?_⟩
    cases e with
    | disc e => trivial
    | pipe e => exact fun n q k p _ ha => ⟨q, e, hS (by simp), ha⟩

private theorem written {P : Pipe σ ε} (hP : Proper P) {o : Discover.Opts} {name : Name} {es s}
    (h : (machine P o name).Run es s) (h0 : s.Exits P 0) :
    ∃ n q m qes, s.pipe = some (n, q) ∧
      (P.along (fun k p => ∃ q e, Ev.pipe e ∈ es ∧ P.arrival q e = some (k, p))).Run qes q ∧ P.threw q = false ∧ P.idle q ∧
      (∀ x, Call.failure x ∉ P.calls q) ∧ Wrote (P.calls q) s.stdout m ∧ ∀ p, Call.data m p ∉ P.calls q := by
  have henv := run_brought h es (fun _ h => h)
  obtain ⟨n, q, hp, ht, hi, hg⟩ := exits_zero hP henv h0
  obtain ⟨-, ⟨qes, hq⟩, hcons⟩ := (prog_inv hP henv).after n q hp
  obtain ⟨g1, -⟩ := good_run hg
  have hno : ((Consumer.arrived ((P.calls q).flatMap Call.evs)).map Prod.fst).Nodup := by
    rw [arrived_no hg]; exact hP.once _ _ _ hq
  obtain ⟨-, cs, c1, c2, c3⟩ := Consumer.C21_in_order g1 (evs_notBad hg) hno
  refine ⟨n, q, cs.length, qes, hp, hq, ht, hi, ?_, ⟨cs, rfl, ?_, ?_⟩, ?_⟩
  · intro x hx
    have := hg _ hx
    simp [Call.exn] at this
  · rw [St.stdout, hcons, c1]
  · intro j c hj
    obtain ⟨p, p1, p2, p3⟩ := mem_arrived.mp (c2 j c hj)
    exact ⟨p, p1, (exn_data (hg _ p1)).1, p2, p3⟩
  · intro p hp
    exact c3 p.content (mem_arrived.mpr ⟨p, hp, (exn_data (hg _ hp)).2, rfl⟩)

/-- **C110 (fixed pipeline, partial)** Whatever Data arrive: exit status 0 means that some delivered packet announced a last segment
`L`, and that the segments 0 to `L` were written in order; nothing else was written if no segment beyond `L` was delivered. Missing
from the full claim: that nothing else was written in general. -/
theorem C110_fixed_partial {N : Nat} {R : Int} (hN : 0 < N) {o : Discover.Opts} {name : Name} {es s}
    (h : (machine (fixedPipe N R) o name).Run es s) (h0 : s.Exits (fixedPipe N R) 0) :
    ∃ n q L m, s.pipe = some (n, q) ∧ (∃ k p, Call.data k p ∈ (fixedPipe N R).calls q ∧ p.final = .seg L) ∧
      Wrote ((fixedPipe N R).calls q) s.stdout m ∧ L + 1 ≤ m ∧
      ((∀ k p, Call.data k p ∈ (fixedPipe N R).calls q → k ≤ L) → m = L + 1) := by
  obtain ⟨n, q, m, qes, hp, hq, ht, hidle, hnf, hw, hm⟩ := written (fixed_proper hN) h h0
  have hrun := fixed_run hq
  have hcore := (Fixed.run_inv hN hrun).core
  have hhist := Fixed.run_hist hrun
  have hwhy : Fixed.Why q := by
    refine Machine.Run.invariant (M := (fixedPipe N R).along _) (P := Fixed.Why) (Fixed.why_start N R) ?_ hq
    intro s e hs he
    refine Fixed.why_step hs ?_ ?_
    · rintro rfl; have := he.2.1; simp [fixedPipe] at this
    · rintro i p rfl; have := he.2.1; simp [fixedPipe] at this
  have hst : q.isStopping = false := by
    by_contra hc
    rcases hwhy (by simpa using hc) with h1 | ⟨m, h1⟩
    · exact h1 hidle.1
    · exact hnf m (fixed_mem_failure.mpr h1)
  have hrest : ∀ i f k, Fixed.At q i f k → f.isRunning = false := by
    intro i f k ha
    by_contra hr
    have hr : f.isRunning = true := by simpa using hr
    obtain ⟨h4, h5⟩ := hidle.2 _ (List.mem_of_getElem? ha) f k rfl
    have h6 := h5 hr
    rcases (hcore.fet i f k ha).one hr with h3 | ⟨_, h3⟩
    · omega
    · rw [h4] at h3; cases h3
  have hc : Fixed.Obs.complete ∈ q.log := by
    by_contra hc
    obtain ⟨i, f, j, h1, h2, -⟩ := Fixed.C08_fixed_no_stall hN hrun hst (by simpa [fixedPipe] using ht) hc
    rw [hrest i f j h1] at h2
    cases h2
  obtain ⟨hf, hcount⟩ := hhist.done hc
  obtain ⟨k0, p0, hd0, hfin⟩ := hhist.final hf
  have hnext : q.lastSegmentNo < q.nextSegmentNo := by
    have := Fixed.nodup_length_le hcore.rnodup hcore.rlt
    rw [← hcore.cnt] at this
    omega
  have hall : ∀ k ≤ q.lastSegmentNo, ∃ p, Call.data k p ∈ (fixedPipe N R).calls q := by
    intro k hk
    have hrec : k ∈ Fixed.received q.log := by
      rcases hcore.cover hst k (by omega) (fun _ => hk) with h1 | ⟨i, f, ha, h1 | h1 | ⟨j, g, l, hb, hl, h1⟩⟩
      · exact h1
      · rw [hrest i f k ha] at h1; cases h1
      · rw [(hcore.fin hf i f k ha).2 hk] at h1; cases h1
      · rw [(hcore.fin hf j g l hb).2 (by omega)] at h1; cases h1
    simp only [Fixed.received, List.mem_filterMap] at hrec
    obtain ⟨x, hx, hx2⟩ := hrec
    cases x <;> simp at hx2
    subst hx2
    exact ⟨_, fixed_mem_data.mpr hx⟩
  have hge : q.lastSegmentNo + 1 ≤ m := by
    by_contra hlt
    obtain ⟨p, hp⟩ := hall m (by omega)
    exact hm p hp
  refine ⟨n, q, q.lastSegmentNo, m, hp, ⟨k0, p0, fixed_mem_data.mpr hd0, hfin⟩, hw, hge, ?_⟩
  intro hb
  obtain ⟨cs, rfl, -, hcs⟩ := hw
  by_contra hne
  obtain ⟨p, hp, -⟩ := hcs (q.lastSegmentNo + 1) cs[q.lastSegmentNo + 1] (List.getElem?_eq_getElem (by omega))
  have := hb _ p hp
  omega

private theorem adaptive_why {A : Adaptive.Alg σ ε} {ao : Adaptive.Opts} {w : σ} {v : Adaptive.Env ε} {G : Nat → Pkt → Prop} {es q}
    (h : ((adaptivePipe A ao w v).along G).Run es q) : Adaptive.Why true q := by
  refine Machine.Run.invariant (M := (adaptivePipe A ao w v).along G) (P := Adaptive.Why true) ?_ ?_ h
  · have h0 : Adaptive.Why true ({ win := w, timer := true } : Adaptive.St σ) :=
      ⟨Or.inr rfl, fun h => by cases h⟩
    exact Adaptive.why_schedulePackets h0 A ao v
  · intro s e hs he
    refine Adaptive.why_step hs ?_
    have := he.2.1
    cases e <;> simp_all [adaptivePipe, Adaptive.NoCancel]

/-- **C110 (adaptive pipelines, partial)** Whatever Data arrive: exit status 0 means that some packet that arrived announced a last
segment `L`, that the output consists of the contents of the first so many segments, and that these are the segments 0 to `L`
if no segment beyond `L` was delivered. Missing from the full claim: transfers in which a segment beyond `L` was delivered
before the announcement. -/
theorem C110_adaptive_partial {A : Adaptive.Alg σ ε} {ao : Adaptive.Opts} {w : σ} {v : Adaptive.Env ε}
    {o : Discover.Opts} {name : Name} {es s} (h : (machine (adaptivePipe A ao w v) o name).Run es s)
    (h0 : s.Exits (adaptivePipe A ao w v) 0) :
    ∃ n q L m, s.pipe = some (n, q) ∧ (∃ k p c v', Ev.pipe (.data k p c v') ∈ es ∧ p.final = .seg L) ∧
      Wrote ((adaptivePipe A ao w v).calls q) s.stdout m ∧
      ((∀ k p, Call.data k p ∈ (adaptivePipe A ao w v).calls q → k ≤ L) → m = L + 1) := by
  obtain ⟨n, q, m, qes, hp, hq, ht, hidle, hnf, hw, hm⟩ := written adaptive_proper h h0
  have hrun := adaptive_arun hq
  have hh := Adaptive.run_hist noFalse' hrun
  have hcore := Adaptive.run_core noFalse' hrun
  have hst' := Adaptive.run_stats noFalse' hrun
  have hwhy : Adaptive.Why true q := adaptive_why hq
  have hst : q.isStopping = true := by
    rcases hwhy.tim with h1 | h1
    · exact h1
    · have := hidle.2.1; rw [h1] at this; cases this
  have hc : Adaptive.Obs.complete ∈ q.log := by
    rcases hwhy.stop hst with h1 | ⟨m, h1⟩ | h1
    · exact absurd hidle.1 h1
    · exact absurd (adaptive_mem_failure.mpr h1) (hnf m)
    · exact h1
  obtain ⟨hf, hcount⟩ := hh.all hc
  obtain ⟨k0, p0, ⟨q0, e0, hmem, harr⟩, hfin⟩ := hh.fin hf
  refine ⟨n, q, q.lastSegmentNo, m, hp, ?_, hw, ?_⟩
  · cases e0 <;> simp [adaptivePipe] at harr
    obtain ⟨rfl, rfl⟩ := harr
    exact ⟨_, _, _, _, hmem, hfin⟩
  · intro hb
    have hsub : (Adaptive.received q.log).Subperm (List.range (q.lastSegmentNo + 1)) := by
      refine List.Nodup.subperm hcore.rnodup (fun x hx => ?_)
      obtain ⟨p, hp⟩ := Adaptive.mem_received.mp hx
      have := hb x p (adaptive_mem_data.mpr hp)
      exact List.mem_range.mpr (by omega)
    have hperm := hsub.perm_of_length_le (by rw [List.length_range, ← hst'.recv]; exact hcount)
    obtain ⟨cs, rfl, -, hcs⟩ := hw
    apply Nat.le_antisymm
    · by_contra hlt
      obtain ⟨p, hp, -⟩ := hcs (q.lastSegmentNo + 1) cs[q.lastSegmentNo + 1] (List.getElem?_eq_getElem (by omega))
      have := hb _ p hp
      omega
    · by_contra hlt
      have : cs.length ∈ Adaptive.received q.log := hperm.mem_iff.mpr (List.mem_range.mpr (by omega))
      obtain ⟨p, hp⟩ := Adaptive.mem_received.mp this
      exact hm p (adaptive_mem_data.mpr hp)

/-! ## Where the full claim fails -/

section
variable {A : Adaptive.Alg σ ε} {ao : Adaptive.Opts} {w : σ} {v : Adaptive.Env ε}

local instance (name : Name) (o : Discover.Opts) (s : St (Adaptive.St σ)) (e : Ev (Adaptive.Ev ε)) :
    Decidable ((machine (adaptivePipe A ao w v) o name).enabled s e) :=
  match e with
  | .disc e => inferInstanceAs (Decidable (¬ s.ended _ ∧ s.disc.enabled name e))
  | .pipe e => decidable_of_iff (¬ s.ended (adaptivePipe A ao w v) ∧
      (s.pipe.any fun nq => decide (nq.2.enabled e)) = true ∧ (adaptivePipe A ao w v).byUser e = false) (by
    change _ ↔ s.enabled (adaptivePipe A ao w v) name (.pipe e)
    unfold St.enabled
    cases h : s.pipe with
    | none => simp
    | some nq => obtain ⟨n, q⟩ := nq; simp [adaptivePipe, Adaptive.machine])

private theorem adaptive_exits {s : St (Adaptive.St σ)} (h1 : s.cons.threw = none)
    (h2 : (s.pipe.all fun nq => nq.2.threw.isNone && nq.2.posted.isEmpty && !nq.2.timer && nq.2.info.all fun x => !x.2.pending) = true)
    (h3 : s.disc.fetcher = none) : s.Exits (adaptivePipe A ao w v) 0 := by
  unfold St.Exits
  rw [h1]
  refine Or.inr ⟨?_, ⟨?_, ?_⟩, rfl⟩
  · rintro (h | ⟨m, q, hq, ht⟩)
    · exact h h1
    · rw [hq] at h2
      simp at h2
      have : q.threw.isSome = true := ht
      rw [h2.1.1.1] at this; cases this
  · rw [h3]; intro f hf; cases hf
  · intro m q hq
    rw [hq] at h2
    simp at h2
    exact ⟨h2.1.1.2, h2.1.2, fun x hx => h2.2 _ _ hx⟩

/-- `ndncatchunks -p aimd` with default options. -/
private abbrev aimd := adaptivePipe (Window.Aimd.alg ⟨2, 1000, 1, 1 / 2, false⟩) ⟨15, false, false⟩ ⟨2, 1000⟩ ⟨0, 10, ()⟩

/-- **C110 (refuted, adaptive pipelines)** AIMD with default options: segments 1 and 3 arrive without FinalBlockId, then segment 0, which
announces that segment 2 is the last one. Three segments have arrived, so the pipeline believes that it has all three. It gives up the
Interest for segment 2 that is in flight; only segments 0 and 1 are written, and the exit status is 0. -/
theorem C110_refuted : ∃ s, (machine aimd ⟨true, 15⟩ [⟨8, [65]⟩]).Run
      [.pipe (.data 1 { content := [11] } false ⟨1, 10, ()⟩), .pipe (.data 3 { content := [13] } false ⟨2, 10, ()⟩),
        .pipe (.data 0 { content := [10], final := .seg 2 } false ⟨3, 10, ()⟩)] s ∧
    s.Exits aimd 0 ∧ s.stdout = [10, 11] :=
  let M := machine aimd ⟨true, 15⟩ [⟨8, [65]⟩]
  ⟨_, Machine.exec_run (M := M) (s := (M.exec M.init _).get (by decide +kernel)) (Option.some_get _).symm,
    adaptive_exits (by decide +kernel) (by decide +kernel) (by decide +kernel), by decide +kernel⟩

private theorem check_nothing {q : Adaptive.St σ} {order : List Nat} {v' : Adaptive.Env ε} (hi : q.info = []) (ht : q.timer = true)
    (hs : q.isStopping = false) (he : q.enabled (Adaptive.Ev.check order v')) : q.step A ao (.check order v') = q := by
  have ho : order = [] := by
    have := he.2
    rw [hi] at this
    simpa using this
  subst ho
  obtain ⟨⟩ := q
  simp only at hi ht hs
  subst hi ht hs
  simp [Adaptive.St.step, Adaptive.St.checkRto, Adaptive.St.expired]

private theorem waits {o : Discover.Opts} {name : Name} {s : St (Adaptive.St σ)} {q : Adaptive.St σ} {m : Name}
    (hp : s.pipe = some (m, q)) (hi : q.info = []) (ht : q.timer = true) (hst : q.isStopping = false) {es' s'}
    (h : (machine (adaptivePipe A ao w v) o name).RunFrom s es' s') (hc : ∀ e ∈ es', ∃ order v', e = .pipe (.check order v')) : s' = s := by
  induction h with
  | nil => rfl
  | @snoc es t e _ he ih =>
    obtain rfl := ih (fun e he => hc e (by simp [he]))
    obtain ⟨order, v', rfl⟩ := hc e (by simp)
    obtain ⟨n', q', hp', hen, -⟩ := he.2
    rw [hp] at hp'
    obtain ⟨rfl, rfl⟩ := hp'
    have hq : (adaptivePipe A ao w v).M.step q (.check order v') = q := check_nothing hi ht hst hen
    change t.step (adaptivePipe A ao w v) (.pipe (.check order v')) = t
    unfold St.step
    simp only [hp, hq, List.drop_length, List.foldl_nil]
    rw [← hp]

private def beyond : List (Ev (Adaptive.Ev Unit)) :=
  [.pipe (.data 0 { content := [10] } false ⟨1, 10, ()⟩), .pipe (.data 1 { content := [11] } false ⟨2, 10, ()⟩),
    .pipe (.data 2 { content := [12], final := .seg 1 } false ⟨3, 10, ()⟩)]

/-- **C110 (no end, adaptive pipelines)** Segments 0 and 1 arrive without FinalBlockId, then segment 2, which announces that segment 1 is the last
one. Everything up to the announced end is there and was written, but the program does not end: it checks every now and then
whether one of the Interests - there are none - has timed out. -/
theorem C110_hangs : ∃ s, (machine aimd ⟨true, 15⟩ [⟨8, [65]⟩]).Run beyond s ∧ s.stdout = [10, 11] ∧
    ∀ es' s', (machine aimd ⟨true, 15⟩ [⟨8, [65]⟩]).RunFrom s es' s' → (∀ e ∈ es', ∃ order v', e = .pipe (.check order v')) →
      (∃ v', (machine aimd ⟨true, 15⟩ [⟨8, [65]⟩]).enabled s' (.pipe (.check [] v'))) ∧ ∀ n, ¬ s'.Exits aimd n := by
  let M := machine aimd ⟨true, 15⟩ [⟨8, [65]⟩]
  have r : M.Run beyond ((M.exec M.init beyond).get (by decide +kernel)) := Machine.exec_run (M := M) (Option.some_get _).symm
  have h1 : St.stdout ((M.exec M.init beyond).get (by decide +kernel)) = [10, 11] := by decide +kernel
  have h2 : ((M.exec M.init beyond).get (by decide +kernel)).cons.threw = none := by decide +kernel
  have h3 : (((M.exec M.init beyond).get (by decide +kernel)).pipe.any fun nq =>
    nq.2.threw.isNone && nq.2.info.isEmpty && nq.2.timer && !nq.2.isStopping) = true := by decide +kernel
  generalize (M.exec M.init beyond).get _ = s at r h1 h2 h3
  refine ⟨s, r, h1, ?_⟩
  intro es' s' h hc
  cases hp : s.pipe with
  | none => rw [hp] at h3; cases h3
  | some nq =>
    obtain ⟨m, q⟩ := nq
    rw [hp] at h3
    simp only [Option.any_some, Bool.and_eq_true, List.isEmpty_iff, Option.isNone_iff_eq_none, Bool.not_eq_true'] at h3
    obtain ⟨⟨⟨h3, h4⟩, h5⟩, h6⟩ := h3
    obtain rfl := waits hp h4 h5 h6 h hc
    have hne : ¬ s'.ended aimd := by
      rintro (h | ⟨m', q', hq', ht⟩)
      · exact h h2
      · rw [hp] at hq'; cases hq'
        have : q.threw.isSome = true := ht
        rw [h3] at this; cases this
    refine ⟨⟨⟨0, 0, ()⟩, hne, m, q, hp, ⟨h5, by rw [h4]; exact List.Perm.nil⟩, rfl⟩, ?_⟩
    intro n hx
    unfold St.Exits at hx
    rw [h2] at hx
    rcases hx with hx | hx
    · exact hne hx.1
    · have := (hx.2.1.2 m q hp).2.1
      rw [h5] at this; cases this

/-- Beside `C110_adaptive_partial`: the same transfer without segment 3. -/
example : ∃ s, (machine aimd ⟨true, 15⟩ [⟨8, [65]⟩]).Run
      [.pipe (.data 1 { content := [11] } false ⟨1, 10, ()⟩), .pipe (.data 0 { content := [10], final := .seg 2 } false ⟨2, 10, ()⟩),
        .pipe (.data 2 { content := [12] } false ⟨3, 10, ()⟩)] s ∧
    s.Exits aimd 0 ∧ s.stdout = [10, 11, 12] :=
  let M := machine aimd ⟨true, 15⟩ [⟨8, [65]⟩]
  ⟨_, Machine.exec_run (M := M) (s := (M.exec M.init _).get (by decide +kernel)) (Option.some_get _).symm,
    adaptive_exits (by decide +kernel) (by decide +kernel) (by decide +kernel), by decide +kernel⟩

end

private def late : List (Ev Fixed.Ev) :=
  [.pipe (.data 2 { content := [12] } false), .pipe (.data 0 { content := [10], final := .seg 1 } false),
    .pipe (.data 1 { content := [11] } false)]

private def disagreeing : List (Ev Fixed.Ev) :=
  [.pipe (.data 1 { content := [11], final := .seg 1 } false), .pipe (.data 0 { content := [10], final := .seg 7 } false)]

/-- **C110 (refuted, fixed pipeline)** Segment 2 arrives before the announcement, in segment 0, that segment 1 is the last one. It is written
nevertheless. -/
theorem C110_fixed_refuted : ∃ s, (machine (fixedPipe 3 3) ⟨true, 3⟩ [⟨8, [65]⟩]).Run late s ∧
    s.Exits (fixedPipe 3 3) 0 ∧ s.stdout = [10, 11, 12] := by
  let M := machine (fixedPipe 3 3) ⟨true, 3⟩ [⟨8, [65]⟩]
  have r : M.Run late ((M.exec M.init late).get (by decide +kernel)) := Machine.exec_run (M := M) (Option.some_get _).symm
  have h1 : status 3 3 ((M.exec M.init late).get (by decide +kernel)) = some 0 := by decide +kernel
  have h2 : St.stdout ((M.exec M.init late).get (by decide +kernel)) = [10, 11, 12] := by decide +kernel
  generalize (M.exec M.init late).get _ = s at r h1 h2
  exact ⟨s, r, status_exits h1, h2⟩

/-- Beside `C110_fixed_partial`: packets that disagree on the last segment. The first announcement counts. -/
example : ∃ s, (machine (fixedPipe 3 3) ⟨true, 3⟩ [⟨8, [65]⟩]).Run disagreeing s ∧
    s.Exits (fixedPipe 3 3) 0 ∧ s.stdout = [10, 11] := by
  let M := machine (fixedPipe 3 3) ⟨true, 3⟩ [⟨8, [65]⟩]
  have r : M.Run disagreeing ((M.exec M.init disagreeing).get (by decide +kernel)) :=
    Machine.exec_run (M := M) (Option.some_get _).symm
  have h1 : status 3 3 ((M.exec M.init disagreeing).get (by decide +kernel)) = some 0 := by decide +kernel
  have h2 : St.stdout ((M.exec M.init disagreeing).get (by decide +kernel)) = [10, 11] := by decide +kernel
  generalize (M.exec M.init disagreeing).get _ = s at r h1 h2
  exact ⟨s, r, status_exits h1, h2⟩

end Verif.Catchunks
