import Verif.Proofs.CatchunksPipes
import Verif.Props.Fixed
import Verif.Props.Adaptive
import Verif.Props.Consumer
import Verif.Props.Discover

/-! # Lemmas about the whole program -/

namespace Verif.Catchunks

variable {σ ε : Type}

/-! ## Pipelines -/

/-- A pipeline in an environment where the user does nothing and all Data satisfies `G`. -/
def Pipe.along (P : Pipe σ ε) (G : Nat → Pkt → Prop) : Machine σ ε :=
  { init := P.M.init
    step := P.M.step
    enabled := fun q e => P.M.enabled q e ∧ P.byUser e = false ∧ ∀ k p, P.arrival q e = some (k, p) → G k p }

/-- The segment number of a delivered packet. -/
def Call.no : Call → Option Nat
  | .data k _ => some k
  | .failure _ => none

/-- What the consumer relies on. -/
structure Proper (P : Pipe σ ε) : Prop where
  init : P.calls P.M.init = []
  ext : ∀ G es q e, (P.along G).Run es q → (P.along G).enabled q e → P.calls q <+: P.calls (P.M.step q e)
  came : ∀ G es q, (P.along G).Run es q → ∀ k p, Call.data k p ∈ P.calls q → G k p
  once : ∀ G es q, (P.along G).Run es q → ((P.calls q).filterMap Call.no).Nodup
  done : ∀ G es q segs, (P.along G).Run es q → (∀ k p, G k p → Consistent segs k p) → P.idle q →
    P.threw q = false → (∀ m, Call.failure m ∉ P.calls q) → ∀ k < segs.length, ∃ p, Call.data k p ∈ P.calls q

theorem filterMap_prefix {α β : Type} {f : α → Option β} {a b : List α} (h : a <+: b) :
    a.filterMap f <+: b.filterMap f := by
  obtain ⟨t, rfl⟩ := h
  rw [List.filterMap_append]
  exact List.prefix_append _ _

section Fixed

open Verif.Fixed

theorem fixed_mem_data {N R s k p} : Call.data k p ∈ (fixedPipe N R).calls s ↔ Obs.data k p ∈ s.log := by
  simp only [fixedPipe, List.mem_filterMap]
  constructor
  · rintro ⟨x, hx, h⟩
    cases x <;> simp at h
    obtain ⟨rfl, rfl⟩ := h
    exact hx
  · intro h; exact ⟨_, h, rfl⟩

theorem fixed_mem_failure {N R s m} : Call.failure m ∈ (fixedPipe N R).calls s ↔ Obs.failure m ∈ s.log := by
  simp only [fixedPipe, List.mem_filterMap]
  constructor
  · rintro ⟨x, hx, h⟩
    cases x <;> simp at h
    subst h
    exact hx
  · intro h; exact ⟨_, h, rfl⟩

theorem fixed_arrival {N R} {s : Fixed.St} {i p c f k} (h : s.slots[i]? = some (some (f, k))) :
    (fixedPipe N R).arrival s (.data i p c) = some (k, p) := by
  simp [fixedPipe, h]

theorem fixed_run {N R G es q} (h : ((fixedPipe N R).along G).Run es q) : (Fixed.machine N R).Run es q := by
  induction h with
  | nil => exact Machine.Run.nil
  | snoc e _ he ih => exact Machine.Run.snoc (M := Fixed.machine N R) e ih he.1

theorem fixed_net {N R G es q segs} (h : ((fixedPipe N R).along G).Run es q)
    (hG : ∀ k p, G k p → Consistent segs k p) : (Fixed.netMachine N R segs).Run es q := by
  induction h with
  | nil => exact Machine.Run.nil
  | snoc e _ he ih =>
    refine Machine.Run.snoc (M := Fixed.netMachine N R segs) e ih ⟨he.1, ?_⟩
    cases e with
    | data i p c =>
      intro f k ha
      exact hG _ _ (he.2.2 k p (fixed_arrival ha))
    | _ => trivial

theorem fixed_proper {N R} (hN : 0 < N) : Proper (fixedPipe N R) := by
  constructor
  · have := start_log N R
    simp only [fixedPipe, List.filterMap_eq_nil_iff]
    intro x hx
    obtain ⟨k, rfl⟩ := this x hx
    rfl
  · intro G es q e _ _
    exact filterMap_prefix (step_ext q e)
  · intro G es q h
    induction h with
    | nil =>
      intro k p hk
      rw [fixed_mem_data] at hk
      obtain ⟨_, h⟩ := start_log N R _ hk
      cases h
    | @snoc es s e _ he ih =>
      intro k p hk
      rw [fixed_mem_data] at hk
      by_cases hold : Obs.data k p ∈ s.log
      · exact ih k p (fixed_mem_data.mpr hold)
      · obtain ⟨i, c, f, rfl, ha⟩ := data_arrives hk hold
        exact he.2.2 k p (fixed_arrival ha)
  · intro G es q h
    have := (Fixed.run_inv hN (fixed_run h)).core.rnodup
    have he : ((fixedPipe N R).calls q).filterMap Call.no = received q.log := by
      simp only [fixedPipe, received, List.filterMap_filterMap]
      congr 1
      funext x
      cases x <;> rfl
    rw [he]; exact this
  · intro G es q segs h hG hidle hthrew hnf k hk
    have hw : Fixed.Why q := by
      refine Machine.Run.invariant (M := (fixedPipe N R).along G) (P := Fixed.Why) (why_start N R) ?_ h
      intro s e hs he
      refine Fixed.why_step hs ?_ ?_
      · rintro rfl; have := he.2.1; simp [fixedPipe] at this
      · rintro i p rfl; have := he.2.1; simp [fixedPipe] at this
    have hst : q.isStopping = false := by
      by_contra hc
      rcases hw (by simpa using hc) with h1 | ⟨m, h1⟩
      · exact h1 hidle.1
      · exact hnf m (fixed_mem_failure.mpr h1)
    have hc : Obs.complete ∈ q.log := by
      by_contra hc
      obtain ⟨i, f, j, h1, h2, h3⟩ := C08_fixed_no_stall hN (fixed_run h) hst (by simpa [fixedPipe] using hthrew) hc
      obtain ⟨h4, h5⟩ := hidle.2 _ (List.mem_of_getElem? h1) f j rfl
      have h6 := h5 h2
      rcases h3 with h3 | ⟨_, b, h3⟩
      · omega
      · rw [h4] at h3; cases h3
    obtain ⟨pre, post, e⟩ := List.append_of_mem hc
    obtain ⟨h1, _⟩ := C07_fixed_completion hN (fixed_net h hG) e
    have : k ∈ received pre := h1.mem_iff.mpr (List.mem_range.mpr hk)
    simp only [received, List.mem_filterMap] at this
    obtain ⟨x, hx, hx2⟩ := this
    cases x <;> simp at hx2
    subst hx2
    exact ⟨_, fixed_mem_data.mpr (by rw [e]; exact List.mem_append_left _ hx)⟩

end Fixed

section Adaptive

open Verif.Adaptive

variable {A : Alg σ ε} {o : Adaptive.Opts} {w : σ} {v : Env ε}

theorem adaptive_mem_data {s k p} : Call.data k p ∈ (adaptivePipe A o w v).calls s ↔ Obs.data k p ∈ s.log := by
  simp only [adaptivePipe, List.mem_filterMap]
  constructor
  · rintro ⟨x, hx, h⟩
    cases x <;> simp at h
    obtain ⟨rfl, rfl⟩ := h
    exact hx
  · intro h; exact ⟨_, h, rfl⟩

theorem adaptive_mem_failure {s m} : Call.failure m ∈ (adaptivePipe A o w v).calls s ↔ Obs.failure m ∈ s.log := by
  simp only [adaptivePipe, List.mem_filterMap]
  constructor
  · rintro ⟨x, hx, h⟩
    cases x <;> simp at h
    subst h
    exact hx
  · intro h; exact ⟨_, h, rfl⟩

theorem adaptive_arun {G es q} (h : ((adaptivePipe A o w v).along G).Run es q) :
    ARun A o w v ⟨G, True, False, False, fun _ _ => True⟩ es q := by
  refine arun_of (en := ((adaptivePipe A o w v).along G).enabled) h (fun _ _ he => he.1) ?_
  intro s e _ he
  refine ⟨?_, fun _ _ _ => trivial, fun h => h.elim, fun _ _ _ _ => trivial⟩
  rintro k p c v rfl
  refine ⟨he.2.2 k p rfl, ?_⟩
  rintro rfl
  have := he.2.1
  simp [adaptivePipe] at this

theorem adaptive_net {G es q segs} (h : ((adaptivePipe A o w v).along G).Run es q)
    (hG : ∀ k p, G k p → Consistent segs k p) : (Adaptive.netMachine A o w v segs).Run es q := by
  induction h with
  | nil => exact Machine.Run.nil
  | snoc e _ he ih =>
    refine Machine.Run.snoc (M := Adaptive.netMachine A o w v segs) e ih ⟨he.1, ?_⟩
    cases e with
    | data k p c v => exact hG _ _ (he.2.2 k p rfl)
    | _ => trivial

theorem noFalse' {P : Prop} : False → P := fun h => h.elim

theorem adaptive_proper : Proper (adaptivePipe A o w v) := by
  constructor
  · simp only [adaptivePipe, List.filterMap_eq_nil_iff]
    intro x hx
    obtain ⟨k, c, rfl⟩ := Adaptive.start_log A o w v x hx
    rfl
  · intro G es q e h he
    have hw : WF q := run_wf (run_weaken (en := ((adaptivePipe A o w v).along G).enabled) h (fun _ _ he => he.1))
    exact filterMap_prefix (steps_ext (steps_step (al := Allow.all) hw he.1 (allowed_all o q e)))
  · intro G es q h k p hk
    exact (run_hist noFalse' (adaptive_arun h)).net k p (adaptive_mem_data.mp hk)
  · intro G es q h
    have := (run_core noFalse' (adaptive_arun h)).rnodup
    have he : ((adaptivePipe A o w v).calls q).filterMap Call.no = received q.log := by
      simp only [adaptivePipe, received, List.filterMap_filterMap]
      congr 1
      funext x
      cases x <;> rfl
    rw [he]; exact this
  · intro G es q segs h hG hidle hthrew hnf k hk
    have hw : Adaptive.Why true q := by
      refine Machine.Run.invariant (M := (adaptivePipe A o w v).along G) (P := Adaptive.Why true) ?_ ?_ h
      · have h0 : Adaptive.Why true ({ win := w, timer := true } : Adaptive.St σ) :=
          ⟨Or.inr rfl, fun h => by cases h⟩
        exact why_schedulePackets h0 A o v
      · intro s e hs he
        refine Adaptive.why_step hs ?_
        have := he.2.1
        cases e <;> simp_all [adaptivePipe, NoCancel]
    have hst : q.isStopping = true := by
      rcases hw.tim with h1 | h1
      · exact h1
      · have := hidle.2.1; rw [h1] at this; cases this
    have hc : Obs.complete ∈ q.log := by
      rcases hw.stop hst with h1 | ⟨m, h1⟩ | h1
      · exact absurd hidle.1 h1
      · exact absurd (adaptive_mem_failure.mpr h1) (hnf m)
      · exact h1
    obtain ⟨pre, post, e⟩ := List.append_of_mem hc
    obtain ⟨h1, _⟩ := C13_adaptive_completion (adaptive_net h hG) e
    have : k ∈ received pre := h1.mem_iff.mpr (List.mem_range.mpr hk)
    simp only [received, List.mem_filterMap] at this
    obtain ⟨x, hx, hx2⟩ := this
    cases x <;> simp at hx2
    subst hx2
    exact ⟨_, adaptive_mem_data.mpr (by rw [e]; exact List.mem_append_left _ hx)⟩

end Adaptive

/-! ## The consumer -/

/-- The call makes the consumer throw. -/
def Call.exn : Call → Option Consumer.Exn
  | .failure _ => some .failure
  | .data _ p => if p.valid then (if p.appNack then some .appNack else none) else some .invalid

/-- The events of the consumer. -/
def Call.evs : Call → List Consumer.Ev
  | .failure _ => []
  | .data k p => [.data k p, .valid k p]

theorem exn_data {k p} (h : (Call.data k p).exn = none) : p.valid = true ∧ p.appNack = false := by
  simp only [Call.exn] at h
  cases hv : p.valid <;> cases ha : p.appNack <;> simp [hv, ha] at h ⊢

theorem deliver_threw {c : Consumer.St} (h : c.threw.isSome = true) (x) : deliver c x = c := by
  cases x with
  | failure m => simp [deliver, h]
  | data k p =>
    have h1 : ∀ e, c.step e = c := by intro e; simp [Consumer.St.step, h]
    simp only [deliver, h1]
    split <;> rfl

theorem foldl_threw {c : Consumer.St} (h : c.threw.isSome = true) (l : List Call) : l.foldl deliver c = c := by
  induction l with
  | nil => rfl
  | cons x l ih => rw [List.foldl_cons, deliver_threw h, ih]

theorem deliver_bad {c : Consumer.St} (h : c.threw = none) {x : Call} {e} (hx : x.exn = some e) :
    (deliver c x).threw = some e ∧ (deliver c x).out = c.out := by
  cases x with
  | failure m =>
    simp only [Call.exn, Option.some.injEq] at hx
    subst hx
    simp [deliver, h]
  | data k p =>
    simp only [Call.exn] at hx
    split at hx
    · rename_i hv
      split at hx
      · rename_i ha
        simp only [Option.some.injEq] at hx
        subst hx
        simp [deliver, hv, Consumer.St.step, h, Consumer.St.onValid, ha]
      · cases hx
    · rename_i hv
      simp only [Option.some.injEq] at hx
      subst hx
      simp [deliver, hv, Consumer.St.step, h, Consumer.St.onInvalid]

theorem good_run {l : List Call} (h : ∀ x ∈ l, x.exn = none) :
    Consumer.machine.Run (l.flatMap Call.evs) (l.foldl deliver {}) ∧ (l.foldl deliver {}).threw = none := by
  induction l using List.reverseRecOn with
  | nil => exact ⟨Machine.Run.nil, rfl⟩
  | append_singleton l x ih =>
    obtain ⟨ih, iht⟩ := ih (fun y hy => h y (by simp [hy]))
    have hx := h x (by simp)
    rw [List.foldl_append, List.flatMap_append]
    simp only [List.foldl_cons, List.foldl_nil, List.flatMap_cons, List.flatMap_nil, List.append_nil]
    generalize l.foldl deliver {} = c at ih iht
    cases x with
    | failure m => simp [Call.exn] at hx
    | data k p =>
      obtain ⟨hv, ha⟩ := exn_data hx
      have h1 := Machine.Run.snoc (M := Consumer.machine) (.data k p) ih trivial
      have h2 := Machine.Run.snoc (M := Consumer.machine) (.valid k p) h1 (by
        show (k, p) ∈ _
        simp [Consumer.machine, Consumer.St.step, iht])
      have e : deliver c (.data k p) = (c.step (.data k p)).step (.valid k p) := by simp [deliver, hv]
      rw [e]
      refine ⟨by rw [List.append_assoc] at h2; exact h2, ?_⟩
      simp [Consumer.St.step, iht, Consumer.St.onValid, ha, Consumer.St.writeInOrderData]

theorem evs_notBad {l : List Call} (h : ∀ x ∈ l, x.exn = none) : ∀ e ∈ l.flatMap Call.evs, e.isBad = false := by
  intro e he
  obtain ⟨x, hx, he⟩ := List.mem_flatMap.mp he
  have := h x hx
  cases x with
  | failure m => simp [Call.evs] at he
  | data k p =>
    simp only [Call.evs, List.mem_cons, List.not_mem_nil, or_false] at he
    rcases he with rfl | rfl
    · rfl
    · exact (exn_data this).2

theorem mem_arrived {l : List Call} {k c} :
    (k, c) ∈ Consumer.arrived (l.flatMap Call.evs) ↔ ∃ p, Call.data k p ∈ l ∧ p.appNack = false ∧ p.content = c := by
  induction l with
  | nil => simp [Consumer.arrived]
  | cons x l ih =>
    have : Consumer.arrived ((x :: l).flatMap Call.evs) = Consumer.arrived x.evs ++ Consumer.arrived (l.flatMap Call.evs) := by
      simp [Consumer.arrived]
    rw [this, List.mem_append, ih]
    constructor
    · rintro (h | ⟨p, h1, h2⟩)
      · cases x with
        | failure m => simp [Call.evs, Consumer.arrived] at h
        | data j p =>
          simp only [Call.evs, Consumer.arrived, List.filterMap_cons, List.filterMap_nil] at h
          cases ha : p.appNack with
          | true => simp [ha] at h
          | false =>
            simp only [ha, Bool.false_eq_true, if_false, List.mem_singleton, Prod.mk.injEq] at h
            obtain ⟨rfl, rfl⟩ := h
            exact ⟨p, by simp, ha, rfl⟩
      · exact ⟨p, by simp [h1], h2⟩
    · rintro ⟨p, h1, h2, h3⟩
      rcases List.mem_cons.mp h1 with h1 | h1
      · subst h1
        left
        simp [Call.evs, Consumer.arrived, h2, h3]
      · exact Or.inr ⟨p, h1, h2, h3⟩

theorem arrived_no {l : List Call} (h : ∀ x ∈ l, x.exn = none) :
    (Consumer.arrived (l.flatMap Call.evs)).map Prod.fst = l.filterMap Call.no := by
  induction l with
  | nil => rfl
  | cons x l ih =>
    have : Consumer.arrived ((x :: l).flatMap Call.evs) = Consumer.arrived x.evs ++ Consumer.arrived (l.flatMap Call.evs) := by
      simp [Consumer.arrived]
    rw [this, List.map_append, ih (fun y hy => h y (by simp [hy]))]
    have hx := h x (by simp)
    cases x with
    | failure m => rfl
    | data j p =>
      have ha := (exn_data hx).2
      simp [Call.evs, Consumer.arrived, ha, Call.no]

/-- The calls up to the first one that makes the consumer throw. -/
theorem first_bad (l : List Call) : (∀ x ∈ l, x.exn = none) ∨
    ∃ pre x post e, l = pre ++ x :: post ∧ (∀ y ∈ pre, y.exn = none) ∧ x.exn = some e := by
  induction l with
  | nil => left; simp
  | cons x l ih =>
    cases hx : x.exn with
    | some e => right; exact ⟨[], x, l, e, rfl, by simp, hx⟩
    | none =>
      rcases ih with ih | ⟨pre, y, post, e, rfl, h1, h2⟩
      · left
        intro y hy
        rcases List.mem_cons.mp hy with rfl | hy
        · exact hx
        · exact ih y hy
      · right
        refine ⟨x :: pre, y, post, e, rfl, ?_, h2⟩
        intro z hz
        rcases List.mem_cons.mp hz with rfl | hz
        · exact hx
        · exact h1 z hz

theorem fold_bad {pre x post e} (h1 : ∀ y ∈ pre, Call.exn y = none) (h2 : x.exn = some e) :
    ((pre ++ x :: post).foldl deliver {}).threw = some e ∧
    ((pre ++ x :: post).foldl deliver {}).out = (pre.foldl deliver {}).out := by
  obtain ⟨h3, h4⟩ := deliver_bad (good_run h1).2 h2
  rw [List.foldl_append, List.foldl_cons, foldl_threw (by rw [h3]; rfl)]
  exact ⟨h3, h4⟩

/-! ## The producer's answers -/

theorem fromSegment_type (conv : Convention) (k : Nat) : (Comp.fromSegment conv k).type ≠ ttImplicitDigest := by
  cases conv <;> simp [Comp.fromSegment, Comp.encode, ttGeneric, ttSegment, ttImplicitDigest]

/-- What arrives for a segment from the producer. -/
theorem answer_full {digest : Data → Bytes} {po : Producer.Opts} {pre0 : Name} {now : Nat} {input : Bytes}
    (hn : now < 2 ^ 64) (hm : 0 < po.maxSegmentSize) (hi : input.length < 2 ^ 64) {conv fresh n k p} (hk : k < 2 ^ 64)
    (hname : ¬ (Producer.construct po pre0 now input).pre ++ [metadataComp] <+: n)
    {i now' r} (hr : r ∈ (Producer.construct po pre0 now input).onInterest digest now' i)
    (ha : Answers digest (segmentInterest conv fresh n k) p r) :
    n = (Producer.construct po pre0 now input).versionedPrefix ∧
    Consistent (Producer.split po.maxSegmentSize input) k p ∧ p.valid = true ∧ p.appNack = false ∧
    p.final = .seg ((Producer.split po.maxSegmentSize input).length - 1) := by
  have hlen : (Producer.construct po pre0 now input).store.length ≤ 2 ^ 64 := by
    rw [Producer.store_length, Producer.split_length hm]
    have : (input.length + po.maxSegmentSize - 1) / po.maxSegmentSize ≤ input.length := by
      rcases Nat.eq_zero_or_pos input.length with h | h
      · rw [h, Nat.div_eq_of_lt (by omega)]
      · rw [Nat.div_le_iff_le_mul_add_pred hm]
        have : input.length ≤ po.maxSegmentSize * input.length := Nat.le_mul_of_pos_left _ hm
        omega
    omega
  cases r with
  | nack => exact ha.elim
  | threw => exact ha.elim
  | ub => exact ha.elim
  | metadata x f n' =>
    exfalso
    obtain ⟨_, hv, hp⟩ := Producer.metadata_reply hn hr
    have hx : (segmentInterest conv fresh n k).name = x := by
      rcases ha with ha | ⟨b, ha⟩
      · exact ha
      · exfalso
        have := List.append_inj' (show n ++ [Comp.fromSegment conv k] = x ++ [⟨ttImplicitDigest, b⟩] from ha) rfl
        have h2 := congrArg Comp.type (List.cons.inj this.2).1
        exact fromSegment_type conv k h2
    apply hname
    obtain ⟨a, ver, seg, hx2, _, _⟩ := Producer.valid_iff.mp hv
    have h1 : n = a ++ [metadataComp, ver] := by
      have : n ++ [Comp.fromSegment conv k] = (a ++ [metadataComp, ver]) ++ [seg] := by
        rw [show n ++ [Comp.fromSegment conv k] = x from hx, hx2]; simp
      exact (List.append_inj' this rfl).1
    rw [hx2] at hp
    have h3 : (Producer.construct po pre0 now input).pre ++ [metadataComp] <+: (a ++ [metadataComp, ver]) ++ [seg] := by
      simpa using hp
    rw [List.prefix_concat_iff] at h3
    rcases h3 with h3 | h3
    · exfalso
      have := (List.append_inj' h3 rfl).2
      simp at this
      rename_i hseg
      rw [← this] at hseg
      rw [metadataComp_not_segment] at hseg
      cases hseg
    · rw [h1]; exact h3
  | data d =>
    obtain ⟨hmatch, hc, hf, hb, hv⟩ := ha
    obtain ⟨j, hj⟩ := Producer.data_reply hr
    obtain ⟨h1, h2, h3, _, h5⟩ := Producer.store_get hj
    have hjl : j < (Producer.construct po pre0 now input).store.length := (List.getElem?_eq_some_iff.mp hj).1
    have hnm : n ++ [Comp.fromSegment conv k] = d.name := by
      rw [Producer.matchesData_iff] at hmatch
      rcases hmatch.1 with h | h | h
      · exact h
      · simp [segmentInterest] at h
      · exfalso
        have := List.append_inj' (show n ++ [Comp.fromSegment conv k] = d.name ++ [⟨ttImplicitDigest, digest d⟩] from h) rfl
        have h2 := congrArg Comp.type (List.cons.inj this.2).1
        exact fromSegment_type conv k h2
    rw [h2] at hnm
    have hinj := List.append_inj' hnm rfl
    have hkj : k = j := (fromSegment_inj hk (by omega) (List.cons.inj hinj.2).1).1
    subst hkj
    have hfin : p.final = .seg ((Producer.split po.maxSegmentSize input).length - 1) := by
      rw [hf, h3, finalOf, toSegment_fromSegment (by omega), Producer.store_length]
    exact ⟨hinj.1, ⟨by rw [hc]; exact h1, Or.inr hfin⟩, hv, hb h5, hfin⟩

/-- What arrives for a segment from the producer. -/
theorem answer_consistent {digest : Data → Bytes} {po : Producer.Opts} {pre0 : Name} {now : Nat} {input : Bytes}
    (hn : now < 2 ^ 64) (hm : 0 < po.maxSegmentSize) (hi : input.length < 2 ^ 64) {conv fresh n k p} (hk : k < 2 ^ 64)
    (hname : ¬ (Producer.construct po pre0 now input).pre ++ [metadataComp] <+: n)
    {i now' r} (hr : r ∈ (Producer.construct po pre0 now input).onInterest digest now' i)
    (ha : Answers digest (segmentInterest conv fresh n k) p r) :
    n = (Producer.construct po pre0 now input).versionedPrefix ∧
    Consistent (Producer.split po.maxSegmentSize input) k p ∧ p.valid = true ∧ p.appNack = false :=
  have h := answer_full hn hm hi hk hname hr ha
  ⟨h.1, h.2.1, h.2.2.1, h.2.2.2.1⟩

/-! ## The program -/

/-- The program in an environment where the metadata packets satisfy `Q` and the segments that arrive
for a name satisfy `G`. -/
def envMachine (P : Pipe σ ε) (o : Discover.Opts) (name : Name) (Q : Discover.Ev → Prop)
    (G : Name → Nat → Pkt → Prop) : Machine (St σ) (Ev ε) :=
  { init := start P o name
    step := St.step P
    enabled := fun s e => s.enabled P name e ∧
      match e with
      | .disc e => Q e
      | .pipe e => ∀ n q k p, s.pipe = some (n, q) → P.arrival q e = some (k, p) → G n k p }

theorem disc_reports {o : Discover.Opts} {pre : Name} {es s} (h : (Discover.machine o pre).Run es s) :
    ∀ a x b, s.log = a ++ x :: b → x.isReport = true → b = [] ∧ ∀ y ∈ a, y = .interest := by
  by_cases hd : o.disable = true ∨ pre.endsWithVersion = true
  · have := Discover.C24_not_needed hd h
    intro a x b e hx
    rw [this] at e
    cases a with
    | nil => simp at e; exact ⟨e.2, by simp⟩
    | cons y a => simp at e
  · have hd1 : o.disable = false := by
      by_contra hc; exact hd (Or.inl (by simpa using hc))
    have hd2 : pre.endsWithVersion = false := by
      by_contra hc; exact hd (Or.inr (by simpa using hc))
    exact (Discover.C24_one_result hd1 hd2 h).1

theorem log_cases {l : List Discover.Obs}
    (h : ∀ a x b, l = a ++ x :: b → x.isReport = true → b = [] ∧ ∀ y ∈ a, y = .interest) :
    (∀ x ∈ l, x = .interest) ∨ (∃ a n, l = a ++ [.success n] ∧ ∀ x ∈ a, x = .interest) ∨
    (∃ a r, l = a ++ [.failure r] ∧ ∀ x ∈ a, x = .interest) := by
  by_cases hr : ∃ x ∈ l, x.isReport = true
  · obtain ⟨x, hx, hxr⟩ := hr
    obtain ⟨a, b, e⟩ := List.append_of_mem hx
    obtain ⟨rfl, h2⟩ := h a x b e hxr
    cases x with
    | interest => simp [Discover.Obs.isReport] at hxr
    | success n => exact Or.inr (Or.inl ⟨a, n, e, h2⟩)
    | failure r => exact Or.inr (Or.inr ⟨a, r, e, h2⟩)
  · left
    intro x hx
    cases x with
    | interest => rfl
    | success n => exact absurd ⟨_, hx, rfl⟩ hr
    | failure n => exact absurd ⟨_, hx, rfl⟩ hr

theorem fold_interests (P : Pipe σ ε) (l : List Discover.Obs) (h : ∀ x ∈ l, x = .interest) (s : St σ) :
    l.foldl (onReport P) s = s := by
  induction l with
  | nil => rfl
  | cons x l ih =>
    rw [List.foldl_cons, h x (by simp)]
    exact ih (fun y hy => h y (by simp [hy]))

/-- How the parts of the program belong together. -/
structure PInv (P : Pipe σ ε) (o : Discover.Opts) (name : Name) (Q : Discover.Ev → Prop)
    (G : Name → Nat → Pkt → Prop) (s : St σ) : Prop where
  disc : ∃ es, (Discover.machine o name).Run es s.disc ∧ ∀ e ∈ es, Q e
  before : s.pipe = none → (s.cons = {} ∧ ∀ x ∈ s.disc.log, x = .interest) ∨
    (s.cons.threw = some .failure ∧ s.cons.out = [] ∧ ∃ r, Discover.Obs.failure r ∈ s.disc.log)
  after : ∀ n q, s.pipe = some (n, q) → .success n ∈ s.disc.log ∧
    (∃ es, (P.along (G n)).Run es q) ∧ s.cons = (P.calls q).foldl deliver {}

/-- What the signals of the discovery do. -/
theorem fold_log {P : Pipe σ ε} (hP : P.calls P.M.init = []) {o : Discover.Opts} {name : Name}
    {Q : Discover.Ev → Prop} {G : Name → Nat → Pkt → Prop} {s : St σ} {l old : List Discover.Obs}
    (hd : ∃ es, (Discover.machine o name).Run es s.disc ∧ ∀ e ∈ es, Q e)
    (hold : ∀ x ∈ old, x = .interest) (hlog : s.disc.log = old ++ l) (hc : s.cons = {}) (hp : s.pipe = none) :
    PInv P o name Q G (l.foldl (onReport P) s) := by
  obtain ⟨es, hrun, _⟩ := id hd
  have hl : ∀ a x b, l = a ++ x :: b → x.isReport = true → b = [] ∧ ∀ y ∈ a, y = .interest := by
    intro a x b e hx
    obtain ⟨h1, h2⟩ := disc_reports hrun (old ++ a) x b (by rw [hlog, e]; simp) hx
    exact ⟨h1, fun y hy => h2 y (by simp [hy])⟩
  rcases log_cases hl with h | ⟨a, n, rfl, h⟩ | ⟨a, r, rfl, h⟩
  · rw [fold_interests P l h]
    refine ⟨hd, fun _ => Or.inl ⟨hc, ?_⟩, ?_⟩
    · intro x hx
      rw [hlog] at hx
      rcases List.mem_append.mp hx with hx | hx
      · exact hold x hx
      · exact h x hx
    · intro n q hq
      rw [hp] at hq; cases hq
  · rw [List.foldl_append, fold_interests P a h]
    simp only [List.foldl_cons, List.foldl_nil, onReport]
    refine ⟨hd, fun h => by simp at h, ?_⟩
    intro n' q hq
    simp only [Option.some.injEq, Prod.mk.injEq] at hq
    obtain ⟨rfl, rfl⟩ := hq
    refine ⟨by rw [hlog]; simp, ⟨[], Machine.Run.nil⟩, ?_⟩
    rw [hc]
  · rw [List.foldl_append, fold_interests P a h]
    simp only [List.foldl_cons, List.foldl_nil, onReport]
    refine ⟨hd, fun _ => Or.inr ?_, fun n q hq => by rw [hp] at hq; cases hq⟩
    rw [hc]
    exact ⟨rfl, rfl, r, by rw [hlog]; simp⟩

theorem prog_inv {P : Pipe σ ε} (hP : Proper P) {o : Discover.Opts} {name : Name} {Q : Discover.Ev → Prop}
    {G : Name → Nat → Pkt → Prop} {es s} (h : (envMachine P o name Q G).Run es s) : PInv P o name Q G s := by
  refine Machine.Run.invariant (P := PInv P o name Q G) ?_ ?_ h
  · exact fold_log hP.init (old := []) ⟨[], Machine.Run.nil, by simp⟩ (by simp) rfl rfl rfl
  · intro s e hi he
    obtain ⟨⟨hne, hen⟩, henv⟩ := he
    cases e with
    | disc e =>
      have hst : (envMachine P o name Q G).step = St.step P := rfl
      rw [hst]
      obtain ⟨⟨f, hf, _⟩, _⟩ := id hen
      obtain ⟨des, hdr, hdq⟩ := hi.disc
      have hd' : ∃ es, (Discover.machine o name).Run es (s.disc.step e) ∧ ∀ x ∈ es, Q x := by
        refine ⟨des ++ [e], Machine.Run.snoc (M := Discover.machine o name) e hdr hen, ?_⟩
        intro x hx
        rcases List.mem_append.mp hx with hx | hx
        · exact hdq x hx
        · rw [List.mem_singleton.mp hx]; exact henv
      have hlog : ∃ l, (s.disc.step e).log = s.disc.log ++ l := by
        unfold Discover.St.step
        rw [hf]
        exact ⟨_, rfl⟩
      obtain ⟨l, hl⟩ := hlog
      unfold St.step
      dsimp only
      have hdrop : (s.disc.step e).log.drop s.disc.log.length = l := by rw [hl]; simp
      rw [hdrop]
      cases hp : s.pipe with
      | none =>
        rcases hi.before hp with ⟨hc, hall⟩ | ⟨hc, _⟩
        · exact fold_log (s := { s with disc := s.disc.step e, pipe := none }) hP.init hd' hall hl hc rfl
        · exact absurd (show s.ended P from Or.inl (by rw [hc]; simp)) hne
      | some nq =>
        obtain ⟨n, q⟩ := nq
        obtain ⟨h1, h2, h3⟩ := hi.after n q hp
        obtain ⟨a, b, eab⟩ := List.append_of_mem h1
        have hlnil : l = [] := by
          obtain ⟨_, hdr', _⟩ := hd'
          have := (disc_reports hdr' a (.success n) (b ++ l) (by rw [hl, eab]; simp) rfl).1
          exact (List.append_eq_nil_iff.mp this).2
        subst hlnil
        refine ⟨hd', ?_, ?_⟩
        · intro h; simp at h
        · intro n' q' hq
          simp only [List.foldl_nil, Option.some.injEq, Prod.mk.injEq] at hq
          obtain ⟨rfl, rfl⟩ := hq
          refine ⟨?_, h2, h3⟩
          show Discover.Obs.success n ∈ (s.disc.step e).log
          rw [hl]; simpa using h1
    | pipe e =>
      obtain ⟨n, q, hp, hq, hu⟩ := hen
      have hst : (envMachine P o name Q G).step = St.step P := rfl
      rw [hst]
      obtain ⟨h1, ⟨qes, h2⟩, h3⟩ := hi.after n q hp
      have hena : (P.along (G n)).enabled q e := ⟨hq, hu, fun k p ha => henv n q k p hp ha⟩
      unfold St.step
      dsimp only
      rw [hp]
      dsimp only
      refine ⟨hi.disc, fun h => by simp at h, ?_⟩
      intro n' q' hq'
      simp only [Option.some.injEq, Prod.mk.injEq] at hq'
      obtain ⟨rfl, rfl⟩ := hq'
      refine ⟨h1, ⟨_, Machine.Run.snoc (M := P.along (G n)) e h2 hena⟩, ?_⟩
      obtain ⟨t, ht⟩ := hP.ext _ _ _ _ h2 hena
      dsimp only
      rw [h3, ← ht, ← List.foldl_append]
      congr 1
      simp

theorem run_env {P : Pipe σ ε} {o : Discover.Opts} {name : Name} {es s} (h : (machine P o name).Run es s) :
    (envMachine P o name (fun _ => True) (fun _ _ _ => True)).Run es s := by
  induction h with
  | nil => exact Machine.Run.nil
  | snoc e _ he ih =>
    refine Machine.Run.snoc (M := envMachine P o name _ _) e ih ⟨he, ?_⟩
    cases e with
    | disc e => trivial
    | pipe e => exact fun _ _ _ _ _ _ => trivial

theorem net_env {P : Pipe σ ε} {o : Discover.Opts} {digest prod conv fresh} {name : Name} {es s}
    (h : (netMachine P o digest prod conv fresh name).Run es s) :
    (envMachine P o name (Discover.FromProducer digest prod)
      (fun n k p => k < 2 ^ 64 ∧ ∃ i now r, r ∈ prod.onInterest digest now i ∧
        Answers digest (segmentInterest conv fresh n k) p r)).Run es s := by
  induction h with
  | nil => exact Machine.Run.nil
  | snoc e _ he ih =>
    refine Machine.Run.snoc (M := envMachine P o name _ _) e ih ⟨he.1, ?_⟩
    cases e with
    | disc e => exact he.2
    | pipe e => exact he.2

theorem good_iff {x : Call} : x.good ↔ x.exn = none := by
  cases x with
  | failure m => simp [Call.good, Call.exn]
  | data k p =>
    constructor
    · rintro ⟨h1, h2⟩; simp [Call.exn, h1, h2]
    · exact exn_data

/-- Exit status 0: the discovery succeeded, the pipeline came to rest, and no call was bad. -/
theorem exits_zero {P : Pipe σ ε} (hP : Proper P) {o : Discover.Opts} {name : Name} {Q : Discover.Ev → Prop}
    {G : Name → Nat → Pkt → Prop} {es s} (h : (envMachine P o name Q G).Run es s) (h0 : s.Exits P 0) :
    ∃ n q, s.pipe = some (n, q) ∧ P.threw q = false ∧ P.idle q ∧ ∀ x ∈ P.calls q, x.exn = none := by
  have hi := prog_inv hP h
  have ht : s.cons.threw = none := by
    unfold St.Exits at h0
    cases hx : s.cons.threw with
    | none => rfl
    | some e => rw [hx] at h0; cases e <;> simp at h0
  unfold St.Exits at h0
  rw [ht] at h0
  simp only [Nat.zero_ne_one, and_false, false_or, and_true] at h0
  obtain ⟨hne, hid⟩ := h0
  cases hp : s.pipe with
  | none =>
    exfalso
    rcases hi.before hp with ⟨_, hall⟩ | ⟨hc, _⟩
    · obtain ⟨des, hdr, _⟩ := hi.disc
      by_cases hd : o.disable = true ∨ name.endsWithVersion = true
      · have := Discover.C24_not_needed hd hdr
        rw [this] at hall
        simp at hall
      · have hd1 : o.disable = false := by
          by_contra hc; exact hd (Or.inl (by simpa using hc))
        have hd2 : name.endsWithVersion = false := by
          by_contra hc; exact hd (Or.inr (by simpa using hc))
        obtain ⟨f, hf, hr, hpend⟩ := (Discover.C24_result_comes hd1 hd2 hdr).1 hall
        obtain ⟨h1, h2⟩ := hid.1 f hf
        have := h2 hr
        rcases hpend with h | ⟨_, b, h⟩
        · omega
        · rw [h1] at h; cases h
    · rw [ht] at hc; cases hc
  | some nq =>
    obtain ⟨n, q⟩ := nq
    obtain ⟨_, _, h3⟩ := hi.after n q hp
    refine ⟨n, q, rfl, ?_, hid.2 n q hp, ?_⟩
    · by_contra hc
      exact hne (Or.inr ⟨n, q, hp, by simpa using hc⟩)
    · rcases first_bad (P.calls q) with hb | ⟨pre, x, post, e, h5, h6, h7⟩
      · exact hb
      · have := (fold_bad (post := post) h6 h7).1
        rw [← h5, ← h3, ht] at this
        cases this

/-- The exit status after the first bad call. -/
theorem exits_bad {P : Pipe σ ε} (hP : Proper P) {o : Discover.Opts} {name : Name} {Q : Discover.Ev → Prop}
    {G : Name → Nat → Pkt → Prop} {es s} (h : (envMachine P o name Q G).Run es s) {n q}
    (hp : s.pipe = some (n, q)) {pre x post e} (hc : P.calls q = pre ++ x :: post)
    (hg : ∀ y ∈ pre, Call.exn y = none) (hx : x.exn = some e) :
    s.cons.threw = some e ∧ ∃ cs : List Bytes, s.stdout = cs.flatten ∧
      ∀ (j : Nat) c, cs[j]? = some c → ∃ p, Call.data j p ∈ pre ∧ p.content = c := by
  have hi := prog_inv hP h
  obtain ⟨_, _, h3⟩ := hi.after n q hp
  obtain ⟨h4, h5⟩ := fold_bad (post := post) hg hx
  rw [hc] at h3
  rw [← h3] at h4 h5
  refine ⟨h4, ?_⟩
  obtain ⟨g1, g2⟩ := good_run hg
  obtain ⟨cs, c1, _, c3⟩ := (Consumer.run_inv g1 (evs_notBad hg)).2.written
  refine ⟨cs, h5.trans c1, ?_⟩
  intro j c hj
  obtain ⟨p, h6, _, h7⟩ := mem_arrived.mp (c3 j c hj)
  exact ⟨p, h6, h7⟩

end Verif.Catchunks
