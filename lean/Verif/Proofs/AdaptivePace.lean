import Verif.Proofs.AdaptiveRetx
import Verif.Proofs.AdaptiveProgress
import Verif.Proofs.AdaptiveDone
import Verif.Props.AdaptiveMore

/-! # How fast a transfer with an adaptive pipeline goes on -/

namespace Verif.AdaptiveTime

open Adaptive

variable {σ ε : Type} {d maxRto : Nat} {A : Alg σ ε} {o : Opts} {interval : Nat} {w : σ} {v : Env ε} {segs : List Bytes}

theorem prompt_plain {es s} (h : (promptTimed d maxRto A o interval w v).Run es s) :
    (machine (some d) A o interval w v).Run es s ∧ (promptMachine A o w v).Run (es.map (·.ev)) s.p := by
  induction h with
  | nil => exact ⟨.nil, .nil⟩
  | snoc e _ he ih =>
    refine ⟨.snoc e ih.1 he.1, ?_⟩
    rw [List.map_append]
    exact .snoc e.ev ih.2 he.2.1

theorem served_plain {es s} (h : (servedTimed d maxRto A o interval w v segs).Run es s) :
    (machine (some d) A o interval w v).Run es s ∧ (servedMachine A o w v segs).Run (es.map (·.ev)) s.p := by
  induction h with
  | nil => exact ⟨.nil, .nil⟩
  | snoc e _ he ih =>
    refine ⟨.snoc e ih.1 he.1, ?_⟩
    rw [List.map_append]
    exact .snoc e.ev ih.2 he.2.1

/-- No Interest was sent with an RTO above the limit. -/
def Bounded (maxRto : Nat) (s : St σ) : Prop := ∀ x ∈ s.hist, x.rto ≤ maxRto

theorem bounded_init (hv : v.rto ≤ maxRto) : Bounded maxRto (init A o interval w v) := by
  intro x hx
  obtain ⟨y, -, rfl⟩ := List.mem_map.mp hx
  exact hv

theorem bounded_step {start : Nat} {s : St σ} {e : Ev ε} (h : Bounded maxRto s) (he : e.rto ≤ maxRto) :
    Bounded maxRto (s.step A o interval start e) := by
  intro x hx
  rcases List.mem_append.mp hx with hx | hx
  · exact h x hx
  · obtain ⟨y, -, rfl⟩ := List.mem_map.mp hx
    exact he

theorem prompt_bounded (hv : v.rto ≤ maxRto) {es s} (h : (promptTimed d maxRto A o interval w v).Run es s) : Bounded maxRto s :=
  Machine.Run.invariant (M := promptTimed d maxRto A o interval w v) (P := Bounded maxRto) (bounded_init hv)
    (fun _ _ hs he => bounded_step hs he.2.2) h

theorem served_bounded (hv : v.rto ≤ maxRto) {es s} (h : (servedTimed d maxRto A o interval w v segs).Run es s) : Bounded maxRto s :=
  Machine.Run.invariant (M := servedTimed d maxRto A o interval w v segs) (P := Bounded maxRto) (bounded_init hv)
    (fun _ _ hs he => bounded_step hs he.2.2) h

/-- The entry of the last Interest for a tracked segment. -/
theorem tracked_entry {es s} (h : (machine (some d) A o interval w v).Run es s) {k x} (hx : get s.p.info k = some x) :
    ∃ y ∈ s.hist, (∃ b, y.obs = .interest k b) ∧ y.time = x.timeSent ∧ y.rto = x.rto := by
  obtain ⟨h1, -⟩ := (run_sent h).last k x hx
  obtain ⟨y, hy, hs⟩ := List.mem_filterMap.mp (List.mem_of_getLast? h1)
  refine ⟨y, hy, ?_⟩
  rcases y with ⟨t, r, ob⟩
  cases ob with
  | interest j b =>
    simp only [Entry.sent?] at hs
    split at hs
    · rename_i hj
      subst hj
      cases hs
      exact ⟨⟨b, rfl⟩, rfl, rfl⟩
    · cases hs
  | _ => cases hs

/-- A segment in flight was requested not long ago, and the next event comes soon. -/
theorem flight_soon {es s} (h : (machine (some d) A o interval w v).Run es s) (hb : Bounded maxRto s) (ha : Alive s.p) {k x}
    (hx : get s.p.info k = some x) (hst : x.state ≠ .inRetxQueue) :
    s.now ≤ x.timeSent + (maxRto + interval + d) ∧ ∀ e : Ev ε, s.enabled (some d) e → e.t ≤ x.timeSent + (maxRto + interval + d) := by
  obtain ⟨y, hy, -, h1, h2⟩ := tracked_entry h hx
  have h3 := hb y hy
  have h4 := (run_timer h).flight ha k x hx hst
  have h5 := (run_timer h).late ha d rfl
  refine ⟨by omega, ?_⟩
  intro e he
  have ht : s.p.timer = true := (run_ticks h).resolve_left (by rw [ha.1]; simp)
  have := he.2.2.2.2 d rfl ht
  omega

/-- What an event adds to the history, it adds now. -/
theorem step_hist {start : Nat} (s : St σ) (e : Ev ε) :
    ∃ l : List Obs, (s.step A o interval start e).hist = s.hist ++ l.map (Entry.mk e.t e.rto) ∧
      (s.step A o interval start e).now = e.t := ⟨_, rfl, rfl⟩

/-- Every running state has a segment in flight that fulfils `Q`: then the time is bounded by the number of Interests. -/
theorem pace_step {T B : Nat} {start : Nat} {s : St σ} {e : Ev ε} {q : Entry → Bool} {base : Nat}
    (hq : ∀ x ∈ s.hist, q x = true → x.time ≤ B + (s.hist.countP q - base) * T)
    (hbase : base ≤ s.hist.countP q) (ht : ∃ y ∈ s.hist, q y = true ∧ e.t ≤ y.time + T) :
    ∀ x ∈ (s.step A o interval start e).hist, q x = true →
      x.time ≤ B + ((s.step A o interval start e).hist.countP q - base) * T := by
  obtain ⟨l, hl, -⟩ := step_hist (A := A) (o := o) (interval := interval) (start := start) s e
  rw [hl]
  intro x hx hqx
  rw [List.countP_append]
  rcases List.mem_append.mp hx with hx | hx
  · refine Nat.le_trans (hq x hx hqx) (Nat.add_le_add_left (Nat.mul_le_mul_right _ ?_) _)
    omega
  · obtain ⟨y, hy, hqy, hty⟩ := ht
    have h1 := hq y hy hqy
    have h2 : 0 < (l.map (Entry.mk e.t e.rto)).countP q := List.countP_pos_iff.mpr ⟨x, hx, hqx⟩
    obtain ⟨z, -, rfl⟩ := List.mem_map.mp hx
    show e.t ≤ _
    have h3 : (s.hist.countP q - base + 1) * T ≤ (s.hist.countP q + (l.map (Entry.mk e.t e.rto)).countP q - base) * T :=
      Nat.mul_le_mul_right _ (by omega)
    rw [Nat.add_mul, Nat.one_mul] at h3
    omega

/-! ## Interests for existing segments -/

/-- The entry is an Interest for one of the first `L` segments. -/
def wants (L : Nat) (e : Entry) : Bool :=
  match e.obs with
  | .interest k _ => decide (k < L)
  | _ => false

private theorem count_range (log : List Obs) (L : Nat) :
    log.countP (fun x => match x with | .interest k _ => decide (k < L) | _ => false) =
      ((List.range L).map fun k => nSends log k).sum := by
  induction L with
  | zero =>
    rw [List.range_zero, List.map_nil, List.sum_nil, List.countP_eq_zero]
    intro x _
    cases x <;> simp
  | succ L ih =>
    rw [List.range_succ, List.map_append, List.sum_append, ← ih]
    simp only [List.map_cons, List.map_nil, List.sum_cons, List.sum_nil, Nat.add_zero]
    clear ih
    unfold nSends
    induction log with
    | nil => rfl
    | cons x log ih =>
      simp only [List.countP_cons, List.count_cons]
      cases x with
      | interest k b =>
        have e1 : ((Obs.interest k b == Obs.interest L false) = true) ↔ (k = L ∧ b = false) := by simp
        have e2 : ((Obs.interest k b == Obs.interest L true) = true) ↔ (k = L ∧ b = true) := by simp
        simp only [e1, e2, decide_eq_true_eq]
        rcases Nat.lt_trichotomy k L with h | h | h
        · have h1 : k < L + 1 := by omega
          have h2 : k ≠ L := by omega
          simp only [h, h1, h2, if_true, if_false, false_and]
          omega
        · subst h
          have h1 : k < k + 1 := by omega
          have h2 : ¬ k < k := by omega
          cases b <;> simp [h1] <;> omega
        · have h1 : ¬ k < L + 1 := by omega
          have h2 : k ≠ L := by omega
          have h3 : ¬ k < L := by omega
          simp only [h3, h1, h2, if_false, false_and]
          omega
      | _ => simp; omega

theorem wants_count {s : St σ} (hs : s.hist.map (·.obs) = s.p.log) (L : Nat) :
    s.hist.countP (wants L) = ((List.range L).map fun k => nSends s.p.log k).sum := by
  rw [← hs, ← count_range, List.countP_map]
  rfl

private theorem sum_le {l : List Nat} {f g : Nat → Nat} (h : ∀ k ∈ l, f k ≤ g k) : (l.map f).sum ≤ (l.map g).sum := by
  induction l with
  | nil => exact Nat.le_refl _
  | cons a l ih =>
    simp only [List.map_cons, List.sum_cons]
    exact Nat.add_le_add (h a (by simp)) (ih fun k hk => h k (by simp [hk]))

private theorem noDup {α : Type} {l : List α} {x : α} (h : ∀ pre post, l = pre ++ x :: post → x ∉ pre) [DecidableEq α] : l.count x ≤ 1 := by
  by_contra hc
  have h1 : x ∈ l := List.count_pos_iff.mp (by omega)
  obtain ⟨pre, post, rfl⟩ := List.append_of_mem h1
  have h2 := h pre post rfl
  have h3 : x ∈ post := by
    rw [List.count_append, List.count_cons_self, List.count_eq_zero.mpr h2] at hc
    exact List.count_pos_iff.mp (by omega)
  obtain ⟨p1, p2, rfl⟩ := List.append_of_mem h3
  exact h (pre ++ x :: p1) p2 (by simp) (by simp)

/-- The Interests for existing segments: each is sent once, and once more for each loss. -/
theorem wants_le {es s} (h : (machine (some d) A o interval w v).Run es s) (L : Nat) :
    s.hist.countP (wants L) ≤ L + losses A o w v L (es.map (·.ev)) := by
  rw [wants_count (run_sent h).log]
  have h1 : ∀ k, nSends s.p.log k ≤ 1 + lossCount A o k (start A o w v) (es.map (·.ev)) := by
    intro k
    have h2 := C51_retransmissions_caused (proj h) k
    have h3 : s.p.log.count (.interest k false) ≤ 1 :=
      noDup (fun pre post e => ((run_core (al := Allow.all) (fun h => False.elim h) (run_all (proj h))).order pre k post e).2)
    unfold nRetx at h2
    unfold nSends
    omega
  refine Nat.le_trans (sum_le (g := fun k => 1 + lossCount A o k (start A o w v) (es.map (·.ev))) fun k _ => h1 k) ?_
  unfold losses
  generalize lossCount A o = f
  have : ∀ n, ((List.range n).map fun k => 1 + f k (start A o w v) (es.map (·.ev))).sum =
      n + ((List.range n).map fun k => f k (start A o w v) (es.map (·.ev))).sum := by
    intro n
    induction n with
    | zero => rfl
    | succ n ih => simp only [List.range_succ, List.map_append, List.sum_append, ih]; simp; omega
  rw [this]

/-! ## A served object -/

theorem few_prefix {es es' : List (Adaptive.Ev ε)} (h : FewLosses A o w v segs (es ++ es')) : FewLosses A o w v segs es := by
  rcases h with h | h
  · exact .inl h
  · refine .inr fun k hk => ?_
    have := h k hk
    rw [lossCount_append] at this
    omega

/-- A running transfer has an existing segment in flight, before the end is known the first one. -/
theorem served_flight (hsegs : segs ≠ []) (hslots : ∀ w', Reach A w w' → 1 ≤ A.slots w')
    (hdec : ∀ w', Decs A w w' → A.slots w' = A.slots w) {es : List (Adaptive.Ev ε)} {s : Adaptive.St σ}
    (h : (servedMachine A o w v segs).Run es s) (hf : FewLosses A o w v segs es) (hs : s.isStopping = false) :
    ∃ k x, get s.info k = some x ∧ x.state ≠ .inRetxQueue ∧ k < segs.length ∧ (s.hasFinalBlockId = false → k = 0) := by
  have hi := served_inv hslots hdec h
  have hh := served_harm hsegs h hf
  have hL : 0 < segs.length := List.length_pos_iff.mpr hsegs
  have hend : ¬ Ended s := by
    rintro (h | h | h)
    · rw [hs] at h; cases h
    · rw [hi.threw] at h; cases h
    · rw [hi.ub] at h; cases h
  cases hfin : s.hasFinalBlockId with
  | true =>
    have hp := hi.prog.resolve_left hend
    have h1 : 0 < inFlight s.info := by
      rcases hp.live with h | h
      · rw [hp.ff hfin] at h; cases h
      · exact h
    obtain ⟨k, x, hx, hst⟩ := (inFlight_pos hi.wf.nodup).mp h1
    have h2 := hi.within hfin k (by rw [hx]; rfl)
    rw [hh.fin hfin] at h2
    exact ⟨k, x, hx, hst, by omega, fun h => by cases h⟩
  | false =>
    have he : Early A w s := by
      rcases hi.early with h | h | h
      · rw [hfin] at h; cases h
      · exact absurd h hend
      · exact h
    have h0 : 0 ∉ received s.log := by
      intro hr
      obtain ⟨p, hp⟩ := mem_received.mp hr
      have := hi.final.known 0 p hp (hi.net 0 p hp).2
      rw [hfin] at this; cases this
    obtain ⟨x, hx⟩ := Option.isSome_iff_exists.mp (hh.kept hs 0 hL hi.first h0)
    refine ⟨0, x, hx, ?_, hL, fun _ => rfl⟩
    intro hst
    have := hi.flow.waits hs 0 x hx hst
    rw [he.queue] at this
    cases this

/-- The times of the Interests. -/
structure Pace (T L start : Nat) (s : St σ) : Prop where
  first : 1 ≤ s.hist.countP (wants 1)
  early : s.p.hasFinalBlockId = false →
    ∀ x ∈ s.hist, wants 1 x = true → x.time ≤ start + (s.hist.countP (wants 1) - 1) * T
  late : s.p.hasFinalBlockId = true → ∀ x ∈ s.hist, wants L x = true → x.time ≤ start + (s.hist.countP (wants L) - 0) * T

theorem wants_one {L : Nat} (hL : 0 < L) (x : Entry) (h : wants 1 x = true) : wants L x = true := by
  unfold wants at h ⊢
  rcases x with ⟨t, r, ob⟩
  cases ob with
  | interest k b => simp at h ⊢; omega
  | _ => cases h

theorem count_one {L : Nat} (hL : 0 < L) (l : List Entry) : l.countP (wants 1) ≤ l.countP (wants L) :=
  List.countP_mono_left fun x _ h => wants_one hL x h

/-- What follows from the times and a segment in flight. -/
theorem pace_now (hv : v.rto ≤ maxRto) (hsegs : segs ≠ []) (hslots : ∀ w', Reach A w w' → 1 ≤ A.slots w')
    (hdec : ∀ w', Decs A w w' → A.slots w' = A.slots w) {es s} (h : (servedTimed d maxRto A o interval w v segs).Run es s)
    (hf : FewLosses A o w v segs (es.map (·.ev))) (hs : s.p.isStopping = false) :
    ∃ y ∈ s.hist, wants segs.length y = true ∧ (s.p.hasFinalBlockId = false → wants 1 y = true) ∧
      s.now ≤ y.time + (maxRto + interval + d) ∧ ∀ e : Ev ε, s.enabled (some d) e → e.t ≤ y.time + (maxRto + interval + d) := by
  obtain ⟨h1, h2⟩ := served_plain h
  have hi := served_inv hslots hdec h2
  obtain ⟨k, x, hx, hst, hk, hk0⟩ := served_flight hsegs hslots hdec h2 hf hs
  obtain ⟨g1, g2⟩ := flight_soon h1 (served_bounded hv h) ⟨hs, hi.threw, hi.ub⟩ hx hst
  obtain ⟨y, hy, ⟨b, hb⟩, ht, -⟩ := tracked_entry h1 hx
  rw [← ht] at g1 g2
  refine ⟨y, hy, ?_, fun hfin => ?_, g1, g2⟩
  · unfold wants; rw [hb]; simpa using hk
  · unfold wants; rw [hb, hk0 hfin]; rfl

theorem served_pace (hv : v.rto ≤ maxRto) (hsegs : segs ≠ []) (hslots : ∀ w', Reach A w w' → 1 ≤ A.slots w')
    (hdec : ∀ w', Decs A w w' → A.slots w' = A.slots w) {es s} (h : (servedTimed d maxRto A o interval w v segs).Run es s)
    (hf : FewLosses A o w v segs (es.map (·.ev))) (hs : s.p.isStopping = false) :
    Pace (maxRto + interval + d) segs.length v.now s := by
  have hL : 0 < segs.length := List.length_pos_iff.mpr hsegs
  have hfirst : ∀ {es s}, (servedTimed d maxRto A o interval w v segs).Run es s → 1 ≤ s.hist.countP (wants 1) := by
    intro es s h
    obtain ⟨h1, h2⟩ := served_plain h
    have hi := (served_inv hslots hdec h2).first
    rw [← (run_sent h1).log] at hi
    obtain ⟨x, hx, hxo⟩ := List.mem_map.mp hi
    exact List.countP_pos_iff.mpr ⟨x, hx, by unfold wants; rw [hxo]; rfl⟩
  induction h with
  | nil =>
    refine ⟨hfirst .nil, ?_, ?_⟩ <;>
    · intro _ x hx _
      obtain ⟨y, -, rfl⟩ := List.mem_map.mp hx
      exact Nat.le_add_right _ _
  | @snoc es s e h he ih =>
    rw [List.map_append] at hf
    have hf' := few_prefix hf
    have hi := served_inv hslots hdec (served_plain h).2
    have hs' : s.p.isStopping = false := by
      cases hc : s.p.isStopping with
      | false => rfl
      | true =>
        have := step_stopped (A := A) (o := o) (e := e.ev) hc
        have h' : (s.p.step A o e.ev).isStopping = false := hs
        rw [h'] at this; cases this
    have hp := ih hf' hs'
    obtain ⟨y, hy, g1, g2, -, g3⟩ := pace_now hv hsegs hslots hdec h hf' hs'
    have hrun := Machine.Run.snoc (M := servedTimed d maxRto A o interval w v segs) e h he
    have ht := g3 e he.1
    refine ⟨hfirst hrun, ?_, ?_⟩
    · intro hfin
      have hfin' : s.p.hasFinalBlockId = false := by
        cases hc : s.p.hasFinalBlockId with
        | false => rfl
        | true =>
          exfalso
          have hst := steps_step (A := A) hi.wf he.2.1.1.1 (served_allowed he.2.1)
          have : (s.p.step A o e.ev).hasFinalBlockId = true :=
            steps_inv (P := fun s => s.hasFinalBlockId = true) (fun _ _ h m => micro_final m h) hc hst
          have hfin2 : (s.p.step A o e.ev).hasFinalBlockId = false := hfin
          rw [hfin2] at this; cases this
      exact pace_step (hp.early hfin') hp.first ⟨y, hy, g2 hfin', ht⟩
    · intro hfin
      cases hc : s.p.hasFinalBlockId with
      | true => exact pace_step (hp.late hc) (Nat.zero_le _) ⟨y, hy, g1, ht⟩
      | false =>
        intro x hx _
        have h1 := (run_sent (served_plain hrun).1).times x hx
        have h2 : x.time ≤ e.t := h1
        have h3 := hp.early hc y hy (g2 hc)
        have h4 := hp.first
        obtain ⟨l, hl, -⟩ := step_hist (A := A) (o := o) (interval := interval) (start := v.now) s e
        have h5 : s.hist.countP (wants 1) ≤ ((servedTimed d maxRto A o interval w v segs).step s e).hist.countP (wants segs.length) := by
          refine Nat.le_trans (count_one hL _) ?_
          show _ ≤ (s.step A o interval v.now e).hist.countP (wants segs.length)
          rw [hl, List.countP_append]
          exact Nat.le_add_right _ _
        have h6 := Nat.mul_le_mul_right (maxRto + interval + d) h5
        have h7 : s.hist.countP (wants 1) * (maxRto + interval + d) =
            (s.hist.countP (wants 1) - 1) * (maxRto + interval + d) + (maxRto + interval + d) := by
          obtain ⟨n, hn⟩ : ∃ n, s.hist.countP (wants 1) = n + 1 := ⟨_, (Nat.sub_add_cancel h4).symm⟩
          rw [hn, Nat.add_sub_cancel, Nat.add_mul, Nat.one_mul]
        rw [Nat.sub_zero]
        omega

/-- A stopped transfer is complete, and nothing happens any more. -/
theorem served_stopped (hsegs : segs ≠ []) (hslots : ∀ w', Reach A w w' → 1 ≤ A.slots w')
    (hdec : ∀ w', Decs A w w' → A.slots w' = A.slots w) {es : List (Adaptive.Ev ε)} {s : Adaptive.St σ}
    (h : (servedMachine A o w v segs).Run es s) (hf : FewLosses A o w v segs es) (hs : s.isStopping = true) :
    Obs.complete ∈ s.log ∧ ∀ e, ¬ (servedMachine A o w v segs).enabled s e := by
  have hi := served_inv hslots hdec h
  have hh := served_harm hsegs h hf
  have hc : Obs.complete ∈ s.log := by
    rcases hi.why.stop hs with h | ⟨m, h⟩ | h
    · exact absurd hh.quiet.1 h
    · exact absurd h (hh.quiet.2 m)
    · exact h
  refine ⟨hc, ?_⟩
  have hno : ∀ k, ¬ waitsFor s k := by
    rintro k ⟨x, hx, -⟩
    rw [hi.wf.stop hs] at hx
    cases hx
  rintro e ⟨⟨he, -, -, hp, hn⟩, -⟩
  cases e with
  | data k p c v => exact hno k hp
  | nack k r v => exact hno k hp
  | expire k v => exact hno k hp
  | check order v =>
    have h1 := served_done h hc
    have h2 : s.timer = true := he.1
    rw [h1] at h2; cases h2
  | cancel => exact hn
  | posted => exact he hh.quiet.1

theorem losses_mono {es es' : List (Adaptive.Ev ε)} (n : Nat) : losses A o w v n es ≤ losses A o w v n (es ++ es') := by
  refine sum_le fun k _ => ?_
  rw [lossCount_append]
  exact Nat.le_add_right _ _

/-- The time that has passed, also when the transfer has completed. -/
theorem served_time (hv : v.rto ≤ maxRto) (hsegs : segs ≠ []) (hslots : ∀ w', Reach A w w' → 1 ≤ A.slots w')
    (hdec : ∀ w', Decs A w w' → A.slots w' = A.slots w) {es s} (h : (servedTimed d maxRto A o interval w v segs).Run es s)
    (hf : FewLosses A o w v segs (es.map (·.ev))) :
    s.now ≤ v.now + (segs.length + losses A o w v segs.length (es.map (·.ev)) + 1) * (maxRto + interval + d) := by
  cases h with
  | nil => exact Nat.le_add_right _ _
  | @snoc es s e h he =>
    rw [List.map_append] at hf ⊢
    have hf' := few_prefix hf
    have hs : s.p.isStopping = false := by
      cases hc : s.p.isStopping with
      | false => rfl
      | true => exact absurd he.2.1 ((served_stopped hsegs hslots hdec (served_plain h).2 hf' hc).2 e.ev)
    have hL : 0 < segs.length := List.length_pos_iff.mpr hsegs
    have hp := served_pace hv hsegs hslots hdec h hf' hs
    obtain ⟨y, hy, g1, g2, -, g3⟩ := pace_now hv hsegs hslots hdec h hf' hs
    have ht := g3 e he.1
    show e.t ≤ _
    have h1 := Nat.le_trans (wants_le (served_plain h).1 segs.length)
      (Nat.add_le_add_left (losses_mono (A := A) (o := o) (w := w) (v := v) (es' := [e].map (·.ev)) segs.length) _)
    have h2 := Nat.mul_le_mul_right (maxRto + interval + d) h1
    rw [Nat.add_mul _ 1, Nat.one_mul]
    cases hc : s.p.hasFinalBlockId with
    | true =>
      have h3 := hp.late hc y hy g1
      rw [Nat.sub_zero] at h3
      omega
    | false =>
      have h3 := hp.early hc y hy (g2 hc)
      have h4 := Nat.mul_le_mul_right (maxRto + interval + d)
        (Nat.le_trans (Nat.sub_le (s.hist.countP (wants 1)) 1) (count_one hL s.hist))
      omega

end Verif.AdaptiveTime
