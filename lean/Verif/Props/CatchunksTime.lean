import Verif.Proofs.CatchunksTime
import Verif.Props.Catchunks

/-! # C98: when `ndncatchunks` ends -/

namespace Verif.CatchunksTime

open Catchunks
open FetchTime (limit dueAt)

variable {life d N R : Nat} {disable : Bool} {name : Name}

/-- **C98 (pace)** `ndncatchunks -p fixed` with `R` retries, timers and callbacks at most `d` late, whatever the producer and the network do.
Let `T = (1+2R)(life+d) + R(1ms+d)`. The program never waits longer than `T` for the discovery of the version, for each delivered segment,
and for the outcome; and as long as it has not terminated, something can still happen. -/
theorem C98_pace (hN : 0 < N) {es s} (h : (machine (some d) life N R disable name).Run es s) :
    s.now ≤ (s.delivered + 2) * limit life d R R + d ∧
    (s.Terminated N R ∨ ∃ e, (machine (some d) life N R disable name).enabled s e) := by
  refine ⟨run_now hN h, ?_⟩
  by_cases ht : s.Terminated N R
  · exact .inl ht
  · obtain ⟨⟨e, he, -⟩, -⟩ := next_event hN h ht
    exact .inr ⟨e, he⟩

theorem net_proj {late : Option Nat} {R : Int} {digest prod conv fresh} {es s}
    (h : (netMachine late life N R disable digest prod conv fresh name).Run es s) :
    (machine late life N R disable name).Run es s ∧
    (Catchunks.netMachine (fixedPipe N R) ⟨disable, R⟩ digest prod conv fresh name).Run (es.map (·.ev)) s.c := by
  induction h with
  | nil => exact ⟨.nil, .nil⟩
  | @snoc es s e _ he ih =>
    refine ⟨.snoc (M := machine late life N R disable name) e ih.1 he.1, ?_⟩
    rw [List.map_append]
    have : ((netMachine late life N R disable digest prod conv fresh name).step s e).c =
        (Catchunks.netMachine (fixedPipe N R) ⟨disable, R⟩ digest prod conv fresh name).step s.c e.ev := by
      show (St.step N R s e).c = _
      unfold St.step
      dsimp only
      split
      · rfl
      · split <;> rfl
    rw [this]
    exact .snoc (M := Catchunks.netMachine (fixedPipe N R) ⟨disable, R⟩ digest prod conv fresh name) e.ev ih.2 ⟨he.1.1.1, he.2⟩

private theorem delivered_le (hN : 0 < N) {digest : Data → Bytes} {po : Producer.Opts} {pre0 : Name} {now : Nat} {input : Bytes}
    (hn : now < 2 ^ 64) (hm : 0 < po.maxSegmentSize) (hi : input.length < 2 ^ 64) {conv : Convention} {fresh : Bool}
    (hname : ¬ (Producer.construct po pre0 now input).pre ++ [metadataComp] <+: name) {es s}
    (h : (netMachine (some d) life N R disable digest (Producer.construct po pre0 now input) conv fresh name).Run es s) :
    s.delivered ≤ (Producer.split po.maxSegmentSize input).length := by
  obtain ⟨h1, h2⟩ := net_proj h
  have hinv := prog_inv (fixed_proper hN) (net_env h2)
  unfold St.delivered
  cases hp : s.c.pipe with
  | none => exact Nat.zero_le _
  | some nq =>
    obtain ⟨n, q⟩ := nq
    obtain ⟨hsucc, ⟨qes, hq⟩, -⟩ := hinv.after n q hp
    have hnn : ¬ (Producer.construct po pre0 now input).pre ++ [metadataComp] <+: n := by
      obtain ⟨des, hdr, hdq⟩ := hinv.disc
      by_cases hd : disable = true ∨ name.endsWithVersion = true
      · rw [Discover.C24_not_needed hd hdr] at hsucc
        simp only [List.mem_singleton, Discover.Obs.success.injEq] at hsucc
        rw [hsucc]; exact hname
      · have hd1 : disable = false := by
          by_contra hc; exact hd (Or.inl (by simpa using hc))
        have hd2 : name.endsWithVersion = false := by
          by_contra hc; exact hd (Or.inr (by simpa using hc))
        have := Discover.C55_honest_producer_partial digest hn hd1 hd2 hdr hdq hsucc
        obtain ⟨v, h1, h2⟩ := Producer.construct_vp (o := po) (pre := pre0) (input := input) hn
        rw [this, h1]
        intro hc
        have hv : metadataComp = v := by
          have := hc.eq_of_length (by simp)
          simpa using this
        rw [← hv, metadataComp_not_version] at h2
        cases h2
    have hnet : (Fixed.netMachine N R (Producer.split po.maxSegmentSize input)).Run qes q := by
      refine fixed_net hq ?_
      rintro k p ⟨hk, i, now', r, hr, ha⟩
      exact (answer_consistent hn hm hi hk hnn hr ha).2.1
    have hI := ((run_cinv hN h1).pipe n q hp).1.inv.core
    have hcons := Fixed.net_consistent hnet
    have hsub : (Fixed.received q.log).Subperm (List.range (Producer.split po.maxSegmentSize input).length) := by
      refine List.Nodup.subperm hI.rnodup ?_
      intro k hk
      unfold Fixed.received at hk
      rw [List.mem_filterMap] at hk
      obtain ⟨o, ho, hoo⟩ := hk
      cases o with
      | data j p =>
        simp only [Option.some.injEq] at hoo
        subst hoo
        exact List.mem_range.mpr (Fixed.consistent_lt (hcons j p ho))
      | interest _ => cases hoo
      | failure _ => cases hoo
      | complete => cases hoo
    have hle := hsub.length_le
    rwa [List.length_range] at hle

/-- **C98 (it ends)** The same with `ndnputchunks` on the other side, which publishes `input` in `L` segments: after `(L+2)T + d` the program
has ended, with all of `input` written to the standard output or with exit status 1. (Nothing happens later, and as long as the program has
not ended, something can happen, at the latest by then.) -/
theorem C98_ends (hN : 0 < N) {digest : Data → Bytes} {po : Producer.Opts} {pre0 : Name} {now : Nat} {input : Bytes}
    (hn : now < 2 ^ 64) (hm : 0 < po.maxSegmentSize) (hi : input.length < 2 ^ 64) {conv : Convention} {fresh : Bool}
    (hname : ¬ (Producer.construct po pre0 now input).pre ++ [metadataComp] <+: name) {es s}
    (h : (netMachine (some d) life N R disable digest (Producer.construct po pre0 now input) conv fresh name).Run es s) :
    s.now ≤ ((Producer.split po.maxSegmentSize input).length + 2) * limit life d R R + d ∧
    ((s.c.Exits (fixedPipe N R) 0 ∧ s.c.stdout = input) ∨ s.c.Exits (fixedPipe N R) 1 ∨
      ∃ e, (netMachine (some d) life N R disable digest (Producer.construct po pre0 now input) conv fresh name).enabled s e) := by
  obtain ⟨h1, h2⟩ := net_proj h
  refine ⟨?_, ?_⟩
  · have h3 := run_now hN h1
    have h4 := Nat.mul_le_mul_right (limit life d R R) (Nat.add_le_add_right (delivered_le hN hn hm hi hname h) 2)
    omega
  · by_cases ht : s.Terminated N R
    · obtain ⟨n, hx⟩ := ht
      obtain ⟨-, h3, h4⟩ := C22_fixed hN hn hm hi hname h2
      rcases h4 n hx with rfl | rfl
      · exact .inl ⟨hx, h3 hx⟩
      · exact .inr (.inl hx)
    · obtain ⟨⟨e, he, hd⟩, -⟩ := next_event hN h1 ht
      refine .inr (.inr ⟨e, he, ?_⟩)
      obtain ⟨ev, t⟩ := e
      cases ev with
      | disc e =>
        cases e with
        | data m => exact hd.elim
        | _ => trivial
      | pipe e =>
        intro n q k p hq ha
        cases e with
        | data i p c => exact hd.elim
        | _ => cases ha

/-! ## Cases -/

deriving instance DecidableEq for Catchunks.Ev

private def slotOk (late : Option Nat) (life : Nat) (s : FixedTime.St) (e : Ev) (i : Nat) : Fixed.Slot → Bool
  | some (f, k) => decide ((e.ev = .pipe (.timeout i) → s.sentAt k + life ≤ e.t) ∧
      (e.ev = .pipe (.timer i) → ∀ b ∈ f.timer, s.setAt i + PingTime.ns b ≤ e.t) ∧
      (∀ d ∈ late, f.isRunning = true → e.t ≤ dueAt life f (s.sentAt k) (s.setAt i) + d))
  | none => true

private def discOk (late : Option Nat) (life : Nat) (s : St) (e : Ev) (f : DataFetcher.Fetcher) : Bool :=
  decide ((e.ev = .disc .timeout → s.sent + life ≤ e.t) ∧ (e.ev = .disc .timer → ∀ b ∈ f.timer, s.set + PingTime.ns b ≤ e.t) ∧
    (∀ d ∈ late, f.isRunning = true → e.t ≤ dueAt life f s.sent s.set + d))

private def busy (s : Catchunks.St Fixed.St) : Bool :=
  s.disc.fetcher.any (fun f => decide (¬ fetchIdle f)) ||
  s.pipe.any fun nq => !nq.2.posted.isEmpty || nq.2.slots.any fun x => x.any fun y => decide (¬ fetchIdle y.1)

private theorem busy_not_idle {s : Catchunks.St Fixed.St} {R : Int} (h : busy s = true) : ¬ s.idle (fixedPipe N R) := by
  rintro ⟨h1, h2⟩
  unfold busy at h
  rw [Bool.or_eq_true] at h
  rcases h with h | h
  · cases hf : s.disc.fetcher with
    | none => rw [hf] at h; cases h
    | some f =>
      rw [hf, Option.any_some] at h
      exact of_decide_eq_true h (h1 f hf)
  · cases hp : s.pipe with
    | none => rw [hp] at h; cases h
    | some nq =>
      obtain ⟨n, q⟩ := nq
      rw [hp, Option.any_some] at h
      obtain ⟨h3, h4⟩ := h2 n q hp
      dsimp only at h
      rw [h3] at h
      simp only [List.isEmpty_nil, Bool.not_true, Bool.false_or, List.any_eq_true] at h
      obtain ⟨x, hx, hy⟩ := h
      cases x with
      | none => cases hy
      | some y =>
        rw [Option.any_some] at hy
        exact of_decide_eq_true hy (h4 _ hx y.1 y.2 rfl)

private def ok (late : Option Nat) (life N : Nat) (R : Int) (name : Name) (s : St) (e : Ev) : Bool :=
  decide (s.c.enabled (fixedPipe N R) name e.ev) && busy s.c && decide (s.now ≤ e.t) && s.c.disc.fetcher.all (discOk late life s e) &&
  s.c.pipe.all fun nq => ((List.range nq.2.slots.length).all fun i => (nq.2.slots[i]?).all (slotOk late life (s.pipe nq.2) e i)) &&
    (nq.2.posted.isEmpty || late.all fun d => decide (e.t ≤ s.now + d))

private theorem ok_enabled {late : Option Nat} {R : Int} {s : St} {e : Ev} (h : ok late life N R name s e = true) :
    s.enabled late life N R name e := by
  unfold ok at h
  simp only [Bool.and_eq_true, decide_eq_true_eq] at h
  obtain ⟨⟨⟨⟨h1, h2⟩, h3⟩, h4⟩, h5⟩ := h
  refine ⟨⟨h1, busy_not_idle h2⟩, h3, ?_, ?_⟩
  · intro f hf
    rw [hf, Option.all_some] at h4
    exact of_decide_eq_true h4
  · intro n q hq
    rw [hq, Option.all_some] at h5
    simp only [Bool.and_eq_true, List.all_eq_true, List.mem_range] at h5
    refine ⟨?_, ?_⟩
    · intro i f k ha
      have := h5.1 i (List.getElem?_eq_some_iff.mp ha).1
      rw [ha] at this
      exact of_decide_eq_true this
    · intro d hd hp
      have := h5.2
      rw [Bool.or_eq_true] at this
      rcases this with h | h
      · exact absurd (List.isEmpty_iff.mp h) hp
      · rw [show late = some d from hd] at h
        exact of_decide_eq_true h

/-- The events in a row, if they are possible. -/
private def play (life N : Nat) (R : Int) (disable : Bool) (name : Name) : List Ev → Option St
  | [] => some (init N R disable name)
  | e :: es => (play life N R disable name es).bind fun s => if ok (some 0) life N R name s e then some (s.step N R e) else none

private theorem play_run {R : Int} {es : List Ev} {s : St} (h : play life N R disable name es = some s) :
    (machine (some 0) life N R disable name).Run es.reverse s := by
  induction es generalizing s with
  | nil => cases h; exact .nil
  | cons e es ih =>
    unfold play at h
    rw [Option.bind_eq_some_iff] at h
    obtain ⟨s', h1, h2⟩ := h
    split at h2
    · rename_i hk
      cases h2
      rw [List.reverse_cons]
      exact .snoc (M := machine (some 0) life N R disable name) e (ih h1) (ok_enabled hk)
    · cases h2

private def pkt (c : Bytes) (n : Nat) : Pkt := ⟨c, .seg n, false, false, true⟩

/-- Lifetime 4 s, one slot, no retries, no delay. The metadata arrives after 4 s, the first segment 4 s later, the second one is lost: the
bound of `C98_pace` for one delivered segment, 12 s, is reached. -/
private def slowEvs : List Ev :=
  [⟨.pipe .posted, 12000000000⟩, ⟨.pipe (.timeout 0), 12000000000⟩, ⟨.pipe (.data 0 (pkt [1] 1) false), 8000000000⟩,
    ⟨.disc (.data ⟨[⟨8, [65]⟩, metadataComp, ⟨54, [9]⟩, ⟨50, [0]⟩], true, some [⟨8, [65]⟩, ⟨54, [7]⟩]⟩), 4000000000⟩]

example : ∃ s, (machine (some 0) 4000000000 1 0 false [⟨8, [65]⟩]).Run slowEvs.reverse s ∧ s.delivered = 1 ∧
    (s.delivered + 2) * limit 4000000000 0 0 0 + 0 = 12000000000 ∧ s.now = 12000000000 ∧ s.c.Exits (fixedPipe 1 0) 1 :=
  ⟨(play 4000000000 1 0 false [⟨8, [65]⟩] slowEvs).get (by decide +kernel), play_run (Option.some_get _).symm,
    by decide +kernel, by decide +kernel, by decide +kernel, status_exits (by decide +kernel)⟩

private def prod : Producer.Prod := Producer.construct { maxSegmentSize := 2 } [⟨8, [65]⟩] 7 [1, 2, 3]
private def digest : Data → Bytes := fun _ => []

/-- Two segments from the producer, one second apart: the program ends after 2 s, with everything written. -/
private def goodEvs : List Ev :=
  [⟨.pipe (.data 0 (pkt [3] 1) false), 2000000000⟩, ⟨.pipe (.data 0 (pkt [1, 2] 1) false), 1000000000⟩]

private theorem net_snoc {es : List Ev} {s : St} (h : (netMachine (some 0) 4000000000 1 0 true digest prod .typed false
      [⟨8, [65]⟩, ⟨54, [7]⟩]).Run es s) (i : Nat) (k : Nat) (d : Data) (p : Pkt) {t : Nat}
    (hk : ok (some 0) 4000000000 1 0 [⟨8, [65]⟩, ⟨54, [7]⟩] s ⟨.pipe (.data i p false), t⟩ = true)
    (hp : (s.c.pipe.map fun nq => (nq.1, (fixedPipe 1 0).arrival nq.2 (.data i p false))) = some ([⟨8, [65]⟩, ⟨54, [7]⟩], some (k, p)))
    (hd : k < 2 ^ 64 ∧ Producer.Reply.data d ∈ prod.onInterest digest 9 { name := d.name } ∧
      Answers digest (segmentInterest .typed false [⟨8, [65]⟩, ⟨54, [7]⟩] k) p (.data d)) :
    (netMachine (some 0) 4000000000 1 0 true digest prod .typed false [⟨8, [65]⟩, ⟨54, [7]⟩]).Run
      (es ++ [⟨.pipe (.data i p false), t⟩]) (s.step 1 0 ⟨.pipe (.data i p false), t⟩) := by
  refine .snoc (M := netMachine (some 0) 4000000000 1 0 true digest prod .typed false [⟨8, [65]⟩, ⟨54, [7]⟩]) _ h ⟨ok_enabled hk, ?_⟩
  intro n q k' p' hq ha
  rw [hq] at hp
  simp only [Option.map_some, Option.some.injEq, Prod.mk.injEq] at hp
  obtain ⟨rfl, hp⟩ := hp
  rw [hp] at ha
  simp only [Option.some.injEq, Prod.mk.injEq] at ha
  obtain ⟨rfl, rfl⟩ := ha
  exact ⟨hd.1, _, 9, _, hd.2⟩

example : ∃ s, (netMachine (some 0) 4000000000 1 0 true digest prod .typed false [⟨8, [65]⟩, ⟨54, [7]⟩]).Run goodEvs.reverse s ∧
    ¬ prod.pre ++ [metadataComp] <+: [⟨8, [65]⟩, ⟨54, [7]⟩] ∧ s.now = 2000000000 ∧ s.c.Exits (fixedPipe 1 0) 0 ∧ s.c.stdout = [1, 2, 3] := by
  refine ⟨_, net_snoc (net_snoc .nil 0 0
      { name := [⟨8, [65]⟩, ⟨54, [7]⟩, ⟨50, [0]⟩], content := [1, 2], final := some ⟨50, [1]⟩, freshness := 10000 } (pkt [1, 2] 1)
      (by decide +kernel) (by decide +kernel) ⟨by decide, by decide, by decide, rfl, by decide, fun _ => rfl, rfl⟩) 0 1
    { name := [⟨8, [65]⟩, ⟨54, [7]⟩, ⟨50, [1]⟩], content := [3], final := some ⟨50, [1]⟩, freshness := 10000 } (pkt [3] 1)
    (by decide +kernel) (by decide +kernel) ⟨by decide, by decide, by decide, rfl, by decide, fun _ => rfl, rfl⟩,
    by decide, by decide +kernel, status_exits (by decide +kernel), by decide +kernel⟩

end Verif.CatchunksTime
