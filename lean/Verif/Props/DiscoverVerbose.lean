import Verif.Proofs.DiscoverVerbose
import Verif.Props.Discover

/-! # C108: what the version discovery prints with `--verbose` -/

namespace Verif.DiscoverVerbose

open Discover
open Verif.DataFetcher (Fetcher Out)

variable {o : Opts} {pre : Name}

/-- The name `/A`, a metadata packet for it that names version 7, and one that names the object `/A` without version. -/
private def nameA : Name := [⟨8, [65]⟩]
private def meta7 : Meta := ⟨nameA ++ [metadataComp, ⟨54, [8]⟩, ⟨50, [0]⟩], true, some (nameA ++ [⟨54, [7]⟩])⟩
private def metaBad : Meta := ⟨nameA ++ [metadataComp, ⟨54, [8]⟩, ⟨50, [0]⟩], true, some nameA⟩

/-- One event more in an execution for `/A`. -/
private theorem more {es s} (h : (machine o nameA).Run es s) (e : Ev)
    (h1 : (s.d.fetcher.any fun f => decide (f.enabled e.toFetch)) = true) (h2 : (makeDiscoveryInterest nameA).name <+: meta7.name)
    (h3 : ∀ m, e = .data m → m.name = meta7.name) : (machine o nameA).Run (es ++ [e]) (s.step e) := by
  refine .snoc e h ⟨?_, fun m hm => h3 m hm ▸ h2⟩
  cases hf : s.d.fetcher with
  | none => rw [hf] at h1; cases h1
  | some f => rw [hf] at h1; exact ⟨f, rfl, by simpa using h1⟩

private def st (o : Opts) (es : List Ev) : St := es.foldl St.step (start o nameA)

/-- Congestion, a timeout, then the packet. -/
private theorem found : (machine ⟨false, 3⟩ nameA).Run [.nack .congestion, .timer, .timeout, .data meta7]
    (st ⟨false, 3⟩ [.nack .congestion, .timer, .timeout, .data meta7]) :=
  more (more (more (more .nil (.nack .congestion) (by decide) (by decide) (by intro m hm; cases hm)) .timer (by decide) (by decide)
    (by intro m hm; cases hm)) .timeout (by decide) (by decide) (by intro m hm; cases hm)) (.data meta7) (by decide) (by decide)
    (by intro m hm; cases hm; rfl)

example : (st ⟨false, 3⟩ [.nack .congestion, .timer, .timeout, .data meta7]).lines =
      [.nack .congestion, .timeout, .data meta7.name, .discovered (text "v=7")] ∧
    (st ⟨false, 3⟩ [.nack .congestion, .timer, .timeout, .data meta7]).d.log =
      [.interest, .interest, .interest, .success (nameA ++ [⟨54, [7]⟩])] := by decide +kernel

/-- No retries: the first timeout is the end. -/
private theorem lost : (machine ⟨false, 0⟩ nameA).Run [.timeout] (st ⟨false, 0⟩ [.timeout]) :=
  more .nil .timeout (by decide) (by decide) (by intro m hm; cases hm)

/-- A packet that does not help. -/
private theorem bad : (machine ⟨false, 3⟩ nameA).Run [.data metaBad] (st ⟨false, 3⟩ [.data metaBad]) :=
  more .nil (.data metaBad) (by decide) (by decide) (by intro m hm; cases hm; rfl)

/-- **C108** The executions with `--verbose` are those without, with lines. -/
theorem C108_same (es : List Ev) (q : Discover.St) :
    (Discover.machine o pre).Run es q ↔ ∃ s, (machine o pre).Run es s ∧ s.d = q :=
  ⟨run_lift, fun ⟨_, h, hq⟩ => hq ▸ run_d h⟩

example : (Discover.machine ⟨false, 0⟩ nameA).Run [.timeout] (st ⟨false, 0⟩ [.timeout]).d := (C108_same _ _).2 ⟨_, lost, rfl⟩

/-- **C108 (not needed)** If discovery is disabled or the name ends with a version, nothing is printed. -/
theorem C108_not_needed (hn : o.disable = true ∨ pre.endsWithVersion = true) {es s} (h : (machine o pre).Run es s) :
    s.lines = [] := by
  have h0 : start o pre = { d := { fetcher := none, log := [.success pre] } } := by
    unfold start
    rw [if_pos (by rcases hn with h | h <;> simp [h])]
  have : s.d.fetcher = none ∧ s.lines = [] := by
    induction h with
    | nil => simp [machine, h0]
    | @snoc es s e _ he ih =>
      obtain ⟨⟨f, hf, _⟩, _⟩ := he
      rw [ih.1] at hf
      cases hf
  exact this.2

example : (machine ⟨true, 3⟩ nameA).Run [] (start ⟨true, 3⟩ nameA) := .nil

variable (hd : o.disable = false) (hv : pre.endsWithVersion = false)
include hd hv

/-- **C108 (order)** The lines are some about Nacks and timeouts, then at most one about Data, then at most one about a version. The
lines about Nacks and timeouts are those that occurred, in order; the one about Data has the name of the packet that came. -/
theorem C108_order {es s} (h : (machine o pre).Run es s) :
    ∃ a b, s.lines = a ++ b ∧
      a = es.filterMap (fun | .nack r => some (.nack r) | .timeout => some .timeout | _ => none) ∧
      ((b = [] ∧ ∀ m, Ev.data m ∉ es) ∨
        ∃ m, Ev.data m ∈ es ∧ (b = [.data m.name] ∨ ∃ t, b = [.data m.name, .discovered t])) := by
  obtain ⟨f, j⟩ := run_j hd hv h
  have plain : ∀ es : List Ev, (∀ m, Ev.data m ∉ es) →
      es.flatMap evLines = es.filterMap (fun | .nack r => some (.nack r) | .timeout => some .timeout | _ => none) := by
    intro es
    induction es with
    | nil => intro _; rfl
    | cons e es ih =>
      intro hn
      have ih := ih fun m hm => hn m (List.mem_cons_of_mem _ hm)
      cases e with
      | data m => exact absurd (List.mem_cons_self ..) (hn m)
      | nack r => simp [evLines, ih]
      | timeout => simp [evLines, ih]
      | timer => simp [evLines, ih]
  cases h with
  | nil => exact ⟨[], [], by rw [j.lin]; rfl, rfl, .inl ⟨rfl, fun m hm => by cases hm⟩⟩
  | @snoc es s e h he =>
    have hrun : ∀ m, Ev.data m ∉ es := by
      obtain ⟨g, i⟩ := run_j hd hv h
      obtain ⟨⟨g', h3, h4⟩, _⟩ := he
      obtain rfl : g = g' := by simpa using i.fet.symm.trans h3
      refine i.nod ?_
      by_contra hc
      have h5 := i.idle (by simpa using hc)
      have h6 := (i.inv.idle (by simpa using hc)).1
      cases e <;> simp [Ev.toFetch, Fetcher.enabled, h5, h6] at h4
    have hl := j.lin
    cases e with
    | data m =>
      refine ⟨_, (handleData m).2, ?_, rfl, .inr ⟨m, by simp, ?_⟩⟩
      · rw [hl]; simp [plain es hrun, evLines]
      · rcases handleData_cases m with ⟨x, hx, -⟩ | ⟨c, v, hx, -⟩
        · exact .inl (by rw [hx])
        · exact .inr ⟨_, by rw [hx]⟩
    | nack r =>
      have hn : ∀ m, Ev.data m ∉ es ++ [Ev.nack r] := fun m hm => (List.mem_append.mp hm).elim (hrun m) (by simp)
      exact ⟨_, [], by rw [hl, plain _ hn, List.append_nil], rfl, .inl ⟨rfl, hn⟩⟩
    | timeout =>
      have hn : ∀ m, Ev.data m ∉ es ++ [Ev.timeout] := fun m hm => (List.mem_append.mp hm).elim (hrun m) (by simp)
      exact ⟨_, [], by rw [hl, plain _ hn, List.append_nil], rfl, .inl ⟨rfl, hn⟩⟩
    | timer =>
      have hn : ∀ m, Ev.data m ∉ es ++ [Ev.timer] := fun m hm => (List.mem_append.mp hm).elim (hrun m) (by simp)
      exact ⟨_, [], by rw [hl, plain _ hn, List.append_nil], rfl, .inl ⟨rfl, hn⟩⟩

/-- **C108 (the last line)** If a result was reported, the last line is the one that belongs to it: the version for a name, the Data packet
if it was no use, the last Nack or timeout if the fetch was given up. Otherwise there are only lines about Nacks and timeouts. -/
theorem C108_last {es s} (h : (machine o pre).Run es s) :
    (∀ x ∈ s.d.log, x.isReport = true → ∃ a l, s.lines = a ++ [l] ∧ Tells x l) ∧
    ((∀ x ∈ s.d.log, x.isReport = false) → ∀ l ∈ s.lines, l.isSetback = true) := by
  obtain ⟨f, j⟩ := run_j hd hv h
  constructor
  · intro x hx hr
    have hf : f.isRunning = false := by
      by_contra hc
      rw [j.quiet (by simpa using hc) x hx] at hr
      cases hr
    obtain ⟨a, y, b, l, h1, h2, h3⟩ := j.fin hf
    refine ⟨b, l, h2, ?_⟩
    obtain ⟨p, q, hpq⟩ := List.append_of_mem hx
    have hq := ((C24_one_result hd hv (run_d h)).1 p x q hpq hr).1
    subst hq
    have : y = x := by
      have := h1.symm.trans hpq
      exact (List.append_inj' this rfl).2 |> fun e => by simpa using e
    exact this ▸ h3
  · intro hx l hl
    obtain ⟨a, b, h1, h2, h3⟩ := C108_order hd hv h
    have hb : b = [] := by
      rcases h3 with ⟨h3, -⟩ | ⟨m, hm, -⟩
      · exact h3
      · obtain ⟨x, g1, g2⟩ := (C24_result_comes hd hv (run_d h)).2.1 ⟨m, hm⟩
        rw [hx x g1] at g2
        cases g2
    rw [h1, hb, List.append_nil, h2] at hl
    obtain ⟨e, -, he⟩ := List.mem_filterMap.mp hl
    cases e with
    | nack r => cases he; rfl
    | timeout => cases he; rfl
    | _ => cases he

/-- **C108 (the version)** A version is printed if and only if a name was reported, and it is the last component of this name. Read as
`Component::fromUri` reads it, it gives the number of the version; a component of the type for versions is printed as `v=` and
the number. -/
theorem C108_version {es s} (h : (machine o pre).Run es s) (t : Bytes) :
    (Line.discovered t ∈ s.lines ↔ ∃ c v, Obs.success (c ++ [v]) ∈ s.d.log ∧ t = DumpText.compText v) ∧
    (∀ c v, Obs.success (c ++ [v]) ∈ s.d.log → ∃ k, v.toVersion = some k ∧
      (Uri.parseComp (DumpText.compText v)).bind Comp.toVersion = some k ∧
      (v.type = 54 → DumpText.compText v = text "v=" ++ decimal k)) := by
  constructor
  · constructor
    · intro ht
      have hrep : ¬ ∀ x ∈ s.d.log, x.isReport = false := by
        intro hc
        have := (C108_last hd hv h).2 hc _ ht
        cases this
      simp only [not_forall, Bool.not_eq_false] at hrep
      obtain ⟨x, hx, hr⟩ := hrep
      obtain ⟨a, l, h1, h2⟩ := (C108_last hd hv h).1 x hx hr
      have hlt : l = .discovered t := by
        obtain ⟨p, q, g1, g2, g3⟩ := C108_order hd hv h
        have hp : Line.discovered t ∉ p := by
          rw [g2]
          intro hc
          obtain ⟨e, -, he⟩ := List.mem_filterMap.mp hc
          cases e <;> cases he
        rw [g1] at ht
        have hq := (List.mem_append.mp ht).resolve_left hp
        rcases g3 with ⟨rfl, -⟩ | ⟨m, -, rfl | ⟨t', rfl⟩⟩
        · cases hq
        · simp at hq
        · have e1 : t' = t := by simpa [eq_comm] using hq
          have e2 := h1.symm.trans g1
          have e3 : p ++ [Line.data m.name, .discovered t'] = (p ++ [.data m.name]) ++ [.discovered t'] := by simp
          rw [e3] at e2
          have := (List.append_inj' e2 rfl).2
          rw [← e1]
          simpa using this
      subst hlt
      cases x with
      | interest => cases hr
      | success n =>
        obtain ⟨c, v, rfl, h3⟩ := h2
        exact ⟨c, v, hx, by simpa using h3⟩
      | failure r =>
        cases r with
        | invalidMetadata => obtain ⟨n, hn⟩ := h2; cases hn
        | notVersioned => obtain ⟨n, hn⟩ := h2; cases hn
        | timeout m => cases h2
        | nack m =>
          cases m with
          | nack r => cases h2
          | _ => obtain ⟨n, hn⟩ := h2; cases hn
    · rintro ⟨c, v, h1, rfl⟩
      obtain ⟨a, l, h2, c', v', h3, h4⟩ := (C108_last hd hv h).1 _ h1 rfl
      have : v' = v := by
        have := (List.append_inj' h3 rfl).2
        simpa [eq_comm] using this
      rw [h2, h4, this]
      simp
  · intro c v h1
    obtain ⟨c', v', h2, h3⟩ := ((C24_one_result hd hv (run_d h)).2 _ h1).1
    have hvv : v.isVersion = true := by
      have := (List.append_inj' h2 rfl).2
      have : v = v' := by simpa using this
      rw [this]; exact h3
    obtain ⟨k, hk⟩ := Option.isSome_iff_exists.mp hvv
    refine ⟨k, hk, (version_text hvv).trans hk, fun ht => ?_⟩
    obtain ⟨t, b⟩ := v
    dsimp only at ht
    subst ht
    exact typed_text hk

/-- **C108 (the number of Interests)** There is one Interest more than lines about Nacks and timeouts, unless the discovery is waiting after
congestion or gave up: then there are as many. -/
theorem C108_interests {es s} (h : (machine o pre).Run es s) :
    s.d.log.count .interest + (if waiting s.d ∨ gaveUp s.d.log then 1 else 0) = 1 + s.lines.countP Line.isSetback := by
  obtain ⟨f, j⟩ := run_j hd hv h
  have h1 := j.sum
  have h2 : waiting s.d = f.timer.isSome := by simp [waiting, j.fet]
  rw [h2]
  have h3 : ¬ (f.timer.isSome = true ∧ gaveUp s.d.log = true) := by
    rintro ⟨h3, h4⟩
    have hf : f.isRunning = true := by
      by_contra hc
      rw [(j.inv.idle (by simpa using hc)).1] at h3
      cases h3
    rw [gaveUp_quiet (j.quiet hf)] at h4
    cases h4
  by_cases ha : f.timer.isSome = true <;> by_cases hb : gaveUp s.d.log = true <;> simp [ha, hb] at h1 h3 ⊢ <;> omega

/-- **C108 (with ndnputchunks)** If the discovery Interest is answered only by the producer of an object, the version that is printed is
the one that `ndnputchunks -p` printed when it published the object. -/
theorem C108_producer (digest : Data → Bytes) {po : Producer.Opts} {pre0 : Name} {now : Nat} {input : Bytes} (hn : now < 2 ^ 64)
    {es s} (h : (machine o pre).Run es s) (hp : ∀ e ∈ es, FromProducer digest (Producer.construct po pre0 now input) e)
    {t : Bytes} (ht : Line.discovered t ∈ s.lines) {view : Uri.PutView} (hw : view.wantShowVersion = true) :
    Uri.putOut view (Producer.construct po pre0 now input) = some (t ++ [10]) := by
  obtain ⟨c, v, h1, rfl⟩ := (C108_version hd hv h t).1.1 ht
  have h2 := C55_honest_producer_partial digest hn hd hv (run_d h) hp h1
  unfold Uri.putOut
  rw [if_pos hw, ← h2]
  simp

omit hd hv

example := C108_order (o := ⟨false, 3⟩) rfl (by decide) found
example : ∃ a l, (st ⟨false, 0⟩ [.timeout]).lines = a ++ [l] ∧ Tells (.failure (.timeout (.maxTimeoutRetries 0))) l :=
  (C108_last rfl (by decide) lost).1 _ (by decide +kernel) rfl
example : ∃ a l, (st ⟨false, 3⟩ [.data metaBad]).lines = a ++ [l] ∧ Tells (.failure .notVersioned) l :=
  (C108_last rfl (by decide) bad).1 _ (by decide +kernel) rfl
example : Line.discovered (text "v=7") ∈ (st ⟨false, 3⟩ [.nack .congestion, .timer, .timeout, .data meta7]).lines := by decide +kernel
/-- A version after the old convention is printed in hexadecimal. -/
example : DumpText.compText (.fromVersion .marker 7) = text "%FD%07" ∧
    (Uri.parseComp (text "%FD%07")).bind Comp.toVersion = some 7 := by decide +kernel
/-- The packet `meta7` comes from a producer (hypothesis of `C108_producer`). -/
example : FromProducer (fun _ => []) (Producer.construct { maxSegmentSize := 2 } nameA 7 [1, 2, 3, 4, 5]) (.data meta7) :=
  ⟨makeDiscoveryInterest nameA, 8, 10, nameA ++ [⟨54, [7]⟩], by decide, rfl⟩
example : Uri.putOut { wantShowVersion := true } (Producer.construct { maxSegmentSize := 2 } nameA 7 [1, 2, 3, 4, 5]) =
    some (text "v=7" ++ [10]) := by decide +kernel

end Verif.DiscoverVerbose
