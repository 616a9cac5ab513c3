import Verif.Proofs.PutVerbose
import Verif.Props.Wire

/-! # C106: what ndnputchunks prints with `--verbose` -/

namespace Verif.PutVerbose

open Producer Wire

variable {digest : Data → Bytes} {sign : Data → Sig} {o : Opts} {pre : Name} {now : Nat} {input : Bytes}

/-- **C106 (lines)** Whatever arrives and whenever packets are sent: the lines are, one group for each Interest in the order in
which they arrived, the ones that are right for the Interest. -/
theorem C106_lines (hn : now < 2 ^ 64) {es s} (h : (machine digest sign (construct o pre now input)).Run es s) :
    ∃ bs, List.Forall₂ (fun (w : WireInterest) b => Told digest (construct o pre now input) w.i b) (arrived es) bs ∧
      s.lines = bs.flatten := by
  induction h with
  | nil => exact ⟨[], .nil, rfl⟩
  | @snoc es s e h he ih =>
    obtain ⟨bs, h1, h2⟩ := ih
    cases e with
    | interest w now' =>
      obtain ⟨b, q, ht, hl, -⟩ := step_interest (digest := digest) (o := o) (pre := pre) (input := input) (w := w) hn he.2.2 he.1
      refine ⟨bs ++ [b], ?_, ?_⟩
      · rw [arrived_append]
        exact List.rel_append h1 (.cons ht .nil)
      · show (s.onInterest _ _ _ _).lines = _
        rw [hl, h2]; simp
    | flush =>
      refine ⟨bs, by rw [arrived_append]; simpa [arrived] using h1, ?_⟩
      rw [← h2]
      show (s.flush sign).lines = s.lines
      rcases flush_cases (sign := sign) s with h | h | ⟨w, r, q, -, h⟩ <;> rw [h]; rfl

theorem about_of_told (hm : 0 < o.maxSegmentSize) {i : Interest} {b : List Line}
    (h : Told digest (construct o pre now input) i b) (hc : Concerns (construct o pre now input) i) :
    b.filterMap Line.about = [i] := by
  by_cases hd : (construct o pre now input).pre ++ [metadataComp] <+: i.name
  · cases hb : i.canBePrefix with
    | false => rw [h.nack hd hb]; rfl
    | true =>
      by_cases hv : i.name.getLast? = some metadataComp ∨ isValidMetadataName i.name = true
      · obtain ⟨n, hn, -⟩ := h.metadata hd hb hv
        rw [hn]; rfl
      · rw [not_or, Bool.not_eq_true] at hv
        rw [h.invalid hd hb hv.1 hv.2]; rfl
  · obtain ⟨d0, hd0⟩ : ∃ d, (construct o pre now input).store[0]? = some d := by
      cases hx : (construct o pre now input).store with
      | nil => exact absurd hx (store_ne_nil hm)
      | cons x xs => exact ⟨x, rfl⟩
    by_cases hs : ∃ c k, AsksSegment (construct o pre now input) i c ∧ c.toSegment = some k
    · obtain ⟨c, k, h1, h2⟩ := hs
      obtain ⟨g1, g2⟩ := h.segment c k h1 h2
      cases hg : (construct o pre now input).store[k]? with
      | some d => rw [g1 d hg]; rfl
      | none => rw [g2 (List.getElem?_eq_none_iff.mp hg)]; rfl
    · have hx : i.name = (construct o pre now input).pre ∨ ((construct o pre now input).versionedPrefix <+: i.name ∧
          ∀ c, AsksSegment (construct o pre now input) i c → c.isSegment = false) := by
        rcases hc with hc | hc | hc
        · refine .inr ⟨hc, fun c h1 => ?_⟩
          cases hx : c.toSegment with
          | none => simp [Comp.isSegment, hx]
          | some k => exact absurd ⟨c, k, h1, hx⟩ hs
        · exact .inl hc
        · exact absurd hc hd
      obtain ⟨g1, g2⟩ := h.first d0 hd0 hx
      by_cases hsat : Satisfies digest d0 i
      · rw [g1 hsat]; rfl
      · rw [g2 hsat]; rfl

open Classical in
/-- **C106 (Interests)** The Interests that the lines name are those that concern the published object, all of them, in the order in which they
arrived. -/
theorem C106_about (hm : 0 < o.maxSegmentSize) (hn : now < 2 ^ 64) {es s}
    (h : (machine digest sign (construct o pre now input)).Run es s) :
    s.lines.filterMap Line.about = ((arrived es).map (·.i)).filter (fun i => decide (Concerns (construct o pre now input) i)) := by
  obtain ⟨bs, h1, h2⟩ := C106_lines hn h
  rw [h2]
  clear h2 h
  generalize arrived es = ws at *
  induction h1 with
  | nil => rfl
  | @cons w b ws bs ht h1 ih =>
    rw [List.flatten_cons, List.filterMap_append, ih, List.map_cons]
    by_cases hc : Concerns (construct o pre now input) w.i
    · rw [about_of_told hm ht hc, List.filter_cons_of_pos (by simpa using hc)]; rfl
    · rw [ht.other hc, List.filter_cons_of_neg (by simpa using hc)]; rfl

/-- **C106 (packets)** What the lines say is sent is, in this order, what was sent and then what waits to be sent: no packet is sent without its
line, none is said twice, and while nothing waits the lines are right. -/
theorem C106_packets (hn : now < 2 ^ 64) {es s} (h : (machine digest sign (construct o pre now input)).Run es s) :
    s.lines.filterMap Line.says = s.sent ++ s.queue.map (·.2) := by
  induction h with
  | nil => rfl
  | @snoc es s e h he ih =>
    cases e with
    | interest w now' =>
      obtain ⟨b, q, -, hl, hq, hb, -, hsent⟩ :=
        step_interest (digest := digest) (o := o) (pre := pre) (input := input) (w := w) hn he.2.2 he.1
      show (s.onInterest _ _ _ _).lines.filterMap _ = (s.onInterest _ _ _ _).sent ++ (s.onInterest _ _ _ _).queue.map _
      rw [hl, hq, hsent, List.filterMap_append, ih, hb, List.map_append, List.append_assoc]
    | flush =>
      show (s.flush sign).lines.filterMap _ = (s.flush sign).sent ++ (s.flush sign).queue.map _
      rcases flush_cases (sign := sign) s with h | h | ⟨w, r, q, hq, h⟩ <;> rw [h]
      · exact ih
      · exact ih
      · rw [ih, hq]; simp

/-- **C106 (exit)** If the program ends by an exception, the lines tell why. Either the last line names an Interest for version discovery, with
nothing about an answer, and the name of that Interest does not make a metadata packet; or a packet that the lines name, the first one
that was not sent, is longer than a packet may be. -/
theorem C106_exit (hm : 0 < o.maxSegmentSize) (hn : now < 2 ^ 64) {es s}
    (h : (machine digest sign (construct o pre now input)).Run es s) (hf : s.failed = true) :
    (∃ i, s.lines.getLast? = some (.discovery i) ∧ (construct o pre now input).pre ++ [metadataComp] <+: i.name ∧ i.canBePrefix = true ∧
      i.name.getLast? ≠ some metadataComp ∧ isValidMetadataName i.name = false) ∨
    (∃ w r rest, w ∈ arrived es ∧ s.lines.filterMap Line.says = s.sent ++ r :: rest ∧
      ∀ b, encodeReply sign w r = some b → maxPacket < b.length) := by
  have key : ∀ {es s}, (machine digest sign (construct o pre now input)).Run es s → ∀ x ∈ s.queue, x.1 ∈ arrived es := by
    intro es s h
    induction h with
    | nil => intro x hx; cases hx
    | @snoc es s e h he ih =>
      cases e with
      | interest w now' =>
        obtain ⟨b, q, -, -, hq, -, hw, -⟩ :=
          step_interest (digest := digest) (o := o) (pre := pre) (input := input) (w := w) hn he.2.2 he.1
        intro x hx
        have hx : x ∈ (s.onInterest digest (construct o pre now input) now' w).queue := hx
        rw [hq, List.mem_append] at hx
        rw [arrived_append, List.mem_append]
        rcases hx with hx | hx
        · exact .inl (ih x hx)
        · exact .inr (by rw [hw x hx]; simp [arrived])
      | flush =>
        intro x hx
        have hx : x ∈ (s.flush sign).queue := hx
        rw [arrived_append, List.mem_append]
        left
        rcases flush_cases (sign := sign) s with h | h | ⟨w, r, q, hq, h⟩ <;> rw [h] at hx
        · exact ih x hx
        · exact ih x hx
        · exact ih x (by rw [hq]; exact List.mem_cons_of_mem _ hx)
  have hp := C106_packets hn h
  have hk := key h
  clear key
  cases h with
  | nil => cases hf
  | @snoc es s e h he =>
    cases e with
    | interest w now' =>
      left
      have hf : (s.onInterest digest (construct o pre now input) now' w).failed = true := hf
      obtain ⟨h1, h2, h3, h4⟩ := step_failed hm hn he.2.2 he.1 hf
      obtain ⟨b, q, ht, hl, -⟩ := step_interest (digest := digest) (o := o) (pre := pre) (input := input) (w := w) hn he.2.2 he.1
      refine ⟨w.i, ?_, h1, h2, h3, h4⟩
      show (s.onInterest digest (construct o pre now input) now' w).lines.getLast? = _
      rw [hl, ht.invalid h1 h2 h3 h4]
      simp
    | flush =>
      right
      have hs : s.failed = false := he.1
      have hf : (s.flush sign).failed = true := hf
      have hp : (s.flush sign).lines.filterMap Line.says = (s.flush sign).sent ++ (s.flush sign).queue.map (·.2) := hp
      have hk : ∀ x ∈ (s.flush sign).queue, x.1 ∈ arrived (es ++ [.flush]) := hk
      show ∃ w r rest, w ∈ _ ∧ (s.flush sign).lines.filterMap Line.says = (s.flush sign).sent ++ r :: rest ∧ _
      cases hq : s.queue with
      | nil => exact absurd hq he.2
      | cons x q =>
        obtain ⟨w, r⟩ := x
        have hbig : ∀ b, encodeReply sign w r = some b → maxPacket < b.length := by
          intro b hb
          by_contra hle
          rw [flush_ok hq hb (Nat.not_lt.mp hle)] at hf
          rw [hs] at hf
          cases hf
        have hthrow : s.flush sign = s.throw := by
          rcases flush_cases (sign := sign) s with h | h | ⟨w', r', q', hq', h⟩
          · rw [h, hs] at hf; cases hf
          · exact h
          · rw [h] at hf
            dsimp only at hf
            rw [hs] at hf; cases hf
        rw [hthrow] at hp hk ⊢
        refine ⟨w, r, q.map (·.2), hk (w, r) (by show _ ∈ s.queue; rw [hq]; simp), ?_, hbig⟩
        rw [hp]
        show s.sent ++ s.queue.map _ = s.sent ++ _
        rw [hq]; rfl

/-- **C106 (refuted)** With every option and input and a name of reasonable length: it is not so that what the lines say was sent. An Interest of
an allowed size whose Nack is too long makes the program print that it sends a Nack, and then it ends without sending it. -/
theorem C106_refuted (hn : now < 2 ^ 64) (hm : 0 < o.maxSegmentSize)
    (hp : (encodeComps (construct o pre now input).versionedPrefix).length ≤ 8500) :
    ¬ Truthful digest sign (construct o pre now input) := by
  intro ht
  obtain ⟨w, -, h2, hpre, hreply, hnack⟩ := large_nack (digest := digest) (pre := pre) (input := input) hn hm hp 1 2 3 4 0
  obtain ⟨r, h3, h4⟩ := onInterest_concerns (digest := digest) (now' := 0) (s := {}) hn rfl (.inl hpre)
  rw [hreply] at h3
  cases h3
  rw [blockOf_seg hn (.inr hpre)] at h4
  have run1 : (machine digest sign (construct o pre now input)).Run ([] ++ [.interest w 0])
      (St.onInterest digest (construct o pre now input) 0 w {}) := .snoc _ .nil ⟨rfl, h2, by norm_num⟩
  rw [h4] at run1
  have run2 := Machine.Run.snoc Ev.flush run1 ⟨rfl, by simp [St.after, real]⟩
  have hstep : (machine digest sign (construct o pre now input)).step (St.after {} w (segLines w.i .nack) .nack) .flush =
      (St.after {} w (segLines w.i .nack) .nack).throw := by
    have hq : (St.after {} w (segLines w.i .nack) .nack).queue = [(w, .nack)] := by simp only [St.after, real, if_true, List.nil_append]
    have hb : encodeReply sign w .nack = some (encodeNack w) := by simp only [encodeReply]
    have hfl := flush_long hq hb hnack
    generalize St.after {} w (segLines w.i .nack) .nack = t at hfl
    exact hfl
  rw [hstep] at run2
  have := ht _ _ run2 rfl
  simp [St.throw, St.after, segLines, Line.says] at this

/-- **C106 (what does hold)** The signature has at most `sigSize` bytes, and together with the versioned name and the segment size it leaves 100
bytes of a packet; the Interests leave room for the header of a Nack and, if they are for version discovery, have a name as consumers use it.
Then the program does not end by itself, and whatever happened, what waits can be sent: then what the lines say is what was sent. Missing
from the claim: larger Interests, and other names for version discovery. -/
theorem C106_partial (hn : now < 2 ^ 64) (hm : 0 < o.maxSegmentSize) {sigSize : Nat}
    (hg : ∀ d, (sign d).info.length + (sign d).value.length ≤ sigSize)
    (hsz : (encodeName (construct o pre now input).versionedPrefix).length + o.maxSegmentSize + sigSize + 100 ≤ maxPacket) {es s}
    (h : (machine digest sign (construct o pre now input)).Run es s)
    (hw : ∀ w ∈ arrived es, Moderate (construct o pre now input) sigSize w) :
    s.failed = false ∧ ∃ n s', (machine digest sign (construct o pre now input)).Run (es ++ List.replicate n .flush) s' ∧
      s'.lines = s.lines ∧ s'.sent = s.lines.filterMap Line.says := by
  have key : ∀ {es s}, (machine digest sign (construct o pre now input)).Run es s →
      (∀ w ∈ arrived es, Moderate (construct o pre now input) sigSize w) →
      s.failed = false ∧ ∀ x ∈ s.queue, ∃ b, encodeReply sign x.1 x.2 = some b ∧ b.length ≤ maxPacket := by
    intro es s h
    induction h with
    | nil => exact fun _ => ⟨rfl, fun x hx => by cases hx⟩
    | @snoc es s e h he ih =>
      intro hw
      obtain ⟨h1, h2⟩ := ih (fun w hx => hw w (by rw [arrived_append]; exact List.mem_append_left _ hx))
      cases e with
      | interest w now' =>
        have hmod := hw w (by rw [arrived_append]; simp [arrived])
        show (s.onInterest digest (construct o pre now input) now' w).failed = false ∧
          ∀ x ∈ (s.onInterest digest (construct o pre now input) now' w).queue, _
        by_cases hc : Concerns (construct o pre now input) w.i
        · obtain ⟨r, h3, h4⟩ := onInterest_concerns (digest := digest) (now' := now') hn h1 hc
          obtain ⟨r', h5, h6, h7⟩ := (C26_one_reply_partial digest (pre := pre) (input := input) hm hn he.2.2 w.i).2 hc
            (fun hd _ => (hmod.discovery hd).1)
          rw [h3] at h5
          cases h5
          have hreal : real r = true := by
            cases r <;> first | exact absurd rfl h6 | exact absurd rfl h7 | rfl
          rw [h4]
          refine ⟨by simp [St.after, h1, hreal], ?_⟩
          intro x hx
          simp only [St.after, hreal, if_true, List.mem_append, List.mem_singleton] at hx
          rcases hx with hx | hx
          · exact h2 x hx
          · subst hx
            exact reply_fits_put hn hm hg hsz hmod (now' := now') (r := r) (by rw [h3]; simp) h6 h7
        · rw [onInterest_none hc]
          exact ⟨h1, h2⟩
      | flush =>
        show (s.flush sign).failed = false ∧ ∀ x ∈ (s.flush sign).queue, _
        cases hq : s.queue with
        | nil => exact absurd hq he.2
        | cons x q =>
          obtain ⟨b, hb, hl⟩ := h2 x (by rw [hq]; simp)
          rw [flush_ok (w := x.1) (r := x.2) hq hb hl]
          exact ⟨h1, fun y hy => h2 y (by rw [hq]; exact List.mem_cons_of_mem _ hy)⟩
  refine ⟨(key h hw).1, ?_⟩
  generalize hk : s.queue.length = k
  induction k generalizing es s with
  | zero =>
    refine ⟨0, s, by simpa using h, rfl, ?_⟩
    rw [C106_packets hn h, List.length_eq_zero_iff.mp hk]; simp
  | succ k ih =>
    obtain ⟨h1, h2⟩ := key h hw
    cases hq : s.queue with
    | nil => rw [hq] at hk; cases hk
    | cons x q =>
      obtain ⟨b, hb, hl⟩ := h2 x (by rw [hq]; simp)
      have hstep : (machine digest sign (construct o pre now input)).step s .flush = { s with queue := q, sent := s.sent ++ [x.2] } :=
        flush_ok (w := x.1) (r := x.2) hq hb hl
      have run := Machine.Run.snoc Ev.flush h ⟨h1, by rw [hq]; simp⟩
      rw [hstep] at run
      obtain ⟨n, s', g1, g2, g3⟩ := ih run (by rw [arrived_append]; simpa [arrived] using hw) (by
        rw [hq, List.length_cons] at hk; dsimp only; omega)
      refine ⟨n + 1, s', ?_, g2, g3⟩
      rw [List.replicate_succ]
      simpa using g1

private def exSign (_ : Data) : Sig := ⟨[27, 1, 0], List.replicate 32 0⟩
private def exProd : Prod := construct { maxSegmentSize := 2 } [⟨8, [65]⟩] 7 [1, 2, 3]
private def exW (i : Interest) : WireInterest := ⟨i, nonceElement 1 2 3 4⟩
private def exDiscovery : Interest := makeDiscoveryInterest [⟨8, [65]⟩]
private def exSeg (k : UInt8) : Interest := ⟨[⟨8, [65]⟩, ⟨54, [7]⟩, ⟨50, [k]⟩], false, false⟩
private def exOdd : Interest := ⟨[⟨8, [65]⟩, metadataComp, ⟨8, [88]⟩], true, true⟩
private abbrev exM := machine (fun _ => []) exSign exProd

private def exEvents : List Ev := [.interest (exW exDiscovery) 8, .interest (exW (exSeg 1)) 9, .flush, .interest (exW (exSeg 5)) 9,
  .interest (exW ⟨[⟨8, [66]⟩], false, false⟩) 9, .flush]

private theorem exEvents_ok : (exM.exec exM.init exEvents).isSome = true := by decide +kernel
private theorem exExit_ok : (exM.exec exM.init (exEvents ++ [.interest (exW exOdd) 10])).isSome = true := by decide +kernel

/-- Beside `C106_lines`, `C106_about`, `C106_packets` and `C106_partial`: Interests for version discovery, for segment 1, for segment 5, which does
not exist, and for another name; one packet waits. -/
example : ∃ s, exM.Run exEvents s ∧
    s.lines = [.discovery exDiscovery, .metadata [⟨8, [65]⟩, metadataComp, ⟨54, [8]⟩, ⟨50, [0]⟩] 10 [⟨8, [65]⟩, ⟨54, [7]⟩],
      .interest (exSeg 1), .data ⟨(exSeg 1).name, [3], some ⟨50, [1]⟩, 10000, true⟩, .interest (exSeg 5), .unsatisfied] ∧
    s.sent = [.metadata [⟨8, [65]⟩, metadataComp, ⟨54, [8]⟩, ⟨50, [0]⟩] 10 [⟨8, [65]⟩, ⟨54, [7]⟩],
      .data ⟨(exSeg 1).name, [3], some ⟨50, [1]⟩, 10000, true⟩] ∧ s.queue = [(exW (exSeg 5), .nack)] ∧
    (encodeName exProd.versionedPrefix).length + 2 + 35 + 100 ≤ maxPacket ∧
    Moderate exProd 35 (exW exDiscovery) ∧ Moderate exProd 35 (exW (exSeg 1)) :=
  ⟨_, Machine.exec_run (M := exM) (s := (exM.exec exM.init exEvents).get exEvents_ok) (Option.some_get _).symm,
    by decide +kernel, by decide +kernel, by decide +kernel, by decide +kernel,
    ⟨by decide +kernel, fun _ => ⟨by decide +kernel, by decide +kernel⟩⟩, ⟨by decide +kernel, fun h => absurd h (by decide +kernel)⟩⟩

/-- Beside `C106_exit`: then an Interest for version discovery with another name arrives. The Nack that the lines mentioned is not sent. -/
example : ∃ s, exM.Run (exEvents ++ [.interest (exW exOdd) 10]) s ∧ s.failed = true ∧ s.lines.getLast? = some (.discovery exOdd) ∧
    s.lines.filterMap Line.says = s.sent ++ [.nack] :=
  ⟨_, Machine.exec_run (M := exM) (s := (exM.exec exM.init (exEvents ++ [.interest (exW exOdd) 10])).get exExit_ok)
    (Option.some_get _).symm, by decide +kernel, by decide +kernel, by decide +kernel⟩

/-- Beside `C106_refuted`: its hypotheses hold. -/
example : ¬ Truthful (fun _ => []) exSign exProd := C106_refuted (by decide) (by decide) (by decide +kernel)

end Verif.PutVerbose
