import Verif.Spec.PutVerbose
import Verif.Props.Producer

/-! # Lemmas about the verbose lines of ndnputchunks -/

namespace Verif.PutVerbose

open Producer Wire

/-- A reply that is a packet. -/
def real : Reply → Bool
  | .threw => false
  | .ub => false
  | _ => true

/-- The lines of `processSegmentInterest`. -/
def segLines (i : Interest) : Reply → List Line
  | .data d => [.interest i, .data d]
  | .nack => [.interest i, .unsatisfied]
  | _ => [.interest i]

/-- The lines of `processDiscoveryInterest`. -/
def discLines (i : Interest) : Reply → List Line
  | .nack => [.discovery i, .lacksCanBePrefix]
  | .metadata n f v => [.discovery i, .metadata n f v]
  | _ => [.discovery i]

/-- The effect of a handler. -/
def St.after (s : St) (w : WireInterest) (ls : List Line) (r : Reply) : St :=
  { s with lines := s.lines ++ ls, queue := s.queue ++ (if real r then [(w, r)] else []), failed := s.failed || !real r }

theorem seg_eq (digest : Data → Bytes) (p : Prod) (w : WireInterest) (s : St) :
    s.processSegmentInterest digest p w =
      s.after w (segLines w.i (p.processSegmentInterest digest w.i)) (p.processSegmentInterest digest w.i) := by
  unfold St.processSegmentInterest Prod.processSegmentInterest
  dsimp only
  by_cases h : (decide (w.i.name.length = p.versionedPrefix.length + 1) && w.i.name.getLast?.any Comp.isSegment) = true
  · rw [if_pos h, if_pos h]
    cases hb : w.i.name.getLast?.bind Comp.toSegment with
    | none => simp [St.throw, St.say, St.after, segLines, real]
    | some k =>
      dsimp only
      by_cases hk : k < p.store.length
      · rw [if_pos hk, List.getElem?_eq_getElem hk]
        simp [St.answer, St.put, St.say, St.after, segLines, real]
      · rw [if_neg hk, List.getElem?_eq_none (by omega)]
        simp [St.answer, St.put, St.say, St.after, segLines, real]
  · rw [if_neg h, if_neg h]
    cases p.store with
    | nil => simp [St.throw, St.say, St.after, segLines, real]
    | cons d l =>
      dsimp only
      split <;> simp [St.answer, St.put, St.say, St.after, segLines, real]

theorem disc_eq (p : Prod) (now : Nat) (w : WireInterest) (s : St) :
    s.processDiscoveryInterest p now w =
      s.after w (discLines w.i (p.processDiscoveryInterest now w.i)) (p.processDiscoveryInterest now w.i) := by
  unfold St.processDiscoveryInterest Prod.processDiscoveryInterest
  dsimp only
  split
  · simp [St.put, St.say, St.after, discLines, real]
  · cases metadataName p.opts.conv now w.i.name with
    | none => simp [St.throw, St.say, St.after, discLines, real]
    | some n => simp [St.put, St.say, St.after, discLines, real]

/-- The lines for an Interest to which `r` is the reply. -/
def blockOf (p : Prod) (i : Interest) (r : Reply) : List Line :=
  if (makeDiscoveryInterest p.pre).name.isPrefixOf i.name then discLines i r else segLines i r

variable {digest : Data → Bytes} {sign : Data → Sig} {o : Opts} {pre : Name} {now : Nat} {input : Bytes}

theorem onInterest_concerns (hn : now < 2 ^ 64) {w : WireInterest} {now' : Nat} {s : St} (hs : s.failed = false)
    (hc : Concerns (construct o pre now input) w.i) :
    ∃ r, (construct o pre now input).onInterest digest now' w.i = [r] ∧
      s.onInterest digest (construct o pre now input) now' w = s.after w (blockOf (construct o pre now input) w.i r) r := by
  obtain ⟨v, h1, h2⟩ := construct_vp (o := o) (pre := pre) (input := input) hn
  have hdisc : (makeDiscoveryInterest (construct o pre now input).pre).name = (construct o pre now input).pre ++ [metadataComp] := rfl
  rcases hc with h | h | h
  · refine ⟨_, onInterest_versioned hn h, ?_⟩
    generalize construct o pre now input = p at *
    have h3 : w.i.name ≠ p.pre := by intro h3; rw [h1, h3] at h; exact not_prefix_self h
    have h4 : Name.isPrefixOf (makeDiscoveryInterest p.pre).name w.i.name = false := by
      rw [Bool.eq_false_iff, ne_eq, isPrefixOf_iff, hdisc]
      intro h4
      rw [h1] at h
      have := prefix_unique h h4
      subst this
      rw [metadataComp_not_version] at h2
      cases h2
    unfold St.onInterest blockOf
    dsimp only
    rw [isPrefixOf_iff.mpr h, h4, hs, decide_eq_false h3]
    simp [seg_eq]
  · refine ⟨_, onInterest_exact hn h, ?_⟩
    generalize construct o pre now input = p at *
    have h3 : Name.isPrefixOf p.versionedPrefix w.i.name = false := by
      rw [Bool.eq_false_iff, ne_eq, isPrefixOf_iff, h, h1]; exact not_prefix_self
    have h4 : Name.isPrefixOf (makeDiscoveryInterest p.pre).name w.i.name = false := by
      rw [Bool.eq_false_iff, ne_eq, isPrefixOf_iff, h, hdisc]; exact not_prefix_self
    unfold St.onInterest blockOf
    dsimp only
    rw [h3, h4, hs, decide_eq_true h]
    simp [seg_eq, hs]
  · refine ⟨_, onInterest_discovery hn h, ?_⟩
    generalize construct o pre now input = p at *
    have h3 : Name.isPrefixOf p.versionedPrefix w.i.name = false := by
      rw [Bool.eq_false_iff, ne_eq, isPrefixOf_iff, h1]
      intro h4
      have := prefix_unique h h4
      subst this
      rw [metadataComp_not_version] at h2
      cases h2
    have h4 : w.i.name ≠ p.pre := by intro h4; rw [h4] at h; exact not_prefix_self h
    unfold St.onInterest blockOf
    dsimp only
    rw [h3, hdisc, isPrefixOf_iff.mpr h, hs, decide_eq_false h4]
    simp [disc_eq, hs]

theorem onInterest_none {p : Prod} {w : WireInterest} {now' : Nat} {s : St} (hc : ¬ Concerns p w.i) :
    s.onInterest digest p now' w = s := by
  unfold Concerns at hc
  simp only [not_or] at hc
  have h1 : Name.isPrefixOf p.versionedPrefix w.i.name = false := by
    rw [Bool.eq_false_iff, ne_eq, isPrefixOf_iff]; exact hc.1
  have h2 : Name.isPrefixOf (makeDiscoveryInterest p.pre).name w.i.name = false := by
    rw [Bool.eq_false_iff, ne_eq, isPrefixOf_iff]; exact hc.2.2
  unfold St.onInterest
  dsimp only
  rw [h1, h2, decide_eq_false hc.2.1]
  simp

theorem blockOf_disc {p : Prod} {i : Interest} {r : Reply} (h : p.pre ++ [metadataComp] <+: i.name) : blockOf p i r = discLines i r := by
  exact if_pos (isPrefixOf_iff.mpr h)

theorem blockOf_seg (hn : now < 2 ^ 64) {i : Interest} {r : Reply}
    (h : i.name = (construct o pre now input).pre ∨ (construct o pre now input).versionedPrefix <+: i.name) :
    blockOf (construct o pre now input) i r = segLines i r := by
  obtain ⟨v, h1, h2⟩ := construct_vp (o := o) (pre := pre) (input := input) hn
  unfold blockOf
  rw [if_neg]
  rw [isPrefixOf_iff]
  intro h3
  rcases h with h | h
  · rw [h] at h3; exact not_prefix_self h3
  · rw [h1] at h
    have := prefix_unique h h3
    subst this
    rw [metadataComp_not_version] at h2
    cases h2

/-- The lines and the reply for an Interest. -/
theorem told (hn : now < 2 ^ 64) {now' : Nat} (hn' : now' < 2 ^ 64) {i : Interest} {b : List Line}
    (h0 : ¬ Concerns (construct o pre now input) i → b = [])
    (hb : ∀ r, (construct o pre now input).onInterest digest now' i = [r] → b = blockOf (construct o pre now input) i r) :
    Told digest (construct o pre now input) i b where
  other := h0
  segment := by
    intro c k hc hk
    have hp : (construct o pre now input).versionedPrefix <+: i.name := by rw [hc]; exact List.prefix_append _ _
    obtain ⟨g1, g2⟩ := C26_segment_reply digest hn (now' := now') hc hk
    refine ⟨fun d hd => ?_, fun hl => ?_⟩
    · rw [hb _ (g1 d hd), blockOf_seg hn (.inr hp)]; rfl
    · rw [hb _ (g2 hl), blockOf_seg hn (.inr hp)]; rfl
  first := by
    intro d hd hi
    obtain ⟨g1, g2⟩ := C26_unspecified_reply digest hn (now' := now') hd hi
    refine ⟨fun hd => ?_, fun hl => ?_⟩
    · rw [hb _ (g1 hd), blockOf_seg hn (hi.imp id And.left)]; rfl
    · rw [hb _ (g2 hl), blockOf_seg hn (hi.imp id And.left)]; rfl
  nack := by
    intro hi hc
    rw [hb _ ((C26_discovery_reply digest hn hn' hi).1 hc), blockOf_disc hi]; rfl
  metadata := by
    intro hi hc hv
    obtain ⟨n, g1, g2, g3⟩ := (C26_discovery_reply digest hn hn' hi).2 hc hv
    refine ⟨n, ?_, g2, g3⟩
    rw [hb _ g1, blockOf_disc hi]; rfl
  invalid := by
    intro hi hc h1 h2
    rw [hb _ (C26_discovery_throws digest hn hi hc h1 h2).1, blockOf_disc hi]; rfl

theorem arrived_append (a b : List Ev) : arrived (a ++ b) = arrived a ++ arrived b := by
  induction a with
  | nil => rfl
  | cons e a ih => cases e <;> simp [arrived, ih]

/-- What a step does: lines of one Interest, or a packet that is sent, or an exception. -/
theorem step_interest (hn : now < 2 ^ 64) {w : WireInterest} {now' : Nat} (hn' : now' < 2 ^ 64) {s : St} (hs : s.failed = false) :
    ∃ b q, Told digest (construct o pre now input) w.i b ∧ (s.onInterest digest (construct o pre now input) now' w).lines = s.lines ++ b ∧
      (s.onInterest digest (construct o pre now input) now' w).queue = s.queue ++ q ∧ b.filterMap Line.says = q.map (·.2) ∧
      (∀ x ∈ q, x.1 = w) ∧
      (s.onInterest digest (construct o pre now input) now' w).sent = s.sent := by
  by_cases hc : Concerns (construct o pre now input) w.i
  · obtain ⟨r, h1, h2⟩ := onInterest_concerns (digest := digest) (now' := now') hn hs hc
    refine ⟨blockOf (construct o pre now input) w.i r, if real r then [(w, r)] else [], told hn hn' (absurd hc) ?_, ?_, ?_, ?_, ?_, ?_⟩
    · intro r' hr'
      rw [h1] at hr'
      cases hr'
      rfl
    · rw [h2]; rfl
    · rw [h2]; rfl
    · unfold blockOf
      have hseg : ∀ r, r ∈ (construct o pre now input).onInterest digest now' w.i →
          Name.isPrefixOf (makeDiscoveryInterest (construct o pre now input).pre).name w.i.name = false → ∀ n f v, r ≠ .metadata n f v := by
        intro r hr hd n f v he
        subst he
        unfold Prod.onInterest at hr
        rw [hd] at hr
        have hno : ∀ p : Prod, p.processSegmentInterest digest w.i ≠ .metadata n f v := by
          intro p
          unfold Prod.processSegmentInterest
          dsimp only
          split <;> split <;> try (intro h; cases h)
          · split <;> (intro h; cases h)
          · split <;> (intro h; cases h)
        split at hr <;> split at hr <;> simp at hr <;> exact hno _ hr.symm
      have hdisc : ∀ r, r ∈ (construct o pre now input).onInterest digest now' w.i →
          Name.isPrefixOf (makeDiscoveryInterest (construct o pre now input).pre).name w.i.name = true → ∀ d, r ≠ .data d := by
        intro r hr hd d he
        subst he
        rw [onInterest_discovery hn (isPrefixOf_iff.mp hd)] at hr
        simp only [List.mem_singleton] at hr
        unfold Prod.processDiscoveryInterest at hr
        split at hr
        · cases hr
        · split at hr <;> cases hr
      split
      · rename_i hp
        have := hdisc r (by rw [h1]; simp) hp
        cases r <;> first | exact absurd rfl (this _) | rfl
      · rename_i hp
        have := hseg r (by rw [h1]; simp) (by simpa using hp)
        cases r <;> first | exact absurd rfl (this _ _ _) | rfl
    · intro x hx
      split at hx
      · simp at hx; rw [hx]
      · cases hx
    · rw [h2]; rfl
  · refine ⟨[], [], told (now' := now') hn hn' (fun _ => rfl) ?_, ?_, ?_, rfl, (by simp), ?_⟩
    · intro r hr
      rw [Producer.onInterest_other hc] at hr
      cases hr
    all_goals rw [onInterest_none hc]
    all_goals simp

/-- Why a handler ends with an exception. -/
theorem step_failed (hm : 0 < o.maxSegmentSize) (hn : now < 2 ^ 64) {w : WireInterest} {now' : Nat} (hn' : now' < 2 ^ 64) {s : St} (hs : s.failed = false)
    (hf : (s.onInterest digest (construct o pre now input) now' w).failed = true) :
    (construct o pre now input).pre ++ [metadataComp] <+: w.i.name ∧ w.i.canBePrefix = true ∧
      w.i.name.getLast? ≠ some metadataComp ∧ isValidMetadataName w.i.name = false := by
  by_cases hc : Concerns (construct o pre now input) w.i
  · obtain ⟨r, h1, h2⟩ := onInterest_concerns (digest := digest) (now' := now') hn hs hc
    by_contra hcon
    obtain ⟨r', h3, h4, h5⟩ := (C26_one_reply_partial digest (pre := pre) (input := input) hm hn hn' w.i).2 hc (by
      intro ha hb
      by_contra hx
      rw [not_or, Bool.not_eq_true] at hx
      exact hcon ⟨ha, hb, hx.1, hx.2⟩)
    rw [h1] at h3
    cases h3
    rw [h2] at hf
    unfold St.after at hf
    dsimp only at hf
    rw [hs] at hf
    cases r <;> simp [real] at hf h4 h5
  · rw [onInterest_none hc, hs] at hf
    cases hf

theorem flush_ok {s : St} {w : WireInterest} {r : Reply} {q : List (WireInterest × Reply)} (hq : s.queue = (w, r) :: q)
    {b : Bytes} (hb : encodeReply sign w r = some b) (hl : b.length ≤ maxPacket) :
    s.flush sign = { s with queue := q, sent := s.sent ++ [r] } := by
  unfold St.flush
  rw [hq]
  dsimp only
  rw [hb]
  dsimp only
  rw [if_pos hl]

theorem flush_long {s : St} {w : WireInterest} {r : Reply} {q : List (WireInterest × Reply)} (hq : s.queue = (w, r) :: q)
    {b : Bytes} (hb : encodeReply sign w r = some b) (hl : maxPacket < b.length) : s.flush sign = s.throw := by
  unfold St.flush
  rw [hq]
  dsimp only
  rw [hb]
  dsimp only
  rw [if_neg (Nat.not_le.mpr hl)]

theorem flush_cases (s : St) : s.flush sign = s ∨ s.flush sign = s.throw ∨
    ∃ w r q, s.queue = (w, r) :: q ∧ s.flush sign = { s with queue := q, sent := s.sent ++ [r] } := by
  unfold St.flush
  split
  · exact .inl rfl
  · rename_i w r q hq
    split
    · exact .inr (.inl rfl)
    · split
      · exact .inr (.inr ⟨w, r, q, hq, rfl⟩)
      · exact .inr (.inl rfl)

end Verif.PutVerbose
