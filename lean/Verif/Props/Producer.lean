import Verif.Proofs.Producer

/-! # C25 - C28: name components, segmentation and the producer -/

namespace Verif.Producer

/-- **C28** A number written as a segment or version component is read back as that number, whichever
naming convention was used; a segment component is not taken for a version component or vice versa. -/
theorem C28_component_roundtrip (conv : Convention) {n : Nat} (h : n < 2 ^ 64) :
    (Comp.fromSegment conv n).toSegment = some n ∧ (Comp.fromVersion conv n).toVersion = some n ∧
    (Comp.fromSegment conv n).isVersion = false ∧ (Comp.fromVersion conv n).isSegment = false := by
  refine ⟨toSegment_fromSegment h, toVersion_fromVersion h, ?_, ?_⟩
  · rw [Comp.isVersion, toVersion_fromSegment]; rfl
  · rw [Comp.isSegment, toSegment_fromVersion]; rfl

/-- **C28 (different numbers, different names)** Names with different segment (or version) numbers
differ, also when they are built in different naming conventions. -/
theorem C28_names_differ {c c' : Convention} {vp : Name} {n m : Nat} (hn : n < 2 ^ 64) (hm : m < 2 ^ 64) :
    (vp ++ [Comp.fromSegment c n] = vp ++ [Comp.fromSegment c' m] → n = m ∧ c = c') ∧
    (vp ++ [Comp.fromVersion c n] = vp ++ [Comp.fromVersion c' m] → n = m ∧ c = c') := by
  refine ⟨fun h => fromSegment_inj hn hm ?_, fun h => fromVersion_inj hn hm ?_⟩ <;> simpa using h

example : (Comp.fromSegment .typed 65536) = ⟨50, [0, 1, 0, 0]⟩ ∧
    (Comp.fromSegment .marker 255) = ⟨8, [0, 255]⟩ ∧ (Comp.fromVersion .marker 256) = ⟨8, [0xFD, 1, 0]⟩ := by
  decide

/-- **C25** Segmentation is lossless: the contents of the stored packets, one after the other, are the
input; their number is `max 1 ⌈length / size⌉`; all but the last have exactly the maximum size and
none is longer; each is named by the versioned name and its number, and announces the number of the
last one. -/
theorem C25_segmentation (o : Opts) (pre : Name) (now : Nat) (input : Bytes)
    (hm : 0 < o.maxSegmentSize) (hi : input.length < 2 ^ 64) :
    let p := construct o pre now input
    (p.store.map (·.content)).flatten = input ∧
    p.store.length = max 1 ((input.length + o.maxSegmentSize - 1) / o.maxSegmentSize) ∧
    ∀ (k : Nat) d, p.store[k]? = some d →
      d.content.length ≤ o.maxSegmentSize ∧
      (k + 1 < p.store.length → d.content.length = o.maxSegmentSize) ∧
      d.name = p.versionedPrefix ++ [.fromSegment o.conv k] ∧
      d.final.bind Comp.toSegment = some (p.store.length - 1) ∧
      d.freshness = o.freshness := by
  intro p
  have hlen : p.store.length = (split o.maxSegmentSize input).length := store_length o pre now input
  have hmap : p.store.map (·.content) = split o.maxSegmentSize input := by
    apply List.ext_getElem?
    intro k
    rw [List.getElem?_map]
    cases hk : p.store[k]? with
    | none =>
      have h1 := List.getElem?_eq_none_iff.mp hk
      rw [hlen] at h1
      rw [List.getElem?_eq_none h1]; rfl
    | some d => exact (store_get hk).1.symm
  refine ⟨by rw [hmap]; exact split_flatten hm input, by rw [hlen]; exact split_length hm input, ?_⟩
  intro k d hd
  obtain ⟨h1, h2, h3, h4, _⟩ := store_get hd
  obtain ⟨g1, g2⟩ := split_sizes hm input k _ h1
  refine ⟨g1, fun hk => g2 (by rw [← hlen]; exact hk), h2, ?_, h4⟩
  rw [h3, Option.bind_some]
  apply toSegment_fromSegment
  change p.store.length - 1 < 2 ^ 64
  rw [hlen, split_length hm input]
  have : (input.length + o.maxSegmentSize - 1) / o.maxSegmentSize ≤ input.length := by
    rcases Nat.eq_zero_or_pos input.length with h0 | h0
    · rw [h0, Nat.div_eq_of_lt (by omega)]
    · apply Nat.le_of_lt_succ
      rw [Nat.div_lt_iff_lt_mul hm]
      have h1 : input.length ≤ input.length * o.maxSegmentSize := Nat.le_mul_of_pos_right _ hm
      rw [Nat.succ_mul]
      omega
  omega

/-- An input of five bytes in segments of two; and the empty input. -/
example : ((construct { maxSegmentSize := 2 } [⟨8, [65]⟩] 7 [1, 2, 3, 4, 5]).store.map (·.content)) =
    [[1, 2], [3, 4], [5]] ∧
    ((construct { maxSegmentSize := 2 } [⟨8, [65]⟩] 7 []).store.map (·.content)) = [[]] := by decide

/-! ## C26: one reply per Interest -/

/-- **C26 (segments)** An Interest for a segment number gets exactly one reply: the segment if there is
one with this number, otherwise a Nack. -/
theorem C26_segment_reply (digest : Data → Bytes) {o : Opts} {pre : Name} {now now' : Nat} {input : Bytes}
    (hn : now < 2 ^ 64) {i : Interest} {c : Comp} {k : Nat}
    (hi : AsksSegment (construct o pre now input) i c) (hc : c.toSegment = some k) :
    (∀ d, (construct o pre now input).store[k]? = some d →
      (construct o pre now input).onInterest digest now' i = [.data d]) ∧
    ((construct o pre now input).store.length ≤ k →
      (construct o pre now input).onInterest digest now' i = [.nack]) := by
  rw [onInterest_versioned hn (by rw [hi]; exact List.prefix_append _ _), process_segment hi hc]
  refine ⟨fun d hd => by rw [hd], fun hl => by rw [List.getElem?_eq_none hl]⟩

/-- **C26 (no segment number)** An Interest for the unversioned name, or below the versioned name but
not for a segment number, gets exactly one reply: segment 0 if that satisfies the Interest, otherwise
a Nack. -/
theorem C26_unspecified_reply (digest : Data → Bytes) {o : Opts} {pre : Name} {now now' : Nat} {input : Bytes}
    (hn : now < 2 ^ 64) {i : Interest} {d : Data}
    (hd : (construct o pre now input).store[0]? = some d)
    (hi : i.name = (construct o pre now input).pre ∨
      ((construct o pre now input).versionedPrefix <+: i.name ∧
        ∀ c, AsksSegment (construct o pre now input) i c → c.isSegment = false)) :
    (Satisfies digest d i → (construct o pre now input).onInterest digest now' i = [.data d]) ∧
    (¬ Satisfies digest d i → (construct o pre now input).onInterest digest now' i = [.nack]) := by
  have key : (construct o pre now input).onInterest digest now' i =
      [if i.matchesData digest d then .data d else .nack] := by
    rcases hi with h | ⟨h1, h2⟩
    · rw [onInterest_exact hn h, process_other hd]
      intro a c h1 h2
      exfalso
      obtain ⟨v, h3, _⟩ := construct_vp (o := o) (pre := pre) (input := input) hn
      have h4 := congrArg List.length h1
      rw [h] at h4
      rw [h3] at h2
      simp at h4 h2
      omega
    · rw [onInterest_versioned hn h1, process_other hd (not_segment_branch h1 h2)]
  rw [key]
  refine ⟨fun h => by rw [if_pos (matchesData_iff.mpr h)], fun h => ?_⟩
  rw [if_neg (by rw [matchesData_iff]; exact h)]

/-- **C26 (version discovery)** An Interest for version discovery gets exactly one reply, a metadata
packet with the versioned name, or a Nack if it lacks CanBePrefix - provided its name is the
discovery name, or a complete metadata name. -/
theorem C26_discovery_reply (digest : Data → Bytes) {o : Opts} {pre : Name} {now now' : Nat} {input : Bytes}
    (hn : now < 2 ^ 64) (hn' : now' < 2 ^ 64) {i : Interest}
    (hi : (construct o pre now input).pre ++ [metadataComp] <+: i.name) :
    (i.canBePrefix = false → (construct o pre now input).onInterest digest now' i = [.nack]) ∧
    (i.canBePrefix = true →
      (i.name.getLast? = some metadataComp ∨ isValidMetadataName i.name = true) →
      ∃ n, (construct o pre now input).onInterest digest now' i =
        [.metadata n 10 (construct o pre now input).versionedPrefix] ∧
        i.name <+: n ∧ isValidMetadataName n = true) := by
  rw [onInterest_discovery hn hi]
  refine ⟨fun h => by simp [Prod.processDiscoveryInterest, h], ?_⟩
  intro hc hv
  unfold Prod.processDiscoveryInterest
  rw [if_neg (by simp [hc])]
  rcases hv with hv | hv
  · obtain ⟨a, ha⟩ := List.getLast?_eq_some_iff.mp hv
    rw [ha, metadataName_exact hn']
    refine ⟨_, rfl, ⟨[_, _], by rw [List.append_assoc]; rfl⟩, ?_⟩
    rw [valid_iff]
    exact ⟨_, _, _, rfl, by simp [Comp.isVersion, toVersion_fromVersion hn'],
      by simp [Comp.isSegment, toSegment_fromSegment (show 0 < 2 ^ 64 by norm_num)]⟩
  · rw [metadataName_valid hv]
    exact ⟨_, rfl, List.prefix_refl _, hv⟩

/-- **C26 (refuted)** Every other Interest below the discovery name that allows prefix matching makes
the handler throw: the program ends with an error instead of replying. One Interest, for instance
`/name/32=metadata/x` with CanBePrefix, is enough to stop ndnputchunks. -/
theorem C26_discovery_throws (digest : Data → Bytes) {o : Opts} {pre : Name} {now now' : Nat} {input : Bytes}
    (hn : now < 2 ^ 64) {i : Interest}
    (hi : (construct o pre now input).pre ++ [metadataComp] <+: i.name) (hc : i.canBePrefix = true)
    (h1 : i.name.getLast? ≠ some metadataComp) (h2 : isValidMetadataName i.name = false) :
    (construct o pre now input).onInterest digest now' i = [.threw] ∧
    ¬ AlwaysReplies digest (construct o pre now input) := by
  have key : (construct o pre now input).onInterest digest now' i = [.threw] := by
    rw [onInterest_discovery hn hi]
    unfold Prod.processDiscoveryInterest
    rw [if_neg (by simp [hc]), metadataName_invalid h1 h2]
  refine ⟨key, fun h => ?_⟩
  obtain ⟨r, hr, h3, _⟩ := h now' i (Or.inr (Or.inr hi))
  rw [key] at hr
  simp at hr
  exact h3 hr.symm

/-- **C26 (what does hold)** Every Interest that concerns the producer gets exactly one reply, and
other Interests get none; the stored packets are never accessed out of range. Missing from the
claim: discovery Interests with surplus name components, see `C26_discovery_throws`. -/
theorem C26_one_reply_partial (digest : Data → Bytes) {o : Opts} {pre : Name} {now now' : Nat} {input : Bytes}
    (hm : 0 < o.maxSegmentSize) (hn : now < 2 ^ 64) (hn' : now' < 2 ^ 64) (i : Interest) :
    (¬ Concerns (construct o pre now input) i → (construct o pre now input).onInterest digest now' i = []) ∧
    (Concerns (construct o pre now input) i →
      ((construct o pre now input).pre ++ [metadataComp] <+: i.name → i.canBePrefix = true →
        i.name.getLast? = some metadataComp ∨ isValidMetadataName i.name = true) →
      ∃ r, (construct o pre now input).onInterest digest now' i = [r] ∧ r ≠ .threw ∧ r ≠ .ub) := by
  refine ⟨onInterest_other, ?_⟩
  intro hc hd
  obtain ⟨d0, hd0⟩ : ∃ d, (construct o pre now input).store[0]? = some d := by
    cases hs : (construct o pre now input).store with
    | nil => exact absurd hs (store_ne_nil hm)
    | cons x xs => exact ⟨x, rfl⟩
  have unspec : (i.name = (construct o pre now input).pre ∨
      ((construct o pre now input).versionedPrefix <+: i.name ∧
        ∀ c, AsksSegment (construct o pre now input) i c → c.isSegment = false)) →
      ∃ r, (construct o pre now input).onInterest digest now' i = [r] ∧ r ≠ .threw ∧ r ≠ .ub := by
    intro h
    obtain ⟨h1, h2⟩ := C26_unspecified_reply digest (now' := now') hn hd0 h
    by_cases hs : Satisfies digest d0 i
    · exact ⟨_, h1 hs, by simp, by simp⟩
    · exact ⟨_, h2 hs, by simp, by simp⟩
  rcases hc with h | h | h
  · by_cases hs : ∃ c, AsksSegment (construct o pre now input) i c ∧ c.isSegment = true
    · obtain ⟨c, h1, h2⟩ := hs
      obtain ⟨k, hk⟩ := Option.isSome_iff_exists.mp h2
      obtain ⟨g1, g2⟩ := C26_segment_reply digest (now' := now') hn h1 hk
      cases hd : (construct o pre now input).store[k]? with
      | some d => exact ⟨_, g1 d hd, by simp, by simp⟩
      | none => exact ⟨_, g2 (List.getElem?_eq_none_iff.mp hd), by simp, by simp⟩
    · apply unspec
      refine Or.inr ⟨h, fun c hc => ?_⟩
      by_contra hne
      exact hs ⟨c, hc, by simpa using hne⟩
  · exact unspec (Or.inl h)
  · obtain ⟨g1, g2⟩ := C26_discovery_reply digest (input := input) hn hn' h
    cases hcp : i.canBePrefix with
    | false => exact ⟨_, g1 hcp, by simp, by simp⟩
    | true =>
      obtain ⟨n, h1, _⟩ := g2 hcp (hd h hcp)
      exact ⟨_, h1, by simp, by simp⟩

/-- A producer for the examples: `/A` published as version 7, five bytes in segments of two. -/
def exampleProducer : Prod := construct { maxSegmentSize := 2 } [⟨8, [65]⟩] 7 [1, 2, 3, 4, 5]

private def noDigest : Data → Bytes := fun _ => []

/-- Segment 2, segment 9, the unversioned name, discovery, and the Interest that makes it throw. -/
example :
    exampleProducer.onInterest noDigest 8 ⟨[⟨8, [65]⟩, ⟨54, [7]⟩, ⟨50, [2]⟩], false, false⟩ =
      [.data ⟨[⟨8, [65]⟩, ⟨54, [7]⟩, ⟨50, [2]⟩], [5], some ⟨50, [2]⟩, 10000, true⟩] ∧
    exampleProducer.onInterest noDigest 8 ⟨[⟨8, [65]⟩, ⟨54, [7]⟩, ⟨50, [9]⟩], false, false⟩ = [.nack] ∧
    exampleProducer.onInterest noDigest 8 ⟨[⟨8, [65]⟩], true, true⟩ =
      [.data ⟨[⟨8, [65]⟩, ⟨54, [7]⟩, ⟨50, [0]⟩], [1, 2], some ⟨50, [2]⟩, 10000, true⟩] ∧
    exampleProducer.onInterest noDigest 8 (makeDiscoveryInterest [⟨8, [65]⟩]) =
      [.metadata [⟨8, [65]⟩, metadataComp, ⟨54, [8]⟩, ⟨50, [0]⟩] 10 [⟨8, [65]⟩, ⟨54, [7]⟩]] ∧
    exampleProducer.onInterest noDigest 8 ⟨[⟨8, [65]⟩, metadataComp, ⟨8, [88]⟩], true, true⟩ = [.threw] := by
  decide

/-! ## C27: the reply satisfies the Interest -/

/-- **C27 (refuted)** An Interest for segment 0 that writes the number 0 in two bytes is answered with
the packet whose name has the number in one byte, which does not satisfy the Interest. -/
theorem C27_reply_not_satisfying : ¬ AlwaysSatisfies (fun _ => []) exampleProducer := by
  intro h
  have h1 := h 8 ⟨[⟨8, [65]⟩, ⟨54, [7]⟩, ⟨50, [0, 0]⟩], false, false⟩
    ⟨[⟨8, [65]⟩, ⟨54, [7]⟩, ⟨50, [0]⟩], [1, 2], some ⟨50, [2]⟩, 10000, true⟩ (by decide)
  revert h1
  unfold Satisfies
  decide

/-- **C27 (refuted, naming conventions)** If the consumer writes segment numbers in the other naming
convention than the producer (an option of both tools), no segment Interest that the producer
answers with Data is satisfied by that Data. -/
theorem C27_other_convention (digest : Data → Bytes) {o : Opts} {pre : Name} {now now' : Nat} {input : Bytes}
    (hn : now < 2 ^ 64) {conv : Convention} (hconv : conv ≠ o.conv) {k : Nat} (hk : k < 2 ^ 64) {d : Data}
    (hd : Reply.data d ∈ (construct o pre now input).onInterest digest now'
      ⟨(construct o pre now input).versionedPrefix ++ [.fromSegment conv k], false, false⟩) :
    ¬ Satisfies digest d ⟨(construct o pre now input).versionedPrefix ++ [.fromSegment conv k], false, false⟩ := by
  obtain ⟨g1, g2⟩ := C26_segment_reply digest (o := o) (pre := pre) (input := input) (now' := now')
    (i := ⟨(construct o pre now input).versionedPrefix ++ [.fromSegment conv k], false, false⟩) hn rfl
    (toSegment_fromSegment hk)
  cases hs : (construct o pre now input).store[k]? with
  | none =>
    rw [g2 (List.getElem?_eq_none_iff.mp hs)] at hd
    simp at hd
  | some d' =>
    rw [g1 d' hs] at hd
    simp at hd
    subst hd
    obtain ⟨_, h2, _⟩ := store_get hs
    rintro ⟨h3 | ⟨h3, _⟩ | h3, _⟩
    · dsimp only at h3
      rw [h2] at h3
      have := (C28_names_differ hk hk).1 h3
      exact hconv this.2
    · cases h3
    · dsimp only at h3
      have := congrArg List.length h3
      rw [h2] at this
      simp at this

/-- The hypotheses of `C27_other_convention` can be met: the consumer uses markers, the producer does
not, and segment 1 is sent in reply. -/
example : ∃ d, Reply.data d ∈ exampleProducer.onInterest noDigest 8
    ⟨exampleProducer.versionedPrefix ++ [.fromSegment .marker 1], false, false⟩ ∧
    exampleProducer.opts.conv = .typed :=
  ⟨⟨[⟨8, [65]⟩, ⟨54, [7]⟩, ⟨50, [1]⟩], [3, 4], some ⟨50, [2]⟩, 10000, true⟩, by decide, by decide⟩

/-- **C27 (what does hold)** A Data reply satisfies the Interest when the segment number in the Interest,
if any, is written as the producer writes it, and a fresh packet is requested only if the packets
have a freshness period. Replies to Interests without a segment number always satisfy them, and
metadata packets always satisfy the discovery Interest. Missing from the claim: segment numbers
written differently, and MustBeFresh when the packets are published with `--freshness 0`. -/
theorem C27_satisfies_partial (digest : Data → Bytes) {o : Opts} {pre : Name} {now now' : Nat} {input : Bytes}
    (hn : now < 2 ^ 64) (hm : 0 < o.maxSegmentSize) {i : Interest} :
    (∀ d, Reply.data d ∈ (construct o pre now input).onInterest digest now' i →
      (∀ c k, AsksSegment (construct o pre now input) i c → c.toSegment = some k →
        c = .fromSegment o.conv k ∧ (i.mustBeFresh = true → 0 < o.freshness)) →
      Satisfies digest d i) ∧
    (∀ n f v, Reply.metadata n f v ∈ (construct o pre now input).onInterest digest now' i →
      v = (construct o pre now input).versionedPrefix ∧
      ∀ content, Satisfies digest ⟨n, content, none, f, true⟩ i) := by
  obtain ⟨d0, hd0⟩ : ∃ d, (construct o pre now input).store[0]? = some d := by
    cases hs : (construct o pre now input).store with
    | nil => exact absurd hs (store_ne_nil hm)
    | cons x xs => exact ⟨x, rfl⟩
  by_cases hdisc : (construct o pre now input).pre ++ [metadataComp] <+: i.name
  · rw [onInterest_discovery hn hdisc]
    unfold Prod.processDiscoveryInterest
    cases hc : i.canBePrefix with
    | false => simp
    | true =>
      cases hmn : metadataName (construct o pre now input).opts.conv now' i.name with
      | none => simp
      | some n' =>
        simp only [Bool.not_true, Bool.false_eq_true, if_false, List.mem_singleton, reduceCtorEq, false_imp_iff,
          implies_true, true_and, Reply.metadata.injEq]
        rintro n f v ⟨rfl, rfl, rfl⟩
        refine ⟨rfl, fun content => ⟨Or.inr (Or.inl ⟨hc, metadataName_prefix hmn⟩), fun _ => ?_⟩⟩
        simp [metadataFreshness]
  · by_cases hcon : Concerns (construct o pre now input) i
    · by_cases hs : ∃ c, AsksSegment (construct o pre now input) i c ∧ c.isSegment = true
      · obtain ⟨c, h1, h2⟩ := hs
        obtain ⟨k, hk⟩ := Option.isSome_iff_exists.mp h2
        obtain ⟨g1, g2⟩ := C26_segment_reply digest (now' := now') hn h1 hk
        cases hd : (construct o pre now input).store[k]? with
        | none => rw [g2 (List.getElem?_eq_none_iff.mp hd)]; simp
        | some d =>
          rw [g1 d hd]
          simp only [List.mem_singleton, Reply.data.injEq, reduceCtorEq, false_imp_iff, implies_true, and_true]
          rintro d' rfl hcan
          obtain ⟨h3, h4⟩ := hcan c k h1 hk
          obtain ⟨_, g4, _, g6, _⟩ := store_get hd
          refine ⟨Or.inl ?_, fun hf => by rw [g6]; exact h4 hf⟩
          rw [g4, ← h3]; exact h1
      · have hun : i.name = (construct o pre now input).pre ∨
            ((construct o pre now input).versionedPrefix <+: i.name ∧
              ∀ c, AsksSegment (construct o pre now input) i c → c.isSegment = false) := by
          rcases hcon with h | h | h
          · refine Or.inr ⟨h, fun c hc => ?_⟩
            by_contra hne
            exact hs ⟨c, hc, by simpa using hne⟩
          · exact Or.inl h
          · exact absurd h hdisc
        obtain ⟨g1, g2⟩ := C26_unspecified_reply digest (now' := now') hn hd0 hun
        by_cases hsat : Satisfies digest d0 i
        · rw [g1 hsat]
          simp only [List.mem_singleton, Reply.data.injEq, reduceCtorEq, false_imp_iff, implies_true, and_true]
          rintro d rfl _
          exact hsat
        · rw [g2 hsat]; simp
    · rw [onInterest_other hcon]; simp

/-- **C27 (exactly when)** A Data reply satisfies the Interest if and only if the segment number in the Interest, if any, is written as
the producer writes it, and a fresh packet is requested by its number only if the packets have a freshness period. -/
theorem C27_exactly_when (digest : Data → Bytes) {o : Opts} {pre : Name} {now now' : Nat} {input : Bytes}
    (hn : now < 2 ^ 64) (hm : 0 < o.maxSegmentSize) {i : Interest} {d : Data}
    (hd : Reply.data d ∈ (construct o pre now input).onInterest digest now' i) :
    Satisfies digest d i ↔
      ∀ c k, AsksSegment (construct o pre now input) i c → c.toSegment = some k →
        c = .fromSegment o.conv k ∧ (i.mustBeFresh = true → 0 < o.freshness) := by
  refine ⟨fun hs c k h1 hk => ?_, (C27_satisfies_partial digest hn hm).1 d hd⟩
  obtain ⟨g1, g2⟩ := C26_segment_reply digest (now' := now') hn h1 hk
  cases hst : (construct o pre now input).store[k]? with
  | none =>
    rw [g2 (List.getElem?_eq_none_iff.mp hst)] at hd
    simp at hd
  | some d' =>
    rw [g1 d' hst] at hd
    simp only [List.mem_singleton, Reply.data.injEq] at hd
    subst hd
    obtain ⟨_, g4, _, g6, _⟩ := store_get hst
    obtain ⟨hname, hf⟩ := hs
    rw [g6] at hf
    refine ⟨?_, hf⟩
    rw [h1, g4] at hname
    rcases hname with h | ⟨_, h⟩ | h
    · exact List.head_eq_of_cons_eq (List.append_cancel_left h)
    · have := h.eq_of_length (by simp)
      exact List.head_eq_of_cons_eq (List.append_cancel_left this)
    · have := congrArg List.length h
      simp at this

/-- A number in two bytes and one in one byte, both answered by segment 1: the second Interest is satisfied. -/
example : ∃ d, Reply.data d ∈ exampleProducer.onInterest noDigest 8 ⟨exampleProducer.versionedPrefix ++ [⟨50, [0, 1]⟩], true, true⟩ ∧
    Reply.data d ∈ exampleProducer.onInterest noDigest 8 ⟨exampleProducer.versionedPrefix ++ [⟨50, [1]⟩], true, true⟩ ∧
    ⟨50, [1]⟩ = Comp.fromSegment exampleProducer.opts.conv 1 ∧ 0 < exampleProducer.opts.freshness :=
  ⟨⟨[⟨8, [65]⟩, ⟨54, [7]⟩, ⟨50, [1]⟩], [3, 4], some ⟨50, [2]⟩, 10000, true⟩, by decide, by decide, by decide, by decide⟩

end Verif.Producer
