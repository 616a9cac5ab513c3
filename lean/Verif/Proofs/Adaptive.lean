import Verif.Proofs.AdaptiveMicro

/-! # Invariants of the adaptive pipeline -/

namespace Verif.Adaptive

set_option linter.unusedSimpArgs false

variable {σ ε : Type}

/-! ## What a primitive change appends to the history -/

/-- The possible additions to the history. -/
inductive Adds (A : Alg σ ε) (o : Opts) (al : Allow) (s s' : St σ) : List Obs → Prop
  | nil : Adds A o al s s' []
  | complete : s.isStopping = false → s.allSegmentsReceived = true → s'.isStopping = true →
      s'.posted = s.posted → Adds A o al s s' [.complete]
  | new : s.isStopping = false → s.hasFailure = false →
      ¬ (s.hasFinalBlockId = true ∧ s.nextSegmentNo > s.lastSegmentNo) →
      Adds A o al s s' [.interest s.nextSegmentNo false]
  | resend (k) : s.isStopping = false → (get s.info k).isSome = true → ¬ Limit o s k →
      ¬ (s.hasFinalBlockId = true ∧ k > s.lastSegmentNo) →
      Adds A o al s s' [.interest k true]
  | loss (k) : s.isStopping = false → (o.disableCwa = true ∨ k > s.recPoint) →
      Obs.interest k false ∈ s.log → Adds A o al s s' [.decr k false]
  | data (k x p ad sm) : s.isStopping = false → get s.info k = some x → al.net k p →
      (ad = [] ∨ ad = [.incr] ∨ (ad = [.decr (max s.highData k) true] ∧
        (o.disableCwa = true ∨ max s.highData k > s.recPoint))) →
      (sm = [] ∨ (sm = [.sample k] ∧ x.state ≠ .retransmitted ∧ s.retxCount k = 0)) →
      get s'.info k = none →
      Adds A o al s s' (ad ++ .data k p :: sm)
  | failure (m rest) : s.posted = m :: rest → s'.posted = rest → s'.isStopping = s.isStopping →
      Adds A o al s s' [.failure m]

theorem adapts_log {A : Alg σ ε} {o : Opts} {s s1 : St σ} {k p} (h : Adapts A o s k p s1) :
    ∃ ad, s1.log = s.log ++ ad ∧ s1.retxCount = s.retxCount ∧
      (ad = [] ∨ ad = [.incr] ∨ (ad = [.decr (max s.highData k) true] ∧
        (o.disableCwa = true ∨ max s.highData k > s.recPoint))) := by
  cases h with
  | decr e _ _ h => exact ⟨_, rfl, rfl, Or.inr (Or.inr ⟨rfl, h⟩)⟩
  | keep _ _ _ => exact ⟨[], by simp, rfl, Or.inl rfl⟩
  | incr e _ => exact ⟨_, rfl, rfl, Or.inr (Or.inl rfl)⟩

theorem micro_adds {A : Alg σ ε} {o : Opts} {al : Allow} {s s' : St σ} (m : Micro A o al s s') :
    ∃ l, s'.log = s.log ++ l ∧ Adds A o al s s' l := by
  cases m with
  | complete hs ha =>
    refine ⟨[.complete], ?_, Adds.complete hs ha ?_ ?_⟩ <;> simp [St.cancel, St.emit, hs]
  | new v hs hf hl => exact ⟨_, rfl, Adds.new hs hf hl⟩
  | resend v k q hq hs hh hl hm => exact ⟨_, rfl, Adds.resend k hs hh hm hl⟩
  | loss k e hc hk hs => exact ⟨_, rfl, Adds.loss k hs hc hk⟩
  | deliver s1 k x p hs hx hn ha =>
    obtain ⟨ad, h1, h2, h3⟩ := adapts_log ha
    refine ⟨ad ++ .data k p :: (if x.state ≠ .retransmitted ∧ s1.retxCount k = 0 then [.sample k] else []),
      by simp [h1], Adds.data k x p ad _ hs hx hn h3 ?_ (by dsimp only; rw [get_del, if_pos rfl])⟩
    split
    · rename_i h; rw [h2] at h; exact Or.inr ⟨rfl, h⟩
    · exact Or.inl rfl
  | ub s1 k x p n hs hx hn hc ha =>
    obtain ⟨ad, h1, h2, h3⟩ := adapts_log ha
    exact ⟨ad ++ .data k p :: [], by simp [h1], Adds.data k x p ad _ hs hx hn h3 (Or.inl rfl) rfl⟩
  | posted m rest hp => exact ⟨_, rfl, Adds.failure m rest hp rfl rfl⟩
  | enqueue k x hx hs hcl => exact ⟨[], by rw [enqueue_log]; simp, Adds.nil⟩
  | throwRange k hx hl hs hk => exact ⟨[], by rw [enqueue_log]; simp, Adds.nil⟩
  | _ => exact ⟨[], by simp [St.called, St.cancelGreater], Adds.nil⟩

theorem received_append (l l' : List Obs) : received (l ++ l') = received l ++ received l' := by
  simp [received]

@[simp] theorem received_cons_data (k p l) : received (.data k p :: l) = k :: received l := by
  simp [received]

theorem received_adds {ad : List Obs} {s : St σ} {o : Opts} {k}
    (h : ad = [] ∨ ad = [.incr] ∨ (ad = [.decr (max s.highData k) true] ∧
        (o.disableCwa = true ∨ max s.highData k > s.recPoint))) : received ad = [] := by
  rcases h with rfl | rfl | ⟨rfl, _⟩ <;> simp [received]

theorem received_sm {sm : List Obs} {k : Nat} {P : Prop}
    (h : sm = [] ∨ (sm = [.sample k] ∧ P)) : received sm = [] := by
  rcases h with rfl | ⟨rfl, _⟩ <;> simp [received]

theorem mem_received {l : List Obs} {k} : k ∈ received l ↔ ∃ p, Obs.data k p ∈ l := by
  simp only [received, List.mem_filterMap]
  constructor
  · rintro ⟨o, ho, h⟩
    cases o <;> simp at h
    subst h
    exact ⟨_, ho⟩
  · rintro ⟨p, h⟩
    exact ⟨_, h, rfl⟩

/-! ## Entries of the segment map -/

/-- How a primitive change treats the entries: no entry appears except for a new segment. -/
theorem micro_entry {A : Alg σ ε} {o : Opts} {al : Allow} {s s' : St σ} (m : Micro A o al s s') {j}
    (h : (get s'.info j).isSome = true) :
    (get s.info j).isSome = true ∨
      (j = s.nextSegmentNo ∧ s.isStopping = false ∧ s'.log = s.log ++ [.interest j false]) := by
  cases m with
  | called k hk =>
    left
    have := get_called_none (s := s) (k := k) (j := j)
    cases h1 : get s.info j with
    | none => rw [this.mpr h1] at h; simp at h
    | some x => rfl
  | new v hs hf hl =>
    unfold St.transmit at h
    dsimp only at h
    rw [get_put] at h
    split at h
    · rename_i hj; right; exact ⟨hj, hs, by rw [hj]; rfl⟩
    · left; exact h
  | resend v k q hq hs hh hl hm =>
    unfold St.transmit at h
    dsimp only at h
    rw [get_put] at h
    left
    split at h
    · rename_i hj; rw [hj]; exact hh
    · exact h
  | fail k m q rc hs hf hk he hcl hl hq =>
    left
    simp only [St.cancelGreater] at h
    rw [get_filter, get_del] at h
    split at h
    · split at h
      · simp at h
      · exact h
    · simp at h
  | enqueue k x hx hs hcl =>
    left
    unfold St.enqueueForRetransmission at h
    dsimp only at h
    rw [hx] at h
    dsimp only at h
    rw [get_put] at h
    split at h
    · rename_i hj; rw [hj, hx]; rfl
    · exact h
  | throwRange k hx hl hs hk =>
    left
    unfold St.enqueueForRetransmission at h
    dsimp only at h
    rw [hx] at h
    exact h
  | final k p n hs hf hn hp hcl =>
    left
    simp only [St.cancelGreater] at h
    rw [get_filter] at h
    split at h
    · exact h
    · simp at h
  | deliver s1 k x p hs hx hn ha =>
    left
    obtain ⟨l, hl, hnl, e1, e2, e3, e4⟩ := adapts_frame ha
    dsimp only at h
    rw [e1, get_del] at h
    split at h
    · simp at h
    · exact h
  | stop rc q n p hs hp hrc => simp at h
  | ub s1 k x p n hs hx hn hc ha => simp at h
  | complete hs ha => simp [St.cancel, St.emit, hs] at h
  | _ => left; exact h

/-- Delivering a segment removes its entry. -/
theorem micro_delivers {A : Alg σ ε} {o : Opts} {al : Allow} {s s' : St σ} (m : Micro A o al s s') {k}
    (h : k ∈ received s'.log) (hn : k ∉ received s.log) : (get s'.info k).isSome = false := by
  obtain ⟨l, hl, hadd⟩ := micro_adds m
  have hr : k ∈ received l := by
    rw [hl, received_append] at h
    rcases List.mem_append.mp h with h | h
    · exact absurd h hn
    · exact h
  cases hadd with
  | data k' x p ad sm hs hx hnet had hsm hgone =>
    rw [received_append, received_adds had, received_cons_data, received_sm hsm] at hr
    have : k = k' := by simpa using hr
    rw [this, hgone]
    rfl
  | _ => simp [received] at hr

/-! ## Delivery and order of requests (C12) -/

structure Core (s : St σ) : Prop where
  /-- no segment is delivered twice -/
  rnodup : (received s.log).Nodup
  /-- tracked segments have not been delivered -/
  live : ∀ k, (get s.info k).isSome = true → k ∉ received s.log
  /-- only requested segments are delivered -/
  dreq : ∀ pre k p post, s.log = pre ++ Obs.data k p :: post → Obs.interest k false ∈ pre
  /-- all segment numbers before the next one were requested -/
  asked : s.isStopping = false → s.hasFailure = false →
    ¬ (s.hasFinalBlockId = true ∧ s.nextSegmentNo > s.lastSegmentNo) →
    ∀ j < s.nextSegmentNo, Obs.interest j false ∈ s.log
  /-- new segments are requested in order, without gaps and once -/
  order : ∀ pre k post, s.log = pre ++ Obs.interest k false :: post →
    (∀ j < k, Obs.interest j false ∈ pre) ∧ Obs.interest k false ∉ pre
  /-- repeated Interests come after a first one and before delivery -/
  again : ∀ pre k post, s.log = pre ++ Obs.interest k true :: post →
    Obs.interest k false ∈ pre ∧ k ∉ received pre
  failed : s.hasFailure = true → s.failedSegNo < s.nextSegmentNo

theorem core_initial (w : σ) : Core (initial w) := by
  constructor <;> simp [initial, received]

/-- A split of an extended history that ends in the old part. -/
theorem split_append {α : Type} {a l pre post : List α} {x : α} (h : a ++ l = pre ++ x :: post) :
    (∃ post', a = pre ++ x :: post' ∧ post = post' ++ l) ∨
    (∃ pre', pre = a ++ pre' ∧ l = pre' ++ x :: post) := by
  rw [List.append_eq_append_iff] at h
  rcases h with ⟨c, h1, h2⟩ | ⟨c, h1, h2⟩
  · right; exact ⟨c, h1, h2⟩
  · cases c with
    | nil =>
      right
      simp at h1 h2
      exact ⟨[], by simp [h1], by simpa using h2.symm⟩
    | cons y c =>
      left
      simp at h2
      exact ⟨c, by rw [h1, h2.1], h2.2⟩

theorem single_split {α : Type} {x y : α} {pre post : List α} (h : [x] = pre ++ y :: post) :
    pre = [] ∧ y = x ∧ post = [] := by
  cases pre with
  | nil => simp at h; exact ⟨rfl, h.1.symm, h.2⟩
  | cons a l => simp at h

/-- Properties of every element of the history that depend only on what precedes it. -/
theorem hist_extend {P : List Obs → Obs → Prop} {a l : List Obs}
    (h : ∀ pre x post, a = pre ++ x :: post → P pre x)
    (hl : ∀ pre x post, l = pre ++ x :: post → P (a ++ pre) x) :
    ∀ pre x post, a ++ l = pre ++ x :: post → P pre x := by
  intro pre x post e
  rcases split_append e with ⟨post', h1, _⟩ | ⟨pre', h1, h2⟩
  · exact h pre x post' h1
  · rw [h1]; exact hl pre' x post h2

theorem adapts_fields {A : Alg σ ε} {o : Opts} {s s1 : St σ} {k p} (h : Adapts A o s k p s1) :
    s1.hasFinalBlockId = s.hasFinalBlockId ∧ s1.lastSegmentNo = s.lastSegmentNo ∧
    s1.hasFailure = s.hasFailure ∧ s1.failedSegNo = s.failedSegNo ∧ s1.posted = s.posted ∧
    s1.retxQueue = s.retxQueue ∧ s1.retxCount = s.retxCount ∧ s1.nInFlight = s.nInFlight ∧
    s1.nReceived = s.nReceived ∧ s1.highInterest = s.highInterest ∧ s1.threw = s.threw ∧
    s1.assertFailed = s.assertFailed ∧ s1.ub = s.ub ∧ s1.receivedSize = s.receivedSize ∧
    s1.nSent = s.nSent ∧ s1.nRetransmitted = s.nRetransmitted ∧ s1.nLossDecr = s.nLossDecr ∧
    s1.timer = s.timer := by
  cases h <;> simp

theorem enqueue_fields (s : St σ) (k) :
    let s' := s.enqueueForRetransmission k
    s'.hasFinalBlockId = s.hasFinalBlockId ∧ s'.lastSegmentNo = s.lastSegmentNo ∧
    s'.hasFailure = s.hasFailure ∧ s'.failedSegNo = s.failedSegNo ∧ s'.posted = s.posted ∧
    s'.nextSegmentNo = s.nextSegmentNo ∧ s'.isStopping = s.isStopping ∧ s'.log = s.log ∧
    s'.retxCount = s.retxCount ∧ s'.nReceived = s.nReceived ∧ s'.highInterest = s.highInterest ∧
    s'.recPoint = s.recPoint ∧ s'.highData = s.highData ∧ s'.out = s.out ∧ s'.ub = s.ub ∧
    s'.receivedSize = s.receivedSize ∧ s'.nSent = s.nSent ∧ s'.nRetransmitted = s.nRetransmitted ∧
    s'.nLossDecr = s.nLossDecr ∧ s'.nMarkDecr = s.nMarkDecr ∧ s'.nCongMarks = s.nCongMarks ∧
    s'.win = s.win ∧ s'.timer = s.timer ∧ s'.retxQueue = s.retxQueue ++ [k] ∧
    s'.nInFlight = s.nInFlight - 1 := by
  unfold St.enqueueForRetransmission
  dsimp only
  split <;> simp

theorem core_micro {A : Alg σ ε} {o : Opts} {al : Allow} {s s' : St σ} (hw : WF s) (h : Core s)
    (m : Micro A o al s s') : Core s' := by
  obtain ⟨l, hl, hadd⟩ := micro_adds m
  have hent := fun j => micro_entry (j := j) m
  have hdel := fun j => micro_delivers (k := j) m
  have hasked : s'.isStopping = false → s'.hasFailure = false →
      ¬ (s'.hasFinalBlockId = true ∧ s'.nextSegmentNo > s'.lastSegmentNo) →
      ∀ j < s'.nextSegmentNo, Obs.interest j false ∈ s'.log := by
    have hold : (s.isStopping = false → s.hasFailure = false →
      ¬ (s.hasFinalBlockId = true ∧ s.nextSegmentNo > s.lastSegmentNo) →
      ∀ j < s.nextSegmentNo, Obs.interest j false ∈ s'.log) := by
      intro h1 h2 h3 j hj
      rw [hl]
      exact List.mem_append_left _ (h.asked h1 h2 h3 j hj)
    cases m with
    | new v hs hf hfin =>
      intro h1 h2 h3 j hj
      simp only [St.transmit] at hj ⊢
      by_cases hjn : j = s.nextSegmentNo
      · simp [hjn]
      · exact hold hs hf hfin j (by omega)
    | skip hs =>
      intro h1 h2 h3 j hj
      dsimp only at h1 h2 h3
      exfalso
      rcases hs with hs | hs | hs
      · simp [hs] at h1
      · simp [hs] at h2
      · exact h3 ⟨hs.1, by omega⟩
    | stop rc q n p hs hp hrc => simp
    | complete hs ha => simp [St.cancel, St.emit, hs]
    | fail k m q rc hs hf hk he hcl hl hq => simp [St.cancelGreater]
    | enqueue k x hx hs hcl =>
      obtain ⟨e1, e2, e3, e4, e5, e6, e7, e8, -⟩ := enqueue_fields s k
      rw [e1, e2, e3, e6, e7]; exact hold
    | throwRange k hx hl hs hk =>
      obtain ⟨e1, e2, e3, e4, e5, e6, e7, e8, -⟩ := enqueue_fields s k
      rw [e1, e2, e3, e6, e7]; exact hold
    | final k p n hs hf hn hp hcl =>
      intro h1 h2 h3 j hj
      exact hold hs h2 (by simp [hf]) j hj
    | clear hs hf hcl =>
      intro h1 h2 h3 j hj
      cases hff : s.hasFailure with
      | false => exact hold hs hff h3 j hj
      | true =>
        exfalso
        have := h.failed hff
        have := hcl hff
        exact h3 ⟨hf, by dsimp only; omega⟩
    | deliver s1 k x p hs hx hn ha =>
      obtain ⟨_, _, _, e1, e2, e3, e4⟩ := adapts_frame ha
      obtain ⟨f1, f2, f3, f4, -⟩ := adapts_fields ha
      dsimp only at hold ⊢
      rw [e3, e4, f1, f2, f3]; exact hold
    | ub s1 k x p n hs hx hn hc ha => simp
    | _ => exact hold
  have hfailed : s'.hasFailure = true → s'.failedSegNo < s'.nextSegmentNo := by
    have hold := h.failed
    cases m with
    | new v hs hf hl => intro h; simp [St.transmit, hf] at h
    | skip hs => intro h; exact Nat.lt_succ_of_lt (hold h)
    | fail k m q rc hs hf hk he hcl hl hq =>
      intro _; simp only [St.cancelGreater]; exact hw.next k false hk
    | enqueue k x hx hs hcl =>
      obtain ⟨e1, e2, e3, e4, e5, e6, e7, e8, -⟩ := enqueue_fields s k
      rw [e3, e4, e6]; exact hold
    | throwRange k hx hl hs hk =>
      obtain ⟨e1, e2, e3, e4, e5, e6, e7, e8, -⟩ := enqueue_fields s k
      rw [e3, e4, e6]; exact hold
    | clear hs hf hl => simp
    | complete hs ha => simpa [St.cancel, St.emit, hs] using hold
    | deliver s1 k x p hs hx hn ha =>
      obtain ⟨_, _, _, e1, e2, e3, e4⟩ := adapts_frame ha
      obtain ⟨f1, f2, f3, f4, -⟩ := adapts_fields ha
      dsimp only; rw [e3, f3, f4]; exact hold
    | ub s1 k x p n hs hx hn hc ha =>
      obtain ⟨_, _, _, e1, e2, e3, e4⟩ := adapts_frame ha
      obtain ⟨f1, f2, f3, f4, -⟩ := adapts_fields ha
      dsimp only; rw [e3, f3, f4]; exact hold
    | _ => exact hold
  have hmono : ∀ {x}, x ∈ s.log → x ∈ s'.log := fun hx => by rw [hl]; exact List.mem_append_left _ hx
  refine ⟨?_, ?_, ?_, hasked, ?_, ?_, hfailed⟩
  · rw [hl, received_append]
    cases hadd with
    | data k x p ad sm hs hx hnet had hsm hgone =>
      rw [received_append, received_adds had, received_cons_data, received_sm hsm]
      simp only [List.nil_append]
      rw [List.nodup_append]
      refine ⟨h.rnodup, by simp, ?_⟩
      intro a ha b hb
      simp at hb
      subst hb
      intro hab
      subst hab
      exact h.live a (by simp [hx]) ha
    | _ => simpa [received] using h.rnodup
  · intro k hk hr
    rcases hent k hk with h1 | ⟨h1, h2, h3⟩
    · have := hdel k hr (h.live k h1)
      rw [hk] at this; cases this
    · rw [h3, received_append] at hr
      simp [received] at hr
      obtain ⟨o', ho', hr⟩ := hr
      cases o' <;> simp at hr
      subst hr
      obtain ⟨pre, post, e⟩ := List.append_of_mem ho'
      have h4 := h.dreq pre _ _ post e
      have h5 := hw.next _ false (by rw [e]; exact List.mem_append_left _ h4)
      omega
  · rw [hl]
    have := hist_extend (P := fun pre x => ∀ k p, x = Obs.data k p → Obs.interest k false ∈ pre)
      (a := s.log) (l := l) (by intro pre x post e k p hx; subst hx; exact h.dreq pre k p post e) ?_
    · intro pre k p post e; exact this pre _ post e k p rfl
    · intro pre x post e k p hx
      subst hx
      apply List.mem_append_left
      cases hadd with
      | data k' y p' ad sm hs hy hnet had hsm hgone =>
        have : k = k' := by
          have h1 : k ∈ received (ad ++ .data k' p' :: sm) := by rw [e]; simp [received]
          rw [received_append, received_adds had, received_cons_data, received_sm hsm] at h1
          simpa using h1
        rw [this]
        exact hw.has k' (by simp [hy])
      | nil => simp at e
      | _ => obtain ⟨_, h2, _⟩ := single_split e; cases h2
  · rw [hl]
    have := hist_extend (P := fun pre x => ∀ k, x = Obs.interest k false →
        (∀ j < k, Obs.interest j false ∈ pre) ∧ Obs.interest k false ∉ pre)
      (a := s.log) (l := l) (by intro pre x post e k hx; subst hx; exact h.order pre k post e) ?_
    · intro pre k post e; exact this pre _ post e k rfl
    · intro pre x post e k hx
      subst hx
      cases hadd with
      | new hs hf hfin =>
        obtain ⟨h1, h2, h3⟩ := single_split e
        subst h1
        simp at h2
        subst h2
        simp only [List.append_nil]
        refine ⟨h.asked hs hf hfin, fun hc => ?_⟩
        have := hw.next _ _ hc
        omega
      | data k' y p' ad sm hs hy hnet had hsm hgone =>
        exfalso
        have h1 : Obs.interest k false ∈ ad ++ .data k' p' :: sm := by rw [e]; simp
        rcases had with rfl | rfl | ⟨rfl, _⟩ <;> rcases hsm with rfl | ⟨rfl, _⟩ <;> simp at h1
      | nil => simp at e
      | _ => obtain ⟨_, h2, _⟩ := single_split e; simp at h2
  · rw [hl]
    have := hist_extend (P := fun pre x => ∀ k, x = Obs.interest k true →
        Obs.interest k false ∈ pre ∧ k ∉ received pre)
      (a := s.log) (l := l) (by intro pre x post e k hx; subst hx; exact h.again pre k post e) ?_
    · intro pre k post e; exact this pre _ post e k rfl
    · intro pre x post e k hx
      subst hx
      cases hadd with
      | resend k' hs hh hlim hbeyond =>
        obtain ⟨h1, h2, h3⟩ := single_split e
        subst h1
        simp at h2
        subst h2
        simp only [List.append_nil]
        exact ⟨hw.has k hh, h.live k hh⟩
      | data k' y p' ad sm hs hy hnet had hsm hgone =>
        exfalso
        have h1 : Obs.interest k true ∈ ad ++ .data k' p' :: sm := by rw [e]; simp
        rcases had with rfl | rfl | ⟨rfl, _⟩ <;> rcases hsm with rfl | ⟨rfl, _⟩ <;> simp at h1
      | nil => simp at e
      | _ => obtain ⟨_, h2, _⟩ := single_split e; simp at h2

theorem run_core {A : Alg σ ε} {o : Opts} {al : Allow} {w : σ} {v : Env ε} {es s}
    (hR : al.clean → o.maxRetries = -1) (h : ARun A o w v al es s) : Core s :=
  arun_inv hR h (core_initial w) (fun _ _ hw hc hm => core_micro hw hc hm)


/-! ## Retransmission budget (C15) -/

/-- The largest number of repeated Interests for one segment. -/
def budget (o : Opts) : Int := max 1 o.maxRetries

structure Budget (o : Opts) (s : St σ) : Prop where
  count : s.isStopping = false → ∀ k, (get s.info k).isSome = true → nRetx s.log k = s.retxCount k
  fresh : s.isStopping = false → ∀ k, s.nextSegmentNo ≤ k → s.retxCount k = 0
  bound : o.maxRetries ≠ -1 → ∀ k, (nRetx s.log k : Int) ≤ budget o

theorem nRetx_append (l l' k) : nRetx (l ++ l') k = nRetx l k + nRetx l' k := List.count_append

theorem nRetx_zero {l k} (h : Obs.interest k true ∉ l) : nRetx l k = 0 := List.count_eq_zero.mpr h

theorem nRetx_data {ad sm : List Obs} {s : St σ} {o : Opts} {k p j} {P : Prop}
    (had : ad = [] ∨ ad = [.incr] ∨ (ad = [.decr (max s.highData k) true] ∧
        (o.disableCwa = true ∨ max s.highData k > s.recPoint)))
    (hsm : sm = [] ∨ (sm = [.sample k] ∧ P)) : nRetx (ad ++ .data k p :: sm) j = 0 := by
  apply nRetx_zero
  rcases had with rfl | rfl | ⟨rfl, _⟩ <;> rcases hsm with rfl | ⟨rfl, _⟩ <;> simp

theorem budget_initial (o : Opts) (w : σ) : Budget o (initial w) := by
  constructor
  · simp [initial]
  · simp [initial]
  · intro _ k; simp only [initial, nRetx, budget, List.count_nil]; omega

theorem budget_micro {A : Alg σ ε} {o : Opts} {al : Allow} {s s' : St σ} (hw : WF s) (h : Budget o s)
    (m : Micro A o al s s') : Budget o s' := by
  have same : ∀ {t : St σ}, t.retxCount = s.retxCount → t.isStopping = s.isStopping →
      t.nextSegmentNo = s.nextSegmentNo → (∀ k, nRetx t.log k = nRetx s.log k) →
      (∀ k, (get t.info k).isSome = true → (get s.info k).isSome = true) → Budget o t := by
    intro t e1 e2 e3 e4 e5
    refine ⟨?_, ?_, ?_⟩
    · intro hs k hk; rw [e4, e1]; exact h.count (e2 ▸ hs) k (e5 k hk)
    · intro hs k hk; rw [e1]; exact h.fresh (e2 ▸ hs) k (e3 ▸ hk)
    · intro hR k; rw [e4]; exact h.bound hR k
  have hent := fun j => micro_entry (j := j) m
  have hadd := micro_adds m
  cases m with
  | called k hk =>
    refine same rfl rfl rfl (fun _ => rfl) (fun j hj => ?_)
    rcases hent j hj with h1 | ⟨_, _, h3⟩
    · exact h1
    · simp [St.called] at h3
  | stat t n a _ => exact same rfl rfl rfl (fun _ => rfl) (fun _ h => h)
  | stop rc q n posted' hs hp hrc => exact ⟨by simp, by simp, h.bound⟩
  | complete hs ha =>
    refine ⟨by simp [St.cancel, St.emit, hs], by simp [St.cancel, St.emit, hs], ?_⟩
    intro hR k
    have := h.bound hR k
    simpa [St.cancel, St.emit, hs, nRetx, List.count_append, List.count_cons] using this
  | new v hs hf hfin =>
    have hz : ∀ k, nRetx (s.log ++ [.interest s.nextSegmentNo false]) k = nRetx s.log k := by
      intro k; rw [nRetx_append, nRetx_zero (l := [_]) (by simp)]; rfl
    refine ⟨?_, ?_, ?_⟩
    · intro _ k hk
      simp only [St.transmit] at hk ⊢
      rw [get_put] at hk
      rw [hz]
      split at hk
      · rename_i hk'
        rw [hk', h.fresh hs _ (Nat.le_refl _)]
        apply nRetx_zero
        intro hc
        have := hw.next _ _ hc
        omega
      · exact h.count hs k hk
    · intro _ k hk
      simp only [St.transmit] at hk ⊢
      exact h.fresh hs k (by omega)
    · intro hR k
      simp only [St.transmit]
      rw [hz]
      exact h.bound hR k
  | skip _ =>
    refine ⟨h.count, ?_, h.bound⟩
    intro hs k hk
    exact h.fresh hs k (by dsimp only at hk; omega)
  | pop k q n _ _ => exact same rfl rfl rfl (fun _ => rfl) (fun _ h => h)
  | resend v k q hq hs hh hl hm =>
    have hk := hw.next k false (hw.has k hh)
    have hz : ∀ j, nRetx (s.log ++ [.interest k true]) j = nRetx s.log j + if j = k then 1 else 0 := by
      intro j
      rw [nRetx_append]
      by_cases hj : j = k
      · simp [hj, nRetx]
      · have : k ≠ j := fun h => hj h.symm
        simp [hj, nRetx, this]
    refine ⟨?_, ?_, ?_⟩
    · intro _ j hj
      simp only [St.transmit, bump] at hj ⊢
      rw [get_put] at hj
      rw [hz]
      split at hj
      · rename_i hjk; subst hjk; simp [h.count hs j hh]
      · rename_i hjk; simp [hjk, h.count hs j hj]
    · intro _ j hj
      simp only [St.transmit, bump] at hj ⊢
      rw [if_neg (by omega)]
      exact h.fresh hs j hj
    · intro hR j
      simp only [St.transmit]
      rw [hz]
      by_cases hj : j = k
      · subst hj
        have hc := h.count hs j hh
        simp only [if_true]
        unfold Limit at hm
        unfold budget
        by_cases h0 : s.retxCount j = 0
        · rw [hc, h0]; push_cast; omega
        · have : ¬ ((s.retxCount j + 1 : Int) > o.maxRetries) := fun hgt => hm ⟨h0, hR, hgt⟩
          rw [hc]
          push_cast
          omega
      · simp only [hj, if_false]
        exact h.bound hR j
  | fail k m q rc hs hf hk he hcl hl hq =>
    have hk' := hw.next k false hk
    refine ⟨?_, ?_, h.bound⟩
    · intro _ j hj
      simp only [St.cancelGreater] at hj ⊢
      rw [get_filter, get_del] at hj
      split at hj
      · split at hj
        · simp at hj
        · rename_i hne
          rw [h.count hs j hj]
          rcases hq with ⟨_, rfl⟩ | ⟨_, rfl, _⟩
          · rfl
          · simp [bump, hne]
      · simp at hj
    · intro _ j hj
      simp only [St.cancelGreater] at hj ⊢
      rcases hq with ⟨_, rfl⟩ | ⟨_, rfl, _⟩
      · exact h.fresh hs j hj
      · unfold bump; rw [if_neg (by omega)]; exact h.fresh hs j hj
  | loss k e hc hk hs =>
    refine same rfl rfl rfl (fun j => ?_) (fun _ h => h)
    dsimp only
    rw [nRetx_append, nRetx_zero (l := [_]) (by simp)]; rfl
  | enqueue k x hx hs hcl =>
    obtain ⟨e1, e2, e3, e4, e5, e6, e7, e8, e9, -⟩ := enqueue_fields s k
    refine same e9 e7 e6 (fun _ => by rw [e8]) (fun j hj => ?_)
    rcases hent j hj with h1 | ⟨_, _, h3⟩
    · exact h1
    · rw [e8] at h3; simp at h3
  | throwRange k hx hl hs hk =>
    obtain ⟨e1, e2, e3, e4, e5, e6, e7, e8, e9, -⟩ := enqueue_fields s k
    refine same e9 e7 e6 (fun _ => by rw [e8]) (fun j hj => ?_)
    rcases hent j hj with h1 | ⟨_, _, h3⟩
    · exact h1
    · rw [e8] at h3; simp at h3
  | throwFinal k p hs hnet hp => exact same rfl rfl rfl (fun _ => rfl) (fun _ h => h)
  | final k p n hs hf hn hp hcl =>
    refine same rfl rfl rfl (fun _ => rfl) (fun j hj => ?_)
    rcases hent j hj with h1 | ⟨_, _, h3⟩
    · exact h1
    · simp [St.cancelGreater] at h3
  | clear hs hf hcl => exact same rfl rfl rfl (fun _ => rfl) (fun _ h => h)
  | deliver s1 k x p hs hx hn ha =>
    obtain ⟨ad, h1, h2, h3⟩ := adapts_log ha
    obtain ⟨_, _, _, e1, e2, e3, e4⟩ := adapts_frame ha
    refine same h2 e4 e3 (fun j => ?_) (fun j hj => ?_)
    · dsimp only
      rw [h1, List.append_assoc, nRetx_append]
      rw [nRetx_data (P := True) h3]
      · rfl
      · split
        · exact Or.inr ⟨rfl, trivial⟩
        · exact Or.inl rfl
    · dsimp only at hj
      rw [e1, get_del] at hj
      split at hj
      · simp at hj
      · exact hj
  | ub s1 k x p n hs hx hn hc ha =>
    obtain ⟨ad, h1, h2, h3⟩ := adapts_log ha
    refine ⟨by simp, by simp, ?_⟩
    intro hR j
    dsimp only
    rw [h1, List.append_assoc, nRetx_append, nRetx_data (P := True) h3 (Or.inl rfl)]
    exact h.bound hR j
  | posted m rest hp =>
    refine same rfl rfl rfl (fun j => ?_) (fun _ h => h)
    dsimp only
    rw [nRetx_append, nRetx_zero (l := [_]) (by simp)]; rfl

theorem run_budget {A : Alg σ ε} {o : Opts} {al : Allow} {w : σ} {v : Env ε} {es s}
    (hR : al.clean → o.maxRetries = -1) (h : ARun A o w v al es s) : Budget o s :=
  arun_inv hR h (budget_initial o w) (fun _ _ hw hc hm => budget_micro hw hc hm)

/-! ## RTT samples (C18) -/

/-- The segments that yielded RTT samples. -/
def samples (log : List Obs) : List Nat :=
  log.filterMap fun
    | .sample k => some k
    | _ => none

structure Karn (s : St σ) : Prop where
  sub : (samples s.log).Sublist (received s.log)
  pure : ∀ k, Obs.sample k ∈ s.log → Obs.interest k true ∉ s.log
  after : ∀ pre k post, s.log = pre ++ Obs.sample k :: post → ∃ pre' p, pre = pre' ++ [Obs.data k p]

theorem samples_append (l l' : List Obs) : samples (l ++ l') = samples l ++ samples l' := by
  simp [samples]

theorem mem_samples {l : List Obs} {k} : k ∈ samples l ↔ Obs.sample k ∈ l := by
  simp only [samples, List.mem_filterMap]
  constructor
  · rintro ⟨o, ho, h⟩
    cases o <;> simp at h
    subst h
    exact ho
  · intro h
    exact ⟨_, h, rfl⟩

theorem karn_micro {A : Alg σ ε} {o : Opts} {al : Allow} {s s' : St σ} (hw : WF s) (hc : Core s)
    (hb : Budget o s) (h : Karn s) (m : Micro A o al s s') : Karn s' := by
  obtain ⟨l, hl, hadd⟩ := micro_adds m
  have hother : ∀ x, l = [x] → samples [x] = [] → received [x] = [] → (∀ k, x ≠ Obs.interest k true) → Karn s' := by
    intro x hx h1 h2 h3
    have hne : ∀ k, x ≠ Obs.sample k := by
      rintro k rfl
      simp [samples] at h1
    subst hx
    refine ⟨?_, ?_, ?_⟩
    · rw [hl, samples_append, received_append, h1, h2]; simpa using h.sub
    · intro k hk
      rw [hl] at hk ⊢
      simp only [List.mem_append, List.mem_singleton] at hk ⊢
      rintro (hi | hi)
      · rcases hk with hk | hk
        · exact h.pure k hk hi
        · exact hne k hk.symm
      · exact h3 k hi.symm
    · intro pre k post e
      rw [hl] at e
      rcases snoc_split e with ⟨_, h5, _⟩ | ⟨post', _, h6⟩
      · exact absurd h5.symm (hne k)
      · exact h.after pre k post' h6
  cases hadd with
  | nil =>
    rw [List.append_nil] at hl
    exact ⟨hl ▸ h.sub, hl ▸ h.pure, hl ▸ h.after⟩
  | complete h1 h2 h3 h4 => exact hother _ rfl (by simp [samples]) (by simp [received]) (by simp)
  | new h1 h2 h3 => exact hother _ rfl (by simp [samples]) (by simp [received]) (by simp)
  | loss k h1 h2 h3 => exact hother _ rfl (by simp [samples]) (by simp [received]) (by simp)
  | failure m rest h1 h2 h3 => exact hother _ rfl (by simp [samples]) (by simp [received]) (by simp)
  | resend k hs hh hlim hlast =>
    refine ⟨?_, ?_, ?_⟩
    · rw [hl, samples_append, received_append]; simpa [samples, received] using h.sub
    · intro j hj
      rw [hl] at hj ⊢
      simp only [List.mem_append, List.mem_singleton] at hj ⊢
      have hj' : Obs.sample j ∈ s.log := by
        rcases hj with hj | hj
        · exact hj
        · cases hj
      rintro (hi | hi)
      · exact h.pure j hj' hi
      · simp at hi
        subst hi
        exact hc.live j hh (h.sub.subset (mem_samples.mpr hj'))
    · intro pre j post e
      rw [hl] at e
      rcases snoc_split e with ⟨_, h5, _⟩ | ⟨post', _, h6⟩
      · cases h5
      · exact h.after pre j post' h6
  | data k x p ad sm hs hx hnet had hsm hgone =>
    have hadS : samples ad = [] := by
      rcases had with rfl | rfl | ⟨rfl, _⟩ <;> simp [samples]
    have hadI : ∀ j, Obs.interest j true ∉ ad ++ .data k p :: sm := by
      intro j
      rcases had with rfl | rfl | ⟨rfl, _⟩ <;> rcases hsm with rfl | ⟨rfl, _⟩ <;> simp
    refine ⟨?_, ?_, ?_⟩
    · rw [hl, samples_append, received_append, samples_append, received_append, hadS,
        received_adds had, received_cons_data, received_sm hsm]
      simp only [List.nil_append]
      apply List.Sublist.append h.sub
      rcases hsm with rfl | ⟨rfl, _⟩ <;> simp [samples]
    · intro j hj
      rw [hl] at hj ⊢
      intro hi
      rcases List.mem_append.mp hi with hi' | hi'
      · rcases List.mem_append.mp hj with hj | hj
        · exact h.pure j hj hi'
        · have hj' : sm = [.sample k] ∧ j = k ∧ s.retxCount k = 0 := by
            rcases had with rfl | rfl | ⟨rfl, _⟩ <;> rcases hsm with rfl | ⟨rfl, _, hz⟩ <;> simp at hj <;>
              exact ⟨rfl, hj, hz⟩
          obtain ⟨_, rfl, hz⟩ := hj'
          have := hb.count hs j (by simp [hx])
          rw [hz] at this
          exact (List.count_eq_zero.mp this) hi'
      · exact hadI j hi'
    · rw [hl]
      have := hist_extend (P := fun pre x => ∀ k, x = Obs.sample k → ∃ pre' p, pre = pre' ++ [Obs.data k p])
        (a := s.log) (l := ad ++ .data k p :: sm)
        (by intro pre x post e k hx; subst hx; exact h.after pre k post e) ?_
      · intro pre k post e; exact this pre _ post e k rfl
      · intro pre y post e j hy
        subst hy
        have hnad : Obs.sample j ∉ ad := by
          intro hm; have := mem_samples.mpr hm; rw [hadS] at this; simp at this
        rcases split_append (a := ad) (l := .data k p :: sm) e with ⟨post', h1, _⟩ | ⟨pre', h1, h2⟩
        · exfalso; apply hnad; rw [h1]; simp
        · cases pre' with
          | nil => simp at h2
          | cons z pre' =>
            simp at h2
            rcases hsm with rfl | ⟨rfl, _⟩
            · simp at h2
            · obtain ⟨h3, h4⟩ := h2
              obtain ⟨h5, h6, h7⟩ := single_split h4
              subst h5
              simp at h6
              subst h6
              subst h3
              exact ⟨s.log ++ ad, p, by rw [h1]; simp⟩

theorem karn_initial (w : σ) : Karn (initial w) := by
  constructor <;> simp [initial, samples, received]

theorem run_karn {A : Alg σ ε} {o : Opts} {al : Allow} {w : σ} {v : Env ε} {es s}
    (hR : al.clean → o.maxRetries = -1) (h : ARun A o w v al es s) : Karn s := by
  have := arun_inv (P := fun s => Core s ∧ Budget o s ∧ Karn s) hR h
    ⟨core_initial w, budget_initial o w, karn_initial w⟩
    (fun _ _ hw hc hm => ⟨core_micro hw hc.1 hm, budget_micro hw hc.2.1 hm, karn_micro hw hc.1 hc.2.1 hc.2.2 hm⟩)
  exact this.2.2

end Verif.Adaptive
