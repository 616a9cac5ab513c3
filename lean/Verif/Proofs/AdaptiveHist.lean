import Verif.Proofs.Adaptive

/-! # Invariants of the adaptive pipeline: window decreases, counters, end of the transfer -/

namespace Verif.Adaptive

set_option linter.unusedSimpArgs false

variable {σ ε : Type}

/-! ## Window decreases (C17) -/

structure Rec (o : Opts) (s : St σ) : Prop where
  hi : ∀ k, Obs.interest k false ∈ s.log → k ≤ s.highInterest
  rp : s.recPoint ≤ s.highInterest
  hn : s.highInterest ≤ s.nextSegmentNo
  after : ∀ pre j b post, s.log = pre ++ Obs.decr j b :: post →
    ∀ k, Obs.interest k false ∈ pre → k ≤ s.recPoint
  one : o.disableCwa = false → ∀ pre k b post, s.log = pre ++ Obs.decr k b :: post →
    Obs.interest k false ∈ pre ∧ ∀ a j b' c, pre = a ++ Obs.decr j b' :: c → Obs.interest k false ∉ a

theorem rec_initial (o : Opts) (w : σ) : Rec o (initial w) := by
  constructor <;> simp [initial]

theorem rec_ext {o : Opts} {s t : St σ} (h : Rec o s) {l} (hl : t.log = s.log ++ l)
    (h1 : ∀ k, Obs.interest k false ∉ l) (h2 : ∀ k b, Obs.decr k b ∉ l)
    (h3 : t.highInterest = s.highInterest) (h4 : t.recPoint = s.recPoint)
    (h5 : s.nextSegmentNo ≤ t.nextSegmentNo) : Rec o t := by
  refine ⟨?_, by rw [h3, h4]; exact h.rp, by rw [h3]; exact Nat.le_trans h.hn h5, ?_, ?_⟩
  · intro k hk
    rw [hl] at hk
    rcases List.mem_append.mp hk with hk | hk
    · rw [h3]; exact h.hi k hk
    · exact absurd hk (h1 k)
  · intro pre j b post e
    rw [hl] at e
    rw [h4]
    rcases split_append e with ⟨post', e1, _⟩ | ⟨pre', _, e2⟩
    · exact h.after pre j b post' e1
    · exact absurd (by rw [e2]; simp) (h2 j b)
  · intro hc pre k b post e
    rw [hl] at e
    rcases split_append e with ⟨post', e1, _⟩ | ⟨pre', _, e2⟩
    · exact h.one hc pre k b post' e1
    · exact absurd (by rw [e2]; simp) (h2 k b)

theorem rec_decr {o : Opts} {s t : St σ} (h : Rec o s) {k b} (hl : t.log = s.log ++ [.decr k b])
    (hk : Obs.interest k false ∈ s.log ∨ o.disableCwa = true) (hc : o.disableCwa = true ∨ k > s.recPoint)
    (h3 : t.highInterest = s.highInterest) (h4 : t.recPoint = s.highInterest)
    (h5 : t.nextSegmentNo = s.nextSegmentNo) : Rec o t := by
  refine ⟨?_, h3 ▸ h4 ▸ Nat.le_refl _, by rw [h3, h5]; exact h.hn, ?_, ?_⟩
  · intro j hj
    rw [hl] at hj
    rw [h3]
    exact h.hi j (by simpa using hj)
  · intro pre j b' post e i hi
    rw [hl] at e
    rw [h4]
    rcases snoc_split e with ⟨_, _, e1⟩ | ⟨post', _, e1⟩
    · rw [e1] at hi; exact h.hi i hi
    · exact Nat.le_trans (h.after pre j b' post' e1 i hi) h.rp
  · intro hcwa pre j b' post e
    rw [hl] at e
    rcases snoc_split e with ⟨_, e0, e1⟩ | ⟨post', _, e1⟩
    · simp at e0
      obtain ⟨rfl, _⟩ := e0
      subst e1
      refine ⟨by simpa [hcwa] using hk, ?_⟩
      intro a i b'' c e2 hin
      have := h.after a i b'' c e2 j hin
      rcases hc with hc | hc
      · simp [hcwa] at hc
      · omega
    · exact h.one hcwa pre j b' post' e1

/-- The highest received segment number. -/
def Hd (s : St σ) : Prop := s.highData = 0 ∨ s.highData ∈ received s.log

theorem rec_adapts {A : Alg σ ε} {o : Opts} {s s1 : St σ} {k x p} (hw : WF s) (hcore : Core s)
    (hd : Hd s) (h : Rec o s) (hx : get s.info k = some x) (ha : Adapts A o s k p s1) : Rec o s1 := by
  cases ha with
  | decr e _ _ hc =>
    refine rec_decr h rfl ?_ hc rfl rfl rfl
    left
    rcases Nat.le_total s.highData k with hle | hle
    · rw [Nat.max_eq_right hle]; exact hw.has k (by simp [hx])
    · rw [Nat.max_eq_left hle]
      rcases hd with hd | hd
      · have : k = s.highData := by omega
        rw [← this]; exact hw.has k (by simp [hx])
      · obtain ⟨p', hp'⟩ := mem_received.mp hd
        obtain ⟨pre, post, e⟩ := List.append_of_mem hp'
        rw [e]; exact List.mem_append_left _ (hcore.dreq pre _ _ post e)
  | keep _ _ _ => exact rec_ext h (l := []) (by simp) (by simp) (by simp) rfl rfl (Nat.le_refl _)
  | incr e _ => exact rec_ext h (l := [.incr]) rfl (by simp) (by simp) rfl rfl (Nat.le_refl _)

theorem rec_micro {A : Alg σ ε} {o : Opts} {al : Allow} {s s' : St σ} (hw : WF s) (hcore : Core s)
    (hd : Hd s) (h : Rec o s) (m : Micro A o al s s') : Rec o s' := by
  cases m with
  | complete hs ha =>
    exact rec_ext h (l := [.complete]) (by simp [St.cancel, St.emit, hs]) (by simp) (by simp)
      (by simp [St.cancel, St.emit, hs]) (by simp [St.cancel, St.emit, hs]) (by simp [St.cancel, St.emit, hs])
  | new v hs hf hfin =>
    refine ⟨?_, ?_, ?_, ?_, ?_⟩
    · intro k hk
      simp only [St.transmit] at hk ⊢
      rcases List.mem_append.mp hk with hk | hk
      · have := hw.next k _ hk; simp; omega
      · simp at hk; simp [hk]
    · have := h.rp; have := h.hn; simp only [St.transmit]; simp; omega
    · simp [St.transmit]
    · intro pre j b post e
      simp only [St.transmit] at e ⊢
      rcases snoc_split e with ⟨_, e0, _⟩ | ⟨post', _, e1⟩
      · cases e0
      · exact h.after pre j b post' e1
    · intro hc pre j b post e
      simp only [St.transmit] at e ⊢
      rcases snoc_split e with ⟨_, e0, _⟩ | ⟨post', _, e1⟩
      · cases e0
      · exact h.one hc pre j b post' e1
  | skip _ => exact rec_ext h (l := []) (by simp) (by simp) (by simp) rfl rfl (Nat.le_succ _)
  | resend v k q hq hs hh hl hm =>
    exact rec_ext h (l := [.interest k true]) rfl (by simp) (by simp) rfl rfl (Nat.le_refl _)
  | loss k e hc hk hs => exact rec_decr h rfl (Or.inl hk) hc rfl rfl rfl
  | enqueue k x hx hs hcl =>
    have f := enqueue_fields s k
    dsimp only at f
    exact rec_ext h (l := []) (by simp [f]) (by simp) (by simp) (by simp [f]) (by simp [f]) (by simp [f])
  | throwRange k hx hl hs hk =>
    have f := enqueue_fields s k
    dsimp only at f
    exact rec_ext h (l := []) (by simp [f]) (by simp) (by simp) (by simp [f]) (by simp [f]) (by simp [f])
  | deliver s1 k x p hs hx hn ha =>
    refine rec_ext (rec_adapts hw hcore hd h hx ha) (l := .data k p ::
      if x.state ≠ .retransmitted ∧ s1.retxCount k = 0 then [.sample k] else []) rfl ?_ ?_ rfl rfl (Nat.le_refl _)
    · intro j; split <;> simp
    · intro j b; split <;> simp
  | ub s1 k x p n hs hx hn hc ha =>
    exact rec_ext (rec_adapts hw hcore hd h hx ha) (l := [.data k p]) rfl (by simp) (by simp) rfl rfl (Nat.le_refl _)
  | posted m rest hp =>
    exact rec_ext h (l := [.failure m]) rfl (by simp) (by simp) rfl rfl (Nat.le_refl _)
  | _ => exact rec_ext h (l := []) (by simp [St.called, St.cancelGreater]) (by simp) (by simp) rfl rfl (Nat.le_refl _)

theorem hd_ext {s t : St σ} (h : Hd s) {l} (hl : t.log = s.log ++ l) (h3 : t.highData = s.highData) : Hd t := by
  unfold Hd
  rw [h3, hl, received_append]
  rcases h with h | h
  · exact Or.inl h
  · exact Or.inr (List.mem_append_left _ h)

theorem hd_data {A : Alg σ ε} {o : Opts} {s s1 t : St σ} {k p sm} (h : Hd s) (ha : Adapts A o s k p s1)
    (hl : t.log = s1.log ++ (.data k p :: sm)) (h3 : t.highData = s1.highData) : Hd t := by
  have h4 : s1.highData = max s.highData k := by cases ha <;> rfl
  obtain ⟨ad, h1, _, _⟩ := adapts_log ha
  unfold Hd
  rw [h3, h4, hl, h1]
  simp only [received_append, received_cons_data]
  rcases Nat.le_total s.highData k with hle | hle
  · right; rw [Nat.max_eq_right hle]; simp
  · rw [Nat.max_eq_left hle]
    rcases h with h | h
    · exact Or.inl h
    · right; simp [h]

theorem hd_micro {A : Alg σ ε} {o : Opts} {al : Allow} {s s' : St σ} (h : Hd s) (m : Micro A o al s s') :
    Hd s' := by
  obtain ⟨l, hl, _⟩ := micro_adds m
  cases m with
  | complete hs ha => exact hd_ext h hl (by simp [St.cancel, St.emit, hs])
  | enqueue k x hx hs hcl =>
    have f := enqueue_fields s k
    dsimp only at f
    exact hd_ext h hl (by simp [f])
  | throwRange k hx _ hs hk =>
    have f := enqueue_fields s k
    dsimp only at f
    exact hd_ext h hl (by simp [f])
  | deliver s1 k x p hs hx hn ha => exact hd_data h ha rfl rfl
  | ub s1 k x p n hs hx hn hc ha => exact hd_data (sm := []) h ha rfl rfl
  | _ => exact hd_ext h hl rfl

theorem run_rec {A : Alg σ ε} {o : Opts} {al : Allow} {w : σ} {v : Env ε} {es s}
    (hR : al.clean → o.maxRetries = -1) (h : ARun A o w v al es s) : Rec o s := by
  have := arun_inv (P := fun s => Core s ∧ Hd s ∧ Rec o s) hR h
    ⟨core_initial w, Or.inl rfl, rec_initial o w⟩
    (fun _ _ hw hc hm => ⟨core_micro hw hc.1 hm, hd_micro hc.2.1 hm, rec_micro hw hc.1 hc.2.1 hc.2.2 hm⟩)
  exact this.2.2

/-- A decrease because of a congestion mark: the Data that carries the mark is delivered next, and the
segment compared with the recovery point has been received by then. -/
def MarkData (s : St σ) : Prop := ∀ pre k post, s.log = pre ++ Obs.decr k true :: post →
  ∃ j p post', post = Obs.data j p :: post' ∧ p.congMark = true ∧ (k = j ∨ k ∈ received pre)

theorem markData_ext {s t : St σ} (h : MarkData s) {l} (hl : t.log = s.log ++ l)
    (h2 : ∀ pre k post, l = pre ++ Obs.decr k true :: post →
      ∃ j p post', post = Obs.data j p :: post' ∧ p.congMark = true ∧ (k = j ∨ k ∈ received (s.log ++ pre))) :
    MarkData t := by
  intro pre k post e
  rw [hl] at e
  rcases split_append e with ⟨post', e1, e2⟩ | ⟨pre', e1, e2⟩
  · obtain ⟨j, p, post'', h3, h4⟩ := h pre k post' e1
    exact ⟨j, p, post'' ++ l, by rw [e2, h3]; simp, h4⟩
  · rw [e1]; exact h2 pre' k post e2

theorem markData_data {A : Alg σ ε} {o : Opts} {s s1 t : St σ} {k p sm} (h : MarkData s) (hd : Hd s)
    (ha : Adapts A o s k p s1) (hl : t.log = s1.log ++ (.data k p :: sm))
    (hsm : ∀ j, Obs.decr j true ∉ sm) : MarkData t := by
  have hno : ∀ l : List Obs, (∀ j, Obs.decr j true ∉ l) → ∀ pre k' post, l = pre ++ Obs.decr k' true :: post → False := by
    intro l hl pre k' post e
    exact hl k' (by rw [e]; simp)
  cases ha with
  | decr e hm _ _ =>
    refine markData_ext h (l := [.decr (max s.highData k) true] ++ (.data k p :: sm)) (by rw [hl]; simp) ?_
    intro pre k' post e'
    rcases split_append e' with ⟨post', e1, e2⟩ | ⟨pre', e1, e2⟩
    · obtain ⟨rfl, h2, rfl⟩ := single_split e1
      simp at h2
      subst h2
      refine ⟨k, p, sm, by simpa using e2, hm, ?_⟩
      rcases Nat.le_total s.highData k with hle | hle
      · left; exact Nat.max_eq_right hle
      · rw [Nat.max_eq_left hle]
        rcases hd with hd | hd
        · left; omega
        · right; simpa using hd
    · exact (hno _ (by intro j; simp [hsm j]) _ _ _ e2).elim
  | keep _ _ _ =>
    refine markData_ext h (l := .data k p :: sm) hl ?_
    intro pre k' post e
    exact (hno _ (by intro j; simp [hsm j]) _ _ _ e).elim
  | incr e _ =>
    refine markData_ext h (l := .incr :: .data k p :: sm) (by rw [hl]; simp) ?_
    intro pre k' post e
    exact (hno _ (by intro j; simp [hsm j]) _ _ _ e).elim

theorem markData_micro {A : Alg σ ε} {o : Opts} {al : Allow} {s s' : St σ} (hd : Hd s) (h : MarkData s)
    (m : Micro A o al s s') : MarkData s' := by
  obtain ⟨l, hl, hadd⟩ := micro_adds m
  have hno : (∀ j, Obs.decr j true ∉ l) → MarkData s' := by
    intro hn
    refine markData_ext h hl ?_
    intro pre k post e
    exact absurd (by rw [e]; simp) (hn k)
  cases m with
  | deliver s1 k x p hs hx hn ha =>
    exact markData_data h hd ha rfl (by intro j; split <;> simp)
  | ub s1 k x p n hs hx hn hc ha => exact markData_data (sm := []) h hd ha rfl (by simp)
  | loss k e hc hk hs =>
    have : l = [.decr k false] := by simpa using hl.symm
    exact hno (by simp [this])
  | new v hs hf hfin =>
    have : l = [.interest s.nextSegmentNo false] := by simpa [St.transmit] using hl.symm
    exact hno (by simp [this])
  | resend v k q hq hs hh hlast hm =>
    have : l = [.interest k true] := by simpa [St.transmit] using hl.symm
    exact hno (by simp [this])
  | complete hs ha =>
    have : l = [.complete] := by simpa [St.cancel, St.emit, hs] using hl.symm
    exact hno (by simp [this])
  | posted m rest hp =>
    have : l = [.failure m] := by simpa using hl.symm
    exact hno (by simp [this])
  | enqueue k x hx hs hcl =>
    rw [enqueue_log] at hl
    have : l = [] := by simpa using hl
    exact hno (by simp [this])
  | throwRange k hx _ hs hk =>
    rw [enqueue_log] at hl
    have : l = [] := by simpa using hl
    exact hno (by simp [this])
  | _ =>
    have : l = [] := by simpa [St.called, St.cancelGreater] using hl
    exact hno (by simp [this])

theorem run_markData {A : Alg σ ε} {o : Opts} {al : Allow} {w : σ} {v : Env ε} {es s}
    (hR : al.clean → o.maxRetries = -1) (h : ARun A o w v al es s) : MarkData s := by
  have := arun_inv (P := fun s => Hd s ∧ MarkData s) hR h
    ⟨Or.inl rfl, by intro pre k post e; simp [initial] at e⟩
    (fun _ _ hw hc hm => ⟨hd_micro hc.1 hm, markData_micro hc.1 hc.2 hm⟩)
  exact this.2

/-! ## Counters -/

/-- The counters as functions of the history. -/
structure Stats (s : St σ) : Prop where
  sent : s.nSent = s.log.countP (fun x => match x with | .interest _ _ => true | _ => false)
  retx : s.nRetransmitted = s.log.countP (fun x => match x with | .interest _ true => true | _ => false)
  loss : s.nLossDecr = s.log.countP (fun x => match x with | .decr _ false => true | _ => false)
  mark : s.nMarkDecr = s.log.countP (fun x => match x with | .decr _ true => true | _ => false)
  recv : s.nReceived = (received s.log).length
  size : s.receivedSize =
    (s.log.map (fun x => match x with | .data _ p => p.content.length | _ => 0)).sum
  cong : s.nCongMarks = s.log.countP (fun x => match x with | .data _ p => p.congMark | _ => false)

theorem stats_data {A : Alg σ ε} {o : Opts} {s s1 t : St σ} {k p sm} (h : Stats s)
    (ha : Adapts A o s k p s1) (hl : t.log = s1.log ++ (.data k p :: sm)) (hsm : sm = [] ∨ sm = [.sample k])
    (e1 : t.nSent = s1.nSent) (e2 : t.nRetransmitted = s1.nRetransmitted) (e3 : t.nLossDecr = s1.nLossDecr)
    (e4 : t.nMarkDecr = s1.nMarkDecr) (e5 : t.nReceived = s1.nReceived + 1)
    (e6 : t.receivedSize = s1.receivedSize + p.content.length) (e7 : t.nCongMarks = s1.nCongMarks) : Stats t := by
  obtain ⟨h1, h2, h3, h4, h5, h6, h7⟩ := h
  rcases hsm with rfl | rfl <;> cases ha <;> constructor <;>
    simp [e1, e2, e3, e4, e5, e6, e7, hl, List.countP_append, received_append, h1, h2, h3, h4, h5, h6, h7,
      received, List.countP_cons, Nat.add_assoc] <;> (split <;> simp)

theorem stats_micro {A : Alg σ ε} {o : Opts} {al : Allow} {s s' : St σ} (h : Stats s)
    (m : Micro A o al s s') : Stats s' := by
  obtain ⟨h1, h2, h3, h4, h5, h6, h7⟩ := h
  cases m with
  | complete hs ha =>
    constructor <;> simp [St.cancel, St.emit, hs, List.countP_append, received_append, h1, h2, h3, h4, h5, h6, h7, received]
  | new v hs hf hfin =>
    constructor <;> simp [St.transmit, List.countP_append, received_append, h1, h2, h3, h4, h5, h6, h7, received]
  | resend v k q hq hs hh hlast hm =>
    constructor <;> simp [St.transmit, List.countP_append, received_append, h1, h2, h3, h4, h5, h6, h7, received]
  | loss k e hc hk hs =>
    constructor <;> simp [List.countP_append, received_append, h1, h2, h3, h4, h5, h6, h7, received]
  | enqueue k x hx hs hcl =>
    have f := enqueue_fields s k
    dsimp only at f
    constructor <;> simp [f, h1, h2, h3, h4, h5, h6, h7]
  | throwRange k hx _ hs hk =>
    have f := enqueue_fields s k
    dsimp only at f
    constructor <;> simp [f, h1, h2, h3, h4, h5, h6, h7]
  | deliver s1 k x p hs hx hn ha =>
    refine stats_data (sm := if x.state ≠ .retransmitted ∧ s1.retxCount k = 0 then [.sample k] else [])
      ⟨h1, h2, h3, h4, h5, h6, h7⟩ ha rfl ?_ rfl rfl rfl rfl rfl rfl rfl
    split
    · exact Or.inr rfl
    · exact Or.inl rfl
  | ub s1 k x p n hs hx hn hc ha =>
    exact stats_data (sm := []) ⟨h1, h2, h3, h4, h5, h6, h7⟩ ha rfl (Or.inl rfl) rfl rfl rfl rfl rfl rfl rfl
  | posted m rest hp =>
    constructor <;> simp [List.countP_append, received_append, h1, h2, h3, h4, h5, h6, h7, received]
  | _ => exact ⟨h1, h2, h3, h4, h5, h6, h7⟩

theorem run_stats {A : Alg σ ε} {o : Opts} {al : Allow} {w : σ} {v : Env ε} {es s}
    (hR : al.clean → o.maxRetries = -1) (h : ARun A o w v al es s) : Stats s :=
  arun_inv (P := Stats) hR h (by constructor <;> simp [initial, received])
    (fun _ _ _ hc hm => stats_micro hc hm)

/-! ## The end of the transfer (C11, C13) -/

attribute [local simp] Obs.isFailure

structure Hist (al : Allow) (s : St σ) : Prop where
  quiet : s.isStopping = false → s.posted = [] ∧ (∀ m, Obs.failure m ∉ s.log) ∧ Obs.complete ∉ s.log
  once : s.log.countP Obs.isFailure + s.posted.length ≤ 1
  compl : Obs.complete ∈ s.log → s.posted = [] ∧ (∀ m, Obs.failure m ∉ s.log) ∧
    ∃ pre, s.log = pre ++ [.complete] ∧ Obs.complete ∉ pre
  fails : (∃ m, Obs.failure m ∈ s.log) → ∃ pre m, s.log = pre ++ [Obs.failure m]
  all : Obs.complete ∈ s.log → s.hasFinalBlockId = true ∧ s.lastSegmentNo + 1 ≤ s.nReceived
  net : ∀ k p, Obs.data k p ∈ s.log → al.net k p
  fin : s.hasFinalBlockId = true → ∃ k p, al.net k p ∧ p.final = .seg s.lastSegmentNo

theorem hist_initial (al : Allow) (w : σ) : Hist al (initial w) := by
  constructor <;> simp [initial]

theorem hist_micro {A : Alg σ ε} {o : Opts} {al : Allow} {s s' : St σ} (h : Hist al s)
    (m : Micro A o al s s') : Hist al s' := by
  obtain ⟨h1, h2, h3, h4, h5, h6, h7⟩ := h
  have hq : ∀ {t : St σ}, s.isStopping = false → ∀ l, t.log = s.log ++ l →
      (∀ m, Obs.failure m ∉ l) → Obs.complete ∉ l → t.posted = s.posted →
      (∀ k p, Obs.data k p ∈ l → al.net k p) → t.hasFinalBlockId = s.hasFinalBlockId →
      t.lastSegmentNo = s.lastSegmentNo → Hist al t := by
    intro t hs l hl hf hc hp hn e1 e2
    obtain ⟨q1, q2, q3⟩ := h1 hs
    have hnf : ∀ m, Obs.failure m ∉ t.log := by
      intro m hm; rw [hl] at hm
      rcases List.mem_append.mp hm with hm | hm
      · exact q2 m hm
      · exact hf m hm
    have hnc : Obs.complete ∉ t.log := by
      intro hm; rw [hl] at hm
      rcases List.mem_append.mp hm with hm | hm
      · exact q3 hm
      · exact hc hm
    refine ⟨fun _ => ⟨by rw [hp, q1], hnf, hnc⟩, ?_, fun h => absurd h hnc,
      fun ⟨m, hm⟩ => absurd hm (hnf m), fun h => absurd h hnc, ?_, ?_⟩
    · rw [hp, q1]
      have : t.log.countP Obs.isFailure = 0 := by
        rw [List.countP_eq_zero]
        intro x hx
        cases x <;> simp
        exact hnf _ hx
      simp [this]
    · intro k p hk; rw [hl] at hk
      rcases List.mem_append.mp hk with hk | hk
      · exact h6 k p hk
      · exact hn k p hk
    · rw [e1, e2]; exact h7
  cases m with
  | called k hk => exact ⟨h1, h2, h3, h4, h5, h6, h7⟩
  | stat t n a ha => exact ⟨h1, h2, h3, h4, h5, h6, h7⟩
  | stop rc q n posted' hs hp hrc =>
    obtain ⟨q1, q2, q3⟩ := h1 hs
    refine ⟨by simp, ?_, fun h => absurd h q3, fun ⟨m, hm⟩ => absurd hm (q2 m), fun h => absurd h q3, h6, h7⟩
    have : s.log.countP Obs.isFailure = 0 := by
      rw [List.countP_eq_zero]
      intro x hx
      cases x <;> simp
      exact q2 _ hx
    rcases hp with rfl | ⟨m, rfl, _⟩
    · exact h2
    · simp [this, q1]
  | complete hs ha =>
    obtain ⟨q1, q2, q3⟩ := h1 hs
    have e1 : (s.cancel.emit .complete).log = s.log ++ [.complete] := by simp [St.cancel, St.emit, hs]
    have e2 : (s.cancel.emit .complete).posted = [] := by simp [St.cancel, St.emit, hs, q1]
    have hnf : ∀ m, Obs.failure m ∉ s.log ++ [.complete] := by simpa using q2
    refine ⟨by simp [St.cancel, St.emit, hs], ?_, ?_, ?_, ?_, ?_, ?_⟩
    · rw [e1, e2]; simp [List.countP_append]; rw [q1] at h2; simpa using h2
    · intro _; rw [e1, e2]; exact ⟨rfl, hnf, s.log, rfl, q3⟩
    · rw [e1]; rintro ⟨m, hm⟩; exact absurd hm (hnf m)
    · intro _
      unfold St.allSegmentsReceived at ha
      simp [St.cancel, St.emit, hs] at ha ⊢
      exact ⟨ha.1.2, by omega⟩
    · intro k p hk; rw [e1] at hk; exact h6 k p (by simpa using hk)
    · simpa [St.cancel, St.emit, hs] using h7
  | new v hs hf hfin => exact hq hs [.interest s.nextSegmentNo false] rfl (by simp) (by simp) rfl (by simp) rfl rfl
  | skip _ => exact ⟨h1, h2, h3, h4, h5, h6, h7⟩
  | pop k q n _ _ => exact ⟨h1, h2, h3, h4, h5, h6, h7⟩
  | resend v k q hqq hs hh hlast hm => exact hq hs [.interest k true] rfl (by simp) (by simp) rfl (by simp) rfl rfl
  | fail k m q rc hs hf hk he hcl hl hqq => exact hq hs [] (by simp [St.cancelGreater]) (by simp) (by simp) rfl (by simp) rfl rfl
  | loss k e hc hk hs => exact hq hs [.decr k false] rfl (by simp) (by simp) rfl (by simp) rfl rfl
  | enqueue k x hx hs hcl =>
    have f := enqueue_fields s k
    dsimp only at f
    exact hq hs [] (by simp [f]) (by simp) (by simp) (by simp [f]) (by simp) (by simp [f]) (by simp [f])
  | throwRange k hx _ hs hk =>
    have f := enqueue_fields s k
    dsimp only at f
    exact hq hs [] (by simp [f]) (by simp) (by simp) (by simp [f]) (by simp) (by simp [f]) (by simp [f])
  | throwFinal k p hs hnet hp => exact ⟨h1, h2, h3, h4, h5, h6, h7⟩
  | final k p n hs hf hn hp hcl =>
    obtain ⟨q1, q2, q3⟩ := h1 hs
    exact ⟨h1, h2, h3, h4, fun h => absurd h q3, h6, fun _ => ⟨k, p, hn, hp⟩⟩
  | clear hs hf hcl => exact ⟨h1, h2, h3, h4, h5, h6, h7⟩
  | deliver s1 k x p hs hx hn ha =>
    obtain ⟨ad, e1, e2, e3⟩ := adapts_log ha
    have f := adapts_fields ha
    refine hq hs (ad ++ .data k p :: if x.state ≠ .retransmitted ∧ s1.retxCount k = 0 then [.sample k] else [])
      (by dsimp only; rw [e1]; simp) ?_ ?_ f.2.2.2.2.1 ?_ f.1 f.2.1
    · intro m; rcases e3 with rfl | rfl | ⟨rfl, _⟩ <;> split <;> simp
    · rcases e3 with rfl | rfl | ⟨rfl, _⟩ <;> split <;> simp
    · intro k' p' hk'
      have : k' = k ∧ p' = p := by
        rcases e3 with rfl | rfl | ⟨rfl, _⟩ <;> split at hk' <;> simpa using hk'
      rw [this.1, this.2]; exact hn
  | ub s1 k x p n hs hx hn hc ha =>
    obtain ⟨ad, e1, e2, e3⟩ := adapts_log ha
    have f := adapts_fields ha
    refine hq hs (ad ++ [.data k p]) (by dsimp only; rw [e1]; simp) ?_ ?_ f.2.2.2.2.1 ?_ f.1 f.2.1
    · intro m; rcases e3 with rfl | rfl | ⟨rfl, _⟩ <;> simp
    · rcases e3 with rfl | rfl | ⟨rfl, _⟩ <;> simp
    · intro k' p' hk'
      have : k' = k ∧ p' = p := by
        rcases e3 with rfl | rfl | ⟨rfl, _⟩ <;> simpa using hk'
      rw [this.1, this.2]; exact hn
  | posted m rest hp =>
    have hst : s.isStopping = true := by
      cases hs : s.isStopping with
      | true => rfl
      | false => have := (h1 hs).1; rw [hp] at this; cases this
    have hnc : Obs.complete ∉ s.log := fun h => by have := (h3 h).1; rw [hp] at this; cases this
    refine ⟨by simp [hst], ?_, ?_, ?_, ?_, ?_, h7⟩
    · rw [hp] at h2
      simp [List.countP_append] at h2 ⊢
      omega
    · intro hc; exact absurd (by simpa using hc) hnc
    · intro _; exact ⟨s.log, m, rfl⟩
    · intro hc; exact absurd (by simpa using hc) hnc
    · intro k p hk; exact h6 k p (by simpa using hk)

theorem run_hist {A : Alg σ ε} {o : Opts} {al : Allow} {w : σ} {v : Env ε} {es s}
    (hR : al.clean → o.maxRetries = -1) (h : ARun A o w v al es s) : Hist al s :=
  arun_inv (P := Hist al) hR h (hist_initial al w) (fun _ _ _ hc hm => hist_micro hc hm)

/-- Once stopped, always stopped; and only failure callbacks that were posted before become visible. -/
def Frozen (s s' : St σ) : Prop :=
  s'.isStopping = true ∧ ∃ l, s'.log = s.log ++ l ∧ (∀ x ∈ l, ∃ m, x = Obs.failure m) ∧
    l.length + s'.posted.length = s.posted.length

theorem frozen_micro {A : Alg σ ε} {o : Opts} {al : Allow} {s s' : St σ} (hs : s.isStopping = true)
    (m : Micro A o al s s') : Frozen s s' := by
  have hno : s.isStopping = false → Frozen s s' := by intro h; rw [hs] at h; cases h
  cases m with
  | called k hk => exact ⟨hs, [], by simp [St.called], by simp, by simp [St.called]⟩
  | stat t n a ha => exact ⟨hs, [], by simp, by simp, by simp⟩
  | skip _ => exact ⟨hs, [], by simp, by simp, by simp⟩
  | pop k q n _ _ => exact ⟨hs, [], by simp, by simp, by simp⟩
  | posted m rest hp => exact ⟨hs, [.failure m], rfl, by simp, by simp [hp, Nat.add_comm]⟩
  | stop rc q n posted' h hp hrc => exact hno h
  | complete h ha => exact hno h
  | new v h hf hfin => exact hno h
  | resend v k q hqq h hh hlast hm => exact hno h
  | fail k m q rc h hf hk he hcl hl hqq => exact hno h
  | loss k e hc hk h => exact hno h
  | enqueue k x hx h hcl => exact hno h
  | throwRange k hx _ h hk => exact hno h
  | throwFinal k p h hnet hp => exact hno h
  | final k p n h hf hn hp hcl => exact hno h
  | clear h hf hcl => exact hno h
  | deliver s1 k x p h hx hn ha => exact hno h
  | ub s1 k x p n h hx hn hc ha => exact hno h

theorem frozen_steps {A : Alg σ ε} {o : Opts} {al : Allow} {s s' : St σ} (hs : s.isStopping = true)
    (m : Steps A o al s s') : Frozen s s' := by
  induction m with
  | refl => exact ⟨hs, [], by simp, by simp, by simp⟩
  | tail _ hm ih =>
    obtain ⟨h1, l, h2, h3, h4⟩ := ih
    obtain ⟨g1, l', g2, g3, g4⟩ := frozen_micro h1 hm
    refine ⟨g1, l ++ l', by rw [g2, h2]; simp, ?_, by simp; omega⟩
    intro x hx
    rcases List.mem_append.mp hx with hx | hx
    · exact h3 x hx
    · exact g3 x hx

/-- From a reachable state on, events are primitive changes. -/
theorem runFrom_steps {A : Alg σ ε} {o : Opts} {w : σ} {v : Env ε} {s es' s'} (hw : WF s)
    (h' : (machine A o w v).RunFrom s es' s') : Steps A o Allow.all s s' := by
  induction h' with
  | nil => exact .refl
  | snoc e _ he ih => exact ih.trans (steps_step (wf_steps hw ih) he (allowed_all o _ e))

/-! ## Nothing beyond the final segment (C12) -/

/-- Once the final segment number is known, tracked segments are not beyond it. -/
def Within (s : St σ) : Prop :=
  s.hasFinalBlockId = true → ∀ k, (get s.info k).isSome = true → k ≤ s.lastSegmentNo

theorem within_micro {A : Alg σ ε} {o : Opts} {al : Allow} {s s' : St σ} (h : Within s)
    (m : Micro A o al s s') : Within s' := by
  have hent := fun j => micro_entry (j := j) m
  have hsame : ∀ {t : St σ}, t.hasFinalBlockId = s.hasFinalBlockId → t.lastSegmentNo = s.lastSegmentNo →
      (∀ k, (get t.info k).isSome = true → (get s.info k).isSome = true) → Within t := by
    intro t e1 e2 e3 hf k hk
    rw [e2]; exact h (e1 ▸ hf) k (e3 k hk)
  cases m with
  | new v hs hf hfin =>
    intro hff k hk
    simp only [St.transmit] at hff hk ⊢
    rw [get_put] at hk
    split at hk
    · rename_i hkn
      rw [hkn]
      by_contra hc
      exact hfin ⟨hff, by omega⟩
    · exact h hff k hk
  | final k p n hs hf hn hp hcl =>
    intro _ j hj
    simp only [St.cancelGreater] at hj ⊢
    rw [get_filter] at hj
    split at hj
    · assumption
    · simp at hj
  | complete hs ha =>
    intro _ j hj; simp [St.cancel, St.emit, hs] at hj
  | enqueue k x hx hs hcl =>
    have f := enqueue_fields s k
    dsimp only at f
    refine hsame (by simp [f]) (by simp [f]) (fun j hj => ?_)
    rcases hent j hj with h1 | ⟨_, _, h3⟩
    · exact h1
    · simp [f] at h3
  | throwRange k hx _ hs hk =>
    have f := enqueue_fields s k
    dsimp only at f
    refine hsame (by simp [f]) (by simp [f]) (fun j hj => ?_)
    rcases hent j hj with h1 | ⟨_, _, h3⟩
    · exact h1
    · simp [f] at h3
  | resend v k q hq hs hh hlast hm =>
    refine hsame rfl rfl (fun j hj => ?_)
    rcases hent j hj with h1 | ⟨_, _, h3⟩
    · exact h1
    · simp [St.transmit] at h3
  | called k hk =>
    refine hsame rfl rfl (fun j hj => ?_)
    rcases hent j hj with h1 | ⟨_, _, h3⟩
    · exact h1
    · simp [St.called] at h3
  | fail k m q rc hs hf hk he hcl hl hqq =>
    intro hff; simp [St.cancelGreater, hf] at hff
  | deliver s1 k x p hs hx hn ha =>
    obtain ⟨_, _, _, e1, e2, e3, e4⟩ := adapts_frame ha
    have f := adapts_fields ha
    refine hsame f.1 f.2.1 (fun j hj => ?_)
    dsimp only at hj
    rw [e1, get_del] at hj
    split at hj
    · simp at hj
    · exact hj
  | ub s1 k x p n hs hx hn hc ha => intro _ j hj; simp at hj
  | stop rc q n posted' hs hp hrc => intro _ j hj; simp at hj
  | _ => exact h

theorem within_initial (w : σ) : Within (initial w) := by intro h; simp [initial] at h

/-- After the final segment number is known, requests and deliveries are within it. -/
def Bounded (s s' : St σ) : Prop :=
  s'.hasFinalBlockId = true ∧ s'.lastSegmentNo = s.lastSegmentNo ∧
  ∃ l, s'.log = s.log ++ l ∧ (∀ k b, Obs.interest k b ∈ l → k ≤ s.lastSegmentNo) ∧
    ∀ k p, Obs.data k p ∈ l → k ≤ s.lastSegmentNo

theorem bounded_micro {A : Alg σ ε} {o : Opts} {al : Allow} {s s' : St σ} (hin : Within s)
    (hf : s.hasFinalBlockId = true) (m : Micro A o al s s') : Bounded s s' := by
  obtain ⟨l, hl, hadd⟩ := micro_adds m
  have hlog : (∀ k b, Obs.interest k b ∈ l → k ≤ s.lastSegmentNo) ∧
      ∀ k p, Obs.data k p ∈ l → k ≤ s.lastSegmentNo := by
    cases hadd with
    | new hs hff hfin =>
      refine ⟨?_, by simp⟩
      intro k b hk
      simp at hk
      rw [hk.1]
      by_contra hc
      exact hfin ⟨hf, by omega⟩
    | resend k hs hh hlim hlast =>
      refine ⟨?_, by simp⟩
      intro j b hj
      simp at hj
      rw [hj.1]
      exact hin hf k hh
    | data k x p ad sm hs hx hnet had hsm hgone =>
      constructor
      · intro j b hj
        exfalso
        rcases had with rfl | rfl | ⟨rfl, _⟩ <;> rcases hsm with rfl | ⟨rfl, _⟩ <;> simp at hj
      · intro j p' hj
        have : j = k := by
          rcases had with rfl | rfl | ⟨rfl, _⟩ <;> rcases hsm with rfl | ⟨rfl, _⟩ <;> simp at hj <;> exact hj.1
        rw [this]
        exact hin hf k (by simp [hx])
    | _ => simp
  have hfin : s'.hasFinalBlockId = true ∧ s'.lastSegmentNo = s.lastSegmentNo := by
    cases m with
    | complete hs ha => simp [St.cancel, St.emit, hs, hf]
    | enqueue k x hx hs hcl => have f := enqueue_fields s k; dsimp only at f; simp [f, hf]
    | throwRange k hx _ hs hk => have f := enqueue_fields s k; dsimp only at f; simp [f, hf]
    | final k p n hs hff hn hp hcl => rw [hf] at hff; cases hff
    | deliver s1 k x p hs hx hn ha => have f := adapts_fields ha; exact ⟨f.1.trans hf, f.2.1⟩
    | ub s1 k x p n hs hx hn hc ha => have f := adapts_fields ha; exact ⟨f.1.trans hf, f.2.1⟩
    | _ => exact ⟨hf, rfl⟩
  exact ⟨hfin.1, hfin.2, l, hl, hlog⟩

theorem bounded_steps {A : Alg σ ε} {o : Opts} {al : Allow} {s s' : St σ} (hin : Within s)
    (hf : s.hasFinalBlockId = true) (m : Steps A o al s s') : Within s' ∧ Bounded s s' := by
  induction m with
  | refl => exact ⟨hin, hf, rfl, [], by simp, by simp, by simp⟩
  | tail _ hm ih =>
    obtain ⟨g0, g1, g2, l, g3, g4, g5⟩ := ih
    obtain ⟨b1, b2, l', b3, b4, b5⟩ := bounded_micro g0 g1 hm
    rw [g2] at b2 b4 b5
    refine ⟨within_micro g0 hm, b1, b2, l ++ l', by rw [b3, g3]; simp, ?_, ?_⟩
    · intro k b hk
      rcases List.mem_append.mp hk with hk | hk
      · exact g4 k b hk
      · exact b4 k b hk
    · intro k p hk
      rcases List.mem_append.mp hk with hk | hk
      · exact g5 k p hk
      · exact b5 k p hk

theorem run_within {A : Alg σ ε} {o : Opts} {al : Allow} {w : σ} {v : Env ε} {es s}
    (hR : al.clean → o.maxRetries = -1) (h : ARun A o w v al es s) : Within s :=
  arun_inv (P := Within) hR h (within_initial w) (fun _ _ _ hc hm => within_micro hc hm)

end Verif.Adaptive
