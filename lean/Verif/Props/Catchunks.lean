import Verif.Proofs.Catchunks
import Verif.Proofs.FixedWork

/-! # The program `ndncatchunks` as a whole -/

namespace Verif.Catchunks

variable {σ ε : Type}

private theorem end_to_end {P : Pipe σ ε} (hP : Proper P) {digest : Data → Bytes} {po : Producer.Opts}
    {pre0 : Name} {now : Nat} {input : Bytes} (hn : now < 2 ^ 64) (hm : 0 < po.maxSegmentSize)
    (hi : input.length < 2 ^ 64) {o : Discover.Opts} {conv : Convention} {fresh : Bool} {name : Name}
    (hname : ¬ (Producer.construct po pre0 now input).pre ++ [metadataComp] <+: name) {es s}
    (h : (netMachine P o digest (Producer.construct po pre0 now input) conv fresh name).Run es s) :
    s.stdout <+: input ∧ (s.Exits P 0 → s.stdout = input) ∧
    s.cons.threw ≠ some .appNack ∧ s.cons.threw ≠ some .invalid := by
  have henv := net_env h
  have hinv := prog_inv hP henv
  cases hp : s.pipe with
  | none =>
    have hz : ¬ s.Exits P 0 := by
      intro h0
      obtain ⟨n, q, h1, _⟩ := exits_zero hP henv h0
      rw [hp] at h1; cases h1
    rcases hinv.before hp with ⟨hc, _⟩ | ⟨hc, hc2, _⟩
    · refine ⟨?_, fun h0 => absurd h0 hz, ?_, ?_⟩
      · rw [St.stdout, hc]; exact List.nil_prefix
      · rw [hc]; simp
      · rw [hc]; simp
    · refine ⟨?_, fun h0 => absurd h0 hz, ?_, ?_⟩
      · rw [St.stdout, hc2]; exact List.nil_prefix
      · rw [hc]; simp
      · rw [hc]; simp
  | some nq =>
    obtain ⟨n, q⟩ := nq
    obtain ⟨hsucc, ⟨qes, hq⟩, hcons⟩ := hinv.after n q hp
    have hnn : ¬ (Producer.construct po pre0 now input).pre ++ [metadataComp] <+: n := by
      obtain ⟨des, hdr, hdq⟩ := hinv.disc
      by_cases hd : o.disable = true ∨ name.endsWithVersion = true
      · rw [Discover.C24_not_needed hd hdr] at hsucc
        simp only [List.mem_singleton, Discover.Obs.success.injEq] at hsucc
        rw [hsucc]; exact hname
      · have hd1 : o.disable = false := by
          by_contra hc; exact hd (Or.inl (by simpa using hc))
        have hd2 : name.endsWithVersion = false := by
          by_contra hc; exact hd (Or.inr (by simpa using hc))
        have := Discover.C55_honest_producer_partial digest hn hd1 hd2 hdr hdq hsucc
        obtain ⟨v, h1, h2⟩ := Producer.construct_vp (o := po) (pre := pre0) (input := input) hn
        rw [this, h1]
        intro hc
        have hv : metadataComp = v := by
          have := hc.eq_of_length (by simp)
          simpa using this
        rw [← hv, metadataComp_not_version] at h2
        cases h2
    have hG : ∀ k p, Call.data k p ∈ P.calls q →
        Consistent (Producer.split po.maxSegmentSize input) k p ∧ p.valid = true ∧ p.appNack = false := by
      intro k p hk
      obtain ⟨hk1, i, now', r, hr, ha⟩ := hP.came _ _ _ hq k p hk
      exact (answer_consistent hn hm hi hk1 hnn hr ha).2
    have honce := hP.once _ _ _ hq
    have hobj : ∀ l : List Call, (∀ x ∈ l, Call.exn x = none) → l.Sublist (P.calls q) →
        (∃ m, (l.foldl deliver {}).out = ((Producer.split po.maxSegmentSize input).take m).flatten) ∧
        ((∀ k < (Producer.split po.maxSegmentSize input).length, ∃ p, Call.data k p ∈ l) →
          (l.foldl deliver {}).out = input) := by
      intro l hl hsub
      obtain ⟨g1, g2⟩ := good_run hl
      have hno : ((Consumer.arrived (l.flatMap Call.evs)).map Prod.fst).Nodup := by
        rw [arrived_no hl]; exact (hsub.filterMap _).nodup honce
      have hfrom : Consumer.FromObject (Producer.split po.maxSegmentSize input) (l.flatMap Call.evs) := by
        intro k c hkc
        obtain ⟨p, h1, _, rfl⟩ := mem_arrived.mp hkc
        exact (hG k p (hsub.subset h1)).1.1
      obtain ⟨⟨m, _, h1, _⟩, h2⟩ := Consumer.C21_object g1 (evs_notBad hl) hno hfrom
      refine ⟨⟨m, h1⟩, ?_⟩
      intro hall
      rw [h2, Producer.split_flatten hm]
      intro k hk
      obtain ⟨p, hp⟩ := hall k hk
      exact ⟨p.content, mem_arrived.mpr ⟨p, hp, (hG k p (hsub.subset hp)).2.2, rfl⟩⟩
    have htake : ∀ m, ((Producer.split po.maxSegmentSize input).take m).flatten <+: input := by
      intro m
      have h1 := Producer.split_flatten hm input
      conv => rhs; rw [← h1, ← List.take_append_drop m (Producer.split po.maxSegmentSize input), List.flatten_append]
      exact List.prefix_append _ _
    rcases first_bad (P.calls q) with hb | ⟨pre, x, post, e, h5, h6, h7⟩
    · obtain ⟨⟨m, h1⟩, h2⟩ := hobj _ hb (List.Sublist.refl _)
      have ht := (good_run hb).2
      rw [← hcons] at h1 h2 ht
      refine ⟨?_, ?_, by rw [ht]; simp, by rw [ht]; simp⟩
      · rw [St.stdout, h1]; exact htake m
      · intro h0
        obtain ⟨n', q', hp', g1, g2, g3⟩ := exits_zero hP henv h0
        rw [hp] at hp'
        simp only [Option.some.injEq, Prod.mk.injEq] at hp'
        obtain ⟨rfl, rfl⟩ := hp'
        apply h2
        refine hP.done _ _ _ _ hq ?_ g2 g1 ?_
        · rintro k p ⟨hk1, i, now', r, hr, ha⟩
          exact (answer_consistent hn hm hi hk1 hnn hr ha).2.1
        · intro m' hm'
          have := g3 _ hm'
          simp [Call.exn] at this
    · obtain ⟨h8, h9⟩ := fold_bad (post := post) h6 h7
      rw [← h5, ← hcons] at h8 h9
      obtain ⟨⟨m, h1⟩, _⟩ := hobj pre h6 (by rw [h5]; exact List.sublist_append_left _ _)
      have hex : e = .failure := by
        cases x with
        | failure m => simpa [Call.exn] using h7.symm
        | data k p =>
          obtain ⟨_, g1, g2⟩ := hG k p (by rw [h5]; simp)
          simp [Call.exn, g1, g2] at h7
      subst hex
      refine ⟨?_, ?_, by rw [h8]; simp, by rw [h8]; simp⟩
      · rw [St.stdout, h9, h1]; exact htake m
      · intro h0
        obtain ⟨n', q', hp', _, _, g3⟩ := exits_zero hP henv h0
        rw [hp] at hp'
        simp only [Option.some.injEq, Prod.mk.injEq] at hp'
        obtain ⟨rfl, rfl⟩ := hp'
        have := g3 x (by rw [h5]; simp)
        rw [this] at h7; cases h7

/-- **C22 (fixed pipeline)** `ndncatchunks` and `ndnputchunks` together. The producer publishes `input`;
the consumer asks for any name that is not below the metadata name of the object (in
particular for the name of the object, with or without version), with any options. All Data come from
the producer, directly or from caches; packets may be lost, delayed, reordered, repeated and answered by
Nacks. Then what was written to the standard output is always the beginning of `input`; and
when the program exits with status 0, it is `input`. Moreover the program never exits with status 3 or 5. -/
theorem C22_fixed {N : Nat} {R : Int} (hN : 0 < N) {digest : Data → Bytes} {po : Producer.Opts}
    {pre0 : Name} {now : Nat} {input : Bytes} (hn : now < 2 ^ 64) (hm : 0 < po.maxSegmentSize)
    (hi : input.length < 2 ^ 64) {o : Discover.Opts} {conv : Convention} {fresh : Bool} {name : Name}
    (hname : ¬ (Producer.construct po pre0 now input).pre ++ [metadataComp] <+: name) {es s}
    (h : (netMachine (fixedPipe N R) o digest (Producer.construct po pre0 now input) conv fresh name).Run es s) :
    s.stdout <+: input ∧ (s.Exits (fixedPipe N R) 0 → s.stdout = input) ∧
    ∀ n, s.Exits (fixedPipe N R) n → n = 0 ∨ n = 1 := by
  obtain ⟨h1, h2, h3, h4⟩ := end_to_end (fixed_proper hN) hn hm hi hname h
  refine ⟨h1, h2, ?_⟩
  intro n hx
  unfold St.Exits at hx
  split at hx
  · rename_i e; exact absurd e h3
  · rename_i e; exact absurd e h4
  · exact Or.inr hx
  · rcases hx with hx | hx
    · exact Or.inr hx.2
    · exact Or.inl hx.2.2

/-- **C22 (adaptive pipelines)** The same with the AIMD or the CUBIC pipeline (or any other window
algorithm), any options, start window and clock. -/
theorem C22_adaptive {A : Adaptive.Alg σ ε} {ao : Adaptive.Opts} {w : σ} {v : Adaptive.Env ε}
    {digest : Data → Bytes} {po : Producer.Opts}
    {pre0 : Name} {now : Nat} {input : Bytes} (hn : now < 2 ^ 64) (hm : 0 < po.maxSegmentSize)
    (hi : input.length < 2 ^ 64) {o : Discover.Opts} {conv : Convention} {fresh : Bool} {name : Name}
    (hname : ¬ (Producer.construct po pre0 now input).pre ++ [metadataComp] <+: name) {es s}
    (h : (netMachine (adaptivePipe A ao w v) o digest (Producer.construct po pre0 now input) conv fresh name).Run es s) :
    s.stdout <+: input ∧ (s.Exits (adaptivePipe A ao w v) 0 → s.stdout = input) ∧
    ∀ n, s.Exits (adaptivePipe A ao w v) n → n = 0 ∨ n = 1 := by
  obtain ⟨h1, h2, h3, h4⟩ := end_to_end adaptive_proper hn hm hi hname h
  refine ⟨h1, h2, ?_⟩
  intro n hx
  unfold St.Exits at hx
  split at hx
  · rename_i e; exact absurd e h3
  · rename_i e; exact absurd e h4
  · exact Or.inr hx
  · rcases hx with hx | hx
    · exact Or.inr hx.2
    · exact Or.inl hx.2.2

private theorem exit_status {P : Pipe σ ε} (hP : Proper P) {o : Discover.Opts} {name : Name} {es s}
    (h : (machine P o name).Run es s) :
    (s.Exits P 0 → ∃ n q, s.pipe = some (n, q) ∧ ∀ x ∈ P.calls q, x.good) ∧
    ∀ n q pre x post, s.pipe = some (n, q) → P.calls q = pre ++ x :: post → (∀ y ∈ pre, Call.good y) → ¬ x.good →
      (∀ c, s.Exits P c ↔ c = x.status) ∧
      ∃ cs : List Bytes, s.stdout = cs.flatten ∧
        ∀ (j : Nat) c, cs[j]? = some c → ∃ p, Call.data j p ∈ pre ∧ p.content = c := by
  have henv := run_env h
  refine ⟨?_, ?_⟩
  · intro h0
    obtain ⟨n, q, h1, _, _, h2⟩ := exits_zero hP henv h0
    exact ⟨n, q, h1, fun x hx => good_iff.mpr (h2 x hx)⟩
  · intro n q pre x post hp hc hg hx
    rw [good_iff] at hx
    obtain ⟨e, he⟩ := Option.ne_none_iff_exists'.mp hx
    obtain ⟨h1, h2⟩ := exits_bad hP henv hp hc (fun y hy => good_iff.mp (hg y hy)) he
    refine ⟨?_, h2⟩
    intro c
    unfold St.Exits
    rw [h1]
    cases x with
    | failure m =>
      simp only [Call.exn, Option.some.injEq] at he
      subst he
      rfl
    | data k p =>
      simp only [Call.exn] at he
      simp only [Call.status]
      cases hv : p.valid with
      | true =>
        cases ha : p.appNack with
        | true => simp [hv, ha] at he; subst he; rfl
        | false => simp [hv, ha] at he
      | false => simp [hv] at he; subst he; rfl

/-- **C23 (exit status, fixed pipeline)** With arbitrary Data: exit status 0 means that every delivered packet
was valid and no application Nack, and the pipeline did not fail. The first packet that is invalid
leads to exit status 5, the first application Nack to 3, failure of the pipeline to 1; and
what was written then consists of contents of packets delivered before it. -/
theorem C23_exit_fixed {N : Nat} {R : Int} (hN : 0 < N) {o : Discover.Opts} {name : Name} {es s}
    (h : (machine (fixedPipe N R) o name).Run es s) :
    (s.Exits (fixedPipe N R) 0 → ∃ n q, s.pipe = some (n, q) ∧ ∀ x ∈ (fixedPipe N R).calls q, x.good) ∧
    ∀ n q pre x post, s.pipe = some (n, q) → (fixedPipe N R).calls q = pre ++ x :: post →
      (∀ y ∈ pre, Call.good y) → ¬ x.good →
      (∀ c, s.Exits (fixedPipe N R) c ↔ c = x.status) ∧
      ∃ cs : List Bytes, s.stdout = cs.flatten ∧
        ∀ (j : Nat) c, cs[j]? = some c → ∃ p, Call.data j p ∈ pre ∧ p.content = c :=
  exit_status (fixed_proper hN) h

/-- **C23 (exit status, adaptive pipelines)** -/
theorem C23_exit_adaptive {A : Adaptive.Alg σ ε} {ao : Adaptive.Opts} {w : σ} {v : Adaptive.Env ε}
    {o : Discover.Opts} {name : Name} {es s} (h : (machine (adaptivePipe A ao w v) o name).Run es s) :
    (s.Exits (adaptivePipe A ao w v) 0 →
      ∃ n q, s.pipe = some (n, q) ∧ ∀ x ∈ (adaptivePipe A ao w v).calls q, x.good) ∧
    ∀ n q pre x post, s.pipe = some (n, q) → (adaptivePipe A ao w v).calls q = pre ++ x :: post →
      (∀ y ∈ pre, Call.good y) → ¬ x.good →
      (∀ c, s.Exits (adaptivePipe A ao w v) c ↔ c = x.status) ∧
      ∃ cs : List Bytes, s.stdout = cs.flatten ∧
        ∀ (j : Nat) c, cs[j]? = some c → ∃ p, Call.data j p ∈ pre ∧ p.content = c :=
  exit_status adaptive_proper h

/-! ## C72: over a network that does not lose too much the transfer succeeds -/

/-- **C72 (fixed pipeline)** The pipeline alone, with a consistent producer and a network that does not lose too
much (see `Fixed.Tolerable`): it never fails. And while not everything was received an existing segment is
being fetched - provided that all Data carry the FinalBlockId, as those of ndnputchunks do. -/
theorem C72_fixed_pipeline {N : Nat} {R : Int} {segs : List Bytes} {es s} (hN : 0 < N)
    (h : (Fixed.fairMachine N R segs).Run es s) :
    (∀ m, Fixed.Obs.failure m ∉ s.log) ∧ s.isStopping = false ∧ s.posted = [] ∧ s.threw = none ∧
    (0 < segs.length → (∀ k p, Fixed.Obs.data k p ∈ s.log → p.final ≠ .absent) → Fixed.Obs.complete ∉ s.log →
      ∃ (i : Nat) (f : DataFetcher.Fetcher) (k : Nat), s.slots[i]? = some (some (f, k)) ∧ k < segs.length ∧
        f.isRunning = true ∧
        ((f.pending = 1 ∧ f.timer = none) ∨ (f.pending = 0 ∧ ∃ b, f.timer = some b))) := by
  obtain ⟨hg, _⟩ := Fixed.fair_good hN h
  have hnet := Fixed.fair_net h
  refine ⟨hg.log, hg.stop, hg.posted, Fixed.net_threw hN hnet, ?_⟩
  intro h1 h2 h3
  obtain ⟨i, f, k, ha, hr, hk⟩ := Fixed.fair_progress hN h h2 h1 h3
  refine ⟨i, f, k, ha, hk, hr, ?_⟩
  simpa [Option.isSome_iff_exists] using ((Fixed.run_inv hN (Fixed.net_run hnet)).core.fet i f k ha).one hr

/-- **C72** `ndncatchunks` with the fixed pipeline fetches the object of `ndnputchunks`, by its versioned name or, with
version discovery, by the name without version. Both use the same naming convention, and fresh Data is asked
for only if the producer gives it a freshness period. The network does not lose too much: not
all of the Interests that the program may send for the metadata or for a segment are lost.
Then, at every moment of every execution:
* the program has not failed, and the only exit status possible is 0, with `input` written to the standard output;
* it has exited, or some event can happen that is no loss and that a running fetch waits for: the reply of the
  producer, or the end of a backoff;
* whatever the retry limits, with `l` Nacks and timeouts at most `1 + N + L + 2l` events reach a running fetch;
  with finite limits that is at most `3(r+1) + 3(R+1)(N+L)`. -/
theorem C72_transfer_succeeds {N : Nat} {R : Int} (hN : 0 < N) {digest : Data → Bytes} {po : Producer.Opts}
    {pre0 : Name} {now : Nat} {input : Bytes} (hn : now < 2 ^ 64) (hm : 0 < po.maxSegmentSize)
    (hi : input.length < 2 ^ 64) {o : Discover.Opts} {conv : Convention} {fresh : Bool} {name : Name}
    (hreq : Requests (Producer.construct po pre0 now input) o name) (hconv : conv = po.conv)
    (hfresh : fresh = true → 0 < po.freshness) {es s}
    (h : (fairMachine N R o digest (Producer.construct po pre0 now input) conv fresh name).Run es s) :
    (¬ s.ended (fixedPipe N R) ∧ ∀ n, s.Exits (fixedPipe N R) n → n = 0 ∧ s.stdout = input) ∧
    (s.Exits (fixedPipe N R) 0 ∨
      ∃ e, (fairMachine N R o digest (Producer.construct po pre0 now input) conv fresh name).enabled s e ∧
        active s e = true ∧ e.isLoss = false) ∧
    activeCount N R (start (fixedPipe N R) o name) es ≤ 1 + N + (Producer.split po.maxSegmentSize input).length +
      2 * lossCount N R (start (fixedPipe N R) o name) es ∧
    (0 ≤ R → 0 ≤ o.maxRetries → (activeCount N R (start (fixedPipe N R) o name) es : Int) ≤
      3 * (o.maxRetries + 1) + 3 * (R + 1) * (N + (Producer.split po.maxSegmentSize input).length)) := by
  obtain ⟨ht, hne⟩ := fair_alive hN hn hm hi hreq h
  obtain ⟨_, h2, _⟩ := C22_fixed hN hn hm hi (requests_not_meta hn hreq) (fair_net h)
  refine ⟨⟨hne, ?_⟩, fair_next hN hn hm hi hreq hconv hfresh h, ?_, ?_⟩
  · intro n hx
    have hx' := hx
    unfold St.Exits at hx'
    rw [ht] at hx'
    rcases hx' with hx' | hx'
    · exact absurd hx'.1 hne
    · obtain ⟨_, _, rfl⟩ := hx'
      exact ⟨rfl, h2 hx⟩
  · have h1 := load_count hN hn hm hi hreq h
    have h3 := load_start (N := N) (R := R) (o := o) (name := name) (Producer.split po.maxSegmentSize input).length
    omega
  · intro hR hR'
    have h1 := work_count hN hn hm hi hreq hR hR' h
    have h3 := work_start (N := N) (R := R) (o := o) (name := name) (Producer.split po.maxSegmentSize input).length
    have hfull : ∀ r : Int, 0 ≤ r → (Fixed.full r : Int) = 3 * (r + 1) := by
      intro r hr; unfold Fixed.full; omega
    have h4 : ((Fixed.full R * (N + (Producer.split po.maxSegmentSize input).length) : Nat) : Int) =
        3 * (R + 1) * (N + (Producer.split po.maxSegmentSize input).length) := by
      push_cast
      rw [hfull R hR]
    have h5 := hfull _ hR'
    omega

/-- **C72 (completion is always reachable)** From every state that the program reaches over
such a network, some continuation without further loss ends with exit status 0 and `input` on the
standard output. -/
theorem C72_can_complete {N : Nat} {R : Int} (hN : 0 < N) {digest : Data → Bytes} {po : Producer.Opts}
    {pre0 : Name} {now : Nat} {input : Bytes} (hn : now < 2 ^ 64) (hm : 0 < po.maxSegmentSize)
    (hi : input.length < 2 ^ 64) {o : Discover.Opts} {conv : Convention} {fresh : Bool}
    {name : Name} (hreq : Requests (Producer.construct po pre0 now input) o name) (hconv : conv = po.conv)
    (hfresh : fresh = true → 0 < po.freshness) {es s}
    (h : (fairMachine N R o digest (Producer.construct po pre0 now input) conv fresh name).Run es s) :
    ∃ es' s', (fairMachine N R o digest (Producer.construct po pre0 now input) conv fresh name).RunFrom s es' s' ∧
      (∀ e ∈ es', e.isLoss = false) ∧ s'.Exits (fixedPipe N R) 0 ∧ s'.stdout = input := by
  generalize hw : Load N (Producer.split po.maxSegmentSize input).length s = w
  induction w using Nat.strong_induction_on generalizing es s with
  | _ w ih =>
    obtain ⟨⟨_, h1⟩, h2, _⟩ := C72_transfer_succeeds hN hn hm hi hreq hconv hfresh h
    rcases h2 with h2 | ⟨e, he, hact, hl⟩
    · exact ⟨[], s, Machine.RunFrom.nil, by simp, h2, (h1 0 h2).2⟩
    · have hwork := load_step hN hn hm hi hreq h he
      rw [hact, hl] at hwork
      simp only [Bool.toNat_true, Bool.and_false, Bool.toNat_false, Nat.mul_zero, Nat.add_zero] at hwork
      change Load N _ ((fairMachine N R o digest (Producer.construct po pre0 now input) conv fresh name).step s e) +
        1 ≤ _ at hwork
      obtain ⟨es', s', g1, g2, g3⟩ := ih _ (by omega) (Machine.Run.snoc e h he) rfl
      refine ⟨e :: es', s', Machine.RunFrom.cons e he g1, ?_, g3⟩
      intro x hx
      rcases List.mem_cons.mp hx with rfl | hx
      · exact hl
      · exact g2 x hx

/-! ## Concrete cases -/

instance (P : Pipe σ ε) (s : St σ) : Decidable (s.ended P) :=
  decidable_of_iff (s.cons.threw ≠ none ∨ (s.pipe.any fun nq => P.threw nq.2) = true) (by
    unfold St.ended
    cases h : s.pipe with
    | none => simp
    | some nq => obtain ⟨n, q⟩ := nq; simp)

instance (name : Name) (s : Discover.St) (e : Discover.Ev) : Decidable (s.enabled name e) :=
  decidable_of_iff ((s.fetcher.any fun f => decide (f.enabled e.toFetch)) = true ∧
      (match e with | .data m => decide ((makeDiscoveryInterest name).name <+: m.name) | _ => true) = true) (by
    unfold Discover.St.enabled
    cases h : s.fetcher with
    | none => simp
    | some f => cases e <;> simp)

instance (name : Name) (N : Nat) (R : Int) (s : St Fixed.St) (e : Ev Fixed.Ev) :
    Decidable (s.enabled (fixedPipe N R) name e) :=
  match e with
  | .disc e => inferInstanceAs (Decidable (¬ s.ended _ ∧ s.disc.enabled name e))
  | .pipe e => decidable_of_iff (¬ s.ended (fixedPipe N R) ∧
      (s.pipe.any fun nq => decide (nq.2.enabled e)) = true ∧ (fixedPipe N R).byUser e = false) (by
    unfold St.enabled
    cases h : s.pipe with
    | none => simp
    | some nq => obtain ⟨n, q⟩ := nq; simp [fixedPipe, Fixed.machine])

instance (name : Name) (N : Nat) (R : Int) (o : Discover.Opts) (s : St Fixed.St) (e : Ev Fixed.Ev) :
    Decidable ((machine (fixedPipe N R) o name).enabled s e) :=
  inferInstanceAs (Decidable (s.enabled (fixedPipe N R) name e))

/-- The exit status as a function, for running the examples. -/
def status (N : Nat) (R : Int) (s : St Fixed.St) : Option Nat :=
  match s.cons.threw with
  | some .appNack => some 3
  | some .invalid => some 5
  | some .failure => some 1
  | none =>
    if s.ended (fixedPipe N R) then some 1
    else if (s.disc.fetcher.all fun f => decide (fetchIdle f)) && (s.pipe.all fun nq => nq.2.posted.isEmpty &&
      nq.2.slots.all fun x => match x with | none => true | some (f, _) => decide (fetchIdle f)) then some 0
    else none

theorem status_exits {N : Nat} {R : Int} {s : St Fixed.St} {n : Nat} (h : status N R s = some n) :
    s.Exits (fixedPipe N R) n := by
  unfold status at h
  unfold St.Exits
  cases ht : s.cons.threw with
  | some e => rw [ht] at h; cases e <;> simp_all
  | none =>
    rw [ht] at h
    dsimp only at h ⊢
    split at h
    · rename_i he; left; exact ⟨he, by simpa using h.symm⟩
    · rename_i he
      split at h
      · rename_i hi
        right
        refine ⟨he, ⟨?_, ?_⟩, by simpa using h.symm⟩
        · intro f hf
          simp [hf] at hi
          exact hi.1
        · intro m q hq
          simp only [hq, Option.all_some, Bool.and_eq_true, List.isEmpty_iff, List.all_eq_true] at hi
          refine ⟨hi.2.1, ?_⟩
          intro x hx f k e
          have := hi.2.2 x hx
          rw [e] at this
          simpa using this
      · cases h

private def exDigest : Data → Bytes := fun _ => []
private def exProd : Producer.Prod := Producer.construct { maxSegmentSize := 2 } [⟨8, [65]⟩] 7 [1, 2, 3, 4, 5]
private def exMeta : Discover.Meta :=
  ⟨[⟨8, [65]⟩, metadataComp, ⟨54, [8]⟩, ⟨50, [0]⟩], true, some [⟨8, [65]⟩, ⟨54, [7]⟩]⟩
private def exPkt (c : Bytes) : Pkt := { content := c, final := .seg 2, congMark := false, appNack := false, valid := true }

private def exNet : Machine (St Fixed.St) (Ev Fixed.Ev) :=
  netMachine (fixedPipe 2 3) ⟨false, 3⟩ exDigest exProd .typed false [⟨8, [65]⟩]

private def exEvs : List (Ev Fixed.Ev) :=
  [.disc .timeout, .disc (.data exMeta), .pipe (.data 1 (exPkt [3, 4]) false), .pipe (.timeout 0),
    .pipe (.data 1 (exPkt [5]) false), .pipe (.data 0 (exPkt [1, 2]) false)]

private def exSt (n : Nat) : St Fixed.St := (exEvs.take n).foldl exNet.step exNet.init

private theorem ex_snoc {n : Nat} (r : exNet.Run (exEvs.take n) (exSt n)) (e : Ev Fixed.Ev)
    (hn : exEvs[n]? = some e) (he : exNet.enabled (exSt n) e) : exNet.Run (exEvs.take (n + 1)) (exSt (n + 1)) := by
  have h := Machine.Run.snoc e r he
  unfold exSt at h ⊢
  rw [List.take_add_one, hn, List.foldl_append]
  exact h

private theorem exRun2 : exNet.Run (exEvs.take 2) (exSt 2) :=
  ex_snoc (ex_snoc .nil (.disc .timeout) rfl ⟨by decide, trivial⟩) (.disc (.data exMeta)) rfl
    ⟨by decide, makeDiscoveryInterest [⟨8, [65]⟩], 8, 10, [⟨8, [65]⟩, ⟨54, [7]⟩], by decide, rfl⟩
private theorem exRun3 : exNet.Run (exEvs.take 3) (exSt 3) :=
  ex_snoc exRun2 (.pipe (.data 1 (exPkt [3, 4]) false)) rfl ⟨by decide +kernel, by
    intro n q k p hp ha
    have e : (exSt 2).pipe.map Prod.fst = some [⟨8, [65]⟩, ⟨54, [7]⟩] := by decide +kernel
    have e' : (exSt 2).pipe.bind (fun nq => (fixedPipe 2 3).arrival nq.2 (.data 1 (exPkt [3, 4]) false)) =
      some (1, exPkt [3, 4]) := by decide +kernel
    rw [hp] at e e'
    injection e with e
    change n = _ at e
    change (fixedPipe 2 3).arrival q _ = _ at e'
    rw [e'] at ha
    injection ha with ha; injection ha with hk hp
    subst hk hp e
    exact ⟨by decide, { name := [⟨8, [65]⟩, ⟨54, [7]⟩, ⟨50, [1]⟩] }, 9, .data
      { name := [⟨8, [65]⟩, ⟨54, [7]⟩, ⟨50, [1]⟩], content := [3, 4], final := some ⟨50, [2]⟩, freshness := 10000 },
      by decide, by decide, rfl, by decide, fun _ => rfl, rfl⟩⟩
private theorem exRun4 : exNet.Run (exEvs.take 4) (exSt 4) :=
  ex_snoc exRun3 (.pipe (.timeout 0)) rfl ⟨by decide +kernel, by intro n q k p hp ha; cases ha⟩
private theorem exRun5 : exNet.Run (exEvs.take 5) (exSt 5) :=
  ex_snoc exRun4 (.pipe (.data 1 (exPkt [5]) false)) rfl ⟨by decide +kernel, by
    intro n q k p hp ha
    have e : (exSt 4).pipe.map Prod.fst = some [⟨8, [65]⟩, ⟨54, [7]⟩] := by decide +kernel
    have e' : (exSt 4).pipe.bind (fun nq => (fixedPipe 2 3).arrival nq.2 (.data 1 (exPkt [5]) false)) =
      some (2, exPkt [5]) := by decide +kernel
    rw [hp] at e e'
    injection e with e
    change n = _ at e
    change (fixedPipe 2 3).arrival q _ = _ at e'
    rw [e'] at ha
    injection ha with ha; injection ha with hk hp
    subst hk hp e
    exact ⟨by decide, { name := [⟨8, [65]⟩, ⟨54, [7]⟩, ⟨50, [2]⟩] }, 9, .data
      { name := [⟨8, [65]⟩, ⟨54, [7]⟩, ⟨50, [2]⟩], content := [5], final := some ⟨50, [2]⟩, freshness := 10000 },
      by decide, by decide, rfl, by decide, fun _ => rfl, rfl⟩⟩
private theorem exRun6 : exNet.Run (exEvs.take 6) (exSt 6) :=
  ex_snoc exRun5 (.pipe (.data 0 (exPkt [1, 2]) false)) rfl ⟨by decide +kernel, by
    intro n q k p hp ha
    have e : (exSt 5).pipe.map Prod.fst = some [⟨8, [65]⟩, ⟨54, [7]⟩] := by decide +kernel
    have e' : (exSt 5).pipe.bind (fun nq => (fixedPipe 2 3).arrival nq.2 (.data 0 (exPkt [1, 2]) false)) =
      some (0, exPkt [1, 2]) := by decide +kernel
    rw [hp] at e e'
    injection e with e
    change n = _ at e
    change (fixedPipe 2 3).arrival q _ = _ at e'
    rw [e'] at ha
    injection ha with ha; injection ha with hk hp
    subst hk hp e
    exact ⟨by decide, { name := [⟨8, [65]⟩, ⟨54, [7]⟩, ⟨50, [0]⟩] }, 9, .data
      { name := [⟨8, [65]⟩, ⟨54, [7]⟩, ⟨50, [0]⟩], content := [1, 2], final := some ⟨50, [2]⟩, freshness := 10000 },
      by decide, by decide, rfl, by decide, fun _ => rfl, rfl⟩⟩

/-- A transfer with the example producer (three segments): the discovery Interest times out once, the
second segment arrives first, the first one is fetched at the second attempt. All events are possible over the
network of C22, and the program exits with status 0. -/
example : exNet.Run exEvs (exSt 6) ∧ (exSt 6).Exits (fixedPipe 2 3) 0 ∧ (exSt 6).stdout = [1, 2, 3, 4, 5] :=
  ⟨exRun6, status_exits (by decide +kernel), by decide +kernel⟩

private theorem lift_fair {N R o digest prod conv fresh name es s}
    (h : (netMachine (fixedPipe N R) o digest prod conv fresh name).Run es s)
    (ht : ∀ (n : Nat) e, es[n]? = some e →
      let t := (es.take n).foldl (St.step (fixedPipe N R)) (start (fixedPipe N R) o name)
      match e with
      | .disc e => DiscTolerable o t.disc e
      | .pipe e => ∀ n q, t.pipe = some (n, q) → Fixed.Tolerable R (prod.store.map (·.content)) q e) :
    (fairMachine N R o digest prod conv fresh name).Run es s := by
  induction h with
  | nil => exact Machine.Run.nil
  | @snoc es s e hr he ih =>
    have h1 := Fixed.run_foldl hr
    refine Machine.Run.snoc (M := fairMachine N R o digest prod conv fresh name) e (ih ?_) ⟨he, ?_⟩
    · intro n e' hn
      have hl : n < es.length := (List.getElem?_eq_some_iff.mp hn).1
      have := ht n e' (by rw [List.getElem?_append_left hl]; exact hn)
      rwa [List.take_append_of_le_length (by omega)] at this
    · have := ht es.length e (by simp)
      simp only [List.take_left'] at this
      rw [h1]
      exact this

private theorem exFair : (fairMachine 2 3 ⟨false, 3⟩ exDigest exProd .typed false [⟨8, [65]⟩]).Run exEvs (exSt 6) := by
  refine lift_fair exRun6 ?_
  intro n e hn
  match n, hn with
  | 0, hn => injection hn with hn; subst hn; exact Or.inr (by decide)
  | 1, hn => injection hn with hn; subst hn; trivial
  | 2, hn => injection hn with hn; subst hn; exact fun n q hp => ⟨by simp, by simp, by simp [Fixed.Ev.isLoss]⟩
  | 3, hn =>
    injection hn with hn; subst hn
    dsimp only
    intro n q hp
    refine ⟨by simp, by simp, ?_⟩
    intro _ i f k hi ha
    have e1 : ((exEvs.take 3).foldl (St.step (fixedPipe 2 3)) (start (fixedPipe 2 3) ⟨false, 3⟩ [⟨8, [65]⟩])).pipe.map
        (fun nq => (nq.2.slots[0]?.map fun x => x.map Prod.snd, nq.2.log.count (.interest 0))) =
        some (some (some 0), 1) := by decide +kernel
    have hi' : i = 0 := by injection hi with hi; exact hi.symm
    subst hi'
    rw [hp] at e1
    simp only [Option.map_some, ha, Option.some.injEq, Prod.mk.injEq] at e1
    obtain ⟨hk, hc⟩ := e1
    subst hk
    exact Or.inr ⟨rfl, Or.inr (by rw [hc]; decide)⟩
  | 4, hn => injection hn with hn; subst hn; exact fun n q hp => ⟨by simp, by simp, by simp [Fixed.Ev.isLoss]⟩
  | 5, hn => injection hn with hn; subst hn; exact fun n q hp => ⟨by simp, by simp, by simp [Fixed.Ev.isLoss]⟩
  | n + 6, hn => simp [exEvs] at hn

/-- The transfer above, with one lost Interest for the metadata and one for a segment, takes place over a network
that does not lose too much; and the requested name, the options and the producer meet the hypotheses of
`C72_transfer_succeeds`. -/
example : (fairMachine 2 3 ⟨false, 3⟩ exDigest exProd .typed false [⟨8, [65]⟩]).Run exEvs (exSt 6) ∧
    Requests exProd ⟨false, 3⟩ [⟨8, [65]⟩] ∧ (exSt 6).Exits (fixedPipe 2 3) 0 :=
  ⟨exFair, Or.inr ⟨by decide, rfl, by decide⟩, status_exits (by decide +kernel)⟩

/-- In it six events reach a running fetch, two of them losses: `6 ≤ 1 + 2 + 3 + 2 · 2`. -/
example : activeCount 2 3 (start (fixedPipe 2 3) ⟨false, 3⟩ [⟨8, [65]⟩]) exEvs = 6 ∧
    lossCount 2 3 (start (fixedPipe 2 3) ⟨false, 3⟩ [⟨8, [65]⟩]) exEvs = 2 ∧
    (Producer.split 2 [1, 2, 3, 4, 5]).length = 3 := by decide +kernel

/-- Without the condition on the losses the program can fail: no retries, one timeout. -/
example : ∃ s, (netMachine (fixedPipe 1 0) ⟨true, 0⟩ exDigest exProd .typed false [⟨8, [65]⟩, ⟨54, [7]⟩]).Run
    [.pipe (.timeout 0), .pipe .posted] s ∧ s.Exits (fixedPipe 1 0) 1 := by
  let M := netMachine (fixedPipe 1 0) ⟨true, 0⟩ exDigest exProd .typed false [⟨8, [65]⟩, ⟨54, [7]⟩]
  have r1 := Machine.Run.snoc (M := M) (.pipe (.timeout 0)) Machine.Run.nil
    ⟨by decide, by intro n q k p hp ha; cases ha⟩
  have r2 := Machine.Run.snoc (M := M) (.pipe .posted) r1
    ⟨by decide +kernel, by intro n q k p hp ha; cases ha⟩
  exact ⟨_, r2, status_exits (by decide +kernel)⟩

/-- The requested name of this case satisfies the hypothesis of `C22_fixed`. -/
example : ¬ exProd.pre ++ [metadataComp] <+: [⟨8, [65]⟩] := by decide

/-- An application Nack after one good segment: exit status 3, and only the good segment is written. -/
example : ∃ s, (machine (fixedPipe 2 3) ⟨true, 3⟩ [⟨8, [65]⟩]).Run
    [.pipe (.data 0 (exPkt [1, 2]) false), .pipe (.data 1 { exPkt [3, 4] with appNack := true } false)] s ∧
    s.Exits (fixedPipe 2 3) 3 ∧ s.stdout = [1, 2] :=
  let M := machine (fixedPipe 2 3) ⟨true, 3⟩ [⟨8, [65]⟩]
  ⟨_, Machine.exec_run (M := M) (s := (M.exec M.init _).get (by decide)) (Option.some_get _).symm,
    status_exits (by decide), by decide⟩

/-- An invalid packet: exit status 5. -/
example : ∃ s, (machine (fixedPipe 2 3) ⟨true, 3⟩ [⟨8, [65]⟩]).Run
    [.pipe (.data 0 (exPkt [1, 2]) false), .pipe (.data 1 { exPkt [3, 4] with valid := false } false)] s ∧
    s.Exits (fixedPipe 2 3) 5 ∧ s.stdout = [1, 2] :=
  let M := machine (fixedPipe 2 3) ⟨true, 3⟩ [⟨8, [65]⟩]
  ⟨_, Machine.exec_run (M := M) (s := (M.exec M.init _).get (by decide)) (Option.some_get _).symm,
    status_exits (by decide), by decide⟩

/-- A Nack without reason for the first segment: the failure is posted, exit status 1. -/
example : ∃ s, (machine (fixedPipe 1 3) ⟨true, 3⟩ [⟨8, [65]⟩]).Run
    [.pipe (.nack 0 .none), .pipe .posted] s ∧ s.Exits (fixedPipe 1 3) 1 ∧ s.stdout = [] :=
  let M := machine (fixedPipe 1 3) ⟨true, 3⟩ [⟨8, [65]⟩]
  ⟨_, Machine.exec_run (M := M) (s := (M.exec M.init _).get (by decide)) (Option.some_get _).symm,
    status_exits (by decide), by decide⟩

/-! An adaptive pipeline with the same producer and network. -/

private abbrev exA := adaptivePipe Adaptive.halving ⟨3, false, false⟩ 2 ⟨0, 10, ()⟩

private def exNetA : Machine (St (Adaptive.St Nat)) (Ev (Adaptive.Ev Unit)) :=
  netMachine exA ⟨true, 3⟩ exDigest exProd .typed false [⟨8, [65]⟩, ⟨54, [7]⟩]

private def exEvsA : List (Ev (Adaptive.Ev Unit)) :=
  [.pipe (.data 1 (exPkt [3, 4]) false ⟨5, 10, ()⟩), .pipe (.expire 0 ⟨6, 10, ()⟩),
    .pipe (.data 2 (exPkt [5]) false ⟨7, 10, ()⟩), .pipe (.data 0 (exPkt [1, 2]) false ⟨8, 10, ()⟩)]

private def exStA (n : Nat) : St (Adaptive.St Nat) := (exEvsA.take n).foldl exNetA.step exNetA.init

private theorem exA_snoc {n : Nat} (r : exNetA.Run (exEvsA.take n) (exStA n)) (e : Adaptive.Ev Unit)
    (hn : exEvsA[n]? = some (.pipe e))
    (he : (exStA n).cons.threw = none ∧ ((exStA n).pipe.all fun nq => nq.2.threw.isNone) = true ∧
      ((exStA n).pipe.any fun nq => decide (nq.2.enabled e)) = true ∧ exA.byUser e = false)
    (hp : (exStA n).pipe.map Prod.fst = some [⟨8, [65]⟩, ⟨54, [7]⟩])
    (hd : ∀ k p c v, e = .data k p c v → ∃ d, (k < 2 ^ 64) ∧
      Producer.Reply.data d ∈ exProd.onInterest exDigest 9 { name := d.name } ∧
      Answers exDigest (segmentInterest .typed false [⟨8, [65]⟩, ⟨54, [7]⟩] k) p (.data d)) :
    exNetA.Run (exEvsA.take (n + 1)) (exStA (n + 1)) := by
  cases hq : (exStA n).pipe with
  | none => rw [hq] at hp; cases hp
  | some nq =>
    obtain ⟨m, q⟩ := nq
    rw [hq] at hp he
    have hm : m = [⟨8, [65]⟩, ⟨54, [7]⟩] := by simpa using hp
    subst hm
    obtain ⟨h1, h2, h3, h4⟩ := he
    have h := Machine.Run.snoc (M := exNetA) (.pipe e) r (by
      refine ⟨⟨?_, _, q, hq, by simp at h3; exact h3, h4⟩, ?_⟩
      · rintro (h | ⟨m', q', hq', ht⟩)
        · exact h h1
        · rw [hq] at hq'; cases hq'
          simp at h2
          have : q.threw.isSome = true := ht
          rw [h2] at this; cases this
      · intro m' q' k p hq' ha
        rw [hq] at hq'; cases hq'
        cases e with
        | data k' p' c v =>
          cases ha
          obtain ⟨d, hk, hd1, hd2⟩ := hd _ _ _ _ rfl
          exact ⟨hk, _, _, _, hd1, hd2⟩
        | _ => cases ha)
    unfold exStA at h ⊢
    rw [List.take_add_one, hn, List.foldl_append]
    exact h

private theorem exRunA : exNetA.Run (exEvsA.take 4) (exStA 4) := by
  refine exA_snoc (exA_snoc (exA_snoc (exA_snoc .nil _ rfl (by decide +kernel) (by decide +kernel) ?_)
    _ rfl (by decide +kernel) (by decide +kernel) ?_) _ rfl (by decide +kernel) (by decide +kernel) ?_)
    _ rfl (by decide +kernel) (by decide +kernel) ?_
  · rintro k p c v ⟨⟩
    exact ⟨{ name := [⟨8, [65]⟩, ⟨54, [7]⟩, ⟨50, [1]⟩], content := [3, 4], final := some ⟨50, [2]⟩, freshness := 10000 },
      by decide, by decide, by decide, rfl, by decide, fun _ => rfl, rfl⟩
  · rintro k p c v ⟨⟩
  · rintro k p c v ⟨⟩
    exact ⟨{ name := [⟨8, [65]⟩, ⟨54, [7]⟩, ⟨50, [2]⟩], content := [5], final := some ⟨50, [2]⟩, freshness := 10000 },
      by decide, by decide, by decide, rfl, by decide, fun _ => rfl, rfl⟩
  · rintro k p c v ⟨⟩
    exact ⟨{ name := [⟨8, [65]⟩, ⟨54, [7]⟩, ⟨50, [0]⟩], content := [1, 2], final := some ⟨50, [2]⟩, freshness := 10000 },
      by decide, by decide, by decide, rfl, by decide, fun _ => rfl, rfl⟩

/-- The second segment arrives first, the Interest for the first one expires and is sent again; exit status 0. -/
example : exNetA.Run exEvsA (exStA 4) ∧ (exStA 4).Exits exA 0 ∧ (exStA 4).stdout = [1, 2, 3, 4, 5] := by
  refine ⟨exRunA, ?_, by decide +kernel⟩
  have h1 : (exStA 4).cons.threw = none := by decide +kernel
  have h2 : ((exStA 4).pipe.all fun nq => nq.2.threw.isNone && nq.2.posted.isEmpty && !nq.2.timer &&
    nq.2.info.all fun x => !x.2.pending) = true := by decide +kernel
  have h3 : (exStA 4).disc.fetcher = none := by decide +kernel
  unfold St.Exits
  rw [h1]
  refine Or.inr ⟨?_, ⟨?_, ?_⟩, rfl⟩
  · rintro (h | ⟨m, q, hq, ht⟩)
    · exact h h1
    · rw [hq] at h2
      simp at h2
      have : q.threw.isSome = true := ht
      rw [h2.1.1.1] at this; cases this
  · rw [h3]; intro f hf; cases hf
  · intro m q hq
    rw [hq] at h2
    simp at h2
    exact ⟨h2.1.1.2, h2.1.2, fun x hx => h2.2 _ _ hx⟩

end Verif.Catchunks
