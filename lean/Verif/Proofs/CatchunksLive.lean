import Verif.Proofs.Catchunks
import Verif.Proofs.FixedFair
import Verif.Props.Producer

/-! # The whole program over a network that does not lose too much -/

namespace Verif.Catchunks

open Verif.DataFetcher (Fetcher)

variable {σ ε : Type}

/-! ## The version discovery -/

/-- The version discovery over such a network. -/
def discFair (o : Discover.Opts) (digest : Data → Bytes) (prod : Producer.Prod) (name : Name) :
    Machine Discover.St Discover.Ev :=
  { init := Discover.start o name
    step := Discover.St.step
    enabled := fun d e => d.enabled name e ∧ Discover.FromProducer digest prod e ∧ DiscTolerable o d e }

theorem discFair_run {o digest prod name es d} (h : (discFair o digest prod name).Run es d) :
    (Discover.machine o name).Run es d ∧ ∀ e ∈ es, Discover.FromProducer digest prod e := by
  induction h with
  | nil => exact ⟨Machine.Run.nil, by simp⟩
  | snoc e _ he ih =>
    refine ⟨Machine.Run.snoc (M := Discover.machine o name) e ih.1 he.1, ?_⟩
    intro x hx
    rcases List.mem_append.mp hx with hx | hx
    · exact ih.2 x hx
    · rw [List.mem_singleton.mp hx]; exact he.2.1

/-- The metadata of the producer lead to success. -/
theorem handle_producer {digest : Data → Bytes} {po : Producer.Opts} {pre0 : Name} {now : Nat} {input : Bytes}
    (hn : now < 2 ^ 64) {m : Discover.Meta}
    (h : Discover.FromProducer digest (Producer.construct po pre0 now input) (.data m)) :
    Discover.handleData m = .success (Producer.construct po pre0 now input).versionedPrefix := by
  obtain ⟨i, now', f, n, h1, h2⟩ := h
  obtain ⟨rfl, hv, _⟩ := Producer.metadata_reply hn h1
  have hp : m.parse = some (Producer.construct po pre0 now input).versionedPrefix := by
    unfold Discover.Meta.parse
    rw [h2]
    simp [hv]
  obtain ⟨v, h3, h4⟩ := Producer.construct_vp (o := po) (pre := pre0) (input := input) hn
  have he : (Producer.construct po pre0 now input).versionedPrefix.endsWithVersion = true :=
    endsWithVersion_iff.mpr ⟨_, _, h3, h4⟩
  unfold Discover.handleData
  rw [hp]
  dsimp only
  rw [if_pos he]

/-- The discovery does not fail. -/
theorem disc_good {digest : Data → Bytes} {po : Producer.Opts} {pre0 : Name} {now : Nat} {input : Bytes}
    (hn : now < 2 ^ 64) {o name es d} (h : (discFair o digest (Producer.construct po pre0 now input) name).Run es d) :
    (∀ r, Discover.Obs.failure r ∉ d.log) ∧
    (o.maxRetries ≠ -1 → ∀ f, d.fetcher = some f → f.isRunning = true →
      f.nNacks + f.nTimeouts + (f.pending : Int) ≤ (d.log.count .interest : Int)) := by
  by_cases hd : o.disable = true ∨ name.endsWithVersion = true
  · have hl := Discover.C24_not_needed hd (discFair_run h).1
    refine ⟨by rw [hl]; simp, ?_⟩
    have hf : d.fetcher = none := by
      have h0 : Discover.start o name = { fetcher := none, log := [.success name] } := by
        unfold Discover.start
        rw [if_pos (by rcases hd with h | h <;> simp [h])]
      clear hl
      induction h with
      | nil => simp [discFair, h0]
      | @snoc es s e _ he ih =>
        obtain ⟨⟨⟨f, hf, _⟩, _⟩, _⟩ := he
        rw [ih] at hf
        cases hf
    intro _ f h1
    rw [hf] at h1; cases h1
  have hd1 : o.disable = false := by
    by_contra hc; exact hd (Or.inl (by simpa using hc))
  have hd2 : name.endsWithVersion = false := by
    by_contra hc; exact hd (Or.inr (by simpa using hc))
  induction h with
  | nil =>
    have h0 : (discFair o digest (Producer.construct po pre0 now input) name).init =
        { fetcher := some (DataFetcher.fetch o.maxRetries o.maxRetries).1, log := [.interest] } := by
      simp [discFair, Discover.start, hd1, hd2, DataFetcher.fetch, Fetcher.expressInterest, Discover.react]
    rw [h0]
    refine ⟨by simp, ?_⟩
    intro _ f hf _
    simp only [Option.some.injEq] at hf
    subst hf
    simp [DataFetcher.fetch, Fetcher.expressInterest]
  | @snoc es d e hr he ih =>
    obtain ⟨ih1, ih2⟩ := ih
    obtain ⟨⟨⟨f, hf, hen⟩, _⟩, hprod, htol⟩ := he
    obtain ⟨f', hf', hrun⟩ := Discover.run_fetch hd1 hd2 (discFair_run hr).1
    rw [hf] at hf'
    simp only [Option.some.injEq] at hf'
    subst hf'
    have hinv := DataFetcher.run_inv hrun
    have hst : (discFair o digest (Producer.construct po pre0 now input) name).step d e =
        { fetcher := some (f.step e.toFetch).1, log := d.log ++ (f.step e.toFetch).2.map (Discover.react e.meta) } := by
      show d.step e = _
      unfold Discover.St.step
      rw [hf]
    rw [hst]
    dsimp only
    have key : ∀ x ∈ (f.step e.toFetch).2, ∀ r, Discover.react e.meta x ≠ .failure r := by
      intro x hx r
      by_cases hrun' : f.isRunning = true
      · have heff := (DataFetcher.step_running hinv hrun' hen).2
        have hpend : ∀ {a : Int}, o.maxRetries = -1 ∨ a ≤ o.maxRetries →
            o.maxRetries ≠ -1 → f.pending = 1 → (d.log.count .interest : Int) ≤ a →
            f.nNacks + f.nTimeouts + 1 ≤ o.maxRetries := by
          intro a h1 h2 h3 h4
          have := ih2 h2 f hf hrun'
          rcases h1 with h1 | h1
          · exact absurd h1 h2
          · rw [h3] at this; push_cast at this; omega
        have hn0 := hinv.nn0
        have ht0 := hinv.nt0
        generalize hg1 : (f.step e.toFetch).1 = f1 at heff
        generalize hg2 : (f.step e.toFetch).2 = o1 at heff hx
        cases e with
        | data m =>
          simp only [Discover.Ev.toFetch] at heff
          cases heff
          rw [List.mem_singleton.mp hx]
          simp only [Discover.react, Discover.Ev.meta, handle_producer hn hprod]
          simp
        | nack r' =>
          simp only [Discover.Ev.toFetch] at heff
          cases heff with
          | duplicate => rw [List.mem_singleton.mp hx]; simp [Discover.react]
          | congestion => simp at hx
          | fatal _ _ _ _ _ _ h1 h2 =>
            rcases htol.1 with h | h
            · exact absurd h h1
            · exact absurd h h2
          | failNack _ _ _ h1 _ h2 h3 =>
            have := hpend htol.2 h2 h1 (Int.le_refl _)
            omega
        | timeout =>
          simp only [Discover.Ev.toFetch] at heff
          cases heff with
          | retryTimeout => rw [List.mem_singleton.mp hx]; simp [Discover.react]
          | failTimeout _ _ h1 _ h2 h3 =>
            have := hpend htol h2 h1 (Int.le_refl _)
            omega
        | timer =>
          simp only [Discover.Ev.toFetch] at heff
          cases heff
          rw [List.mem_singleton.mp hx]; simp [Discover.react]
      · rw [(DataFetcher.step_idle hinv (by simpa using hrun') hen).1] at hx
        simp at hx
    refine ⟨?_, ?_⟩
    · intro r hr'
      rcases List.mem_append.mp hr' with h1 | h1
      · exact ih1 r h1
      · obtain ⟨x, hx, h2⟩ := List.mem_map.mp h1
        exact key x hx r h2
    · intro hR g hg hgr
      simp only [Option.some.injEq] at hg
      by_cases hrun' : f.isRunning = true
      · have heff := (DataFetcher.step_running hinv hrun' hen).2
        have hold := ih2 hR f hf hrun'
        have hc : ∀ l : List Discover.Obs, ((d.log ++ l).count .interest : Int) = d.log.count .interest + l.count .interest := by
          intro l; rw [List.count_append]; push_cast; rfl
        rw [hc]
        rw [hg] at heff
        generalize (f.step e.toFetch).2 = o1 at heff
        generalize e.toFetch = e1 at heff
        cases heff <;> simp_all [Discover.react] <;> omega
      · have := (DataFetcher.step_idle hinv (by simpa using hrun') hen).2.1
        rw [hg, hgr] at this; cases this

/-! ## Projections -/

theorem fold_pipe (P : Pipe σ ε) (l : List Discover.Obs) (s : St σ) :
    (l.foldl (onReport P) s).disc = s.disc ∧
    ((l.foldl (onReport P) s).pipe = s.pipe ∨ ∃ n, (l.foldl (onReport P) s).pipe = some (n, P.M.init)) := by
  induction l generalizing s with
  | nil => exact ⟨rfl, Or.inl rfl⟩
  | cons x l ih =>
    rw [List.foldl_cons]
    obtain ⟨h1, h2⟩ := ih (onReport P s x)
    cases x with
    | interest => exact ⟨h1, h2⟩
    | success n =>
      refine ⟨h1, Or.inr ?_⟩
      rcases h2 with h2 | h2
      · exact ⟨n, h2⟩
      · exact h2
    | failure r => exact ⟨h1, h2⟩

section Fair

variable {N : Nat} {R : Int} {o : Discover.Opts} {digest : Data → Bytes} {prod : Producer.Prod} {conv : Convention}
  {fresh : Bool} {name : Name}

theorem fair_net {es s} (h : (fairMachine N R o digest prod conv fresh name).Run es s) :
    (netMachine (fixedPipe N R) o digest prod conv fresh name).Run es s := by
  induction h with
  | nil => exact Machine.Run.nil
  | snoc e _ he ih => exact Machine.Run.snoc (M := netMachine _ _ _ _ _ _ _) e ih he.1

theorem fair_disc {es s} (h : (fairMachine N R o digest prod conv fresh name).Run es s) :
    ∃ des, (discFair o digest prod name).Run des s.disc := by
  induction h with
  | nil =>
    refine ⟨[], ?_⟩
    have : (fairMachine N R o digest prod conv fresh name).init.disc = (discFair o digest prod name).init :=
      (fold_pipe _ _ _).1
    rw [this]
    exact Machine.Run.nil
  | @snoc es s e _ he ih =>
    obtain ⟨des, ih⟩ := ih
    have hst : (fairMachine N R o digest prod conv fresh name).step = St.step (fixedPipe N R) := rfl
    rw [hst]
    cases e with
    | disc e =>
      refine ⟨des ++ [e], ?_⟩
      have : (s.step (fixedPipe N R) (.disc e)).disc = (discFair o digest prod name).step s.disc e :=
        (fold_pipe _ _ _).1
      rw [this]
      exact Machine.Run.snoc e ih ⟨he.1.1.2, he.1.2, he.2⟩
    | pipe e =>
      obtain ⟨n, q, hp, _⟩ := he.1.1.2
      refine ⟨des, ?_⟩
      simp only [St.step, hp]
      exact ih

/-- The fixed pipeline as part of the program. -/
def pipeFair (N : Nat) (R : Int) (digest : Data → Bytes) (prod : Producer.Prod) (conv : Convention) (fresh : Bool)
    (n : Name) : Machine Fixed.St Fixed.Ev :=
  { init := Fixed.start N R
    step := Fixed.St.step
    enabled := fun q e => q.enabled e ∧ (fixedPipe N R).byUser e = false ∧
      (∀ k p, (fixedPipe N R).arrival q e = some (k, p) → k < 2 ^ 64 ∧ ∃ i now r, r ∈ prod.onInterest digest now i ∧
        Answers digest (segmentInterest conv fresh n k) p r) ∧
      Fixed.Tolerable R (prod.store.map (·.content)) q e }

theorem fair_pipe {es s} (h : (fairMachine N R o digest prod conv fresh name).Run es s) :
    ∀ n q, s.pipe = some (n, q) → ∃ qes, (pipeFair N R digest prod conv fresh n).Run qes q := by
  induction h with
  | nil =>
    intro n q hq
    rcases (fold_pipe (fixedPipe N R) (Discover.start o name).log
      { disc := Discover.start o name, pipe := none, cons := {} }).2 with h1 | ⟨n', h1⟩
    · rw [show (fairMachine N R o digest prod conv fresh name).init.pipe = none from h1] at hq
      cases hq
    · rw [show (fairMachine N R o digest prod conv fresh name).init.pipe = some (n', _) from h1] at hq
      simp only [Option.some.injEq, Prod.mk.injEq] at hq
      obtain ⟨rfl, rfl⟩ := hq
      exact ⟨[], Machine.Run.nil⟩
  | @snoc es s e _ he ih =>
    intro n q hq
    have hst : (fairMachine N R o digest prod conv fresh name).step = St.step (fixedPipe N R) := rfl
    rw [hst] at hq
    cases e with
    | disc e =>
      rcases (fold_pipe (fixedPipe N R) ((s.disc.step e).log.drop s.disc.log.length)
        { s with disc := s.disc.step e }).2 with h1 | ⟨n', h1⟩
      · rw [show (s.step (fixedPipe N R) (.disc e)).pipe = s.pipe from h1] at hq
        exact ih n q hq
      · rw [show (s.step (fixedPipe N R) (.disc e)).pipe = some (n', _) from h1] at hq
        simp only [Option.some.injEq, Prod.mk.injEq] at hq
        obtain ⟨rfl, rfl⟩ := hq
        exact ⟨[], Machine.Run.nil⟩
    | pipe e =>
      obtain ⟨n', q', hp, hq1, hq2⟩ := he.1.1.2
      simp only [St.step, hp, Option.some.injEq, Prod.mk.injEq] at hq
      obtain ⟨rfl, rfl⟩ := hq
      obtain ⟨qes, hr⟩ := ih n' q' hp
      exact ⟨qes ++ [e], Machine.Run.snoc (M := pipeFair N R digest prod conv fresh n') e hr
        ⟨hq1, hq2, fun k p ha => he.1.2 n' q' k p hp ha, he.2 n' q' hp⟩⟩

end Fair

theorem store_contents (po : Producer.Opts) (pre0 : Name) (now : Nat) (input : Bytes) :
    (Producer.construct po pre0 now input).store.map (·.content) = Producer.split po.maxSegmentSize input := by
  apply List.ext_getElem?
  intro k
  rw [List.getElem?_map]
  cases h : (Producer.construct po pre0 now input).store[k]? with
  | none =>
    rw [List.getElem?_eq_none_iff, Producer.store_length] at h
    rw [List.getElem?_eq_none h]; rfl
  | some d => rw [(Producer.store_get h).1]; rfl

theorem split_le {m : Nat} {input : Bytes} (hm : 0 < m) (hi : input.length < 2 ^ 64) :
    (Producer.split m input).length ≤ 2 ^ 64 := by
  rw [Producer.split_length hm]
  have : (input.length + m - 1) / m ≤ input.length := by
    rcases Nat.eq_zero_or_pos input.length with h | h
    · rw [h, Nat.div_eq_of_lt (by omega)]
    · rw [Nat.div_le_iff_le_mul_add_pred hm]
      have : input.length ≤ m * input.length := Nat.le_mul_of_pos_left _ hm
      omega
  omega

theorem vp_version {po : Producer.Opts} {pre0 : Name} {now : Nat} {input : Bytes} (hn : now < 2 ^ 64) :
    (Producer.construct po pre0 now input).versionedPrefix.endsWithVersion = true := by
  obtain ⟨v, h1, h2⟩ := Producer.construct_vp (o := po) (pre := pre0) (input := input) hn
  exact endsWithVersion_iff.mpr ⟨_, _, h1, h2⟩

theorem vp_not_meta {po : Producer.Opts} {pre0 : Name} {now : Nat} {input : Bytes} (hn : now < 2 ^ 64) :
    ¬ (Producer.construct po pre0 now input).pre ++ [metadataComp] <+:
      (Producer.construct po pre0 now input).versionedPrefix := by
  obtain ⟨v, h1, h2⟩ := Producer.construct_vp (o := po) (pre := pre0) (input := input) hn
  rw [h1]
  intro hc
  have hv : metadataComp = v := by
    have := hc.eq_of_length (by simp)
    simpa using this
  rw [← hv, metadataComp_not_version] at h2
  cases h2

theorem requests_not_meta {po : Producer.Opts} {pre0 : Name} {now : Nat} {input : Bytes} (hn : now < 2 ^ 64)
    {o : Discover.Opts} {name : Name} (hreq : Requests (Producer.construct po pre0 now input) o name) :
    ¬ (Producer.construct po pre0 now input).pre ++ [metadataComp] <+: name := by
  rcases hreq with h | ⟨h, _⟩
  · rw [h]; exact vp_not_meta hn
  · rw [h]; exact Producer.not_prefix_self

/-! ## The program does not fail -/

section Main

variable {N : Nat} {R : Int} {digest : Data → Bytes} {po : Producer.Opts}
    {pre0 : Name} {now : Nat} {input : Bytes} {o : Discover.Opts} {conv : Convention} {fresh : Bool} {name : Name}

theorem fair_inv (hN : 0 < N) {es s}
    (h : (fairMachine N R o digest (Producer.construct po pre0 now input) conv fresh name).Run es s) :
    PInv (fixedPipe N R) o name (Discover.FromProducer digest (Producer.construct po pre0 now input))
      (fun n k p => k < 2 ^ 64 ∧ ∃ i now' r, r ∈ (Producer.construct po pre0 now input).onInterest digest now' i ∧
        Answers digest (segmentInterest conv fresh n k) p r) s :=
  prog_inv (fixed_proper hN) (net_env (fair_net h))

theorem fair_name (hN : 0 < N) (hn : now < 2 ^ 64) (hreq : Requests (Producer.construct po pre0 now input) o name) {es s}
    (h : (fairMachine N R o digest (Producer.construct po pre0 now input) conv fresh name).Run es s) {n q}
    (hp : s.pipe = some (n, q)) : n = (Producer.construct po pre0 now input).versionedPrefix := by
  have hinv := fair_inv hN h
  obtain ⟨hsucc, _⟩ := hinv.after n q hp
  obtain ⟨des, hdr, hdq⟩ := hinv.disc
  rcases hreq with hr | ⟨_, h1, h2⟩
  · rw [Discover.C24_not_needed (Or.inr (by rw [hr]; exact vp_version hn)) hdr] at hsucc
    simp only [List.mem_singleton, Discover.Obs.success.injEq] at hsucc
    rw [hsucc]; exact hr
  · exact Discover.C55_honest_producer_partial digest hn h1 h2 hdr hdq hsucc

/-- The pipeline runs over a network that does not lose too much, and all Data announce the end. -/
theorem fair_fixed (hN : 0 < N) (hn : now < 2 ^ 64) (hm : 0 < po.maxSegmentSize) (hi : input.length < 2 ^ 64)
    (hreq : Requests (Producer.construct po pre0 now input) o name) {es s}
    (h : (fairMachine N R o digest (Producer.construct po pre0 now input) conv fresh name).Run es s) {n q}
    (hp : s.pipe = some (n, q)) :
    (∃ qes, (Fixed.fairMachine N R (Producer.split po.maxSegmentSize input)).Run qes q) ∧
    ∀ k p, Fixed.Obs.data k p ∈ q.log → p.valid = true ∧ p.appNack = false ∧
      p.final = .seg ((Producer.split po.maxSegmentSize input).length - 1) := by
  have hnn : ¬ (Producer.construct po pre0 now input).pre ++ [metadataComp] <+: n := by
    rw [fair_name hN hn hreq h hp]; exact vp_not_meta hn
  refine ⟨?_, ?_⟩
  · obtain ⟨qes, hq⟩ := fair_pipe h n q hp
    refine ⟨qes, ?_⟩
    clear hp
    induction hq with
    | nil => exact Machine.Run.nil
    | snoc e _ he ih =>
      refine Machine.Run.snoc (M := Fixed.fairMachine N R (Producer.split po.maxSegmentSize input)) e ih ⟨he.1, ?_, ?_⟩
      · cases e with
        | data i p c =>
          intro f k ha
          obtain ⟨hk, i', now', r, hr, ha'⟩ := he.2.2.1 k p (fixed_arrival ha)
          exact (answer_full hn hm hi hk hnn hr ha').2.1
        | _ => trivial
      · have := he.2.2.2
        rwa [store_contents] at this
  · intro k p hkp
    obtain ⟨_, ⟨qes, hq⟩, _⟩ := (fair_inv hN h).after n q hp
    obtain ⟨hk, i, now', r, hr, ha⟩ := (fixed_proper hN).came _ _ _ hq k p (fixed_mem_data.mpr hkp)
    exact (answer_full hn hm hi hk hnn hr ha).2.2

theorem fair_alive (hN : 0 < N) (hn : now < 2 ^ 64) (hm : 0 < po.maxSegmentSize) (hi : input.length < 2 ^ 64)
    (hreq : Requests (Producer.construct po pre0 now input) o name) {es s}
    (h : (fairMachine N R o digest (Producer.construct po pre0 now input) conv fresh name).Run es s) :
    s.cons.threw = none ∧ ¬ s.ended (fixedPipe N R) := by
  have hinv := fair_inv hN h
  obtain ⟨des, hd⟩ := fair_disc h
  have hdg := (disc_good hn hd).1
  have ht : s.cons.threw = none := by
    cases hp : s.pipe with
    | none =>
      rcases hinv.before hp with ⟨hc, _⟩ | ⟨_, _, r, hc⟩
      · rw [hc]
      · exact absurd hc (hdg r)
    | some nq =>
      obtain ⟨n, q⟩ := nq
      obtain ⟨_, _, hcons⟩ := hinv.after n q hp
      obtain ⟨⟨qes, hq⟩, hdat⟩ := fair_fixed hN hn hm hi hreq h hp
      rw [hcons]
      refine (good_run ?_).2
      intro x hx
      cases x with
      | failure m => exact absurd (fixed_mem_failure.mp hx) ((Fixed.fair_good hN hq).1.log m)
      | data k p =>
        obtain ⟨h1, h2, _⟩ := hdat k p (fixed_mem_data.mp hx)
        simp [Call.exn, h1, h2]
  refine ⟨ht, ?_⟩
  rintro (hc | ⟨n, q, hp, hc⟩)
  · exact hc ht
  · obtain ⟨⟨qes, hq⟩, _⟩ := fair_fixed hN hn hm hi hreq h hp
    have := Fixed.net_threw hN (Fixed.fair_net hq)
    simp [fixedPipe, this] at hc

/-! ## Progress -/

/-- After a report the fetcher of the discovery is idle. -/
theorem disc_idle {es d} (h : (Discover.machine o name).Run es d) {n} (hs : Discover.Obs.success n ∈ d.log) :
    ∀ f, d.fetcher = some f → f.isRunning = false ∧ fetchIdle f := by
  intro f hf
  by_cases hd : o.disable = true ∨ name.endsWithVersion = true
  · exfalso
    have h0 : Discover.start o name = { fetcher := none, log := [.success name] } := by
      unfold Discover.start
      rw [if_pos (by rcases hd with h | h <;> simp [h])]
    have : d.fetcher = none := by
      clear hs hf
      induction h with
      | nil => simp [Discover.machine, h0]
      | @snoc es s e _ he ih =>
        obtain ⟨⟨f, hf, _⟩, _⟩ := he
        rw [ih] at hf
        cases hf
    rw [hf] at this; cases this
  have hd1 : o.disable = false := by
    by_contra hc; exact hd (Or.inl (by simpa using hc))
  have hd2 : name.endsWithVersion = false := by
    by_contra hc; exact hd (Or.inr (by simpa using hc))
  obtain ⟨f', hf', hrun⟩ := Discover.run_fetch hd1 hd2 h
  rw [hf] at hf'
  simp only [Option.some.injEq] at hf'
  subst hf'
  have hr : f.isRunning = false := by
    by_contra hc
    have := ((DataFetcher.run_hinv hrun).fresh (by simpa using hc)).1 .onData (List.mem_map.mpr ⟨_, hs, rfl⟩)
    simp [DataFetcher.Out.isReport] at this
  exact ⟨hr, ((DataFetcher.run_inv hrun).idle hr).1, fun hc => by rw [hr] at hc; cases hc⟩

theorem not_ended_enabled {s : St Fixed.St} (hne : ¬ s.ended (fixedPipe N R)) {n q e} (hp : s.pipe = some (n, q))
    (hq : q.enabled e) (hu : (fixedPipe N R).byUser e = false)
    (hprod : ∀ k p, (fixedPipe N R).arrival q e = some (k, p) →
      k < 2 ^ 64 ∧ ∃ i now' r, r ∈ (Producer.construct po pre0 now input).onInterest digest now' i ∧
        Answers digest (segmentInterest conv fresh n k) p r)
    (ht : Fixed.Tolerable R (Producer.split po.maxSegmentSize input) q e) :
    (fairMachine N R o digest (Producer.construct po pre0 now input) conv fresh name).enabled s (.pipe e) := by
  refine ⟨⟨⟨hne, n, q, hp, hq, hu⟩, ?_⟩, ?_⟩
  · intro n' q' k p hp' ha
    rw [hp] at hp'
    simp only [Option.some.injEq, Prod.mk.injEq] at hp'
    obtain ⟨rfl, rfl⟩ := hp'
    exact hprod k p ha
  · intro n' q' hp'
    rw [hp] at hp'
    simp only [Option.some.injEq, Prod.mk.injEq] at hp'
    obtain ⟨rfl, rfl⟩ := hp'
    rw [store_contents]
    exact ht

theorem fair_next (hN : 0 < N) (hn : now < 2 ^ 64) (hm : 0 < po.maxSegmentSize) (hi : input.length < 2 ^ 64)
    (hreq : Requests (Producer.construct po pre0 now input) o name) (hconv : conv = po.conv)
    (hfresh : fresh = true → 0 < po.freshness) {es s}
    (h : (fairMachine N R o digest (Producer.construct po pre0 now input) conv fresh name).Run es s) :
    s.Exits (fixedPipe N R) 0 ∨
    ∃ e, (fairMachine N R o digest (Producer.construct po pre0 now input) conv fresh name).enabled s e ∧
      active s e = true ∧ e.isLoss = false := by
  have hinv := fair_inv hN h
  obtain ⟨ht, hne⟩ := fair_alive hN hn hm hi hreq h
  cases hp : s.pipe with
  | none =>
    right
    rcases hinv.before hp with ⟨_, hall⟩ | ⟨hc, _⟩
    case inr => rw [ht] at hc; cases hc
    obtain ⟨des, hdr, _⟩ := hinv.disc
    rcases hreq with hr | ⟨hr, hd1, hd2⟩
    · exfalso
      rw [Discover.C24_not_needed (Or.inr (by rw [hr]; exact vp_version hn)) hdr] at hall
      simp at hall
    obtain ⟨f, hf, hrun, hpend⟩ := (Discover.C24_result_comes hd1 hd2 hdr).1 hall
    rcases hpend with ⟨h1, _⟩ | ⟨_, b, h1⟩
    · obtain ⟨n, hrep, hpre, hval⟩ := (Producer.C26_discovery_reply digest (o := po) (pre := pre0) (input := input)
        (i := makeDiscoveryInterest name) (now' := 0) hn (by decide)
        (by rw [hr]; exact List.prefix_refl _)).2 rfl (Or.inl (by simp [makeDiscoveryInterest]))
      refine ⟨.disc (.data ⟨n, true, some (Producer.construct po pre0 now input).versionedPrefix⟩),
        ⟨⟨⟨hne, ⟨f, hf, ?_⟩, ?_⟩, ?_⟩, trivial⟩, ?_, rfl⟩
      · simp [Discover.Ev.toFetch, Fetcher.enabled, h1]
      · intro m hm'
        simp only [Discover.Ev.data.injEq] at hm'
        subst hm'
        exact hpre
      · exact ⟨makeDiscoveryInterest name, 0, 10, _, by rw [hrep]; simp, rfl⟩
      · simp [active, hf, hrun]
    · refine ⟨.disc .timer, ⟨⟨⟨hne, ⟨f, hf, ?_⟩, ?_⟩, trivial⟩, trivial⟩, ?_, rfl⟩
      · simp [Discover.Ev.toFetch, Fetcher.enabled, h1]
      · intro m hm'; cases hm'
      · simp [active, hf, hrun]
  | some nq =>
    obtain ⟨n, q⟩ := nq
    have hnm := fair_name hN hn hreq h hp
    obtain ⟨⟨qes, hq⟩, hdat⟩ := fair_fixed hN hn hm hi hreq h hp
    have hnet := Fixed.fair_net hq
    have hI := Fixed.run_inv hN (Fixed.net_run hnet)
    by_cases hc : Fixed.Obs.complete ∈ q.log
    · left
      unfold St.Exits
      rw [ht]
      refine Or.inr ⟨hne, ⟨?_, ?_⟩, rfl⟩
      · intro f hf
        obtain ⟨des, hdr, _⟩ := hinv.disc
        exact (disc_idle hdr (hinv.after n q hp).1 f hf).2
      · intro n' q' hp'
        rw [hp] at hp'
        simp only [Option.some.injEq, Prod.mk.injEq] at hp'
        obtain ⟨rfl, rfl⟩ := hp'
        refine ⟨(Fixed.fair_good hN hq).1.posted, ?_⟩
        intro x hx f k e
        subst e
        obtain ⟨i, hi'⟩ := List.mem_iff_getElem?.mp hx
        have hr := (Fixed.none_running hI (Fixed.run_hist (Fixed.net_run hnet)) (Fixed.net_consistent hnet) hc).1 i f k hi'
        exact ⟨((hI.core.fet i f k hi').idle hr).1, fun hc => by rw [hr] at hc; cases hc⟩
    · right
      have hL : 0 < (Producer.split po.maxSegmentSize input).length := by
        rw [Producer.split_length hm]; omega
      obtain ⟨i, f, k, ha, hrun, hk⟩ := Fixed.fair_progress hN hq
        (fun k p hkp => by rw [(hdat k p hkp).2.2]; simp) hL hc
      rcases (hI.core.fet i f k ha).one hrun with ⟨h1, _⟩ | ⟨_, h1⟩
      · have hkl : k < (Producer.construct po pre0 now input).store.length := by
          rw [Producer.store_length]; exact hk
        obtain ⟨d, hd⟩ : ∃ d, (Producer.construct po pre0 now input).store[k]? = some d :=
          ⟨_, List.getElem?_eq_getElem hkl⟩
        obtain ⟨_, g2, _, g4, g5⟩ := Producer.store_get hd
        have hk64 : k < 2 ^ 64 := Nat.lt_of_lt_of_le hk (split_le hm hi)
        have hrep := (Producer.C26_segment_reply digest (o := po) (pre := pre0) (input := input) (now' := 0) hn
          (i := segmentInterest conv fresh n k) (c := .fromSegment conv k) (k := k)
          (by rw [hnm]; rfl) (toSegment_fromSegment hk64)).1 d hd
        refine ⟨.pipe (.data i ⟨d.content, finalOf d.final, false, false, true⟩ false),
          not_ended_enabled hne hp ?_ rfl ?_ ?_, ?_, rfl⟩
        · show q.slotEnabled i .data
          unfold Fixed.St.slotEnabled
          rw [show q.slots[i]? = some (some (f, k)) from ha]
          simp [Fetcher.enabled, h1]
        · intro k' p' harr
          rw [fixed_arrival ha] at harr
          simp only [Option.some.injEq, Prod.mk.injEq] at harr
          obtain ⟨rfl, rfl⟩ := harr
          refine ⟨hk64, _, 0, .data d, by rw [hrep]; exact List.mem_singleton.mpr rfl, ?_, rfl, rfl, fun _ => rfl, rfl⟩
          rw [Producer.matchesData_iff]
          refine ⟨Or.inl ?_, ?_⟩
          · rw [g2, hnm, hconv]; rfl
          · intro hf; rw [g4]; exact hfresh hf
        · exact ⟨by simp, by simp, by simp [Fixed.Ev.isLoss]⟩
        · simp [active, hp, Fixed.active, Fixed.Ev.pipe, show q.slots[i]? = some (some (f, k)) from ha, hrun]
      · refine ⟨.pipe (.timer i), not_ended_enabled hne hp ?_ rfl ?_ ?_, ?_, rfl⟩
        · show q.slotEnabled i .timer
          unfold Fixed.St.slotEnabled
          rw [show q.slots[i]? = some (some (f, k)) from ha]
          simp [Fetcher.enabled, h1]
        · intro k' p' harr
          simp [fixedPipe] at harr
        · exact ⟨by simp, by simp, by simp [Fixed.Ev.isLoss]⟩
        · simp [active, hp, Fixed.active, Fixed.Ev.pipe, show q.slots[i]? = some (some (f, k)) from ha, hrun]

/-! ## Termination -/

theorem fetch_phi {R : Int} (hR : 0 ≤ R) {f : Fetcher} (h : DataFetcher.Inv R R f) {e : DataFetcher.Ev}
    (he : f.enabled e) (hne : e ≠ .cancel) :
    Fixed.phi R (f.step e).1 + f.isRunning.toNat ≤ Fixed.phi R f := by
  by_cases hr : f.isRunning = true
  · obtain ⟨hI', heff⟩ := DataFetcher.step_running h hr he
    have h3 := Fixed.phi_running hR h hr
    have hstop : (f.step e).1.isRunning = false → Fixed.phi R (f.step e).1 = 0 := by
      intro hs; simp [Fixed.phi, hs]
    rw [hr]
    have hn0 := h.nn0
    have ht0 := h.nt0
    have hl1 := h.nnl hr
    have hl2 := h.ntl hr
    have hR1 : R ≠ -1 := by omega
    have hone := h.one hr
    generalize (f.step e).2 = o1 at heff
    generalize (f.step e).1 = f1 at *
    cases heff with
    | data _ h1 => rw [hstop h1]; simp only [Bool.toNat_true]; omega
    | cancel => exact absurd rfl hne
    | timer _ h1 h2 h3 h4 h5 =>
      rw [Fixed.phi_eq h1, Fixed.phi_eq hr, h4, h5]
      have ht1 := hI'.one h1
      rw [h3] at ht1
      rw [h2] at hone
      simp only [Nat.one_ne_zero, false_and, or_false, true_and] at ht1
      simp only [Nat.zero_ne_one, false_and, false_or, true_and] at hone
      simp [ht1, hone]
    | retryTimeout _ h1 h2 h3 h4 h5 =>
      obtain ⟨h5, h6⟩ := h5 hR1
      rw [Fixed.phi_eq h1, Fixed.phi_eq hr, h4, h5]
      have ht1 := hI'.one h1
      rw [h3] at ht1
      simp only [Nat.one_ne_zero, false_and, or_false, true_and] at ht1
      simp only [ht1, Option.isSome_none, Bool.false_eq_true, if_false, Bool.toNat_true]
      omega
    | failTimeout _ h1 => rw [hstop h1]; simp only [Bool.toNat_true]; omega
    | duplicate _ h1 h2 h3 h4 h5 =>
      obtain ⟨h5, h6⟩ := h5 hR1
      rw [Fixed.phi_eq h1, Fixed.phi_eq hr, h4, h5]
      have ht1 := hI'.one h1
      rw [h3] at ht1
      simp only [Nat.one_ne_zero, false_and, or_false, true_and] at ht1
      simp only [ht1, Option.isSome_none, Bool.false_eq_true, if_false, Bool.toNat_true]
      omega
    | congestion _ h1 h2 h3 h4 h5 =>
      obtain ⟨h5, h6⟩ := h5 hR1
      rw [Fixed.phi_eq h1, Fixed.phi_eq hr, h4, h5]
      simp only [Bool.toNat_true]
      split <;> omega
    | fatal _ r h1 => rw [hstop h1]; simp only [Bool.toNat_true]; omega
    | failNack _ r h1 => rw [hstop h1]; simp only [Bool.toNat_true]; omega
  · simp only [Bool.not_eq_true] at hr
    have := (DataFetcher.step_idle h hr he).2.1
    simp [Fixed.phi, this, hr]

/-- Remaining work of the program. -/
def Work (N : Nat) (R : Int) (o : Discover.Opts) (L : Nat) (s : St Fixed.St) : Nat :=
  (match s.disc.fetcher with | none => 0 | some f => Fixed.phi o.maxRetries f) +
  match s.pipe with
  | none => Fixed.full R * (N + L)
  | some (_, q) => Fixed.Phi R L q

theorem disc_fetcher_inv {es d} (h : (Discover.machine o name).Run es d) {f} (hf : d.fetcher = some f) :
    DataFetcher.Inv o.maxRetries o.maxRetries f := by
  by_cases hd : o.disable = true ∨ name.endsWithVersion = true
  · exfalso
    have h0 : Discover.start o name = { fetcher := none, log := [.success name] } := by
      unfold Discover.start
      rw [if_pos (by rcases hd with h | h <;> simp [h])]
    have : d.fetcher = none := by
      clear hf
      induction h with
      | nil => simp [Discover.machine, h0]
      | @snoc es s e _ he ih =>
        obtain ⟨⟨f, hf, _⟩, _⟩ := he
        rw [ih] at hf
        cases hf
    rw [hf] at this; cases this
  have hd1 : o.disable = false := by
    by_contra hc; exact hd (Or.inl (by simpa using hc))
  have hd2 : name.endsWithVersion = false := by
    by_contra hc; exact hd (Or.inr (by simpa using hc))
  obtain ⟨f', hf', hrun⟩ := Discover.run_fetch hd1 hd2 h
  rw [hf] at hf'
  simp only [Option.some.injEq] at hf'
  subst hf'
  exact DataFetcher.run_inv hrun

theorem work_step (hN : 0 < N) (hn : now < 2 ^ 64) (hm : 0 < po.maxSegmentSize) (hi : input.length < 2 ^ 64)
    (hreq : Requests (Producer.construct po pre0 now input) o name) (hR : 0 ≤ R) (hR' : 0 ≤ o.maxRetries) {es s e}
    (h : (fairMachine N R o digest (Producer.construct po pre0 now input) conv fresh name).Run es s)
    (he : (fairMachine N R o digest (Producer.construct po pre0 now input) conv fresh name).enabled s e) :
    Work N R o (Producer.split po.maxSegmentSize input).length (s.step (fixedPipe N R) e) + (active s e).toNat ≤
      Work N R o (Producer.split po.maxSegmentSize input).length s := by
  have hinv := fair_inv hN h
  cases e with
  | disc e =>
    obtain ⟨⟨f, hf, hen⟩, hpre⟩ := he.1.1.2
    obtain ⟨des, hdr, _⟩ := hinv.disc
    have hI := disc_fetcher_inv hdr hf
    have h1 := fetch_phi hR' hI hen (by cases e <;> simp [Discover.Ev.toFetch])
    have hdisc : (s.step (fixedPipe N R) (.disc e)).disc = s.disc.step e := (fold_pipe _ _ _).1
    have hfet : (s.disc.step e).fetcher = some (f.step e.toFetch).1 := by
      unfold Discover.St.step; rw [hf]
    have hact : active s (.disc e) = f.isRunning := by simp [active, hf]
    rw [hact]
    have hpipe : (match (s.step (fixedPipe N R) (.disc e)).pipe with
        | none => Fixed.full R * (N + (Producer.split po.maxSegmentSize input).length)
        | some (_, q) => Fixed.Phi R (Producer.split po.maxSegmentSize input).length q) ≤
        (match s.pipe with
        | none => Fixed.full R * (N + (Producer.split po.maxSegmentSize input).length)
        | some (_, q) => Fixed.Phi R (Producer.split po.maxSegmentSize input).length q) := by
      cases hp : s.pipe with
      | none =>
        rcases (fold_pipe (fixedPipe N R) ((s.disc.step e).log.drop s.disc.log.length)
          { s with disc := s.disc.step e }).2 with g | ⟨n', g⟩
        · rw [show (s.step (fixedPipe N R) (.disc e)).pipe = s.pipe from g, hp]
        · rw [show (s.step (fixedPipe N R) (.disc e)).pipe = some (n', _) from g]
          exact Fixed.start_phi _
      | some nq =>
        obtain ⟨n, q⟩ := nq
        have hkeep : (s.step (fixedPipe N R) (.disc e)).pipe = some (n, q) := by
          obtain ⟨hs, _⟩ := hinv.after n q hp
          have hlog : ∃ l, (s.disc.step e).log = s.disc.log ++ l := by
            unfold Discover.St.step
            rw [hf]
            exact ⟨_, rfl⟩
          obtain ⟨l, hl⟩ := hlog
          obtain ⟨a, b, eab⟩ := List.append_of_mem hs
          have hdr' := Machine.Run.snoc (M := Discover.machine o name) e hdr he.1.1.2
          have hlnil := (disc_reports hdr' a (.success n) (b ++ l)
            (by show (s.disc.step e).log = _; rw [hl, eab]; simp) rfl).1
          have hlnil := (List.append_eq_nil_iff.mp hlnil).2
          subst hlnil
          unfold St.step
          dsimp only
          rw [hl]
          simp [hp]
        rw [hkeep]
    unfold Work
    rw [hdisc, hfet, hf]
    dsimp only
    omega
  | pipe e =>
    obtain ⟨n, q, hp, hq1, _⟩ := he.1.1.2
    obtain ⟨⟨qes, hq⟩, _⟩ := fair_fixed hN hn hm hi hreq h hp
    obtain ⟨⟨qes', hq'⟩, _⟩ := fair_fixed hN hn hm hi hreq (Machine.Run.snoc _ h he) (n := n) (q := q.step e)
      (by show (s.step (fixedPipe N R) (.pipe e)).pipe = _; simp only [St.step, hp]; rfl)
    have hnet := Fixed.fair_net hq
    have hcons : Fixed.ConsistentEv (Producer.split po.maxSegmentSize input) q e := by
      cases e with
      | data i p c =>
        intro f k ha
        obtain ⟨hk, i', now', r, hr, ha'⟩ := he.1.2 n q k p hp (fixed_arrival ha)
        have hnn : ¬ (Producer.construct po pre0 now input).pre ++ [metadataComp] <+: n := by
          rw [fair_name hN hn hreq h hp]; exact vp_not_meta hn
        exact (answer_full hn hm hi hk hnn hr ha').2.1
      | _ => trivial
    have h1 := Fixed.phi_step hR (Fixed.run_inv hN (Fixed.net_run hnet)) (Fixed.net_consistent hnet) hq1 hcons
    rw [Fixed.net_threw hN hnet] at h1
    simp only [Option.isNone_none, Bool.and_true] at h1
    have hs : s.step (fixedPipe N R) (.pipe e) = { s with pipe := some (n, q.step e), cons := (s.step (fixedPipe N R) (.pipe e)).cons } := by
      unfold St.step; rw [hp]; rfl
    rw [hs]
    unfold Work
    rw [hp]
    dsimp only
    have hact : active s (.pipe e) = Fixed.active q e := by simp [active, hp]
    rw [hact]
    have : (Fixed.active q e).toNat = if Fixed.active q e = true then 1 else 0 := by
      cases Fixed.active q e <;> rfl
    rw [this]
    omega

theorem activeCount_snoc (s : St Fixed.St) (es e) :
    activeCount N R s (es ++ [e]) =
      activeCount N R s es + (active (es.foldl (St.step (fixedPipe N R)) s) e).toNat := by
  induction es generalizing s with
  | nil => simp [activeCount]
  | cons a es ih => simp only [List.cons_append, activeCount, ih, List.foldl_cons]; omega

theorem work_count (hN : 0 < N) (hn : now < 2 ^ 64) (hm : 0 < po.maxSegmentSize) (hi : input.length < 2 ^ 64)
    (hreq : Requests (Producer.construct po pre0 now input) o name) (hR : 0 ≤ R) (hR' : 0 ≤ o.maxRetries) {es s}
    (h : (fairMachine N R o digest (Producer.construct po pre0 now input) conv fresh name).Run es s) :
    Work N R o (Producer.split po.maxSegmentSize input).length s +
      activeCount N R (start (fixedPipe N R) o name) es ≤
      Work N R o (Producer.split po.maxSegmentSize input).length (start (fixedPipe N R) o name) := by
  induction h with
  | nil => simp [activeCount, fairMachine]
  | snoc e hr he ih =>
    have h1 := work_step hN hn hm hi hreq hR hR' hr he
    rw [activeCount_snoc]
    have h3 := Fixed.run_foldl hr
    simp only [fairMachine] at h3
    rw [← h3]
    simp only [fairMachine]
    omega

theorem work_start (L : Nat) : Work N R o L (start (fixedPipe N R) o name) ≤
    Fixed.full o.maxRetries + Fixed.full R * (N + L) := by
  unfold Work
  have hd : (start (fixedPipe N R) o name).disc = Discover.start o name := (fold_pipe _ _ _).1
  rw [hd]
  have h1 : (match (Discover.start o name).fetcher with | none => 0 | some f => Fixed.phi o.maxRetries f) ≤
      Fixed.full o.maxRetries := by
    by_cases hc : (o.disable || name.endsWithVersion) = true
    · have : (Discover.start o name).fetcher = none := by unfold Discover.start; rw [if_pos hc]
      rw [this]; exact Nat.zero_le _
    · have : (Discover.start o name).fetcher = some (DataFetcher.fetch o.maxRetries o.maxRetries).1 := by
        unfold Discover.start; rw [if_neg hc]
      rw [this]; exact Fixed.phi_fetch _
  have h2 : (match (start (fixedPipe N R) o name).pipe with
        | none => Fixed.full R * (N + L)
        | some (_, q) => Fixed.Phi R L q) ≤ Fixed.full R * (N + L) := by
    rcases (fold_pipe (fixedPipe N R) (Discover.start o name).log
      { disc := Discover.start o name, pipe := none, cons := {} }).2 with g | ⟨n', g⟩
    · rw [show (start (fixedPipe N R) o name).pipe = none from g]
    · rw [show (start (fixedPipe N R) o name).pipe = some (n', _) from g]
      exact Fixed.start_phi _
  omega

end Main

end Verif.Catchunks
