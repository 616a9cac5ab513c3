import Verif.Proofs.CatchunksLive

/-!
# How many events a transfer takes, whatever the retry limits

As `Fixed.Phi` in `Proofs/FixedNet`, but retries are not counted: an Interest is one unit of work, a pause one more.
-/

namespace Verif.Fixed

open DataFetcher (Fetcher)

/-- Work that a fetcher can do without further loss. -/
def psi (f : Fetcher) : Nat := if f.isRunning then 1 + (if f.timer.isSome then 1 else 0) else 0

def slotPsi : Slot → Nat
  | none => 0
  | some (f, _) => psi f

def psiSum (l : List Slot) : Nat := (l.map slotPsi).sum

theorem psi_sum_set (l : List Slot) (i) (x y : Slot) (h : l[i]? = some x) :
    psiSum (l.set i y) + slotPsi x = psiSum l + slotPsi y := by
  induction l generalizing i with
  | nil => simp at h
  | cons a l ih =>
    cases i with
    | zero =>
      simp at h
      subst h
      simp [psiSum]; omega
    | succ i =>
      simp at h
      have := ih i h
      simp [psiSum] at this ⊢
      omega

theorem psi_fetch (R : Int) : psi (DataFetcher.fetch R R).1 ≤ 1 := by
  simp [psi, DataFetcher.fetch, Fetcher.expressInterest, Fetcher.isRunning]

theorem psi_cancel (f : Fetcher) : psi f.cancel = 0 := by
  simp [psi, cancel_running]

theorem psiSum_nil : psiSum [] = 0 := rfl

theorem psiSum_cons (x l) : psiSum (x :: l) = slotPsi x + psiSum l := rfl

theorem psi_finalLoop_sum (last l) : psiSum (finalLoop last l).1 ≤ psiSum l := by
  induction l with
  | nil => simp [finalLoop]
  | cons a l ih =>
    cases a with
    | none => simp only [finalLoop, psiSum_cons]; omega
    | some x =>
      obtain ⟨f, k⟩ := x
      simp only [finalLoop]
      split
      · simp only [psiSum_cons, slotPsi, psi_cancel]; omega
      · split
        · exact Nat.le_refl _
        · simp only [psiSum_cons]; omega

theorem psi_failLoop_sum (b l) : psiSum (failLoop b l).1 ≤ psiSum l := by
  induction l with
  | nil => simp [failLoop]
  | cons a l ih =>
    cases a with
    | none => simp only [failLoop, psiSum_cons]; omega
    | some x =>
      obtain ⟨f, k⟩ := x
      simp only [failLoop]
      split
      · simp only [psiSum_cons, slotPsi, psi_cancel]; omega
      · simp only [psiSum_cons]; omega

theorem psi_cancel_sum (s : St) : psiSum s.cancel.slots ≤ psiSum s.slots := by
  unfold St.cancel
  split
  · exact Nat.le_refl _
  · simp [psiSum_nil]

theorem psi_onFailure_sum (s : St) (m) : psiSum (s.onFailure m).slots ≤ psiSum s.slots := by
  unfold St.onFailure
  split
  · exact Nat.le_refl _
  · exact psi_cancel_sum s

theorem psi_fetchNext_sum (s : St) (i) :
    psiSum (s.fetchNextSegment i).1.slots ≤ psiSum s.slots + 1 ∧
    received (s.fetchNextSegment i).1.log = received s.log := by
  refine ⟨?_, ?_⟩
  · unfold St.fetchNextSegment
    split
    · simp
    · split
      · have := psi_onFailure_sum s .noFinal
        dsimp only; omega
      · dsimp only
        split
        · simp
        · simp only [St.emit]
          split
          · simp
          · rename_i old ho
            have := psi_sum_set s.slots i old
              (some ((DataFetcher.fetch s.maxRetries s.maxRetries).1, s.nextSegmentNo)) ho
            have h2 := psi_fetch s.maxRetries
            simp only [slotPsi] at this
            dsimp only
            omega
  · obtain ⟨h1, _⟩ := fetchNext_effect s i
    rcases h1 with h1 | h1
    · rw [h1]
    · rw [h1.1]; simp

theorem psi_finish_sum (s : St) (i) :
    psiSum (s.finish i).slots ≤ psiSum s.slots + 1 ∧
    received (s.finish i).log = received s.log := by
  unfold St.finish
  split
  · simp [St.emit]
  · exact psi_fetchNext_sum s i

theorem psi_afterOnData_sum (s : St) (i p) :
    psiSum (s.afterOnData i p).slots ≤ psiSum s.slots + 1 ∧
    received (s.afterOnData i p).log = received s.log := by
  unfold St.afterOnData
  split
  · split
    · exact psi_finish_sum s i
    · simp
    · rename_i n _
      have h1 := psi_finalLoop_sum n s.slots
      dsimp only
      split
      · rw [onFailure_received]
        have := psi_onFailure_sum { s with lastSegmentNo := n, hasFinalBlockId := true, slots := (finalLoop n s.slots).1 }
        refine ⟨Nat.le_trans (this _) ?_, rfl⟩
        dsimp only; omega
      · obtain ⟨h2, h3⟩ := psi_finish_sum
          { s with lastSegmentNo := n, hasFinalBlockId := true, slots := (finalLoop n s.slots).1 } i
        refine ⟨Nat.le_trans h2 ?_, h3⟩
        dsimp only; omega
  · exact psi_finish_sum s i

theorem psi_onData_sum (s : St) (k p c) :
    psiSum (s.onData k p c).slots ≤ psiSum s.slots ∧ (s.onData k p c).maxRetries = s.maxRetries := by
  unfold St.onData St.cancel St.emit
  dsimp only
  split
  · split <;> simp [psiSum_nil]
  · simp

theorem psi_handleFail_sum (s : St) (m i) : psiSum (s.handleFail m i).slots ≤ psiSum s.slots := by
  unfold St.handleFail
  split
  · exact Nat.le_refl _
  · split
    · exact Nat.le_refl _
    · rename_i slot _
      unfold St.handleFailSeg
      split
      · exact psi_onFailure_sum _ _
      · split
        · have := psi_failLoop_sum (slotSeg slot) s.slots
          dsimp only
          split
          · exact Nat.le_trans (psi_onFailure_sum { s with slots := (failLoop (slotSeg slot) s.slots).1 } _) this
          · exact this
        · exact Nat.le_refl _

/-- Remaining work. -/
def Psi (L : Nat) (s : St) : Nat := psiSum s.slots + (L - (received s.log).length)

/-- What an answer may cost a fetcher at most. -/
def fcost : DataFetcher.Ev → Nat
  | .nack _ => 2
  | .timeout => 1
  | _ => 0

theorem psi_eq {f : Fetcher} (hr : f.isRunning = true) : psi f = 1 + (if f.timer.isSome then 1 else 0) := by
  simp [psi, hr]

/-- The work of one fetcher: an event that reaches it is paid by what it had to do or is a loss. -/
theorem psi_fetch_step {n t f} (h : DataFetcher.Inv n t f) (hr : f.isRunning = true) {e : DataFetcher.Ev} (he : f.enabled e)
    (hne : e ≠ .cancel) : psi (f.step e).1 + 1 ≤ psi f + fcost e := by
  obtain ⟨hI', hE⟩ := DataFetcher.step_running h hr he
  have hone := h.one hr
  have hone' := hI'.one
  have h0 := psi_eq hr
  have hz : (f.step e).1.isRunning = false → psi (f.step e).1 = 0 := by intro hx; simp [psi, hx]
  have hle : psi (f.step e).1 ≤ 2 := by
    unfold psi; split
    · split <;> omega
    · omega
  have h1 : (f.step e).1.isRunning = true → (f.step e).1.pending = 1 → psi (f.step e).1 = 1 := by
    intro hx hp
    rw [psi_eq hx]
    rcases hone' hx with h | h
    · simp [h.2]
    · omega
  generalize (f.step e).1 = f' at *
  generalize (f.step e).2 = o at *
  cases hE with
  | data _ a => rw [hz a]; simp only [fcost]; omega
  | cancel => exact absurd rfl hne
  | timer _ a b c =>
    rw [h1 a c, h0]
    rcases hone with h | h
    · omega
    · simp [h.2]
  | retryTimeout _ a b c => rw [h1 a c]; simp only [fcost]; omega
  | failTimeout _ a => rw [hz a]; simp only [fcost]; omega
  | duplicate _ a b c => rw [h1 a c]; simp only [fcost]; omega
  | congestion _ a b c => simp only [fcost]; omega
  | fatal _ r a => rw [hz a]; simp only [fcost]; omega
  | failNack _ r a => rw [hz a]; simp only [fcost]; omega

/-- What an event may cost at most. -/
def cost : Ev → Nat
  | .nack _ _ => 2
  | .timeout _ => 1
  | _ => 0

theorem psi_fetcherEvent {N : Nat} {R s i e p c segs} (h : Inv N R s)
    (hc : AllConsistent segs s) (he : s.slotEnabled i e)
    (hp : e = .data → ∀ f k, At s i f k → Consistent segs k p) (hne : e ≠ .cancel) :
    Psi segs.length (s.fetcherEvent i e p c) +
      (if (match s.slots[i]? with | some (some (f, _)) => f.isRunning | _ => false) = true then 1 else 0) ≤
      Psi segs.length s + (if (match s.slots[i]? with | some (some (f, _)) => f.isRunning | _ => false) = true then
        fcost e else 0) := by
  unfold St.slotEnabled at he
  split at he
  case h_2 => exact absurd he (by simp)
  rename_i f k ha
  have ha' : At s i f k := ha
  have hI := h.core.fet i f k ha'
  unfold St.fetcherEvent
  rw [ha]
  dsimp only
  by_cases hr : f.isRunning = true
  case neg =>
    simp only [Bool.not_eq_true] at hr
    obtain ⟨h1, h2, _⟩ := DataFetcher.step_idle hI hr he
    rw [h1]
    have := psi_sum_set s.slots i _ (some ((f.step e).1, k)) ha
    simp only [slotPsi, psi, hr, h2] at this
    simp only [Psi, List.foldl_nil, hr]
    simp at this ⊢
    omega
  obtain ⟨hI', hE⟩ := DataFetcher.step_running hI hr he
  have hset := psi_sum_set s.slots i _ (some ((f.step e).1, k)) ha
  have hstep := psi_fetch_step hI hr he hne
  simp only [slotPsi] at hset
  simp only [hr, if_true]
  generalize hf' : (f.step e).1 = f' at *
  generalize ho : (f.step e).2 = outs at *
  generalize hg : fcost e = g at *
  -- a failure of the fetcher
  have hfail : ∀ m, f'.isRunning = false →
      Psi segs.length (St.handleFail { s with slots := s.slots.set i (some (f', k)) } m i) + 1 ≤
        Psi segs.length s + g := by
    intro m hnr
    have h4 := psi_handleFail_sum { s with slots := s.slots.set i (some (f', k)) } m i
    have h5 : psi f' = 0 := by simp [psi, hnr]
    simp only [Psi, handleFail_log]
    dsimp only at h4
    omega
  -- a retransmission or a pause
  have hretry : ∀ s' : St, s'.slots = s.slots.set i (some (f', k)) → received s'.log = received s.log →
      Psi segs.length s' + 1 ≤ Psi segs.length s + g := by
    intro s' h1 h2
    simp only [Psi, h1, h2]
    omega
  cases hE with
  | data _ h1 h2 h4 h5 h6 =>
    simp only [List.foldl_cons, List.foldl_nil, St.react]
    have hns := not_stopping h.core ha'
    have hhd : St.handleData { s with slots := s.slots.set i (some (f', k)) } i k p c =
        (St.onData { s with slots := s.slots.set i (some (f', k)) } k p c).afterOnData i p := by
      unfold St.handleData
      rw [if_neg (by simp [hns])]
    rw [hhd]
    have hco := hp rfl f k ha'
    have hklt := consistent_lt hco
    have hnot := h.core.live i f k ha' (Or.inl hr)
    have hbound : (received s.log).length + 1 ≤ segs.length := by
      have hnd : (k :: received s.log).Nodup := List.nodup_cons.mpr ⟨hnot, h.core.rnodup⟩
      have := nodup_length_le (b := segs.length) hnd (by
        intro x hx
        rcases List.mem_cons.mp hx with rfl | hx
        · exact hklt
        · simp only [received, List.mem_filterMap] at hx
          obtain ⟨o, ho, hox⟩ := hx
          cases o with
          | data k' p' =>
            simp at hox
            subst hox
            exact consistent_lt (hc _ _ ho)
          | _ => simp at hox)
      simpa using this
    obtain ⟨g1, g2⟩ := psi_onData_sum { s with slots := s.slots.set i (some (f', k)) } k p c
    obtain ⟨g3, g4⟩ := psi_afterOnData_sum
      (St.onData { s with slots := s.slots.set i (some (f', k)) } k p c) i p
    simp only [Psi]
    rw [g4, onData_log]
    have hz : psi f' = 0 := by simp [psi, h1]
    simp only [received_append, received_data, List.length_append, List.length_singleton]
    dsimp only at g1
    have : 1 ≤ psi f := by rw [psi_eq hr]; omega
    omega
  | cancel => exact absurd rfl hne
  | timer _ h1 => exact hretry _ rfl (by simp [St.react, St.emit])
  | retryTimeout _ h1 => exact hretry _ rfl (by simp [St.react, St.emit])
  | duplicate _ h1 => exact hretry _ rfl (by simp [St.react, St.emit])
  | congestion _ h1 => exact hretry _ rfl rfl
  | failTimeout _ h1 => exact hfail _ h1
  | fatal _ r h1 => exact hfail _ h1
  | failNack _ r h1 => exact hfail _ h1

theorem psi_step {N : Nat} {R s e segs} (h : Inv N R s) (hc : AllConsistent segs s) (he : s.enabled e) (hp : ConsistentEv segs s e)
    (hth : s.threw = none) : Psi segs.length (s.step e) + (active s e).toNat ≤ Psi segs.length s + (if active s e then cost e else 0) := by
  have hb : ∀ b : Bool, b.toNat = if b = true then 1 else 0 := by intro b; cases b <;> rfl
  rw [hb]
  unfold St.step
  rw [h.core.noub, hth]
  simp only [Option.isSome_none, Bool.or_false, Bool.false_eq_true, if_false]
  cases e with
  | data i p c =>
    exact psi_fetcherEvent (c := c) h hc he (p := p) (fun _ f k ha => hp f k ha) (by simp)
  | nack i r =>
    exact psi_fetcherEvent (c := false) h hc he (p := ⟨[], .absent, false, false, true⟩) (by simp) (by simp)
  | timeout i =>
    exact psi_fetcherEvent (c := false) h hc he (p := ⟨[], .absent, false, false, true⟩) (by simp) (by simp)
  | timer i =>
    exact psi_fetcherEvent (c := false) h hc he (p := ⟨[], .absent, false, false, true⟩) (by simp) (by simp)
  | cancel =>
    have h1 := psi_cancel_sum s
    have h2 : s.cancel.log = s.log := by unfold St.cancel; split <;> rfl
    simp only [active, Ev.pipe, Psi, h2]
    simp; omega
  | posted =>
    simp only [active, Ev.pipe]
    split
    · simp
    · simp [Psi, St.emit]

theorem start_psi {N : Nat} {R} (L : Nat) : Psi L (start N R) ≤ N + L := by
  have key : ∀ n i (t : St), t.maxRetries = R →
      psiSum (t.doRunLoop i n).slots ≤ psiSum t.slots + n ∧
      received (t.doRunLoop i n).log = received t.log := by
    intro n
    induction n with
    | zero => intro i t _; simp [St.doRunLoop]
    | succ n ih =>
      intro i t ht
      unfold St.doRunLoop
      obtain ⟨h1, h2⟩ := psi_fetchNext_sum t i
      have h3 : (t.fetchNextSegment i).1.maxRetries = R := by
        rw [← ht]
        unfold St.fetchNextSegment St.onFailure St.cancel St.emit
        dsimp only
        repeat' split
        all_goals rfl
      rcases hx : t.fetchNextSegment i with ⟨s', ok⟩
      rw [hx] at h1 h2 h3
      dsimp only at h1 h2 h3 ⊢
      split
      · obtain ⟨h4, h5⟩ := ih (i + 1) s' h3
        refine ⟨?_, by rw [h5, h2]⟩
        omega
      · refine ⟨?_, h2⟩
        omega
  obtain ⟨h1, h2⟩ := key N 0 (construct N R) rfl
  have h3 : psiSum (construct N R).slots = 0 := by
    simp [construct, psiSum, slotPsi]
  unfold Psi start
  rw [h2]
  have h4 : (received (construct N R).log).length = 0 := by simp [construct]
  rw [h4]
  simp only [Nat.sub_zero]
  omega

end Verif.Fixed

namespace Verif.Catchunks

open Verif.DataFetcher (Fetcher)

variable {N : Nat} {R : Int} {digest : Data → Bytes} {po : Producer.Opts}
    {pre0 : Name} {now : Nat} {input : Bytes} {o : Discover.Opts} {conv : Convention} {fresh : Bool} {name : Name}

theorem fetch_psi {R : Int} {f : Fetcher} (h : DataFetcher.Inv R R f) {e : DataFetcher.Ev}
    (he : f.enabled e) (hne : e ≠ .cancel) :
    Fixed.psi (f.step e).1 + f.isRunning.toNat ≤ Fixed.psi f + (if f.isRunning = true then Fixed.fcost e else 0) := by
  by_cases hr : f.isRunning = true
  · simpa [hr] using Fixed.psi_fetch_step h hr he hne
  · simp only [Bool.not_eq_true] at hr
    have := (DataFetcher.step_idle h hr he).2.1
    simp [Fixed.psi, this, hr]

/-- Work of the program that remains if nothing more is lost. -/
def Load (N : Nat) (L : Nat) (s : St Fixed.St) : Nat :=
  (match s.disc.fetcher with | none => 0 | some f => Fixed.psi f) +
  match s.pipe with
  | none => N + L
  | some (_, q) => Fixed.Psi L q

theorem lossCount_snoc (s : St Fixed.St) (es e) :
    lossCount N R s (es ++ [e]) =
      lossCount N R s es + (active (es.foldl (St.step (fixedPipe N R)) s) e && e.isLoss).toNat := by
  induction es generalizing s with
  | nil => simp [lossCount]
  | cons a es ih => simp only [List.cons_append, lossCount, ih, List.foldl_cons]; omega

theorem load_step (hN : 0 < N) (hn : now < 2 ^ 64) (hm : 0 < po.maxSegmentSize) (hi : input.length < 2 ^ 64)
    (hreq : Requests (Producer.construct po pre0 now input) o name) {es s e}
    (h : (fairMachine N R o digest (Producer.construct po pre0 now input) conv fresh name).Run es s)
    (he : (fairMachine N R o digest (Producer.construct po pre0 now input) conv fresh name).enabled s e) :
    Load N (Producer.split po.maxSegmentSize input).length (s.step (fixedPipe N R) e) + (active s e).toNat ≤
      Load N (Producer.split po.maxSegmentSize input).length s + 2 * (active s e && e.isLoss).toNat := by
  have hinv := fair_inv hN h
  cases e with
  | disc e =>
    obtain ⟨⟨f, hf, hen⟩, hpre⟩ := he.1.1.2
    obtain ⟨des, hdr, _⟩ := hinv.disc
    have hI := disc_fetcher_inv hdr hf
    have h1 := fetch_psi hI hen (by cases e <;> simp [Discover.Ev.toFetch])
    have hdisc : (s.step (fixedPipe N R) (.disc e)).disc = s.disc.step e := (fold_pipe _ _ _).1
    have hfet : (s.disc.step e).fetcher = some (f.step e.toFetch).1 := by
      unfold Discover.St.step; rw [hf]
    have hact : active s (.disc e) = f.isRunning := by simp [active, hf]
    rw [hact]
    have hpipe : (match (s.step (fixedPipe N R) (.disc e)).pipe with
        | none => N + (Producer.split po.maxSegmentSize input).length
        | some (_, q) => Fixed.Psi (Producer.split po.maxSegmentSize input).length q) ≤
        (match s.pipe with
        | none => N + (Producer.split po.maxSegmentSize input).length
        | some (_, q) => Fixed.Psi (Producer.split po.maxSegmentSize input).length q) := by
      cases hp : s.pipe with
      | none =>
        rcases (fold_pipe (fixedPipe N R) ((s.disc.step e).log.drop s.disc.log.length)
          { s with disc := s.disc.step e }).2 with g | ⟨n', g⟩
        · rw [show (s.step (fixedPipe N R) (.disc e)).pipe = s.pipe from g, hp]
        · rw [show (s.step (fixedPipe N R) (.disc e)).pipe = some (n', _) from g]
          exact Fixed.start_psi _
      | some nq =>
        obtain ⟨n, q⟩ := nq
        have hkeep : (s.step (fixedPipe N R) (.disc e)).pipe = some (n, q) := by
          obtain ⟨hs, _⟩ := hinv.after n q hp
          have hlog : ∃ l, (s.disc.step e).log = s.disc.log ++ l := by
            unfold Discover.St.step
            rw [hf]
            exact ⟨_, rfl⟩
          obtain ⟨l, hl⟩ := hlog
          obtain ⟨a, b, eab⟩ := List.append_of_mem hs
          have hdr' := Machine.Run.snoc (M := Discover.machine o name) e hdr he.1.1.2
          have hlnil := (disc_reports hdr' a (.success n) (b ++ l)
            (by show (s.disc.step e).log = _; rw [hl, eab]; simp) rfl).1
          have hlnil := (List.append_eq_nil_iff.mp hlnil).2
          subst hlnil
          unfold St.step
          dsimp only
          rw [hl]
          simp [hp]
        rw [hkeep]
    unfold Load
    rw [hdisc, hfet, hf]
    have hcost : (if f.isRunning = true then Fixed.fcost e.toFetch else 0) ≤
        2 * (f.isRunning && (Ev.disc e).isLoss).toNat := by
      cases f.isRunning <;> cases e <;> simp [Fixed.fcost, Ev.isLoss, Discover.Ev.toFetch]
    dsimp only
    omega
  | pipe e =>
    obtain ⟨n, q, hp, hq1, _⟩ := he.1.1.2
    obtain ⟨⟨qes, hq⟩, _⟩ := fair_fixed hN hn hm hi hreq h hp
    obtain ⟨⟨qes', hq'⟩, _⟩ := fair_fixed hN hn hm hi hreq (Machine.Run.snoc _ h he) (n := n) (q := q.step e)
      (by show (s.step (fixedPipe N R) (.pipe e)).pipe = _; simp only [St.step, hp]; rfl)
    have hnet := Fixed.fair_net hq
    have hcons : Fixed.ConsistentEv (Producer.split po.maxSegmentSize input) q e := by
      cases e with
      | data i p c =>
        intro f k ha
        obtain ⟨hk, i', now', r, hr, ha'⟩ := he.1.2 n q k p hp (fixed_arrival ha)
        have hnn : ¬ (Producer.construct po pre0 now input).pre ++ [metadataComp] <+: n := by
          rw [fair_name hN hn hreq h hp]; exact vp_not_meta hn
        exact (answer_full hn hm hi hk hnn hr ha').2.1
      | _ => trivial
    have h1 := Fixed.psi_step (Fixed.run_inv hN (Fixed.net_run hnet)) (Fixed.net_consistent hnet) hq1 hcons
      (Fixed.net_threw hN hnet)
    have hs : s.step (fixedPipe N R) (.pipe e) = { s with pipe := some (n, q.step e), cons := (s.step (fixedPipe N R) (.pipe e)).cons } := by
      unfold St.step; rw [hp]; rfl
    rw [hs]
    unfold Load
    rw [hp]
    dsimp only
    have hact : active s (.pipe e) = Fixed.active q e := by simp [active, hp]
    rw [hact]
    have : (if Fixed.active q e = true then Fixed.cost e else 0) ≤ 2 * (Fixed.active q e && (Ev.pipe e).isLoss).toNat := by
      cases Fixed.active q e <;> cases e <;> simp [Fixed.cost, Ev.isLoss, Fixed.Ev.isLoss]
    omega

theorem load_count (hN : 0 < N) (hn : now < 2 ^ 64) (hm : 0 < po.maxSegmentSize) (hi : input.length < 2 ^ 64)
    (hreq : Requests (Producer.construct po pre0 now input) o name) {es s}
    (h : (fairMachine N R o digest (Producer.construct po pre0 now input) conv fresh name).Run es s) :
    Load N (Producer.split po.maxSegmentSize input).length s +
      activeCount N R (start (fixedPipe N R) o name) es ≤
      Load N (Producer.split po.maxSegmentSize input).length (start (fixedPipe N R) o name) +
        2 * lossCount N R (start (fixedPipe N R) o name) es := by
  induction h with
  | nil => simp [activeCount, lossCount, fairMachine]
  | snoc e hr he ih =>
    have h1 := load_step hN hn hm hi hreq hr he
    rw [activeCount_snoc, lossCount_snoc]
    have h3 := Fixed.run_foldl hr
    simp only [fairMachine] at h3
    rw [← h3]
    simp only [fairMachine]
    omega

theorem load_start (L : Nat) : Load N L (start (fixedPipe N R) o name) ≤
    1 + N + L := by
  unfold Load
  have hd : (start (fixedPipe N R) o name).disc = Discover.start o name := (fold_pipe _ _ _).1
  rw [hd]
  have h1 : (match (Discover.start o name).fetcher with | none => 0 | some f => Fixed.psi f) ≤
      1 := by
    by_cases hc : (o.disable || name.endsWithVersion) = true
    · have : (Discover.start o name).fetcher = none := by unfold Discover.start; rw [if_pos hc]
      rw [this]; exact Nat.zero_le _
    · have : (Discover.start o name).fetcher = some (DataFetcher.fetch o.maxRetries o.maxRetries).1 := by
        unfold Discover.start; rw [if_neg hc]
      rw [this]; exact Fixed.psi_fetch _
  have h2 : (match (start (fixedPipe N R) o name).pipe with
        | none => N + L
        | some (_, q) => Fixed.Psi L q) ≤ N + L := by
    rcases (fold_pipe (fixedPipe N R) (Discover.start o name).log
      { disc := Discover.start o name, pipe := none, cons := {} }).2 with g | ⟨n', g⟩
    · rw [show (start (fixedPipe N R) o name).pipe = none from g]
    · rw [show (start (fixedPipe N R) o name).pipe = some (n', _) from g]
      exact Fixed.start_psi _
  omega

end Verif.Catchunks
