import Verif.Proofs.FetchTime

/-! # How long the fixed pipeline takes -/

namespace Verif.FixedTime

open Fixed
open DataFetcher (Fetcher fetch)
open PingTime (ns)
open FetchTime (dueAt limit Acct)

/-- What a handler for slot `i` does to the running fetchers after the fetcher itself was changed. -/
structure Next (i : Nat) (s s' : Fixed.St) : Prop where
  log : ∃ new, s'.log = s.log ++ new ∧
    ((new.filterMap interest? = [] ∧ ∀ j g m, At s' j g m → g.isRunning = true → At s j g m) ∨
      (new.filterMap interest? = [s.nextSegmentNo] ∧ ∀ j g m, At s' j g m → g.isRunning = true →
        (At s j g m ∧ j ≠ i) ∨ (j = i ∧ m = s.nextSegmentNo ∧ g = (fetch s.maxRetries s.maxRetries).1)))
  cnt : s'.nReceived = s.nReceived

theorem next_shrink {i s s'} (h1 : s'.log = s.log) (h2 : s'.nReceived = s.nReceived)
    (h3 : ∀ j g m, At s' j g m → g.isRunning = true → At s j g m) : Next i s s' :=
  ⟨⟨[], by simp [h1], .inl ⟨rfl, h3⟩⟩, h2⟩

theorem next_cancel (i s) : Next i s s.cancel := by
  unfold St.cancel
  split
  · exact next_shrink rfl rfl fun _ _ _ h _ => h
  · exact next_shrink rfl rfl fun _ _ _ h _ => by simp [At] at h

theorem next_onFailure (i s m) : Next i s (s.onFailure m) := by
  unfold St.onFailure
  split
  · exact next_shrink rfl rfl fun _ _ _ h _ => h
  · have h := next_cancel i s
    exact ⟨h.log, h.cnt⟩

theorem next_fetchNext (s : Fixed.St) (i : Nat) : Next i s (s.fetchNextSegment i).1 := by
  unfold St.fetchNextSegment
  split
  · exact next_shrink rfl rfl fun _ _ _ h _ => h
  · split
    · exact next_onFailure _ _ _
    · dsimp only
      split
      · exact next_shrink rfl rfl fun _ _ _ h _ => h
      · simp only [St.emit]
        split
        · rename_i hnone
          refine ⟨⟨[.interest s.nextSegmentNo], rfl, .inr ⟨rfl, fun j g m h _ => ?_⟩⟩, rfl⟩
          left
          refine ⟨h, ?_⟩
          rintro rfl
          simp only [At] at h
          rw [hnone] at h
          cases h
        · rename_i old hold
          refine ⟨⟨[.interest s.nextSegmentNo], rfl, .inr ⟨rfl, fun j g m h _ => ?_⟩⟩, rfl⟩
          simp only [At, List.getElem?_set] at h
          by_cases hj : i = j
          · rw [if_pos hj] at h
            split at h
            · simp at h
              exact .inr ⟨hj.symm, h.2.symm, h.1.symm⟩
            · cases h
          · rw [if_neg hj] at h
            exact .inl ⟨h, fun h => hj h.symm⟩

theorem next_finish (s : Fixed.St) (i : Nat) : Next i s (s.finish i) := by
  unfold St.finish
  split
  · exact ⟨⟨[.complete], rfl, .inl ⟨rfl, fun _ _ _ h _ => h⟩⟩, rfl⟩
  · exact next_fetchNext s i

theorem next_trans {i s s1 s'} (h0 : s1.log = s.log) (h1 : s1.nReceived = s.nReceived) (h2 : s1.nextSegmentNo = s.nextSegmentNo)
    (h3 : s1.maxRetries = s.maxRetries) (h4 : ∀ j g m, At s1 j g m → g.isRunning = true → At s j g m) (h : Next i s1 s') :
    Next i s s' := by
  obtain ⟨⟨new, hl, hn⟩, hc⟩ := h
  refine ⟨⟨new, by rw [hl, h0], ?_⟩, by rw [hc, h1]⟩
  rw [h2, h3] at hn
  rcases hn with ⟨a, b⟩ | ⟨a, b⟩
  · exact .inl ⟨a, fun j g m h hr => h4 j g m (b j g m h hr) hr⟩
  · refine .inr ⟨a, fun j g m h hr => ?_⟩
    rcases b j g m h hr with ⟨c, d⟩ | c
    · exact .inl ⟨h4 j g m c hr, d⟩
    · exact .inr c

theorem finalLoop_at {last : Nat} {l : List Slot} {j : Nat} {g : Fetcher} {m : Nat}
    (h : (finalLoop last l).1[j]? = some (some (g, m))) (hr : g.isRunning = true) : l[j]? = some (some (g, m)) := by
  induction l generalizing j with
  | nil => exact h
  | cons x rest ih =>
    rcases x with _ | ⟨f, k⟩
    · simp only [finalLoop] at h
      cases j with
      | zero => simp at h
      | succ j => simpa using ih (by simpa using h)
    · simp only [finalLoop] at h
      split at h
      · cases j with
        | zero =>
          simp at h
          rw [← h.1, cancel_running] at hr
          cases hr
        | succ j => simpa using ih (by simpa using h)
      · split at h
        · exact h
        · cases j with
          | zero => exact h
          | succ j => simpa using ih (by simpa using h)

theorem next_afterOnData (s : Fixed.St) (i : Nat) (p : Pkt) : Next i s (s.afterOnData i p) := by
  unfold St.afterOnData
  split
  · split
    · exact next_finish s i
    · exact next_shrink rfl rfl fun _ _ _ h _ => h
    · dsimp only
      rename_i n _
      have hs : ∀ (j : Nat) g m, At { s with lastSegmentNo := n, hasFinalBlockId := true, slots := (finalLoop n s.slots).1 } j g m →
          g.isRunning = true → At s j g m := fun j g m h hr => finalLoop_at h hr
      split
      · exact next_trans (s1 := { s with lastSegmentNo := n, hasFinalBlockId := true, slots := (finalLoop n s.slots).1 })
          rfl rfl rfl rfl hs (next_onFailure _ _ _)
      · exact next_trans (s1 := { s with lastSegmentNo := n, hasFinalBlockId := true, slots := (finalLoop n s.slots).1 })
          rfl rfl rfl rfl hs (next_finish _ _)
  · exact next_finish s i

theorem next_handleFail (s : Fixed.St) (m : FailMsg) (i : Nat) : Next i s (s.handleFail m i) := by
  unfold St.handleFail
  split
  · exact next_shrink rfl rfl fun _ _ _ h _ => h
  · split
    · exact next_shrink rfl rfl fun _ _ _ h _ => h
    · unfold St.handleFailSeg
      split
      · exact next_onFailure _ _ _
      · split
        · dsimp only
          have hs : ∀ (b j : Nat) g m, At { s with slots := (failLoop b s.slots).1 } j g m →
              g.isRunning = true → At s j g m := by
            intro b j g m h hr
            obtain ⟨f, hf, rfl⟩ := (At_map (failLoop_eq b s.slots).1 j g m).1 h
            split at hr
            · rw [cancel_running] at hr; cases hr
            · rename_i hb; rw [if_neg hb]; exact hf
          split
          · exact next_trans (s1 := { s with slots := (failLoop _ s.slots).1 }) rfl rfl rfl rfl (hs _) (next_onFailure _ _ _)
          · exact next_shrink rfl rfl (hs _)
        · exact next_shrink rfl rfl fun _ _ _ h _ => h

theorem onData_slots (s : Fixed.St) (k p c) :
    (∀ j g m, At (s.onData k p c) j g m → At s j g m) ∧ (s.onData k p c).nReceived = s.nReceived + 1 ∧
    (s.onData k p c).nextSegmentNo = s.nextSegmentNo ∧ (s.onData k p c).maxRetries = s.maxRetries := by
  unfold St.onData
  dsimp only
  split
  · unfold St.cancel
    split
    · exact ⟨fun _ _ _ h => h, rfl, rfl, rfl⟩
    · exact ⟨fun _ _ _ h => by simp [At] at h, rfl, rfl, rfl⟩
  · exact ⟨fun _ _ _ h => h, rfl, rfl, rfl⟩

/-- What an event for slot `i`, in which segment `k` is fetched by `f`, does to the running fetchers. -/
inductive Slot1 (s s' : Fixed.St) (i : Nat) (f : Fetcher) (k : Nat) (e : DataFetcher.Ev) (new : List Obs) (j : Nat) (g : Fetcher)
    (m : Nat) : Prop
  | other : j ≠ i → At s j g m → m ∉ new.filterMap interest? → s.nReceived ≤ s'.nReceived → Slot1 s s' i f k e new j g m
  | same : j = i → m = k → f.isRunning = true → g = (f.step e).1 →
      new.filterMap interest? = (if (f.step e).2.contains .interest then [k] else []) → s'.nReceived = s.nReceived →
      Slot1 s s' i f k e new j g m
  | fresh : j = i → f.isRunning = true → g = (fetch s.maxRetries s.maxRetries).1 → m = s.nextSegmentNo →
      new.filterMap interest? = [m] → s'.nReceived = s.nReceived + 1 → Slot1 s s' i f k e new j g m

theorem slot_event {N R s i e p c f k} (h : Inv N R s) (ha : At s i f k) (he : f.enabled e) :
    ∃ new, (s.fetcherEvent i e p c).log = s.log ++ new ∧ ∀ j g m, At (s.fetcherEvent i e p c) j g m → g.isRunning = true →
      Slot1 s (s.fetcherEvent i e p c) i f k e new j g m := by
  have hI := h.core.fet i f k ha
  have hu := h.core.uniq
  have hlt := h.core.lt
  have hi := At_lt ha
  have hAt : ∀ f' j g m, At { s with slots := s.slots.set i (some (f', k)) } j g m →
      (j = i ∧ g = f' ∧ m = k) ∨ (j ≠ i ∧ At s j g m) := fun f' j g m h => (At_set (x := (f', k)) hi rfl j g m).1 h
  unfold St.fetcherEvent
  rw [show s.slots[i]? = some (some (f, k)) from ha]
  dsimp only
  cases hr : f.isRunning with
  | false =>
    obtain ⟨g1, g2, -⟩ := DataFetcher.step_idle hI hr he
    rw [g1]
    refine ⟨[], by simp, fun j g m hg hgr => ?_⟩
    rcases hAt _ j g m hg with ⟨-, rfl, -⟩ | ⟨hj, hg⟩
    · rw [g2] at hgr; cases hgr
    · exact .other hj hg (by simp) (Nat.le_refl _)
  | true =>
    obtain ⟨hi', hE⟩ := DataFetcher.step_running hI hr he
    -- nothing visible
    have none_ : (f.step e).2 = [] → ∃ new, s.log = s.log ++ new ∧ ∀ j g m,
        At { s with slots := s.slots.set i (some ((f.step e).1, k)) } j g m → g.isRunning = true →
        Slot1 s { s with slots := s.slots.set i (some ((f.step e).1, k)) } i f k e new j g m := by
      intro ho
      refine ⟨[], by simp, fun j g m hg hgr => ?_⟩
      rcases hAt _ j g m hg with ⟨a, b, c⟩ | ⟨hj, hg⟩
      · exact .same a c hr b (by simp [ho]) rfl
      · exact .other hj hg (by simp) (Nat.le_refl _)
    -- the Interest is sent again
    have again : (f.step e).2 = [.interest] → ∃ new, s.log ++ [.interest k] = s.log ++ new ∧ ∀ j g m,
        At { s with slots := s.slots.set i (some ((f.step e).1, k)), log := s.log ++ [.interest k] } j g m → g.isRunning = true →
        Slot1 s { s with slots := s.slots.set i (some ((f.step e).1, k)), log := s.log ++ [.interest k] } i f k e new j g m := by
      intro ho
      refine ⟨[.interest k], rfl, fun j g m hg hgr => ?_⟩
      rcases hAt _ j g m hg with ⟨a, b, c⟩ | ⟨hj, hg⟩
      · exact .same a c hr b (by simp [ho, interest?]) rfl
      · refine .other hj hg ?_ (Nat.le_refl _)
        have hg' : At s j g m := hg
        simp only [interest?, List.filterMap_cons, List.filterMap_nil, List.mem_singleton]
        intro hmk
        exact hj (hu j i g f k (hmk ▸ hg') ha)
    -- failure
    have fail : (f.step e).1.isRunning = false → ∀ msg, ∃ new,
        (({ s with slots := s.slots.set i (some ((f.step e).1, k)) } : Fixed.St).handleFail msg i).log = s.log ++ new ∧ ∀ j g m,
        At (({ s with slots := s.slots.set i (some ((f.step e).1, k)) } : Fixed.St).handleFail msg i) j g m → g.isRunning = true →
        Slot1 s (({ s with slots := s.slots.set i (some ((f.step e).1, k)) } : Fixed.St).handleFail msg i) i f k e new j g m := by
      intro hnr msg
      obtain ⟨⟨new, hl, hn⟩, hc⟩ := next_handleFail { s with slots := s.slots.set i (some ((f.step e).1, k)) } msg i
      have hlog := handleFail_log { s with slots := s.slots.set i (some ((f.step e).1, k)) } msg i
      have hnew : new = [] := by
        rw [hl] at hlog
        simpa using hlog
      subst hnew
      refine ⟨[], hl, fun j g m hg hgr => ?_⟩
      rcases hn with ⟨-, hn⟩ | ⟨h0, -⟩
      · rcases hAt _ j g m (hn j g m hg hgr) with ⟨-, rfl, -⟩ | ⟨hj, hg⟩
        · rw [hnr] at hgr; cases hgr
        · exact .other hj hg (by simp) (by rw [hc])
      · cases h0
    generalize ho : (f.step e).2 = outs at hE
    generalize hf : (f.step e).1 = f' at hE
    rw [hf] at fail none_ again
    cases hE with
    | cancel x a b => exact none_ ho
    | congestion x a b c g g' => exact none_ ho
    | timer x a b c g g' => exact again ho
    | retryTimeout x a b c g g' => exact again ho
    | duplicate x a b c g g' => exact again ho
    | fatal r x a b c _ _ _ => exact fail a _
    | failNack r x a b c _ _ _ => exact fail a _
    | failTimeout x a b c ht hlt hcnt _ _ => exact fail a _
    | data x a b c hp hn =>
      simp only [List.foldl_cons, List.foldl_nil, St.react, St.handleData]
      split
      · rename_i hstop
        have := h.core.stop hstop
        simp only [At] at ha
        rw [this] at ha
        cases ha
      · obtain ⟨⟨new, hl, hn⟩, hc⟩ := next_afterOnData
          (({ s with slots := s.slots.set i (some (f', k)) } : Fixed.St).onData k p ‹Bool›) i p
        rw [onData_log] at hl
        refine ⟨.data k p :: new, by rw [hl]; simp, ?_⟩
        obtain ⟨hsl, hcnt, hnext, hretr⟩ := onData_slots ({ s with slots := s.slots.set i (some (f', k)) } : Fixed.St) k p ‹Bool›
        have hsub : ∀ j g m, At (({ s with slots := s.slots.set i (some (f', k)) } : Fixed.St).onData k p ‹Bool›) j g m →
            g.isRunning = true → j ≠ i ∧ At s j g m := by
          intro j g m hg hgr
          rcases hAt _ j g m (hsl j g m hg) with ⟨-, rfl, -⟩ | h6
          · rw [a] at hgr; cases hgr
          · exact h6
        dsimp only at hcnt hnext hretr
        have hfm : (Obs.data k p :: new).filterMap interest? = new.filterMap interest? := by
          rw [List.filterMap_cons]; rfl
        intro j g m hg hgr
        rcases hn with ⟨h0, hn⟩ | ⟨h0, hn⟩
        · obtain ⟨hj, hg⟩ := hsub j g m (hn j g m hg hgr) hgr
          exact .other hj hg (by rw [hfm, h0]; simp) (by rw [hc, hcnt]; omega)
        · rw [hnext] at h0
          rw [hnext, hretr] at hn
          rcases hn j g m hg hgr with ⟨hg, _⟩ | ⟨h7, h8, h9⟩
          · obtain ⟨hj, hg⟩ := hsub j g m hg hgr
            refine .other hj hg ?_ (by rw [hc, hcnt]; omega)
            rw [hfm, h0]
            have := hlt j g m hg
            simp; omega
          · exact .fresh h7 hr h9 h8 (by rw [hfm, h0, h8]) (by rw [hc, hcnt])

/-! ## The pipeline with a clock -/

/-- The fetcher in slot `i` is accounted for: its segment was first requested at `t0`. -/
structure Slot (life d R B : Nat) (s : St) (i : Nat) (f : Fetcher) (k t0 : Nat) : Prop where
  mem : (k, t0) ∈ s.sent
  first : ∀ u, (k, u) ∈ s.sent → t0 ≤ u
  base : t0 ≤ B + s.p.nReceived * limit life d R R
  acct : Acct life d f (s.sentAt k) (s.setAt i) t0
  now : s.now ≤ t0 + limit life d R R
  due : s.now ≤ dueAt life f (s.sentAt k) (s.setAt i) + d

/-- The pipeline was started at a time not after `B`. -/
structure FInv (life d N R B : Nat) (s : St) : Prop where
  inv : Fixed.Inv N R s.p
  keys : s.sent.map (·.1) = (s.p.log.filterMap interest?).reverse
  past : ∀ k u, (k, u) ∈ s.sent → u ≤ s.now
  setLen : s.set.length = N
  slot : ∀ i f k, At s.p i f k → f.isRunning = true → ∃ t0, Slot life d R B s i f k t0

variable {life d N R B : Nat}

/-- An event that changes no running fetcher. -/
theorem finv_quiet {s : St} (h : FInv life d N R B s) {e : Ev} (he : s.enabled (some d) life e)
    (hset : ∀ i f k, At s.p i f k → f.isRunning = true → f.timer.isSome = true → nackSlot e.ev ≠ some i)
    {new : List Obs} (hlog : (s.p.step e.ev).log = s.p.log ++ new) (hnew : new.filterMap interest? = [])
    (hAt : ∀ j g m, At (s.p.step e.ev) j g m → At s.p j g m) (hcnt : (s.p.step e.ev).nReceived = s.p.nReceived) :
    FInv life d N R B (s.step e) := by
  obtain ⟨e1, e2, e3⟩ := he
  have hstep : s.step e = { p := s.p.step e.ev, now := e.t, sent := s.sent
                            set := match nackSlot e.ev with
                              | some i => s.set.set i e.t
                              | none => s.set } := by
    unfold St.step
    dsimp only
    rw [hlog, List.drop_left, hnew]
    rfl
  have hsetAt : ∀ i f k, At s.p i f k → f.isRunning = true → f.timer.isSome = true → (s.step e).setAt i = s.setAt i := by
    intro i f k ha hr ht
    have := hset i f k ha hr ht
    rw [hstep]
    unfold St.setAt
    dsimp only
    cases hn : nackSlot e.ev with
    | none => rfl
    | some j =>
      dsimp only
      rw [List.getElem?_set_ne]
      rintro rfl
      exact this hn
  refine ⟨by rw [hstep]; exact inv_step h.inv e1, ?_, ?_, ?_, ?_⟩
  · rw [hstep]; dsimp only; rw [hlog, List.filterMap_append, hnew, List.append_nil]; exact h.keys
  · intro k u hm
    rw [hstep] at hm ⊢
    have := h.past k u hm
    dsimp only; omega
  · rw [hstep]
    dsimp only
    split
    · rw [List.length_set]; exact h.setLen
    · exact h.setLen
  · intro i f k ha hr
    have ha0 := hAt i f k (by rw [hstep] at ha; exact ha)
    obtain ⟨t0, hs⟩ := h.slot i f k ha0 hr
    have hsent : (s.step e).sentAt k = s.sentAt k := by rw [hstep]; rfl
    have hdue : dueAt life f ((s.step e).sentAt k) ((s.step e).setAt i) = dueAt life f (s.sentAt k) (s.setAt i) := by
      rw [hsent]
      unfold dueAt
      cases htm : f.timer with
      | none => rfl
      | some b => dsimp only; rw [hsetAt i f k ha0 hr (by rw [htm]; rfl)]
    refine ⟨t0, by rw [hstep]; exact hs.mem, by rw [hstep]; exact hs.first, ?_, ?_, ?_, ?_⟩
    · rw [hstep]; dsimp only; rw [hcnt]; exact hs.base
    · refine ⟨fun hp => by rw [hsent]; exact hs.acct.wait hp, fun hp => ?_⟩
      rw [hsetAt i f k ha0 hr hp]
      exact hs.acct.pause hp
    · have := FetchTime.acct_due (h.inv.core.fet i f k ha0) hr hs.acct
      have h2 := (e3 i f k ha0).2.2 d rfl hr
      rw [hstep]
      dsimp only
      omega
    · rw [hdue, hstep]
      exact (e3 i f k ha0).2.2 d rfl hr

theorem lookup_none {l : List (Nat × Nat)} {k : Nat} (h : k ∉ l.map (·.1)) : l.lookup k = none := by
  induction l with
  | nil => rfl
  | cons x l ih =>
    obtain ⟨a, b⟩ := x
    simp only [List.map_cons, List.mem_cons, not_or] at h
    rw [List.lookup_cons]
    rw [show (k == a) = false by simpa using h.1]
    exact ih h.2

theorem lookup_skip {a b : List (Nat × Nat)} {k : Nat} (h : k ∉ a.map (·.1)) : (a ++ b).lookup k = b.lookup k := by
  induction a with
  | nil => rfl
  | cons x a ih =>
    obtain ⟨c, v⟩ := x
    simp only [List.map_cons, List.mem_cons, not_or] at h
    rw [List.cons_append, List.lookup_cons]
    rw [show (k == c) = false by simpa using h.1]
    exact ih h.2

/-- A timer is set only by a Nack. -/
theorem timer_nack {n t f} (h : DataFetcher.Inv n t f) (hr : f.isRunning = true) {e : DataFetcher.Ev} (he : f.enabled e)
    (hr' : (f.step e).1.isRunning = true) (ht : (f.step e).1.timer.isSome = true) : f.timer = none ∧ ∃ r, e = .nack r := by
  obtain ⟨hi, hE⟩ := DataFetcher.step_running h hr he
  have hone := hi.one hr'
  have h1 := h.one hr
  generalize (f.step e).1 = f' at *
  generalize (f.step e).2 = outs at *
  have hp : f'.pending = 0 := by
    rcases hone with ⟨_, h⟩ | ⟨h, _⟩
    · rw [h] at ht; cases ht
    · exact h
  cases hE with
  | data x a _ _ _ => rw [a] at hr'; cases hr'
  | cancel x a _ => rw [a] at hr'; cases hr'
  | failTimeout x a _ _ _ _ _ _ => rw [a] at hr'; cases hr'
  | fatal r x a _ _ _ _ _ => rw [a] at hr'; cases hr'
  | failNack r x a _ _ _ _ _ => rw [a] at hr'; cases hr'
  | timer x a b c g => omega
  | retryTimeout x a b c g => omega
  | duplicate x a b c g => omega
  | congestion x a b c g =>
    refine ⟨?_, _, rfl⟩
    rcases h1 with ⟨_, h⟩ | ⟨h, _⟩
    · exact h
    · omega

/-- A fetcher that goes on and sets no timer sends an Interest. -/
theorem sends_again {n t f} (h : DataFetcher.Inv n t f) (hr : f.isRunning = true) {e : DataFetcher.Ev} (he : f.enabled e)
    (hr' : (f.step e).1.isRunning = true) (ht : (f.step e).1.timer = none) : (f.step e).2.contains .interest = true := by
  obtain ⟨hi, hE⟩ := DataFetcher.step_running h hr he
  have hone := hi.one hr'
  generalize (f.step e).1 = f' at *
  generalize (f.step e).2 = outs at *
  have hp : f'.pending = 1 := by
    rcases hone with ⟨h, _⟩ | ⟨_, h⟩
    · exact h
    · rw [ht] at h; cases h
  cases hE with
  | data x a _ _ _ => rw [a] at hr'; cases hr'
  | cancel x a _ => rw [a] at hr'; cases hr'
  | failTimeout x a _ _ _ _ _ _ => rw [a] at hr'; cases hr'
  | fatal r x a _ _ _ _ _ => rw [a] at hr'; cases hr'
  | failNack r x a _ _ _ _ _ => rw [a] at hr'; cases hr'
  | timer x a b c g => simp
  | retryTimeout x a b c g => simp
  | duplicate x a b c g => simp
  | congestion x a b c g => omega

/-- An event for the fetcher in slot `i`. -/
theorem finv_event {s : St} (h : FInv life d N R B s) {e : Ev} (he : s.enabled (some d) life e) {i f k} (ha : At s.p i f k)
    {fe : DataFetcher.Ev} (hfe : f.enabled fe) {p c} (hstep : s.p.step e.ev = s.p.fetcherEvent i fe p c)
    (hset : nackSlot e.ev = some i ∨ (nackSlot e.ev = none ∧ ∀ r, fe ≠ .nack r)) : FInv life d N R B (s.step e) := by
  obtain ⟨e1, e2, e3⟩ := he
  have hI := h.inv.core.fet i f k ha
  obtain ⟨new, hlog, hnew⟩ := slot_event (p := p) (c := c) h.inv ha hfe
  rw [← hstep] at hlog hnew
  have hst : s.step e = { p := s.p.step e.ev, now := e.t
                          sent := (new.filterMap interest?).reverse.map (fun k => (k, e.t)) ++ s.sent
                          set := match nackSlot e.ev with
                            | some i => s.set.set i e.t
                            | none => s.set } := by
    unfold St.step
    dsimp only
    rw [hlog, List.drop_left]
    rfl
  have hpast : ∀ k u, (k, u) ∈ (s.step e).sent → u ≤ (s.step e).now := by
    intro k u hm
    rw [hst] at hm ⊢
    rcases List.mem_append.mp hm with hm | hm
    · obtain ⟨_, _, heq⟩ := List.mem_map.mp hm
      cases heq
      exact Nat.le_refl _
    · have := h.past k u hm
      dsimp only; omega
  have hkeys : (s.step e).sent.map (·.1) = ((s.step e).p.log.filterMap interest?).reverse := by
    rw [hst]
    dsimp only
    rw [hlog, List.filterMap_append, List.reverse_append, List.map_append, h.keys, List.map_map]
    congr 1
    simp [Function.comp_def]
  have hlen : (s.step e).set.length = N := by
    rw [hst]
    dsimp only
    split
    · rw [List.length_set]; exact h.setLen
    · exact h.setLen
  refine ⟨by rw [hst]; exact inv_step h.inv e1, hkeys, hpast, hlen, ?_⟩
  -- the slot itself: its old accounts
  have old : ∀ j g m, At s.p j g m → g.isRunning = true → ∃ t0, Slot life d R B s j g m t0 ∧ e.t ≤ t0 + limit life d R R ∧
      e.t ≤ dueAt life g (s.sentAt m) (s.setAt j) + d := by
    intro j g m hg hgr
    obtain ⟨t0, hs⟩ := h.slot j g m hg hgr
    have h1 := FetchTime.acct_due (h.inv.core.fet j g m hg) hgr hs.acct
    have h2 := (e3 j g m hg).2.2 d rfl hgr
    exact ⟨t0, hs, by omega, h2⟩
  have hN : i < N := by
    have hi := At_lt ha
    have hlen := h.inv.core.len
    cases hst : s.p.isStopping with
    | false => rw [← hlen hst]; exact hi
    | true => have := h.inv.core.stop hst; rw [this] at hi; simp at hi
  have hsetj : ∀ j, j ≠ i → (s.step e).setAt j = s.setAt j := by
    intro j hj
    rw [hst]
    unfold St.setAt
    dsimp only
    rcases hset with hs | ⟨hs, -⟩
    · rw [hs]; dsimp only; rw [List.getElem?_set_ne (fun h => hj h.symm)]
    · rw [hs]
  intro j g m hg hgr
  have hg' : At (s.p.step e.ev) j g m := by rw [hst] at hg; exact hg
  cases hnew j g m hg' hgr with
  | other hj hg0 hm hc =>
    obtain ⟨t0, hs, ht, hdue⟩ := old j g m hg0 hgr
    have hlk : (s.step e).sentAt m = s.sentAt m := by
      rw [hst]
      unfold St.sentAt
      dsimp only
      rw [lookup_skip]
      simpa [Function.comp_def] using hm
    refine ⟨t0, ?_, ?_, ?_, ?_, ?_, ?_⟩
    · rw [hst]; exact List.mem_append.mpr (.inr hs.mem)
    · intro u hu
      rw [hst] at hu
      rcases List.mem_append.mp hu with hu | hu
      · obtain ⟨m', hm', heq⟩ := List.mem_map.mp hu
        cases heq
        exact absurd (List.mem_reverse.mp hm') hm
      · exact hs.first u hu
    · have := Nat.mul_le_mul_right (limit life d R R) hc
      have := hs.base
      rw [hst]; dsimp only
      omega
    · rw [hlk, hsetj j hj]; exact hs.acct
    · rw [hst]; exact ht
    · rw [hlk, hsetj j hj, hst]; exact hdue
  | same hj hm hfr hgeq hi hc =>
    subst hj hm hgeq
    obtain ⟨t0, hs, ht, hdue⟩ := old j f m ha hfr
    have hA := FetchTime.acct_step hI hfr hfe hs.acct hdue hgr
    have hsent : (s.step e).sentAt m = if (f.step fe).2.contains .interest then e.t else s.sentAt m := by
      rw [hst]
      unfold St.sentAt
      dsimp only
      rw [hi]
      split <;> simp
    have hsetj' : (f.step fe).1.timer.isSome = true → (s.step e).setAt j = e.t := by
      intro hp
      obtain ⟨h1, r, rfl⟩ := timer_nack hI hfr hfe hgr hp
      have hs' : nackSlot e.ev = some j := by
        rcases hset with hs | ⟨-, hs⟩
        · exact hs
        · exact absurd rfl (hs r)
      rw [hst]
      unfold St.setAt
      dsimp only
      rw [hs']
      dsimp only
      rw [List.getElem?_set_self (by rw [h.setLen]; exact hN)]
      rfl
    refine ⟨t0, ?_, ?_, ?_, ?_, ?_, ?_⟩
    · rw [hst]; exact List.mem_append.mpr (.inr hs.mem)
    · intro u hu
      rw [hst] at hu
      rcases List.mem_append.mp hu with hu | hu
      · obtain ⟨m', hm', heq⟩ := List.mem_map.mp hu
        cases heq
        have h1 := h.past _ _ hs.mem
        omega
      · exact hs.first u hu
    · rw [hst]; dsimp only; rw [hc]; exact hs.base
    · refine ⟨fun hp => ?_, fun hp => ?_⟩
      · rw [hsent]; exact hA.wait hp
      · have h2 := hA.pause hp
        rw [(timer_nack hI hfr hfe hgr hp).1, hp] at h2
        rw [hsetj' hp]
        simpa using h2
    · rw [hst]; exact ht
    · have hn : (s.step e).now = e.t := by rw [hst]
      rw [hn]
      unfold dueAt
      cases htm : (f.step fe).1.timer with
      | none =>
        dsimp only
        rw [hsent, if_pos (sends_again hI hfr hfe hgr htm)]
        omega
      | some b =>
        dsimp only
        rw [hsetj' (by rw [htm]; rfl)]
        omega
  | fresh hj hfr hgeq hm hi hc =>
    subst hj
    obtain ⟨t0, hs, ht, hdue⟩ := old j f k ha hfr
    have hfresh : m ∉ s.sent.map (·.1) := by
      rw [h.keys]
      intro hmem
      rw [List.mem_reverse, List.mem_filterMap] at hmem
      obtain ⟨o, ho, hoo⟩ := hmem
      cases o with
      | interest x =>
        simp only [interest?, Option.some.injEq] at hoo
        subst hoo
        have := (h.inv.core.ireq x ho).1
        omega
      | data _ _ => cases hoo
      | failure _ => cases hoo
      | complete => cases hoo
    have hsent : (s.step e).sent = (m, e.t) :: s.sent := by
      rw [hst]; dsimp only; rw [hi]; rfl
    have hlk : (s.step e).sentAt m = e.t := by
      unfold St.sentAt
      rw [hsent, List.lookup_cons]
      simp
    refine ⟨e.t, by rw [hsent]; simp, ?_, ?_, ?_, ?_, ?_⟩
    · intro u hu
      rw [hsent] at hu
      rcases List.mem_cons.mp hu with hu | hu
      · cases hu; exact Nat.le_refl _
      · exact absurd (List.mem_map.mpr ⟨_, hu, rfl⟩) hfresh
    · have := hs.base
      rw [hst]; dsimp only
      rw [hc, Nat.add_mul]
      omega
    · rw [hlk, hgeq, h.inv.core.cfgR]
      exact FetchTime.acct_fetch _ _
    · rw [hst]; dsimp only; omega
    · rw [hlk, hgeq, hst]
      simp [dueAt, DataFetcher.fetch, DataFetcher.Fetcher.expressInterest]
      omega

theorem finv_step {s : St} (h : FInv life d N R B s) {e : Ev} (he : s.enabled (some d) life e) : FInv life d N R B (s.step e) := by
  by_cases ht : (s.p.threw.isSome || s.p.ub) = true
  · have hp : s.p.step e.ev = s.p := by unfold Fixed.St.step; rw [if_pos ht]
    refine finv_quiet h he ?_ (new := []) (by rw [hp]; simp) rfl (fun j g m h => by rw [hp] at h; exact h) (by rw [hp])
    intro i f k ha hr htm hn
    obtain ⟨ev, t⟩ := e
    cases ev with
    | nack j r =>
      cases hn
      have he1 : s.p.slotEnabled i (.nack r) := he.1
      unfold Fixed.St.slotEnabled at he1
      rw [show s.p.slots[i]? = some (some (f, k)) from ha] at he1
      have hp : 0 < f.pending := he1
      rcases (h.inv.core.fet i f k ha).one hr with ⟨_, h2⟩ | ⟨h2, _⟩
      · rw [h2] at htm; cases htm
      · omega
    | _ => cases hn
  · have hslot : ∀ i fe, s.p.slotEnabled i fe → ∃ f k, At s.p i f k ∧ f.enabled fe := by
      intro i fe h
      unfold Fixed.St.slotEnabled at h
      split at h
      · rename_i f k ha; exact ⟨f, k, ha, h⟩
      · exact h.elim
    obtain ⟨ev, t⟩ := e
    cases ev with
    | data i p c =>
      obtain ⟨f, k, ha, hf⟩ := hslot i .data he.1
      exact finv_event h he ha hf (p := p) (c := c) (by unfold Fixed.St.step; rw [if_neg ht]) (.inr ⟨rfl, by simp⟩)
    | nack i r =>
      obtain ⟨f, k, ha, hf⟩ := hslot i (.nack r) he.1
      exact finv_event h he ha hf (p := ⟨[], .absent, false, false, true⟩) (c := false) (by unfold Fixed.St.step; rw [if_neg ht]) (.inl rfl)
    | timeout i =>
      obtain ⟨f, k, ha, hf⟩ := hslot i .timeout he.1
      exact finv_event h he ha hf (p := ⟨[], .absent, false, false, true⟩) (c := false) (by unfold Fixed.St.step; rw [if_neg ht])
        (.inr ⟨rfl, by simp⟩)
    | timer i =>
      obtain ⟨f, k, ha, hf⟩ := hslot i .timer he.1
      exact finv_event h he ha hf (p := ⟨[], .absent, false, false, true⟩) (c := false) (by unfold Fixed.St.step; rw [if_neg ht])
        (.inr ⟨rfl, by simp⟩)
    | cancel =>
      have hp : s.p.step .cancel = s.p.cancel := by unfold Fixed.St.step; rw [if_neg ht]
      refine finv_quiet h he (fun _ _ _ _ _ _ h => by cases h) (new := []) ?_ rfl ?_ ?_ <;> dsimp only <;> rw [hp] <;> unfold St.cancel <;> split
      · simp
      · simp
      · exact fun _ _ _ h => h
      · intro _ _ _ h; simp [At] at h
      · rfl
      · rfl
    | posted =>
      cases hpost : s.p.posted with
      | nil =>
        have hp : s.p.step .posted = s.p := by unfold Fixed.St.step; rw [if_neg ht]; dsimp only; rw [hpost]
        exact finv_quiet h he (fun _ _ _ _ _ _ h => by cases h) (new := []) (by dsimp only; rw [hp]; simp) rfl (fun j g m h => by dsimp only at h; rw [hp] at h; exact h)
          (by dsimp only; rw [hp])
      | cons m rest =>
        have hp : s.p.step .posted = ({ s.p with posted := rest } : Fixed.St).emit (.failure m) := by
          unfold Fixed.St.step; rw [if_neg ht]; dsimp only; rw [hpost]
        exact finv_quiet h he (fun _ _ _ _ _ _ h => by cases h) (new := [.failure m]) (by dsimp only; rw [hp]; rfl) rfl
          (fun j g m h => by dsimp only at h; rw [hp] at h; exact h) (by dsimp only; rw [hp]; rfl)

theorem start_fetch {i f k} (h : At (start N R) i f k) : f = (fetch R R).1 := by
  have : ∀ n i (s : Fixed.St), s.maxRetries = R → (∀ j g m, At s j g m → g = (fetch R R).1) →
      ∀ j g m, At (s.doRunLoop i n) j g m → g = (fetch R R).1 := by
    intro n
    induction n with
    | zero => intro i s _ hs; exact hs
    | succ n ih =>
      intro i s hR hs
      unfold St.doRunLoop
      have h1 : ∀ j g m, At (s.fetchNextSegment i).1 j g m → g = (fetch R R).1 := by
        intro j g m hg
        unfold St.fetchNextSegment at hg
        split at hg
        · exact hs j g m hg
        · split at hg
          · unfold St.onFailure at hg
            split at hg
            · exact hs j g m hg
            · unfold St.cancel at hg
              split at hg
              · exact hs j g m hg
              · simp [At] at hg
          · dsimp only at hg
            split at hg
            · exact hs j g m hg
            · simp only [St.emit] at hg
              split at hg
              · exact hs j g m hg
              · simp only [At, List.getElem?_set] at hg
                split at hg
                · split at hg
                  · simp at hg
                    rw [← hg.1, hR]
                  · cases hg
                · exact hs j g m hg
      have h2 : (s.fetchNextSegment i).1.maxRetries = R := by
        unfold St.fetchNextSegment
        split
        · exact hR
        · split
          · unfold St.onFailure; split
            · exact hR
            · unfold St.cancel; split <;> exact hR
          · dsimp only
            split
            · exact hR
            · simp only [St.emit]; split <;> exact hR
      rcases hx : s.fetchNextSegment i with ⟨s', ok⟩
      rw [hx] at h1 h2
      dsimp only at h1 h2 ⊢
      split
      · exact ih _ _ h2 h1
      · exact h1
  refine this N 0 (construct N R) rfl ?_ i f k h
  intro j g m hg
  simp [At, construct, List.getElem?_replicate] at hg

theorem finv_init {t0 : Nat} (ht : t0 ≤ B) (hN : 0 < N) : FInv life d N R B (init t0 N R) := by
  have hI := inv_start (R := (R : Int)) hN
  have hz : ∀ k u, (k, u) ∈ (init t0 N R).sent → u = t0 := by
    intro k u hm
    obtain ⟨_, _, heq⟩ := List.mem_map.mp hm
    cases heq; rfl
  refine ⟨hI, ?_, ?_, by simp [init], ?_⟩
  · simp [init, Function.comp_def]
  · intro k u hm
    have := hz k u hm
    simp [init, this]
  · intro i f k ha hr
    have hf := start_fetch ha
    have hreq := hI.core.req i f k ha
    have hmem : (k, t0) ∈ (init t0 N R).sent := by
      refine List.mem_map.mpr ⟨k, ?_, rfl⟩
      rw [List.mem_reverse, List.mem_filterMap]
      exact ⟨_, hreq, rfl⟩
    have h0 : (init t0 N R).sentAt k = t0 := by
      unfold St.sentAt
      cases hl : (init t0 N R).sent.lookup k with
      | none =>
        rw [List.lookup_eq_none_iff] at hl
        have := hl _ hmem
        simp at this
      | some u =>
        have : (k, u) ∈ (init t0 N R).sent := by
          obtain ⟨a, b, hab, -⟩ := List.lookup_eq_some_iff.mp hl
          rw [hab]; simp
        rw [hz k u this]; rfl
    have hn : (init t0 N R).now = t0 := rfl
    refine ⟨t0, hmem, fun u hu => (hz k u hu).ge, by omega, ?_, by rw [hn]; omega, ?_⟩
    · rw [h0, hf]
      exact FetchTime.acct_fetch _ _
    · rw [h0, hf, hn]
      simp [dueAt, DataFetcher.fetch, DataFetcher.Fetcher.expressInterest]
      omega

theorem run_finv (hN : 0 < N) {es s} (h : (machine (some d) life N R).Run es s) : FInv life d N R 0 s :=
  h.invariant (P := FInv life d N R 0) (finv_init (Nat.le_refl _) hN) (fun _ _ h he => finv_step h he)

end Verif.FixedTime
