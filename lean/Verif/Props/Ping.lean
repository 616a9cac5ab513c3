import Verif.Proofs.PingStats
import Verif.Proofs.Binary64
import Mathlib.Tactic.NormNum

/-! # C29 - C31, C57 - C59: the ping client -/

namespace Verif.Ping

/-- **C29 (sequence numbers)** The Interests carry consecutive sequence numbers from the start number on, modulo 2^64,
and they are pairwise different. The name of each is the prefix, `ping`, the client identifier if there is one,
and the decimal sequence number; the names are pairwise different, too. -/
theorem C29_sequence_numbers {o : Opts} (hs : o.startSeq < 2 ^ 64) {es s} (h : (machine o).Run es s)
    (hu : s.ub = false) :
    sent s.log = (List.range (sent s.log).length).map (fun i => (o.startSeq + i) % 2 ^ 64) ∧
    (sent s.log).Nodup ∧
    (∀ q i, Obs.interest q i ∈ s.log → i.mustBeFresh = !o.shouldAllowStaleData ∧ i.canBePrefix = false ∧
      ∃ id, i.name = o.pre ++ ⟨ttGeneric, "ping".toUTF8.data.toList⟩ :: id ++ [⟨ttGeneric, decimal q⟩] ∧
        id = (if o.clientIdentifier = [] then [] else [⟨ttGeneric, o.clientIdentifier⟩])) ∧
    (s.log.filterMap fun x => match x with | .interest _ i => some i.name | _ => none).Nodup := by
  have key : sent s.log = (List.range (sent s.log).length).map (fun i => (o.startSeq + i) % 2 ^ 64) ∧
      (sent s.log).length ≤ 2 ^ 31 := by
    cases run_inv hs h with
    | ok h =>
      refine ⟨h.seqs, ?_⟩
      have h1 := h.cnt
      have h2 := h.max
      unfold intMax at h2
      omega
    | bad _ e => subst e; exact ⟨rfl, by simp [sent]⟩
    | thr _ e => subst e; exact ⟨rfl, by simp [sent]⟩
    | ovf _ hu' => rw [hu] at hu'; cases hu'
  have hnd : (sent s.log).Nodup := by
    rw [key.1]
    refine List.Nodup.map_on ?_ List.nodup_range
    intro a ha b hb e
    rw [List.mem_range] at ha hb
    omega
  refine ⟨key.1, hnd, ?_, ?_⟩
  · intro q i hi
    have e := run_names hs h hi
    subst e
    refine ⟨rfl, rfl, _, ?_, rfl⟩
    have hp : "ping".toUTF8.data.toList = [0x70, 0x69, 0x6e, 0x67] := by decide
    rw [hp]
    simp [makePingName]
  · have hm : (s.log.filterMap fun x => match x with | .interest _ i => some i.name | _ => none) =
        (sent s.log).map (makePingName o) := by
      have : ∀ l : List Obs, (∀ q i, Obs.interest q i ∈ l → i = { name := makePingName o q, mustBeFresh := !o.shouldAllowStaleData }) →
          (l.filterMap fun x => match x with | .interest _ i => some i.name | _ => none) = (sent l).map (makePingName o) := by
        intro l
        induction l with
        | nil => intro _; rfl
        | cons x l ih =>
          intro hl
          have ih' := ih (fun q i hi => hl q i (List.mem_cons_of_mem _ hi))
          cases x with
          | interest q i =>
            have := hl q i List.mem_cons_self
            unfold sent at ih' ⊢
            simp only [List.filterMap_cons, Obs.sent, List.map_cons, ih', this]
          | _ =>
            unfold sent at ih' ⊢
            simp only [List.filterMap_cons, Obs.sent, ih']
      exact this _ (fun q i hi => run_names hs h hi)
    rw [hm]
    exact List.Nodup.map (fun a b e => makePingName_inj e) hnd

/-- The decimal sequence number in a name determines the number. -/
theorem C29_number_readable (n : Nat) : (decimal n).foldl (fun a x => a * 10 + (x.toNat - 48)) 0 = n :=
  decimal_parse n

/-- **C29 (results)** Each ping yields at most one result, after it was sent, and the pings without a result are
the pending ones. -/
theorem C29_one_result {o : Opts} (hs : o.startSeq < 2 ^ 64) {es s} (h : (machine o).Run es s) (hu : s.ub = false) :
    (results s.log ++ s.pending).Perm (sent s.log) ∧ (results s.log ++ s.pending).Nodup ∧
    ∀ pre x post, s.log = pre ++ x :: post → ∀ q, x.result = some q → q ∈ sent pre := by
  have hnd := (C29_sequence_numbers hs h hu).2.1
  cases run_inv hs h with
  | ok h => exact ⟨h.perm, h.perm.symm.nodup hnd, h.order⟩
  | bad _ e => subst e; exact ⟨.nil, List.nodup_nil, by intro pre x post e; simp at e⟩
  | thr _ e => subst e; exact ⟨.nil, List.nodup_nil, by intro pre x post e; simp at e⟩
  | ovf _ hu' => rw [hu] at hu'; cases hu'

private def Ev.notStop : Ev → Bool
  | .stop => false
  | _ => true

theorem finish_sent (s : St) : sent s.finish.log = sent s.log ∧ results s.finish.log = results s.log := by
  unfold St.finish
  dsimp only
  split
  · exact ⟨rfl, rfl⟩
  · exact ⟨by rw [sent_append]; exact List.append_nil _, by rw [results_append]; exact List.append_nil _⟩

theorem ping_sent {o : Opts} {s : St} (h : o.nPings < 0 ∨ s.nSent < o.nPings) (ht : 0 ≤ o.timeout) :
    (sent (s.performPing o).log).length = (sent s.log).length + 1 ∧
    results (s.performPing o).log = results s.log := by
  have e1 : ∀ i, sent (s.log ++ [Obs.interest s.nextSeq i]) = sent s.log ++ [s.nextSeq] := by
    intro i; rw [sent_append]; rfl
  have e2 : ∀ i, results (s.log ++ [Obs.interest s.nextSeq i]) = results s.log := by
    intro i; rw [results_append]; exact List.append_nil _
  unfold St.performPing
  rw [if_neg (not_not_intro h), if_neg (by omega)]
  dsimp only
  split
  · dsimp only; rw [e1, e2]; simp
  · split
    · dsimp only; rw [e1, e2]; simp
    · rw [(finish_sent _).1, (finish_sent _).2]
      dsimp only; rw [e1, e2]; simp

/-- Every event other than a call of `stop()` sends a ping or brings a result. -/
private theorem work {o : Opts} (hs : o.startSeq < 2 ^ 64) (hn : o.nPings ≠ 0) (ht : 0 ≤ o.timeout) {es s}
    (h : (machine o).Run es s) (hu : s.ub = false) :
    es.countP Ev.notStop + 1 = (sent s.log).length + (results s.log).length := by
  induction h with
  | nil =>
    have := ping_sent (o := o) (s := { nextSeq := o.startSeq }) (by show _ ∨ (0 : Int) < _; omega) ht
    show _ = (sent (start o).log).length + (results (start o).log).length
    unfold start
    rw [this.1, this.2]
    rfl
  | snoc e hr he ih =>
    rename_i es s
    have hst : (machine o).step = St.step o := rfl
    rw [hst] at hu ⊢
    rw [List.countP_append]
    cases run_inv hs hr with
    | bad hz _ => exact absurd hz hn
    | thr hz _ => omega
    | ovf _ hu' => unfold St.step at hu; rw [if_pos (by simp [hu'])] at hu; rw [hu] at hu'; cases hu'
    | ok hc h1 h2 h3 =>
      have ih := ih h3
      unfold St.step
      rw [if_neg (by simp [h1, h2, h3])]
      cases e with
      | stop =>
        have : [Ev.stop].countP Ev.notStop = 0 := rfl
        rw [this]
        exact ih
      | timer =>
        have := ping_sent (o := o) (s := { s with timer := false }) (hc.timer he) ht
        dsimp only
        rw [this.1, this.2]
        show _ + 1 + 1 = (sent s.log).length + 1 + (results s.log).length
        omega
      | data q t =>
        dsimp only
        rw [(finish_sent _).1, (finish_sent _).2]
        dsimp only
        rw [sent_append, results_append, List.length_append, List.length_append]
        show _ + 1 + 1 = _ + 0 + (_ + 1)
        omega
      | nack q t x =>
        dsimp only
        rw [(finish_sent _).1, (finish_sent _).2]
        dsimp only
        rw [sent_append, results_append, List.length_append, List.length_append]
        show _ + 1 + 1 = _ + 0 + (_ + 1)
        omega
      | timeout q =>
        dsimp only
        rw [(finish_sent _).1, (finish_sent _).2]
        dsimp only
        rw [sent_append, results_append, List.length_append, List.length_append]
        show _ + 1 + 1 = _ + 0 + (_ + 1)
        omega

private theorem no_stop_timer {o : Opts} (hs : o.startSeq < 2 ^ 64) {es s} (h : (machine o).Run es s)
    (hst : Ev.stop ∉ es) (hc : Core o s) (hu : s.ub = false) : s.timer = true ∨ s.nSent = o.nPings := by
  have key : ∀ t : St, t.timer = false → (t.performPing o).ub = false → (t.performPing o).threw = false →
      (t.performPing o).assertFailed = false → (o.nPings < 0 ∨ t.nSent < o.nPings) →
      (t.performPing o).timer = true ∨ (t.performPing o).nSent = o.nPings := by
    intro t ht h1 h2 h3 h4
    unfold St.performPing at *
    rw [if_neg (not_not_intro h4)] at *
    split at h1
    · rename_i hx; rw [if_pos hx] at h2; cases h2
    · rename_i hx
      rw [if_neg hx]
      dsimp only at *
      split at h1
      · cases h1
      · rename_i hy
        rw [if_neg hy]
        split
        · left; rfl
        · right
          unfold St.finish
          dsimp only
          split <;> (dsimp only; omega)
  induction h with
  | nil =>
    have hi : (machine o).init = start o := rfl
    rw [hi] at hc hu ⊢
    have hinv := inv_start (o := o) hs
    cases hinv with
    | ok _ h1 h2 h3 =>
      have hz := hc.nz
      exact key { nextSeq := o.startSeq } rfl h3 h1 h2 (by show _ ∨ (0 : Int) < _; omega)
    | bad hz _ => exact absurd hz hc.nz
    | thr hz _ => have := hc.tm; omega
    | ovf _ hu' => rw [hu'] at hu; cases hu
  | snoc e hr he ih =>
    rename_i es s
    have hst' : (machine o).step = St.step o := rfl
    rw [hst'] at hc hu ⊢
    have hns : Ev.stop ∉ es := fun hx => hst (by simp [hx])
    cases run_inv hs hr with
    | bad hz _ => exact absurd hz hc.nz
    | thr hz _ => have := hc.tm; omega
    | ovf _ hu' => unfold St.step at hu; rw [if_pos (by simp [hu'])] at hu; rw [hu] at hu'; cases hu'
    | ok hcs h1 h2 h3 =>
      have ih := ih hns hcs h3
      have hinv := inv_step (run_inv hs hr) he
      have fin : ∀ t : St, t.finish.timer = t.timer ∧ t.finish.nSent = t.nSent := by
        intro t; unfold St.finish; dsimp only; split <;> exact ⟨rfl, rfl⟩
      cases e with
      | stop => exact absurd (by simp) hst
      | timer =>
        have e : s.step o .timer = ({ s with timer := false } : St).performPing o := by
          unfold St.step; rw [if_neg (by simp [h1, h2, h3])]
        rw [e] at hu hinv hc ⊢
        cases hinv with
        | ok _ g1 g2 g3 => exact key _ rfl g3 g1 g2 (hcs.timer he)
        | bad hz _ => exact absurd hz hc.nz
        | thr hz _ => have := hc.tm; omega
        | ovf _ hu' => rw [hu'] at hu; cases hu
      | data q t => unfold St.step; rw [if_neg (by simp [h1, h2, h3])]; dsimp only; rw [(fin _).1, (fin _).2]; exact ih
      | nack q t x => unfold St.step; rw [if_neg (by simp [h1, h2, h3])]; dsimp only; rw [(fin _).1, (fin _).2]; exact ih
      | timeout q => unfold St.step; rw [if_neg (by simp [h1, h2, h3])]; dsimp only; rw [(fin _).1, (fin _).2]; exact ih

/-- **C29 (with a count)** With count `n`, not more than `n` Interests are sent. The finish notification is given at most
once, as the last thing, and exactly when `n` pings were sent and every one has its result. Unless `stop()` was
called, as long as there was no notification something is going to happen (a ping is scheduled or pending), and
after at most `2 n - 1` events there is nothing left; so the notification does come. No assertion fails and no counter
overflows. -/
theorem C29_count {o : Opts} (hs : o.startSeq < 2 ^ 64) (hn : 0 < o.nPings) (hm : o.nPings ≤ intMax)
    (ht : 0 ≤ o.timeout) {es s} (h : (machine o).Run es s) :
    ((sent s.log).length : Int) ≤ o.nPings ∧
    (∀ pre post, s.log = pre ++ Obs.finish :: post → post = []) ∧
    (Obs.finish ∈ s.log ↔ ((sent s.log).length : Int) = o.nPings ∧ ((results s.log).length : Int) = o.nPings) ∧
    (Ev.stop ∉ es → Obs.finish ∈ s.log ∨ s.timer = true ∨ s.pending ≠ []) ∧
    ((es.filter (· ≠ .stop)).length : Int) ≤ 2 * o.nPings - 1 ∧
    s.threw = false ∧ s.assertFailed = false ∧ s.ub = false := by
  cases run_inv hs h with
  | bad hz _ => omega
  | thr hz _ => omega
  | ovf hz => omega
  | ok hc h1 h2 h3 =>
    have hw := work hs (by omega) ht h h3
    have hlen := hc.perm.length_eq
    rw [List.length_append] at hlen
    have hcnt := hc.cnt
    have hlim := hc.lim hn
    have hcp : (es.filter (· ≠ .stop)).length = es.countP Ev.notStop := by
      rw [← List.countP_eq_length_filter]
      congr 1
      funext e
      cases e <;> simp [Ev.notStop]
    refine ⟨by omega, hc.last, ?_, ?_, by rw [hcp]; omega, h1, h2, h3⟩
    · rw [hc.fin]
      constructor
      · rintro ⟨a, b⟩
        rw [b, List.length_nil] at hlen
        omega
      · rintro ⟨a, b⟩
        refine ⟨by omega, List.length_eq_zero_iff.mp (by omega)⟩
    · intro hst
      rcases no_stop_timer hs h hst hc h3 with hT | hT
      · exact Or.inr (Or.inl hT)
      · by_cases hp : s.pending = []
        · exact Or.inl (hc.fin.mpr ⟨hT, hp⟩)
        · exact Or.inr (Or.inr hp)

/-- **C29 (without a count)** The ping client never finishes, and, as long as no counter overflowed and `stop()` was
not called, the next ping is always scheduled. -/
theorem C29_unlimited {o : Opts} (hs : o.startSeq < 2 ^ 64) (hn : o.nPings < 0) (ht : 0 ≤ o.timeout) {es s}
    (h : (machine o).Run es s) :
    Obs.finish ∉ s.log ∧ s.threw = false ∧ s.assertFailed = false ∧
    (s.ub = true → (sent s.log).length = 2 ^ 31) ∧
    (s.ub = false → Ev.stop ∉ es → s.timer = true) := by
  cases run_inv hs h with
  | bad hz _ => omega
  | thr hz _ => omega
  | ovf _ hu ha ht' hl hf =>
    refine ⟨hf, ht', ha, ?_, fun h => by rw [hu] at h; cases h⟩
    intro _
    unfold intMax at hl
    omega
  | ok hc h1 h2 h3 =>
    refine ⟨?_, h1, h2, (fun h => by rw [h3] at h; cases h), ?_⟩
    · intro hf
      have := (hc.fin.mp hf).1
      have := hc.pos
      omega
    · intro _ hst
      rcases no_stop_timer hs h hst hc h3 with hT | hT
      · exact hT
      · have := hc.pos; omega

/-- **C29 (stop)** After `stop()` no further ping is sent. -/
theorem C29_stop {o : Opts} {es s es' s'} (_h : (machine o).Run es s)
    (h' : (machine o).RunFrom (s.step o .stop) es' s') : sent s'.log = sent s.log := by
  by_cases hb : (s.threw || s.assertFailed || s.ub) = true
  · have : ∀ e, s.step o e = s := by intro e; unfold St.step; rw [if_pos hb]
    rw [this] at h'
    have : s' = s := by
      refine h'.invariant (P := fun x => x = s) rfl ?_
      rintro _ e rfl _
      exact this e
    rw [this]
  · have hs : s.step o .stop = { s with timer := false } := by unfold St.step; rw [if_neg hb]
    rw [hs] at h'
    refine (h'.invariant (P := fun x => x.timer = false ∧ sent x.log = sent s.log) ⟨rfl, rfl⟩ ?_).2
    rintro x e ⟨h1, h2⟩ he
    have hst : (machine o).step = St.step o := rfl
    rw [hst]
    have fin : ∀ t : St, t.finish.timer = t.timer := by
      intro t; unfold St.finish; dsimp only; split <;> rfl
    unfold St.step
    split
    · exact ⟨h1, h2⟩
    · cases e with
      | timer => have : x.timer = true := he; rw [h1] at this; cases this
      | stop => exact ⟨rfl, h2⟩
      | data q t =>
        refine ⟨(fin _).trans h1, ?_⟩
        dsimp only; rw [(finish_sent _).1]; dsimp only; rw [sent_append]; exact (List.append_nil _).trans h2
      | nack q t y =>
        refine ⟨(fin _).trans h1, ?_⟩
        dsimp only; rw [(finish_sent _).1]; dsimp only; rw [sent_append]; exact (List.append_nil _).trans h2
      | timeout q =>
        refine ⟨(fin _).trans h1, ?_⟩
        dsimp only; rw [(finish_sent _).1]; dsimp only; rw [sent_append]; exact (List.append_nil _).trans h2

/-- Two pings with wrapping sequence number; the response to the second one arrives first. -/
example : ∃ s, (machine { pre := [⟨8, [65]⟩], nPings := 2, startSeq := 2 ^ 64 - 1 }).Run
    [.timer, .data 0 100, .timeout (2 ^ 64 - 1)] s ∧
    sent s.log = [2 ^ 64 - 1, 0] ∧ results s.log = [0, 2 ^ 64 - 1] ∧ Obs.finish ∈ s.log :=
  let M := machine { pre := [⟨8, [65]⟩], nPings := 2, startSeq := 2 ^ 64 - 1 }
  ⟨_, Machine.exec_run (M := M) (s := (M.exec M.init [.timer, .data 0 100, .timeout (2 ^ 64 - 1)]).get (by decide +kernel))
    (Option.some_get _).symm, by decide +kernel⟩

/-- **C57 (the full statement is false)** Without a count, the client does not ping forever: the counter of sent pings
overflows, which is undefined behaviour. -/
theorem C57_refuted {o : Opts} (hs : o.startSeq < 2 ^ 64) (hn : o.nPings < 0) (ht : 0 ≤ o.timeout) :
    ∃ k s, (machine o).Run (List.replicate k .timer) s ∧ s.ub = true := by
  have key : ∀ k, (∃ j s, (machine o).Run (List.replicate j .timer) s ∧ s.ub = true) ∨
      ∃ s, (machine o).Run (List.replicate k .timer) s ∧ s.ub = false := by
    intro k
    induction k with
    | zero =>
      cases h : (machine o).init.ub with
      | true => exact Or.inl ⟨0, _, .nil, h⟩
      | false => exact Or.inr ⟨_, .nil, h⟩
    | succ k ih =>
      rcases ih with ih | ⟨s, hr, hu⟩
      · exact Or.inl ih
      · have htm := (C29_unlimited hs hn ht hr).2.2.2.2 hu (by intro h; have := List.eq_of_mem_replicate h; cases this)
        have hr' := Machine.Run.snoc (M := machine o) .timer hr htm
        rw [← List.replicate_succ'] at hr'
        cases h : ((machine o).step s .timer).ub with
        | true => exact Or.inl ⟨_, _, hr', h⟩
        | false => exact Or.inr ⟨_, hr', h⟩
  rcases key (2 ^ 33) with ⟨j, s, h⟩ | ⟨s, hr, hu⟩
  · exact ⟨j, s, h⟩
  · exfalso
    have hw := work hs (by omega) ht hr hu
    cases run_inv hs hr with
    | bad hz _ => omega
    | thr hz _ => omega
    | ovf _ hu' => rw [hu] at hu'; cases hu'
    | ok hc =>
      have h1 := hc.cnt
      have h2 := hc.max
      have h3 := hc.perm.length_eq
      rw [List.length_append] at h3
      have h4 : (List.replicate (2 ^ 33) Ev.timer).countP Ev.notStop = 2 ^ 33 := by
        rw [List.countP_replicate]; rfl
      rw [h4] at hw
      unfold intMax at h2
      omega

/-- **C57 (partial)** The counter can only overflow when 2^31 pings were sent, and never with a count. -/
theorem C57_partial {o : Opts} (hs : o.startSeq < 2 ^ 64) (hm : o.nPings ≤ intMax) {es s}
    (h : (machine o).Run es s) (hu : s.ub = true) : o.nPings < 0 ∧ (sent s.log).length = 2 ^ 31 := by
  cases run_inv hs h with
  | ok _ _ _ h => rw [h] at hu; cases hu
  | bad _ e => subst e; cases hu
  | thr _ e => subst e; cases hu
  | ovf hz _ _ _ hl =>
    unfold intMax at *
    omega

/-! ## The program and its statistics -/

/-- **C30** At every time the counters are the numbers of responses and Nacks reported so far, and the number of `packets
transmitted` is the number of results; the rates are the shares of the timeouts and of the Nacks. -/
theorem C30_accounting {r : ℚ → ℚ} {o : Opts} {es p} (h : (progMachine r o).Run es p) :
    let l := p.ping.log
    let t := nData l + nNack l + nTimeout l
    let st := p.coll.computeStatistics r
    st.nSent = t ∧ st.nReceived = nData l ∧ st.nNacked = nNack l ∧ t = (results l).length ∧
    st.packetLossRate = (if t = 0 then none else some (r ((nTimeout l : ℚ) / t))) ∧
    st.packetNackedRate = (if t = 0 then none else some (r ((nNack l : ℚ) / t))) := by
  have hc := (prog_inv h).coll
  obtain ⟨h1, h2, h3⟩ := coll_counts r p.ping.log {}
  rw [← hc] at h1 h2 h3
  dsimp only
  have e0 : ({} : Coll).nSent = 0 := rfl
  have e1 : ({} : Coll).nReceived = 0 := rfl
  have e2 : ({} : Coll).nNacked = 0 := rfl
  rw [e0] at h1; rw [e1] at h2; rw [e2] at h3
  have g1 : p.coll.nSent = ((nData p.ping.log + nNack p.ping.log + nTimeout p.ping.log : Nat) : Int) := by
    rw [h1]; push_cast; omega
  have g2 : p.coll.nReceived = (nData p.ping.log : Int) := by rw [h2]; omega
  have g3 : p.coll.nNacked = (nNack p.ping.log : Int) := by rw [h3]; omega
  have g4 : p.coll.nSent - p.coll.nReceived - p.coll.nNacked = (nTimeout p.ping.log : Int) := by
    rw [g1, g2, g3]; push_cast; omega
  unfold Coll.computeStatistics
  dsimp only
  refine ⟨g1, g2, g3, (results_length _).symm, ?_, ?_⟩
  · rw [g4]
    by_cases ht : nData p.ping.log + nNack p.ping.log + nTimeout p.ping.log = 0
    · rw [if_neg (by rw [g1]; omega), if_pos ht]
    · rw [if_pos (by rw [g1]; omega), if_neg ht, g1, Int.cast_natCast, Int.cast_natCast]
  · by_cases ht : nData p.ping.log + nNack p.ping.log + nTimeout p.ping.log = 0
    · rw [if_neg (by rw [g1]; omega), if_pos ht]
    · rw [if_pos (by rw [g1]; omega), if_neg ht, g1, g3, Int.cast_natCast, Int.cast_natCast]

/-- **C30 (exit status)** When the program terminates, every ping that was sent is accounted for. The status is 2 exactly
for a negative timeout; otherwise it is 0 when every ping sent got a response, and 1 when not. -/
theorem C30_exit {r : ℚ → ℚ} {o : Opts} (hs : o.startSeq < 2 ^ 64) (hn : o.nPings ≠ 0) {es p}
    (h : (progMachine r o).Run es p) {n : Nat} (hx : p.Exits n) :
    (n = 2 ↔ o.timeout < 0) ∧
    (n ≠ 2 → p.coll.nSent = (sent p.ping.log).length ∧ 0 < (sent p.ping.log).length ∧
      n = if nData p.ping.log = (sent p.ping.log).length then 0 else 1) := by
  obtain ⟨⟨es', hr, _⟩, hc, _⟩ := prog_inv h
  have hacc := C30_accounting h
  dsimp only [Coll.computeStatistics] at hacc
  obtain ⟨g1, g2, g3, g4, _, _⟩ := hacc
  unfold Prog.Exits at hx
  cases run_inv hs hr with
  | bad hz _ => exact absurd hz hn
  | thr hz e =>
    rw [e] at hx
    have : n = 2 := hx
    subst this
    exact ⟨⟨fun _ => hz, fun _ => rfl⟩, fun h => absurd rfl h⟩
  | ovf _ hu _ ht =>
    rw [ht] at hx
    have := hx.2.1
    rw [hu] at this; cases this
  | ok hcore ht ha hu =>
    rw [ht] at hx
    obtain ⟨_, _, hp, _, _, hn'⟩ := hx
    have htm := hcore.tm
    have hl := hcore.perm.length_eq
    rw [hp, List.append_nil] at hl
    have hpos := hcore.pos
    have hcnt := hcore.cnt
    refine ⟨⟨?_, fun h => by omega⟩, ?_⟩
    · intro h
      rw [h] at hn'
      split at hn' <;> omega
    · intro _
      refine ⟨by rw [g1]; omega, by omega, ?_⟩
      rw [hn']
      by_cases hd : nData p.ping.log = (sent p.ping.log).length
      · rw [if_pos hd, if_pos (by omega)]
      · rw [if_neg hd, if_neg (by omega)]

/-- Two pings, one response, SIGQUIT in between: the program exits with status 1. -/
example : ∃ p, (progMachine id { pre := [], nPings := 2 }).Run
    [.ping (.data 0 3000000), .sigquit, .ping .timer, .ping (.nack 1 5 .none)] p ∧ p.Exits 1 ∧
    p.coll = { nSent := 2, nReceived := 1, nNacked := 1, minRtt := 3, maxRtt := 3, sumRtt := 3, sumRttSquared := 9 } := by
  let M := progMachine id { pre := [], nPings := 2 }
  refine ⟨_, Machine.exec_run (M := M) (s := (M.exec M.init
    [.ping (.data 0 3000000), .sigquit, .ping .timer, .ping (.nack 1 5 .none)]).get (by decide +kernel))
    (Option.some_get _).symm, ?_, ?_⟩
  · unfold Prog.Exits
    rw [if_neg (by decide +kernel)]
    decide +kernel
  · decide +kernel

/-- **C58 (the full statement is false)** The summary printed on SIGQUIT does not count the pings that were transmitted:
pending ones are missing. -/
theorem C58_refuted : ∃ (o : Opts) (es : List PEv) (p : Prog), (progMachine id o).Run es p ∧
    ∃ c ∈ p.reports, c.nSent = 0 ∧ (sent p.ping.log).length = 1 := by
  refine ⟨{ pre := [] }, [.sigquit], _, .snoc (M := progMachine id { pre := [] }) _ .nil ⟨by decide +kernel, by decide +kernel⟩, ?_⟩
  decide +kernel

/-- **C58 (partial)** It is short by exactly the number of pending pings. -/
theorem C58_partial {r : ℚ → ℚ} {o : Opts} (hs : o.startSeq < 2 ^ 64) {es p} (h : (progMachine r o).Run es p)
    (hu : p.ping.ub = false) : p.coll.nSent + p.ping.pending.length = (sent p.ping.log).length := by
  obtain ⟨⟨es', hr, _⟩, hc, _⟩ := prog_inv h
  have hacc := C30_accounting h
  dsimp only [Coll.computeStatistics] at hacc
  have hl := (C29_one_result hs hr hu).1.length_eq
  rw [List.length_append] at hl
  omega

/-- **C31** In exact arithmetic, the reported round-trip times are those of the responses: minimum and maximum are samples
and bound all samples, total, average, and population standard deviation are what these words mean. The
value under the square root is not negative, so the deviation is a number. -/
theorem C31_statistics {o : Opts} {es p} (h : (progMachine id o).Run es p) (hne : rtts p.ping.log ≠ [])
    (hmax : ∀ x ∈ rtts p.ping.log, x ≤ dblMax) :
    let xs := rtts p.ping.log
    let st := p.coll.computeStatistics id
    let mean := xs.sum / xs.length
    (st.minRtt ∈ xs ∧ ∀ x ∈ xs, st.minRtt ≤ x) ∧ (st.maxRtt ∈ xs ∧ ∀ x ∈ xs, x ≤ st.maxRtt) ∧
    st.sumRtt = xs.sum ∧ st.avgRtt = some mean ∧ st.minRtt ≤ mean ∧ mean ≤ st.maxRtt ∧
    st.stdDevRtt = some (Real.sqrt (((xs.map fun x => (x - mean) * (x - mean)).sum / xs.length : ℚ) : ℝ)) := by
  have hc := (prog_inv h).coll
  obtain ⟨s1, s2, s3, s4⟩ := coll_sums p.ping.log {}
  obtain ⟨_, g2, _, _⟩ := C30_accounting h
  rw [← hc] at s1 s2 s3 s4
  have g2' : p.coll.nReceived = (nData p.ping.log : Int) := g2
  have e1 : ({} : Coll).sumRtt = 0 := rfl
  have e2 : ({} : Coll).sumRttSquared = 0 := rfl
  rw [e1, zero_add] at s1
  rw [e2, zero_add] at s2
  rw [← rtts_length] at g2'
  dsimp only
  generalize hxs : rtts p.ping.log = xs at *
  have hpos : 0 < xs.length := List.length_pos_of_ne_nil hne
  have hposq : (0 : ℚ) < xs.length := by exact_mod_cast hpos
  have hnn : ∀ x ∈ xs, 0 ≤ x := by rw [← hxs]; exact rtts_nonneg _
  have hrec : (p.coll.nReceived : ℚ) = xs.length := by rw [g2']; exact Int.cast_natCast _
  obtain ⟨m1, m2, m3⟩ := foldl_min xs dblMax
  obtain ⟨M1, M2, M3⟩ := foldl_max xs 0
  have hmin : p.coll.minRtt ∈ xs := by
    rw [s3]
    have e : ({} : Coll).minRtt = dblMax := rfl
    rw [e]
    rcases m3 with h3 | h3
    · obtain ⟨x, l, rfl⟩ := List.exists_cons_of_ne_nil hne
      have h1 := m1 x (by simp)
      have h2 := hmax x (by simp)
      rw [h3] at h1
      rw [h3, le_antisymm h1 h2]; simp
    · exact h3
  have hmx : p.coll.maxRtt ∈ xs := by
    rw [s4]
    have e : ({} : Coll).maxRtt = 0 := rfl
    rw [e]
    rcases M3 with h3 | h3
    · obtain ⟨x, l, rfl⟩ := List.exists_cons_of_ne_nil hne
      have h1 := M1 x (by simp)
      have h2 := hnn x (by simp)
      rw [h3] at h1
      rw [h3, le_antisymm h2 h1]; simp
    · exact h3
  have hminle : ∀ x ∈ xs, p.coll.minRtt ≤ x := by rw [s3]; exact m1
  have hmaxle : ∀ x ∈ xs, x ≤ p.coll.maxRtt := by rw [s4]; exact M1
  have hvar : p.coll.variance id = (xs.map fun x => (x - xs.sum / xs.length) * (x - xs.sum / xs.length)).sum / xs.length := by
    unfold Coll.variance
    dsimp only [id]
    rw [hrec, s1, s2, sum_sq_dev]
    field_simp
    ring
  have hvn : 0 ≤ p.coll.variance id := by
    rw [hvar]; exact div_nonneg (sum_sq_nonneg _ _) hposq.le
  unfold Coll.computeStatistics
  dsimp only
  refine ⟨⟨hmin, hminle⟩, ⟨hmx, hmaxle⟩, s1, ?_, ?_, ?_, ?_⟩
  · rw [if_pos (by rw [g2']; omega), hrec, s1]; rfl
  · rw [le_div_iff₀ hposq, mul_comm]; exact min_le_sum xs _ hminle
  · rw [div_le_iff₀ hposq, mul_comm]; exact sum_le_max xs _ hmaxle
  · rw [if_pos (by rw [g2']; omega), if_neg (not_lt.mpr hvn), hvar]

/-- The hypotheses of C31 hold for two responses after 1 and 3 milliseconds. -/
example : ∃ p, (progMachine id { pre := [] }).Run [.ping (.data 0 1000000), .ping .timer, .ping (.data 1 3000000)] p ∧
    rtts p.ping.log = [1, 3] ∧ ∀ x ∈ rtts p.ping.log, x ≤ dblMax := by
  let M := progMachine id { pre := [] }
  refine ⟨_, Machine.exec_run (M := M) (s := (M.exec M.init
    [.ping (.data 0 1000000), .ping .timer, .ping (.data 1 3000000)]).get (by decide +kernel))
    (Option.some_get _).symm, by decide +kernel, by decide +kernel⟩

/-- **C59 (the full statement is false)** In IEEE double arithmetic, which the program uses, the deviation is not always a
number: three responses after 0.1 ms each make the value under the square root negative. -/
theorem C59_refuted : ∃ p, (progMachine binary64 { pre := [], nPings := 3 }).Run
      [.ping (.data 0 100000), .ping .timer, .ping (.data 1 100000), .ping .timer, .ping (.data 2 100000)] p ∧
    p.Exits 0 ∧ (p.coll.computeStatistics binary64).nReceived = 3 ∧
    (p.coll.computeStatistics binary64).stdDevRtt = none := by
  let M := progMachine binary64 { pre := [], nPings := 3 }
  refine ⟨_, Machine.exec_run (M := M) (s := (M.exec M.init
      [.ping (.data 0 100000), .ping .timer, .ping (.data 1 100000), .ping .timer, .ping (.data 2 100000)]).get
      (by decide +kernel)) (Option.some_get _).symm, ?_, by decide +kernel, ?_⟩
  · unfold Prog.Exits
    rw [if_neg (by decide +kernel)]
    decide +kernel
  · unfold Coll.computeStatistics
    dsimp only
    rw [if_pos (by decide +kernel), if_pos (by decide +kernel)]

/-- **C59 (partial)** With a single response the deviation is a number, namely 0, also in double arithmetic. (For several
responses only exact arithmetic gives a number always: C31.) -/
theorem C59_single_partial {o : Opts} {es p} (h : (progMachine binary64 o).Run es p) (h1 : nData p.ping.log = 1) :
    (p.coll.computeStatistics binary64).stdDevRtt = some 0 := by
  have hc := (prog_inv h).coll
  have key : ∀ (l : List Obs) (c : Coll), nData l = 1 → c.sumRtt = 0 → c.sumRttSquared = 0 → c.nReceived = 0 →
      ∃ x : ℚ, (l.foldl (record binary64) c).sumRtt = binary64 x ∧
        (l.foldl (record binary64) c).sumRttSquared = binary64 (binary64 x * binary64 x) ∧
        (l.foldl (record binary64) c).nReceived = 1 := by
    have stay : ∀ (l : List Obs) (c : Coll), nData l = 0 →
        (l.foldl (record binary64) c).sumRtt = c.sumRtt ∧ (l.foldl (record binary64) c).sumRttSquared = c.sumRttSquared ∧
        (l.foldl (record binary64) c).nReceived = c.nReceived := by
      intro l
      induction l with
      | nil => intro c _; exact ⟨rfl, rfl, rfl⟩
      | cons x l ih =>
        intro c hl
        unfold nData at hl ih
        cases x <;> simp only [List.countP_cons, if_true, Bool.false_eq_true, if_false] at hl
        case data => omega
        all_goals exact ih _ hl
    intro l
    induction l with
    | nil => intro c hl; cases hl
    | cons x l ih =>
      intro c hl e1 e2 e3
      unfold nData at hl ih stay
      rw [List.foldl_cons]
      cases x with
      | data q t =>
        obtain ⟨s1, s2, s3⟩ := stay l (record binary64 c (.data q t)) (by simp only [List.countP_cons, if_true] at hl; omega)
        refine ⟨(t : ℚ) / 10 ^ 6, ?_, ?_, ?_⟩
        · rw [s1]
          show binary64 (c.sumRtt + _) = _
          rw [e1, zero_add, binary64_idem]
        · rw [s2]
          show binary64 (c.sumRttSquared + binary64 _) = _
          rw [e2, zero_add, binary64_idem]
        · rw [s3]
          show c.nReceived + 1 = 1
          rw [e3]; rfl
      | interest q i => exact ih _ (by simpa only [List.countP_cons, Bool.false_eq_true, if_false, add_zero] using hl) e1 e2 e3
      | nack q t y => exact ih _ (by simpa only [List.countP_cons, Bool.false_eq_true, if_false, add_zero] using hl) e1 e2 e3
      | timeout q => exact ih _ (by simpa only [List.countP_cons, Bool.false_eq_true, if_false, add_zero] using hl) e1 e2 e3
      | finish => exact ih _ (by simpa only [List.countP_cons, Bool.false_eq_true, if_false, add_zero] using hl) e1 e2 e3
  obtain ⟨x, k1, k2, k3⟩ := key p.ping.log {} h1 rfl rfl rfl
  rw [← hc] at k1 k2 k3
  have hv : p.coll.variance binary64 = 0 := by
    unfold Coll.variance
    dsimp only
    rw [k1, k2, k3, Int.cast_one, div_one, div_one, binary64_idem, binary64_idem, sub_self]
    rfl
  unfold Coll.computeStatistics
  dsimp only
  rw [if_pos (by rw [k3]; decide), hv, if_neg (lt_irrefl _)]
  simp

end Verif.Ping
