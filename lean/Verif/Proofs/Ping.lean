import Verif.Spec.Ping

/-! # Invariants of the ping client -/

namespace Verif

theorem decimal_parse (n : Nat) : (decimal n).foldl (fun a x => a * 10 + (x.toNat - 48)) 0 = n := by
  induction n using Nat.strongRecOn with
  | _ n ih =>
    rw [decimal]
    split
    · rename_i h
      simp only [List.foldl_cons, List.foldl_nil]
      rw [UInt8.toNat_ofNat']
      omega
    · rename_i h
      rw [List.foldl_append, ih (n / 10) (by omega)]
      simp only [List.foldl_cons, List.foldl_nil]
      rw [UInt8.toNat_ofNat']
      omega

theorem decimal_inj {a b : Nat} (h : decimal a = decimal b) : a = b := by
  rw [← decimal_parse a, h, decimal_parse]

namespace Ping

theorem makePingName_inj {o : Opts} {a b : Nat} (h : makePingName o a = makePingName o b) : a = b := by
  unfold makePingName at h
  have := List.append_cancel_left h
  simp only [List.cons.injEq, Comp.mk.injEq, true_and, and_true] at this
  exact decimal_inj this

@[simp] theorem sent_append (l m : List Obs) : sent (l ++ m) = sent l ++ sent m := by simp [sent]
@[simp] theorem results_append (l m : List Obs) : results (l ++ m) = results l ++ results m := by simp [results]

/-- Everything that is known when no exception, failed assertion or overflow occurred. -/
structure Core (o : Opts) (s : St) : Prop where
  tm : 0 ≤ o.timeout
  nz : o.nPings ≠ 0
  cnt : s.nSent = (sent s.log).length
  pos : 0 < s.nSent
  next : s.nextSeq = (o.startSeq + (sent s.log).length) % 2 ^ 64
  seqs : sent s.log = (List.range (sent s.log).length).map fun i => (o.startSeq + i) % 2 ^ 64
  perm : (results s.log ++ s.pending).Perm (sent s.log)
  out : s.nOutstanding = s.pending.length - (if s.nSent = o.nPings then 1 else 0)
  timer : s.timer = true → o.nPings < 0 ∨ s.nSent < o.nPings
  lim : 0 < o.nPings → s.nSent ≤ o.nPings
  max : s.nSent ≤ intMax
  names : ∀ q i, Obs.interest q i ∈ s.log → i = { name := makePingName o q, mustBeFresh := !o.shouldAllowStaleData }
  order : ∀ pre x post, s.log = pre ++ x :: post → ∀ q, x.result = some q → q ∈ sent pre
  fin : Obs.finish ∈ s.log ↔ s.nSent = o.nPings ∧ s.pending = []
  last : ∀ pre post, s.log = pre ++ Obs.finish :: post → post = []

/-- The cases of a state. -/
inductive Inv (o : Opts) (s : St) : Prop
  | ok (h : Core o s) (ht : s.threw = false) (ha : s.assertFailed = false) (hu : s.ub = false)
  | bad (h : o.nPings = 0) (e : s = { nextSeq := o.startSeq, assertFailed := true })
  | thr (h : o.timeout < 0) (e : s = { nextSeq := o.startSeq, threw := true })
  | ovf (h : o.nPings < 0 ∨ intMax < o.nPings) (hu : s.ub = true) (ha : s.assertFailed = false) (ht : s.threw = false)
      (hl : ((sent s.log).length : Int) = intMax + 1) (hf : Obs.finish ∉ s.log)
      (hn : ∀ q i, Obs.interest q i ∈ s.log → i = { name := makePingName o q, mustBeFresh := !o.shouldAllowStaleData })

theorem last_snoc {l : List Obs} {x : Obs} (h : ∀ pre post, l = pre ++ Obs.finish :: post → post = [])
    (hf : Obs.finish ∉ l) : ∀ pre post, l ++ [x] = pre ++ Obs.finish :: post → post = [] := by
  intro pre post e
  rcases List.eq_nil_or_concat post with rfl | ⟨post', y, rfl⟩
  · rfl
  · exfalso
    rw [List.concat_eq_append, ← List.cons_append, ← List.append_assoc] at e
    have := (List.append_inj' e rfl).1
    exact hf (by rw [this]; simp)

theorem order_snoc {l : List Obs} {x : Obs} (h : ∀ pre x post, l = pre ++ x :: post → ∀ q, x.result = some q → q ∈ sent pre)
    (hx : ∀ q, x.result = some q → q ∈ sent l) :
    ∀ pre y post, l ++ [x] = pre ++ y :: post → ∀ q, y.result = some q → q ∈ sent pre := by
  intro pre y post e q hq
  rcases List.eq_nil_or_concat post with rfl | ⟨post', z, rfl⟩
  · have := List.append_inj' e rfl
    have h2 : x = y := by simpa using this.2
    rw [← this.1]; exact hx q (h2 ▸ hq)
  · rw [List.concat_eq_append, ← List.cons_append, ← List.append_assoc] at e
    exact h pre y post' (List.append_inj' e rfl).1 q hq

/-- `finish` after a result was reported. -/
theorem core_result {o : Opts} {s : St} (h : Core o s) {q : Nat} {x : Obs} (hq : q ∈ s.pending)
    (hx : x.result = some q) :
    Core o ({ s with pending := s.pending.erase q, log := s.log ++ [x] } : St).finish := by
  have hxs : x.sent = none := by cases x <;> simp_all [Obs.result, Obs.sent]
  have hxf : x ≠ .finish := by rintro rfl; cases hx
  have hxi : ∀ q i, x ≠ .interest q i := by rintro q i rfl; cases hx
  have hlen : (s.pending.erase q).length + 1 = s.pending.length := by
    rw [List.length_erase_of_mem hq]
    have := List.length_pos_of_mem hq; omega
  have hs1 : sent [x] = [] := by simp [sent, hxs]
  have hr1 : results [x] = [q] := by simp [results, hx]
  have hmem : q ∈ sent s.log := h.perm.subset (by simp [hq])
  have hnf : Obs.finish ∉ s.log := by
    intro hf; have := (h.fin.mp hf).2; rw [this] at hq; cases hq
  have hperm : (results s.log ++ [q] ++ s.pending.erase q).Perm (sent s.log) := by
    refine List.Perm.trans ?_ h.perm
    rw [List.append_assoc]
    exact List.Perm.append_left _ (List.perm_cons_erase hq).symm
  have hlast := last_snoc (x := x) h.last hnf
  have horder := order_snoc (x := x) h.order (by intro q' hq'; rw [hx] at hq'; cases hq'; exact hmem)
  have hnames : ∀ q' i, Obs.interest q' i ∈ s.log ++ [x] →
      i = { name := makePingName o q', mustBeFresh := !o.shouldAllowStaleData } := by
    intro q' i hm
    rcases List.mem_append.mp hm with hm | hm
    · exact h.names _ _ hm
    · exact absurd (by simpa using hm : Obs.interest q' i = x).symm (hxi _ _)
  have hnf' : Obs.finish ∉ s.log ++ [x] := by
    intro hm
    rcases List.mem_append.mp hm with hm | hm
    · exact hnf hm
    · exact hxf (by simpa using hm : Obs.finish = x).symm
  have hout := h.out
  have hsp : sent (s.log ++ [x]) = sent s.log := by rw [sent_append, hs1, List.append_nil]
  have hrp : results (s.log ++ [x]) = results s.log ++ [q] := by rw [results_append, hr1]
  unfold St.finish
  dsimp only
  split
  · rename_i hge
    refine ⟨h.tm, h.nz, by rw [hsp]; exact h.cnt, h.pos, by rw [hsp]; exact h.next, by rw [hsp]; exact h.seqs, by rw [hsp, hrp]; exact hperm,
      ?_, h.timer, h.lim, h.max, hnames, horder, ?_, hlast⟩
    · dsimp only; rw [hout]; omega
    · constructor
      · intro hm; exact absurd hm hnf'
      · rintro ⟨h1, h2⟩
        dsimp only at h1 h2
        rw [if_pos h1] at hout
        rw [h2] at hlen
        simp at hlen
        omega
  · rename_i hlt
    have hcase : s.nSent = o.nPings ∧ s.pending.erase q = [] := by
      by_cases hc : s.nSent = o.nPings
      · refine ⟨hc, ?_⟩
        rw [if_pos hc] at hout
        apply List.length_eq_zero_iff.mp
        omega
      · rw [if_neg hc] at hout; omega
    have e1 : sent (s.log ++ [x] ++ [Obs.finish]) = sent s.log := by rw [sent_append, hsp]; simp [sent, Obs.sent]
    have e2 : results (s.log ++ [x] ++ [Obs.finish]) = results s.log ++ [q] := by
      rw [results_append, hrp]; simp [results, Obs.result]
    refine ⟨h.tm, h.nz, by rw [e1]; exact h.cnt, h.pos, by rw [e1]; exact h.next, by rw [e1]; exact h.seqs, by rw [e1, e2]; exact hperm,
      ?_, h.timer, h.lim, h.max, ?_, ?_, ?_, ?_⟩
    · dsimp only; rw [hout]; omega
    · intro q' i hm
      rcases List.mem_append.mp hm with hm | hm
      · exact hnames _ _ hm
      · simp at hm
    · exact order_snoc horder (by intro q' hq'; cases hq')
    · constructor
      · intro _; exact hcase
      · intro _; simp
    · exact last_snoc hlast hnf'

/-- The state before a ping is sent: nothing was sent yet or the invariant holds. -/
structure Ready (o : Opts) (s : St) : Prop where
  nz : o.nPings < 0 ∨ s.nSent < o.nPings
  tm : 0 ≤ o.timeout
  cnt : s.nSent = (sent s.log).length
  next : s.nextSeq = (o.startSeq + (sent s.log).length) % 2 ^ 64
  seqs : sent s.log = (List.range (sent s.log).length).map fun i => (o.startSeq + i) % 2 ^ 64
  perm : (results s.log ++ s.pending).Perm (sent s.log)
  out : s.nOutstanding = s.pending.length
  max : s.nSent ≤ intMax
  names : ∀ q i, Obs.interest q i ∈ s.log → i = { name := makePingName o q, mustBeFresh := !o.shouldAllowStaleData }
  order : ∀ pre x post, s.log = pre ++ x :: post → ∀ q, x.result = some q → q ∈ sent pre
  fin : Obs.finish ∉ s.log
  tim : s.timer = false
  ht : s.threw = false
  ha : s.assertFailed = false
  hu : s.ub = false

theorem ready_ping {o : Opts} {s : St} (h : Ready o s) : Inv o (s.performPing o) := by
  have hs1 : ∀ i, sent (s.log ++ [Obs.interest s.nextSeq i]) = sent s.log ++ [s.nextSeq] := by
    intro i; rw [sent_append]; simp [sent, Obs.sent]
  have hr1 : ∀ i, results (s.log ++ [Obs.interest s.nextSeq i]) = results s.log := by
    intro i; rw [results_append]; simp [results, Obs.result]
  have hlen : s.pending.length ≤ (sent s.log).length := by
    have := h.perm.length_eq
    rw [List.length_append] at this; omega
  have hout := h.out
  have hcnt := h.cnt
  unfold St.performPing
  rw [if_neg (not_not_intro h.nz), if_neg (by have := h.tm; omega)]
  dsimp only
  have hnf : ∀ i, Obs.finish ∉ s.log ++ [Obs.interest s.nextSeq i] := by
    intro i hm
    rcases List.mem_append.mp hm with hm | hm
    · exact h.fin hm
    · simp at hm
  have hlast0 : ∀ pre post, s.log = pre ++ Obs.finish :: post → post = [] := by
    intro pre post e; exact absurd (by rw [e]; simp) h.fin
  have hnames : ∀ q' i, Obs.interest q' i ∈ s.log ++
      [Obs.interest s.nextSeq { name := makePingName o s.nextSeq, mustBeFresh := !o.shouldAllowStaleData }] →
      i = { name := makePingName o q', mustBeFresh := !o.shouldAllowStaleData } := by
    intro q' i hm
    rcases List.mem_append.mp hm with hm | hm
    · exact h.names _ _ hm
    · simp at hm
      obtain ⟨rfl, rfl⟩ := hm; rfl
  split
  · rename_i ho
    refine .ovf ?_ rfl h.ha h.ht ?_ (hnf _) hnames
    · rcases h.nz with hn | hn
      · exact Or.inl hn
      · right; omega
    · dsimp only
      rw [hs1, List.length_append, List.length_singleton]
      have := h.max
      omega
  · rename_i ho
    have ho' : s.nSent + 1 ≤ intMax := by omega
    have hseqs : sent s.log ++ [s.nextSeq] =
        (List.range (sent s.log ++ [s.nextSeq]).length).map fun i => (o.startSeq + i) % 2 ^ 64 := by
      rw [List.length_append, List.length_singleton, List.range_succ, List.map_append, ← h.seqs, h.next]
      rfl
    have hperm : (results s.log ++ (s.pending ++ [s.nextSeq])).Perm (sent s.log ++ [s.nextSeq]) := by
      rw [← List.append_assoc]
      exact List.Perm.append_right _ h.perm
    have hnext : (s.nextSeq + 1) % 2 ^ 64 = (o.startSeq + (sent s.log ++ [s.nextSeq]).length) % 2 ^ 64 := by
      rw [h.next, List.length_append, List.length_singleton]; omega
    have hcnt' : s.nSent + 1 = ((sent s.log ++ [s.nextSeq]).length : Int) := by
      rw [List.length_append, List.length_singleton, hcnt]; push_cast; rfl
    have horder := fun i => order_snoc (x := Obs.interest s.nextSeq i) h.order (by intro q hq; cases hq)
    split
    · rename_i hm
      refine .ok ⟨h.tm, by omega, ?_, ?_, ?_, ?_, ?_, ?_, ?_, ?_, ?_, hnames, horder _, ?_, last_snoc hlast0 h.fin⟩ h.ht h.ha h.hu
      · dsimp only; rw [hs1]; exact hcnt'
      · dsimp only; omega
      · dsimp only; rw [hs1]; exact hnext
      · dsimp only; rw [hs1]; exact hseqs
      · dsimp only; rw [hs1, hr1]; exact hperm
      · dsimp only; rw [hout, List.length_append, List.length_singleton, if_neg (by omega)]; push_cast; omega
      · intro _; exact hm
      · intro _; dsimp only; omega
      · exact ho'
      · constructor
        · intro hf; exact absurd hf (hnf _)
        · rintro ⟨h1, _⟩; dsimp only at h1; omega
    · rename_i hm
      have hn : s.nSent + 1 = o.nPings := by have := h.nz; omega
      unfold St.finish
      dsimp only
      split
      · rename_i hge
        refine .ok ⟨h.tm, by omega, ?_, ?_, ?_, ?_, ?_, ?_, ?_, ?_, ?_, hnames, horder _, ?_, last_snoc hlast0 h.fin⟩ h.ht h.ha h.hu
        · dsimp only; rw [hs1]; exact hcnt'
        · dsimp only; omega
        · dsimp only; rw [hs1]; exact hnext
        · dsimp only; rw [hs1]; exact hseqs
        · dsimp only; rw [hs1, hr1]; exact hperm
        · dsimp only; rw [hout, List.length_append, List.length_singleton, if_pos hn]; push_cast; omega
        · intro ht; dsimp only at ht; rw [h.tim] at ht; cases ht
        · intro _; dsimp only; omega
        · exact ho'
        · constructor
          · intro hf; exact absurd hf (hnf _)
          · rintro ⟨_, h2⟩; simp at h2
      · rename_i hlt; exfalso; omega

theorem inv_start {o : Opts} (hs : o.startSeq < 2 ^ 64) : Inv o (start o) := by
  unfold start
  by_cases hn : o.nPings < 0 ∨ 0 < o.nPings
  · by_cases ht : o.timeout < 0
    · refine .thr ht ?_
      unfold St.performPing
      rw [if_neg (not_not_intro hn), if_pos ht]
    · exact ready_ping ⟨hn, by omega, by simp [sent], by simp [sent]; omega, by simp [sent], by simp [sent, results], by simp, by simp [intMax],
        by simp, by simp, by simp, rfl, rfl, rfl, rfl⟩
  · refine .bad (by omega) ?_
    unfold St.performPing
    rw [if_pos hn]

theorem inv_step {o : Opts} {s : St} {e : Ev} (h : Inv o s) (he : s.enabled e) :
    Inv o (s.step o e) := by
  unfold St.step
  cases h with
  | ok h ht ha hu =>
    rw [if_neg (by simp [ht, ha, hu])]
    cases e with
    | timer =>
      have hT := h.timer he
      exact ready_ping ⟨hT, h.tm, h.cnt, h.next, h.seqs, h.perm,
        by have := h.out; rw [if_neg (by have := h.pos; omega)] at this; simpa using this,
        h.max, h.names, h.order, fun hf => by have := (h.fin.mp hf).1; have := h.pos; omega, rfl, ht, ha, hu⟩
    | data q t =>
      have hc : Core o ({ s with pending := s.pending.erase q, log := s.log ++ [Obs.data q t] } : St).finish :=
        core_result h he rfl
      refine .ok hc ?_ ?_ ?_ <;> (dsimp only; unfold St.finish; dsimp only; split <;> assumption)
    | nack q t r =>
      have hc : Core o ({ s with pending := s.pending.erase q, log := s.log ++ [Obs.nack q t r] } : St).finish :=
        core_result h he rfl
      refine .ok hc ?_ ?_ ?_ <;> (dsimp only; unfold St.finish; dsimp only; split <;> assumption)
    | timeout q =>
      have hc : Core o ({ s with pending := s.pending.erase q, log := s.log ++ [Obs.timeout q] } : St).finish :=
        core_result h he rfl
      refine .ok hc ?_ ?_ ?_ <;> (dsimp only; unfold St.finish; dsimp only; split <;> assumption)
    | stop =>
      exact .ok ⟨h.tm, h.nz, h.cnt, h.pos, h.next, h.seqs, h.perm, h.out, (fun hx => by cases hx), h.lim, h.max, h.names,
        h.order, h.fin, h.last⟩ ht ha hu
  | bad hz e' => subst e'; exact .bad hz (by simp)
  | thr hz e' => subst e'; exact .thr hz (by simp)
  | ovf h1 h2 h3 h4 h5 h6 h7 => rw [if_pos (by simp [h2])]; exact .ovf h1 h2 h3 h4 h5 h6 h7

theorem run_inv {o : Opts} (hs : o.startSeq < 2 ^ 64) {es s} (h : (machine o).Run es s) : Inv o s := by
  induction h with
  | nil => exact inv_start hs
  | snoc e _ he ih => exact inv_step ih he

theorem run_names {o : Opts} (hs : o.startSeq < 2 ^ 64) {es s} (h : (machine o).Run es s) {q : Nat} {i : Interest}
    (hi : Obs.interest q i ∈ s.log) :
    i = { name := makePingName o q, mustBeFresh := !o.shouldAllowStaleData } := by
  cases run_inv hs h with
  | ok h => exact h.names _ _ hi
  | bad _ e => subst e; cases hi
  | thr _ e => subst e; cases hi
  | ovf _ _ _ _ _ _ hn => exact hn _ _ hi

end Ping
end Verif
