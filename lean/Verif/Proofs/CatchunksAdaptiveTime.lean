import Verif.Spec.CatchunksAdaptiveTime
import Verif.Proofs.CatchunksTime
import Verif.Proofs.CatchunksUsable
import Verif.Proofs.AdaptivePace

/-! # `ndncatchunks` with an adaptive pipeline and a clock -/

namespace Verif.CatchunksAdaptiveTime

open Catchunks DataFetcher
open FetchTime (limit dueAt Acct)

variable {σ ε : Type} {p : Params σ ε} {d R maxRto : Nat} {name : Name}

/-! ## The program without the clock -/

theorem pipe_stays (P : Pipe (Adaptive.St σ) (Adaptive.Ev ε)) (l : List Discover.Obs) {s : Catchunks.St (Adaptive.St σ)}
    (h : s.pipe.isSome = true) : (l.foldl (onReport P) s).pipe.isSome = true := by
  rcases (fold_pipe P l s).2 with h1 | ⟨n, h1⟩
  · rw [h1]; exact h
  · rw [h1]; rfl

/-- As long as no pipeline is started it does not matter which one would be. -/
theorem fold_none (P P' : Pipe (Adaptive.St σ) (Adaptive.Ev ε)) (l : List Discover.Obs) {s : Catchunks.St (Adaptive.St σ)}
    (h : (l.foldl (onReport P) s).pipe = none) : l.foldl (onReport P) s = l.foldl (onReport P') s := by
  induction l generalizing s with
  | nil => rfl
  | cons x l ih =>
    rw [List.foldl_cons] at h
    cases x with
    | success n =>
      have := pipe_stays P l (s := onReport P s (.success n)) rfl
      rw [h] at this; cases this
    | interest => exact ih h
    | failure r => exact ih h

/-- A report comes once. -/
theorem disc_same {P : Pipe (Adaptive.St σ) (Adaptive.Ev ε)} {o : Discover.Opts} {Q G} {s : Catchunks.St (Adaptive.St σ)}
    {e : Discover.Ev} (hinv : PInv P o name Q G s) (he : s.disc.enabled name e) (hp : s.pipe.isSome = true)
    (P' : Pipe (Adaptive.St σ) (Adaptive.Ev ε)) : s.step P' (.disc e) = { s with disc := s.disc.step e } := by
  obtain ⟨f, hf, hen⟩ := he.1
  obtain ⟨des, hdr, _⟩ := hinv.disc
  obtain ⟨⟨n, q⟩, hp⟩ := Option.isSome_iff_exists.mp hp
  obtain ⟨hs, _⟩ := hinv.after n q hp
  have hlog : ∃ l, (s.disc.step e).log = s.disc.log ++ l := by
    unfold Discover.St.step
    rw [hf]
    exact ⟨_, rfl⟩
  obtain ⟨l, hl⟩ := hlog
  obtain ⟨a, b, eab⟩ := List.append_of_mem hs
  have hdr' := Machine.Run.snoc (M := Discover.machine o name) e hdr he
  have hlnil := (disc_reports hdr' a (.success n) (b ++ l)
    (by show (s.disc.step e).log = _; rw [hl, eab]; simp) rfl).1
  have hlnil := (List.append_eq_nil_iff.mp hlnil).2
  subst hlnil
  unfold Catchunks.St.step
  dsimp only
  rw [hl]
  simp

/-- The pipeline is started once. -/
theorem begun_keeps {s : St σ} (e : Ev ε) (hp : s.c.pipe.isSome = true) :
    (s.step p e).c.pipe.isSome = true ∧ (s.step p e).begun = s.begun := by
  refine ⟨?_, ?_⟩
  · show (s.c.step (p.pipe e.t) e.ev).pipe.isSome = true
    cases e.ev with
    | disc x => exact pipe_stays _ _ hp
    | pipe x =>
      obtain ⟨⟨n, q⟩, hp⟩ := Option.isSome_iff_exists.mp hp
      simp [Catchunks.St.step, hp]
  · cases hq : s.c.pipe with
    | none => rw [hq] at hp; cases hp
    | some nq => simp [St.step, hq]

/-- The step of the program with the clock is one of the program without, with the pipeline started at the time `t`. -/
theorem step_same {t : Nat} {Q G} {s : St σ} {e : Ev ε} (hinv : PInv (p.pipe t) p.disc name Q G s.c)
    (he : s.c.enabled (p.pipe e.t) name e.ev) (ht : (s.step p e).c.pipe.isSome = true → t = (s.step p e).begun) :
    (s.step p e).c = s.c.step (p.pipe t) e.ev := by
  obtain ⟨ev, u⟩ := e
  cases ev with
  | pipe x => rfl
  | disc x =>
    have hc : (s.step p ⟨.disc x, u⟩).c = s.c.step (p.pipe u) (.disc x) := rfl
    cases hq : s.c.pipe with
    | some nq =>
      have hs : s.c.pipe.isSome = true := by rw [hq]; rfl
      rw [hc, disc_same hinv he.2 hs, disc_same hinv he.2 hs]
    | none =>
      rw [hc]
      cases hn : (s.c.step (p.pipe u) (.disc x)).pipe with
      | none => exact fold_none _ _ _ hn
      | some nq =>
        have : (s.step p ⟨.disc x, u⟩).begun = u := by
          have h1 : (s.c.pipe.isNone && (s.c.step (p.pipe u) (.disc x)).pipe.isSome) = true := by rw [hq, hn]; rfl
          show (if (s.c.pipe.isNone && (s.c.step (p.pipe u) (.disc x)).pipe.isSome) = true then u else s.begun) = u
          rw [if_pos h1]
        rw [ht (by rw [hc, hn]; rfl), this]

theorem start_same {t : Nat} (h : (start (p.pipe 0) p.disc name).pipe.isSome = true → t = 0) :
    start (p.pipe 0) p.disc name = start (p.pipe t) p.disc name := by
  cases hn : (start (p.pipe 0) p.disc name).pipe with
  | none => exact fold_none _ _ _ hn
  | some nq => rw [h (by rw [hn]; rfl)]

theorem proj {late : Option Nat} {es s} (h : (machine p late name).Run es s) :
    ∀ t, (s.c.pipe.isSome = true → t = s.begun) → (Catchunks.machine (p.pipe t) p.disc name).Run (es.map (·.ev)) s.c := by
  induction h with
  | nil =>
    intro t ht
    have := start_same (p := p) (name := name) ht
    rw [show (machine p late name).init.c = start (p.pipe 0) p.disc name from rfl, this]
    exact .nil
  | @snoc es s e hr he ih =>
    intro t ht
    rw [List.map_append]
    have h0 : s.c.pipe.isSome = true → t = s.begun := by
      intro hp
      obtain ⟨h1, h2⟩ := begun_keeps (p := p) e hp
      rw [← h2]; exact ht h1
    have hr := ih t h0
    rw [show ((machine p late name).step s e).c = s.c.step (p.pipe t) e.ev from
      step_same (prog_inv adaptive_proper (run_env hr)) he.1.1 ht]
    exact .snoc (M := Catchunks.machine (p.pipe t) p.disc name) e.ev hr he.1.1

section Usable

variable {digest : Data → Bytes} {prod : Producer.Prod} {conv : Convention} {fresh : Bool}

theorem usable_plain {es s} (h : (usableTimed p d maxRto digest prod conv fresh name).Run es s) : (machine p (some d) name).Run es s := by
  induction h with
  | nil => exact .nil
  | snoc e _ he ih => exact .snoc (M := machine p (some d) name) e ih he.1

theorem usable_proj {es s} (h : (usableTimed p d maxRto digest prod conv fresh name).Run es s) :
    ∀ t, (s.c.pipe.isSome = true → t = s.begun) →
      (usableMachine p.A p.ao p.w (p.env t) p.disc digest prod conv fresh name).Run (es.map (·.ev)) s.c := by
  induction h with
  | nil =>
    intro t ht
    have := start_same (p := p) (name := name) ht
    rw [show (usableTimed p d maxRto digest prod conv fresh name).init.c = start (p.pipe 0) p.disc name from rfl, this]
    exact .nil
  | @snoc es s e hr he ih =>
    intro t ht
    rw [List.map_append]
    have h0 : s.c.pipe.isSome = true → t = s.begun := by
      intro hp
      obtain ⟨h1, h2⟩ := begun_keeps (p := p) e hp
      rw [← h2]; exact ht h1
    have hr := ih t h0
    rw [show ((usableTimed p d maxRto digest prod conv fresh name).step s e).c = s.c.step (p.pipe t) e.ev from
      step_same (usable_pinv hr) he.1.1.1 ht]
    exact .snoc (M := usableMachine p.A p.ao p.w (p.env t) p.disc digest prod conv fresh name) e.ev hr he.2.1

end Usable

/-! ## The discovery -/

theorem disc_step_acct {life : Nat} {f : Fetcher} (hI : DataFetcher.Inv R R f) (hr : f.isRunning = true) {e : DataFetcher.Ev}
    (he : f.enabled e) (hc : e ≠ .cancel) {sent set t : Nat} (hA : Acct life d f sent set 0) (ht : t ≤ dueAt life f sent set + d) :
    let s' := if (f.step e).2.contains .interest then t else sent
    let u' := if f.timer.isNone && (f.step e).1.timer.isSome then t else set
    ((f.step e).1.isRunning = true → Acct life d (f.step e).1 s' u' 0 ∧ t ≤ dueAt life (f.step e).1 s' u' + d) ∧
    ((f.step e).1.isRunning = false → (f.step e).1.pending = 0) := by
  refine ⟨fun hr' => ⟨FetchTime.acct_step hI hr he hA ht hr', ?_⟩, fun hr' => CatchunksTime.no_pending hI hr he hc hr'⟩
  unfold dueAt
  cases htm : (f.step e).1.timer with
  | none =>
    dsimp only
    rw [if_pos (FixedTime.sends_again hI hr he hr' htm)]
    omega
  | some b =>
    dsimp only
    rw [(FixedTime.timer_nack hI hr he hr' (by rw [htm]; rfl)).1]
    simp
    omega

structure CInv (p : Params σ ε) (d R : Nat) (s : St σ) : Prop where
  disc : ∀ f, s.c.disc.fetcher = some f →
    (f.isRunning = true → Acct p.life d f s.sent s.set 0 ∧ s.now ≤ dueAt p.life f s.sent s.set + d) ∧
    (f.isRunning = false → f.pending = 0)
  clock : s.c.pipe = none → s.now ≤ limit p.life d R R
  begun : s.c.pipe.isSome = true → s.begun ≤ limit p.life d R R

/-- Events of the discovery happen only while it runs. -/
theorem disc_running {o : Discover.Opts} {des} {s : Catchunks.St (Adaptive.St σ)} (hdr : (Discover.machine o name).Run des s.disc)
    (hP : ∀ f, s.disc.fetcher = some f → f.isRunning = false → f.pending = 0) {e : Discover.Ev} (he : s.disc.enabled name e) :
    ∃ f, s.disc.fetcher = some f ∧ DataFetcher.Inv o.maxRetries o.maxRetries f ∧ f.isRunning = true ∧ f.enabled e.toFetch := by
  obtain ⟨⟨f, hf, hfe⟩, -⟩ := he
  have hI : DataFetcher.Inv o.maxRetries o.maxRetries f := disc_fetcher_inv hdr hf
  refine ⟨f, hf, hI, ?_, hfe⟩
  by_contra hr
  have hr : f.isRunning = false := by simpa using hr
  have hp := hP f hf hr
  have ht := (hI.idle hr).1
  cases e <;> simp [Discover.Ev.toFetch, Fetcher.enabled, hp, ht] at hfe

theorem pipe_none {P : Pipe (Adaptive.St σ) (Adaptive.Ev ε)} {o : Discover.Opts} {Q G} {s : Catchunks.St (Adaptive.St σ)}
    (hinv : PInv P o name Q G s) {f} (hf : s.disc.fetcher = some f) (hr : f.isRunning = true) : s.pipe = none := by
  obtain ⟨_, hdr, -⟩ := hinv.disc
  cases hp : s.pipe with
  | none => rfl
  | some nq =>
    have := (disc_idle hdr (hinv.after nq.1 nq.2 hp).1 f hf).1
    rw [hr] at this; cases this

theorem run_cinv (hR : p.ao.maxRetries = R) {es s} (h : (machine p (some d) name).Run es s) : CInv p d R s := by
  induction h with
  | nil =>
    refine ⟨?_, fun _ => Nat.zero_le _, fun _ => Nat.zero_le _⟩
    intro f hf
    have h0 : (init p name).c.disc = Discover.start p.disc name := (fold_pipe _ _ _).1
    rw [show (machine p (some d) name).init = init p name from rfl] at hf ⊢
    rw [h0] at hf
    unfold Discover.start at hf
    split at hf
    · cases hf
    · dsimp only at hf
      rw [show p.disc.maxRetries = (R : Int) from hR] at hf
      cases hf
      refine ⟨fun _ => ⟨FetchTime.acct_fetch _ _, Nat.zero_le _⟩, fun hr => by cases hr⟩
  | @snoc es s e hr he ih =>
    have hinv := prog_inv adaptive_proper (run_env (proj hr s.begun (fun _ => rfl)))
    obtain ⟨⟨⟨hne, hen⟩, -⟩, e2, e3, -⟩ := he
    obtain ⟨ev, t⟩ := e
    show CInv p d R (s.step p ⟨ev, t⟩)
    obtain ⟨_, hdr, -⟩ := hinv.disc
    cases ev with
    | disc x =>
      obtain ⟨f, hf, hI, hrun, hfe⟩ := disc_running hdr (fun f hf => (ih.disc f hf).2) hen
      rw [show p.disc.maxRetries = R from hR] at hI
      obtain ⟨hA, -⟩ := (ih.disc f hf).1 hrun
      have hdue : t ≤ dueAt p.life f s.sent s.set + d := (e3 f hf).2.2 d rfl hrun
      have hB : t ≤ limit p.life d R R := by
        have := FetchTime.acct_due hI hrun hA
        omega
      have hpn := pipe_none hinv hf hrun
      have hds : s.c.disc.step x = { fetcher := some (f.step x.toFetch).1, log := s.c.disc.log ++ (f.step x.toFetch).2.map (Discover.react x.meta) } := by
        unfold Discover.St.step
        rw [hf]
      have hcd : (s.c.step (p.pipe t) (.disc x)).disc = s.c.disc.step x := (fold_pipe _ _ _).1
      have hkey := disc_step_acct (life := p.life) hI hrun hfe (by cases x <;> simp [Discover.Ev.toFetch]) hA hdue
      refine ⟨?_, fun _ => hB, fun hs => ?_⟩
      · intro f' hf'
        have h1 : (s.step p ⟨.disc x, t⟩).sent = if (f.step x.toFetch).2.contains .interest then t else s.sent := by
          unfold St.step
          dsimp only
          rw [hcd, hds]
          dsimp only
          rw [List.drop_left, CatchunksTime.contains_react]
        have h2 : (s.step p ⟨.disc x, t⟩).set = if f.timer.isNone && (f.step x.toFetch).1.timer.isSome then t else s.set := by
          unfold St.step
          dsimp only
          rw [hcd, hds]
          simp only [discTimer, hf, Option.bind_some]
        have h3 : (s.step p ⟨.disc x, t⟩).now = t := rfl
        have h4 : (s.step p ⟨.disc x, t⟩).c.disc.fetcher = some (f.step x.toFetch).1 := by
          show (s.c.step (p.pipe t) (.disc x)).disc.fetcher = _
          rw [hcd, hds]
        rw [h4] at hf'
        cases hf'
        rw [h1, h2, h3]
        exact hkey
      · have : (s.c.pipe.isNone && (s.c.step (p.pipe t) (.disc x)).pipe.isSome) = true := by
          rw [hpn, show (s.c.step (p.pipe t) (.disc x)).pipe.isSome = true from hs]; rfl
        show (if (s.c.pipe.isNone && (s.c.step (p.pipe t) (.disc x)).pipe.isSome) = true then t else s.begun) ≤ _
        rw [if_pos this]
        exact hB
    | pipe x =>
      obtain ⟨n, q, hp, -⟩ := hen
      have hcd : (s.c.step (p.pipe t) (.pipe x)).disc = s.c.disc := by
        unfold Catchunks.St.step
        rw [hp]
      have hs : s.c.pipe.isSome = true := by rw [hp]; rfl
      obtain ⟨g1, g2⟩ := begun_keeps (p := p) ⟨.pipe x, t⟩ hs
      refine ⟨?_, fun hn => ?_, fun _ => by rw [g2]; exact ih.begun hs⟩
      · intro f hf
        have hf : s.c.disc.fetcher = some f := by rw [← hcd]; exact hf
        have h1 : (s.step p ⟨.pipe x, t⟩).sent = s.sent := by
          unfold St.step
          dsimp only
          rw [hcd]
          simp
        have h2 : (s.step p ⟨.pipe x, t⟩).set = s.set := by
          unfold St.step
          dsimp only
          rw [hcd]
          cases discTimer s.c.disc <;> rfl
        have h3 : (s.step p ⟨.pipe x, t⟩).now = t := rfl
        rw [h1, h2, h3]
        obtain ⟨a, b⟩ := ih.disc f hf
        exact ⟨fun hr => ⟨(a hr).1, (e3 f hf).2.2 d rfl hr⟩, b⟩
      · rw [hn] at g1; cases g1

/-- While the version is being discovered: something will happen, in time. -/
theorem disc_next (hR : p.ao.maxRetries = R) {es s} (h : (machine p (some d) name).Run es s) (hp : s.c.pipe = none) :
    (s.c.cons.threw = some .failure) ∨
    (s.c.cons = {} ∧ ∃ f, s.c.disc.fetcher = some f ∧ f.isRunning = true ∧ ∃ e, s.enabled p (some d) name e) := by
  have hC := run_cinv hR h
  have hinv := prog_inv adaptive_proper (run_env (proj h s.begun (fun _ => rfl)))
  rcases hinv.before hp with ⟨hc, hall⟩ | ⟨ht, -⟩
  case inr => exact .inl ht
  right
  obtain ⟨des, hdr, -⟩ := hinv.disc
  by_cases hd : p.disable = true ∨ name.endsWithVersion = true
  · exfalso
    rw [Discover.C24_not_needed (o := p.disc) hd hdr] at hall
    have := hall _ (List.mem_singleton.mpr rfl)
    cases this
  have hd1 : p.disc.disable = false := by
    cases hx : p.disable with
    | false => exact hx
    | true => exact absurd (.inl hx) hd
  have hd2 : name.endsWithVersion = false := by
    cases hx : name.endsWithVersion with
    | false => rfl
    | true => exact absurd (.inr hx) hd
  obtain ⟨f, hf, hrun, hpend⟩ := (Discover.C24_result_comes hd1 hd2 hdr).1 hall
  have hdue := ((hC.disc f hf).1 hrun).2
  have hne : ∀ t, ¬ s.c.ended (p.pipe t) := by
    rintro t (hx | ⟨n, q, hq, -⟩)
    · rw [hc] at hx; exact hx rfl
    · rw [hp] at hq; cases hq
  refine ⟨hc, f, hf, hrun, ?_⟩
  have build : ∀ x : Discover.Ev, f.enabled x.toFetch → (∀ m, x ≠ .data m) → (x = .timeout → f.timer = none) →
      s.enabled p (some d) name ⟨.disc x, max s.now (dueAt p.life f s.sent s.set)⟩ := by
    intro x hx hnd hto
    refine ⟨⟨⟨hne _, ⟨f, hf, hx⟩, fun m hm => absurd hm (hnd m)⟩, ?_⟩, Nat.le_max_left _ _, ?_, fun n q hq => by rw [hp] at hq; cases hq⟩
    · intro hi
      obtain ⟨h1, h2⟩ := hi.1 f hf
      have h2 := h2 hrun
      rcases hpend with ⟨h3, -⟩ | ⟨-, b, h3⟩
      · omega
      · rw [h1] at h3; cases h3
    · intro f' hf'
      rw [hf] at hf'; cases hf'
      refine ⟨?_, ?_, ?_⟩
      · intro hy
        simp only [Catchunks.Ev.disc.injEq] at hy
        refine Nat.le_trans (Nat.le_of_eq ?_) (Nat.le_max_right _ _)
        unfold dueAt
        rw [hto hy]
      · intro hy b hb
        refine Nat.le_trans (Nat.le_of_eq ?_) (Nat.le_max_right _ _)
        unfold dueAt
        rw [show f.timer = some b from hb]
      · intro d' hd' _
        cases hd'
        dsimp only
        omega
  rcases hpend with ⟨h1, h2⟩ | ⟨h0, b, h1⟩
  · exact ⟨_, build .timeout (by simp [Discover.Ev.toFetch, Fetcher.enabled, h1]) (by simp) (fun _ => h2)⟩
  · exact ⟨_, build .timer (by simp [Discover.Ev.toFetch, Fetcher.enabled, h1]) (by simp) (by simp)⟩

/-! ## The pipeline in the program -/

section Main

variable {digest : Data → Bytes} {po : Producer.Opts} {pre0 : Name} {now : Nat} {input : Bytes} {conv : Convention} {fresh : Bool}

theorem pipe_run (hR : p.ao.maxRetries = R) (hn : now < 2 ^ 64) (hm : 0 < po.maxSegmentSize) (hi : input.length < 2 ^ 64)
    (hreq : Requests (Producer.construct po pre0 now input) p.disc name) {es s}
    (h : (usableTimed p d maxRto digest (Producer.construct po pre0 now input) conv fresh name).Run es s) :
    (s.c.pipe = none → pipeEvents (es.map (·.ev)) = []) ∧
    ∀ n q, s.c.pipe = some (n, q) → ∃ aes a,
      (AdaptiveTime.servedTimed d maxRto p.A p.ao p.interval p.w (p.env s.begun) (Producer.split po.maxSegmentSize input)).Run aes a ∧
      a.p = q ∧ a.now = s.now ∧ a.due = s.due ∧ aes.map (·.ev) = pipeEvents (es.map (·.ev)) := by
  refine ⟨fun hp => (usable_pipe (usable_proj h s.begun (fun _ => rfl))).1 hp, ?_⟩
  induction h with
  | nil =>
    intro n q hq
    rcases (fold_pipe (p.pipe 0) (Discover.start p.disc name).log
      { disc := Discover.start p.disc name, pipe := none, cons := {} }).2 with h1 | ⟨n', h1⟩
    · rw [show (usableTimed p d maxRto digest (Producer.construct po pre0 now input) conv fresh name).init.c.pipe = none from h1] at hq
      cases hq
    · rw [show (usableTimed p d maxRto digest (Producer.construct po pre0 now input) conv fresh name).init.c.pipe = some (n', _) from h1] at hq
      simp only [Option.some.injEq, Prod.mk.injEq] at hq
      obtain ⟨rfl, rfl⟩ := hq
      exact ⟨[], _, .nil, rfl, rfl, Nat.zero_add _, rfl⟩
  | @snoc es s e hr he ih =>
    have hC := run_cinv hR (usable_plain hr)
    have hpr := usable_proj hr s.begun (fun _ => rfl)
    have hinv := usable_pinv hpr
    obtain ⟨⟨⟨⟨hne, hen⟩, -⟩, e2, e3, e4⟩, hus, hrto⟩ := he
    obtain ⟨_, hdr, -⟩ := hinv.disc
    obtain ⟨ev, t⟩ := e
    intro n q hq
    rw [List.map_append]
    have hq : (s.step p ⟨ev, t⟩).c.pipe = some (n, q) := hq
    cases ev with
    | disc x =>
      rw [show [(⟨.disc x, t⟩ : Ev ε)].map (·.ev) = [.disc x] from rfl, pipeEvents_snoc_disc]
      obtain ⟨f, hf, hI, hrun, hfe⟩ := disc_running hdr (fun f hf => (hC.disc f hf).2) hen
      have hpn := pipe_none hinv hf hrun
      have hpe : pipeEvents (es.map (·.ev)) = [] := (usable_pipe hpr).1 hpn
      have hstarts : (s.c.pipe.isNone && (s.c.step (p.pipe t) (.disc x)).pipe.isSome) = true := by
        rw [hpn, show (s.c.step (p.pipe t) (.disc x)).pipe = some (n, q) from hq]; rfl
      have hb : ((usableTimed p d maxRto digest (Producer.construct po pre0 now input) conv fresh name).step s ⟨.disc x, t⟩).begun = t := by
        show (if (s.c.pipe.isNone && (s.c.step (p.pipe t) (.disc x)).pipe.isSome) = true then t else s.begun) = t
        rw [if_pos hstarts]
      have hdue : ((usableTimed p d maxRto digest (Producer.construct po pre0 now input) conv fresh name).step s ⟨.disc x, t⟩).due = t + p.interval := by
        show (if ((s.c.pipe.isNone && (s.c.step (p.pipe t) (.disc x)).pipe.isSome) || false) = true then t + p.interval else s.due) = _
        rw [Bool.or_false, if_pos hstarts]
      rw [hb, hdue, hpe]
      rcases (fold_pipe (p.pipe t) ((s.c.disc.step x).log.drop s.c.disc.log.length) { s.c with disc := s.c.disc.step x }).2 with h1 | ⟨n', h1⟩
      · rw [show (s.step p ⟨.disc x, t⟩).c.pipe = s.c.pipe from h1, hpn] at hq
        cases hq
      · rw [show (s.step p ⟨.disc x, t⟩).c.pipe = some (n', _) from h1] at hq
        simp only [Option.some.injEq, Prod.mk.injEq] at hq
        obtain ⟨rfl, rfl⟩ := hq
        exact ⟨[], _, .nil, rfl, rfl, rfl, rfl⟩
    | pipe x =>
      rw [show [(⟨.pipe x, t⟩ : Ev ε)].map (·.ev) = [.pipe x] from rfl, pipeEvents_snoc_pipe]
      obtain ⟨n', q', hp, hq1, hq2⟩ := hen
      have hs : s.c.pipe.isSome = true := by rw [hp]; rfl
      obtain ⟨aes, a, g1, g2, g3, g4, g5⟩ := ih n' q' hp
      obtain ⟨-, hb⟩ := begun_keeps (p := p) ⟨.pipe x, t⟩ hs
      rw [show ((usableTimed p d maxRto digest (Producer.construct po pre0 now input) conv fresh name).step s ⟨.pipe x, t⟩).begun = s.begun from hb]
      have hserved : (Adaptive.servedMachine p.A p.ao p.w (p.env s.begun) (Producer.split po.maxSegmentSize input)).enabled q' x :=
        served_enabled hn hm hi hreq hpr hus hp
      obtain ⟨e5, e6⟩ := e4 n' q' hp
      obtain ⟨e7, e8⟩ := e5 x rfl
      have hen : (AdaptiveTime.servedTimed d maxRto p.A p.ao p.interval p.w (p.env s.begun) (Producer.split po.maxSegmentSize input)).enabled a
          ⟨x, t, 0, 0⟩ := by
        refine ⟨⟨?_, ?_, e7, ?_, ?_⟩, ?_, hrto⟩
        · rw [g2]; exact hq1
        · rw [g3]; exact e2
        · intro hx; rw [g4]; exact e8 hx
        · intro d' hd' ht
          rw [g4]
          rw [g2] at ht
          exact (e6 d' hd').1 ht
        · rw [g2]; exact hserved
      refine ⟨aes ++ [⟨x, t, 0, 0⟩], _, .snoc _ g1 hen, ?_, rfl, ?_, ?_⟩
      · have : (s.step p ⟨.pipe x, t⟩).c.pipe = some (n', q'.step p.A p.ao x) := by
          show (s.c.step (p.pipe t) (.pipe x)).pipe = _
          unfold Catchunks.St.step
          rw [hp]
          rfl
        rw [this] at hq
        simp only [Option.some.injEq, Prod.mk.injEq] at hq
        obtain ⟨rfl, rfl⟩ := hq
        show a.p.step p.A p.ao x = _
        rw [g2]
      · show (if AdaptiveTime.isCheck x = true then t + p.interval else a.due) =
          (if ((s.c.pipe.isNone && (s.c.step (p.pipe t) (.pipe x)).pipe.isSome) || AdaptiveTime.isCheck x) = true then t + p.interval else s.due)
        rw [hp, g4]
        rfl
      · rw [List.map_append, g5]
        rfl

theorem from_nil {σ' ε' : Type} {M : Machine σ' ε'} {s : σ'} {es s'} (h : M.RunFrom s es s') (he : es = []) : s' = s := by
  cases h with
  | nil => rfl
  | snoc => simp at he

theorem first_enabled {σ' ε' : Type} {M : Machine σ' ε'} {s : σ'} {es s'} (h : M.RunFrom s es s') :
    ∀ e es', es = e :: es' → M.enabled s e := by
  induction h with
  | nil => intro e es' h; cases h
  | @snoc es s' e hr he ih =>
    intro e' es' h
    cases es with
    | nil =>
      simp only [List.nil_append, List.cons.injEq] at h
      rw [← h.1, ← from_nil hr rfl]; exact he
    | cons a es =>
      simp only [List.cons_append, List.cons.injEq] at h
      rw [← h.1]
      exact ih a es rfl

/-- In the discovery, with a usable network: something will happen, in time. -/
theorem usable_disc_next (hR : p.ao.maxRetries = R) (hn : now < 2 ^ 64) (hm : 0 < po.maxSegmentSize) (hi : input.length < 2 ^ 64)
    (hreq : Requests (Producer.construct po pre0 now input) p.disc name) {es s}
    (h : (usableTimed p d maxRto digest (Producer.construct po pre0 now input) conv fresh name).Run es s) (hp : s.c.pipe = none) :
    ∃ e, (usableTimed p d maxRto digest (Producer.construct po pre0 now input) conv fresh name).enabled s e := by
  have hpe := (pipe_run hR hn hm hi hreq h).1 hp
  have hpr := fun t => usable_proj h t (by rw [hp]; intro hx; cases hx)
  have hf : ∀ t, Adaptive.FewLosses p.A p.ao p.w (p.env t) (Producer.split po.maxSegmentSize input) (pipeEvents (es.map (·.ev))) := by
    intro t
    rw [hpe]
    refine .inr fun k _ => ?_
    show ((0 : Nat) : Int) ≤ _
    omega
  have hC := run_cinv hR (usable_plain h)
  obtain ⟨des, s', n, q, r, hp', hdes⟩ := usable_found hn hm hi hreq (hpr s.begun) (hf s.begun)
  cases des with
  | nil =>
    exfalso
    rw [from_nil r rfl, hp] at hp'; cases hp'
  | cons x des =>
    have he : ∀ t, (usableMachine p.A p.ao p.w (p.env t) p.disc digest (Producer.construct po pre0 now input) conv fresh name).enabled s.c (.disc x) := by
      have := first_enabled r (.disc x) (des.map .disc) rfl
      intro t
      exact ⟨⟨⟨this.1.1.1, this.1.1.2⟩, this.1.2⟩, this.2⟩
    obtain ⟨_, hdr, -⟩ := (usable_pinv (hpr s.begun)).disc
    obtain ⟨f, hfe, hI, hrun, hen⟩ := disc_running hdr (fun f hf => (hC.disc f hf).2) (he 0).1.1.2
    have hdue := ((hC.disc f hfe).1 hrun).2
    have build : ∀ t, s.now ≤ t → t ≤ dueAt p.life f s.sent s.set + d → (x = .timer → ∀ b ∈ f.timer, s.set + PingTime.ns b ≤ t) → x ≠ .timeout →
        (usableTimed p d maxRto digest (Producer.construct po pre0 now input) conv fresh name).enabled s ⟨.disc x, t⟩ := by
      intro t h1 h2 h3 h4
      refine ⟨⟨⟨(he t).1.1, ?_⟩, h1, ?_, fun n q hq => by rw [hp] at hq; cases hq⟩, he t, trivial⟩
      · intro hi
        obtain ⟨g1, g2⟩ := hi.1 f hfe
        have g2 := g2 hrun
        rcases hI.one hrun with hx | hx
        · omega
        · rw [g1] at hx; exact absurd hx.2 (by simp)
      · intro f' hf'
        rw [hfe] at hf'; cases hf'
        refine ⟨?_, ?_, ?_⟩
        · intro hy
          simp only [Catchunks.Ev.disc.injEq] at hy
          exact absurd hy h4
        · intro hy
          simp only [Catchunks.Ev.disc.injEq] at hy
          exact h3 hy
        · intro d' hd' _
          cases hd'
          exact h2
    rcases hdes x (by simp) with ⟨m, rfl⟩ | rfl
    · exact ⟨_, build s.now (Nat.le_refl _) hdue (by simp) (by simp)⟩
    · refine ⟨_, build (max s.now (dueAt p.life f s.sent s.set)) (Nat.le_max_left _ _) (by omega) ?_ (by simp)⟩
      intro _ b hb
      refine Nat.le_trans (Nat.le_of_eq ?_) (Nat.le_max_right _ _)
      unfold dueAt
      rw [show f.timer = some b from hb]

/-- An execution of the pipeline is one of the program, which need not discover the version. -/
theorem lift (hn : now < 2 ^ 64) (hm : 0 < po.maxSegmentSize) (hi : input.length < 2 ^ 64) (hconv : conv = po.conv)
    (hfresh : fresh = true → 0 < po.freshness) {aes a}
    (h : (AdaptiveTime.servedTimed d maxRto p.A p.ao p.interval p.w (p.env 0) (Producer.split po.maxSegmentSize input)).Run aes a)
    (hf : Adaptive.FewLosses p.A p.ao p.w (p.env 0) (Producer.split po.maxSegmentSize input) (aes.map (·.ev)))
    (hdata : ∀ k x c v, Adaptive.Ev.data k x c v ∈ aes.map (·.ev) → k < (Producer.split po.maxSegmentSize input).length ∧
      x = Adaptive.answer (Producer.split po.maxSegmentSize input) k) :
    ∃ s, (usableTimed p d maxRto digest (Producer.construct po pre0 now input) conv fresh
        (Producer.construct po pre0 now input).versionedPrefix).Run (aes.map fun e => ⟨.pipe e.ev, e.t⟩) s ∧
      s.c.pipe = some ((Producer.construct po pre0 now input).versionedPrefix, a.p) ∧ s.now = a.now ∧ s.due = a.due ∧ s.begun = 0 := by
  have hreq : Requests (Producer.construct po pre0 now input) p.disc (Producer.construct po pre0 now input).versionedPrefix := .inl rfl
  induction h with
  | nil =>
    refine ⟨_, .nil, ?_, rfl, (Nat.zero_add _).symm, rfl⟩
    show (start (p.pipe 0) p.disc (Producer.construct po pre0 now input).versionedPrefix).pipe = _
    have : Discover.start p.disc (Producer.construct po pre0 now input).versionedPrefix =
        { fetcher := none, log := [.success (Producer.construct po pre0 now input).versionedPrefix] } := by
      unfold Discover.start
      rw [vp_version hn, Bool.or_true, if_pos rfl]
    unfold start
    rw [this]
    rfl
  | @snoc aes a e hr he ih =>
    rw [List.map_append] at hf hdata
    have hf' := few_prefix hf
    obtain ⟨s, r, hp, g1, g2, g3⟩ := ih hf' (fun k x c v hx => hdata k x c v (List.mem_append_left _ hx))
    have hpr := usable_proj r 0 (fun _ => g3.symm)
    have hpe : pipeEvents ((aes.map fun e => (⟨.pipe e.ev, e.t⟩ : Ev ε)).map (·.ev)) = aes.map (·.ev) := by
      rw [List.map_map]
      simp [pipeEvents, List.filterMap_map, Function.comp_def]
    obtain ⟨s', r', -⟩ := usable_lift hn hm hi hreq hconv hfresh hpr hp (qes := [e.ev]) (q' := a.p.step p.A p.ao e.ev)
      (by rw [hpe]; exact hf)
      (Machine.RunFrom.snoc (M := Adaptive.servedMachine p.A p.ao p.w (p.env 0) (Producer.split po.maxSegmentSize input)) (es := []) e.ev .nil he.2.1)
      (by
        intro k x c v hx
        exact hdata k x c v (List.mem_append_right _ (by simpa using hx)))
    have hen := first_enabled r' (.pipe e.ev) [] rfl
    have hidle : ¬ s.c.idle (p.pipe e.t) := by
      intro hx
      obtain ⟨i1, i2, i3⟩ := hx.2 _ _ hp
      have wait : ∀ k, ¬ Adaptive.waitsFor a.p k := by
        rintro k ⟨x, hx, hxp⟩
        unfold Adaptive.get at hx
        obtain ⟨y, hy, rfl⟩ : ∃ y ∈ a.p.info, y.2 = x := by
          rw [Option.map_eq_some_iff] at hx
          obtain ⟨y, hy, rfl⟩ := hx
          exact ⟨y, List.mem_of_find?_eq_some hy, rfl⟩
        rw [i3 y hy] at hxp; cases hxp
      have h1 := he.2.1.1.1
      have h2 := he.2.1.1.2.2.2.1
      have h3 := he.2.1.1.2.2.2.2
      generalize e.ev = ev at h1 h2 h3
      cases ev with
      | data k x c v => exact wait k h2
      | nack k r v => exact wait k h2
      | expire k v => exact wait k h2
      | check o v => rw [h1.1] at i2; cases i2
      | cancel => exact h3
      | posted => exact h1 i1
    have hposted : a.p.posted = [] := (Adaptive.served_harm (split_ne hm) (AdaptiveTime.served_plain hr).2 hf').quiet.1
    have hfin : (usableTimed p d maxRto digest (Producer.construct po pre0 now input) conv fresh
        (Producer.construct po pre0 now input).versionedPrefix).enabled s ⟨.pipe e.ev, e.t⟩ := by
      refine ⟨⟨⟨hen.1.1, hidle⟩, ?_, ?_, ?_⟩, hen, he.2.2⟩
      · rw [g1]; exact he.1.2.1
      · intro f hfe
        refine ⟨by simp, by simp, ?_⟩
        intro d' _ hrun
        have := pipe_none (usable_pinv hpr) hfe hrun
        rw [hp] at this; cases this
      · intro n q hq
        rw [hp] at hq
        simp only [Option.some.injEq, Prod.mk.injEq] at hq
        obtain ⟨rfl, rfl⟩ := hq
        refine ⟨?_, ?_⟩
        · intro x hx
          simp only [Catchunks.Ev.pipe.injEq] at hx
          subst hx
          exact ⟨he.1.2.2.1, fun hc => by rw [g2]; exact he.1.2.2.2.1 hc⟩
        · intro d' hd'
          exact ⟨fun ht => by rw [g2]; exact he.1.2.2.2.2 d' hd' ht, fun hx => absurd hposted hx⟩
    have hs : s.c.pipe.isSome = true := by rw [hp]; rfl
    refine ⟨_, by rw [List.map_append]; exact .snoc _ r hfin, ?_, rfl, ?_, ?_⟩
    · show (s.c.step (p.pipe e.t) (.pipe e.ev)).pipe = _
      unfold Catchunks.St.step
      rw [hp]
      rfl
    · show (if ((s.c.pipe.isNone && (s.c.step (p.pipe e.t) (.pipe e.ev)).pipe.isSome) || AdaptiveTime.isCheck e.ev) = true then e.t + p.interval else s.due) =
        (if AdaptiveTime.isCheck e.ev = true then e.t + p.interval else a.due)
      rw [hp, g2]
      rfl
    · exact (begun_keeps (p := p) ⟨.pipe e.ev, e.t⟩ hs).2.trans g3

end Main

end Verif.CatchunksAdaptiveTime
