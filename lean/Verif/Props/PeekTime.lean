import Verif.Proofs.PeekTime
import Verif.Model.Cli

/-! # C93: how long ndnpeek and ndnpoke run -/

namespace Verif.PeekTime

open PingTime (ns overflows)

/-- **C93 (ndnpeek, at the latest)** If no timer is more than `d` late, the first thing that happens after the Interest was sent comes
not later than `d` after the deadline (the lifetime or the time limit, whichever is shorter), and the program has ended then.
As long as it has not ended, something can happen that ends it. Only an answer that is processed while the program is already
ending, that is, less than `d` after the time limit, comes later. Missing from the full claim: durations of 2^63 ns or more. -/
theorem C93_peek_ends_partial {digest : Bytes → Bytes} {o : Peek.Opts} {d : Nat} (hr : InRange o) {es s}
    (h : (machine (some d) digest o).Run es s) :
    s.ub = false ∧ ((∃ n, s.prog.Exits n) ↔ es ≠ []) ∧
    (es = [] → (∃ e, s.enabled (some d) o e) ∧ ∀ e, s.enabled (some d) o e → e.t ≤ deadline o + d) ∧
    (∀ e ∈ es, e.t ≤ deadline o + 2 * d) ∧ ∀ e ∈ es, e.kind = .timer → e.t ≤ deadline o + d := by
  have hi := inv hr h
  refine ⟨hi.ub, ?_, ?_, ?_, ?_⟩
  · rw [(Peek.C33_exit hi.run).1]; simp
  · rintro rfl
    constructor
    · have hs : s = start digest o := by
        cases hi.phase with
        | idle _ h => exact h
        | gaveUp t h => cases h
        | done h => exact absurd rfl h
      rw [hs]
      have hd : deadline o ≤ ns o.interestLifetime := deadline_life o
      by_cases hz : ∃ w, o.timeout = some w ∧ w < o.interestLifetime
      · obtain ⟨w, hw, hlt⟩ := hz
        have hwl : ns w ≤ ns o.interestLifetime := Nat.mul_le_mul_right _ hlt.le
        refine ⟨⟨.timer, ns w⟩, ?_, Nat.zero_le _, (by intro hk; cases hk), ?_, ?_⟩
        · show o.timeout.isSome = true
          rw [hw]; rfl
        · intro _ v hv
          have hvw : v = w := by rw [hw] at hv; cases hv; rfl
          rw [hvw]
        · intro d' _
          refine ⟨fun _ v hv => ?_, fun _ => ?_⟩
          · have hvw : v = w := by rw [hw] at hv; cases hv; rfl
            rw [hvw]; exact Nat.le_add_right _ _
          · rw [if_pos (show (start digest o).prog.handle = true from rfl)]
            show ns w ≤ _
            omega
      · refine ⟨⟨.expire, ns o.interestLifetime⟩, rfl, Nat.zero_le _, fun _ => Nat.le_refl _, (by intro hk; cases hk), ?_⟩
        intro d' _
        refine ⟨fun _ v hv => ?_, fun _ => ?_⟩
        · have : ¬ v < o.interestLifetime := fun hlt => hz ⟨v, hv, hlt⟩
          have : ns o.interestLifetime ≤ ns v := Nat.mul_le_mul_right _ (by omega)
          show ns o.interestLifetime ≤ _
          omega
        · rw [if_pos (show (start digest o).prog.handle = true from rfl)]
          exact Nat.le_add_right _ _
    · intro e he
      have hi' := inv hr (Machine.Run.snoc e h he)
      exact hi'.first d rfl e rfl
  · intro e he
    have := hi.past e he
    have := hi.all d rfl
    omega
  · intro e he hk
    cases hi.phase with
    | idle hz => rw [hz] at he; cases he
    | gaveUp t hz =>
      rw [hz] at he
      have hf := hi.first d rfl ⟨.timer, t⟩ (by rw [hz]; rfl)
      rw [List.mem_singleton.mp he]
      exact hf
    | done hne =>
      -- the time limit can only be the first event
      have first : ∀ es s, (machine (some d) digest o).Run es s → ∀ e ∈ es, e.kind = .timer → es.head? = some e := by
        intro es s h
        induction h with
        | nil => intro e he; cases he
        | snoc x h hx ih =>
          rename_i es s
          intro e he hk
          have hi := inv hr h
          rcases List.mem_append.mp he with he | he
          · obtain ⟨y, l, hyl⟩ := List.exists_cons_of_ne_nil (List.ne_nil_of_mem he)
            have := ih e he hk
            rw [hyl] at this ⊢
            exact this
          · rw [List.mem_singleton.mp he] at hk ⊢
            have hz : es = [] := by
              have h1 : s.prog.enabled x.kind := hx.1
              rw [hk] at h1
              have ht : s.prog.timer = true := h1
              cases hi.phase with
              | idle hz => exact hz
              | gaveUp t _ _ _ _ hy => rw [hy] at ht; cases ht
              | done _ _ hy => rw [hy] at ht; cases ht
            rw [hz]; rfl
      exact hi.first d rfl e (first es s h e he hk)

/-- **C93 (ndnpeek, not before)** However late timers are: the program reports a timeout (exit status 3) only when the deadline has
passed, and a Data or Nack that arrived before is never reported as a timeout. Missing from the full claim: durations of 2^63
ns or more. -/
theorem C93_peek_patient_partial {late : Option Nat} {digest : Bytes → Bytes} {o : Peek.Opts} (hr : InRange o) {es s}
    (h : (machine late digest o).Run es s) :
    (s.prog.Exits 3 → deadline o ≤ s.now) ∧
    (∀ e ∈ es, e.t < deadline o → ∀ n, s.prog.Exits n →
      ((∃ d, e.kind = .data d) ∧ n = 0) ∨ ((∃ r, e.kind = .nack r) ∧ n = 4)) := by
  have hi := inv hr h
  obtain ⟨hx, hst⟩ := Peek.C33_exit hi.run
  refine ⟨?_, ?_⟩
  · intro h3
    have hne : es ≠ [] := by simpa using hx.mp ⟨3, h3⟩
    obtain ⟨g1, g2, _⟩ := hst 3 h3
    obtain ⟨e, l, hel⟩ := List.exists_cons_of_ne_nil hne
    have hmem : e ∈ es := by rw [hel]; simp
    have hk : e.kind = .expire ∨ e.kind = .timer := by
      cases hk : e.kind with
      | expire => exact Or.inl rfl
      | timer => exact Or.inr rfl
      | data d => exact absurd (g1.mpr ⟨d, List.mem_map.mpr ⟨e, hmem, hk⟩⟩) (by decide)
      | nack r => exact absurd (g2.mpr ⟨r, List.mem_map.mpr ⟨e, hmem, hk⟩⟩) (by decide)
    exact Nat.le_trans (hi.early e hmem hk) (hi.past e hmem)
  · intro e he hlt n hn
    obtain ⟨g1, g2, _⟩ := hst n hn
    cases hk : e.kind with
    | expire => have := hi.early e he (Or.inl hk); omega
    | timer => have := hi.early e he (Or.inr hk); omega
    | data d => exact Or.inl ⟨⟨d, rfl⟩, g1.mpr ⟨d, List.mem_map.mpr ⟨e, he, hk⟩⟩⟩
    | nack r => exact Or.inr ⟨⟨r, rfl⟩, g2.mpr ⟨r, List.mem_map.mpr ⟨e, he, hk⟩⟩⟩

/-- **C93 (ndnpeek, round-trip time)** The round-trip time that `--verbose` prints is there exactly if a Data or Nack was received; it is
the time that has passed since the Interest was sent, rounded down to milliseconds. -/
theorem C93_peek_rtt_partial {late : Option Nat} {digest : Bytes → Bytes} {o : Peek.Opts} (hr : InRange o) {es s}
    (h : (machine late digest o).Run es s) :
    (s.rtt = none ↔ ∀ e ∈ es, e.kind = .expire ∨ e.kind = .timer) ∧
    ∀ m, s.rtt = some m → ∃ e ∈ es, ((∃ d, e.kind = .data d) ∨ ∃ r, e.kind = .nack r) ∧
      m * 1000000 ≤ e.t ∧ e.t < (m + 1) * 1000000 := by
  have hi := inv hr h
  constructor
  · constructor
    · intro hn e he
      cases hk : e.kind with
      | expire => exact Or.inl rfl
      | timer => exact Or.inr rfl
      | data d =>
        have := (hi.rtt (e.t / 1000000)).mpr ⟨e, he, Or.inl ⟨d, hk⟩, rfl⟩
        rw [hn] at this; cases this
      | nack r =>
        have := (hi.rtt (e.t / 1000000)).mpr ⟨e, he, Or.inr ⟨r, hk⟩, rfl⟩
        rw [hn] at this; cases this
    · intro hall
      cases hx : s.rtt with
      | none => rfl
      | some m =>
        obtain ⟨e, he, hk, _⟩ := (hi.rtt m).mp hx
        rcases hall e he with h | h <;> rw [h] at hk <;> rcases hk with ⟨_, hk⟩ | ⟨_, hk⟩ <;> cases hk
  · intro m hm
    obtain ⟨e, he, hk, hmt⟩ := (hi.rtt m).mp hm
    refine ⟨e, he, hk, ?_, ?_⟩ <;> omega

/-- **C93 (ndnpeek, the full statement is false)** A lifetime or a time limit of 9223372036855 ms or more, which the command line accepts,
is undefined behaviour at the start. -/
theorem C93_peek_refuted {late : Option Nat} {digest : Bytes → Bytes} {o : Peek.Opts}
    (hb : 9223372036855 ≤ o.interestLifetime ∨ ∃ w ∈ o.timeout, 9223372036855 ≤ w) :
    (machine late digest o).init.ub = true := by
  show (overflows o.interestLifetime || o.timeout.any overflows) = true
  rcases hb with hb | ⟨w, hw, hb⟩
  · rw [overflows_of hb]; rfl
  · rw [hw, Option.any_some, overflows_of hb, Bool.or_true]

/-- **C93 (ndnpeek, command line)** The durations are those of the command line, which lets every one pass that is not negative. -/
theorem C93_peek_command_line {lib : Cli.Lib} {a : Cli.PeekArgs} {o : Peek.Opts} (h : Cli.peek lib (some a) = .run o) :
    (o.interestLifetime : Int) = a.lifetime ∧ o.timeout.map Int.ofNat = a.timeout ∧
    (a.lifetime < 9223372036855 → (∀ w ∈ a.timeout, w < 9223372036855) → InRange o) := by
  have key : (o.interestLifetime : Int) = a.lifetime ∧ o.timeout.map Int.ofNat = a.timeout := by
    unfold Cli.peek at h
    dsimp only at h
    split at h; · cases h
    split at h; · cases h
    split at h; · cases h
    split at h; · cases h
    rename_i ht
    split at h; · cases h
    split at h; · cases h
    split at h; · cases h
    cases h
    refine ⟨by dsimp only; omega, ?_⟩
    dsimp only
    cases hx : a.timeout with
    | none => rfl
    | some w =>
      rw [hx] at ht
      simp at ht
      simp; omega
  refine ⟨key.1, key.2, fun h1 h2 => ⟨by omega, ?_⟩⟩
  intro w hw
  have : (w : Int) < 9223372036855 := by
    apply h2
    rw [← key.2, hw]; rfl
  omega

private def sample : Peek.Opts := { name := [⟨8, [65]⟩], timeout := some 1000 }

example : InRange sample ∧ deadline sample = 1000000000 := by
  refine ⟨⟨by decide, ?_⟩, by decide⟩
  intro w hw
  cases hw
  decide

/-- The time limit of one second expires 3 µs late. -/
example : ∃ s, (machine (some 5000) id sample).Run [⟨.timer, 1000003000⟩] s ∧ s.prog.Exits 3 ∧ s.now = 1000003000 :=
  let M := machine (some 5000) id sample
  ⟨_, Machine.exec_run (M := M) (s := (M.exec M.init [⟨.timer, 1000003000⟩]).get (by decide)) (Option.some_get _).symm,
    by decide, by decide⟩

/-- A Data after 12.3 ms. -/
example : ∃ s, (machine (some 5000) id sample).Run [⟨.data { name := [⟨8, [65]⟩], content := [] }, 12300000⟩] s ∧
    s.prog.Exits 0 ∧ s.rtt = some 12 :=
  let M := machine (some 5000) id sample
  ⟨_, Machine.exec_run (M := M) (s := (M.exec M.init [⟨.data { name := [⟨8, [65]⟩], content := [] }, 12300000⟩]).get (by decide))
    (Option.some_get _).symm, by decide, by decide⟩

/-- Such a command line. -/
example (lib : Cli.Lib) : ∃ o, Cli.peek lib (some { name := some [⟨8, [65]⟩], timeout := some 9223372036855 }) = .run o ∧
    o.timeout = some 9223372036855 := ⟨_, rfl, rfl⟩

end Verif.PeekTime

namespace Verif.PokeTime

open PingTime (ns overflows)

/-- **C93 (ndnpoke, at the latest)** With a time limit `w` that is less than 2^63 ns, if no timer is more than `delay` late and the
registration of the prefix has a result by the time `registration`: nothing happens after `registration + w`, plus twice the
delay, and as long as the program has not ended, something is due that brings it nearer to its end. Missing from the full
claim: the end after `w`, not after `registration + w`; see `C93_poke_refuted`. -/
theorem C93_poke_ends_partial {l : Late} {digest : Data → Bytes} {o : Poke.Opts} {input : Bytes} {w : Nat} (hn : o.name ≠ [])
    (hu : o.wantUnsolicited = false) (hw : o.timeout = some w) (hr : w * 1000000 < 2 ^ 63) {es s}
    (h : (machine (some l) digest o input).Run es s) :
    s.ub = false ∧ s.now ≤ l.registration + w * 1000000 + 2 * l.delay ∧
    ((∃ n, s.prog.Exits n) ∨
      (es = [] ∧ (∃ e, s.enabled (some l) o e) ∧
        ∀ e, s.enabled (some l) o e → (e.kind = .regSuccess ∨ e.kind = .regFailure) ∧ e.t ≤ l.registration) ∨
      (∃ t0, es.head? = some ⟨.regSuccess, t0⟩ ∧ s.enabled (some l) o ⟨.timer, max s.now (t0 + w * 1000000)⟩ ∧
        (∀ e, s.enabled (some l) o e → e.t ≤ t0 + w * 1000000 + l.delay) ∧
        ∀ t, s.enabled (some l) o ⟨.timer, t⟩ → (s.step digest o input ⟨.timer, t⟩).prog.Exits 3)) := by
  obtain ⟨d, hd⟩ := created (input := input) hn
  have hr' : ∀ v ∈ o.timeout, v * 1000000 < 2 ^ 63 := by
    intro v hv; rw [hw] at hv; cases hv; exact hr
  have e6 : ns w = w * 1000000 := by unfold ns; norm_num
  have hi := inv hd hu hr' h
  have hthrew : s.prog.threw = false := by
    have : ∀ es s, (Poke.machine digest o input).Run es s → s.threw = false := by
      intro es s h
      induction h with
      | nil =>
        show (Poke.start o input).threw = false
        unfold Poke.start; rw [hd]; dsimp only; rw [hu]; rfl
      | snoc e h he ih =>
        rename_i es s
        show (Poke.St.step digest o input s e).threw = false
        cases e with
        | interest i =>
          unfold Poke.St.step; rw [hd]; dsimp only
          split <;> exact ih
        | _ => exact ih
    exact this _ _ hi.run
  refine ⟨hi.ub, ?_, ?_⟩
  · cases hi.phase with
    | idle _ _ _ _ _ h0 => omega
    | failed t _ _ _ _ _ h0 hl =>
      have := hl l rfl
      omega
    | up t0 rest hes hreg hact hat hl htim hcan hcat hlc hln hge htms hnr =>
      have := hl l rfl
      cases hc : s.prog.cancelled with
      | true =>
        have g := hlc l rfl hc
        have := g.1 w hw
        omega
      | false =>
        have := hln l rfl hc w hw
        omega
  · cases hi.phase with
    | idle hz hreg hact htim hcan h0 =>
      right; left
      refine ⟨hz, ⟨⟨.regFailure, 0⟩, hreg, by omega, (by intro hk; cases hk), ?_⟩, ?_⟩
      · intro l' _
        refine ⟨fun _ => Nat.zero_le _, fun hx => ?_, fun hx => ?_⟩
        · rw [htim] at hx; cases hx
        · rw [hcan] at hx; cases hx
      · intro e he
        obtain ⟨h1, _, _, h4⟩ := he
        refine ⟨?_, (h4 l rfl).1 hreg⟩
        cases hk : e.kind with
        | regSuccess => exact Or.inl rfl
        | regFailure => exact Or.inr rfl
        | interest i => rw [hk] at h1; rw [show s.prog.active = true from h1.1] at hact; cases hact
        | timer => rw [hk] at h1; rw [show s.prog.timer = true from h1] at htim; cases htim
    | failed t hz hreg hact htim hcan h0 hl =>
      left
      refine ⟨s.prog.result.code, ?_⟩
      unfold Poke.St.Exits
      rw [if_neg (by rw [hthrew]; decide)]
      exact ⟨hreg, htim, (fun hx => by rw [hact] at hx; cases hx), rfl⟩
    | up t0 rest hes hreg hact hat hl htim hcan hcat hlc hln hge htms hnr =>
      cases hc : s.prog.cancelled with
      | true =>
        left
        refine ⟨s.prog.result.code, ?_⟩
        unfold Poke.St.Exits
        rw [if_neg (by rw [hthrew]; decide)]
        refine ⟨hreg, ?_, fun _ => hc, rfl⟩
        cases hx : s.prog.timer with
        | false => rfl
        | true => have := (htim.mp hx).2; rw [hc] at this; cases this
      | false =>
        right; right
        have ht : s.prog.timer = true := htim.mpr ⟨by rw [hw]; rfl, hc⟩
        have hb := hln l rfl hc w hw
        refine ⟨t0, by rw [hes]; rfl, ⟨ht, Nat.le_max_left _ _, ?_, ?_⟩, ?_, ?_⟩
        · intro _ v hv
          rw [hw] at hv; cases hv
          rw [hat, e6]; exact Nat.le_max_right _ _
        · intro l' hl'
          cases hl'
          refine ⟨(fun hx => by rw [hreg] at hx; cases hx), fun _ v hv => ?_, (fun hx => by rw [hc] at hx; cases hx)⟩
          rw [hw] at hv; cases hv
          show max s.now (t0 + w * 1000000) ≤ _
          rw [hat]
          rw [e6] at hb ⊢
          exact Nat.max_le.mpr ⟨hb, by omega⟩
        · intro e he
          have := (he.2.2.2 l rfl).2.1 ht w hw
          rw [hat, e6] at this
          exact this
        · intro t he
          have hub := hi.ub
          show (s.step digest o input ⟨.timer, t⟩).prog.Exits 3
          unfold St.step
          rw [if_neg (by rw [hub]; decide)]
          unfold Poke.St.Exits
          rw [if_neg (by show ¬ s.prog.threw = true; rw [hthrew]; decide)]
          exact ⟨hreg, rfl, fun _ => rfl, rfl⟩

/-- **C93 (ndnpoke, not before)** However late timers are: the time limit is over (exit status 3) only when it has passed since the
registration of the prefix, and a Data is put on the face only after the registration. If timers are at most `delay` late, every
Data is put on the face by `delay` after the time limit, or, when the program is already ending, by `delay` after the first. -/
theorem C93_poke_patient_partial {late : Option Late} {digest : Data → Bytes} {o : Poke.Opts} {input : Bytes} {w : Nat} {d : Data}
    (hd : Poke.createData o input = some d) (hu : o.wantUnsolicited = false) (hw : o.timeout = some w)
    (hr : w * 1000000 < 2 ^ 63) {es s} (h : (machine late digest o input).Run es s) :
    (s.prog.Exits 3 → ∃ t0, es.head? = some ⟨.regSuccess, t0⟩ ∧ t0 + w * 1000000 ≤ s.now) ∧
    (∀ t ∈ sendTimes digest d es, ∃ t0, es.head? = some ⟨.regSuccess, t0⟩ ∧ t0 ≤ t ∧
      ∀ l ∈ late, t ≤ t0 + w * 1000000 + 2 * l.delay) ∧
    (sendTimes digest d es).length = s.prog.sent.length := by
  have hn' : s.prog.Exits 3 → Poke.Ev.timer ∈ es.map Ev.kind := by
    intro h3
    have hr' : ∀ v ∈ o.timeout, v * 1000000 < 2 ^ 63 := by
      intro v hv; rw [hw] at hv; cases hv; exact hr
    have hi := inv hd hu hr' h
    have hres : ∀ es s, (Poke.machine digest o input).Run es s → s.result = .timeout → Poke.Ev.timer ∈ es := by
      intro es s h
      induction h with
      | nil =>
        intro hx
        have : (Poke.start o input).result = .timeout := hx
        unfold Poke.start at this; rw [hd] at this; dsimp only at this; rw [hu] at this; cases this
      | snoc e h he ih =>
        rename_i es s
        intro hx
        have hx' : (Poke.St.step digest o input s e).result = .timeout := hx
        cases e with
        | timer => simp
        | regFailure => cases hx'
        | regSuccess => exact List.mem_append_left _ (ih hx')
        | interest i =>
          refine List.mem_append_left _ (ih ?_)
          unfold Poke.St.step at hx'; rw [hd] at hx'; dsimp only at hx'
          split at hx'
          · cases hx'
          · exact hx'
    refine hres _ _ hi.run ?_
    unfold Poke.St.Exits at h3
    split at h3
    · cases h3
    · have := h3.2.2.2
      cases hx : s.prog.result <;> rw [hx] at this <;> first | rfl | cases this
  have hr' : ∀ v ∈ o.timeout, v * 1000000 < 2 ^ 63 := by
    intro v hv; rw [hw] at hv; cases hv; exact hr
  have e6 : ns w = w * 1000000 := by unfold ns; norm_num
  have hi := inv hd hu hr' h
  refine ⟨?_, ?_, ?_⟩
  · intro h3
    obtain ⟨e, he, hk⟩ := List.mem_map.mp (hn' h3)
    have hee : (⟨.timer, e.t⟩ : Ev) ∈ es := by rw [← hk]; exact he
    cases hi.phase with
    | idle hz => rw [hz] at he; cases he
    | failed t hz => rw [hz] at hee; simp at hee
    | up t0 rest hes hreg hact hat hl htim hcan hcat hlc hln hge htms hnr =>
      refine ⟨t0, by rw [hes]; rfl, ?_⟩
      have := htms e.t hee w hw
      have := hi.past e he
      omega
  · intro t ht
    obtain ⟨e, he, hk⟩ := List.mem_filterMap.mp ht
    have het : e.t = t := by
      split at hk
      · split at hk
        · cases hk; rfl
        · cases hk
      · cases hk
    cases hi.phase with
    | idle hz => rw [hz] at he; cases he
    | failed t hz =>
      rw [hz] at he
      rw [List.mem_singleton.mp he] at hk
      cases hk
    | up t0 rest hes hreg hact hat hl htim hcan hcat hlc hln hge htms hnr =>
      refine ⟨t0, by rw [hes]; rfl, by have := hge e he; omega, ?_⟩
      intro l hl'
      have hp := hi.past e he
      cases hc : s.prog.cancelled with
      | true =>
        have g := hlc l hl' hc
        have := g.1 w hw
        omega
      | false =>
        have := hln l hl' hc w hw
        omega
  · have hlen : ∀ es s, (machine late digest o input).Run es s →
        (sendTimes digest d es).length = s.prog.sent.length := by
      intro es s h
      induction h with
      | nil =>
        have : (Poke.start o input).sent = [] := by
          unfold Poke.start; rw [hd]; dsimp only; rw [hu]; rfl
        show 0 = (Poke.start o input).sent.length
        rw [this]; rfl
      | snoc e h he ih =>
        rename_i es s
        have hi := inv hd hu hr' h
        show _ = (s.step digest o input e).prog.sent.length
        have hs : (s.step digest o input e).prog = s.prog.step digest o input e.kind := by
          unfold St.step; rw [if_neg (by rw [hi.ub]; decide)]
        rw [hs, sendTimes_snoc, List.length_append, ih]
        obtain ⟨k, t⟩ := e
        cases k with
        | regSuccess => rfl
        | regFailure => rfl
        | timer => rfl
        | interest i =>
          show _ = (Poke.St.step digest o input s.prog (.interest i)).sent.length
          unfold Poke.St.step; rw [hd]; dsimp only
          by_cases hm : i.matchesData digest d = true
          · rw [if_pos hm]
            simp [sendTimes, hm, Poke.St.sendData]
          · rw [if_neg hm]
            simp [sendTimes, hm]
    exact hlen es s h

/-- **C93 (ndnpoke, the full statement is false)** The time limit does not bound the registration: whatever the time limit is, the program
can still be running at every time until the registration must have a result, and then starts the time limit. A time limit of
9223372036855 ms or more is undefined behaviour when the prefix has been registered. -/
theorem C93_poke_refuted {l : Late} {digest : Data → Bytes} {o : Poke.Opts} {input : Bytes} {w : Nat} (hn : o.name ≠ [])
    (hu : o.wantUnsolicited = false) (hw : o.timeout = some w) :
    (∀ t ≤ l.registration, ∃ s, (machine (some l) digest o input).Run [⟨.regSuccess, t⟩] s ∧ s.now = t ∧
      ¬ ∃ n, s.prog.Exits n) ∧
    (9223372036855 ≤ w → ∀ t ≤ l.registration, ∃ s, (machine (some l) digest o input).Run [⟨.regSuccess, t⟩] s ∧
      s.ub = true) := by
  obtain ⟨d, hd⟩ := created (input := input) hn
  have e : Poke.start o input = { registering := true } := by
    unfold Poke.start; rw [hd]; dsimp only; rw [hu]; rfl
  have hrun : ∀ t ≤ l.registration, (machine (some l) digest o input).Run [⟨.regSuccess, t⟩]
      ((machine (some l) digest o input).step (machine (some l) digest o input).init ⟨.regSuccess, t⟩) := by
    intro t ht
    refine Machine.Run.snoc (es := []) _ .nil ?_
    have ei : (machine (some l) digest o input).init = { prog := { registering := true } } := by
      show ({ prog := Poke.start o input } : St) = _
      rw [e]
    rw [ei]
    refine ⟨rfl, Nat.zero_le _, (by intro hk; cases hk), ?_⟩
    intro l' hl'
    cases hl'
    exact ⟨fun _ => ht, (fun hx => by cases hx), (fun hx => by cases hx)⟩
  refine ⟨fun t ht => ⟨_, hrun t ht, rfl, ?_⟩, fun hb t ht => ⟨_, hrun t ht, ?_⟩⟩
  · rintro ⟨n, hx⟩
    have hx' : (Poke.St.step digest o input (Poke.start o input) .regSuccess).Exits n := hx
    rw [e] at hx'
    have hx2 : o.timeout.isSome = false := hx'.2.1
    rw [hw] at hx2; cases hx2
  · show (decide (Poke.Ev.regSuccess = .regSuccess) && o.timeout.any overflows) = true
    rw [hw, Option.any_some, PeekTime.overflows_of hb]; rfl

/-- **C93 (ndnpoke without a time limit)** Once the prefix is registered, the program does not end before a Data was sent. -/
theorem C93_poke_waits {late : Option Late} {digest : Data → Bytes} {o : Poke.Opts} {input : Bytes} {d : Data}
    (hd : Poke.createData o input = some d) (hu : o.wantUnsolicited = false) (hw : o.timeout = none) {es s}
    (h : (machine late digest o input).Run es s) (hne : ∃ t0, es.head? = some ⟨.regSuccess, t0⟩) :
    (∃ n, s.prog.Exits n) ↔ sendTimes digest d es ≠ [] := by
  have hr' : ∀ v ∈ o.timeout, v * 1000000 < 2 ^ 63 := by
    intro v hv; rw [hw] at hv; cases hv
  have hi := inv hd hu hr' h
  have hno : ∀ t, (⟨.timer, t⟩ : Ev) ∉ es := by
    have : ∀ es s, (machine late digest o input).Run es s → ∀ t, (⟨.timer, t⟩ : Ev) ∉ es := by
      intro es s h
      induction h with
      | nil => intro t hx; cases hx
      | snoc e h he ih =>
        rename_i es s
        intro t hx
        rcases List.mem_append.mp hx with hx | hx
        · exact ih t hx
        · have hk : (⟨.timer, t⟩ : Ev) = e := List.mem_singleton.mp hx
          have h1 : s.prog.enabled o e.kind := he.1
          rw [← hk] at h1
          have ht : s.prog.timer = true := h1
          cases (inv hd hu hr' h).phase with
          | idle _ _ _ hy => rw [hy] at ht; cases ht
          | failed _ _ _ _ hy => rw [hy] at ht; cases ht
          | up t0 rest hes hreg hact hat hl htim hcan hcat hlc hln hge htms hnr =>
            have := (htim.mp ht).1
            rw [hw] at this; cases this
    exact this es s h
  obtain ⟨t0', ht0'⟩ := hne
  cases hi.phase with
  | idle hz => rw [hz] at ht0'; cases ht0'
  | failed t hz => rw [hz] at ht0'; cases ht0'
  | up t0 rest hes hreg hact hat hl htim hcan hcat hlc hln hge htms hnr =>
    have hthrew : s.prog.threw = false := by
      have : ∀ es s, (Poke.machine digest o input).Run es s → s.threw = false := by
        intro es s h
        induction h with
        | nil =>
          show (Poke.start o input).threw = false
          unfold Poke.start; rw [hd]; dsimp only; rw [hu]; rfl
        | snoc e h he ih =>
          rename_i es s
          show (Poke.St.step digest o input s e).threw = false
          cases e with
          | interest i =>
            unfold Poke.St.step; rw [hd]; dsimp only
            split <;> exact ih
          | _ => exact ih
      exact this _ _ hi.run
    unfold Poke.St.Exits
    simp only [hthrew, Bool.false_eq_true, if_false]
    constructor
    · rintro ⟨n, _, _, h3, _⟩
      rcases hcan.mp (h3 hact) with ⟨t, ht⟩ | hs
      · exact absurd ht (hno t)
      · exact hs
    · intro hs
      have hc := hcan.mpr (Or.inr hs)
      refine ⟨_, hreg, ?_, fun _ => hc, rfl⟩
      cases hx : s.prog.timer with
      | false => rfl
      | true => have := (htim.mp hx).2; rw [hc] at this; cases this

/-- **C93 (ndnpoke, command line)** The time limit is that of the command line, which lets every one pass that is not negative. -/
theorem C93_poke_command_line {lib : Cli.Lib} {a : Cli.PokeArgs} {o : Poke.Opts} (h : Cli.poke lib (some a) = .run o) :
    o.name ≠ [] ∧ o.timeout.map Int.ofNat = a.timeout ∧ (o.timeout ≠ none → o.wantUnsolicited = false) := by
  unfold Cli.poke at h
  dsimp only at h
  split at h; · cases h
  split at h; · cases h
  split at h; · cases h
  split at h; · cases h
  split at h; · cases h
  rename_i hn
  split at h; · cases h
  split at h; · cases h
  split at h; · cases h
  rename_i hu
  split at h; · cases h
  rename_i ht
  cases h
  refine ⟨hn, ?_, ?_⟩
  · dsimp only
    cases hx : a.timeout with
    | none => rfl
    | some w =>
      rw [hx] at ht
      simp at ht
      simp; omega
  · dsimp only
    intro h1
    cases hx : a.timeout with
    | none => rw [hx] at h1; exact absurd rfl h1
    | some w =>
      rw [hx] at hu
      simpa using hu

private def sample : Poke.Opts := { name := [⟨8, [65]⟩], timeout := some 1000 }

/-- The prefix is registered after 2 s, and the time limit of 1 s ends after 3 s. -/
example : ∃ s, (machine (some ⟨5000, 10000000000⟩) (fun _ => []) sample [1]).Run
    [⟨.regSuccess, 2000000000⟩, ⟨.timer, 3000003000⟩] s ∧ s.prog.Exits 3 ∧ s.now = 3000003000 :=
  let M := machine (some ⟨5000, 10000000000⟩) (fun _ => []) sample [1]
  ⟨_, Machine.exec_run (M := M) (s := (M.exec M.init [⟨.regSuccess, 2000000000⟩, ⟨.timer, 3000003000⟩]).get (by decide))
    (Option.some_get _).symm, by decide, by decide⟩

/-- An Interest within the time limit. -/
example : ∃ s, (machine (some ⟨5000, 10000000000⟩) (fun _ => []) sample [1]).Run
    [⟨.regSuccess, 2000000000⟩, ⟨.interest { name := [⟨8, [65]⟩] }, 2500000000⟩] s ∧ s.prog.Exits 0 ∧
    sendTimes (fun _ => []) { name := [⟨8, [65]⟩], content := [1], freshness := 0 }
      [⟨.regSuccess, 2000000000⟩, ⟨.interest { name := [⟨8, [65]⟩] }, 2500000000⟩] = [2500000000] :=
  let M := machine (some ⟨5000, 10000000000⟩) (fun _ => []) sample [1]
  ⟨_, Machine.exec_run (M := M)
    (s := (M.exec M.init [⟨.regSuccess, 2000000000⟩, ⟨.interest { name := [⟨8, [65]⟩] }, 2500000000⟩]).get (by decide))
    (Option.some_get _).symm, by decide, by decide⟩

end Verif.PokeTime
