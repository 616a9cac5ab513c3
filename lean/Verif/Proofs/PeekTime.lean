import Verif.Spec.PeekTime
import Verif.Props.Peek
import Verif.Props.Poke

/-! # Invariants of ndnpeek and ndnpoke with a clock -/

namespace Verif.PeekTime

open PingTime (ns overflows)

theorem not_overflows {ms : Nat} (h : ms * 1000000 < 2 ^ 63) : overflows ms = false := by
  unfold overflows ns
  simp
  omega

theorem overflows_of {ms : Nat} (h : 9223372036855 ≤ ms) : overflows ms = true := by
  unfold overflows ns
  simp
  omega

theorem start_ub {digest : Bytes → Bytes} {o : Peek.Opts} (hr : InRange o) : (start digest o).ub = false := by
  show (overflows o.interestLifetime || o.timeout.any overflows) = false
  rw [not_overflows hr.1]
  cases ht : o.timeout with
  | none => simp
  | some w => rw [Option.any_some, not_overflows (hr.2 w ht), Bool.false_or]

theorem deadline_life (o : Peek.Opts) : deadline o ≤ ns o.interestLifetime := by
  unfold deadline ns
  cases o.timeout with
  | none => simp
  | some w => dsimp only; exact Nat.mul_le_mul_right _ (Nat.min_le_left _ _)

theorem deadline_timeout {o : Peek.Opts} {w : Nat} (h : o.timeout = some w) : deadline o ≤ ns w := by
  unfold deadline ns
  rw [h]
  exact Nat.mul_le_mul_right _ (Nat.min_le_right _ _)

theorem deadline_ge {o : Peek.Opts} {x : Nat} (h1 : x ≤ ns o.interestLifetime) (h2 : ∀ w ∈ o.timeout, x ≤ ns w) :
    x ≤ deadline o := by
  unfold ns at h1 h2
  unfold deadline
  cases ht : o.timeout with
  | none => simpa using h1
  | some w =>
    have := h2 w ht
    dsimp only
    rcases Nat.le_total o.interestLifetime w with h | h
    · rw [Nat.min_eq_left h]; simpa using h1
    · rw [Nat.min_eq_right h]; simpa using this

/-- Nothing happened yet; or the time limit has expired; or there was an answer. -/
inductive Phase (o : Peek.Opts) (digest : Bytes → Bytes) (es : List Ev) (s : St) : Prop
  | idle : es = [] → s = start digest o → Phase o digest es s
  | gaveUp (t : Nat) : es = [⟨.timer, t⟩] → s.now = t → s.rtt = none → s.prog.handle = false → s.prog.timer = false →
      Phase o digest es s
  | done : es ≠ [] → s.prog.pending = false → s.prog.timer = false → Phase o digest es s

structure Inv (late : Option Nat) (digest : Bytes → Bytes) (o : Peek.Opts) (es : List Ev) (s : St) : Prop where
  ub : s.ub = false
  run : (Peek.machine digest o).Run (es.map Ev.kind) s.prog
  past : ∀ e ∈ es, e.t ≤ s.now
  early : ∀ e ∈ es, (e.kind = .expire ∨ e.kind = .timer) → deadline o ≤ e.t
  phase : Phase o digest es s
  first : ∀ d ∈ late, ∀ e, es.head? = some e → e.t ≤ deadline o + d
  all : ∀ d ∈ late, s.now ≤ deadline o + 2 * d
  gave : ∀ d ∈ late, s.prog.pending = true → s.now ≤ deadline o + d
  rtt : ∀ m, s.rtt = some m ↔ ∃ e ∈ es, ((∃ d, e.kind = .data d) ∨ ∃ r, e.kind = .nack r) ∧ m = e.t / 1000000

theorem inv {late : Option Nat} {digest : Bytes → Bytes} {o : Peek.Opts} (hr : InRange o) {es s}
    (h : (machine late digest o).Run es s) : Inv late digest o es s := by
  induction h with
  | nil =>
    refine ⟨start_ub hr, .nil, by simp, by simp, .idle rfl rfl, by simp, ?_, ?_, ?_⟩
    · intro d _; exact Nat.zero_le _
    · intro d _ _; exact Nat.zero_le _
    · intro m
      constructor
      · intro h; cases h
      · rintro ⟨e, h, _⟩; cases h
  | snoc e h he ih =>
    rename_i es s
    have hst : (machine late digest o).step = St.step o := rfl
    rw [hst]
    obtain ⟨h1, h2, h3, h4, h5⟩ : s.enabled late o e := he
    have hstep : s.step o e = { s with
        prog := s.prog.step o e.kind
        now := e.t
        rtt := e.rtt s.rtt } := by
      unfold St.step; rw [if_neg (by rw [ih.ub]; decide)]
    rw [hstep]
    have hto : o.timeout.isSome = true → ∃ w, o.timeout = some w := fun h => Option.isSome_iff_exists.mp h
    have hinit : es = [] → s.prog = Peek.start digest o := by
      rintro rfl
      cases ih.phase with
      | idle _ h => rw [h]; rfl
      | gaveUp t h => cases h
      | done h => exact absurd rfl h
    -- the first event is in time
    have hfirst : ∀ d ∈ late, es = [] → e.t ≤ deadline o + d := by
      intro d hd hes
      have hp := hinit hes
      obtain ⟨k1, k2⟩ := h5 d hd
      rw [hp] at k1 k2
      have g1 := k2 rfl
      rw [if_pos (show (Peek.start digest o).handle = true from rfl)] at g1
      have g2 : ∀ w ∈ o.timeout, e.t ≤ ns w + d := by
        intro w hw
        refine k1 ?_ w hw
        show o.timeout.isSome = true
        rw [hw]; rfl
      have := deadline_ge (o := o) (x := e.t - d) (by omega) (fun w hw => by have := g2 w hw; omega)
      omega
    have htm : e.kind = .timer → ∃ w, o.timeout = some w ∧ es = [] := by
      intro hk
      rw [hk] at h1
      have ht : s.prog.timer = true := h1
      cases ih.phase with
      | idle hz hs =>
        rw [hs] at ht
        obtain ⟨w, hw⟩ := hto ht
        exact ⟨w, hw, hz⟩
      | gaveUp t _ _ _ _ hx => rw [hx] at ht; cases ht
      | done _ _ hx => rw [hx] at ht; cases ht
    have hpend : e.kind ≠ .timer → s.prog.pending = true := by
      intro hk
      cases hx : e.kind with
      | timer => exact absurd hx hk
      | data _ => rw [hx] at h1; exact h1
      | nack _ => rw [hx] at h1; exact h1
      | expire => rw [hx] at h1; exact h1
    have hrtt0 : s.rtt = none := by
      cases ih.phase with
      | idle _ hs => rw [hs]; rfl
      | gaveUp t _ _ hx => exact hx
      | done _ hx hy =>
        exfalso
        by_cases hk : e.kind = .timer
        · rw [hk] at h1
          have ht : s.prog.timer = true := h1
          rw [hy] at ht; cases ht
        · rw [hpend hk] at hx; cases hx
    have hnoans : ∀ x ∈ es, x.kind = .timer := by
      intro x hx
      cases ih.phase with
      | idle hz _ => rw [hz] at hx; cases hx
      | gaveUp t hz => rw [hz] at hx; rw [List.mem_singleton.mp hx]
      | done _ hx' hy =>
        exfalso
        by_cases hk : e.kind = .timer
        · rw [hk] at h1
          have ht : s.prog.timer = true := h1
          rw [hy] at ht; cases ht
        · rw [hpend hk] at hx'; cases hx'
    have hph : ∀ d ∈ late, e.t ≤ deadline o + 2 * d ∧ (e.kind = .timer → e.t ≤ deadline o + d) := by
      intro d hd
      by_cases hz : es = []
      · have := hfirst d hd hz
        exact ⟨by omega, fun _ => this⟩
      · have hk : e.kind ≠ .timer := fun hk => by obtain ⟨_, _, hx⟩ := htm hk; exact hz hx
        refine ⟨?_, fun hx => absurd hx hk⟩
        have hp := hpend hk
        have g := (h5 d hd).2 hp
        have hn := ih.gave d hd hp
        have hh : s.prog.handle = false := by
          cases ih.phase with
          | idle hx _ => exact absurd hx hz
          | gaveUp t _ _ _ hx => exact hx
          | done _ hx => rw [hp] at hx; cases hx
        rw [hh] at g
        simp at g
        omega
    refine ⟨ih.ub, ?_, ?_, ?_, ?_, ?_, fun d hd => (hph d hd).1, ?_, ?_⟩
    · rw [List.map_append]
      exact Machine.Run.snoc e.kind ih.run h1
    · intro x hx
      rcases List.mem_append.mp hx with hx | hx
      · have := ih.past x hx
        show x.t ≤ e.t
        omega
      · rw [List.mem_singleton.mp hx]
    · intro x hx hk
      rcases List.mem_append.mp hx with hx | hx
      · exact ih.early x hx hk
      · rw [List.mem_singleton.mp hx] at hk ⊢
        rcases hk with hk | hk
        · have := h3 hk
          have := deadline_life o
          omega
        · obtain ⟨w, hw, _⟩ := htm hk
          have := h4 hk w hw
          have := deadline_timeout hw
          omega
    · by_cases hk : e.kind = .timer
      · obtain ⟨w, hw, hz⟩ := htm hk
        refine .gaveUp e.t ?_ rfl ?_ ?_ ?_
        · rw [hz, ← hk]; rfl
        · show e.rtt s.rtt = none
          unfold Ev.rtt; rw [hk]; exact hrtt0
        · rw [hk]; rfl
        · rw [hk]; rfl
      · refine .done (by simp) ?_ ?_
        · cases hx : e.kind with
          | timer => exact absurd hx hk
          | data _ => rfl
          | nack _ => rfl
          | expire => rfl
        · cases hx : e.kind with
          | timer => exact absurd hx hk
          | data _ => rfl
          | nack _ => rfl
          | expire => rfl
    · intro d hd x hx
      by_cases hz : es = []
      · rw [hz] at hx
        cases hx
        exact hfirst d hd hz
      · obtain ⟨y, l, hyl⟩ := List.exists_cons_of_ne_nil hz
        rw [hyl] at hx
        cases hx
        exact ih.first d hd x (by rw [hyl]; rfl)
    · intro d hd hp
      by_cases hk : e.kind = .timer
      · exact (hph d hd).2 hk
      · exfalso
        have hp' : (s.prog.step o e.kind).pending = true := hp
        cases hx : e.kind with
        | timer => exact hk hx
        | data _ => rw [hx] at hp'; cases hp'
        | nack _ => rw [hx] at hp'; cases hp'
        | expire => rw [hx] at hp'; cases hp'
    · intro m
      have e6 : (10 : Nat) ^ 6 = 1000000 := by norm_num
      have hold : ¬ ∃ x ∈ es, ((∃ d, x.kind = .data d) ∨ ∃ r, x.kind = .nack r) ∧ m = x.t / 1000000 := by
        rintro ⟨x, hx, hk, _⟩
        rw [hnoans x hx] at hk
        rcases hk with ⟨_, hk⟩ | ⟨_, hk⟩ <;> cases hk
      have hmem : (∃ x ∈ es ++ [e], ((∃ d, x.kind = .data d) ∨ ∃ r, x.kind = .nack r) ∧ m = x.t / 1000000) ↔
          ((∃ d, e.kind = .data d) ∨ ∃ r, e.kind = .nack r) ∧ m = e.t / 1000000 := by
        constructor
        · rintro ⟨x, hx, hk⟩
          rcases List.mem_append.mp hx with hx | hx
          · exact absurd ⟨x, hx, hk⟩ hold
          · rw [List.mem_singleton.mp hx] at hk; exact hk
        · intro hk; exact ⟨e, by simp, hk⟩
      rw [hmem]
      show e.rtt s.rtt = some m ↔ _
      unfold Ev.rtt
      cases hx : e.kind with
      | timer => simp [hrtt0]
      | expire => simp [hrtt0]
      | data d => simp [eq_comm]
      | nack r => simp [eq_comm]

end Verif.PeekTime

namespace Verif.PokeTime

open PingTime (ns overflows)

/-- The registration has no result; it failed; it succeeded. -/
inductive Phase (late : Option Late) (digest : Data → Bytes) (o : Poke.Opts) (d : Data) (es : List Ev) (s : St) : Prop
  | idle : es = [] → s.prog.registering = true → s.prog.active = false → s.prog.timer = false → s.prog.cancelled = false →
      s.now = 0 → Phase late digest o d es s
  | failed (t : Nat) : es = [⟨.regFailure, t⟩] → s.prog.registering = false → s.prog.active = false → s.prog.timer = false →
      s.prog.cancelled = false → s.now = t → (∀ l ∈ late, t ≤ l.registration) → Phase late digest o d es s
  | up (t0 : Nat) (rest : List Ev) : es = ⟨.regSuccess, t0⟩ :: rest → s.prog.registering = false → s.prog.active = true →
      s.regAt = t0 → (∀ l ∈ late, t0 ≤ l.registration) →
      (s.prog.timer = true ↔ o.timeout.isSome = true ∧ s.prog.cancelled = false) →
      (s.prog.cancelled = true ↔ (∃ t, ⟨.timer, t⟩ ∈ es) ∨ sendTimes digest d es ≠ []) →
      (s.prog.cancelled = true → t0 ≤ s.cancelAt ∧ s.cancelAt ≤ s.now) →
      (∀ l ∈ late, s.prog.cancelled = true → (∀ w ∈ o.timeout, s.cancelAt ≤ t0 + ns w + l.delay) ∧
        s.now ≤ s.cancelAt + l.delay) →
      (∀ l ∈ late, s.prog.cancelled = false → ∀ w ∈ o.timeout, s.now ≤ t0 + ns w + l.delay) →
      (∀ e ∈ es, t0 ≤ e.t) → (∀ t, ⟨.timer, t⟩ ∈ es → ∀ w ∈ o.timeout, t0 + ns w ≤ t) →
      (∀ e ∈ rest, e.kind ≠ .regSuccess ∧ e.kind ≠ .regFailure) →
      Phase late digest o d es s

structure Inv (late : Option Late) (digest : Data → Bytes) (o : Poke.Opts) (input : Bytes) (d : Data) (es : List Ev) (s : St) :
    Prop where
  ub : s.ub = false
  run : (Poke.machine digest o input).Run (es.map Ev.kind) s.prog
  past : ∀ e ∈ es, e.t ≤ s.now
  phase : Phase late digest o d es s

theorem sendTimes_snoc (digest : Data → Bytes) (d : Data) (es : List Ev) (e : Ev) :
    sendTimes digest d (es ++ [e]) = sendTimes digest d es ++ sendTimes digest d [e] := by
  unfold sendTimes; rw [List.filterMap_append]

theorem created {o : Poke.Opts} {input : Bytes} (hn : o.name ≠ []) :
    ∃ d, Poke.createData o input = some d := by
  unfold Poke.createData
  split
  · rename_i hl; exact absurd (List.getLast?_eq_none_iff.mp hl) hn
  · exact ⟨_, rfl⟩
  · exact ⟨_, rfl⟩

theorem inv {late : Option Late} {digest : Data → Bytes} {o : Poke.Opts} {input : Bytes} {d : Data}
    (hd : Poke.createData o input = some d) (hu : o.wantUnsolicited = false) (hr : ∀ w ∈ o.timeout, w * 1000000 < 2 ^ 63)
    {es s} (h : (machine late digest o input).Run es s) : Inv late digest o input d es s := by
  induction h with
  | nil =>
    have e : Poke.start o input = { registering := true } := by
      unfold Poke.start; rw [hd]; dsimp only; rw [hu]; rfl
    have ei : (machine late digest o input).init = { prog := { registering := true } } := by
      show ({ prog := Poke.start o input } : St) = _
      rw [e]
    refine ⟨rfl, .nil, by simp, ?_⟩
    rw [ei]
    exact .idle rfl rfl rfl rfl rfl rfl
  | snoc e h he ih =>
    rename_i es s
    have hst : (machine late digest o input).step = St.step digest o input := rfl
    rw [hst]
    obtain ⟨h1, h2, h3, h4⟩ : s.enabled late o e := he
    have hov : o.timeout.any overflows = false := by
      cases ht : o.timeout with
      | none => simp
      | some w => rw [Option.any_some, PeekTime.not_overflows (hr w ht)]
    have hstep : s.step digest o input e =
        { prog := s.prog.step digest o input e.kind
          now := e.t
          regAt := if e.kind = .regSuccess then e.t else s.regAt
          cancelAt := if (s.prog.step digest o input e.kind).cancelled ∧ ¬ s.prog.cancelled then e.t else s.cancelAt
          ub := false } := by
      unfold St.step; rw [if_neg (by rw [ih.ub]; decide), hov, Bool.and_false]
    rw [hstep]
    have hpast : ∀ x ∈ es ++ [e], x.t ≤ e.t := by
      intro x hx
      rcases List.mem_append.mp hx with hx | hx
      · have := ih.past x hx; omega
      · rw [List.mem_singleton.mp hx]
    refine ⟨rfl, ?_, hpast, ?_⟩
    · rw [List.map_append]
      exact Machine.Run.snoc e.kind ih.run h1
    obtain ⟨k, t⟩ := e
    dsimp only at h1 h2 h3 h4 hpast ⊢
    cases ih.phase with
    | idle hz hreg hact htim hcan hnow =>
      subst hz
      cases k with
      | timer => have hx : s.prog.timer = true := h1; rw [htim] at hx; cases hx
      | interest i => have hx : s.prog.active = true := h1.1; rw [hact] at hx; cases hx
      | regFailure =>
        exact .failed t rfl rfl hact htim hcan rfl (fun l hl => (h4 l hl).1 hreg)
      | regSuccess =>
        have hc : (s.prog.step digest o input .regSuccess).cancelled = false := hcan
        refine .up t [] rfl rfl rfl (by simp) (fun l hl => (h4 l hl).1 hreg) ?_ ?_ ?_ ?_ ?_ ?_ ?_ (by simp)
        · dsimp only
          rw [hc]
          show o.timeout.isSome = true ↔ _
          simp
        · dsimp only
          rw [hc]
          simp [sendTimes]
        · intro hx; dsimp only at hx; rw [hc] at hx; cases hx
        · intro l hl hx; dsimp only at hx; rw [hc] at hx; cases hx
        · intro l hl _ w hw
          dsimp only
          omega
        · intro x hx; simp at hx; rw [hx]
        · intro t' hx; simp at hx
    | failed t' hz hreg hact htim hcan hnow hl =>
      exfalso
      cases k with
      | timer => have hx : s.prog.timer = true := h1; rw [htim] at hx; cases hx
      | interest i => have hx : s.prog.active = true := h1.1; rw [hact] at hx; cases hx
      | regFailure => have hx : s.prog.registering = true := h1; rw [hreg] at hx; cases hx
      | regSuccess => have hx : s.prog.registering = true := h1; rw [hreg] at hx; cases hx
    | up t0 rest hes hreg hact hat hl htim hcan hcat hlc hln hge htms hnr =>
      have hmem : (⟨.regSuccess, t0⟩ : Ev) ∈ es := by rw [hes]; simp
      have ht0 : t0 ≤ s.now := ih.past _ hmem
      have hge' : ∀ x ∈ es ++ [⟨k, t⟩], t0 ≤ x.t := by
        intro x hx
        rcases List.mem_append.mp hx with hx | hx
        · exact hge x hx
        · rw [List.mem_singleton.mp hx]; show t0 ≤ t; omega
      cases k with
      | regFailure => have hx : s.prog.registering = true := h1; rw [hreg] at hx; cases hx
      | regSuccess => have hx : s.prog.registering = true := h1; rw [hreg] at hx; cases hx
      | timer =>
        have htt : s.prog.timer = true := h1
        obtain ⟨hso, hcf⟩ := htim.mp htt
        have hc : (s.prog.step digest o input .timer).cancelled = true := rfl
        have hifc : (if (s.prog.step digest o input Poke.Ev.timer).cancelled = true ∧ ¬ s.prog.cancelled = true then t
            else s.cancelAt) = t := by rw [if_pos ⟨hc, by rw [hcf]; decide⟩]
        refine .up t0 (rest ++ [⟨.timer, t⟩]) (by rw [hes]; rfl) hreg hact (by simpa using hat) hl ?_ ?_ ?_ ?_ ?_ hge' ?_ ?_
        · dsimp only
          rw [hc]
          show false = true ↔ _
          simp
        · dsimp only
          rw [hc]
          simp
        · intro _; dsimp only; rw [hifc]; exact ⟨by omega, Nat.le_refl _⟩
        · intro l hl _
          dsimp only
          rw [hifc]
          refine ⟨fun w hw => ?_, by omega⟩
          have := (h4 l hl).2.1 htt w hw
          omega
        · intro l hl hx; dsimp only at hx; rw [hc] at hx; cases hx
        · intro t' hx w hw
          rcases List.mem_append.mp hx with hx | hx
          · exact htms t' hx w hw
          · have : t' = t := by simpa using hx
            rw [this]
            have := h3 rfl w hw
            omega
        · intro x hx
          rcases List.mem_append.mp hx with hx | hx
          · exact hnr x hx
          · rw [List.mem_singleton.mp hx]; exact ⟨(by intro h; cases h), (by intro h; cases h)⟩
      | interest i =>
        have hnr' : ∀ x ∈ rest ++ [(⟨.interest i, t⟩ : Ev)], x.kind ≠ .regSuccess ∧ x.kind ≠ .regFailure := by
          intro x hx
          rcases List.mem_append.mp hx with hx | hx
          · exact hnr x hx
          · rw [List.mem_singleton.mp hx]; exact ⟨(by intro h; cases h), (by intro h; cases h)⟩
        have htm' : ∀ t', (⟨.timer, t'⟩ : Ev) ∈ es ++ [⟨.interest i, t⟩] ↔ ⟨.timer, t'⟩ ∈ es := by intro t'; simp
        have e1 : Poke.St.step digest o input s.prog (.interest i) =
            if i.matchesData digest d then { s.prog with timer := false, cancelled := true }.sendData d else s.prog := by
          unfold Poke.St.step; rw [hd]
        -- the time of this event
        have hbound : ∀ l ∈ late, (s.prog.cancelled = true → t ≤ s.cancelAt + l.delay) ∧
            (s.prog.cancelled = false → ∀ w ∈ o.timeout, t ≤ t0 + ns w + l.delay) := by
          intro l hl
          refine ⟨(h4 l hl).2.2, fun hc w hw => ?_⟩
          have := (h4 l hl).2.1 (htim.mpr ⟨by rw [hw]; rfl, hc⟩) w hw
          omega
        rw [e1]
        by_cases hm : i.matchesData digest d = true
        · have e2 : sendTimes digest d [⟨.interest i, t⟩] = [t] := by
            unfold sendTimes; simp [hm]
          rw [if_pos hm]
          have hc : (Poke.St.sendData { s.prog with timer := false, cancelled := true } d).cancelled = true := rfl
          refine .up t0 (rest ++ [⟨.interest i, t⟩]) (by rw [hes]; rfl) hreg hact (by simpa using hat) hl ?_ ?_ ?_ ?_ ?_ hge' ?_
            hnr'
          · show false = true ↔ _ ∧ true = false
            simp
          · dsimp only
            rw [hc, sendTimes_snoc, e2]
            simp
          · intro _
            dsimp only
            rw [hc]
            cases hcc : s.prog.cancelled with
            | false => simp; omega
            | true =>
              have := hcat hcc
              simp; omega
          · intro l hl _
            dsimp only
            rw [hc]
            have hb := hbound l hl
            cases hcc : s.prog.cancelled with
            | false =>
              simp
              exact hb.2 hcc
            | true =>
              simp
              exact ⟨(hlc l hl hcc).1, hb.1 hcc⟩
          · intro l hl hx; dsimp only at hx; rw [hc] at hx; cases hx
          · intro t' hx w hw
            exact htms t' ((htm' t').mp hx) w hw
        · have e2 : sendTimes digest d [⟨.interest i, t⟩] = [] := by
            unfold sendTimes; simp [hm]
          rw [if_neg hm]
          refine .up t0 (rest ++ [⟨.interest i, t⟩]) (by rw [hes]; rfl) hreg hact (by simpa using hat) hl htim ?_ ?_ ?_ ?_ hge' ?_
            hnr'
          · dsimp only
            rw [sendTimes_snoc, e2, List.append_nil, hcan]
            simp only [htm']
          · intro hx
            dsimp only at hx ⊢
            rw [hx]
            have := hcat hx
            simp; omega
          · intro l hl hx
            dsimp only at hx ⊢
            rw [hx]
            have hb := hbound l hl
            simp
            exact ⟨(hlc l hl hx).1, hb.1 hx⟩
          · intro l hl hx w hw
            exact (hbound l hl).2 hx w hw
          · intro t' hx w hw
            exact htms t' ((htm' t').mp hx) w hw

end Verif.PokeTime
