import Verif.Proofs.PeekVerbose

/-! # C107: what ndnpeek and ndnpoke write to the standard error -/

namespace Verif.PeekVerbose

open PingOutput (lines words field)

variable {v : Env} {late : Option Nat} {digest : Bytes → Bytes} {o : Peek.Opts}

/-- **C107 (ndnpeek, same behaviour)** With and without `--verbose` the program does the same; without it the standard error is empty. -/
theorem C107_peek_same :
    (∀ es x, (machine v late digest o).Run es x → (PeekTime.machine late digest o).Run es x.s ∧ (v.verbose = false → x.err = [])) ∧
    ∀ es s, (PeekTime.machine late digest o).Run es s → ∃ x, (machine v late digest o).Run es x ∧ x.s = s := by
  refine ⟨fun es x h => ⟨project h, fun hv => ?_⟩, fun es s h => lift h⟩
  induction h with
  | nil => exact if_neg (by rw [hv]; simp)
  | @snoc es x e h he ih =>
    show (x.step v o e).err = []
    unfold VSt.step
    split
    · exact ih
    · dsimp only
      rw [ih, if_neg (by rw [hv]; simp)]; rfl

/-- **C107 (ndnpeek, exit status)** The last line that tells an outcome goes with the exit status, also if an answer comes in just after the time
limit; there is such a line exactly if the program ends. -/
theorem C107_peek_status (hc : v.Clean) (hv : v.verbose = true) (hr : PeekTime.InRange o) {es x} (h : (machine v late digest o).Run es x)
    (n : Nat) : x.s.prog.Exits n ↔ status x.err = some n := by
  have hrun := (PeekTime.inv hr (project h)).run
  obtain ⟨h1, -⟩ := Peek.C33_exit hrun
  unfold status
  rw [lines_eq hc hv hr h, outcomes]
  have hm : es.map (fun e => code e.kind) = (es.map PeekTime.Ev.kind).map code := by simp
  rw [hm]
  by_cases he : es.map PeekTime.Ev.kind = []
  · rw [he]
    constructor
    · intro hx; exact absurd he (h1.mp ⟨n, hx⟩)
    · intro hx; cases hx
  · rw [result_last hrun he]
    obtain ⟨m, hx⟩ := h1.mpr he
    constructor
    · intro hx; rw [hx.2.2]
    · intro hn; exact ⟨hx.1, hx.2.1, (Option.some.inj hn).symm⟩

/-- **C107 (ndnpeek, Interest)** The first line names the Interest that is sent, and no other line names an Interest. -/
theorem C107_peek_interest (hc : v.Clean) (hv : v.verbose = true) (hr : PeekTime.InRange o) {es x} (h : (machine v late digest o).Run es x) :
    ∃ i, x.s.prog.interests = [i] ∧ (lines x.err).head? = some (text "INTEREST: " ++ v.interest i) ∧
      (lines x.err).filterMap (field "INTEREST: ") = [v.interest i] := by
  have hi : x.s.prog.interests = [Peek.createInterest digest o] := by
    have hrun := (PeekTime.inv hr (project h)).run
    generalize es.map PeekTime.Ev.kind = ks at hrun
    generalize x.s.prog = s at hrun
    clear h
    induction hrun with
    | nil => rfl
    | snoc e h he ih =>
      cases e <;> exact ih
  refine ⟨_, hi, ?_, ?_⟩
  · rw [lines_eq hc hv hr h]; rfl
  · rw [lines_eq hc hv hr h, allLines, List.cons_append, List.filterMap_cons, firstLine, field_of, List.filterMap_append]
    have h0 : field "INTEREST: " [] = none := by decide
    rw [List.filterMap_cons, h0]
    simp only [List.filterMap_nil, List.append_nil]
    congr 1
    rw [List.filterMap_eq_nil_iff]
    intro l hl
    obtain ⟨e, -, hl⟩ := List.mem_flatMap.mp hl
    have key : ∀ (a : UInt8) (b : Bytes), a ≠ 73 → field "INTEREST: " (a :: b) = none := by
      intro a b ha
      refine if_neg ?_
      rintro ⟨t, ht⟩
      have := congrArg (fun l => l.head?) ht
      rw [show text "INTEREST: " = 73 :: text "NTEREST: " by decide] at this
      simp at this
      exact ha this.symm
    unfold evLines at hl
    have hD : text "DATA: " = 68 :: text "ATA: " := by decide
    have hN : text "NACK: " = 78 :: text "ACK: " := by decide
    have hR : text "RTT: " = 82 :: text "TT: " := by decide
    have hT : text "TIMEOUT" = 84 :: text "IMEOUT" := by decide
    cases hk : e.kind <;> rw [hk] at hl <;> simp only [List.mem_cons, List.not_mem_nil, or_false, hD, hN, hR, hT] at hl
    · rcases hl with rfl | rfl <;> exact key _ _ (by decide)
    · rcases hl with rfl | rfl <;> exact key _ _ (by decide)
    · subst hl; exact key _ _ (by decide)
    · subst hl; exact key _ _ (by decide)

/-- **C107 (ndnpeek, answers)** The lines `DATA` name the Data that were received, and the lines `RTT` tell for each Data and Nack how long it took,
in milliseconds. If a Data was written to the standard output, its name is in a line. -/
theorem C107_peek_answers (hc : v.Clean) (hv : v.verbose = true) (hr : PeekTime.InRange o) {es x} (h : (machine v late digest o).Run es x) :
    (lines x.err).filterMap (field "DATA: ") = (es.filterMap dataName).map v.uri ∧
    (lines x.err).filterMap readRtt = es.filterMap answerTime ∧
    ∀ d, Peek.Out.packet d ∈ x.s.prog.out → text "DATA: " ++ v.uri d.name ∈ lines x.err := by
  have hrun := (PeekTime.inv hr (project h)).run
  refine ⟨by rw [lines_eq hc hv hr h, data_lines], by rw [lines_eq hc hv hr h, rtts], ?_⟩
  intro d hd
  have key : ∀ {ks s}, (Peek.machine digest o).Run ks s → Peek.Out.packet d ∈ s.out → Peek.Ev.data d ∈ ks := by
    intro ks s hrun
    induction hrun with
    | nil => intro hd; cases hd
    | @snoc ks s e h he ih =>
      intro hd
      rw [List.mem_append]
      cases e with
      | data d' =>
        have hd : Peek.Out.packet d ∈ s.out ++ [if o.wantPayloadOnly then .payload d'.content else .packet d'] := hd
        rw [List.mem_append, List.mem_singleton] at hd
        rcases hd with hd | hd
        · exact .inl (ih hd)
        · split at hd
          · cases hd
          · cases hd; exact .inr (by simp)
      | nack r =>
        have hd : Peek.Out.packet d ∈ s.out ++ [if o.wantPayloadOnly then .nackText r else .nackHeader r] := hd
        rw [List.mem_append, List.mem_singleton] at hd
        rcases hd with hd | hd
        · exact .inl (ih hd)
        · split at hd <;> cases hd
      | expire => exact .inl (ih hd)
      | timer => exact .inl (ih hd)
  obtain ⟨e, he, hk⟩ := List.mem_map.mp (key hrun hd)
  rw [lines_eq hc hv hr h, List.mem_append]
  left
  unfold allLines
  rw [List.mem_cons]
  right
  rw [List.mem_flatMap]
  refine ⟨e, he, ?_⟩
  unfold evLines
  rw [hk]
  simp

/-- **C107 (ndnpeek, refuted)** It is not so that the line `TIMEOUT` means exit status 3: with a time limit that is not longer than the lifetime, a Data
may come in while the program is ending. Then `TIMEOUT`, `DATA` and `RTT` are printed, and the exit status is 0. -/
theorem C107_peek_refuted (hc : v.Clean) (hv : v.verbose = true) (hr : PeekTime.InRange o) {w : Nat} (hw : o.timeout = some w)
    (hl : w ≤ o.interestLifetime) : ¬ TimeoutMeans3 v late digest o := by
  intro ht
  have hle : PingTime.ns w ≤ PingTime.ns o.interestLifetime := by unfold PingTime.ns; exact Nat.mul_le_mul_right _ hl
  have hu : (PeekTime.start digest o).ub = false := (PeekTime.inv (late := late) (digest := digest) hr .nil).ub
  let d : Data := { name := o.name, content := [] }
  have r1 := Machine.Run.snoc (M := machine v late digest o) (PeekTime.Ev.mk .timer (PingTime.ns w)) .nil (by
    show PeekTime.St.enabled late o (PeekTime.start digest o) _
    refine ⟨?_, Nat.zero_le _, fun h => (by cases h), fun _ u hu => ?_, fun d hd => ⟨fun _ u hu => ?_, fun _ => ?_⟩⟩
    · show (Peek.start digest o).timer = true
      simp [Peek.start, hw]
    · rw [hw] at hu; cases hu; exact le_refl _
    · rw [hw] at hu; cases hu; exact Nat.le_add_right _ _
    · show PingTime.ns w ≤ PingTime.ns o.interestLifetime + d
      omega)
  have e1 : (machine v late digest o).step (machine v late digest o).init ⟨.timer, PingTime.ns w⟩ =
      { s := { prog := (Peek.start digest o).step o .timer, now := PingTime.ns w, rtt := none, ub := false },
        err := (start v digest o).err ++ (if v.verbose then message v ⟨.timer, PingTime.ns w⟩ else []) } := by
    show VSt.step v o (start v digest o) _ = _
    unfold VSt.step
    rw [if_neg (by show ¬ (PeekTime.start digest o).ub = true; rw [hu]; simp)]
    unfold PeekTime.St.step
    rw [if_neg (by show ¬ (PeekTime.start digest o).ub = true; rw [hu]; simp)]
    simp only [start, hu]
    rfl
  rw [e1] at r1
  have r2 := Machine.Run.snoc (M := machine v late digest o) (PeekTime.Ev.mk (.data d) (PingTime.ns w)) r1 (by
    refine ⟨rfl, le_refl _, fun h => (by cases h), fun h => (by cases h), fun d hd => ?_⟩
    refine ⟨fun h => (by cases h), fun _ => ?_⟩
    show PingTime.ns w ≤ PingTime.ns w + d
    exact Nat.le_add_right _ _)
  have hx : ((machine v late digest o).step _ ⟨.data d, PingTime.ns w⟩).s.prog.Exits 0 :=
    (C107_peek_status hc hv hr r2 0).mpr (by
      unfold status
      rw [lines_eq hc hv hr r2, outcomes]
      rfl)
  have := ht _ _ r2 (by
    rw [lines_eq hc hv hr r2]
    simp [allLines, evLines]) 0 hx
  cases this

/-- **C107 (ndnpeek, what does hold)** Without a time limit of its own the program prints one outcome, and `TIMEOUT` means exit status 3. Missing from the
claim: the time limit. -/
theorem C107_peek_partial (hc : v.Clean) (hv : v.verbose = true) (hr : PeekTime.InRange o) (ho : o.timeout = none) {es x}
    (h : (machine v late digest o).Run es x) (n : Nat) (hx : x.s.prog.Exits n) :
    (lines x.err).filterMap outcome = [n] ∧ (text "TIMEOUT" ∈ lines x.err ↔ n = 3) := by
  have hrun := (PeekTime.inv hr (project h)).run
  have hs := (C107_peek_status hc hv hr h n).mp hx
  have hone : ∀ {ks s}, (Peek.machine digest o).Run ks s → s.timer = false ∧ ((ks = [] ∧ s.pending = true) ∨ (ks.length = 1 ∧ s.pending = false)) := by
    intro ks s hrun
    induction hrun with
    | nil => exact ⟨by show o.timeout.isSome = false; rw [ho]; rfl, .inl ⟨rfl, rfl⟩⟩
    | @snoc ks s e h he ih =>
      obtain ⟨h1, h2⟩ := ih
      cases e with
      | timer => have he : s.timer = true := he; rw [h1] at he; cases he
      | _ =>
        have he : s.pending = true := he
        rcases h2 with ⟨rfl, -⟩ | ⟨-, h2⟩
        · exact ⟨rfl, .inr ⟨rfl, rfl⟩⟩
        · rw [h2] at he; cases he
  have hnt : ∀ e ∈ es, e.kind ≠ .timer := by
    intro e he hk
    have h1 := (Peek.C33_interest hrun).2 (List.mem_map.mpr ⟨e, he, hk⟩)
    exact h1 ho
  unfold status at hs
  rw [lines_eq hc hv hr h] at hs ⊢
  rw [outcomes] at hs ⊢
  obtain ⟨-, h1 | h1⟩ := hone hrun
  · rw [List.map_eq_nil_iff.mp h1.1] at hs; cases hs
  · rw [List.length_map] at h1
    match es, h1.1 with
    | [e], _ =>
      have hn : code e.kind = n := by simpa using hs
      subst hn
      refine ⟨rfl, ?_⟩
      have hfirst : text "TIMEOUT" ≠ firstLine v digest o := fun hh => ne_of_head _ (by decide) hh.symm
      have h0 : text "TIMEOUT" ≠ [] := by decide
      have hdata : ∀ u, text "TIMEOUT" ≠ text "DATA: " ++ u := fun u hh => ne_of_head _ (by decide) hh.symm
      have hnack : ∀ u, text "TIMEOUT" ≠ text "NACK: " ++ u := fun u hh => ne_of_head _ (by decide) hh.symm
      have hrtt : ∀ u, text "TIMEOUT" ≠ text "RTT: " ++ u := fun u hh => ne_of_head _ (by decide) hh.symm
      unfold allLines evLines code
      cases hk : e.kind <;> simp [hfirst, h0, hk, hdata, hnack, hrtt]

private def exV : Env := { verbose := true, uri := fun _ => text "/A", interest := fun _ => text "/A?Lifetime=4000" }
private def exO : Peek.Opts := { name := [⟨8, [65]⟩], timeout := some 1000 }
private abbrev exM := machine exV (some 5000) id exO
private def exData : Data := { name := [⟨8, [65]⟩], content := [1] }

private theorem exClean : exV.Clean := ⟨fun _ => (by decide : (10 : UInt8) ∉ text "/A"), fun _ => (by decide : (10 : UInt8) ∉ text "/A?Lifetime=4000")⟩

/-- Beside the theorems about ndnpeek: a Data after 12.3 ms. -/
example : ∃ x, exM.Run [⟨.data exData, 12300000⟩] x ∧ x.err = text "INTEREST: /A?Lifetime=4000\nDATA: /A\nRTT: 12 ms\n" ∧ x.s.prog.Exits 0 ∧
    PeekTime.InRange exO :=
  ⟨_, Machine.exec_run (M := exM) (s := (exM.exec exM.init [⟨.data exData, 12300000⟩]).get (by decide +kernel)) (Option.some_get _).symm,
    by decide +kernel, by decide +kernel, by unfold PeekTime.InRange; decide⟩

/-- Beside `C107_peek_refuted` and `C107_peek_status`: a Nack just after the time limit. -/
example : ∃ x, exM.Run [⟨.timer, 1000003000⟩, ⟨.nack .noRoute, 1000003000⟩] x ∧
    x.err = text "INTEREST: /A?Lifetime=4000\nTIMEOUT\nNACK: NoRoute\nRTT: 1000 ms\n" ∧ x.s.prog.Exits 4 ∧ status x.err = some 4 ∧
    ¬ TimeoutMeans3 exV (some 5000) id exO :=
  ⟨_, Machine.exec_run (M := exM) (s := (exM.exec exM.init [⟨.timer, 1000003000⟩, ⟨.nack .noRoute, 1000003000⟩]).get (by decide +kernel))
    (Option.some_get _).symm, by decide +kernel, by decide +kernel, by decide +kernel,
    C107_peek_refuted exClean rfl (by unfold PeekTime.InRange; decide) rfl (by decide)⟩

/-- Beside `C107_peek_partial`: without a time limit, the lifetime is over. -/
example : let o : Peek.Opts := { name := [⟨8, [65]⟩] }
    ∃ x, (machine exV (some 5000) id o).Run [⟨.expire, 4000000000⟩] x ∧ x.s.prog.Exits 3 ∧ text "TIMEOUT" ∈ lines x.err :=
  let M := machine exV (some 5000) id { name := [⟨8, [65]⟩] }
  ⟨_, Machine.exec_run (M := M) (s := (M.exec M.init [⟨.expire, 4000000000⟩]).get (by decide +kernel)) (Option.some_get _).symm,
    by decide +kernel, by decide +kernel⟩

end Verif.PeekVerbose

namespace Verif.PokeVerbose

open PingOutput (lines words field)
open PeekVerbose (field_of field_none not_prefix ne_of_head)

variable {digest : Data → Bytes} {v : Env} {o : Poke.Opts} {input : Bytes}

theorem created (hn : o.name ≠ []) : ∃ d, Poke.createData o input = some d := PokeTime.created hn

theorem failure_first {es s} (h : (Poke.machine digest o input).Run es s) :
    es = [] ∨ (es = [.regFailure] ∧ s.registering = false ∧ s.active = false ∧ s.timer = false) ∨
      (Poke.Ev.regFailure ∉ es ∧ s.registering = false) := by
  have hinit : (Poke.start o input).active = false ∧ (Poke.start o input).timer = false := by
    unfold Poke.start
    split
    · exact ⟨rfl, rfl⟩
    · split <;> exact ⟨rfl, rfl⟩
  have key : ∀ {es s}, (Poke.machine digest o input).Run es s → (es = [] ∧ s = Poke.start o input) ∨
      (es = [.regFailure] ∧ s.registering = false ∧ s.active = false ∧ s.timer = false) ∨
      (Poke.Ev.regFailure ∉ es ∧ s.registering = false) := by
    intro es s h
    induction h with
    | nil => exact .inl ⟨rfl, rfl⟩
    | @snoc es s e h he ih =>
      right
      rcases ih with ⟨rfl, rfl⟩ | ⟨rfl, h1, h2, h3⟩ | ⟨h1, h2⟩
      · cases e with
        | regSuccess => exact .inr ⟨by simp, rfl⟩
        | regFailure => exact .inl ⟨rfl, rfl, hinit.1, hinit.2⟩
        | interest i => have he := he.1; rw [hinit.1] at he; cases he
        | timer => have he : (Poke.start o input).timer = true := he; rw [hinit.2] at he; cases he
      · exfalso
        cases e with
        | regSuccess => have he : s.registering = true := he; rw [h1] at he; cases he
        | regFailure => have he : s.registering = true := he; rw [h1] at he; cases he
        | interest i => have he := he.1; rw [h2] at he; cases he
        | timer => have he : s.timer = true := he; rw [h3] at he; cases he
      · right
        cases e with
        | regSuccess => have he : s.registering = true := he; rw [h2] at he; cases he
        | regFailure => have he : s.registering = true := he; rw [h2] at he; cases he
        | timer => exact ⟨by simpa using h1, h2⟩
        | interest i =>
          refine ⟨by simpa using h1, ?_⟩
          show (s.step digest o input (.interest i)).registering = false
          unfold Poke.St.step
          dsimp only
          split
          · exact h2
          · split <;> exact h2
  rcases key h with h | h | h
  · exact .inl h.1
  · exact .inr (.inl h)
  · exact .inr (.inr h)

/-- **C107 (ndnpoke, same behaviour)** With and without `--verbose` the program does the same. Without it, the standard error is empty unless the prefix
could not be registered; then it says so, and why. -/
theorem C107_poke_same (hn : o.name ≠ []) :
    (∀ es x, (machine digest v o input).Run es x → (Poke.machine digest o input).Run es x.s ∧
      (v.verbose = false → x.err =
        if Poke.Ev.regFailure ∈ es then text "Prefix registration failure (" ++ v.reason ++ text ")\n" else [])) ∧
    ∀ es s, (Poke.machine digest o input).Run es s → ∃ x, (machine digest v o input).Run es x ∧ x.s = s := by
  refine ⟨fun es x h => ⟨project h, fun hv => ?_⟩, fun es s h => lift h⟩
  obtain ⟨d, hd⟩ := created (input := input) hn
  have herr : ∀ {es x}, (machine digest v o input).Run es x → Poke.Ev.regFailure ∉ es → x.err = [] := by
    intro es x h
    induction h with
    | nil =>
      intro _
      show (start v o input).err = []
      unfold start
      dsimp only
      rw [hd]
      dsimp only
      rw [hv, Bool.and_false]; rfl
    | @snoc es x e h he ih =>
      intro hm
      rw [List.mem_append, not_or] at hm
      show x.err ++ message digest v o input e = []
      rw [ih hm.1]
      cases e with
      | regFailure => exact absurd (List.mem_singleton.mpr rfl) hm.2
      | regSuccess => simp [message, hv]
      | timer => simp [message, hv]
      | interest i =>
        simp [message, hv, hd]
  rcases failure_first (project h) with rfl | ⟨rfl, -⟩ | ⟨hm, -⟩
  · rw [herr h (by simp), if_neg (by simp)]
  · rw [if_pos (by simp)]
    generalize hes : [Poke.Ev.regFailure] = es at h
    cases h with
    | nil => cases hes
    | @snoc es' x e h he =>
      obtain ⟨rfl, rfl⟩ : es' = [] ∧ e = .regFailure := by
        cases es' with
        | nil => simpa using hes.symm
        | cons a l => simp at hes
      show x.err ++ message digest v o input .regFailure = _
      rw [herr h (by simp)]
      simp [message, show text ")\n" = text ")" ++ text "\n" by decide]
  · rw [herr h hm, if_neg hm]

/-- **C107 (ndnpoke, exit status)** When the program ends, the last line that tells an outcome goes with the exit status, also if Interests come in just
after the time limit. -/
theorem C107_poke_status (hc : v.Clean) (hv : v.verbose = true) (hn : o.name ≠ []) {es x} (h : (machine digest v o input).Run es x) {n : Nat}
    (hx : x.s.Exits n) : status x.err = some n := by
  obtain ⟨d, hd⟩ := created (input := input) hn
  have hrun := project h
  unfold status
  rw [lines_eq hc hv hd h, outcomes hc, result_last hd hrun]
  have h3 : n = 0 ∨ n = 3 ∨ n = 5 := by
    cases hu : o.wantUnsolicited with
    | true => exact .inl (((Poke.C34_unsolicited hn hu hrun).2.2 n).mp hx)
    | false => exact ((Poke.C34_outcome_partial hn hu hrun).2.2 n hx).2.2.2
  unfold Poke.St.Exits at hx
  split at hx
  · omega
  · obtain ⟨-, -, -, rfl⟩ := hx
    cases hres : x.s.result <;> rw [hres] at h3 <;> first | rfl | (simp [Poke.Result.code] at h3)

/-- **C107 (ndnpoke, Interests and Data)** The lines `INTEREST` name the Interests that came in, in this order. There are as many lines `DATA` as Data that
were sent, and each Interest that was not answered is followed by a line that says so. -/
theorem C107_poke_lines (hc : v.Clean) (hv : v.verbose = true) (hn : o.name ≠ []) {es x} (h : (machine digest v o input).Run es x) :
    (lines x.err).filterMap (field "INTEREST: ") = (interests es).map v.interest ∧
    ((lines x.err).filterMap (field "DATA: ")).length = x.s.sent.length ∧
    (o.wantUnsolicited = false →
      (lines x.err).count (text "Interest cannot be satisfied") + x.s.sent.length = (interests es).length) := by
  obtain ⟨d, hd⟩ := created (input := input) hn
  have hrun := project h
  have hP : text "Prefix registration failure (" = 80 :: text "refix registration failure (" := by decide
  have hI : text "INTEREST: " = 73 :: text "NTEREST: " := by decide
  have hD : text "DATA: " = 68 :: text "ATA: " := by decide
  have hM : text "MetaInfo: " = 77 :: text "etaInfo: " := by decide
  have hC : text "Content: " = 67 :: text "ontent: " := by decide
  have hS : text "Signature: " = 83 :: text "ignature: " := by decide
  have notI : ∀ (a : UInt8) (b : Bytes), a ≠ 73 → field "INTEREST: " (a :: b) = none := by
    intro a b ha
    refine if_neg ?_
    rintro ⟨t, ht⟩
    have := congrArg (fun l => l.head?) ht
    rw [hI] at this
    simp at this
    exact ha this.symm
  have notD : ∀ (a : UInt8) (b : Bytes), a ≠ 68 → field "DATA: " (a :: b) = none := by
    intro a b ha
    refine if_neg ?_
    rintro ⟨t, ht⟩
    have := congrArg (fun l => l.head?) ht
    rw [hD] at this
    simp at this
    exact ha this.symm
  have dataI : (dataLines v d).filterMap (field "INTEREST: ") = [] := by
    unfold dataLines
    rw [List.filterMap_cons, hD, List.cons_append, notI _ _ (by decide), more_none hc]
    intro k hk c
    simp only [List.mem_cons, List.not_mem_nil, or_false, hM, hC, hS] at hk
    rcases hk with rfl | rfl | rfl <;> exact notI _ _ (by decide)
  have dataD : (dataLines v d).filterMap (field "DATA: ") = [(v.data d).1] := by
    unfold dataLines
    rw [List.filterMap_cons, field_of, more_none hc]
    intro k hk c
    simp only [List.mem_cons, List.not_mem_nil, or_false, hM, hC, hS] at hk
    rcases hk with rfl | rfl | rfl <;> exact notD _ _ (by decide)
  refine ⟨?_, ?_, ?_⟩
  · rw [lines_eq hc hv hd h, read_lines d _ (by decide), dataI, ite_self, List.nil_append]
    clear h hrun
    induction es with
    | nil => rfl
    | cons e es ih =>
      rw [List.flatMap_cons, ih]
      cases e with
      | regSuccess => exact congrArg (· ++ _) (by decide : [text "Prefix registration successful"].filterMap (field "INTEREST: ") = [])
      | regFailure =>
        show [text "Prefix registration failure (" ++ v.reason ++ text ")"].filterMap _ ++ _ = _
        rw [hP, List.filterMap_cons, List.cons_append, List.cons_append, notI _ _ (by decide)]; rfl
      | timer => exact congrArg (· ++ _) (by decide : [text "TIMEOUT"].filterMap (field "INTEREST: ") = [])
      | interest i =>
        have : (evLines digest v d (.interest i)).filterMap (field "INTEREST: ") = [v.interest i] := by
          unfold evLines
          dsimp only
          rw [List.filterMap_cons, field_of]
          dsimp only
          split
          · rw [dataI]
          · exact congrArg (_ :: ·) (by decide : [text "Interest cannot be satisfied"].filterMap (field "INTEREST: ") = [])
        rw [this]; rfl
  · rw [lines_eq hc hv hd h, read_lines d _ (by decide), dataD, sent_eq hd hrun, List.length_append]
    congr 1
    · split <;> rfl
    · clear h hrun
      induction es with
      | nil => rfl
      | cons e es ih =>
        rw [List.flatMap_cons, List.length_append, ih]
        cases e with
        | regSuccess => exact congrArg (·.length + _) (by decide : [text "Prefix registration successful"].filterMap (field "DATA: ") = []) |>.trans (Nat.zero_add _)
        | regFailure =>
          have : (evLines digest v d .regFailure).filterMap (field "DATA: ") = [] := by
            show [text "Prefix registration failure (" ++ v.reason ++ text ")"].filterMap _ = _
            rw [hP, List.filterMap_cons, List.cons_append, List.cons_append, notD _ _ (by decide)]; rfl
          rw [this]; exact Nat.zero_add _
        | timer => exact congrArg (·.length + _) (by decide : [text "TIMEOUT"].filterMap (field "DATA: ") = []) |>.trans (Nat.zero_add _)
        | interest i =>
          unfold evLines interests
          dsimp only
          rw [List.filterMap_cons, hI, List.cons_append, notD _ _ (by decide)]
          dsimp only
          by_cases hm : i.matchesData digest d = true
          · rw [if_pos hm, dataD]; simp [hm]; omega
          · rw [if_neg hm]
            simp [hm]
            exact (by decide : field "DATA: " (text "Interest cannot be satisfied") = none)
  · intro hu
    have hne : ∀ (a : UInt8) (b : Bytes), a ≠ 73 → (a :: b) ≠ text "Interest cannot be satisfied" := by
      intro a b ha hh
      rw [show text "Interest cannot be satisfied" = 73 :: text "nterest cannot be satisfied" by decide] at hh
      injection hh with h1 _
      exact ha h1
    have cData : (dataLines v d).count (text "Interest cannot be satisfied") = 0 := by
      rw [List.count_eq_zero]
      intro hl
      unfold dataLines at hl
      rw [List.mem_cons] at hl
      rcases hl with hl | hl
      · rw [hD] at hl; exact hne _ _ (by decide) hl.symm
      · rcases (hc.more d _ hl).2 with ⟨c, hc⟩ | ⟨c, hc⟩ | ⟨c, hc⟩
        · rw [hM] at hc; exact hne _ _ (by decide) hc
        · rw [hC] at hc; exact hne _ _ (by decide) hc
        · rw [hS] at hc; exact hne _ _ (by decide) hc
    rw [lines_eq hc hv hd h, sent_eq hd hrun, allLines, if_neg (by rw [hu]; simp), if_neg (by rw [hu]; simp), List.nil_append, List.count_append,
      show List.count (text "Interest cannot be satisfied") [[]] = 0 by decide, Nat.add_zero, Nat.zero_add]
    clear h hrun
    induction es with
    | nil => rfl
    | cons e es ih =>
      rw [List.flatMap_cons, List.count_append]
      cases e with
      | regSuccess =>
        show List.count _ [text "Prefix registration successful"] + _ + _ = _
        rw [show List.count (text "Interest cannot be satisfied") [text "Prefix registration successful"] = 0 by decide, Nat.zero_add]
        exact ih
      | regFailure =>
        have : (evLines digest v d .regFailure).count (text "Interest cannot be satisfied") = 0 := by
          rw [List.count_eq_zero]
          intro hl
          have hl := List.mem_singleton.mp hl
          rw [hP] at hl
          exact hne _ _ (by decide) hl.symm
        rw [this, Nat.zero_add]
        exact ih
      | timer =>
        show List.count _ [text "TIMEOUT"] + _ + _ = _
        rw [show List.count (text "Interest cannot be satisfied") [text "TIMEOUT"] = 0 by decide, Nat.zero_add]
        exact ih
      | interest i =>
        have hfirst : text "INTEREST: " ++ v.interest i ≠ text "Interest cannot be satisfied" := ne_of_head _ (by decide)
        have hint : interests (.interest i :: es) = i :: interests es := rfl
        rw [hint]
        rw [show evLines digest v d (.interest i) = (text "INTEREST: " ++ v.interest i) ::
          (if i.matchesData digest d then dataLines v d else [text "Interest cannot be satisfied"]) from rfl, List.count_cons_of_ne hfirst]
        by_cases hm : i.matchesData digest d = true
        · rw [if_pos hm, cData, List.filter_cons_of_pos (p := fun i => Interest.matchesData digest i d) hm, List.length_cons, List.length_cons]; omega
        · rw [if_neg hm, List.filter_cons_of_neg (p := fun i => Interest.matchesData digest i d) hm, List.count_cons_self, List.count_nil, List.length_cons]; omega

/-- **C107 (ndnpoke, refuted)** It is not so that the line `TIMEOUT` means exit status 3: an Interest that comes in while the program is ending is
answered, `DATA` is printed, and the exit status is 0. -/
theorem C107_poke_refuted (hc : v.Clean) (hv : v.verbose = true) :
    ¬ TimeoutMeans3 (fun _ => []) v { name := [⟨8, [65]⟩], timeout := some 1000 } [1, 2, 3] := by
  intro ht
  obtain ⟨s, hs, hx⟩ : ∃ s, (Poke.machine (fun _ => []) { name := [⟨8, [65]⟩], timeout := some 1000 } [1, 2, 3]).Run
      [.regSuccess, .timer, .interest Poke.exI] s ∧ s.Exits 0 :=
    ⟨_, Machine.exec_run (M := Poke.machine (fun _ => []) { name := [⟨8, [65]⟩], timeout := some 1000 } [1, 2, 3])
      (s := ((Poke.machine (fun _ => []) { name := [⟨8, [65]⟩], timeout := some 1000 } [1, 2, 3]).exec
        (Poke.machine (fun _ => []) { name := [⟨8, [65]⟩], timeout := some 1000 } [1, 2, 3]).init
        [.regSuccess, .timer, .interest Poke.exI]).get (by decide)) (Option.some_get _).symm, by decide⟩
  obtain ⟨x, h, rfl⟩ := lift (v := v) hs
  have := ht _ _ h (by
    rw [lines_eq hc hv (d := { name := [⟨8, [65]⟩], content := [1, 2, 3] }) (by decide) h]
    simp [allLines, evLines]) 0 hx
  cases this

private def exV : Env :=
  { verbose := true, interest := fun _ => text "/A", data := fun _ => (text "Name: /A", [text "MetaInfo: [ContentType: 0]", text "Content: [3 bytes]"]),
    reason := text "no route" }
private theorem exClean : exV.Clean where
  interest _ := (by decide : (10 : UInt8) ∉ text "/A")
  reason := by decide
  data _ := (by decide : (10 : UInt8) ∉ text "Name: /A")
  more _ := (by decide : ∀ l ∈ [text "MetaInfo: [ContentType: 0]", text "Content: [3 bytes]"], (10 : UInt8) ∉ l ∧
    (text "MetaInfo: " <+: l ∨ text "Content: " <+: l ∨ text "Signature: " <+: l))
private def exO : Poke.Opts := { name := [⟨8, [65]⟩], timeout := some 1000 }
private abbrev exM := machine (fun _ => []) exV exO [1, 2, 3]
private def exFresh : Interest := { name := [⟨8, [65]⟩], canBePrefix := false, mustBeFresh := true }

/-- Beside the theorems about ndnpoke: an Interest that the Data does not satisfy, the time limit, and an Interest that the Data satisfies. -/
example : ∃ x, exM.Run [.regSuccess, .interest exFresh, .timer, .interest Poke.exI] x ∧ x.err = text (
    "Prefix registration successful\nINTEREST: /A\nInterest cannot be satisfied\nTIMEOUT\n" ++
    "INTEREST: /A\nDATA: Name: /A\nMetaInfo: [ContentType: 0]\nContent: [3 bytes]\n") ∧ x.s.Exits 0 ∧ status x.err = some 0 ∧
    ¬ TimeoutMeans3 (fun _ => []) exV exO [1, 2, 3] :=
  ⟨_, Machine.exec_run (M := exM) (s := (exM.exec exM.init [.regSuccess, .interest exFresh, .timer, .interest Poke.exI]).get (by decide +kernel))
    (Option.some_get _).symm, by decide +kernel, by decide +kernel, by decide +kernel, C107_poke_refuted exClean rfl⟩

/-- Beside `C107_poke_same`: the prefix is not registered, without `--verbose`. -/
example : let v := { exV with verbose := false }
    ∃ x, (machine (fun _ => []) v exO [1, 2, 3]).Run [.regFailure] x ∧ x.err = text "Prefix registration failure (no route)\n" ∧ x.s.Exits 5 :=
  let M := machine (fun _ => []) { exV with verbose := false } exO [1, 2, 3]
  ⟨_, Machine.exec_run (M := M) (s := (M.exec M.init [.regFailure]).get (by decide +kernel)) (Option.some_get _).symm,
    by decide +kernel, by decide +kernel⟩

end Verif.PokeVerbose
