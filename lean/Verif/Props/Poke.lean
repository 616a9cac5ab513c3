import Verif.Model.Poke

/-! # C34: ndnpoke -/

namespace Verif.Poke

/-- The run in which no Interest arrives any more once the prefix was cancelled. -/
def prompt (digest : Data → Bytes) (o : Opts) (input : Bytes) : Machine St Ev :=
  { machine digest o input with
    enabled := fun s e => s.enabled o e ∧ ∀ i, e = .interest i → s.cancelled = false }

instance (digest : Data → Bytes) (o : Opts) (input : Bytes) (s : St) (e : Ev) :
    Decidable ((prompt digest o input).enabled s e) := by
  show Decidable (s.enabled o e ∧ ∀ i, e = .interest i → s.cancelled = false)
  cases e with
  | interest i => exact decidable_of_iff (s.enabled o (.interest i) ∧ s.cancelled = false) (by simp)
  | regSuccess => exact decidable_of_iff (s.enabled o .regSuccess) (by simp)
  | regFailure => exact decidable_of_iff (s.enabled o .regFailure) (by simp)
  | timer => exact decidable_of_iff (s.enabled o .timer) (by simp)

/-- The Data that ndnpoke is asked to send: the name and freshness of the options, the content of the standard input, and
the last name component as FinalBlockId if wanted. -/
def IsRequested (o : Opts) (input : Bytes) (d : Data) : Prop :=
  d.name = o.name ∧ d.content = input ∧ d.freshness = o.freshnessPeriod ∧
  (o.wantFinalBlockId = false → d.final = none) ∧
  (o.wantFinalBlockId = true → ∃ p c, o.name = p ++ [c] ∧ d.final = some c)

/-- The Interests of the run that the Data `d` satisfies. -/
def matching (digest : Data → Bytes) (d : Data) (es : List Ev) : List Ev :=
  es.filter fun e => match e with
    | .interest i => i.matchesData digest d
    | _ => false

private theorem createData_ok {o : Opts} {input d} (h : createData o input = some d) : IsRequested o input d := by
  unfold createData at h
  split at h
  · cases h
  · rename_i c hw hc
    cases h
    refine ⟨rfl, rfl, rfl, (fun h => by rw [hw] at h; cases h), fun _ => ?_⟩
    obtain ⟨p, hp⟩ := List.getLast?_eq_some_iff.mp hc
    exact ⟨p, c, hp, rfl⟩
  · rename_i hw
    cases h
    exact ⟨rfl, rfl, rfl, fun _ => rfl, fun h => by rw [hw] at h; cases h⟩

private theorem matching_snoc (digest : Data → Bytes) (d : Data) (es : List Ev) (e : Ev) :
    matching digest d (es ++ [e]) = matching digest d es ++ matching digest d [e] := by
  unfold matching; rw [List.filter_append]

/-- In a run without `wantUnsolicited` and with a valid Data. -/
private structure Inv (digest : Data → Bytes) (o : Opts) (d : Data) (es : List Ev) (s : St) : Prop where
  ok : s.threw = false
  sent : s.sent = List.replicate (matching digest d es).length d
  reg : s.registering = true ↔ es = []
  act : s.active = true ↔ Ev.regSuccess ∈ es
  fail : Ev.regFailure ∈ es → es = [.regFailure]
  can : s.cancelled = true ↔ (s.sent ≠ [] ∨ Ev.timer ∈ es)
  tim : s.timer = true ↔ (o.timeout.isSome = true ∧ Ev.regSuccess ∈ es ∧ s.cancelled = false)
  tmo : Ev.timer ∈ es → Ev.regSuccess ∈ es
  res : s.result = if s.sent ≠ [] then .dataSent else if Ev.timer ∈ es then .timeout else
    if Ev.regFailure ∈ es then .prefixRegFail else .unknown

private theorem inv {digest : Data → Bytes} {o : Opts} {input : Bytes} {d} (hd : createData o input = some d)
    (hu : o.wantUnsolicited = false) {es s} (h : (machine digest o input).Run es s) : Inv digest o d es s := by
  induction h with
  | nil =>
    have e : (machine digest o input).init = { registering := true } := by
      show start o input = _
      unfold start; rw [hd]; dsimp only; rw [hu]; rfl
    rw [e]
    exact ⟨rfl, rfl, by simp, by simp, by simp, by simp, by simp, by simp, by simp⟩
  | snoc e h he ih =>
    rename_i es s
    have hst : (machine digest o input).step = St.step digest o input := rfl
    rw [hst]
    have he' : s.enabled o e := he
    cases e with
    | regSuccess =>
      have hn := ih.reg.mp he'
      subst hn
      have hs : s.sent = [] := ih.sent
      have hc : s.cancelled = false := by
        cases hcc : s.cancelled
        · rfl
        · have := ih.can.mp hcc; simp [hs] at this
      have hr := ih.res
      refine ⟨ih.ok, hs, by simp [St.step], by simp [St.step], by simp, ?_, ?_, by simp, ?_⟩
      · simp [St.step, hs, hc]
      · simp [St.step, hc]
      · simpa [St.step, hs] using hr
    | regFailure =>
      have hn := ih.reg.mp he'
      subst hn
      have hs : s.sent = [] := ih.sent
      have hc : s.cancelled = false := by
        cases hcc : s.cancelled
        · rfl
        · have := ih.can.mp hcc; simp [hs] at this
      have ht : s.timer = false := by
        cases hcc : s.timer
        · rfl
        · have := ih.tim.mp hcc; simp at this
      have ha : s.active = false := by
        cases hcc : s.active
        · rfl
        · have := ih.act.mp hcc; simp at this
      refine ⟨ih.ok, hs, by simp [St.step], by simp [St.step, ha], by simp, ?_, ?_, by simp, ?_⟩
      · simp [St.step, hs, hc]
      · simp [St.step, ht]
      · simp [St.step, hs]
    | timer =>
      have ht : s.timer = true := he'
      obtain ⟨h1, h2, h3⟩ := ih.tim.mp ht
      have hs : s.sent = [] := by
        by_cases hx : s.sent = []
        · exact hx
        · have := ih.can.mpr (Or.inl hx); rw [h3] at this; cases this
      have hne : es ≠ [] := by rintro rfl; cases h2
      have hnf : Ev.regFailure ∉ es := by
        intro hx; rw [ih.fail hx] at h2; simp at h2
      refine ⟨ih.ok, ?_, ?_, ?_, ?_, ?_, ?_, ?_, ?_⟩
      · rw [matching_snoc]
        have : matching digest d [Ev.timer] = [] := rfl
        rw [this, List.append_nil]; exact ih.sent
      · have : s.registering = true ↔ es = [] := ih.reg
        simpa [St.step, hne] using this
      · have := ih.act
        simpa [St.step] using this
      · intro hx; simp at hx; exact absurd hx hnf
      · simp [St.step]
      · simp [St.step]
      · intro _; simp [h2]
      · simp [St.step, hs]
    | interest i =>
      have ha : s.active = true := he'.1
      have hreg := ih.act.mp ha
      have hne : es ≠ [] := by rintro rfl; cases hreg
      have hnf : Ev.regFailure ∉ es := by
        intro hx; rw [ih.fail hx] at hreg; simp at hreg
      have e1 : St.step digest o input s (.interest i) =
          if i.matchesData digest d then { s with timer := false, cancelled := true }.sendData d else s := by
        unfold St.step; rw [hd]
      have hr1 : (Ev.regSuccess ∈ es ++ [Ev.interest i]) ↔ Ev.regSuccess ∈ es := by simp
      have hr2 : (Ev.timer ∈ es ++ [Ev.interest i]) ↔ Ev.timer ∈ es := by simp
      have hr3 : (Ev.regFailure ∈ es ++ [Ev.interest i]) ↔ Ev.regFailure ∈ es := by simp
      have hr4 : es ++ [Ev.interest i] = [] ↔ es = [] := by simp [hne]
      rw [e1]
      by_cases hm : i.matchesData digest d = true
      · rw [if_pos hm]
        have e2 : matching digest d [Ev.interest i] = [Ev.interest i] := by
          unfold matching; rw [List.filter_cons, if_pos hm]; rfl
        refine ⟨ih.ok, ?_, ?_, ?_, ?_, ?_, ?_, ?_, ?_⟩
        · rw [matching_snoc, e2, List.length_append, List.length_singleton, List.replicate_succ', ← ih.sent]; rfl
        · rw [hr4]; exact ih.reg
        · rw [hr1]; exact ih.act
        · rw [hr3]; intro hx; exact absurd hx hnf
        · simp [St.sendData]
        · simp [St.sendData]
        · rw [hr1, hr2]; exact ih.tmo
        · simp [St.sendData]
      · rw [if_neg hm]
        have e2 : matching digest d [Ev.interest i] = [] := by
          unfold matching; rw [List.filter_cons, if_neg hm]; rfl
        refine ⟨ih.ok, ?_, ?_, ?_, ?_, ?_, ?_, ?_, ?_⟩
        · rw [matching_snoc, e2, List.append_nil]; exact ih.sent
        · rw [hr4]; exact ih.reg
        · rw [hr1]; exact ih.act
        · rw [hr3]; intro hx; exact absurd hx hnf
        · rw [hr2]; exact ih.can
        · rw [hr1]; exact ih.tim
        · rw [hr1, hr2]; exact ih.tmo
        · have := ih.res
          simpa only [hr2, hr3] using this

private theorem no_events {digest : Data → Bytes} {o : Opts} {input : Bytes}
    (hi : (start o input).registering = false ∧ (start o input).active = false ∧ (start o input).timer = false)
    {es s} (h : (machine digest o input).Run es s) : es = [] ∧ s = start o input := by
  induction h with
  | nil => exact ⟨rfl, rfl⟩
  | snoc e h he ih =>
    obtain ⟨_, rfl⟩ := ih
    have he' : (start o input).enabled o e := he
    cases e <;> unfold St.enabled at he'
    · rw [hi.1] at he'; cases he'
    · rw [hi.1] at he'; cases he'
    · rw [hi.2.1] at he'; cases he'.1
    · rw [hi.2.2] at he'; cases he'

/-- **C34 (Data)** Every Data that is sent is the requested one. -/
theorem C34_data {digest : Data → Bytes} {o : Opts} {input : Bytes} {es s}
    (h : (machine digest o input).Run es s) : ∀ d ∈ s.sent, IsRequested o input d := by
  intro d hd
  cases hc : createData o input with
  | none =>
    have e : start o input = { threw := true } := by unfold start; rw [hc]
    have := (no_events (by rw [e]; exact ⟨rfl, rfl, rfl⟩) h).2
    rw [this, e] at hd; cases hd
  | some d0 =>
    cases hu : o.wantUnsolicited with
    | true =>
      have e : start o input = St.sendData {} d0 := by unfold start; rw [hc]; dsimp only; rw [hu]; rfl
      have := (no_events (by rw [e]; exact ⟨rfl, rfl, rfl⟩) h).2
      rw [this, e] at hd
      have : d = d0 := by simpa [St.sendData] using hd
      rw [this]; exact createData_ok hc
    | false =>
      have := (inv hc hu h).sent
      rw [this] at hd
      rw [List.eq_of_mem_replicate hd]
      exact createData_ok hc

/-- **C34 (unsolicited)** When asked to send unsolicited Data, the program sends the requested Data exactly once, waits for
nothing and terminates with status 0. (An empty name is refused by the command line.) -/
theorem C34_unsolicited {digest : Data → Bytes} {o : Opts} {input : Bytes} (hn : o.name ≠ [])
    (hu : o.wantUnsolicited = true) {es s} (h : (machine digest o input).Run es s) :
    es = [] ∧ (∃ d, s.sent = [d] ∧ IsRequested o input d) ∧ ∀ n, s.Exits n ↔ n = 0 := by
  obtain ⟨d, hd⟩ : ∃ d, createData o input = some d := by
    unfold createData
    split
    · rename_i hl; exact absurd (List.getLast?_eq_none_iff.mp hl) hn
    · exact ⟨_, rfl⟩
    · exact ⟨_, rfl⟩
  have e : start o input = St.sendData {} d := by unfold start; rw [hd]; dsimp only; rw [hu]; rfl
  obtain ⟨h1, h2⟩ := no_events (by rw [e]; exact ⟨rfl, rfl, rfl⟩) h
  rw [h2, e]
  refine ⟨h1, ⟨d, rfl, createData_ok hd⟩, ?_⟩
  intro n
  simp [St.sendData, St.Exits, Result.code]

/-- **C34 (no last component)** Asked to mark the last component of an empty name as the final one, the program (used without
its command line) fails at once with status 1: it registers nothing, sends nothing and waits for nothing. -/
theorem C34_empty_name {digest : Data → Bytes} {o : Opts} {input : Bytes} (hn : o.name = [])
    (hf : o.wantFinalBlockId = true) {es s} (h : (machine digest o input).Run es s) :
    es = [] ∧ s.sent = [] ∧ ∀ n, s.Exits n ↔ n = 1 := by
  have e : start o input = { threw := true } := by unfold start createData; rw [hn, hf]; rfl
  obtain ⟨h1, h2⟩ := no_events (by rw [e]; exact ⟨rfl, rfl, rfl⟩) h
  rw [h2, e]
  exact ⟨h1, rfl, fun n => by simp [St.Exits]⟩

/-- Such a run: nothing can happen. -/
example : ∃ o : Opts, o.name = [] ∧ o.wantFinalBlockId = true ∧
    (machine (fun _ => []) o [1]).Run [] (start o [1]) ∧ (start o [1]).Exits 1 :=
  ⟨{ name := [], wantFinalBlockId := true }, rfl, rfl, .nil, by decide⟩

/-- **C34 (in general)** Without the option for unsolicited Data: nothing is sent before the prefix is registered, and a Data
is sent once for every Interest it satisfies. The program terminates with status 0 exactly when it sent a Data, 5 exactly
when the registration failed, and 3 exactly when the time limit expired and no Data was sent; never 1. Missing from the
full claim: at most one Data is sent, and 3 whenever the time limit expired first; see `C34_refuted`
and `C34_prompt_partial`. -/
theorem C34_outcome_partial {digest : Data → Bytes} {o : Opts} {input : Bytes} (hn : o.name ≠ [])
    (hu : o.wantUnsolicited = false) {es s} (h : (machine digest o input).Run es s) :
    (∃ d, IsRequested o input d ∧ s.sent = List.replicate (matching digest d es).length d) ∧
    (s.sent ≠ [] → Ev.regSuccess ∈ es) ∧
    ∀ n, s.Exits n → (n = 0 ↔ s.sent ≠ []) ∧ (n = 5 ↔ Ev.regFailure ∈ es) ∧
      (n = 3 ↔ Ev.timer ∈ es ∧ s.sent = []) ∧ (n = 0 ∨ n = 3 ∨ n = 5) := by
  obtain ⟨d, hd⟩ : ∃ d, createData o input = some d := by
    unfold createData
    split
    · rename_i hl; exact absurd (List.getLast?_eq_none_iff.mp hl) hn
    · exact ⟨_, rfl⟩
    · exact ⟨_, rfl⟩
  have hi := inv hd hu h
  have hsr : s.sent ≠ [] → Ev.regSuccess ∈ es := by
    clear hi
    induction h with
    | nil =>
      intro hx
      exfalso; apply hx
      show (start o input).sent = []
      unfold start; rw [hd]; dsimp only; rw [hu]; rfl
    | snoc e h he ih =>
      rename_i es s
      intro hx
      have he' : s.enabled o e := he
      cases e with
      | interest i =>
        have := (inv hd hu h).act.mp he'.1
        simp [this]
      | regSuccess => simp
      | regFailure => exact List.mem_append_left _ (ih hx)
      | timer => exact List.mem_append_left _ (ih hx)
  refine ⟨⟨d, createData_ok hd, hi.sent⟩, hsr, ?_⟩
  intro n hx
  unfold St.Exits at hx
  rw [hi.ok] at hx
  obtain ⟨h1, h2, h3, h4⟩ : s.registering = false ∧ s.timer = false ∧ (s.active = true → s.cancelled = true) ∧
    n = s.result.code := hx
  have hres := hi.res
  by_cases hs : s.sent = []
  · by_cases ht : Ev.timer ∈ es
    · have hnf : Ev.regFailure ∉ es := by
        intro hf; rw [hi.fail hf] at ht; simp at ht
      rw [if_neg (not_not_intro hs), if_pos ht] at hres
      rw [hres] at h4
      subst h4
      simp [Result.code, hs, ht, hnf]
    · by_cases hf : Ev.regFailure ∈ es
      · rw [if_neg (not_not_intro hs), if_neg ht, if_pos hf] at hres
        rw [hres] at h4
        subst h4
        simp [Result.code, hs, ht, hf]
      · exfalso
        have hc : s.cancelled = false := by
          cases hcc : s.cancelled
          · rfl
          · exact absurd (hi.can.mp hcc) (by simp [hs, ht])
        have ha : s.active = false := by
          cases hcc : s.active
          · rfl
          · have := h3 hcc; rw [hc] at this; cases this
        have hne : es ≠ [] := by
          intro hz; have := hi.reg.mpr hz; rw [h1] at this; cases this
        -- the first event is a registration result
        have first : ∀ es s, (machine digest o input).Run es s → es ≠ [] → Ev.regSuccess ∈ es ∨ Ev.regFailure ∈ es := by
          intro es s h
          induction h with
          | nil => intro hz; exact absurd rfl hz
          | snoc e h he ih =>
            rename_i es s
            intro _
            by_cases hz : es = []
            · subst hz
              have hi := inv hd hu h
              have he' : s.enabled o e := he
              cases e with
              | regSuccess => simp
              | regFailure => simp
              | interest i => have := hi.act.mp he'.1; cases this
              | timer => have := (hi.tim.mp he').2.1; cases this
            · rcases ih hz with h | h
              · exact Or.inl (List.mem_append_left _ h)
              · exact Or.inr (List.mem_append_left _ h)
        rcases first es s h hne with h | h
        · have := hi.act.mpr h; rw [ha] at this; cases this
        · exact hf h
  · have hnf : Ev.regFailure ∉ es := by
      intro hf; have := hsr hs; rw [hi.fail hf] at this; simp at this
    rw [if_pos hs] at hres
    rw [hres] at h4
    subst h4
    simp [Result.code, hs, hnf]

private theorem prompt_run {digest : Data → Bytes} {o : Opts} {input : Bytes} {es s}
    (h : (prompt digest o input).Run es s) : (machine digest o input).Run es s := by
  induction h with
  | nil => exact .nil
  | snoc e h he ih => exact .snoc e ih he.1

/-- **C34 (when no Interest arrives after the prefix was cancelled)** At most one Data is sent. If the program
terminates, its exit status is 0 exactly when the Data was sent, 3 exactly when the time limit expired, and 5 exactly when
the registration failed. Missing from the full claim: the hypothesis. -/
theorem C34_prompt_partial {digest : Data → Bytes} {o : Opts} {input : Bytes} (hn : o.name ≠ [])
    (hu : o.wantUnsolicited = false) {es s} (h : (prompt digest o input).Run es s) :
    s.sent.length ≤ 1 ∧ (s.sent ≠ [] → Ev.timer ∉ es) ∧
    ∀ n, s.Exits n → (n = 0 ↔ s.sent.length = 1) ∧ (n = 5 ↔ Ev.regFailure ∈ es) ∧ (n = 3 ↔ Ev.timer ∈ es) := by
  obtain ⟨d, hd⟩ : ∃ d, createData o input = some d := by
    unfold createData
    split
    · rename_i hl; exact absurd (List.getLast?_eq_none_iff.mp hl) hn
    · exact ⟨_, rfl⟩
    · exact ⟨_, rfl⟩
  have key : s.sent.length ≤ 1 ∧ (s.sent ≠ [] → Ev.timer ∉ es) := by
    induction h with
    | nil =>
      have : (prompt digest o input).init.sent = [] := by
        show (start o input).sent = []
        unfold start; rw [hd]; dsimp only; rw [hu]; rfl
      rw [this]; simp
    | snoc e h he ih =>
      rename_i es s
      have hi := inv hd hu (prompt_run h)
      have hst : (prompt digest o input).step = St.step digest o input := rfl
      rw [hst]
      cases e with
      | regSuccess => simpa [St.step] using ih
      | regFailure => simpa [St.step] using ih
      | timer =>
        have ht : s.timer = true := he.1
        have hc := (hi.tim.mp ht).2.2
        have hs : s.sent = [] := by
          by_cases hx : s.sent = []
          · exact hx
          · have := hi.can.mpr (Or.inl hx); rw [hc] at this; cases this
        simp [St.step, hs]
      | interest i =>
        have hc : s.cancelled = false := he.2 i rfl
        have hns : ¬ (s.sent ≠ [] ∨ Ev.timer ∈ es) := by
          intro hx; have := hi.can.mpr hx; rw [hc] at this; cases this
        have hs : s.sent = [] := by
          by_cases hx : s.sent = []
          · exact hx
          · exact absurd (Or.inl hx) hns
        have ht : Ev.timer ∉ es := fun hx => hns (Or.inr hx)
        have e1 : St.step digest o input s (.interest i) =
            if i.matchesData digest d then { s with timer := false, cancelled := true }.sendData d else s := by
          unfold St.step; rw [hd]
        rw [e1]
        split
        · simp [St.sendData, hs, ht]
        · simp [hs]
  refine ⟨key.1, key.2, ?_⟩
  intro n hx
  obtain ⟨h1, h2, h3, h4⟩ := (C34_outcome_partial hn hu (prompt_run h)).2.2 n hx
  refine ⟨h1.trans ?_, h2, h3.trans ⟨fun h => h.1, fun h => ⟨h, ?_⟩⟩⟩
  · constructor
    · intro hz
      have := List.length_pos_iff.mpr hz
      have := key.1; omega
    · intro hz hz2; rw [hz2] at hz; cases hz
  · by_cases hz : s.sent = []
    · exact hz
    · exact absurd h (key.2 hz)

private def exOpts : Opts := { name := [⟨8, [65]⟩], timeout := some 1000, wantFinalBlockId := true }
private abbrev exM := machine (fun _ => []) exOpts [1, 2, 3]
def exI : Interest := { name := [⟨8, [65]⟩], canBePrefix := false, mustBeFresh := false }
def exJ : Interest := { name := [⟨8, [65]⟩], canBePrefix := true, mustBeFresh := false }

/-- **C34 refuted** Two Interests that arrive together are both answered, so the Data is sent twice; and an Interest that
arrives just after the time limit is answered, so that the status is 0 although the limit expired first. -/
theorem C34_refuted :
    (∃ o : Opts, ∃ s, (machine (fun _ => []) o [1, 2, 3]).Run [.regSuccess, .interest exI, .interest exJ] s ∧
      s.Exits 0 ∧ s.sent.length = 2) ∧
    (∃ o : Opts, ∃ s, (machine (fun _ => []) o [1, 2, 3]).Run [.regSuccess, .timer, .interest exI] s ∧
      s.Exits 0 ∧ s.sent.length = 1) :=
  ⟨⟨exOpts, _, Machine.exec_run (M := exM)
      (s := (exM.exec exM.init [.regSuccess, .interest exI, .interest exJ]).get (by decide))
      (Option.some_get _).symm, by decide, by decide⟩,
   ⟨exOpts, _, Machine.exec_run (M := exM)
      (s := (exM.exec exM.init [.regSuccess, .timer, .interest exI]).get (by decide))
      (Option.some_get _).symm, by decide, by decide⟩⟩

private abbrev exP := prompt (fun _ => []) exOpts [1, 2, 3]

/-- An Interest with MustBeFresh is not satisfied by Data without freshness; the next one is. -/
example : ∃ s, exP.Run [.regSuccess, .interest { exI with mustBeFresh := true }, .interest exI] s ∧ s.Exits 0 ∧
    s.sent = [{ name := [⟨8, [65]⟩], content := [1, 2, 3], final := some ⟨8, [65]⟩, freshness := 0 }] :=
  ⟨_, Machine.exec_run (M := exP)
      (s := (exP.exec exP.init [.regSuccess, .interest { exI with mustBeFresh := true }, .interest exI]).get (by decide))
      (Option.some_get _).symm, by decide, by decide⟩

/-- The time limit, and a failed registration. -/
example : (∃ s, exP.Run [.regSuccess, .timer] s ∧ s.Exits 3) ∧ (∃ s, exP.Run [.regFailure] s ∧ s.Exits 5) :=
  ⟨⟨_, Machine.exec_run (M := exP) (s := (exP.exec exP.init [.regSuccess, .timer]).get (by decide))
      (Option.some_get _).symm, by decide⟩,
   ⟨_, Machine.exec_run (M := exP) (s := (exP.exec exP.init [.regFailure]).get (by decide))
      (Option.some_get _).symm, by decide⟩⟩

end Verif.Poke
