import Verif.Model.Peek

/-! # C33: ndnpeek -/

namespace Verif.Peek

/-- What ndnpeek should write when a Data arrives. -/
def dataOutput (o : Opts) (d : Data) : Out := if o.wantPayloadOnly then .payload d.content else .packet d
/-- What ndnpeek should write when a Nack arrives. -/
def nackOutput (o : Opts) (r : NackReason) : Out := if o.wantPayloadOnly then .nackText r else .nackHeader r

/-- The event is an answer of the face. -/
def Ev.answer : Ev → Bool
  | .timer => false
  | _ => true

private structure Inv (digest : Bytes → Bytes) (o : Opts) (es : List Ev) (s : St) : Prop where
  int : s.interests = [createInterest digest o]
  pend : s.pending = true ↔ es.countP Ev.answer = 0
  one : es.countP Ev.answer ≤ 1
  tim : s.timer = true ↔ o.timeout.isSome = true ∧ es = []
  hnd : s.handle = false ↔ Ev.timer ∈ es
  timo : Ev.timer ∈ es → o.timeout.isSome = true
  cases : (∃ d, Ev.data d ∈ es ∧ s.result = .data ∧ s.out = [dataOutput o d]) ∨
    (∃ r, Ev.nack r ∈ es ∧ s.result = .nack ∧ s.out = [nackOutput o r]) ∨
    ((∀ d, Ev.data d ∉ es) ∧ (∀ r, Ev.nack r ∉ es) ∧ s.out = [] ∧
      s.result = if es = [] then .unknown else .timeout)

private theorem inv {digest : Bytes → Bytes} {o : Opts} {es s} (h : (machine digest o).Run es s) :
    Inv digest o es s := by
  induction h with
  | nil =>
    exact ⟨rfl, by simp [machine, start], by simp, by simp [machine, start], by simp [machine, start], by simp,
      Or.inr (Or.inr ⟨by simp, by simp, rfl, rfl⟩)⟩
  | snoc e h he ih =>
    rename_i es s
    have hst : (machine digest o).step = St.step o := rfl
    rw [hst]
    have hne : es ++ [e] ≠ [] := by simp
    by_cases ha : e.answer = true
    · have hp : s.pending = true := by
        have : s.enabled e := he
        cases e <;> first | exact this | cases ha
      have h0 := ih.pend.mp hp
      have hcnt : (es ++ [e]).countP Ev.answer = 1 := by
        rw [List.countP_append, h0, List.countP_singleton, if_pos ha]
      have hnone : ∀ x ∈ es, x = Ev.timer := by
        intro x hx
        have := (List.countP_eq_zero.mp h0) x hx
        cases x <;> first | rfl | exact absurd rfl this
      have hout : s.out = [] := by
        rcases ih.cases with ⟨d, hd, _⟩ | ⟨r, hr, _⟩ | ⟨_, _, ho, _⟩
        · cases hnone _ hd
        · cases hnone _ hr
        · exact ho
      have htm : Ev.timer ∈ es ++ [e] ↔ Ev.timer ∈ es := by
        rw [List.mem_append, List.mem_singleton]
        constructor
        · rintro (h | h)
          · exact h
          · rw [← h] at ha; cases ha
        · exact Or.inl
      refine ⟨?_, ?_, by omega, ?_, ?_, ?_, ?_⟩
      · cases e <;> exact ih.int
      · rw [hcnt]
        cases e <;> first | (cases ha; done) | simp [St.step, St.onData, St.onNack, St.onTimeout]
      · cases e <;> first | (cases ha; done) | simp [St.step, St.onData, St.onNack, St.onTimeout]
      · rw [htm]
        cases e <;> first | (cases ha; done) | exact ih.hnd
      · rw [htm]; exact ih.timo
      · cases e with
        | timer => cases ha
        | data d =>
          left
          refine ⟨d, by simp, rfl, ?_⟩
          show s.out ++ _ = _
          rw [hout]; rfl
        | nack r =>
          right; left
          refine ⟨r, by simp, rfl, ?_⟩
          show s.out ++ _ = _
          rw [hout]; rfl
        | expire =>
          right; right
          refine ⟨?_, ?_, hout, ?_⟩
          · intro d hd
            rcases List.mem_append.mp hd with hd | hd
            · cases hnone _ hd
            · simp at hd
          · intro d hd
            rcases List.mem_append.mp hd with hd | hd
            · cases hnone _ hd
            · simp at hd
          · rw [if_neg hne]; rfl
    · have e' : e = .timer := by cases e <;> first | rfl | exact absurd rfl ha
      subst e'
      have ht : s.timer = true := he
      obtain ⟨h1, h2⟩ := ih.tim.mp ht
      subst h2
      refine ⟨ih.int, ?_, by decide, ?_, by simp [St.step, St.onTimeout], fun _ => h1, ?_⟩
      · have := ih.pend
        simpa [St.step, St.onTimeout, Ev.answer] using this
      · simp [St.step, St.onTimeout]
      · right; right
        rcases ih.cases with ⟨d, hd, _⟩ | ⟨r, hr, _⟩ | ⟨_, _, ho, _⟩
        · cases hd
        · cases hr
        · exact ⟨by simp, by simp, ho, by rw [if_neg hne]; rfl⟩

/-- **C33 (outcome)** Whatever happens in whatever order (also a Data or Nack that arrives just after the time limit): if a
Data arrived, the result is 0 and the output is exactly this Data (or its payload); if a Nack arrived, the result is 4 and
the output is exactly its header (or reason); otherwise the output is empty and the result is 3 as soon as
the Interest or the time limit expired. At most one answer is reported. -/
theorem C33_outcome {digest : Bytes → Bytes} {o : Opts} {es s} (h : (machine digest o).Run es s) :
    es.countP Ev.answer ≤ 1 ∧
    (∀ d, Ev.data d ∈ es → s.result.code = 0 ∧ s.out = [dataOutput o d]) ∧
    (∀ r, Ev.nack r ∈ es → s.result.code = 4 ∧ s.out = [nackOutput o r]) ∧
    ((∀ d, Ev.data d ∉ es) → (∀ r, Ev.nack r ∉ es) →
      s.out = [] ∧ (Ev.expire ∈ es ∨ Ev.timer ∈ es → s.result.code = 3)) := by
  have hi := inv h
  have uniq : ∀ x y, x ∈ es → y ∈ es → x.answer = true → y.answer = true → x = y := by
    intro x y hx hy h1 h2
    refine Classical.byContradiction fun hne => ?_
    obtain ⟨a, b, e⟩ := List.append_of_mem hx
    have hy' : y ∈ a ++ b := by
      rw [e] at hy
      rcases List.mem_append.mp hy with hy | hy
      · simp [hy]
      · rcases List.mem_cons.mp hy with hy | hy
        · exact absurd hy.symm hne
        · simp [hy]
    have hc : 0 < (a ++ b).countP Ev.answer := List.countP_pos_iff.mpr ⟨y, hy', h2⟩
    have := hi.one
    rw [e, List.countP_append, List.countP_cons, if_pos h1] at this
    rw [List.countP_append] at hc
    omega
  refine ⟨hi.one, ?_, ?_, ?_⟩
  · intro d hd
    rcases hi.cases with ⟨d', hd', hr, ho⟩ | ⟨r, hr', _⟩ | ⟨hn, _⟩
    · have := uniq _ _ hd hd' rfl rfl
      cases this
      exact ⟨by rw [hr]; rfl, ho⟩
    · cases uniq _ _ hd hr' rfl rfl
    · exact absurd hd (hn d)
  · intro r hr
    rcases hi.cases with ⟨d', hd', _⟩ | ⟨r', hr', hre, ho⟩ | ⟨_, hn, _⟩
    · cases uniq _ _ hr hd' rfl rfl
    · have := uniq _ _ hr hr' rfl rfl
      cases this
      exact ⟨by rw [hre]; rfl, ho⟩
    · exact absurd hr (hn r)
  · intro h1 h2
    rcases hi.cases with ⟨d, hd, _⟩ | ⟨r, hr, _⟩ | ⟨_, _, ho, hre⟩
    · exact absurd hd (h1 d)
    · exact absurd hr (h2 r)
    · refine ⟨ho, ?_⟩
      intro hx
      rw [hre, if_neg (by rintro rfl; simp at hx)]
      rfl

/-- **C33 (exit status)** The program terminates exactly when an answer or the time limit has come, and its exit status is
then 0 if a Data arrived, 4 if a Nack arrived, and 3 otherwise; never 1. -/
theorem C33_exit {digest : Bytes → Bytes} {o : Opts} {es s} (h : (machine digest o).Run es s) :
    ((∃ n, s.Exits n) ↔ es ≠ []) ∧
    ∀ n, s.Exits n → (n = 0 ↔ ∃ d, Ev.data d ∈ es) ∧ (n = 4 ↔ ∃ r, Ev.nack r ∈ es) ∧
      (n = 0 ∨ n = 3 ∨ n = 4) := by
  have hi := inv h
  have hex : (∃ n, s.Exits n) ↔ es ≠ [] := by
    constructor
    · rintro ⟨n, ht, hp, _⟩ rfl
      have h1 := hp (hi.pend.mpr rfl)
      have h2 := hi.hnd.mp h1
      cases h2
    · intro hne
      refine ⟨_, ?_, ?_, rfl⟩
      · cases hs : s.timer
        · rfl
        · exact absurd (hi.tim.mp hs).2 hne
      · intro hp
        refine hi.hnd.mpr ?_
        obtain ⟨x, l, rfl⟩ := List.exists_cons_of_ne_nil hne
        have h0 := hi.pend.mp hp
        have := (List.countP_eq_zero.mp h0) x (by simp)
        cases x <;> first | exact absurd rfl this | simp
  refine ⟨hex, ?_⟩
  intro n hx
  have hne := hex.mp ⟨n, hx⟩
  obtain ⟨_, h1, h2, h3⟩ := C33_outcome h
  have hn := hx.2.2
  rcases hi.cases with ⟨d, hd, _⟩ | ⟨r, hr, _⟩ | ⟨hd, hr, _, hre⟩
  · have hc := (h1 d hd).1
    refine ⟨⟨fun _ => ⟨d, hd⟩, fun _ => by omega⟩, ⟨fun h => by omega, ?_⟩, by omega⟩
    rintro ⟨r, hr⟩
    have := (h2 r hr).1; omega
  · have hc := (h2 r hr).1
    refine ⟨⟨fun h => by omega, ?_⟩, ⟨fun _ => ⟨r, hr⟩, fun _ => by omega⟩, by omega⟩
    rintro ⟨d, hd⟩
    have := (h1 d hd).1; omega
  · rw [if_neg hne] at hre
    rw [hre] at hn
    have hn' : n = 3 := hn
    refine ⟨⟨fun h => by omega, ?_⟩, ⟨fun h => by omega, ?_⟩, by omega⟩
    · rintro ⟨d, h⟩; exact absurd h (hd d)
    · rintro ⟨r, h⟩; exact absurd h (hr r)

/-- **C33 (Interest)** Exactly one Interest is sent. Its fields are the options; with application parameters their digest is
appended to the name. A time limit applies only if it was given. -/
theorem C33_interest {digest : Bytes → Bytes} {o : Opts} {es s} (h : (machine digest o).Run es s) :
    (∃ i, s.interests = [i] ∧ i.canBePrefix = o.canBePrefix ∧ i.mustBeFresh = o.mustBeFresh ∧
      i.forwardingHint = o.forwardingHint ∧ i.lifetime = o.interestLifetime ∧ i.hopLimit = o.hopLimit ∧
      i.applicationParameters = o.applicationParameters ∧
      (o.applicationParameters = none → i.name = o.name) ∧
      (∀ b, o.applicationParameters = some b → i.name = o.name ++ [⟨2, digest b⟩])) ∧
    (Ev.timer ∈ es → o.timeout ≠ none) := by
  have hi := inv h
  refine ⟨⟨_, hi.int, rfl, rfl, rfl, rfl, rfl, rfl, ?_, ?_⟩, ?_⟩
  · intro hn
    unfold createInterest
    rw [hn]
    simp
  · intro b hb
    unfold createInterest
    rw [hb]
    rfl
  · intro ht
    have := hi.timo ht
    intro hn
    rw [hn] at this
    cases this

/-- The time limit expires, and the Data arrives just before the program ends: the Data is reported. -/
example : ∃ s, (machine id { name := [⟨8, [65]⟩], timeout := some 1000, wantPayloadOnly := true }).Run
    [.timer, .data { name := [⟨8, [65]⟩], content := [1, 2] }] s ∧ s.Exits 0 ∧ s.out = [.payload [1, 2]] :=
  let M := machine id { name := [⟨8, [65]⟩], timeout := some 1000, wantPayloadOnly := true }
  ⟨_, Machine.exec_run (M := M) (s := (M.exec M.init [.timer, .data { name := [⟨8, [65]⟩], content := [1, 2] }]).get (by decide))
    (Option.some_get _).symm, by decide, by decide⟩

/-- Without an answer: exit status 3. -/
example : ∃ s, (machine id { name := [⟨8, [65]⟩], timeout := some 1000 }).Run [.timer] s ∧ s.Exits 3 ∧ s.out = [] :=
  let M := machine id { name := [⟨8, [65]⟩], timeout := some 1000 }
  ⟨_, Machine.exec_run (M := M) (s := (M.exec M.init [.timer]).get (by decide)) (Option.some_get _).symm, by decide, by decide⟩

end Verif.Peek
