import Verif.Spec.PeekPoke
import Verif.Props.Peek
import Verif.Props.Poke
import Verif.Proofs.Name

/-! # C77: ndnpeek and ndnpoke together -/

namespace Verif.PeekPoke

variable {u : Setup} {es : List Ev} {s : St}

private def Ev.peek? : Ev → Option Peek.Ev
  | .peek e => some e
  | _ => none

private def Ev.poke? : Ev → Option Poke.Ev
  | .poke e => some e
  | _ => none

private theorem peek_enabled {e : Peek.Ev} (h : s.enabled u (.peek e)) : s.peek.enabled e := by
  unfold St.enabled at h
  split at h
  · rename_i h1; cases h1; exact h.1
  · rename_i h1; cases h1; exact h
  · rename_i h1; cases h1

private theorem runs (h : (netMachine u).Run es s) :
    (Peek.machine u.params u.peek).Run (es.filterMap Ev.peek?) s.peek ∧
    (Poke.machine u.digest u.poke u.input).Run (es.filterMap Ev.poke?) s.poke := by
  induction h with
  | nil => exact ⟨.nil, .nil⟩
  | snoc e _ he ih =>
    rename_i es s _
    rw [List.filterMap_append, List.filterMap_append]
    cases e with
    | peek e =>
      refine ⟨ih.1.snoc e (peek_enabled he), ?_⟩
      simp only [List.filterMap_cons, Ev.poke?, List.filterMap_nil, List.append_nil]
      exact ih.2
    | poke e =>
      refine ⟨?_, ih.2.snoc e he⟩
      simp only [List.filterMap_cons, Ev.peek?, List.filterMap_nil, List.append_nil]
      exact ih.1

private theorem mem_peek {e : Peek.Ev} : e ∈ es.filterMap Ev.peek? ↔ Ev.peek e ∈ es := by
  rw [List.mem_filterMap]
  constructor
  · rintro ⟨x, hx, he⟩
    cases x with
    | peek e' => simp only [Ev.peek?, Option.some.injEq] at he; rw [← he]; exact hx
    | poke e' => cases he
  · intro h; exact ⟨_, h, rfl⟩

private theorem working_net (h : (workingMachine u).Run es s) : (netMachine u).Run es s := by
  induction h with
  | nil => exact .nil
  | snoc e _ he ih => exact ih.snoc e he.1

private theorem sent_mono (s : Poke.St) (e : Poke.Ev) {d : Data} (h : d ∈ s.sent) :
    d ∈ (s.step u.digest u.poke u.input e).sent := by
  cases e with
  | regSuccess => exact h
  | regFailure => exact h
  | timer => exact h
  | interest i =>
    show d ∈ (match Poke.createData u.poke u.input with
      | none => s
      | some d => if i.matchesData u.digest d then { s with timer := false, cancelled := true }.sendData d else s).sent
    split
    · exact h
    · split
      · exact List.mem_append_left _ h
      · exact h

/-- What ndnpeek receives was sent by ndnpoke. -/
private theorem data_sent (h : (netMachine u).Run es s) : ∀ d, Ev.peek (.data d) ∈ es → d ∈ s.poke.sent := by
  induction h with
  | nil => intro d hd; cases hd
  | snoc e _ he ih =>
    intro d hd
    rw [List.mem_append, List.mem_singleton] at hd
    cases e with
    | peek e =>
      rcases hd with hd | hd
      · exact ih d hd
      · cases hd
        exact he.2.1
    | poke e =>
      rcases hd with hd | hd
      · exact sent_mono _ _ (ih d hd)
      · cases hd

private theorem offers_of {d : Data} (h : Poke.createData u.poke u.input = some d) : Offers u d := by
  unfold Poke.createData at h
  split at h
  · cases h
  · rename_i c hw hc
    cases h
    exact ⟨rfl, rfl, rfl, by rw [hw, hc]; rfl, rfl⟩
  · rename_i hw
    cases h
    exact ⟨rfl, rfl, rfl, by rw [hw]; rfl, rfl⟩

private theorem offers_unique {d e : Data} (h : Offers u d) (h' : Offers u e) : d = e := by
  cases d; cases e
  obtain ⟨h1, h2, h3, h4, h5⟩ := h
  obtain ⟨k1, k2, k3, k4, k5⟩ := h'
  simp only at *
  simp [h1, h2, h3, h4, h5, k1, k2, k3, k4, k5]

private theorem create (hn : u.poke.name ≠ []) : ∃ d, Poke.createData u.poke u.input = some d ∧ Offers u d := by
  obtain ⟨d, hd⟩ : ∃ d, Poke.createData u.poke u.input = some d := by
    unfold Poke.createData
    split
    · rename_i hl; exact absurd (List.getLast?_eq_none_iff.mp hl) hn
    · exact ⟨_, rfl⟩
    · exact ⟨_, rfl⟩
  exact ⟨d, hd, offers_of hd⟩

private theorem sent_offers (h : (netMachine u).Run es s) : ∀ d ∈ s.poke.sent, Offers u d := by
  refine h.invariant (P := fun s => ∀ d ∈ s.poke.sent, Offers u d) ?_ ?_
  · intro d hd
    have : d ∈ (Poke.start u.poke u.input).sent := hd
    unfold Poke.start at this
    split at this
    · cases this
    · rename_i d0 h0
      split at this
      · have : d = d0 := by simpa [Poke.St.sendData] using this
        rw [this]; exact offers_of h0
      · cases this
  · intro s e ih _ d hd
    cases e with
    | peek e => exact ih d hd
    | poke e =>
      cases e with
      | regSuccess => exact ih d hd
      | regFailure => exact ih d hd
      | timer => exact ih d hd
      | interest i =>
        have hd : d ∈ (match Poke.createData u.poke u.input with
          | none => s.poke
          | some d => if i.matchesData u.digest d then { s.poke with timer := false, cancelled := true }.sendData d else s.poke).sent := hd
        split at hd
        · exact ih d hd
        · rename_i d0 h0
          split at hd
          · rcases List.mem_append.mp hd with hd | hd
            · exact ih d hd
            · rw [List.mem_singleton.mp hd]; exact offers_of h0
          · exact ih d hd

/-- **C77 (over any network)** If ndnpeek exits with status 0, its output is the packet that ndnpoke was asked to send, or, if
only the payload was wanted, exactly the standard input of ndnpoke; ndnpoke has sent this packet, and if it
terminates then with status 0. -/
theorem C77_output (hn : u.poke.name ≠ []) (h : (netMachine u).Run es s) (hx : s.peek.Exits 0) :
    ∃ d, Offers u d ∧ d ∈ s.poke.sent ∧
      s.peek.out = [if u.peek.wantPayloadOnly then .payload u.input else .packet d] ∧
      ∀ n, s.poke.Exits n → n = 0 := by
  obtain ⟨h1, h2⟩ := runs h
  obtain ⟨d, hd⟩ := ((Peek.C33_exit h1).2 0 hx).1.mp rfl
  have hs := data_sent h d (mem_peek.mp hd)
  have ho := sent_offers h d hs
  refine ⟨d, ho, hs, ?_, ?_⟩
  · have := ((Peek.C33_outcome h1).2.1 d hd).2
    rw [this]
    unfold Peek.dataOutput
    rw [ho.content]
  · intro n hn'
    have hne : s.poke.sent ≠ [] := by intro h0; rw [h0] at hs; cases hs
    cases hu : u.poke.wantUnsolicited with
    | true => exact ((Poke.C34_unsolicited hn hu h2).2.2 n).mp hn'
    | false => exact ((Poke.C34_outcome_partial hn hu h2).2.2 n hn').1.mpr hne

/-! ## Over a network that works -/

/-- The states of a run over a network that works. -/
private structure WInv (u : Setup) (d : Data) (s : St) : Prop where
  int : s.peek.interests = [Peek.createInterest u.params u.peek]
  peek : (s.peek.pending = true ∧ s.peek.handle = true ∧ s.peek.result = .unknown) ∨
    (s.peek.pending = false ∧ s.peek.timer = false ∧ s.peek.result = .data ∧ s.poke.sent ≠ [])
  ok : s.poke.threw = false
  all : ∀ x ∈ s.poke.sent, x = d
  poke : (s.poke.registering = true ∧ s.poke.sent = [] ∧ s.poke.active = false ∧ s.poke.cancelled = false) ∨
    (s.poke.registering = false ∧ s.poke.sent = [] ∧ s.poke.active = true ∧ s.poke.cancelled = false) ∨
    (s.poke.registering = false ∧ s.poke.sent ≠ [] ∧ s.poke.timer = false ∧ (s.poke.active = true → s.poke.cancelled = true) ∧
      s.poke.result = .dataSent)
  uns : u.poke.wantUnsolicited = true → s.poke.sent ≠ []

private theorem winv {d : Data} (hd : Poke.createData u.poke u.input = some d) (h : (workingMachine u).Run es s) : WInv u d s := by
  have hd' := offers_of hd
  induction h with
  | nil =>
    have e : (workingMachine u).init.poke = if u.poke.wantUnsolicited then Poke.St.sendData {} d else { registering := true } := by
      show Poke.start u.poke u.input = _
      unfold Poke.start; rw [hd]
    refine ⟨rfl, Or.inl ⟨rfl, rfl, rfl⟩, ?_, ?_, ?_, ?_⟩ <;> rw [e] <;> cases hu : u.poke.wantUnsolicited
    · rfl
    · rfl
    · intro x hx; cases hx
    · intro x hx; simpa [Poke.St.sendData] using hx
    · exact Or.inl ⟨rfl, rfl, rfl, rfl⟩
    · exact Or.inr (Or.inr ⟨rfl, by simp [Poke.St.sendData], rfl, (fun h => by cases h), rfl⟩)
    · intro h; cases h
    · intro _; simp [Poke.St.sendData]
  | snoc e hr he ih =>
    rename_i es s
    obtain ⟨he1, he2⟩ := he
    have hst : (workingMachine u).step s e = s.step u e := rfl
    rw [hst]
    cases e with
    | peek e =>
      cases e with
      | data x =>
        have hne : s.poke.sent ≠ [] := by intro h0; have := he1.2.1; rw [h0] at this; cases this
        exact ⟨ih.int, Or.inr ⟨rfl, rfl, rfl, hne⟩, ih.ok, ih.all, ih.poke, ih.uns⟩
      | nack r => exact absurd he2 id
      | expire => exact absurd he2 id
      | timer => exact absurd he2 id
    | poke e =>
      cases e with
      | regFailure => exact absurd he2 id
      | timer => exact absurd he2 id
      | regSuccess =>
        have hreg : s.poke.registering = true := he1
        have h1 : s.poke.sent = [] ∧ s.poke.cancelled = false := by
          rcases ih.poke with h | h | h
          · exact ⟨h.2.1, h.2.2.2⟩
          · rw [h.1] at hreg; cases hreg
          · rw [h.1] at hreg; cases hreg
        exact ⟨ih.int, ih.peek, ih.ok, ih.all, Or.inr (Or.inl ⟨rfl, h1.1, rfl, h1.2⟩), ih.uns⟩
      | interest i =>
        have e : (s.step u (.poke (.interest i))) = ⟨s.peek,
            if i.matchesData u.digest d then { s.poke with timer := false, cancelled := true }.sendData d else s.poke⟩ := by
          show (⟨s.peek, s.poke.step u.digest u.poke u.input (.interest i)⟩ : St) = _
          unfold Poke.St.step
          rw [hd]
        rw [e]
        split
        · have hact : s.poke.active = true := he1.1
          have hreg : s.poke.registering = false := by
            rcases ih.poke with h | h | h
            · rw [h.2.2.1] at hact; cases hact
            · exact h.1
            · exact h.1
          have hne : s.poke.sent ++ [d] ≠ [] := by simp
          refine ⟨ih.int, ?_, ih.ok, ?_, Or.inr (Or.inr ⟨hreg, hne, rfl, fun _ => rfl, rfl⟩), fun _ => hne⟩
          · rcases ih.peek with h | h
            · exact Or.inl h
            · exact Or.inr ⟨h.1, h.2.1, h.2.2.1, hne⟩
          · intro x hx
            rcases List.mem_append.mp hx with hx | hx
            · exact ih.all x hx
            · exact List.mem_singleton.mp hx
        · exact ih

private theorem peek_status {d : Data} (hi : WInv u d s) : ∀ n, s.peek.Exits n → n = 0 := by
  intro n hx
  obtain ⟨h1, h2, h3⟩ := hx
  rcases hi.peek with hp | hp
  · have := h2 hp.1; rw [hp.2.1] at this; cases this
  · rw [hp.2.2.1] at h3; exact h3

private theorem poke_status {d : Data} (hi : WInv u d s) : ∀ n, s.poke.Exits n → n = 0 := by
  intro n hx
  unfold Poke.St.Exits at hx
  rw [hi.ok] at hx
  obtain ⟨h1, h2, h3, h4⟩ := hx
  rcases hi.poke with hp | hp | hp
  · rw [hp.1] at h1; cases h1
  · have := h3 hp.2.2.1; rw [hp.2.2.2] at this; cases this
  · rw [hp.2.2.2.2] at h4; exact h4

/-- Once ndnpoke has sent, the exchange can be completed. -/
private theorem complete_sent {d : Data} (hd : Poke.createData u.poke u.input = some d)
    (hmd : (toInterest (Peek.createInterest u.params u.peek)).matchesData u.digest d = true)
    (h : (workingMachine u).Run es s) (hs : s.poke.sent ≠ []) :
    ∃ es' s', (workingMachine u).Run (es ++ es') s' ∧ s'.peek.Exits 0 ∧ s'.poke.Exits 0 := by
  have hi := winv hd h
  have hpoke : s.poke.Exits 0 := by
    unfold Poke.St.Exits
    rw [hi.ok]
    rcases hi.poke with hp | hp | hp
    · exact absurd hp.2.1 hs
    · exact absurd hp.2.1 hs
    · exact ⟨hp.1, hp.2.2.1, hp.2.2.2.1, by rw [hp.2.2.2.2]; rfl⟩
  rcases hi.peek with hp | hp
  · have hmem : d ∈ s.poke.sent := by
      cases hl : s.poke.sent with
      | nil => exact absurd hl hs
      | cons x xs =>
        have hx := hi.all x (by rw [hl]; exact List.mem_cons_self)
        rw [hx]; exact List.mem_cons_self
    have hr := h.snoc (Ev.peek (.data d)) ⟨⟨hp.1, hmem, _, by rw [hi.int]; exact List.mem_singleton_self _, hmd⟩, trivial⟩
    exact ⟨_, _, hr, ⟨rfl, (fun h => by cases h), rfl⟩, hpoke⟩
  · exact ⟨[], s, by rw [List.append_nil]; exact h,
      ⟨hp.2.1, (fun h => by rw [hp.1] at h; cases h), by rw [hp.2.2.1]; rfl⟩, hpoke⟩

/-- Once the Interest filter is set, the exchange can be completed. -/
private theorem complete_active {d : Data} (hd : Poke.createData u.poke u.input = some d)
    (hmd : (toInterest (Peek.createInterest u.params u.peek)).matchesData u.digest d = true)
    (hpre : u.poke.name <+: (Peek.createInterest u.params u.peek).name)
    (h : (workingMachine u).Run es s) (ha : s.poke.active = true) :
    ∃ es' s', (workingMachine u).Run (es ++ es') s' ∧ s'.peek.Exits 0 ∧ s'.poke.Exits 0 := by
  have hi := winv hd h
  have hr := h.snoc (Ev.poke (.interest (toInterest (Peek.createInterest u.params u.peek))))
    ⟨⟨ha, hpre⟩, _, by rw [hi.int]; exact List.mem_singleton_self _, rfl⟩
  have hs : ((workingMachine u).step s (.poke (.interest (toInterest (Peek.createInterest u.params u.peek))))).poke.sent ≠ [] := by
    show (s.poke.step u.digest u.poke u.input (.interest _)).sent ≠ []
    unfold Poke.St.step
    rw [hd]
    dsimp only
    rw [if_pos hmd]
    simp [Poke.St.sendData]
  obtain ⟨es', s', h1, h2⟩ := complete_sent hd hmd hr hs
  rw [List.append_assoc] at h1
  exact ⟨_, s', h1, h2⟩

private theorem prefix_of_match {i : Interest} {d : Data} (h : i.matchesData u.digest d = true)
    (hl : d.name.length ≤ i.name.length) : d.name <+: i.name := by
  unfold Interest.matchesData at h
  rw [Bool.and_eq_true] at h
  replace h := h.2
  split at h
  · rw [of_decide_eq_true h]; exact List.prefix_append _ _
  · split at h
    · have hp := isPrefixOf_iff.mp h
      simp only [List.IsPrefix.eq_of_length_le hp hl, List.prefix_rfl]
    · simp only [of_decide_eq_true h, List.prefix_rfl]

/-- **C77 (over a network that works; partial)** If the Data that ndnpoke offers satisfies the Interest of ndnpeek, and either
ndnpoke sends it without being asked or the Interest's name is not shorter than the name of the Data, then no exit status but
0 is possible, and at every time the exchange can be completed. Missing from the claim: Interests with
CanBePrefix and a shorter name, for which it is false (`C77_prefix_refuted`). -/
theorem C77_success_partial (hn : u.poke.name ≠ [])
    (hm : ∀ i ∈ (netMachine u).init.peek.interests, ∀ d, Offers u d → (toInterest i).matchesData u.digest d = true)
    (hp : u.poke.wantUnsolicited = true ∨
      ∀ i ∈ (netMachine u).init.peek.interests, u.poke.name.length ≤ i.name.length)
    (h : (workingMachine u).Run es s) :
    (∀ n, s.peek.Exits n → n = 0) ∧ (∀ n, s.poke.Exits n → n = 0) ∧
    ∃ es' s', (workingMachine u).Run (es ++ es') s' ∧ s'.peek.Exits 0 ∧ s'.poke.Exits 0 := by
  obtain ⟨d, hd, ho⟩ := create hn
  have hi := winv hd h
  have hinit : Peek.createInterest u.params u.peek ∈ (netMachine u).init.peek.interests := List.mem_singleton_self _
  have hmd := hm _ hinit d ho
  refine ⟨peek_status hi, poke_status hi, ?_⟩
  rcases hp with hp | hp
  · exact complete_sent hd hmd h (hi.uns hp)
  · have hpre : u.poke.name <+: (Peek.createInterest u.params u.peek).name := by
      rw [← ho.name]
      refine prefix_of_match hmd ?_
      rw [ho.name]
      exact hp _ hinit
    rcases hi.poke with hq | hq | hq
    · have hr := h.snoc (Ev.poke .regSuccess) ⟨hq.1, trivial⟩
      obtain ⟨es', s', h1, h2⟩ := complete_active hd hmd hpre hr rfl
      rw [List.append_assoc] at h1
      exact ⟨_, s', h1, h2⟩
    · exact complete_active hd hmd hpre h hq.2.2.1
    · exact complete_sent hd hmd h hq.2.1

/-- **C77 (refuted for short names)** The claim is false: if the Interest's name is shorter than that of the Data, then,
although it may be satisfied by the Data (CanBePrefix), it never comes through the Interest filter of ndnpoke; whatever
happens, ndnpoke sends nothing and neither program terminates. -/
theorem C77_prefix_refuted (hn : u.poke.name ≠ []) (hu : u.poke.wantUnsolicited = false)
    (hp : ∀ i ∈ (netMachine u).init.peek.interests, i.name.length < u.poke.name.length)
    (h : (workingMachine u).Run es s) :
    s.poke.sent = [] ∧ (∀ n, ¬ s.peek.Exits n) ∧ ∀ n, ¬ s.poke.Exits n := by
  obtain ⟨d, hd, ho⟩ := create hn
  have hl := hp (Peek.createInterest u.params u.peek) (List.mem_singleton_self _)
  have hs : s.poke.sent = [] := by
    clear hp
    induction h with
    | nil =>
      show (Poke.start u.poke u.input).sent = []
      unfold Poke.start
      rw [hd, hu]; rfl
    | snoc e hr he ih =>
      cases e with
      | peek e => exact ih
      | poke e =>
        cases e with
        | regSuccess => exact ih
        | regFailure => exact ih
        | timer => exact ih
        | interest i =>
          obtain ⟨⟨_, h2⟩, j, hj, h3⟩ := he
          rw [(winv hd hr).int, List.mem_singleton] at hj
          subst hj
          rw [← h3] at h2
          exact absurd (List.IsPrefix.length_le h2) (Nat.not_le.mpr hl)
  have hi := winv hd h
  refine ⟨hs, ?_, ?_⟩
  · rintro n ⟨_, h2, _⟩
    rcases hi.peek with hp | hp
    · have := h2 hp.1; rw [hp.2.1] at this; cases this
    · exact hp.2.2.2 hs
  · intro n hx
    unfold Poke.St.Exits at hx
    rw [hi.ok] at hx
    obtain ⟨h1, _, h3, _⟩ := hx
    rcases hi.poke with hp | hp | hp
    · rw [hp.1] at h1; cases h1
    · have := h3 hp.2.2.1; rw [hp.2.2.2] at this; cases this
    · exact hp.2.1 hs

/-! ## Concrete cases -/

def ca : Comp := ⟨ttGeneric, [0x61]⟩
def cb : Comp := ⟨ttGeneric, [0x62]⟩

/-- `ndnpeek -p /a/b` and `echo hi | ndnpoke /a/b`. -/
def u1 : Setup :=
  { peek := { name := [ca, cb], wantPayloadOnly := true }, poke := { name := [ca, cb] }, input := [0x68, 0x69]
    params := fun _ => [], digest := fun _ => [] }

/-- `ndnpeek -P /a` and `ndnpoke /a/b`. -/
def u2 : Setup := { u1 with peek := { name := [ca], canBePrefix := true } }

/-- The same with `ndnpoke -u`. -/
def u3 : Setup := { u2 with poke := { name := [ca, cb], wantUnsolicited := true } }

private def d1 : Data := { name := [ca, cb], content := [0x68, 0x69] }

private theorem offers_d1 {u : Setup} (h : Poke.createData u.poke u.input = some d1) {d : Data} (hd : Offers u d) :
    d = d1 := offers_unique hd (offers_of h)

/-- The whole exchange: the output is the payload. -/
example : ∃ s, (netMachine u1).Run [.poke .regSuccess, .poke (.interest ⟨[ca, cb], false, false⟩), .peek (.data d1)] s ∧
    s.peek.Exits 0 ∧ s.poke.Exits 0 ∧ s.peek.out = [.payload [0x68, 0x69]] :=
  ⟨_, Machine.exec_run (M := netMachine u1) (s := ((netMachine u1).exec (netMachine u1).init
    [.poke .regSuccess, .poke (.interest ⟨[ca, cb], false, false⟩), .peek (.data d1)]).get (by decide)) (by decide),
    by decide, by decide, by decide⟩

example : ∃ d, Offers u1 d ∧ d.content = [0x68, 0x69] := ⟨d1, offers_of (by decide), rfl⟩

/-- The hypotheses of `C77_success_partial` hold for `u1`. -/
example : ∃ es s, (workingMachine u1).Run es s ∧ s.peek.Exits 0 ∧ s.poke.Exits 0 := by
  obtain ⟨es, s, h1, h2⟩ := (C77_success_partial (u := u1) (by decide)
    (fun i hi d hd => by rw [offers_d1 (by decide) hd, List.mem_singleton.mp hi]; decide)
    (Or.inr (fun i hi => by rw [List.mem_singleton.mp hi]; decide)) .nil).2.2
  exact ⟨_, s, h1, h2⟩

/-- With a short name and `-u`. -/
example : ∃ es s, (workingMachine u3).Run es s ∧ s.peek.Exits 0 ∧ s.poke.Exits 0 := by
  obtain ⟨es, s, h1, h2⟩ := (C77_success_partial (u := u3) (by decide)
    (fun i hi d hd => by rw [offers_d1 (by decide) hd, List.mem_singleton.mp hi]; decide)
    (Or.inl rfl) .nil).2.2
  exact ⟨_, s, h1, h2⟩

/-- **C77 (the claim is false)** for `ndnpeek -P /a` and `ndnpoke /a/b`. -/
theorem C77_claim_false : ¬ Claim u2 := by
  intro h
  obtain ⟨es, s, h1, h2, _⟩ := h (by decide)
    (fun i hi d hd => by rw [offers_d1 (by decide) hd, List.mem_singleton.mp hi]; decide) [] _ .nil
  exact (C77_prefix_refuted (u := u2) (by decide) rfl (fun i hi => by rw [List.mem_singleton.mp hi]; decide) h1).2.1 0 h2

/-- After an unsuccessful run ndnpeek does not exit with 0: the hypothesis of `C77_output` is not always true. -/
example : ∃ s, (netMachine u1).Run [.peek .expire] s ∧ s.peek.Exits 3 ∧ ¬ s.peek.Exits 0 :=
  ⟨_, Machine.exec_run (M := netMachine u1) (s := ((netMachine u1).exec (netMachine u1).init
    [.peek .expire]).get (by decide)) (by decide), by decide, by decide⟩

end Verif.PeekPoke
