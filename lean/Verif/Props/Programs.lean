import Verif.Model.Programs
import Verif.Spec.Programs
import Verif.Props.Cli
import Verif.Props.Peek
import Verif.Props.Poke

/-! # ndnpeek and ndnpoke from the command line to the exit status -/

namespace Verif.Programs

open Cli Cli.Spec Spec

/-! ## C63: The exit statuses of ndnpeek and ndnpoke are the documented ones

"For every command line and every execution the exit status of ndnpeek is 0 exactly when information was requested or a Data
was received, 2 exactly for a malformed command line, 3 exactly when the time ran out, 4 exactly when a Nack was received
and 1 exactly for another error; of ndnpoke it is 0 exactly when information was requested or a Data was sent, 2 exactly
for a malformed command line, 3 exactly when the time limit expired and no Data was sent, 5 exactly when the registration
failed and 1 exactly for another error. Without a well-formed command line nothing is sent." -/

private theorem peekEv {es : List Peek.Ev} : es ≠ [] → (∀ d, Peek.Ev.data d ∉ es) → (∀ r, Peek.Ev.nack r ∉ es) →
    Peek.Ev.expire ∈ es ∨ Peek.Ev.timer ∈ es := by
  intro hne hd hr
  cases es with
  | nil => exact absurd rfl hne
  | cons e t =>
    cases e with
    | data d => exact absurd List.mem_cons_self (hd d)
    | nack r => exact absurd List.mem_cons_self (hr r)
    | expire => exact .inl List.mem_cons_self
    | timer => exact .inr List.mem_cons_self

/-- **C63, ndnpeek.** -/
theorem C63_peek {lib : Lib} {digest : Bytes → Bytes} {a es failed out sent n}
    (h : Peek lib digest a es failed out sent n) :
    PeekStatus lib a es failed n ∧ (PeekInfo a ∨ PeekMalformed lib a → sent = [] ∧ out = []) := by
  have stop : ∀ k, k ≠ 1 → k ≠ 3 → k ≠ 4 → k ≤ 4 → (k = 0 ↔ PeekInfo a) → (k = 2 ↔ PeekMalformed lib a) →
      peek lib a = .exit k → PeekStatus lib a es failed n ∧ (PeekInfo a ∨ PeekMalformed lib a → sent = [] ∧ out = []) := by
    intro k k1 k3 k4 kle h0 h2 he
    rw [Peek, he] at h
    obtain ⟨rfl, rfl, rfl, rfl, rfl⟩ := h
    refine ⟨⟨?_, ?_, h2, ?_, ?_, kle⟩, fun _ => ⟨rfl, rfl⟩⟩
    · rw [h0]; simp
    · simp [k1]
    · simp [k3]
    · simp [k4]
  cases a with
  | none =>
    refine stop 2 (by decide) (by decide) (by decide) (by decide) ?_ ?_ rfl
    · simp [PeekInfo]
    · simp [PeekMalformed]
  | some x =>
    have hd := C44_peek lib x
    by_cases hi : x.help = true ∨ x.version = true
    · refine stop 0 (by decide) (by decide) (by decide) (by decide) ?_ ?_ (hd.information hi)
      · simp only [PeekInfo, true_iff]; exact ⟨x, rfl, hi⟩
      · simp only [PeekMalformed]
        exact ⟨(fun h => by cases h), fun h => absurd hi (h x rfl).1⟩
    · by_cases hok : PeekOk lib x
      · obtain ⟨o, ho, _⟩ := hd.runs hi hok
        have hni : ¬ PeekInfo (some x) := by
          rintro ⟨y, e, hy⟩; cases e; exact hi hy
        have hnm : ¬ PeekMalformed lib (some x) := fun hm => (hm x rfl).2 hok
        refine ⟨?_, fun hx => hx.elim (fun h => absurd h hni) (fun h => absurd h hnm)⟩
        rw [Peek, ho] at h
        obtain ⟨s, hr, -, -, hn⟩ := h
        cases failed with
        | true =>
          simp only [if_true] at hn
          subst hn
          exact ⟨by simp [hni], by simp, by simp [hnm], by simp, by simp, by decide⟩
        | false =>
          simp only [Bool.false_eq_true, if_false] at hn
          obtain ⟨hex, hst⟩ := Peek.C33_exit hr
          obtain ⟨h0, h4, hc⟩ := hst n hn
          have hne : es ≠ [] := hex.mp ⟨n, hn⟩
          refine ⟨by simp [hni, h0], ?_, ?_, ?_, by simp [h4], by omega⟩
          · constructor
            · intro e; omega
            · intro e; cases e
          · constructor
            · intro e; omega
            · intro e; exact absurd e hnm
          · constructor
            · intro e
              have hd : ∀ d, Peek.Ev.data d ∉ es := fun d hd => by have := h0.mpr ⟨d, hd⟩; omega
              have hr : ∀ r, Peek.Ev.nack r ∉ es := fun r hr => by have := h4.mpr ⟨r, hr⟩; omega
              exact ⟨rfl, peekEv hne hd hr, hd, hr⟩
            · rintro ⟨-, -, hd, hr⟩
              have n0 : n ≠ 0 := fun e => by obtain ⟨d, h⟩ := h0.mp e; exact hd d h
              have n4 : n ≠ 4 := fun e => by obtain ⟨r, h⟩ := h4.mp e; exact hr r h
              omega
      · obtain ⟨k, hk, -, hk2⟩ := hd.rejects hi hok
        cases hk2
        refine stop 2 (by decide) (by decide) (by decide) (by decide) ?_ ?_ hk
        · simp only [PeekInfo]
          exact ⟨(fun h => by cases h), (fun ⟨y, e, hy⟩ => by cases e; exact absurd hy hi)⟩
        · simp only [true_iff]
          intro y e; cases e; exact ⟨hi, hok⟩

/-- **C63, ndnpoke.** -/
theorem C63_poke {lib : Lib} {digest : Data → Bytes} {input : Bytes} {a es failed sent n}
    (h : Poke lib digest input a es failed sent n) :
    PokeStatus lib a es failed sent n ∧ (PokeInfo a ∨ PokeMalformed lib a → sent = []) := by
  have stop : ∀ k, k ≠ 1 → k ≠ 3 → k ≠ 5 → k ≤ 3 → (k = 0 ↔ PokeInfo a) → (k = 2 ↔ PokeMalformed lib a) →
      poke lib a = .exit k → PokeStatus lib a es failed sent n ∧ (PokeInfo a ∨ PokeMalformed lib a → sent = []) := by
    intro k k1 k3 k5 kle h0 h2 he
    rw [Poke, he] at h
    obtain ⟨rfl, rfl, rfl, rfl⟩ := h
    refine ⟨⟨?_, ?_, h2, ?_, ?_, .inl kle⟩, fun _ => rfl⟩
    · rw [h0]; simp
    · simp [k1]
    · simp [k3]
    · simp [k5]
  cases a with
  | none =>
    refine stop 2 (by decide) (by decide) (by decide) (by decide) ?_ ?_ rfl
    · simp [PokeInfo]
    · simp [PokeMalformed]
  | some x =>
    have hd := C44_poke lib x
    by_cases hi : x.help = true ∨ x.version = true
    · refine stop 0 (by decide) (by decide) (by decide) (by decide) ?_ ?_ (hd.information hi)
      · simp only [PokeInfo, true_iff]; exact ⟨x, rfl, hi⟩
      · simp only [PokeMalformed]
        exact ⟨(fun h => by cases h), fun h => absurd hi (h x rfl).1⟩
    · by_cases hok : PokeOk lib x
      · obtain ⟨o, ho, hg⟩ := hd.runs hi hok
        have hon : o.name ≠ [] := by obtain ⟨_, _, _, h⟩ := hg.name; exact h
        have hni : ¬ PokeInfo (some x) := by
          rintro ⟨y, e, hy⟩; cases e; exact hi hy
        have hnm : ¬ PokeMalformed lib (some x) := fun hm => (hm x rfl).2 hok
        refine ⟨?_, fun hx => hx.elim (fun h => absurd h hni) (fun h => absurd h hnm)⟩
        rw [Poke, ho] at h
        obtain ⟨s, hr, hsent, hn⟩ := h
        cases failed with
        | true =>
          simp only [if_true] at hn
          subst hn
          exact ⟨by simp [hni], by simp, by simp [hnm], by simp, by simp, by decide⟩
        | false =>
          simp only [Bool.false_eq_true, if_false] at hn
          have key : (n = 0 ↔ s.sent ≠ []) ∧ (n = 5 ↔ Poke.Ev.regFailure ∈ es) ∧
              (n = 3 ↔ Poke.Ev.timer ∈ es ∧ s.sent = []) ∧ (n = 0 ∨ n = 3 ∨ n = 5) := by
            cases hu : o.wantUnsolicited with
            | false => exact (Poke.C34_outcome_partial hon hu hr).2.2 n hn
            | true =>
              obtain ⟨rfl, ⟨d, hd, -⟩, he⟩ := Poke.C34_unsolicited hon hu hr
              have := (he n).mp hn
              subst this
              simp [hd]
          obtain ⟨h0, h5, h3, hc⟩ := key
          subst hsent
          refine ⟨by simp [hni, h0], ?_, ?_, by simp [h3], by simp [h5], by omega⟩
          · constructor
            · intro e; omega
            · intro e; cases e
          · constructor
            · intro e; omega
            · intro e; exact absurd e hnm
      · obtain ⟨k, hk, -, hk2⟩ := hd.rejects hi hok
        cases hk2
        refine stop 2 (by decide) (by decide) (by decide) (by decide) ?_ ?_ hk
        · simp only [PokeInfo]
          exact ⟨(fun h => by cases h), (fun ⟨y, e, hy⟩ => by cases e; exact absurd hy hi)⟩
        · simp only [true_iff]
          intro y e; cases e; exact ⟨hi, hok⟩

/-! ### Examples: every status is reached -/

private def exLib : Lib :=
  { name := fun s => if s = "/A" then some [⟨8, [65]⟩] else none, signing := fun _ => true, base64 := fun _ => none,
    readFile := fun _ => none, writable := fun _ => true, readable := fun _ => true, regex := fun _ => true }

private def exPeek : PeekArgs := { name := some [⟨8, [65]⟩], timeout := some 1000 }

private def exData : Data := { name := [⟨8, [65]⟩], content := [1], final := none }

private theorem exPeek_run {es : List Peek.Ev} {n : Nat} (o : Peek.Opts) (ho : peek exLib (some exPeek) = .run o)
    (h : ((Peek.machine (fun _ => []) o).exec (Peek.machine (fun _ => []) o).init es).any (fun s => decide (s.Exits n)) =
      true) : ∃ out sent, Peek exLib (fun _ => []) (some exPeek) es false out sent n := by
  rw [Option.any_eq_true] at h
  obtain ⟨s, hs, he⟩ := h
  exact ⟨s.out, s.interests, by rw [Peek, ho]; exact ⟨s, Machine.exec_run hs, rfl, rfl, of_decide_eq_true he⟩⟩

/-- Statuses 0, 3 and 4 after events, 1 after an exception, 2 and 0 at once. -/
example : (∃ out sent, Peek exLib (fun _ => []) (some exPeek) [.data exData] false out sent 0) ∧
    (∃ out sent, Peek exLib (fun _ => []) (some exPeek) [.timer] false out sent 3) ∧
    (∃ out sent, Peek exLib (fun _ => []) (some exPeek) [.timer, .nack .noRoute] false out sent 4) ∧
    Peek exLib (fun _ => []) (some { exPeek with timeout := some (-1) }) [] false [] [] 2 ∧
    Peek exLib (fun _ => []) (some { help := true }) [] false [] [] 0 :=
  ⟨exPeek_run _ rfl (by decide), exPeek_run _ rfl (by decide), exPeek_run _ rfl (by decide),
   ⟨rfl, rfl, rfl, rfl, rfl⟩, ⟨rfl, rfl, rfl, rfl, rfl⟩⟩

example : ∃ out sent, Peek exLib (fun _ => []) (some exPeek) [] true out sent 1 :=
  ⟨_, _, (Peek.machine (fun _ => []) _).init, .nil, rfl, rfl, rfl⟩

private def exPoke : PokeArgs := { name := some "/A", timeout := some 1000 }

private theorem exPoke_run {es : List Poke.Ev} {n : Nat} (o : Poke.Opts) (ho : poke exLib (some exPoke) = .run o)
    (h : ((Poke.machine (fun _ => []) o [1]).exec (Poke.machine (fun _ => []) o [1]).init es).any
      (fun s => decide (s.Exits n)) = true) : ∃ sent, Poke exLib (fun _ => []) [1] (some exPoke) es false sent n := by
  rw [Option.any_eq_true] at h
  obtain ⟨s, hs, he⟩ := h
  exact ⟨s.sent, by rw [Poke, ho]; exact ⟨s, Machine.exec_run hs, rfl, of_decide_eq_true he⟩⟩

example : (∃ sent, Poke exLib (fun _ => []) [1] (some exPoke)
      [.regSuccess, .interest { name := [⟨8, [65]⟩], canBePrefix := false, mustBeFresh := false }] false sent 0) ∧
    (∃ sent, Poke exLib (fun _ => []) [1] (some exPoke) [.regSuccess, .timer] false sent 3) ∧
    (∃ sent, Poke exLib (fun _ => []) [1] (some exPoke) [.regFailure] false sent 5) ∧
    Poke exLib (fun _ => []) [1] (some { exPoke with name := some "A%" }) [] false [] 2 :=
  ⟨exPoke_run _ rfl (by decide), exPoke_run _ rfl (by decide), exPoke_run _ rfl (by decide), ⟨rfl, rfl, rfl, rfl⟩⟩

end Verif.Programs
