import Verif.Spec.Cli

/-! # Lemmas about the checks of the command line -/

namespace Verif.Cli

open Spec

theorem convention_spec (s : String) (c : Convention) : convention s = some c ↔ Spelling s c := by
  unfold convention Spelling
  by_cases h1 : s = "marker" ∨ s = "m" ∨ s = "1"
  · rw [if_pos h1]
    constructor
    · intro h; cases h; exact .inl ⟨rfl, by rcases h1 with rfl | rfl | rfl <;> decide⟩
    · rintro (⟨rfl, _⟩ | ⟨rfl, h⟩)
      · rfl
      · rcases h1 with rfl | rfl | rfl <;> exact absurd h (by decide)
  · rw [if_neg h1]
    by_cases h2 : s = "typed" ∨ s = "t" ∨ s = "2"
    · rw [if_pos h2]
      constructor
      · intro h; cases h; exact .inr ⟨rfl, by rcases h2 with rfl | rfl | rfl <;> decide⟩
      · rintro (⟨rfl, h⟩ | ⟨rfl, _⟩)
        · rcases h2 with rfl | rfl | rfl <;> exact absurd h (by decide)
        · rfl
    · rw [if_neg h2]
      by_cases h3 : s = ""
      · subst h3
        rw [if_neg (by decide)]
        constructor
        · intro h; cases h; exact .inr ⟨rfl, by decide⟩
        · rintro (⟨rfl, h⟩ | ⟨rfl, _⟩)
          · exact absurd h (by decide)
          · rfl
      · rw [if_pos h3]
        constructor
        · intro h; cases h
        · rintro (⟨_, h⟩ | ⟨_, h⟩)
          · simp only [List.mem_cons, List.not_mem_nil, or_false] at h; exact absurd h h1
          · simp only [List.mem_cons, List.not_mem_nil, or_false] at h
            rcases h with h | h | h | h
            · exact absurd (.inl h) h2
            · exact absurd (.inr (.inl h)) h2
            · exact absurd (.inr (.inr h)) h2
            · exact absurd h h3

theorem convention_none {s : String} (h : convention s = none) : ¬ ∃ c, Spelling s c := by
  rintro ⟨c, hc⟩
  rw [← convention_spec, h] at hc
  cases hc

theorem logFiles_spec (lib : Lib) (a : CatArgs) :
    logFiles lib a = true ↔ ∀ f ∈ [a.logCwnd, a.logRtt], f = "" ∨ lib.writable f = true := by
  simp [logFiles, List.forall_mem_cons]

theorem logFiles_false {lib : Lib} {a : CatArgs} (h : ¬ logFiles lib a = true) :
    ∃ f ∈ [a.logCwnd, a.logRtt], f ≠ "" ∧ lib.writable f = false := by
  rw [logFiles_spec] at h
  refine Classical.byContradiction fun hn => h fun f hf => ?_
  by_cases h1 : f = ""
  · exact .inl h1
  · refine .inr ?_
    cases h2 : lib.writable f
    · exact absurd ⟨f, hf, h1, h2⟩ hn
    · rfl

theorem allAlnum_true {i : Bytes} : allAlnum i = some true ↔ ∀ b ∈ i, Alnum b := by
  induction i with
  | nil => simp [allAlnum]
  | cons b bs ih =>
    simp only [allAlnum, List.forall_mem_cons]
    by_cases h : (48 ≤ b.toNat ∧ b.toNat ≤ 57) ∨ (65 ≤ b.toNat ∧ b.toNat ≤ 90) ∨ (97 ≤ b.toNat ∧ b.toNat ≤ 122)
    · rw [if_pos h, ih]
      exact ⟨fun hb => ⟨h, hb⟩, fun hb => hb.2⟩
    · rw [if_neg h]
      constructor
      · split <;> intro hb <;> cases hb
      · intro hb; exact absurd hb.1 h

/-- No undefined call of `isalnum` for ASCII. -/
theorem allAlnum_ascii {i : Bytes} (h : ∀ b ∈ i, b.toNat < 128) : allAlnum i ≠ none := by
  induction i with
  | nil => simp [allAlnum]
  | cons b bs ih =>
    simp only [allAlnum]
    split
    · exact ih fun x hx => h x (List.mem_cons_of_mem _ hx)
    · rw [if_pos (.inl (h b List.mem_cons_self))]; simp

theorem between_spec {x : Num} {lo hi : ℚ} (h : ∃ q, x = .num q ∧ lo ≤ q ∧ q ≤ hi) : x.between lo hi = true := by
  obtain ⟨q, rfl, h1, h2⟩ := h
  simp [Num.between, h1, h2]

theorem int64_of {x : Int} (h : x.natAbs < 2 ^ 63 / 10 ^ 6) : int64 (x * 10 ^ 6) = true := by
  simp only [int64, decide_eq_true_eq]
  have : (2 : Nat) ^ 63 / 10 ^ 6 = 9223372036854 := by decide
  rw [this] at h
  omega

theorem Spec.Decides.of_run {α : Type} {e : Ending α} {s0 : Nat} {info ok : Prop} {status : Nat → Prop} {good : α → Prop}
    (d : Decides e s0 info ok status good) {o : α} (h : e = .run o) : ok ∧ good o := by
  have hi : ¬ info := fun hi => by rw [d.information hi] at h; cases h
  have hok : ok := Classical.byContradiction fun hn => by
    obtain ⟨s, hs, _⟩ := d.rejects hi hn
    rw [hs] at h; cases h
  obtain ⟨o', ho, hg⟩ := d.runs hi hok
  rw [ho] at h
  cases h
  exact ⟨hok, hg⟩

theorem ping_decides (lib : Lib) (seq : Nat) (a : PingArgs) (hp : ∀ s, a.pre = some s → lib.name s ≠ none)
    (hi : ∀ i, a.identifier = some i → allAlnum i ≠ none) :
    (a.help = true → ping lib seq (some a) = .exit 2) ∧
    (a.help = false → Decides (ping lib seq (some a)) 0 (a.version = true) (PingOk a) (· = 2) (PingGood lib seq a)) := by
  constructor
  · intro h; simp [ping, h]
  intro hh
  have hh' : ¬ a.help = true := by rw [hh]; decide
  constructor
  · intro h; simp [ping, hh, h]
  · intro hv hok
    cases hs : a.pre with
    | none => exact absurd hs hok.name
    | some s =>
      cases hn : lib.name s with
      | none => exact absurd hn (hp s hs)
      | some n =>
        have hint := hok.interval
        have hcnt : ¬ a.count.any (· ≤ 0) = true := by
          cases hc : a.count with
          | none => simp
          | some c => have := hok.count c hc; simp; omega
        have hcg : (a.count = some (a.count.getD (-1)) ∧ 1 ≤ a.count.getD (-1)) ∨
            (a.count = none ∧ a.count.getD (-1) < 0) := by
          cases hc : a.count with
          | none => exact .inr ⟨rfl, by decide⟩
          | some c => exact .inl ⟨rfl, hok.count c hc⟩
        have hst : a.start = some (a.start.getD seq) ∨ (a.start = none ∧ a.start.getD seq = seq) := by
          cases a.start with
          | none => exact .inr ⟨rfl, rfl⟩
          | some c => exact .inl rfl
        simp only [ping]
        rw [if_neg hh', if_neg hv, hs]
        dsimp only
        rw [hn]
        dsimp only
        rw [if_neg (by omega), if_neg hcnt]
        cases hid : a.identifier with
        | none =>
          exact ⟨_, rfl, ⟨s, hs, hn⟩, ⟨by dsimp only; omega, by dsimp only; omega⟩, hcg, rfl, hst, .inr ⟨hid, rfl⟩, rfl⟩
        | some i =>
          obtain ⟨h1, h2⟩ := hok.identifier i hid
          dsimp only
          rw [allAlnum_true.mpr h2]
          dsimp only
          rw [if_neg (by simp [h1])]
          exact ⟨_, rfl, ⟨s, hs, hn⟩, ⟨by dsimp only; omega, by dsimp only; omega⟩, hcg, rfl, hst, .inl ⟨hid, h1, h2⟩, rfl⟩
  · intro hv hok
    simp only [ping]
    rw [if_neg hh', if_neg hv]
    have two : ∃ s, (Ending.exit 2 : Ending (Ping.Opts × Nat)) = .exit s ∧ s ≠ 0 ∧ s = 2 := ⟨2, rfl, by decide, rfl⟩
    cases hs : a.pre with
    | none => exact two
    | some s =>
      dsimp only
      cases hn : lib.name s with
      | none => exact absurd hn (hp s hs)
      | some n =>
        dsimp only
        by_cases h1 : a.interval < 1
        · rw [if_pos h1]; exact two
        rw [if_neg h1]
        by_cases h2 : a.count.any (· ≤ 0) = true
        · rw [if_pos h2]; exact two
        rw [if_neg h2]
        have hc : ∀ c, a.count = some c → 1 ≤ c := by
          intro c hc
          rw [hc] at h2
          simp at h2
          omega
        have hpre : a.pre ≠ none := by rw [hs]; exact Option.some_ne_none s
        cases hid : a.identifier with
        | none => exact absurd ⟨hpre, by omega, hc, fun i hi => by rw [hid] at hi; cases hi⟩ hok
        | some i =>
          dsimp only
          cases hal : allAlnum i with
          | none => exact absurd hal (hi i hid)
          | some ok =>
            dsimp only
            by_cases h3 : i = [] ∨ ok = false
            · rw [if_pos h3]; exact two
            · refine absurd ⟨hpre, by omega, hc, fun j hj => ?_⟩ hok
              rw [hid] at hj
              cases hj
              refine ⟨fun h => h3 (.inl h), allAlnum_true.mp ?_⟩
              cases ok
              · exact absurd (.inr rfl) h3
              · exact hal

end Verif.Cli
