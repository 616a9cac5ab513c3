import Verif.Spec.Transfer
import Verif.Props.Cli
import Verif.Props.Catchunks

/-! # Lemmas about whole transfers -/

namespace Verif.Transfer

open Cli Cli.Spec Catchunks Spec

variable {σ ε : Type}

/-! ## The calls -/

theorem firstBad_unique {l : List Call} {x y : Call} (hx : FirstBad l x) (hy : FirstBad l y) : x = y := by
  obtain ⟨a, b, rfl, ha, hbx⟩ := hx
  obtain ⟨c, d, e, hc, hby⟩ := hy
  rcases List.append_eq_append_iff.mp e with ⟨t, h1, h2⟩ | ⟨t, h1, h2⟩
  · cases t with
    | nil => simp only [List.nil_append, List.cons.injEq] at h2; exact h2.1
    | cons z t =>
      simp only [List.cons_append, List.cons.injEq] at h2
      exact absurd (hc x (by rw [h1, h2.1]; simp)) hbx
  · cases t with
    | nil => simp only [List.nil_append, List.cons.injEq] at h2; exact h2.1.symm
    | cons z t =>
      simp only [List.cons_append, List.cons.injEq] at h2
      exact absurd (ha y (by rw [h1, h2.1]; simp)) hby

theorem allGood_not_firstBad {l : List Call} {x : Call} (h : AllGood l) (hx : FirstBad l x) : False := by
  obtain ⟨a, b, rfl, _, hb⟩ := hx
  exact hb (h x (by simp))

/-- What the exit status says about the calls. -/
inductive Ending' (v : View) : Nat → Prop
  | noPipe : v.calls = none → Ending' v 1
  | good {l} : v.calls = some l → AllGood l → v.broken = false → Ending' v 0
  | broken {l} : v.calls = some l → AllGood l → v.broken = true → Ending' v 1
  | failure {l m} : v.calls = some l → FirstBad l (.failure m) → Ending' v 1
  | appNack {l k p} : v.calls = some l → FirstBad l (.data k p) → p.appNack = true → Ending' v 3

theorem ends_cases {P : Pipe σ ε} (hP : Proper P) {w : World} {o : CatOpts} {v : View} {n : Nat}
    (h : Ends P w o false v n) : Ending' v n := by
  obtain ⟨es, s, hr, rfl, hx⟩ := h
  simp only [Bool.false_eq_true, if_false] at hx
  have hr : (envMachine P (discOpts o) o.pre w.disc (fun n k p => p.valid = true ∧ w.seg n k p)).Run es s := hr
  have hi := prog_inv hP hr
  cases hp : s.pipe with
  | none =>
    have hc : (viewOf P s).calls = none := by simp [viewOf, hp]
    rcases hi.before hp with ⟨hc', _⟩ | ⟨hc', _⟩
    · have hne : ¬ s.ended P := by
        rintro (h | ⟨m, q, h, _⟩)
        · rw [hc'] at h; exact h rfl
        · rw [hp] at h; cases h
      have hx' := hx
      unfold St.Exits at hx
      rw [hc'] at hx
      rcases hx with ⟨h, _⟩ | ⟨_, _, rfl⟩
      · exact absurd h hne
      · obtain ⟨m, q, h, _⟩ := exits_zero hP hr hx'
        rw [hp] at h; cases h
    · unfold St.Exits at hx
      rw [hc'] at hx
      dsimp only at hx
      subst hx
      exact .noPipe hc
  | some nq =>
    obtain ⟨m, q⟩ := nq
    have hc : (viewOf P s).calls = some (P.calls q) := by simp [viewOf, hp]
    obtain ⟨_, ⟨pes, hpr⟩, h3⟩ := hi.after m q hp
    rcases first_bad (P.calls q) with hb | ⟨pre, x, post, e, h5, h6, h7⟩
    · have hg : AllGood (P.calls q) := fun x hx => good_iff.mpr (hb x hx)
      have ht : s.cons.threw = none := by rw [h3]; exact (good_run hb).2
      have hbr : (viewOf P s).broken = P.threw q := by simp [viewOf, hp]
      have hend : s.ended P ↔ P.threw q = true := by
        constructor
        · rintro (h | ⟨m', q', h, h'⟩)
          · exact absurd ht h
          · rw [hp] at h; cases h; exact h'
        · exact fun h => .inr ⟨m, q, hp, h⟩
      unfold St.Exits at hx
      rw [ht] at hx
      rcases hx with ⟨h, rfl⟩ | ⟨h, _, rfl⟩
      · exact .broken hc hg (hbr.trans (hend.mp h))
      · refine .good hc hg (hbr.trans ?_)
        cases ht : P.threw q
        · rfl
        · exact absurd (hend.mpr ht) h
    · have hfb : FirstBad (P.calls q) x :=
        ⟨pre, post, h5, fun y hy => good_iff.mpr (h6 y hy), fun h => by rw [good_iff.mp h] at h7; cases h7⟩
      have ht := (exits_bad hP hr hp h5 h6 h7).1
      cases x with
      | failure msg =>
        simp only [Call.exn, Option.some.injEq] at h7
        subst h7
        unfold St.Exits at hx
        rw [ht] at hx
        dsimp only at hx
        subst hx
        exact .failure hc hfb
      | data k p =>
        have hv : p.valid = true := (hP.came _ _ _ hpr k p (by rw [h5]; simp)).1
        have ha : p.appNack = true := by
          cases ha : p.appNack
          · obtain ⟨_, _, _, _, hb⟩ := hfb; exact absurd ⟨hv, ha⟩ hb
          · rfl
        have he : e = .appNack := by
          simp [Call.exn, hv, ha] at h7
          exact h7.symm
        subst he
        unfold St.Exits at hx
        rw [ht] at hx
        dsimp only at hx
        subst hx
        exact .appNack hc hfb ha

/-! ## The command line -/

/-- Why ndncatchunks stops before it does anything. -/
theorem cat_exits {lib : Lib} {a : Option CatArgs} {k : Nat} (h : catchunks lib a = .exit k) :
    (k = 0 ∧ CatInfo a) ∨ (k = 2 ∧ CatMalformed lib a) ∨ (k = 1 ∧ CatNoName lib a) ∨ (k = 4 ∧ CatNoLog lib a) := by
  cases a with
  | none =>
    simp only [catchunks, Ending.exit.injEq] at h
    exact .inr (.inl ⟨h.symm, fun x hx => by cases hx⟩)
  | some a =>
    simp only [catchunks] at h
    by_cases hh : a.help = true
    · rw [if_pos hh] at h; cases h; exact .inl ⟨rfl, a, rfl, .inl hh⟩
    rw [if_neg hh] at h
    by_cases hv : a.version = true
    · rw [if_pos hv] at h; cases h; exact .inl ⟨rfl, a, rfl, .inr hv⟩
    rw [if_neg hv] at h
    right
    have hni : ¬ (a.help = true ∨ a.version = true) := fun h => h.elim hh hv
    have bad : ∀ {k}, Ending.exit (α := CatOpts) 2 = .exit k → ¬ CatSyntax a → (k = 2 ∧ CatMalformed lib (some a)) ∨
        (k = 1 ∧ CatNoName lib (some a)) ∨ (k = 4 ∧ CatNoLog lib (some a)) := by
      intro k hk hs
      cases hk
      exact .inl ⟨rfl, fun x hx => by cases hx; exact ⟨hni, .inl hs⟩⟩
    by_cases h1 : a.pre = ""
    · rw [if_pos h1] at h; exact bad h (fun hs => hs.name h1)
    rw [if_neg h1] at h
    cases hc : convention a.nameConv with
    | none =>
      rw [hc] at h
      refine bad h (fun hs => ?_)
      obtain ⟨c, hc'⟩ := hs.convention
      rw [(convention_spec _ _).mpr hc'] at hc; cases hc
    | some c =>
      have hc' := (convention_spec _ _).mp hc
      rw [hc] at h
      dsimp only at h
      by_cases h2 : a.lifetime < 0
      · rw [if_pos h2] at h; exact bad h (fun hs => by have := hs.lifetime; omega)
      rw [if_neg h2] at h
      by_cases h3 : a.retries < -1 ∨ a.retries > 1024
      · rw [if_pos h3] at h; exact bad h (fun hs => by have := hs.retries; omega)
      rw [if_neg h3] at h
      by_cases h4 : a.quiet = true ∧ a.verbose = true
      · rw [if_pos h4] at h; exact bad h (fun hs => hs.output h4)
      rw [if_neg h4] at h
      by_cases h5 : a.pipelineSize < 1 ∨ a.pipelineSize > 1024
      · rw [if_pos h5] at h; exact bad h (fun hs => by have := hs.size; omega)
      rw [if_neg h5] at h
      by_cases h6 : a.rtoK < 0
      · rw [if_pos h6] at h; exact bad h (fun hs => by have := hs.k; omega)
      rw [if_neg h6] at h
      by_cases hm : int64 (a.minRto * 10 ^ 6) = true
      swap
      · rw [if_pos hm] at h; cases h
      rw [if_neg (not_not_intro hm)] at h
      by_cases h7 : a.minRto * 10 ^ 6 < 0
      · rw [if_pos h7] at h; exact bad h (fun hs => by have := hs.rto; omega)
      rw [if_neg h7] at h
      by_cases hx : int64 (a.maxRto * 10 ^ 6) = true
      swap
      · rw [if_pos hx] at h; cases h
      rw [if_neg (not_not_intro hx)] at h
      by_cases h8 : a.maxRto * 10 ^ 6 < a.minRto * 10 ^ 6
      · rw [if_pos h8] at h; exact bad h (fun hs => by have := hs.rto; omega)
      rw [if_neg h8] at h
      have hs : CatSyntax a := ⟨h1, ⟨c, hc'⟩, by omega, by omega, h4, by omega, by omega, by omega⟩
      unfold catPipeline at h
      cases hn : lib.name a.pre with
      | none =>
        rw [hn] at h
        cases h
        exact .inr (.inl ⟨rfl, a, rfl, hni, hs, hn⟩)
      | some n =>
        have hn' : (lib.name a.pre).isSome = true := by rw [hn]; rfl
        rw [hn] at h
        dsimp only at h
        by_cases hf : a.pipelineType = "fixed"
        · rw [if_pos hf] at h; cases h
        rw [if_neg hf] at h
        by_cases hty : a.pipelineType = "aimd" ∨ a.pipelineType = "cubic"
        swap
        · rw [if_neg hty] at h
          cases h
          refine .inl ⟨rfl, fun x hx => ?_⟩
          cases hx
          refine ⟨hni, .inr ⟨hn', ?_⟩⟩
          simp only [List.mem_cons, List.not_mem_nil, or_false, not_or] at hty ⊢
          exact ⟨hf, hty⟩
        rw [if_pos hty] at h
        split at h
        · cases h
        by_cases hl : logFiles lib a = true
        · rw [if_neg (not_not_intro hl)] at h; cases h
        rw [if_pos hl] at h
        cases h
        refine .inr (.inr ⟨rfl, a, rfl, hni, hs, hn', by simpa using hty, ?_⟩)
        rw [logFiles_spec] at hl
        simp only [not_forall] at hl
        obtain ⟨f, hf, hl⟩ := hl
        refine ⟨f, hf, fun h => hl (.inl h), ?_⟩
        cases hw : lib.writable f
        · rfl
        · exact absurd (.inr hw) hl

theorem ok_syntax {lib : Lib} {a : CatArgs} (h : CatOk lib a) : CatSyntax a :=
  ⟨h.name.2, h.convention, h.lifetime, h.retries, h.output, h.size, h.k, h.rto⟩

/-- When the program runs, nothing was wrong with the command line. -/
theorem cat_runs {lib : Lib} {a : Option CatArgs} {o : CatOpts} (h : catchunks lib a = .run o) :
    ¬ CatInfo a ∧ ¬ CatMalformed lib a ∧ ¬ CatNoName lib a ∧ ¬ CatNoLog lib a ∧ 0 < o.size := by
  cases a with
  | none => cases h
  | some a =>
    obtain ⟨hok, hg, _⟩ := C44_catchunks_runs lib a o h
    have hni : ¬ (a.help = true ∨ a.version = true) := by
      intro hi
      simp only [catchunks] at h
      by_cases hh : a.help = true
      · rw [if_pos hh] at h; cases h
      rw [if_neg hh, if_pos (hi.resolve_left hh)] at h; cases h
    refine ⟨?_, ?_, ?_, ?_, hg.size.2.1⟩
    · rintro ⟨x, hx, hi⟩; cases hx; exact hni hi
    · intro hm
      rcases (hm a rfl).2 with hs | ⟨_, hs⟩
      · exact hs (ok_syntax hok)
      · exact hs hok.pipeline
    · rintro ⟨x, hx, _, _, hn⟩; cases hx
      have := hok.name.1
      rw [hn] at this; cases this
    · rintro ⟨x, hx, _, _, _, hp, f, hf, h1, h2⟩; cases hx
      have hne : a.pipelineType ≠ "fixed" := by
        intro he; rw [he] at hp; revert hp; decide
      rcases hok.logs hne f hf with h | h
      · exact h1 h
      · rw [h2] at h; cases h

theorem info_not {lib : Lib} {a : Option CatArgs} (h : CatInfo a) :
    ¬ CatMalformed lib a ∧ ¬ CatNoName lib a ∧ ¬ CatNoLog lib a := by
  obtain ⟨x, rfl, hi⟩ := h
  refine ⟨fun hm => (hm x rfl).1 hi, ?_, ?_⟩
  · rintro ⟨y, hy, h, _⟩; cases hy; exact h hi
  · rintro ⟨y, hy, h, _⟩; cases hy; exact h hi

theorem malformed_not {lib : Lib} {a : Option CatArgs} (h : CatMalformed lib a) :
    ¬ CatInfo a ∧ ¬ CatNoName lib a ∧ ¬ CatNoLog lib a := by
  refine ⟨fun hi => (info_not hi).1 h, ?_, ?_⟩
  · rintro ⟨y, rfl, _, hs, hn⟩
    rcases (h y rfl).2 with h | ⟨h, _⟩
    · exact h hs
    · rw [hn] at h; cases h
  · rintro ⟨y, rfl, _, hs, hn, hp, _⟩
    rcases (h y rfl).2 with h | ⟨_, h⟩
    · exact h hs
    · exact h (by simp only [List.mem_cons, List.not_mem_nil, or_false] at hp ⊢; exact .inr hp)

theorem noName_not {lib : Lib} {a : Option CatArgs} (h : CatNoName lib a) :
    ¬ CatInfo a ∧ ¬ CatMalformed lib a ∧ ¬ CatNoLog lib a := by
  refine ⟨fun hi => (info_not hi).2.1 h, fun hm => (malformed_not hm).2.1 h, ?_⟩
  obtain ⟨x, rfl, _, _, hn⟩ := h
  rintro ⟨y, hy, _, _, hn', _⟩; cases hy
  rw [hn] at hn'; cases hn'

end Verif.Transfer
