import Verif.Proofs.Cli

/-!
# Checks of the command line

`Decides` (Spec/Cli) says what `main` does with any command line that the option parser accepts: print information, run with
options that are those given and in range, or end with a status other than 0. `Ending.exit` is before any event is
processed, so that no packet is sent.
-/

namespace Verif.Cli

open Spec

/-! ## C44: Command-line values are validated before use

"Each tool either rejects its command line with its documented exit status and sends no packet, or runs with option values
in the documented ranges." Proved for ndnputchunks, ndnpeek, ndnpoke, ndndump and ndn-dissect. Not so for ndnping and
ndnpingserver: a malformed name is an exception that nothing catches. Nor for ndncatchunks: durations are converted to
nanoseconds without a check, and the weights of the RTT estimator are not checked. -/

/-- The library used in the examples: every name is one component, "/.." is malformed. -/
def exLib : Lib where
  name s := if s = "/.." then none else if s = "/" then some [] else some [⟨8, [97]⟩]
  signing s := s ≠ "bad"
  base64 s := if s = "!" then none else some [1, 2]
  readFile s := if s = "missing" then none else some [3]
  writable s := s ≠ "/root/x"
  readable s := s ≠ "missing"
  regex s := s ≠ "("

/-- A command line that the parser does not accept ends with status 2 in every tool. -/
theorem C44_parser (lib : Lib) (seq : Nat) :
    catchunks lib none = .exit 2 ∧ putchunks lib none = .exit 2 ∧ ping lib seq none = .exit 2 ∧
    pingServer lib none = .exit 2 ∧ peek lib none = .exit 2 ∧ poke lib none = .exit 2 ∧ dump lib none = .exit 2 ∧
    dissect lib none = .exit 2 :=
  ⟨rfl, rfl, rfl, rfl, rfl, rfl, rfl, rfl⟩

/-- **C44, ndncatchunks, part.** Missing: the values described by `CatUnchecked` are assumed to be right. -/
theorem C44_catchunks_partial (lib : Lib) (a : CatArgs) (hu : CatUnchecked a) :
    Decides (catchunks lib (some a)) 0 (a.help = true ∨ a.version = true) (CatOk lib a) (CatStatus lib a)
      (CatGood lib a) := by
  obtain ⟨hm, hx, x, y, ha, hx0, hx1, hb, hy0, hy1⟩ := hu
  have hab : a.rtoAlpha.between 0 1 = true ∧ a.rtoBeta.between 0 1 = true :=
    ⟨between_spec ⟨x, ha, hx0, hx1⟩, between_spec ⟨y, hb, hy0, hy1⟩⟩
  have hm' := int64_of hm
  have hx' := int64_of hx
  constructor
  · intro h
    simp only [catchunks]
    cases h1 : a.help
    · have := h.resolve_left (by rw [h1]; decide)
      simp [this]
    · simp
  · intro h hok
    have hh : ¬ a.help = true := fun hh => h (.inl hh)
    have hv : ¬ a.version = true := fun hv => h (.inr hv)
    obtain ⟨c, hc⟩ := hok.convention
    obtain ⟨n, hn⟩ := Option.isSome_iff_exists.mp hok.name.1
    have hr := hok.retries
    have hs := hok.size
    have hrto := hok.rto
    have hl := hok.lifetime
    have hk := hok.k
    simp only [catchunks]
    rw [if_neg hh, if_neg hv, if_neg hok.name.2, (convention_spec _ _).mpr hc]
    dsimp only
    rw [if_neg (by omega), if_neg (by omega), if_neg hok.output, if_neg (by omega), if_neg (by omega),
      if_neg (not_not_intro hm'), if_neg (by omega), if_neg (not_not_intro hx'), if_neg (by omega)]
    unfold catPipeline
    rw [hn]
    dsimp only
    by_cases hf : a.pipelineType = "fixed"
    · rw [if_pos hf]
      exact ⟨_, rfl, ⟨hn, hc, ⟨rfl, hl⟩, ⟨rfl, hr⟩, ⟨rfl, rfl, rfl, rfl⟩, hf, ⟨rfl, hs⟩, ⟨rfl, hk⟩,
        ⟨by dsimp only; omega, by dsimp only; omega, by dsimp only; omega, by dsimp only; omega⟩⟩⟩
    · have hlog := hok.logs hf
      have hty : a.pipelineType = "aimd" ∨ a.pipelineType = "cubic" := by
        have := hok.pipeline
        simp only [List.mem_cons, List.not_mem_nil, or_false] at this
        exact this.resolve_left hf
      rw [if_neg hf, if_pos hty, if_neg (by simp [hab]), if_neg (by simp [(logFiles_spec lib a).mpr hlog])]
      refine ⟨_, rfl, ⟨hn, hc, ⟨rfl, hl⟩, ⟨rfl, hr⟩, ⟨rfl, rfl, rfl, rfl⟩, ?_, ⟨rfl, hs⟩, ⟨rfl, hk⟩,
        ⟨by dsimp only; omega, by dsimp only; omega, by dsimp only; omega, by dsimp only; omega⟩⟩⟩
      rcases hty with hty | hty <;> simp [hty]
  · intro h hok
    have hh : ¬ a.help = true := fun hh => h (.inl hh)
    have hv : ¬ a.version = true := fun hv => h (.inr hv)
    simp only [catchunks]
    rw [if_neg hh, if_neg hv]
    have two : ∃ s, (Ending.exit 2 : Ending CatOpts) = .exit s ∧ s ≠ 0 ∧ CatStatus lib a s :=
      ⟨2, rfl, by decide, .inl rfl⟩
    by_cases h1 : a.pre = ""
    · rw [if_pos h1]; exact two
    rw [if_neg h1]
    cases hc : convention a.nameConv with
    | none => exact two
    | some c =>
      dsimp only
      by_cases h2 : a.lifetime < 0
      · rw [if_pos h2]; exact two
      rw [if_neg h2]
      by_cases h3 : a.retries < -1 ∨ a.retries > 1024
      · rw [if_pos h3]; exact two
      rw [if_neg h3]
      by_cases h4 : a.quiet = true ∧ a.verbose = true
      · rw [if_pos h4]; exact two
      rw [if_neg h4]
      by_cases h5 : a.pipelineSize < 1 ∨ a.pipelineSize > 1024
      · rw [if_pos h5]; exact two
      rw [if_neg h5]
      by_cases h6 : a.rtoK < 0
      · rw [if_pos h6]; exact two
      rw [if_neg h6, if_neg (not_not_intro hm')]
      by_cases h7 : a.minRto * 10 ^ 6 < 0
      · rw [if_pos h7]; exact two
      rw [if_neg h7, if_neg (not_not_intro hx')]
      by_cases h8 : a.maxRto * 10 ^ 6 < a.minRto * 10 ^ 6
      · rw [if_pos h8]; exact two
      rw [if_neg h8]
      unfold catPipeline
      cases hn : lib.name a.pre with
      | none => exact ⟨1, rfl, by decide, .inr (.inl ⟨rfl, hn⟩)⟩
      | some n =>
        dsimp only
        have base : ∀ hp : a.pipelineType ∈ ["fixed", "aimd", "cubic"],
            (a.pipelineType ≠ "fixed" → ∀ f ∈ [a.logCwnd, a.logRtt], f = "" ∨ lib.writable f = true) → False :=
          fun hp hl => hok ⟨⟨by rw [hn]; rfl, h1⟩, ⟨c, (convention_spec _ _).mp hc⟩, by omega, by omega, h4, by omega,
            by omega, by omega, hp, hl⟩
        by_cases hf : a.pipelineType = "fixed"
        · exact absurd (base (by rw [hf]; decide) (fun h => absurd hf h)) (fun h => h)
        · rw [if_neg hf]
          by_cases hty : a.pipelineType = "aimd" ∨ a.pipelineType = "cubic"
          · rw [if_pos hty, if_neg (by simp [hab])]
            by_cases hl : logFiles lib a = true
            · exact absurd (base (by rcases hty with h | h <;> rw [h] <;> decide)
                (fun _ => (logFiles_spec lib a).mp hl)) (fun h => h)
            · rw [if_pos hl]
              exact ⟨4, rfl, by decide, .inr (.inr ⟨rfl, logFiles_false hl⟩)⟩
          · rw [if_neg hty]; exact two

/-- A command line with every kind of value; it runs with an AIMD pipeline. -/
example : CatUnchecked { pre := "/a", pipelineType := "aimd", retries := -1, nameConv := "m", logRtt := "f" } ∧
    catchunks exLib (some { pre := "/a", pipelineType := "aimd", retries := -1, nameConv := "m", logRtt := "f" }) =
      .run { pre := [⟨8, [97]⟩], conv := .marker, lifetime := 4000, retries := -1, mustBeFresh := false,
             noDiscovery := false, kind := .aimd, size := 1, ignoreMarks := false, disableCwa := false, rtoK := 8,
             minRto := 200000000, maxRto := 60000000000 } ∧
    catchunks exLib (some { pre := "/a", retries := 1025 }) = .exit 2 ∧
    catchunks exLib (some { pre := "/a", logRtt := "/root/x" }) = .exit 4 := by
  refine ⟨⟨by decide, by decide, 1 / 8, 1 / 4, rfl, ?_, ?_, rfl, ?_, ?_⟩, by decide +kernel, by decide +kernel,
    by decide +kernel⟩ <;> decide +kernel

/-- **C44, ndncatchunks, refuted.** With `--min-rto 10000000000000` the conversion to nanoseconds overflows. With
`--rto-alpha 2` ndncatchunks goes on, and violates the precondition of the RTT estimator. -/
theorem C44_catchunks_refuted :
    catchunks exLib (some { pre := "/a", minRto := 10 ^ 13, maxRto := 10 ^ 13 }) = .ub ∧
    catchunks exLib (some { pre := "/a", rtoAlpha := .num 2 }) = .assertFailed ∧
    catchunks exLib (some { pre := "/a", rtoBeta := .nan }) = .assertFailed := by
  decide +kernel

/-- **C44, ndnputchunks.** -/
theorem C44_putchunks (lib : Lib) (a : PutArgs) :
    Decides (putchunks lib (some a)) 0 (a.help = true ∨ a.version = true) (PutOk lib a) (PutStatus lib a)
      (PutGood lib a) := by
  constructor
  · intro h
    simp only [putchunks]
    cases h1 : a.help
    · have := h.resolve_left (by rw [h1]; decide)
      simp [this]
    · simp
  · intro h hok
    have hh : ¬ a.help = true := fun hh => h (.inl hh)
    have hv : ¬ a.version = true := fun hv => h (.inr hv)
    obtain ⟨c, hc⟩ := hok.convention
    obtain ⟨n, hn⟩ := Option.isSome_iff_exists.mp hok.name.1
    have hf := hok.freshness
    have hs := hok.size
    simp only [putchunks]
    rw [if_neg hh, if_neg hv, if_neg hok.name.2, (convention_spec _ _).mpr hc]
    dsimp only
    rw [if_neg (by omega), if_neg (by omega), if_neg (by simp [hok.signing]), if_neg hok.output, hn]
    exact ⟨_, rfl, hn, hc, by dsimp only; omega, rfl, hs⟩
  · intro h hok
    have hh : ¬ a.help = true := fun hh => h (.inl hh)
    have hv : ¬ a.version = true := fun hv => h (.inr hv)
    simp only [putchunks]
    rw [if_neg hh, if_neg hv]
    have two : ∃ s, (Ending.exit 2 : Ending (Name × Producer.Opts)) = .exit s ∧ s ≠ 0 ∧ PutStatus lib a s :=
      ⟨2, rfl, by decide, .inl rfl⟩
    by_cases h1 : a.pre = ""
    · rw [if_pos h1]; exact two
    rw [if_neg h1]
    cases hc : convention a.nameConv with
    | none => exact two
    | some c =>
      dsimp only
      by_cases h2 : a.freshness < 0
      · rw [if_pos h2]; exact two
      rw [if_neg h2]
      by_cases h3 : a.size < 1 ∨ a.size > 8800
      · rw [if_pos h3]; exact two
      rw [if_neg h3]
      by_cases h4 : lib.signing a.signing = true
      · rw [if_neg (by simp [h4])]
        by_cases h5 : a.quiet = true ∧ a.verbose = true
        · rw [if_pos h5]; exact two
        rw [if_neg h5]
        cases hn : lib.name a.pre with
        | none => exact ⟨1, rfl, by decide, .inr ⟨rfl, hn⟩⟩
        | some n =>
          exact absurd ⟨⟨by rw [hn]; rfl, h1⟩, ⟨c, (convention_spec _ _).mp hc⟩, by omega, by omega, h4, h5⟩ hok
      · rw [if_pos h4]; exact two

example : putchunks exLib (some { pre := "/a", size := 8800, freshness := 0 }) =
      .run ([⟨8, [97]⟩], { maxSegmentSize := 8800, freshness := 0, conv := .typed }) ∧
    putchunks exLib (some { pre := "/a", size := 8801 }) = .exit 2 ∧
    putchunks exLib (some { pre := "/.." }) = .exit 1 := by decide +kernel

/-- **C44, ndnping, part.** Missing: the prefix is assumed to be a well-formed name, and the identifier to be ASCII. The
status is 2 even when help is asked for. -/
theorem C44_ping_partial (lib : Lib) (seq : Nat) (a : PingArgs) (hp : ∀ s, a.pre = some s → lib.name s ≠ none)
    (hi : ∀ i, a.identifier = some i → ∀ b ∈ i, b.toNat < 128) :
    (a.help = true → ping lib seq (some a) = .exit 2) ∧
    (a.help = false → Decides (ping lib seq (some a)) 0 (a.version = true) (PingOk a) (· = 2) (PingGood lib seq a)) :=
  ping_decides lib seq a hp fun i h => allAlnum_ascii (hi i h)

example : ping exLib 7 (some { pre := some "/a", count := some 3, identifier := some [97, 49] }) =
      .run ({ pre := [⟨8, [97]⟩], nPings := 3, startSeq := 7, clientIdentifier := [97, 49] }, 1000) ∧
    ping exLib 7 (some { pre := some "/a", count := some 0 }) = .exit 2 ∧
    ping exLib 7 (some { pre := some "/a", identifier := some [] }) = .exit 2 := by decide +kernel

/-- **C44, ndnping, refuted.** A malformed name is an exception that leaves `main`; an identifier with other characters than
ASCII is undefined behaviour. -/
theorem C44_ping_refuted (lib : Lib) (seq : Nat) (s : String) (h : lib.name s = none) :
    ping lib seq (some { pre := some s }) = .terminate ∧
    ∀ s' n, lib.name s' = some n → ping lib seq (some { pre := some s', identifier := some [0xc3, 0xa9] }) = .ub := by
  constructor
  · simp [ping, h]
  · intro s' n h'
    simp [ping, h', allAlnum]

example : exLib.name "/.." = none ∧ exLib.name "/a" = some [⟨8, [97]⟩] := by decide +kernel

/-- **C44, ndnping.** Whenever ndnping runs, the options are those given and in range. -/
theorem C44_ping_runs (lib : Lib) (seq : Nat) (a : PingArgs) (o : Ping.Opts × Nat)
    (h : ping lib seq (some a) = .run o) : PingOk a ∧ PingGood lib seq a o := by
  have key : (∀ s, a.pre = some s → lib.name s ≠ none) ∧ (∀ i, a.identifier = some i → allAlnum i ≠ none) := by
    simp only [ping] at h
    split at h
    · cases h
    split at h
    · cases h
    cases hs : a.pre with
    | none => rw [hs] at h; cases h
    | some s =>
      rw [hs] at h
      dsimp only at h
      cases hn : lib.name s with
      | none => rw [hn] at h; cases h
      | some n =>
        refine ⟨fun s' hs' => by cases hs'; rw [hn]; exact Option.some_ne_none n, ?_⟩
        rw [hn] at h
        dsimp only at h
        split at h
        · cases h
        split at h
        · cases h
        intro i hi hal
        rw [hi] at h
        dsimp only at h
        rw [hal] at h
        cases h
  obtain ⟨h1, h2⟩ := ping_decides lib seq a key.1 key.2
  cases hh : a.help
  · exact (h2 hh).of_run h
  · rw [h1 hh] at h; cases h

/-- **C44, ndnping.** The timeout is not checked by `main`. If it is negative, no Interest is sent in any execution, and the
exit status is 2. -/
theorem C44_ping_timeout (r : ℚ → ℚ) (lib : Lib) (seq : Nat) (a : PingArgs) (o : Ping.Opts × Nat)
    (h : ping lib seq (some a) = .run o) (ht : a.timeout < 0) {es p}
    (hr : (Ping.progMachine r o.1).Run es p) : p.ping.log = [] ∧ p.Exits 2 := by
  obtain ⟨_, hg⟩ := C44_ping_runs lib seq a o h
  have ht' : o.1.timeout < 0 := by rw [hg.timeout]; exact ht
  have hst : Ping.start o.1 = { nextSeq := o.1.startSeq, threw := true } := by
    unfold Ping.start Ping.St.performPing
    rw [if_neg ?_, if_pos ht']
    rcases hg.count with ⟨_, h⟩ | ⟨_, h⟩
    · exact not_not_intro (.inr (by dsimp only; omega))
    · exact not_not_intro (.inl h)
  have hp : p = { ping := { nextSeq := o.1.startSeq, threw := true } } := by
    induction hr with
    | nil =>
      change Ping.Prog.start r o.1 = _
      unfold Ping.Prog.start
      rw [hst]
      rfl
    | snoc e _ he ih =>
      subst ih
      exfalso
      cases e
      · exact Bool.noConfusion he.2.1
      · exact Bool.noConfusion he.1
      · exact Bool.noConfusion he.1
  subst hp
  exact ⟨rfl, rfl⟩

example : ∃ o, ping exLib 7 (some { pre := some "/a", timeout := -5 }) = .run o ∧
    (Ping.progMachine id o.1).Run [] (Ping.progMachine id o.1).init :=
  ⟨({ pre := [⟨8, [97]⟩], startSeq := 7, timeout := -5 }, 1000), by decide +kernel, .nil⟩

/-- **C44, ndncatchunks.** Whenever ndncatchunks runs, the options are those given and in range, and the minimum and maximum
RTO have not overflowed. -/
theorem C44_catchunks_runs (lib : Lib) (a : CatArgs) (o : CatOpts) (h : catchunks lib (some a) = .run o) :
    CatOk lib a ∧ CatGood lib a o ∧ o.maxRto < 2 ^ 63 := by
  simp only [catchunks] at h
  by_cases hh : a.help = true
  · rw [if_pos hh] at h; cases h
  rw [if_neg hh] at h
  by_cases hv : a.version = true
  · rw [if_pos hv] at h; cases h
  rw [if_neg hv] at h
  by_cases h1 : a.pre = ""
  · rw [if_pos h1] at h; cases h
  rw [if_neg h1] at h
  cases hc : convention a.nameConv with
  | none => rw [hc] at h; cases h
  | some c =>
    have hc' := (convention_spec _ _).mp hc
    rw [hc] at h
    dsimp only at h
    by_cases h2 : a.lifetime < 0
    · rw [if_pos h2] at h; cases h
    rw [if_neg h2] at h
    by_cases h3 : a.retries < -1 ∨ a.retries > 1024
    · rw [if_pos h3] at h; cases h
    rw [if_neg h3] at h
    by_cases h4 : a.quiet = true ∧ a.verbose = true
    · rw [if_pos h4] at h; cases h
    rw [if_neg h4] at h
    by_cases h5 : a.pipelineSize < 1 ∨ a.pipelineSize > 1024
    · rw [if_pos h5] at h; cases h
    rw [if_neg h5] at h
    by_cases h6 : a.rtoK < 0
    · rw [if_pos h6] at h; cases h
    rw [if_neg h6] at h
    by_cases hm : int64 (a.minRto * 10 ^ 6) = true
    swap
    · rw [if_pos hm] at h; cases h
    rw [if_neg (not_not_intro hm)] at h
    by_cases h7 : a.minRto * 10 ^ 6 < 0
    · rw [if_pos h7] at h; cases h
    rw [if_neg h7] at h
    by_cases hx : int64 (a.maxRto * 10 ^ 6) = true
    swap
    · rw [if_pos hx] at h; cases h
    rw [if_neg (not_not_intro hx)] at h
    by_cases h8 : a.maxRto * 10 ^ 6 < a.minRto * 10 ^ 6
    · rw [if_pos h8] at h; cases h
    rw [if_neg h8] at h
    have hx2 : a.maxRto * 10 ^ 6 < 2 ^ 63 := by
      simp only [int64, decide_eq_true_eq] at hx
      exact hx.2
    unfold catPipeline at h
    cases hn : lib.name a.pre with
    | none => rw [hn] at h; cases h
    | some n =>
      rw [hn] at h
      dsimp only at h
      have h2' : 0 ≤ a.lifetime := by omega
      have h3' : -1 ≤ a.retries ∧ a.retries ≤ 1024 := by omega
      have h5' : 1 ≤ a.pipelineSize ∧ a.pipelineSize ≤ 1024 := by omega
      have h6' : 0 ≤ a.rtoK := by omega
      have h7' : 0 ≤ a.minRto ∧ a.minRto ≤ a.maxRto := by omega
      by_cases hf : a.pipelineType = "fixed"
      · rw [if_pos hf] at h
        cases h
        exact ⟨⟨⟨by rw [hn]; rfl, h1⟩, ⟨c, hc'⟩, h2', h3', h4, h5', h6', h7', by rw [hf]; decide, fun h => absurd hf h⟩,
          ⟨hn, hc', ⟨rfl, h2'⟩, ⟨rfl, h3'⟩, ⟨rfl, rfl, rfl, rfl⟩, hf, ⟨rfl, h5'⟩, ⟨rfl, h6'⟩,
            ⟨by dsimp only; omega, by dsimp only; omega, by dsimp only; omega, by dsimp only; omega⟩⟩, hx2⟩
      · rw [if_neg hf] at h
        by_cases hty : a.pipelineType = "aimd" ∨ a.pipelineType = "cubic"
        swap
        · rw [if_neg hty] at h; cases h
        rw [if_pos hty] at h
        split at h
        · cases h
        by_cases hl : logFiles lib a = true
        swap
        · rw [if_pos hl] at h; cases h
        rw [if_neg (not_not_intro hl)] at h
        cases h
        refine ⟨⟨⟨by rw [hn]; rfl, h1⟩, ⟨c, hc'⟩, h2', h3', h4, h5', h6', h7',
            by rcases hty with h | h <;> rw [h] <;> decide, fun _ => (logFiles_spec lib a).mp hl⟩,
          ⟨hn, hc', ⟨rfl, h2'⟩, ⟨rfl, h3'⟩, ⟨rfl, rfl, rfl, rfl⟩, ?_, ⟨rfl, h5'⟩, ⟨rfl, h6'⟩,
            ⟨by dsimp only; omega, by dsimp only; omega, by dsimp only; omega, by dsimp only; omega⟩⟩, hx2⟩
        rcases hty with hty | hty <;> simp [hty]

example : ∃ o, catchunks exLib (some { pre := "/a", pipelineType := "fixed", pipelineSize := 1024 }) = .run o ∧
    o.size = 1024 ∧ o.kind = .fixed :=
  ⟨{ pre := [⟨8, [97]⟩], conv := .typed, lifetime := 4000, retries := 15, mustBeFresh := false, noDiscovery := false,
     kind := .fixed, size := 1024, ignoreMarks := false, disableCwa := false, rtoK := 8, minRto := 200000000,
     maxRto := 60000000000 }, by decide +kernel⟩

/-- **C44, ndnpingserver, part.** Missing: the prefix is assumed to be a well-formed name. -/
theorem C44_pingserver_partial (lib : Lib) (a : PingServerArgs) (hp : a.pre ≠ "" → lib.name a.pre ≠ none) :
    Decides (pingServer lib (some a)) 0 (a.help = true ∨ a.version = true) (ServerOk a) (· = 2) (ServerGood lib a) := by
  constructor
  · intro h
    simp only [pingServer]
    cases h1 : a.help
    · have := h.resolve_left (by rw [h1]; decide)
      simp [this]
    · simp
  · intro h hok
    have hh : ¬ a.help = true := fun hh => h (.inl hh)
    have hv : ¬ a.version = true := fun hv => h (.inr hv)
    have h1 := hok.freshness
    have h2 := hok.satisfy
    have h3 := hok.size
    simp only [pingServer]
    rw [if_neg hh, if_neg hv, if_neg hok.name]
    cases hn : lib.name a.pre with
    | none => exact absurd hn (hp hok.name)
    | some n =>
      dsimp only
      rw [if_neg (by omega), if_neg (by omega), if_neg (by omega)]
      exact ⟨_, rfl, hn, by dsimp only; omega, by dsimp only; omega, by dsimp only; omega⟩
  · intro h hok
    have hh : ¬ a.help = true := fun hh => h (.inl hh)
    have hv : ¬ a.version = true := fun hv => h (.inr hv)
    simp only [pingServer]
    rw [if_neg hh, if_neg hv]
    have two : ∃ s, (Ending.exit 2 : Ending PingServer.Opts) = .exit s ∧ s ≠ 0 ∧ s = 2 := ⟨2, rfl, by decide, rfl⟩
    by_cases h1 : a.pre = ""
    · rw [if_pos h1]; exact two
    rw [if_neg h1]
    cases hn : lib.name a.pre with
    | none => exact absurd hn (hp h1)
    | some n =>
      dsimp only
      by_cases h2 : a.freshness < 0
      · rw [if_pos h2]; exact two
      rw [if_neg h2]
      by_cases h3 : a.satisfy < 0
      · rw [if_pos h3]; exact two
      rw [if_neg h3]
      by_cases h4 : a.size < 0
      · rw [if_pos h4]; exact two
      exact absurd ⟨h1, by omega, by omega, by omega⟩ hok

example : pingServer exLib (some { pre := "/a", satisfy := 3, size := 100 }) =
      .run { pre := [⟨8, [97]⟩], nMaxPings := 3, payloadSize := 100 } ∧
    pingServer exLib (some { pre := "/a", satisfy := -3 }) = .exit 2 := by decide +kernel

/-- **C44, ndnpingserver.** Whenever ndnpingserver runs, the options are those given and in range. -/
theorem C44_pingserver_runs (lib : Lib) (a : PingServerArgs) (o : PingServer.Opts)
    (h : pingServer lib (some a) = .run o) : ServerOk a ∧ ServerGood lib a o := by
  refine (C44_pingserver_partial lib a fun hne hn => ?_).of_run h
  simp only [pingServer] at h
  split at h
  · cases h
  split at h
  · cases h
  rw [hn] at h
  cases h

/-- **C44, ndnpingserver, refuted.** A malformed name is an exception that leaves `main`, whatever the other options are. -/
theorem C44_pingserver_refuted (lib : Lib) (a : PingServerArgs) (hh : a.help = false) (hv : a.version = false)
    (hs : a.pre ≠ "") (h : lib.name a.pre = none) : pingServer lib (some a) = .terminate := by
  simp [pingServer, h, hh, hv, hs]

example : exLib.name "/.." = none := by decide +kernel

/-- **C44, ndnpeek.** -/
theorem C44_peek (lib : Lib) (a : PeekArgs) :
    Decides (peek lib (some a)) 0 (a.help = true ∨ a.version = true) (PeekOk lib a) (· = 2) (PeekGood lib a) := by
  constructor
  · intro h
    simp only [peek]
    cases h1 : a.help
    · have := h.resolve_left (by rw [h1]; decide)
      simp [this]
    · simp
  · intro h hok
    have hh : ¬ a.help = true := fun hh => h (.inl hh)
    have hv : ¬ a.version = true := fun hv => h (.inr hv)
    cases hn : a.name with
    | none => exact absurd hn hok.name
    | some n =>
      have hl := hok.lifetime
      have ht : ¬ a.timeout.any (· < 0) = true := by
        cases hc : a.timeout with
        | none => simp
        | some c => have := hok.timeout c hc; simp; omega
      have ht' : (∃ t : Nat, a.timeout = some (t : Int) ∧ a.timeout.map Int.toNat = some t) ∨
          (a.timeout = none ∧ a.timeout.map Int.toNat = none) := by
        cases hc : a.timeout with
        | none => exact .inr ⟨rfl, rfl⟩
        | some c =>
          have := hok.timeout c hc
          exact .inl ⟨c.toNat, by rw [Int.toNat_of_nonneg this], rfl⟩
      have hhop : ¬ a.hopLimit.any (fun h => h < 0 ∨ h > 255) = true := by
        cases hc : a.hopLimit with
        | none => simp
        | some c => have := hok.hopLimit c hc; simp; omega
      have hhop' : (∃ t : Nat, a.hopLimit = some (t : Int) ∧ a.hopLimit.map Int.toNat = some t ∧ t ≤ 255) ∨
          (a.hopLimit = none ∧ a.hopLimit.map Int.toNat = none) := by
        cases hc : a.hopLimit with
        | none => exact .inr ⟨rfl, rfl⟩
        | some c =>
          have := hok.hopLimit c hc
          exact .inl ⟨c.toNat, by rw [Int.toNat_of_nonneg this.1], rfl, by omega⟩
      have hp : ∃ p, appParams lib a = some p ∧
          ((∃ s b, a.appParams = some s ∧ lib.base64 s = some b ∧ p = some b) ∨
            (∃ f b, a.appParamsFile = some f ∧ lib.readFile f = some b ∧ p = some b) ∨
            (a.appParams = none ∧ a.appParamsFile = none ∧ p = none)) := by
        unfold appParams
        cases h1 : a.appParams with
        | none =>
          cases h2 : a.appParamsFile with
          | none => exact ⟨_, rfl, .inr (.inr ⟨rfl, rfl, rfl⟩)⟩
          | some f =>
            obtain ⟨b, hb⟩ := Option.ne_none_iff_exists'.mp (hok.file f h2)
            exact ⟨some b, by simp [hb], .inr (.inl ⟨f, b, rfl, hb, rfl⟩)⟩
        | some s =>
          obtain ⟨h2, h3⟩ := hok.params s h1
          obtain ⟨b, hb⟩ := Option.ne_none_iff_exists'.mp h3
          exact ⟨some b, by simp [h2, hb], .inl ⟨s, b, rfl, hb, rfl⟩⟩
      obtain ⟨p, hp1, hp2⟩ := hp
      simp only [peek]
      rw [if_neg hh, if_neg hv, hn]
      dsimp only
      rw [if_neg ht, if_neg (by omega), if_neg hhop, hp1]
      exact ⟨_, rfl, hn, ⟨rfl, rfl, rfl, rfl⟩, ht', by dsimp only; omega, hhop', hp2⟩
  · intro h hok
    have hh : ¬ a.help = true := fun hh => h (.inl hh)
    have hv : ¬ a.version = true := fun hv => h (.inr hv)
    simp only [peek]
    rw [if_neg hh, if_neg hv]
    have two : ∃ s, (Ending.exit 2 : Ending Peek.Opts) = .exit s ∧ s ≠ 0 ∧ s = 2 := ⟨2, rfl, by decide, rfl⟩
    cases hn : a.name with
    | none => exact two
    | some n =>
      dsimp only
      by_cases h1 : a.timeout.any (· < 0) = true
      · rw [if_pos h1]; exact two
      rw [if_neg h1]
      by_cases h2 : a.lifetime < 0
      · rw [if_pos h2]; exact two
      rw [if_neg h2]
      by_cases h3 : a.hopLimit.any (fun h => h < 0 ∨ h > 255) = true
      · rw [if_pos h3]; exact two
      rw [if_neg h3]
      cases hp : appParams lib a with
      | none => exact two
      | some p =>
        refine absurd ⟨by rw [hn]; exact Option.some_ne_none n, ?_, by omega, ?_, ?_, ?_⟩ hok
        · intro t ht; rw [ht] at h1; simp at h1; omega
        · intro t ht; rw [ht] at h3; simp at h3; omega
        · intro s hs
          unfold appParams at hp
          rw [hs] at hp
          cases hf : a.appParamsFile with
          | some f => rw [hf] at hp; cases hp
          | none => refine ⟨rfl, fun hb => ?_⟩; rw [hf] at hp; simp [hb] at hp
        · intro f hf hr
          unfold appParams at hp
          rw [hf] at hp
          cases hs : a.appParams with
          | some s => rw [hs] at hp; cases hp
          | none => rw [hs] at hp; simp [hr] at hp

example : peek exLib (some { name := some [⟨8, [98]⟩], hopLimit := some 255, appParams := some "AQI=", timeout := some 0 }) =
      .run { name := [⟨8, [98]⟩], hopLimit := some 255, applicationParameters := some [1, 2], timeout := some 0 } ∧
    peek exLib (some { name := some [⟨8, [98]⟩], hopLimit := some 256 }) = .exit 2 ∧
    peek exLib (some { name := some [⟨8, [98]⟩], appParams := some "AQI=", appParamsFile := some "f" }) = .exit 2 := by
  decide +kernel

/-- **C44, ndnpoke.** -/
theorem C44_poke (lib : Lib) (a : PokeArgs) :
    Decides (poke lib (some a)) 0 (a.help = true ∨ a.version = true) (PokeOk lib a) (· = 2) (PokeGood lib a) := by
  constructor
  · intro h
    simp only [poke]
    cases h1 : a.help
    · have := h.resolve_left (by rw [h1]; decide)
      simp [this]
    · simp
  · intro h hok
    have hh : ¬ a.help = true := fun hh => h (.inl hh)
    have hv : ¬ a.version = true := fun hv => h (.inr hv)
    obtain ⟨s, n, hs, hn, hne⟩ := hok.name
    have hf := hok.freshness
    have hti : ¬ (a.timeout.isSome = true ∧ a.unsolicited = true) := by
      rintro ⟨h1, h2⟩
      obtain ⟨t, ht⟩ := Option.isSome_iff_exists.mp h1
      rw [(hok.timeout t ht).2] at h2; cases h2
    have ht : ¬ a.timeout.any (· < 0) = true := by
      cases hc : a.timeout with
      | none => simp
      | some c => have := hok.timeout c hc; simp; omega
    have ht' : (∃ t : Nat, a.timeout = some (t : Int) ∧ a.timeout.map Int.toNat = some t ∧ a.unsolicited = false) ∨
        (a.timeout = none ∧ a.timeout.map Int.toNat = none) := by
      cases hc : a.timeout with
      | none => exact .inr ⟨rfl, rfl⟩
      | some c =>
        have := hok.timeout c hc
        exact .inl ⟨c.toNat, by rw [Int.toNat_of_nonneg this.1], rfl, this.2⟩
    simp only [poke]
    rw [if_neg hh, if_neg hv, hs]
    dsimp only
    rw [hn]
    dsimp only
    rw [if_neg hne, if_neg (by omega), if_neg (not_not_intro hok.signing), if_neg hti, if_neg ht]
    exact ⟨_, rfl, ⟨s, hs, hn, hne⟩, by dsimp only; omega, ⟨rfl, rfl⟩, ht'⟩
  · intro h hok
    have hh : ¬ a.help = true := fun hh => h (.inl hh)
    have hv : ¬ a.version = true := fun hv => h (.inr hv)
    simp only [poke]
    rw [if_neg hh, if_neg hv]
    have two : ∃ s, (Ending.exit 2 : Ending Poke.Opts) = .exit s ∧ s ≠ 0 ∧ s = 2 := ⟨2, rfl, by decide, rfl⟩
    cases hs : a.name with
    | none => exact two
    | some s =>
      dsimp only
      cases hn : lib.name s with
      | none => exact two
      | some n =>
        dsimp only
        by_cases h1 : n = []
        · rw [if_pos h1]; exact two
        rw [if_neg h1]
        by_cases h2 : a.freshness < 0
        · rw [if_pos h2]; exact two
        rw [if_neg h2]
        by_cases h3 : lib.signing a.signing = true
        swap
        · rw [if_pos h3]; exact two
        rw [if_neg (not_not_intro h3)]
        by_cases h4 : a.timeout.isSome = true ∧ a.unsolicited = true
        · rw [if_pos h4]; exact two
        rw [if_neg h4]
        by_cases h5 : a.timeout.any (· < 0) = true
        · rw [if_pos h5]; exact two
        refine absurd ⟨⟨s, n, hs, hn, h1⟩, by omega, h3, fun t ht => ?_⟩ hok
        rw [ht] at h4 h5
        simp at h4 h5
        exact ⟨h5, h4⟩

example : poke exLib (some { name := some "/a", timeout := some 10, final := true }) =
      .run { name := [⟨8, [97]⟩], timeout := some 10, wantFinalBlockId := true } ∧
    poke exLib (some { name := some "/a", timeout := some 10, unsolicited := true }) = .exit 2 ∧
    poke exLib (some { name := some "/" }) = .exit 2 := by decide +kernel

/-- **C44, ndndump.** -/
theorem C44_dump (lib : Lib) (a : DumpArgs) :
    Decides (dump lib (some a)) 0 (a.help = true ∨ a.version = true) (DumpOk lib a) (· = 2) (DumpGood a) := by
  constructor
  · intro h
    simp only [dump]
    cases h1 : a.help
    · have := h.resolve_left (by rw [h1]; decide)
      simp [this]
    · simp
  · intro h hok
    have hh : ¬ a.help = true := fun hh => h (.inl hh)
    have hv : ¬ a.version = true := fun hv => h (.inr hv)
    have h1 : ¬ (a.interface.isSome = true ∧ a.read.isSome = true) := by
      rintro ⟨h1, h2⟩
      rcases hok.source with h | h
      · rw [h] at h1; cases h1
      · rw [h] at h2; cases h2
    have h2 : ¬ a.filter.any (fun f => ¬ lib.regex f) = true := by
      cases hf : a.filter with
      | none => simp
      | some f => simp [hok.filter f hf]
    simp only [dump]
    rw [if_neg hh, if_neg hv, if_neg h1, if_neg h2]
    refine ⟨_, rfl, ?_, rfl, ⟨by simp, by simp, rfl, rfl⟩⟩
    cases hi : a.interface with
    | none =>
      cases hr : a.read with
      | none => exact .inr (.inr ⟨rfl, rfl, rfl, rfl⟩)
      | some r => exact .inr (.inl ⟨rfl, rfl, rfl⟩)
    | some i =>
      cases hr : a.read with
      | none => exact .inl ⟨rfl, rfl, rfl⟩
      | some r => exact absurd ⟨by rw [hi]; rfl, by rw [hr]; rfl⟩ h1
  · intro h hok
    have hh : ¬ a.help = true := fun hh => h (.inl hh)
    have hv : ¬ a.version = true := fun hv => h (.inr hv)
    simp only [dump]
    rw [if_neg hh, if_neg hv]
    have two : ∃ s, (Ending.exit 2 : Ending DumpOpts) = .exit s ∧ s ≠ 0 ∧ s = 2 := ⟨2, rfl, by decide, rfl⟩
    by_cases h1 : a.interface.isSome = true ∧ a.read.isSome = true
    · rw [if_pos h1]; exact two
    rw [if_neg h1]
    by_cases h2 : a.filter.any (fun f => ¬ lib.regex f) = true
    · rw [if_pos h2]; exact two
    refine absurd ⟨?_, fun f hf => ?_⟩ hok
    · cases hi : a.interface with
      | none => exact .inl rfl
      | some i =>
        cases hr : a.read with
        | none => exact .inr rfl
        | some r => exact absurd ⟨by rw [hi]; rfl, by rw [hr]; rfl⟩ h1
    · rw [hf] at h2
      simpa using h2

example : dump exLib (some { read := some "trace", filter := some "ping", noTimestamp := true }) =
      .run { interface := "", read := "trace", filter := some "ping", wantPromisc := true, wantTimestamp := false,
             wantVerbose := false, pcapFilter := [] } ∧
    dump exLib (some { read := some "trace", interface := some "eth0" }) = .exit 2 ∧
    dump exLib (some { filter := some "(" }) = .exit 2 := by decide +kernel

/-- **C44, ndn-dissect.** Status 3 if the file cannot be read. -/
theorem C44_dissect (lib : Lib) (a : DissectArgs) :
    Decides (dissect lib (some a)) 0 (a.help = true ∨ a.version = true) (DissectOk lib a) (· = 3) (DissectGood a) := by
  constructor
  · intro h
    simp only [dissect]
    cases h1 : a.help
    · have := h.resolve_left (by rw [h1]; decide)
      simp [this]
    · simp
  · intro h hok
    have hh : ¬ a.help = true := fun hh => h (.inl hh)
    have hv : ¬ a.version = true := fun hv => h (.inr hv)
    simp only [dissect]
    rw [if_neg hh, if_neg hv]
    cases hf : a.file with
    | none => exact ⟨_, rfl, .inr ⟨rfl, .inl hf⟩, rfl⟩
    | some f =>
      dsimp only
      by_cases hd : f = "-"
      · rw [if_neg (not_not_intro hd)]
        exact ⟨_, rfl, .inr ⟨rfl, .inr (by rw [hf, hd])⟩, rfl⟩
      · rw [if_pos hd, if_neg (not_not_intro ((hok f hf).resolve_left hd))]
        exact ⟨_, rfl, .inl ⟨f, hf, hd, rfl⟩, rfl⟩
  · intro h hok
    have hh : ¬ a.help = true := fun hh => h (.inl hh)
    have hv : ¬ a.version = true := fun hv => h (.inr hv)
    simp only [dissect]
    rw [if_neg hh, if_neg hv]
    cases hf : a.file with
    | none => exact absurd (fun f hf' => by rw [hf] at hf'; cases hf') hok
    | some f =>
      dsimp only
      by_cases hd : f = "-"
      · exact absurd (fun g hg => by rw [hf] at hg; cases hg; exact .inl hd) hok
      · rw [if_pos hd]
        by_cases hr : lib.readable f = true
        · exact absurd (fun g hg => by rw [hf] at hg; cases hg; exact .inr hr) hok
        · rw [if_pos hr]; exact ⟨3, rfl, by decide, rfl⟩

example : dissect exLib (some { file := some "-", content := true }) = .run { file := none, content := true } ∧
    dissect exLib (some { file := some "missing" }) = .exit 3 := by decide +kernel

end Verif.Cli
