import Verif.Proofs.Transfer

/-! # ndncatchunks and ndnputchunks from the command line to the exit status -/

namespace Verif.Transfer

open Cli Cli.Spec Catchunks Spec

variable {σ ε : Type}

/-! ## C79: From two command lines to a file and an exit status

"For every command line and every execution: ndncatchunks ends with status 0 exactly when information was requested or all
calls of the pipeline were deliveries of segments and no exception occurred; 2 exactly for a malformed command line; 4
exactly when a file for statistics cannot be opened; 3 exactly when the first other thing that it received was an
application Nack; 1 in all other cases; never 5. If all packets come from one ndnputchunks, started with any command line
that it accepts, then the output of ndncatchunks is a prefix of the input of ndnputchunks, and the whole input if the status
is 0. No discovery Interest is sent if version discovery is disabled or the name has a version." -/

private theorem status_exit {lib : Lib} {a : Option CatArgs} {k : Nat} (h : catchunks lib a = .exit k) :
    CatStatus lib a false {} k := by
  rcases cat_exits h with ⟨rfl, hc⟩ | ⟨rfl, hc⟩ | ⟨rfl, hc⟩ | ⟨rfl, hc⟩
  · obtain ⟨h1, h2, h3⟩ := info_not (lib := lib) hc
    exact ⟨by simp [hc], by simp [h2, hc], by simp [h1], by simp, by simp [h3], by decide⟩
  · obtain ⟨h1, h2, h3⟩ := malformed_not hc
    exact ⟨by simp [h1], by simp [h2, hc], by simp [hc], by simp, by simp [h3], by decide⟩
  · obtain ⟨h1, h2, h3⟩ := noName_not hc
    exact ⟨by simp [h1], by simp [hc], by simp [h2], by simp, by simp [h3], by decide⟩
  · have h1 : ¬ CatInfo a := fun hi => (info_not hi).2.2 hc
    have h2 : ¬ CatMalformed lib a := fun hi => (malformed_not hi).2.2 hc
    have h3 : ¬ CatNoName lib a := fun hi => (noName_not hi).2.2 hc
    exact ⟨by simp [h1], by simp [h3, hc], by simp [h2], by simp, by simp [hc], by decide⟩

private theorem status_run {lib : Lib} {a : Option CatArgs} {o : CatOpts} (h : catchunks lib a = .run o)
    {P : Pipe σ ε} (hP : Proper P) {w : World} {failed : Bool} {v : View} {n : Nat} (he : Ends P w o failed v n) :
    CatStatus lib a failed v n := by
  obtain ⟨h1, h2, h3, h4, -⟩ := cat_runs h
  cases failed with
  | true =>
    obtain ⟨es, s, _, _, hn⟩ := he
    simp only [if_true] at hn
    subst hn
    exact ⟨by simp [h1], by simp, by simp [h2], by simp, by simp [h4], by decide⟩
  | false =>
    cases ends_cases hP he with
    | noPipe hc => exact ⟨by simp [h1, hc], by simp [h1, h2, h4, hc], by simp [h2], by simp [hc], by simp [h4], by decide⟩
    | good hc hg hb =>
      refine ⟨by simp [hc, hg, hb], ?_, by simp [h2], ?_, by simp [h4], by decide⟩
      · simp only [Nat.zero_ne_one, h3, false_or, Bool.false_eq_true, hc, reduceCtorEq, Option.some.injEq, hb, and_false,
          false_iff]
        rintro ⟨_, _, _, l, rfl, m, hm⟩
        exact allGood_not_firstBad hg hm
      · constructor
        · intro e; cases e
        · rintro ⟨_, l, k, p, e, hf, _⟩
          rw [hc] at e; cases e
          exact (allGood_not_firstBad hg hf).elim
    | broken hc hg hb =>
      refine ⟨by simp [h1, hb], ?_, by simp [h2], ?_, by simp [h4], by decide⟩
      · exact ⟨fun _ => .inr (.inr ⟨h1, h2, h4, .inr ⟨_, hc, .inl ⟨hg, hb⟩⟩⟩), fun _ => rfl⟩
      · constructor
        · intro e; cases e
        · rintro ⟨_, l, k, p, e, hf, _⟩
          rw [hc] at e; cases e
          exact (allGood_not_firstBad hg hf).elim
    | failure hc hf =>
      refine ⟨?_, ?_, by simp [h2], ?_, by simp [h4], by decide⟩
      · constructor
        · intro e; cases e
        · rintro (h | ⟨_, _, l, e, hg⟩)
          · exact absurd h h1
          · rw [hc] at e; cases e
            exact (allGood_not_firstBad hg hf).elim
      · exact ⟨fun _ => .inr (.inr ⟨h1, h2, h4, .inr ⟨_, hc, .inr ⟨_, hf⟩⟩⟩), fun _ => rfl⟩
      · constructor
        · intro e; cases e
        · rintro ⟨_, l, k, p, e, hf', _⟩
          rw [hc] at e; cases e
          have := firstBad_unique hf hf'; cases this
    | appNack hc hf ha =>
      refine ⟨?_, ?_, by simp [h2], ?_, by simp [h4], by decide⟩
      · constructor
        · intro e; cases e
        · rintro (h | ⟨_, _, l, e, hg⟩)
          · exact absurd h h1
          · rw [hc] at e; cases e
            exact (allGood_not_firstBad hg hf).elim
      · constructor
        · intro e; cases e
        · rintro (h | h | ⟨_, _, _, e | ⟨l, e, ⟨hg, _⟩ | ⟨m, hf'⟩⟩⟩)
          · exact absurd h h3
          · cases h
          · rw [hc] at e; cases e
          · rw [hc] at e; cases e
            exact (allGood_not_firstBad hg hf).elim
          · rw [hc] at e; cases e
            have := firstBad_unique hf hf'; cases this
      · exact ⟨fun _ => ⟨rfl, _, _, _, hc, hf, ha⟩, fun _ => rfl⟩

/-- **C79, exit status.** For every command line, window algorithm and behaviour of the network. -/
theorem C79_status {lib : Lib} {W : Windows σ ε} {w : CatOpts → World} {a : Option CatArgs} {failed : Bool} {v : View}
    {n : Nat} (h : Cat lib W w a failed v n) :
    CatStatus lib a failed v n ∧ (CatInfo a ∨ CatMalformed lib a ∨ CatNoName lib a ∨ CatNoLog lib a →
      v.calls = none ∧ v.out = []) := by
  unfold Cat at h
  cases he : catchunks lib a with
  | exit k =>
    rw [he] at h
    obtain ⟨rfl, rfl, rfl⟩ := h
    exact ⟨status_exit he, fun _ => ⟨rfl, rfl⟩⟩
  | run o =>
    obtain ⟨h1, h2, h3, h4, hN⟩ := cat_runs he
    refine ⟨?_, fun hx => by rcases hx with hx | hx | hx | hx <;> contradiction⟩
    rw [he] at h
    cases hk : o.kind with
    | fixed => simp only [hk] at h; exact status_run he (fixed_proper hN) h
    | aimd => simp only [hk] at h; exact status_run he adaptive_proper h
    | cubic => simp only [hk] at h; exact status_run he adaptive_proper h
  | terminate => rw [he] at h; cases h
  | ub => rw [he] at h; cases h
  | assertFailed => rw [he] at h; cases h

private theorem world_net {P : Pipe σ ε} {digest : Data → Bytes} {p : Producer.Prod} {o : CatOpts} {es s}
    (h : (worldMachine P (fromProducer digest p o) o).Run es s) :
    (netMachine P (discOpts o) digest p o.conv o.mustBeFresh o.pre).Run es s := by
  induction h with
  | nil => exact .nil
  | snoc e _ he ih =>
    refine .snoc (M := netMachine P (discOpts o) digest p o.conv o.mustBeFresh o.pre) e ih ⟨he.1, ?_⟩
    have h2 := he.2
    cases e with
    | disc e => exact h2
    | pipe e => exact fun n q k p' hp ha => (h2 n q k p' hp ha).2

/-- **C79, bytes.** All packets come from an ndnputchunks that was started with a command line that it accepts. The name on the
command line of ndncatchunks is not that of the metadata. Whatever the network and the window algorithm do, the output is a
prefix of the input of ndnputchunks, and the whole input if the status is 0 (and not only help was requested); and the
status is not 3: application Nacks do not come from ndnputchunks. -/
theorem C79_bytes {lib lib' : Lib} {W : Windows σ ε} {digest : Data → Bytes} {pa : Option PutArgs} {now : Nat}
    {input : Bytes} (hn : now < 2 ^ 64) (hi : input.length < 2 ^ 64) {p : Producer.Prod} (hp : Serves lib' pa now input p)
    {a : Option CatArgs} {failed : Bool} {v : View} {n : Nat}
    (hname : ∀ x m, a = some x → lib.name x.pre = some m → ¬ p.pre ++ [metadataComp] <+: m)
    (h : Cat lib W (fromProducer digest p) a failed v n) :
    v.out <+: input ∧ (n = 0 → ¬ CatInfo a → v.out = input) ∧ n ≠ 3 := by
  obtain ⟨⟨pre0, po⟩, hput, rfl⟩ := hp
  have hm : 0 < po.maxSegmentSize := by
    cases pa with
    | none => cases hput
    | some pa =>
      have hd := C44_putchunks lib' pa
      by_cases hinf : pa.help = true ∨ pa.version = true
      · rw [hd.information hinf] at hput; cases hput
      · by_cases hok : PutOk lib' pa
        · obtain ⟨o', ho', hg⟩ := hd.runs hinf hok
          rw [ho'] at hput; cases hput
          exact hg.size.2.1
        · obtain ⟨k, hk, _⟩ := hd.rejects hinf hok
          rw [hk] at hput; cases hput
  unfold Cat at h
  cases he : catchunks lib a with
  | exit k =>
    rw [he] at h
    obtain ⟨rfl, rfl, rfl⟩ := h
    refine ⟨List.nil_prefix, fun e hni => ?_, ?_⟩
    · subst e
      rcases cat_exits he with ⟨_, h⟩ | ⟨h, _⟩ | ⟨h, _⟩ | ⟨h, _⟩
      · exact absurd h hni
      all_goals cases h
    · rintro rfl
      rcases cat_exits he with ⟨h, _⟩ | ⟨h, _⟩ | ⟨h, _⟩ | ⟨h, _⟩ <;> cases h
  | run o =>
    obtain ⟨h1, _, _, _, hN⟩ := cat_runs he
    have hname' : ¬ (Producer.construct po pre0 now input).pre ++ [metadataComp] <+: o.pre := by
      cases a with
      | none => cases he
      | some x => exact hname x o.pre rfl (C44_catchunks_runs lib x o he).2.1.name
    rw [he] at h
    have fin : ∀ {σ ε : Type} {P : Pipe σ ε},
        (∀ {es s}, (netMachine P (discOpts o) digest (Producer.construct po pre0 now input) o.conv o.mustBeFresh o.pre).Run
          es s → s.stdout <+: input ∧ (s.Exits P 0 → s.stdout = input) ∧ ∀ n, s.Exits P n → n = 0 ∨ n = 1) →
        Ends P (fromProducer digest (Producer.construct po pre0 now input) o) o failed v n →
        v.out <+: input ∧ (n = 0 → ¬ CatInfo a → v.out = input) ∧ n ≠ 3 := by
      rintro σ ε P hall ⟨es, s, hr, rfl, hx⟩
      obtain ⟨g1, g2, g3⟩ := hall (world_net hr)
      refine ⟨g1, ?_, ?_⟩
      · rintro rfl _
        cases failed with
        | true => simp at hx
        | false => exact g2 (by simpa using hx)
      · rintro rfl
        cases failed with
        | true => simp at hx
        | false => have := g3 3 (by simpa using hx); omega
    cases hk : o.kind with
    | fixed => simp only [hk] at h; exact fin (fun hr => C22_fixed hN hn hm hi hname' hr) h
    | aimd => simp only [hk] at h; exact fin (fun hr => C22_adaptive hn hm hi hname' hr) h
    | cubic => simp only [hk] at h; exact fin (fun hr => C22_adaptive hn hm hi hname' hr) h
  | terminate => rw [he] at h; cases h
  | ub => rw [he] at h; cases h
  | assertFailed => rw [he] at h; cases h

private theorem discovery_run {P : Pipe σ ε} (hP : Proper P) {w : World} {o : CatOpts} {failed : Bool} {v : View} {n : Nat}
    (h : Ends P w o failed v n) :
    (o.noDiscovery = true ∨ o.pre.endsWithVersion = true → v.discovery = 0 ∧ v.name = some o.pre) ∧
    (0 ≤ o.retries → (v.discovery : Int) ≤ 1 + 2 * o.retries) ∧
    (∀ m, v.name = some m → m = o.pre ∨ m.endsWithVersion = true) := by
  obtain ⟨es, s, hr, rfl, _⟩ := h
  have hr : (envMachine P (discOpts o) o.pre w.disc (fun n k p => p.valid = true ∧ w.seg n k p)).Run es s := hr
  have hi := prog_inv hP hr
  obtain ⟨des, hd, _⟩ := hi.disc
  by_cases hx : o.noDiscovery = true ∨ o.pre.endsWithVersion = true
  · have hl := Discover.C24_not_needed (o := discOpts o) hx hd
    have hz : (viewOf P s).discovery = 0 := by simp [viewOf, hl]
    have hname : (viewOf P s).name = some o.pre := by
      cases hp : s.pipe with
      | none =>
        rcases hi.before hp with ⟨_, h⟩ | ⟨_, _, r, h⟩
        · rw [hl] at h; have := h _ (List.mem_singleton.mpr rfl); cases this
        · rw [hl] at h; simp at h
      | some nq =>
        have := (hi.after nq.1 nq.2 hp).1
        rw [hl] at this
        simp only [List.mem_singleton, Discover.Obs.success.injEq] at this
        simp [viewOf, hp, this]
    refine ⟨fun _ => ⟨hz, hname⟩, fun h => by rw [hz]; simp; omega, fun m hm => ?_⟩
    rw [hname] at hm; cases hm; exact .inl rfl
  · have h1 : (discOpts o).disable = false := by
      cases h : o.noDiscovery with
      | false => exact h
      | true => exact absurd (.inl h) hx
    have h2 : o.pre.endsWithVersion = false := by
      cases h : o.pre.endsWithVersion with
      | false => rfl
      | true => exact absurd (.inr h) hx
    refine ⟨fun h => absurd h hx, fun h => (Discover.C24_result_comes h1 h2 hd).2.2 h, fun m hm => .inr ?_⟩
    cases hp : s.pipe with
    | none => simp [viewOf, hp] at hm
    | some nq =>
      have hs := (hi.after nq.1 nq.2 hp).1
      have : m = nq.1 := by simpa [viewOf, hp] using hm.symm
      subst this
      obtain ⟨⟨c, x, e, hx⟩, _⟩ := (Discover.C24_one_result h1 h2 hd).2 _ hs
      rw [e]
      simp [Name.endsWithVersion, hx]

/-- **C79, options.** With `--no-version-discovery`, or if the name ends with a version, the name on the command line is fetched
and no discovery Interest is sent; in any case at most `1 + 2 * retries` are, and what is fetched otherwise has a
version. -/
theorem C79_discovery {lib : Lib} {W : Windows σ ε} {w : CatOpts → World} {a : CatArgs} {failed : Bool} {v : View} {n : Nat}
    (h : Cat lib W w (some a) failed v n) {m : Name} (hm : lib.name a.pre = some m) :
    (a.noDiscovery = true ∨ m.endsWithVersion = true → v.discovery = 0 ∧ (n ≠ 0 ∧ v.name = none ∨ v.name = some m ∨
      CatInfo (some a))) ∧
    (0 ≤ a.retries → (v.discovery : Int) ≤ 1 + 2 * a.retries) ∧
    ∀ m', v.name = some m' → m' = m ∨ m'.endsWithVersion = true := by
  unfold Cat at h
  cases he : catchunks lib (some a) with
  | exit k =>
    rw [he] at h
    obtain ⟨rfl, rfl, rfl⟩ := h
    refine ⟨fun _ => ⟨rfl, ?_⟩, fun h => by simp; omega, fun m' h => by cases h⟩
    rcases cat_exits he with ⟨_, h⟩ | ⟨rfl, h⟩ | ⟨rfl, h⟩ | ⟨rfl, h⟩
    · exact .inr (.inr h)
    all_goals exact .inl ⟨by decide, rfl⟩
  | run o =>
    obtain ⟨_, _, _, _, hN⟩ := cat_runs he
    obtain ⟨_, hg, _⟩ := C44_catchunks_runs lib a o he
    have hpre : o.pre = m := by have := hg.name; rw [hm] at this; exact (Option.some.inj this).symm
    rw [he] at h
    have fin : ∀ {σ ε : Type} {P : Pipe σ ε}, Proper P → Ends P (w o) o failed v n →
        (a.noDiscovery = true ∨ m.endsWithVersion = true → v.discovery = 0 ∧ (n ≠ 0 ∧ v.name = none ∨ v.name = some m ∨
          CatInfo (some a))) ∧
        (0 ≤ a.retries → (v.discovery : Int) ≤ 1 + 2 * a.retries) ∧
        ∀ m', v.name = some m' → m' = m ∨ m'.endsWithVersion = true := by
      intro σ ε P hP h
      have h' := discovery_run hP h
      rw [hpre, hg.flags.2.1, hg.retries.1] at h'
      exact ⟨fun hx => ⟨(h'.1 hx).1, .inr (.inl (h'.1 hx).2)⟩, h'.2.1, h'.2.2⟩
    cases hk : o.kind with
    | fixed => simp only [hk] at h; exact fin (fixed_proper hN) h
    | aimd => simp only [hk] at h; exact fin adaptive_proper h
    | cubic => simp only [hk] at h; exact fin adaptive_proper h
  | terminate => rw [he] at h; cases h
  | ub => rw [he] at h; cases h
  | assertFailed => rw [he] at h; cases h

/-- **C79, success.** ndncatchunks and ndnputchunks were started with command lines that they accept, ndncatchunks with the fixed
pipeline, for the object of ndnputchunks, with the same naming convention, and fresh Data is asked for only if it is offered.
Over a network that does not lose too much (`fairMachine`, as in C72) ndncatchunks can only end with status 0 and the whole
input; and it can always go on to do so. -/
theorem C79_succeeds {lib lib' : Lib} {digest : Data → Bytes} {pa : PutArgs} {pre0 : Name} {po : Producer.Opts} {now : Nat}
    {input : Bytes} (hn : now < 2 ^ 64) (hi : input.length < 2 ^ 64) (hput : putchunks lib' (some pa) = .run (pre0, po))
    {a : CatArgs} {o : CatOpts} (hcat : catchunks lib (some a) = .run o)
    (hreq : Requests (Producer.construct po pre0 now input) (discOpts o) o.pre)
    (hconv : ∀ c, Spelling a.nameConv c ↔ Spelling pa.nameConv c)
    (hfresh : a.fresh = true → 0 < pa.freshness) {es s}
    (h : (fairMachine o.size o.retries (discOpts o) digest (Producer.construct po pre0 now input) o.conv o.mustBeFresh
      o.pre).Run es s) :
    (∀ n, s.Exits (fixedPipe o.size o.retries) n → n = 0 ∧ s.stdout = input) ∧
    (∃ es' s', (fairMachine o.size o.retries (discOpts o) digest (Producer.construct po pre0 now input)
        o.conv o.mustBeFresh o.pre).RunFrom s es' s' ∧ (∀ e ∈ es', e.isLoss = false) ∧
      s'.Exits (fixedPipe o.size o.retries) 0 ∧ s'.stdout = input) := by
  obtain ⟨_, hg, _⟩ := C44_catchunks_runs lib a o hcat
  have hpg : PutGood lib' pa (pre0, po) := by
    have hd := C44_putchunks lib' pa
    by_cases hinf : pa.help = true ∨ pa.version = true
    · rw [hd.information hinf] at hput; cases hput
    · by_cases hok : PutOk lib' pa
      · obtain ⟨o', ho', hg⟩ := hd.runs hinf hok
        rw [ho'] at hput; cases hput
        exact hg
      · obtain ⟨k, hk, _⟩ := hd.rejects hinf hok
        rw [hk] at hput; cases hput
  have hN : 0 < o.size := hg.size.2.1
  have hm : 0 < po.maxSegmentSize := hpg.size.2.1
  have hc : o.conv = po.conv := by
    have h1 := (convention_spec _ _).mpr ((hconv o.conv).mp hg.convention)
    have h2 := (convention_spec _ _).mpr hpg.convention
    rw [h1] at h2
    exact Option.some.inj h2
  have hf : o.mustBeFresh = true → 0 < po.freshness := by
    intro hf
    have h1 := hfresh (hg.flags.1 ▸ hf)
    have h2 : (po.freshness : Int) = pa.freshness := hpg.freshness
    omega
  refine ⟨(C72_transfer_succeeds hN hn hm hi hreq hc hf h).1.2, ?_⟩
  exact C72_can_complete hN hn hm hi (o := discOpts o) hreq hc hf h

/-! ### Examples -/

private def exArgs : CatArgs := { pre := "/a", pipelineType := "fixed", noDiscovery := true, retries := 0 }

private def exOpts : CatOpts :=
  { pre := [⟨8, [97]⟩], conv := .typed, lifetime := 4000, retries := 0, mustBeFresh := false, noDiscovery := true,
    kind := .fixed, size := 1, ignoreMarks := false, disableCwa := false, rtoK := 8, minRto := 200000000,
    maxRto := 60000000000 }

private theorem exArgs_run : catchunks exLib (some exArgs) = .run exOpts := by decide +kernel

private def exW : Windows Unit Unit :=
  { alg := fun _ => ⟨fun _ _ => (), fun _ _ => (), fun _ => 1⟩, init := fun _ => (), env := fun _ => ⟨0, 0, ()⟩ }

private def exPipe := fixedPipe exOpts.size exOpts.retries

/-- The state after one event of the pipeline, which is the first one. -/
private def exAfter (e : Fixed.Ev) : St Fixed.St := (start exPipe (discOpts exOpts) exOpts.pre).step exPipe (.pipe e)

private theorem exRun (e : Fixed.Ev) (h1 : exPipe.M.init.enabled e) (h2 : exPipe.byUser e = false)
    (h3 : ∀ k p, exPipe.arrival exPipe.M.init e = some (k, p) → p.valid = true) :
    (worldMachine exPipe (anyWorld exOpts) exOpts).Run [.pipe e] (exAfter e) := by
  refine .snoc (M := worldMachine exPipe (anyWorld exOpts) exOpts) (es := []) (.pipe e) .nil ⟨⟨?_, ?_⟩, ?_⟩
  · rintro (h | ⟨n, q, h, h'⟩)
    · exact h rfl
    · cases h; cases h'
  · exact ⟨_, _, rfl, h1, h2⟩
  · intro n q k p hq ha
    cases hq
    exact ⟨h3 k p ha, trivial⟩

private theorem exCat (e : Fixed.Ev) (n : Nat) (h1 : exPipe.M.init.enabled e) (h2 : exPipe.byUser e = false)
    (h3 : ∀ k p, exPipe.arrival exPipe.M.init e = some (k, p) → p.valid = true) (h4 : (exAfter e).Exits exPipe n) :
    Cat exLib exW anyWorld (some exArgs) false (viewOf exPipe (exAfter e)) n := by
  unfold Cat
  rw [exArgs_run]
  exact ⟨_, _, exRun e h1 h2 h3, rfl, h4⟩

private def exPkt (appNack : Bool) : Pkt := { content := [1, 2], final := .seg 0, appNack := appNack, valid := true }

/-- A segment: status 0. -/
example : ∃ v, Cat exLib exW anyWorld (some exArgs) false v 0 ∧ v.out = [1, 2] := by
  refine ⟨_, exCat (.data 0 (exPkt false) false) 0 (by decide) rfl ?_ ?_, by decide +kernel⟩
  · intro k p h; cases h; rfl
  · refine .inr ⟨?_, ⟨?_, ?_⟩, rfl⟩
    · rintro (h | ⟨n, q, h, h'⟩)
      · exact h (by decide +kernel)
      · have e : ((exAfter (.data 0 (exPkt false) false)).pipe.all fun q => !exPipe.threw q.2) = true := by decide +kernel
        rw [h] at e
        simp [h'] at e
    · intro f hf
      have e : (exAfter (.data 0 (exPkt false) false)).disc.fetcher = none := by decide +kernel
      rw [e] at hf; cases hf
    · intro n q hq
      have e : ((exAfter (.data 0 (exPkt false) false)).pipe.all fun q => decide (q.2.posted = [] ∧
        ∀ x ∈ q.2.slots, x.all fun x => decide (fetchIdle x.1))) = true := by decide +kernel
      rw [hq] at e
      simp only [Option.all_some, decide_eq_true_eq] at e
      refine ⟨e.1, ?_⟩
      rintro x hx f k rfl
      simpa using e.2 _ hx

/-- An application Nack: status 3. A FinalBlockId that is no segment number: status 1. -/
example : (∃ v, Cat exLib exW anyWorld (some exArgs) false v 3) ∧ ∃ v, Cat exLib exW anyWorld (some exArgs) false v 1 := by
  constructor
  · refine ⟨_, exCat (.data 0 (exPkt true) false) 3 (by decide) rfl ?_ ?_⟩
    · intro k p h; cases h; rfl
    · have e : (exAfter (.data 0 (exPkt true) false)).cons.threw = some .appNack := by decide +kernel
      unfold St.Exits; rw [e]
  · refine ⟨_, exCat (.data 0 { exPkt false with final := .notSegment } false) 1 (by decide) rfl ?_ ?_⟩
    · intro k p h; cases h; rfl
    · have e : (exAfter (.data 0 { exPkt false with final := .notSegment } false)).cons.threw = none := by decide +kernel
      have e' : ((exAfter (.data 0 { exPkt false with final := .notSegment } false)).pipe.any fun q => exPipe.threw q.2) =
        true := by decide +kernel
      rw [Option.any_eq_true] at e'
      obtain ⟨⟨n, q⟩, hq, ht⟩ := e'
      unfold St.Exits; rw [e]
      exact .inl ⟨.inr ⟨n, q, hq, ht⟩, rfl⟩

/-- Statuses 0, 1, 2 and 4 at once; and an exception. -/
example : Cat exLib exW anyWorld (some { help := true }) false {} 0 ∧
    Cat exLib exW anyWorld (some { pre := "/.." }) false {} 1 ∧
    Cat exLib exW anyWorld (some { pre := "/a", pipelineType := "x" }) false {} 2 ∧
    Cat exLib exW anyWorld (some { pre := "/a", logCwnd := "/root/x" }) false {} 4 ∧
    ∃ v, Cat exLib exW anyWorld (some { pre := "/a" }) true v 1 := by
  refine ⟨⟨rfl, rfl, rfl⟩, ⟨rfl, rfl, rfl⟩, ?_, ?_, ?_⟩
  · have e : catchunks exLib (some { pre := "/a", pipelineType := "x" }) = .exit 2 := by decide +kernel
    unfold Cat; rw [e]; exact ⟨rfl, rfl, rfl⟩
  · have e : catchunks exLib (some { pre := "/a", logCwnd := "/root/x" }) = .exit 4 := by decide +kernel
    unfold Cat; rw [e]; exact ⟨rfl, rfl, rfl⟩
  · have e : catchunks exLib (some { pre := "/a" }) = .run { exOpts with kind := .cubic, retries := 15, noDiscovery := false } := by
      decide +kernel
    unfold Cat; rw [e]
    exact ⟨_, [], _, .nil, rfl, rfl⟩

/-! A transfer: ndnputchunks serves two bytes, and ndncatchunks fetches them by the versioned name. -/

private def exLib2 : Lib := { exLib with name := fun _ => some [⟨8, [97]⟩, ⟨54, [7]⟩] }
private def exProd : Producer.Prod := Producer.construct {} [⟨8, [97]⟩, ⟨54, [7]⟩] 1 [1, 2]
private def exArgs2 : CatArgs := { pre := "/a/v=7", pipelineType := "fixed" }
private def exOpts2 : CatOpts :=
  { exOpts with pre := [⟨8, [97]⟩, ⟨54, [7]⟩], noDiscovery := false, retries := 15 }
private def exPipe2 := fixedPipe exOpts2.size exOpts2.retries
private def exEnd : St Fixed.St :=
  (start exPipe2 (discOpts exOpts2) exOpts2.pre).step exPipe2 (.pipe (.data 0 (exPkt false) false))

private theorem exServes : Serves exLib2 (some { pre := "/a/v=7" }) 1 [1, 2] exProd :=
  ⟨([⟨8, [97]⟩, ⟨54, [7]⟩], {}), by decide +kernel, rfl⟩

/-- The hypotheses of `C79_bytes` hold for it, and the status is 0. -/
example : Serves exLib2 (some { pre := "/a/v=7" }) 1 [1, 2] exProd ∧
    (∀ x m, some exArgs2 = some x → exLib2.name x.pre = some m → ¬ exProd.pre ++ [metadataComp] <+: m) ∧
    ∃ v, Cat exLib2 exW (fromProducer (fun _ => []) exProd) (some exArgs2) false v 0 := by
  refine ⟨exServes, ?_, viewOf exPipe2 exEnd, ?_⟩
  · intro x m _ h
    cases h
    decide
  · have e : catchunks exLib2 (some exArgs2) = .run exOpts2 := by decide +kernel
    unfold Cat; rw [e]
    refine ⟨[.pipe (.data 0 (exPkt false) false)], exEnd, ?_, rfl, ?_⟩
    · refine .snoc (M := worldMachine exPipe2 (fromProducer (fun _ => []) exProd exOpts2) exOpts2) (es := []) _ .nil
        ⟨⟨?_, ?_⟩, ?_⟩
      · rintro (h | ⟨n, q, h, h'⟩)
        · exact h rfl
        · cases h; cases h'
      · exact ⟨_, _, rfl, show Fixed.St.enabled exPipe2.M.init (.data 0 (exPkt false) false) by decide, rfl⟩
      · intro n q k p hq ha
        cases hq; cases ha
        exact ⟨rfl, by decide, { name := [⟨8, [97]⟩, ⟨54, [7]⟩, ⟨50, [0]⟩] }, 9, .data
          { name := [⟨8, [97]⟩, ⟨54, [7]⟩, ⟨50, [0]⟩], content := [1, 2], final := some ⟨50, [0]⟩, freshness := 10000 },
          by decide, by decide, rfl, by decide, fun _ => rfl, rfl⟩
    · refine .inr ⟨?_, ⟨?_, ?_⟩, rfl⟩
      · rintro (h | ⟨n, q, h, h'⟩)
        · exact h (by decide +kernel)
        · have e : (exEnd.pipe.all fun q => !exPipe2.threw q.2) = true := by decide +kernel
          rw [h] at e
          exact absurd e (by simp [show exPipe2.threw q = true from h'])
      · intro f hf
        have e : exEnd.disc.fetcher = none := by decide +kernel
        rw [e] at hf; cases hf
      · intro n q hq
        have e : (exEnd.pipe.all fun q => decide (q.2.posted = [] ∧
          ∀ x ∈ q.2.slots, x.all fun x => decide (fetchIdle x.1))) = true := by decide +kernel
        rw [hq] at e
        simp only [Option.all_some, decide_eq_true_eq] at e
        refine ⟨e.1, ?_⟩
        rintro x hx f k rfl
        simpa using e.2 _ hx

/-- The hypotheses of `C79_succeeds` hold for it as well. -/
example : putchunks exLib2 (some { pre := "/a/v=7" }) = .run ([⟨8, [97]⟩, ⟨54, [7]⟩], {}) ∧
    catchunks exLib2 (some exArgs2) = .run exOpts2 ∧ Requests exProd (discOpts exOpts2) exOpts2.pre ∧
    (∀ c, Spelling exArgs2.nameConv c ↔ Spelling ({ pre := "/a/v=7" } : PutArgs).nameConv c) :=
  ⟨by decide +kernel, by decide +kernel, .inl rfl, fun _ => Iff.rfl⟩

end Verif.Transfer
