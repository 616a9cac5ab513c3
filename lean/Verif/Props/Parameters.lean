import Verif.Model.Window
import Verif.Proofs.Parameters
import Verif.Props.Cli

/-! # C111: the parameters that ndncatchunks lists in verbose mode -/

namespace Verif.Parameters

open Cli (Num CatOpts PipelineKind Lib catchunks)

variable {lib : Lib} {a : Args} {o : CatOpts}

private theorem common_of (h : catchunks lib (some a.toCatArgs) = .run o) : (commonOf a).Of o := by
  obtain ⟨-, g, -⟩ := Cli.C44_catchunks_runs lib _ o h
  refine ⟨g.flags.1.symm, g.lifetime.1.symm, ?_⟩
  rw [g.retries.1]
  rfl

private theorem rtt_of (h : catchunks lib (some a.toCatArgs) = .run o) : (rttOf a).Of a o := by
  obtain ⟨-, g, -⟩ := Cli.C44_catchunks_runs lib _ o h
  refine ⟨shows_text _, shows_text _, g.k.1.symm, rfl, ?_, ?_, rfl⟩
  · rw [g.rto.1]; show a.minRto * 10 ^ 6 = _; omega
  · rw [g.rto.2.1]; show a.maxRto * 10 ^ 6 = _; omega

private theorem adapt_of (h : catchunks lib (some a.toCatArgs) = .run o) : (adaptOf a).Of a o := by
  obtain ⟨-, g, -⟩ := Cli.C44_catchunks_runs lib _ o h
  refine ⟨shows_text _, shows_text _, shows_text _, shows_text _, rfl, ?_, ?_, rfl⟩
  · rw [g.flags.2.2.1]; rfl
  · rw [g.flags.2.2.2]; rfl

/-- **C111 (partial)** If ndncatchunks runs with `-v`, its list of parameters can be read, and tells the pipeline and the parameters that it was given:
times, counts and switches exactly, other numbers up to six digits. Without `-v` there is no list. Missing from the full claim: that the
pipeline follows what is listed. -/
theorem C111_listing_partial (h : catchunks lib (some a.toCatArgs) = .run o) :
    (a.verbose = false → listing a o.kind = []) ∧
    (a.verbose = true → match o.kind with
      | .fixed => ∃ c, read (listing a o.kind) = some (.fixed c o.size) ∧ c.Of o
      | .aimd => ∃ r c x, read (listing a o.kind) = some (.aimd r c x) ∧ r.Of a o ∧ c.Of o ∧ x.Of a o
      | .cubic => ∃ r c x b, read (listing a o.kind) = some (.cubic r c x b a.fastConv) ∧ r.Of a o ∧ c.Of o ∧ x.Of a o ∧
          Shows b a.cubicBeta) := by
  refine ⟨fun hv => by unfold listing; rw [hv]; rfl, fun hv => ?_⟩
  obtain ⟨-, g, -⟩ := Cli.C44_catchunks_runs lib _ o h
  cases hk : o.kind with
  | fixed =>
    refine ⟨commonOf a, ?_, common_of h⟩
    rw [g.size.1]
    exact fixed_read hv
  | aimd => exact ⟨rttOf a, commonOf a, adaptOf a, aimd_read hv, rtt_of h, common_of h, adapt_of h⟩
  | cubic => exact ⟨rttOf a, commonOf a, adaptOf a, numShown a.cubicBeta, cubic_read hv, rtt_of h, common_of h, adapt_of h, shows_text _⟩

private theorem common_inj {c : Common} {o o' : CatOpts} (h : c.Of o) (h' : c.Of o') :
    o.mustBeFresh = o'.mustBeFresh ∧ o.lifetime = o'.lifetime ∧ o.retries = o'.retries := by
  refine ⟨h.1.symm.trans h'.1, h.2.1.symm.trans h'.2.1, ?_⟩
  have := h.2.2.symm.trans h'.2.2
  split_ifs at this with h1 h2 h2
  · rw [h1, h2]
  · simpa using this

private theorem adapt_inj {x : Adapt} {r : Rtt} {a a' : Args} {o o' : CatOpts} (h : x.Of a o) (h' : x.Of a' o') (g : r.Of a o)
    (g' : r.Of a' o') : o.ignoreMarks = o'.ignoreMarks ∧ o.disableCwa = o'.disableCwa ∧ o.rtoK = o'.rtoK ∧ o.minRto = o'.minRto ∧
      o.maxRto = o'.maxRto ∧ a.resetCwnd = a'.resetCwnd := by
  obtain ⟨-, -, -, -, -, h1, h2, h3⟩ := h
  obtain ⟨-, -, -, -, -, h1', h2', h3'⟩ := h'
  obtain ⟨-, -, g1, -, g2, g3, -⟩ := g
  obtain ⟨-, -, g1', -, g2', g3', -⟩ := g'
  exact ⟨Bool.not_inj (h1.symm.trans h1'), Bool.not_inj (h2.symm.trans h2'), g1.symm.trans g1', g2.symm.trans g2', g3.symm.trans g3',
    h3.symm.trans h3'⟩

/-- **C111 (the list distinguishes)** Two runs of ndncatchunks with the same list have the same pipeline, lifetime, number of retries and switches;
with the fixed pipeline the same size, otherwise the same parameters of the RTT estimator that are whole numbers. -/
theorem C111_distinguishes {lib' : Lib} {a' : Args} {o' : CatOpts} (h : catchunks lib (some a.toCatArgs) = .run o)
    (h' : catchunks lib' (some a'.toCatArgs) = .run o') (hv : a.verbose = true) (hv' : a'.verbose = true)
    (he : listing a o.kind = listing a' o'.kind) :
    o.kind = o'.kind ∧ o.mustBeFresh = o'.mustBeFresh ∧ o.lifetime = o'.lifetime ∧ o.retries = o'.retries ∧
      (o.kind = .fixed → o.size = o'.size) ∧
      (o.kind ≠ .fixed → o.ignoreMarks = o'.ignoreMarks ∧ o.disableCwa = o'.disableCwa ∧ o.rtoK = o'.rtoK ∧ o.minRto = o'.minRto ∧
        o.maxRto = o'.maxRto ∧ a.resetCwnd = a'.resetCwnd) ∧
      (o.kind = .cubic → a.fastConv = a'.fastConv) := by
  have hl := (C111_listing_partial h).2 hv
  have hl' := (C111_listing_partial h').2 hv'
  rw [he] at hl
  cases hk : o.kind <;> rw [hk] at hl <;> cases hk' : o'.kind <;> rw [hk'] at hl' hl <;> dsimp only at hl hl'
  · obtain ⟨c, e, g⟩ := hl
    obtain ⟨c', e', g'⟩ := hl'
    rw [e] at e'
    simp only [Option.some.injEq, Told.fixed.injEq] at e'
    obtain ⟨rfl, e'⟩ := e'
    obtain ⟨h1, h2, h3⟩ := common_inj g g'
    exact ⟨rfl, h1, h2, h3, fun _ => e', fun h => absurd rfl h, fun h => by cases h⟩
  · obtain ⟨c, e, g⟩ := hl
    obtain ⟨r', c', x', e', -⟩ := hl'
    rw [e] at e'; cases e'
  · obtain ⟨c, e, g⟩ := hl
    obtain ⟨r', c', x', b', e', -⟩ := hl'
    rw [e] at e'; cases e'
  · obtain ⟨r, c, x, e, -⟩ := hl
    obtain ⟨c', e', -⟩ := hl'
    rw [e] at e'; cases e'
  · obtain ⟨r, c, x, e, g1, g2, g3⟩ := hl
    obtain ⟨r', c', x', e', g1', g2', g3'⟩ := hl'
    rw [e] at e'
    simp only [Option.some.injEq, Told.aimd.injEq] at e'
    obtain ⟨rfl, rfl, rfl⟩ := e'
    obtain ⟨h1, h2, h3⟩ := common_inj g2 g2'
    exact ⟨rfl, h1, h2, h3, fun h => (by cases h), fun _ => adapt_inj g3 g3' g1 g1', fun h => by cases h⟩
  · obtain ⟨r, c, x, e, -⟩ := hl
    obtain ⟨r', c', x', b', e', -⟩ := hl'
    rw [e] at e'; cases e'
  · obtain ⟨r, c, x, b, e, -⟩ := hl
    obtain ⟨c', e', -⟩ := hl'
    rw [e] at e'; cases e'
  · obtain ⟨r, c, x, b, e, -⟩ := hl
    obtain ⟨r', c', x', e', -⟩ := hl'
    rw [e] at e'; cases e'
  · obtain ⟨r, c, x, b, e, g1, g2, g3, -⟩ := hl
    obtain ⟨r', c', x', b', e', g1', g2', g3', -⟩ := hl'
    rw [e] at e'
    simp only [Option.some.injEq, Told.cubic.injEq] at e'
    obtain ⟨rfl, rfl, rfl, -, e'⟩ := e'
    obtain ⟨h1, h2, h3⟩ := common_inj g2 g2'
    exact ⟨rfl, h1, h2, h3, fun h => (by cases h), fun _ => adapt_inj g3 g3' g1 g1', fun _ => e'⟩

/-! ## Where the full claim fails -/

private def exLib : Lib :=
  { name := fun s => if s = "/a" then some [⟨8, [97]⟩] else none, signing := fun _ => true, base64 := fun _ => none, readFile := fun _ => none,
    writable := fun _ => true, readable := fun _ => true, regex := fun _ => true }

/-- `ndncatchunks -v --reset-cwnd-to-init /a` -/
private def exArgs : Args := { pre := "/a", verbose := true, resetCwnd := true }

private def exOpts : CatOpts :=
  { pre := [⟨8, [97]⟩], conv := .typed, lifetime := 4000, retries := 15, mustBeFresh := false, noDiscovery := false,
    kind := .cubic, size := 1, ignoreMarks := false, disableCwa := false, rtoK := 8, minRto := 200000000, maxRto := 60000000000 }

private theorem exRun : catchunks exLib (some exArgs.toCatArgs) = .run exOpts := by decide +kernel

/-- **C111 (refuted)** The CUBIC pipeline lists parameters of the AIMD pipeline that it does not follow: with `--reset-cwnd-to-init` the list
says that the window is reset to the initial value, which is 2, upon loss, but from a window of 100 it becomes 70. -/
theorem C111_refuted : ∃ (lib : Lib) (a : Args) (o : CatOpts) (r : Rtt) (c : Common) (x : Adapt) (b : Num),
    catchunks lib (some a.toCatArgs) = .run o ∧ read (listing a o.kind) = some (.cubic r c x b a.fastConv) ∧ x.reset = true ∧
    a.initCwnd = .num 2 ∧ a.cubicBeta = .num (7 / 10) ∧ a.fastConv = false ∧
    ∀ (ssthresh : ℝ) (e : Window.CubicEnv) (s : Window.Cubic), s.cwnd = 100 →
      (s.decrease ⟨2, ssthresh, 7 / 10, false⟩ e).cwnd = 70 := by
  refine ⟨exLib, exArgs, exOpts, _, _, _, _, exRun, cubic_read rfl, rfl, rfl, rfl, rfl, ?_⟩
  intro ss e s hs
  simp only [Window.Cubic.decrease, hs]
  norm_num

/-- Beside `C111_listing_partial`: what this command line lists. -/
example : listing exArgs .cubic = text ("RTT estimator parameters:\n\tAlpha = 0.125\n\tBeta = 0.25\n\tK = 8\n" ++
    "\tInitial RTO = 1000 milliseconds\n\tMin RTO = 200 milliseconds\n\tMax RTO = 60000 milliseconds\n\tBackoff multiplier = 2\n" ++
    "Pipeline parameters:\n\tRequest fresh content = no\n\tInterest lifetime = 4000 milliseconds\n" ++
    "\tMax retries on timeout or Nack = 15\n\tInitial congestion window size = 2\n" ++
    "\tInitial slow start threshold = 1.79769e+308\n\tAdditive increase step = 1\n\tMultiplicative decrease factor = 0.5\n" ++
    "\tRTO check interval = 10 milliseconds\n\tReact to congestion marks = yes\n\tConservative window adaptation = yes\n" ++
    "\tResetting window to initial value upon loss event\n\tCubic beta = 0.7\n\tFast convergence = no\n") := by
  decide +kernel

/-- The fixed pipeline. -/
example : ∃ o, catchunks exLib (some { pre := "/a", verbose := true, pipelineType := "fixed", retries := -1, lifetime := 1 }) = .run o ∧
    o.kind = .fixed := ⟨_, by rfl, rfl⟩

end Verif.Parameters
