import Verif.Spec.Discover
import Verif.Proofs.DataFetcher
import Verif.Proofs.Producer

/-! # Lemmas about version discovery -/

namespace Verif.Discover

open Verif.DataFetcher (Fetcher Out)

/-- What the fetcher did that led to the visible event. -/
def Obs.out : Obs → Out
  | .interest => .interest
  | .success _ => .onData
  | .failure (.nack m) => .onNack m
  | .failure (.timeout m) => .onTimeout m
  | .failure .invalidMetadata => .onData
  | .failure .notVersioned => .onData

theorem out_react (m : Meta) (o : Out) : (react m o).out = o := by
  cases o with
  | onData =>
    unfold react handleData
    cases m.parse with
    | none => rfl
    | some n => dsimp only; split <;> rfl
  | _ => rfl

theorem isReport_out (o : Obs) : o.out.isReport = o.isReport := by
  cases o with
  | interest => rfl
  | success => rfl
  | failure r => cases r <;> rfl

/-- An execution of the discovery is one of the fetch. -/
theorem run_fetch {o : Opts} {pre : Name} (hd : o.disable = false) (hv : pre.endsWithVersion = false)
    {es s} (h : (machine o pre).Run es s) :
    ∃ f, s.fetcher = some f ∧
      DataFetcher.Run o.maxRetries o.maxRetries (es.map Ev.toFetch) f (s.log.map Obs.out) := by
  induction h with
  | nil =>
    have : (machine o pre).init = ⟨some (DataFetcher.fetch o.maxRetries o.maxRetries).1,
        (DataFetcher.fetch o.maxRetries o.maxRetries).2.map (react ⟨[], false, none⟩)⟩ := by
      simp [machine, start, hd, hv]
    rw [this]
    refine ⟨_, rfl, ?_⟩
    rw [List.map_map]
    have h2 : (Obs.out ∘ react ⟨[], false, none⟩) = id := funext fun o => out_react _ o
    rw [h2, List.map_id]
    exact DataFetcher.Run.start
  | @snoc es s e hr he ih =>
    obtain ⟨f, h1, h2⟩ := ih
    obtain ⟨⟨f', h3, h4⟩, _⟩ := he
    rw [h1] at h3
    simp only [Option.some.injEq] at h3
    subst h3
    have hst : (machine o pre).step = St.step := rfl
    rw [hst]
    unfold St.step
    rw [h1]
    dsimp only
    refine ⟨_, rfl, ?_⟩
    have h5 : (Obs.out ∘ react e.meta) = id := funext fun o => out_react _ o
    rw [List.map_append, List.map_append, List.map_map, h5, List.map_id]
    exact DataFetcher.Run.step _ h2 h4

/-- A reported name comes from a metadata packet. -/
theorem run_success {o : Opts} {pre : Name} (hd : o.disable = false) (hv : pre.endsWithVersion = false)
    {es s} (h : (machine o pre).Run es s) {n} (hn : Obs.success n ∈ s.log) :
    ∃ m, Ev.data m ∈ es ∧ m.parse = some n ∧ n.endsWithVersion = true ∧ pre ++ [metadataComp] <+: m.name := by
  induction h with
  | nil =>
    exfalso
    have : (machine o pre).init.log = [.interest] := by
      simp [machine, start, hd, hv, DataFetcher.fetch, Fetcher.expressInterest, react]
    rw [this] at hn
    simp at hn
  | @snoc es s e hr he ih =>
    have hst : (machine o pre).step = St.step := rfl
    rw [hst] at hn
    unfold St.step at hn
    cases hf : s.fetcher with
    | none =>
      rw [hf] at hn
      obtain ⟨m, h1, h2⟩ := ih hn
      exact ⟨m, by simp [h1], h2⟩
    | some f =>
      rw [hf] at hn
      dsimp only at hn
      rcases List.mem_append.mp hn with hn | hn
      · obtain ⟨m, h1, h2⟩ := ih hn
        exact ⟨m, by simp [h1], h2⟩
      · rw [List.mem_map] at hn
        obtain ⟨x, hx, hx2⟩ := hn
        have hx3 : x = .onData := by
          have := congrArg Obs.out hx2
          rwa [out_react] at this
        subst hx3
        have hdat : ∃ m, e = .data m := by
          cases e with
          | data m => exact ⟨m, rfl⟩
          | nack r =>
            exfalso
            simp only [Ev.toFetch, Fetcher.step, Fetcher.handleNack, Fetcher.expressInterest] at hx
            repeat' split at hx
            all_goals simp at hx
          | timeout =>
            exfalso
            simp only [Ev.toFetch, Fetcher.step, Fetcher.handleTimeout, Fetcher.expressInterest] at hx
            repeat' split at hx
            all_goals simp at hx
          | timer =>
            exfalso
            simp [Ev.toFetch, Fetcher.step, Fetcher.expressInterest] at hx
        obtain ⟨m, rfl⟩ := hdat
        refine ⟨m, by simp, ?_⟩
        simp only [Ev.meta, react, handleData] at hx2
        cases hp : m.parse with
        | none => rw [hp] at hx2; simp at hx2
        | some n' =>
          rw [hp] at hx2
          dsimp only at hx2
          split at hx2
          · rename_i h5
            simp at hx2
            subst hx2
            exact ⟨rfl, h5, he.2 m rfl⟩
          · simp at hx2

end Verif.Discover
