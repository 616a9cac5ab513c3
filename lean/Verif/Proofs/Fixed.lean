import Verif.Spec.Fixed
import Verif.Proofs.DataFetcher
import Verif.Proofs.ListLemmas
import Mathlib.Data.List.Perm.Subperm

/-! # Invariants of the fixed pipeline -/

namespace Verif.Fixed

set_option linter.unusedSimpArgs false

open Verif.DataFetcher (Fetcher)

/-- Slot `i` holds fetcher `f` for segment `k`. -/
def At (s : St) (i : Nat) (f : Fetcher) (k : Nat) : Prop := s.slots[i]? = some (some (f, k))

@[simp] theorem received_nil : received [] = [] := rfl
@[simp] theorem received_append (a b : List Obs) : received (a ++ b) = received a ++ received b := by
  simp [received]
@[simp] theorem received_data (k p) : received [Obs.data k p] = [k] := rfl
@[simp] theorem received_interest (k) : received [Obs.interest k] = [] := rfl
@[simp] theorem received_failure (k) : received [Obs.failure k] = [] := rfl
@[simp] theorem received_complete : received [Obs.complete] = [] := rfl

/-- The invariant without the progress part. -/
structure Core (N : Nat) (R : Int) (s : St) : Prop where
  cfgN : s.maxPipelineSize = N
  cfgR : s.maxRetries = R
  len : s.isStopping = false → s.slots.length = N
  stop : s.isStopping = true → s.slots = []
  fet : ∀ i f k, At s i f k → DataFetcher.Inv R R f
  excl : ∀ i f k, At s i f k → f.hasError = true → f.isStopped = false
  uniq : ∀ i j f g k, At s i f k → At s j g k → i = j
  lt : ∀ i f k, At s i f k → k < s.nextSegmentNo
  req : ∀ i f k, At s i f k → Obs.interest k ∈ s.log
  rnodup : (received s.log).Nodup
  rlt : ∀ k ∈ received s.log, k < s.nextSegmentNo
  cnt : s.nReceived = (received s.log).length
  live : ∀ i f k, At s i f k → f.isRunning = true ∨ f.hasError = true → k ∉ received s.log
  cover : s.isStopping = false → ∀ k, k < s.nextSegmentNo →
    (s.hasFinalBlockId = true → k ≤ s.lastSegmentNo) →
    k ∈ received s.log ∨ ∃ i f, At s i f k ∧ (f.isRunning = true ∨ f.hasError = true ∨
      ∃ j g m, At s j g m ∧ m < k ∧ g.hasError = true)
  fin : s.hasFinalBlockId = true → ∀ i f k, At s i f k →
    (s.lastSegmentNo < k → f.isRunning = false) ∧ (k ≤ s.lastSegmentNo → f.hasError = false)
  nofin : s.hasFinalBlockId = false → ∀ i g j, At s i g j → g.hasError = true →
    s.hasFailure = true ∧ ∀ i' f k, At s i' f k → j < k → f.isRunning = false
  noub : s.ub = false
  noassert : s.assertFailed = false
  order : ∀ pre k post, s.log = pre ++ Obs.interest k :: post → ∀ j < k, Obs.interest j ∈ pre
  asked : ∀ k, k < s.nextSegmentNo → (s.hasFinalBlockId = true → k ≤ s.lastSegmentNo) →
    Obs.interest k ∈ s.log
  dreq : ∀ pre k p post, s.log = pre ++ Obs.data k p :: post → Obs.interest k ∈ pre
  ireq : ∀ k, Obs.interest k ∈ s.log → k < s.nextSegmentNo ∧ True

/-- Progress: as long as the last segment has not been requested, some fetcher runs. -/
def Prog (s : St) : Prop :=
  s.isStopping = false → s.threw = none →
    (s.hasFinalBlockId = false ∨ s.nextSegmentNo ≤ s.lastSegmentNo) →
    ∃ i f k, At s i f k ∧ f.isRunning = true

theorem core_stopped {N R} {s s' : St} (h : Core N R s) (hs : s'.isStopping = true)
    (hsl : s'.slots = []) (h1 : s'.maxPipelineSize = s.maxPipelineSize)
    (h2 : s'.maxRetries = s.maxRetries) (h3 : s'.nextSegmentNo = s.nextSegmentNo)
    (h4 : s'.lastSegmentNo = s.lastSegmentNo) (h5 : s'.hasFinalBlockId = s.hasFinalBlockId)
    (h6 : s'.nReceived = s.nReceived) (h7 : s'.log = s.log) (h8 : s'.ub = s.ub)
    (h9 : s'.assertFailed = s.assertFailed) : Core N R s' := by
  have hAt : ∀ i f k, ¬ At s' i f k := by intro i f k; simp [At, hsl]
  constructor
  · rw [h1]; exact h.cfgN
  · rw [h2]; exact h.cfgR
  · intro h; simp [hs] at h
  · intro _; exact hsl
  · intro i f k ha; exact absurd ha (hAt _ _ _)
  · intro i f k ha; exact absurd ha (hAt _ _ _)
  · intro i j f g k ha; exact absurd ha (hAt _ _ _)
  · intro i f k ha; exact absurd ha (hAt _ _ _)
  · intro i f k ha; exact absurd ha (hAt _ _ _)
  · rw [h7]; exact h.rnodup
  · rw [h7, h3]; exact h.rlt
  · rw [h7, h6]; exact h.cnt
  · intro i f k ha; exact absurd ha (hAt _ _ _)
  · intro h; simp [hs] at h
  · intro _ i f k ha; exact absurd ha (hAt _ _ _)
  · intro _ i f k ha; exact absurd ha (hAt _ _ _)
  · rw [h8]; exact h.noub
  · rw [h9]; exact h.noassert
  · rw [h7]; exact h.order
  · rw [h7, h3, h4, h5]; exact h.asked
  · rw [h7]; exact h.dreq
  · rw [h7, h3]; exact h.ireq

theorem core_cancel {N R s} (h : Core N R s) : Core N R s.cancel := by
  unfold St.cancel
  split
  · exact h
  · exact core_stopped h rfl rfl rfl rfl rfl rfl rfl rfl rfl rfl rfl

theorem core_onFailure {N R s} (h : Core N R s) (m) : Core N R (s.onFailure m) := by
  unfold St.onFailure
  split
  · exact h
  · rename_i hs
    refine core_stopped h ?_ ?_ ?_ ?_ ?_ ?_ ?_ ?_ ?_ ?_ ?_ <;> simp [St.cancel, hs]

theorem cancel_stopping (s : St) : s.cancel.isStopping = true := by
  unfold St.cancel; split <;> simp_all

theorem onFailure_stopping (s : St) (m) : (s.onFailure m).isStopping = true := by
  unfold St.onFailure; split
  · assumption
  · simpa using cancel_stopping s

theorem prog_of_stopping {s : St} (h : s.isStopping = true) : Prog s := by
  intro h'; simp [h] at h'

/-- `fetchNextSegment` on a pipe whose segment has been received. -/
theorem core_fetchNext {N R s i} (h : Core N R s)
    (hi : i < N)
    (hfree : ∀ f k, At s i f k → f.isRunning = false ∧ f.hasError = false ∧ k ∈ received s.log) :
    Core N R (s.fetchNextSegment i).1 ∧ Prog (s.fetchNextSegment i).1 := by
  unfold St.fetchNextSegment
  split
  · exact ⟨h, prog_of_stopping (by assumption)⟩
  rename_i hst
  simp only [Bool.not_eq_true] at hst
  split
  · exact ⟨core_onFailure h _, prog_of_stopping (onFailure_stopping _ _)⟩
  rename_i hfail
  simp only [Bool.not_eq_true] at hfail
  have hlen := h.len hst
  dsimp only
  split
  · rename_i hlast
    obtain ⟨hf, hl⟩ := hlast
    refine ⟨?_, ?_⟩
    · obtain ⟨cfgN, cfgR, len, stop, fet, excl, uniq, lt, req, rnodup, rlt, cnt, live, cover, fin, nofin,
        noub, noassert, order, asked, dreq, ireq⟩ := h
      constructor <;> try assumption
      · intro j f k hj; exact Nat.lt_succ_of_lt (lt j f k hj)
      · intro k hk; exact Nat.lt_succ_of_lt (rlt k hk)
      · intro h1 k hk hk2
        exact cover h1 k (by have := hk2 hf; simp only at this hl; omega) hk2
      · intro k hk hk2
        exact asked k (by have := hk2 hf; simp only at this hl; omega) hk2
      · intro k hk; exact ⟨Nat.lt_succ_of_lt (ireq k hk).1, trivial⟩
    · intro _ _ h3
      rcases h3 with h3 | h3
      · simp [hf] at h3
      · simp only at h3; omega
  · rename_i hlast
    simp only [not_and, not_lt] at hlast
    simp only [St.emit]
    have hsl : i < s.slots.length := by omega
    have hget : s.slots[i]? = some s.slots[i] := by simp [hsl]
    have hnoerr : ∀ j g m, At s j g m → g.hasError = false ∨ s.hasFinalBlockId = true := by
      intro j g m hj
      by_cases hg : g.hasError = true
      · right
        by_contra hc
        simp only [Bool.not_eq_true] at hc
        have := (h.nofin hc j g m hj hg).1
        simp [hfail] at this
      · left; simpa using hg
    simp only [hget]
    have hok : slotFree s.slots[i] = true := by
      rcases heq : s.slots[i] with _ | ⟨f, k⟩
      · rfl
      · have := (hfree f k (by simp [At, hget, heq])).1
        simp [slotFree, this]
    have hAt : ∀ j g m, (s.slots.set i (some ((DataFetcher.fetch s.maxRetries s.maxRetries).1, s.nextSegmentNo)))[j]? =
        some (some (g, m)) ↔ (j = i ∧ g = (DataFetcher.fetch R R).1 ∧ m = s.nextSegmentNo) ∨ (j ≠ i ∧ At s j g m) := by
      intro j g m
      rw [List.getElem?_set]
      by_cases hji : i = j
      · subst hji
        simp [hsl, h.cfgR]
        constructor
        · rintro ⟨rfl, rfl⟩; exact ⟨rfl, rfl⟩
        · rintro ⟨rfl, rfl⟩; exact ⟨rfl, rfl⟩
      · have hji' : j ≠ i := fun h => hji h.symm
        simp [hji, hji', At]
    have hrunF : (DataFetcher.fetch R R).1.isRunning = true := by
      simp [DataFetcher.fetch, Fetcher.expressInterest, Fetcher.isRunning]
    have herrF : (DataFetcher.fetch R R).1.hasError = false := by
      simp [DataFetcher.fetch, Fetcher.expressInterest]
    refine ⟨?_, ?_⟩
    · obtain ⟨cfgN, cfgR, len, stop, fet, excl, uniq, lt, req, rnodup, rlt, cnt, live, cover, fin, nofin,
        noub, noassert, order, asked, dreq, ireq⟩ := h
      constructor <;> simp only [At] <;> try simp only [hAt]
      · assumption
      · assumption
      · intro _; simpa using hlen
      · intro h1; simp [hst] at h1
      · rintro j f k (⟨rfl, rfl, rfl⟩ | ⟨hj, hj2⟩)
        · exact DataFetcher.inv_fetch R R
        · exact fet j f k hj2
      · rintro j f k (⟨rfl, rfl, rfl⟩ | ⟨hj, hj2⟩)
        · simp [herrF]
        · exact excl j f k hj2
      · rintro j1 j2 f g k (⟨rfl, rfl, rfl⟩ | ⟨hj, hj2⟩) (⟨rfl, rfl, h3⟩ | ⟨hj', hj2'⟩)
        · rfl
        · have := lt _ _ _ hj2'; omega
        · have := lt _ _ _ hj2; omega
        · exact uniq _ _ _ _ _ hj2 hj2'
      · rintro j f k (⟨rfl, rfl, rfl⟩ | ⟨hj, hj2⟩)
        · omega
        · have := lt _ _ _ hj2; omega
      · rintro j f k (⟨rfl, rfl, rfl⟩ | ⟨hj, hj2⟩)
        · simp
        · have := req _ _ _ hj2; simp [this]
      · simpa using rnodup
      · intro k hk; have := rlt k (by simpa using hk); omega
      · simpa using cnt
      · rintro j f k (⟨rfl, rfl, rfl⟩ | ⟨hj, hj2⟩) h1 h2
        · have := rlt _ (by simpa using h2); omega
        · exact live j f k hj2 h1 (by simpa using h2)
      · intro h1 k hk hk2
        by_cases hkn : k = s.nextSegmentNo
        · right; exact ⟨i, _, Or.inl ⟨rfl, rfl, hkn⟩, Or.inl hrunF⟩
        · rcases cover h1 k (by omega) hk2 with h4 | ⟨j, f, h5, h6⟩
          · left; simpa using h4
          · by_cases hj : j = i
            · subst hj
              left
              simpa using (hfree _ _ h5).2.2
            · right
              refine ⟨j, f, Or.inr ⟨hj, h5⟩, ?_⟩
              rcases h6 with h6 | h6 | ⟨j', g, m, h7, h8, h9⟩
              · exact Or.inl h6
              · exact Or.inr (Or.inl h6)
              · right; right
                refine ⟨j', g, m, Or.inr ⟨?_, h7⟩, h8, h9⟩
                rintro rfl
                have := (hfree _ _ h7).2.1
                simp [this] at h9
      · intro h1
        rintro j f k (⟨rfl, rfl, rfl⟩ | ⟨hj, hj2⟩)
        · refine ⟨fun h2 => ?_, fun _ => herrF⟩
          have := hlast h1; omega
        · exact fin h1 j f k hj2
      · intro h1
        rintro j g m (⟨rfl, rfl, rfl⟩ | ⟨hj, hj2⟩) h2
        · simp [herrF] at h2
        · rcases hnoerr j g m hj2 with h3 | h3
          · simp [h2] at h3
          · simp [h3] at h1
      · assumption
      · simp [noassert, hok]
      · intro pre k post hh j hj
        rcases snoc_split hh with ⟨_, h2, rfl⟩ | ⟨post', rfl, h2⟩
        · simp only [Obs.interest.injEq] at h2
          subst h2
          exact asked j hj (fun h => by have := hlast h; omega)
        · exact order pre k post' h2 j hj
      · intro k hk hk2
        by_cases hkn : k = s.nextSegmentNo
        · subst hkn; simp
        · have := asked k (by omega) hk2
          simp [this]
      · intro pre k p post hh
        rcases snoc_split hh with ⟨_, h2, _⟩ | ⟨post', rfl, h2⟩
        · simp at h2
        · exact dreq pre k p post' h2
      · intro k hk
        simp only [List.mem_append, List.mem_singleton, Obs.interest.injEq] at hk
        rcases hk with hk | hk
        · have := (ireq k hk).1; exact ⟨by omega, trivial⟩
        · exact ⟨by omega, trivial⟩
    · intro _ _ _
      exact ⟨i, _, s.nextSegmentNo, (hAt i _ _).2 (Or.inl ⟨rfl, rfl, rfl⟩), hrunF⟩

theorem At_set {s s' : St} {i : Nat} {x : Fetcher × Nat} (hi : i < s.slots.length)
    (hs : s'.slots = s.slots.set i (some x)) (j g m) :
    At s' j g m ↔ (j = i ∧ g = x.1 ∧ m = x.2) ∨ (j ≠ i ∧ At s j g m) := by
  unfold At
  rw [hs, List.getElem?_set]
  by_cases hji : i = j
  · subst hji
    obtain ⟨a, b⟩ := x
    simp [hi]
    constructor
    · rintro ⟨rfl, rfl⟩; exact ⟨rfl, rfl⟩
    · rintro ⟨rfl, rfl⟩; exact ⟨rfl, rfl⟩
  · have hji' : j ≠ i := fun h => hji h.symm
    simp [hji, hji']

theorem At_lt {s : St} {i f k} (h : At s i f k) : i < s.slots.length := by
  unfold At at h
  exact (List.getElem?_eq_some_iff.1 h).1

/-- A fetcher changes but not whether it runs or has failed; possibly it repeats its Interest. -/
theorem core_retry {N R s i f k} (h : Core N R s) (ha : At s i f k)
    {f' : Fetcher} (hf' : DataFetcher.Inv R R f') (hst : f'.isStopped = f.isStopped)
    (her : f'.hasError = f.hasError)
    {s' : St} (hs : s'.slots = s.slots.set i (some (f', k)))
    (hlog : s'.log = s.log ∨ s'.log = s.log ++ [.interest k])
    (heq : s' = { s with slots := s'.slots, log := s'.log }) : Core N R s' := by
  have hAt := At_set (At_lt ha) hs
  have hrun : f'.isRunning = f.isRunning := by simp [Fetcher.isRunning, hst, her]
  have hrecv : received s'.log = received s.log := by
    rcases hlog with h | h <;> simp [h]
  have hsub : ∀ o, o ∈ s.log → o ∈ s'.log := by
    intro o ho
    rcases hlog with h | h <;> simp [h, ho]
  have e1 : s'.maxPipelineSize = s.maxPipelineSize := by rw [heq]
  have e2 : s'.maxRetries = s.maxRetries := by rw [heq]
  have e3 : s'.nextSegmentNo = s.nextSegmentNo := by rw [heq]
  have e4 : s'.lastSegmentNo = s.lastSegmentNo := by rw [heq]
  have e5 : s'.hasFinalBlockId = s.hasFinalBlockId := by rw [heq]
  have e6 : s'.nReceived = s.nReceived := by rw [heq]
  have e7 : s'.isStopping = s.isStopping := by rw [heq]
  have e8 : s'.ub = s.ub := by rw [heq]
  have e9 : s'.assertFailed = s.assertFailed := by rw [heq]
  have e10 : s'.hasFailure = s.hasFailure := by rw [heq]
  clear heq
  constructor
  · rw [e1]; exact h.cfgN
  · rw [e2]; exact h.cfgR
  · rw [e7, hs]; simpa using h.len
  · rw [e7]; intro h1; have := h.stop h1; simp [At, this] at ha
  · intro j g m hj
    rcases (hAt j g m).1 hj with ⟨rfl, rfl, rfl⟩ | ⟨_, hj⟩
    · exact hf'
    · exact h.fet j g m hj
  · intro j g m hj
    rcases (hAt j g m).1 hj with ⟨rfl, rfl, rfl⟩ | ⟨_, hj⟩
    · rw [her, hst]; exact h.excl _ _ _ ha
    · exact h.excl j g m hj
  · intro j j' g g' m hj hj'
    rcases (hAt j g m).1 hj with ⟨rfl, rfl, rfl⟩ | ⟨_, hj⟩ <;>
    rcases (hAt j' g' _).1 hj' with ⟨rfl, rfl, h3⟩ | ⟨_, hj'⟩
    · rfl
    · exact h.uniq _ _ _ _ _ ha hj'
    · subst h3; exact h.uniq _ _ _ _ _ hj ha
    · exact h.uniq _ _ _ _ _ hj hj'
  · intro j g m hj
    rw [e3]
    rcases (hAt j g m).1 hj with ⟨rfl, rfl, rfl⟩ | ⟨_, hj⟩
    · exact h.lt _ _ _ ha
    · exact h.lt _ _ _ hj
  · intro j g m hj
    apply hsub
    rcases (hAt j g m).1 hj with ⟨rfl, rfl, rfl⟩ | ⟨_, hj⟩
    · exact h.req _ _ _ ha
    · exact h.req _ _ _ hj
  · rw [hrecv]; exact h.rnodup
  · rw [hrecv, e3]; exact h.rlt
  · rw [hrecv, e6]; exact h.cnt
  · intro j g m hj h1
    rw [hrecv]
    rcases (hAt j g m).1 hj with ⟨rfl, rfl, rfl⟩ | ⟨_, hj⟩
    · rw [hrun, her] at h1; exact h.live _ _ _ ha h1
    · exact h.live _ _ _ hj h1
  · rw [e7, e3, e5, e4, hrecv]
    intro h1 m hm hm2
    rcases h.cover h1 m hm hm2 with h2 | ⟨j, g, h3, h4⟩
    · exact Or.inl h2
    · right
      by_cases hj : j = i
      · subst hj
        have hgm : g = f ∧ m = k := by
          unfold At at h3 ha; rw [h3] at ha; simpa using ha
        obtain ⟨rfl, rfl⟩ := hgm
        refine ⟨j, f', (hAt _ _ _).2 (Or.inl ⟨rfl, rfl, rfl⟩), ?_⟩
        rw [hrun, her]
        rcases h4 with h4 | h4 | ⟨j', g', m', h5, h6, h7⟩
        · exact Or.inl h4
        · exact Or.inr (Or.inl h4)
        · right; right
          by_cases hj' : j' = j
          · subst hj'
            have hgm : g' = g ∧ m' = m := by
              unfold At at h5 ha; rw [h5] at ha; simpa using ha
            omega
          · exact ⟨j', g', m', (hAt _ _ _).2 (Or.inr ⟨hj', h5⟩), h6, h7⟩
      · refine ⟨j, g, (hAt _ _ _).2 (Or.inr ⟨hj, h3⟩), ?_⟩
        rcases h4 with h4 | h4 | ⟨j', g', m', h5, h6, h7⟩
        · exact Or.inl h4
        · exact Or.inr (Or.inl h4)
        · right; right
          by_cases hj' : j' = i
          · subst hj'
            have hgm : g' = f ∧ m' = k := by
              unfold At at h5 ha; rw [h5] at ha; simpa using ha
            obtain ⟨rfl, rfl⟩ := hgm
            exact ⟨j', f', m', (hAt _ _ _).2 (Or.inl ⟨rfl, rfl, rfl⟩), h6, by rw [her]; exact h7⟩
          · exact ⟨j', g', m', (hAt _ _ _).2 (Or.inr ⟨hj', h5⟩), h6, h7⟩
  · rw [e5, e4]
    intro h1 j g m hj
    rcases (hAt j g m).1 hj with ⟨rfl, rfl, rfl⟩ | ⟨_, hj⟩
    · rw [hrun, her]; exact h.fin h1 _ _ _ ha
    · exact h.fin h1 _ _ _ hj
  · rw [e5, e10]
    intro h1 j g m hj h2
    have key : ∃ j0 g0, At s j0 g0 m ∧ g0.hasError = true := by
      rcases (hAt j g m).1 hj with ⟨rfl, rfl, rfl⟩ | ⟨_, hj⟩
      · exact ⟨_, _, ha, by rw [← her]; exact h2⟩
      · exact ⟨_, _, hj, h2⟩
    obtain ⟨j0, g0, hj0, h20⟩ := key
    obtain ⟨h3, h4⟩ := h.nofin h1 _ _ _ hj0 h20
    refine ⟨h3, ?_⟩
    intro j' g' m' hj' h5
    rcases (hAt j' g' m').1 hj' with ⟨rfl, rfl, rfl⟩ | ⟨_, hj'⟩
    · rw [hrun]; exact h4 _ _ _ ha h5
    · exact h4 _ _ _ hj' h5
  · rw [e8]; exact h.noub
  · rw [e9]; exact h.noassert
  · intro pre m post hh j hj
    rcases hlog with hl | hl
    · exact h.order pre m post (by rw [← hl]; exact hh) j hj
    · rw [hl] at hh
      rcases snoc_split hh with ⟨_, h2, rfl⟩ | ⟨post', rfl, h2⟩
      · simp only [Obs.interest.injEq] at h2
        subst h2
        obtain ⟨a, b, hab⟩ := List.append_of_mem (h.req _ _ _ ha)
        have := h.order _ _ _ hab j hj
        rw [hab]; simp [this]
      · exact h.order pre m post' h2 j hj
  · rw [e3, e5, e4]
    intro m hm hm2
    exact hsub _ (h.asked m hm hm2)
  · intro pre m p post hh
    rcases hlog with hl | hl
    · exact h.dreq pre m p post (by rw [← hl]; exact hh)
    · rw [hl] at hh
      rcases snoc_split hh with ⟨_, h2, _⟩ | ⟨post', rfl, h2⟩
      · simp at h2
      · exact h.dreq pre m p post' h2
  · rw [e3]
    intro m hm
    rcases hlog with hl | hl
    · exact h.ireq m (by rw [← hl]; exact hm)
    · rw [hl] at hm
      simp only [List.mem_append, List.mem_singleton, Obs.interest.injEq] at hm
      rcases hm with hm | rfl
      · exact h.ireq m hm
      · exact ⟨h.lt _ _ _ ha, trivial⟩

/-- The fetcher of slot `i` delivered its Data. -/
theorem core_data {N R s i f k} (h : Core N R s) (ha : At s i f k) (hr : f.isRunning = true)
    {f' : Fetcher} (hf' : DataFetcher.Inv R R f') (hr' : f'.isRunning = false)
    (he' : f'.hasError = false) (p : Pkt)
    {s' : St} (hs : s'.slots = s.slots.set i (some (f', k)))
    (hlog : s'.log = s.log ++ [.data k p]) (hn : s'.nReceived = s.nReceived + 1)
    (heq : s' = { s with slots := s'.slots, log := s'.log, nReceived := s'.nReceived,
                         receivedSize := s'.receivedSize }) : Core N R s' := by
  have hAt := At_set (At_lt ha) hs
  have he : f.hasError = false := by
    simp [Fetcher.isRunning] at hr; exact hr.2
  have hrecv : received s'.log = received s.log ++ [k] := by simp [hlog]
  have hsub : ∀ o, o ∈ s.log → o ∈ s'.log := by
    intro o ho; simp [hlog, ho]
  have e1 : s'.maxPipelineSize = s.maxPipelineSize := by rw [heq]
  have e2 : s'.maxRetries = s.maxRetries := by rw [heq]
  have e3 : s'.nextSegmentNo = s.nextSegmentNo := by rw [heq]
  have e4 : s'.lastSegmentNo = s.lastSegmentNo := by rw [heq]
  have e5 : s'.hasFinalBlockId = s.hasFinalBlockId := by rw [heq]
  have e7 : s'.isStopping = s.isStopping := by rw [heq]
  have e8 : s'.ub = s.ub := by rw [heq]
  have e9 : s'.assertFailed = s.assertFailed := by rw [heq]
  have e10 : s'.hasFailure = s.hasFailure := by rw [heq]
  clear heq
  have hknew := h.live _ _ _ ha (Or.inl hr)
  have hother : ∀ j g, j ≠ i → ¬ At s j g k := fun j g hj hg => hj (h.uniq _ _ _ _ _ hg ha)
  constructor
  · rw [e1]; exact h.cfgN
  · rw [e2]; exact h.cfgR
  · rw [e7, hs]; simpa using h.len
  · rw [e7]; intro h1; have := h.stop h1; simp [At, this] at ha
  · intro j g m hj
    rcases (hAt j g m).1 hj with ⟨rfl, rfl, rfl⟩ | ⟨_, hj⟩
    · exact hf'
    · exact h.fet j g m hj
  · intro j g m hj
    rcases (hAt j g m).1 hj with ⟨rfl, rfl, rfl⟩ | ⟨_, hj⟩
    · simp [he']
    · exact h.excl j g m hj
  · intro j j' g g' m hj hj'
    rcases (hAt j g m).1 hj with ⟨rfl, rfl, rfl⟩ | ⟨_, hj⟩ <;>
    rcases (hAt j' g' _).1 hj' with ⟨rfl, rfl, h3⟩ | ⟨_, hj'⟩
    · rfl
    · exact h.uniq _ _ _ _ _ ha hj'
    · subst h3; exact h.uniq _ _ _ _ _ hj ha
    · exact h.uniq _ _ _ _ _ hj hj'
  · intro j g m hj
    rw [e3]
    rcases (hAt j g m).1 hj with ⟨rfl, rfl, rfl⟩ | ⟨_, hj⟩
    · exact h.lt _ _ _ ha
    · exact h.lt _ _ _ hj
  · intro j g m hj
    apply hsub
    rcases (hAt j g m).1 hj with ⟨rfl, rfl, rfl⟩ | ⟨_, hj⟩
    · exact h.req _ _ _ ha
    · exact h.req _ _ _ hj
  · rw [hrecv, List.nodup_append]
    refine ⟨h.rnodup, by simp, ?_⟩
    intro a ha' b hb
    simp only [List.mem_singleton] at hb
    subst hb
    rintro rfl
    exact hknew ha'
  · rw [hrecv, e3]
    intro m hm
    simp only [List.mem_append, List.mem_singleton] at hm
    rcases hm with hm | rfl
    · exact h.rlt m hm
    · exact h.lt _ _ _ ha
  · rw [hrecv, hn, h.cnt]; simp
  · intro j g m hj h1
    rw [hrecv]
    rcases (hAt j g m).1 hj with ⟨rfl, rfl, rfl⟩ | ⟨hji, hj⟩
    · simp [hr', he'] at h1
    · simp only [List.mem_append, List.mem_singleton, not_or]
      refine ⟨h.live _ _ _ hj h1, ?_⟩
      rintro rfl
      exact hother _ _ hji hj
  · rw [e7, e3, e5, e4, hrecv]
    intro h1 m hm hm2
    rcases h.cover h1 m hm hm2 with h2 | ⟨j, g, h3, h4⟩
    · left; simp [h2]
    · by_cases hj : j = i
      · subst hj
        have hgm : g = f ∧ m = k := by
          unfold At at h3 ha; rw [h3] at ha; simpa using ha
        left; simp [hgm.2]
      · right
        refine ⟨j, g, (hAt _ _ _).2 (Or.inr ⟨hj, h3⟩), ?_⟩
        rcases h4 with h4 | h4 | ⟨j', g', m', h5, h6, h7⟩
        · exact Or.inl h4
        · exact Or.inr (Or.inl h4)
        · right; right
          refine ⟨j', g', m', (hAt _ _ _).2 (Or.inr ⟨?_, h5⟩), h6, h7⟩
          rintro rfl
          have hgm : g' = f ∧ m' = k := by
            unfold At at h5 ha; rw [h5] at ha; simpa using ha
          simp [hgm.1, he] at h7
  · rw [e5, e4]
    intro h1 j g m hj
    rcases (hAt j g m).1 hj with ⟨rfl, rfl, rfl⟩ | ⟨_, hj⟩
    · exact ⟨fun _ => hr', fun _ => he'⟩
    · exact h.fin h1 _ _ _ hj
  · rw [e5, e10]
    intro h1 j g m hj h2
    rcases (hAt j g m).1 hj with ⟨rfl, rfl, rfl⟩ | ⟨_, hj⟩
    · simp [he'] at h2
    · obtain ⟨h3, h4⟩ := h.nofin h1 _ _ _ hj h2
      refine ⟨h3, ?_⟩
      intro j' g' m' hj' h5
      rcases (hAt j' g' m').1 hj' with ⟨rfl, rfl, rfl⟩ | ⟨_, hj'⟩
      · exact hr'
      · exact h4 _ _ _ hj' h5
  · rw [e8]; exact h.noub
  · rw [e9]; exact h.noassert
  · intro pre m post hh j hj
    rw [hlog] at hh
    rcases snoc_split hh with ⟨_, h2, rfl⟩ | ⟨post', rfl, h2⟩
    · simp at h2
    · exact h.order pre m post' h2 j hj
  · rw [e3, e5, e4]
    intro m hm hm2
    exact hsub _ (h.asked m hm hm2)
  · intro pre m q post hh
    rw [hlog] at hh
    rcases snoc_split hh with ⟨_, h2, rfl⟩ | ⟨post', rfl, h2⟩
    · simp only [Obs.data.injEq] at h2
      rw [h2.1]
      exact h.req _ _ _ ha
    · exact h.dreq pre m q post' h2
  · rw [e3]
    intro m hm
    rw [hlog] at hm
    simp only [List.mem_append, List.mem_singleton, reduceCtorEq, or_false] at hm
    exact h.ireq m hm

/-- A cancelled fetcher. -/
theorem inv_cancel {n t f} (h : DataFetcher.Inv n t f) : DataFetcher.Inv n t f.cancel := by
  have := DataFetcher.inv_step h (e := .cancel) (by simp [Fetcher.enabled])
  simpa [Fetcher.step] using this

theorem cancel_running (f : Fetcher) : f.cancel.isRunning = false := by
  unfold Fetcher.cancel
  split
  · simp [Fetcher.isRunning]
  · simp_all

theorem cancel_hasError (f : Fetcher) : f.cancel.hasError = f.hasError := by
  unfold Fetcher.cancel
  split <;> rfl

theorem cancel_isStopped {f : Fetcher} (h : f.hasError = true) : f.cancel = f := by
  unfold Fetcher.cancel
  simp [Fetcher.isRunning, h]

/-- What both loops do to a slot. -/
def cancelAbove (b : Nat) : Slot → Slot
  | none => none
  | some (f, k) => if k > b then some (f.cancel, k) else some (f, k)

theorem finalLoop_none {last : Nat} {l l' : List Slot} (h : finalLoop last l = (l', none)) :
    l' = l.map (cancelAbove last) ∧ ∀ f k, some (f, k) ∈ l → k ≤ last → f.hasError = false := by
  induction l generalizing l' with
  | nil => simp [finalLoop] at h; subst h; simp
  | cons x rest ih =>
    rcases x with _ | ⟨f, k⟩
    · simp only [finalLoop, Prod.mk.injEq] at h
      obtain ⟨rfl, h2⟩ := h
      have := ih (l' := (finalLoop last rest).1) (by rw [← h2])
      refine ⟨by simp [this.1, cancelAbove], ?_⟩
      intro f k hm
      simp at hm
      exact this.2 f k hm
    · simp only [finalLoop] at h
      split at h
      · rename_i hk
        simp only [Prod.mk.injEq] at h
        obtain ⟨rfl, h2⟩ := h
        have := ih (l' := (finalLoop last rest).1) (by rw [← h2])
        refine ⟨by simp [this.1, cancelAbove, hk], ?_⟩
        intro f' k' hm hk'
        simp at hm
        rcases hm with ⟨rfl, rfl⟩ | hm
        · omega
        · exact this.2 f' k' hm hk'
      · rename_i hk
        split at h
        · simp at h
        · rename_i he
          simp only [Prod.mk.injEq] at h
          obtain ⟨rfl, h2⟩ := h
          have := ih (l' := (finalLoop last rest).1) (by rw [← h2])
          refine ⟨by simp [this.1, cancelAbove, hk], ?_⟩
          intro f' k' hm hk'
          simp at hm
          rcases hm with ⟨rfl, rfl⟩ | hm
          · simpa using he
          · exact this.2 f' k' hm hk'

theorem finalLoop_some {last e : Nat} {l l' : List Slot} (h : finalLoop last l = (l', some e)) :
    e ≤ last ∧ ∃ f, some (f, e) ∈ l ∧ f.hasError = true := by
  induction l generalizing l' with
  | nil => simp [finalLoop] at h
  | cons x rest ih =>
    rcases x with _ | ⟨f, k⟩
    · simp only [finalLoop, Prod.mk.injEq] at h
      obtain ⟨rfl, h2⟩ := h
      obtain ⟨h3, f, h4, h5⟩ := ih (l' := (finalLoop last rest).1) (by rw [← h2])
      exact ⟨h3, f, by simp [h4], h5⟩
    · simp only [finalLoop] at h
      split at h
      · simp only [Prod.mk.injEq] at h
        obtain ⟨rfl, h2⟩ := h
        obtain ⟨h3, f, h4, h5⟩ := ih (l' := (finalLoop last rest).1) (by rw [← h2])
        exact ⟨h3, f, by simp [h4], h5⟩
      · rename_i hk
        split at h
        · rename_i he
          simp only [Prod.mk.injEq, Option.some.injEq] at h
          obtain ⟨_, rfl⟩ := h
          exact ⟨by omega, f, by simp, he⟩
        · simp only [Prod.mk.injEq] at h
          obtain ⟨rfl, h2⟩ := h
          obtain ⟨h3, f, h4, h5⟩ := ih (l' := (finalLoop last rest).1) (by rw [← h2])
          exact ⟨h3, f, by simp [h4], h5⟩

theorem failLoop_eq (b : Nat) (l : List Slot) :
    (failLoop b l).1 = l.map (cancelAbove b) ∧
    ((failLoop b l).2 = true ↔ ∀ f k, some (f, k) ∈ l → k ≤ b → f.isRunning = false) := by
  induction l with
  | nil => simp [failLoop]
  | cons x rest ih =>
    rcases x with _ | ⟨f, k⟩
    · simp [failLoop, ih, cancelAbove]
    · simp only [failLoop]
      split
      · rename_i hk
        refine ⟨by simp [ih.1, cancelAbove, hk], ?_⟩
        rw [ih.2]
        constructor
        · intro h f' k' hm hk'
          simp at hm
          rcases hm with ⟨rfl, rfl⟩ | hm
          · omega
          · exact h f' k' hm hk'
        · intro h f' k' hm hk'
          exact h f' k' (by simp [hm]) hk'
      · rename_i hk
        refine ⟨by simp [ih.1, cancelAbove, hk], ?_⟩
        simp only [Bool.and_eq_true, ih.2, Bool.not_eq_true']
        constructor
        · rintro ⟨h, h2⟩ f' k' hm hk'
          simp at hm
          rcases hm with ⟨rfl, rfl⟩ | hm
          · exact h2
          · exact h f' k' hm hk'
        · intro h
          exact ⟨fun f' k' hm hk' => h f' k' (by simp [hm]) hk', h f k (by simp) (by omega)⟩

theorem At_map {s s' : St} {b : Nat} (hs : s'.slots = s.slots.map (cancelAbove b)) (j g m) :
    At s' j g m ↔ ∃ f, At s j f m ∧ g = (if m > b then f.cancel else f) := by
  unfold At
  rw [hs, List.getElem?_map]
  constructor
  · intro h
    simp only [Option.map_eq_some_iff] at h
    obtain ⟨x, h1, h2⟩ := h
    rcases x with _ | ⟨f, k⟩
    · simp [cancelAbove] at h2
    · simp only [cancelAbove] at h2
      split at h2
      · simp only [Option.some.injEq, Prod.mk.injEq] at h2
        obtain ⟨rfl, rfl⟩ := h2
        refine ⟨f, h1, ?_⟩
        simp [*]
      · simp only [Option.some.injEq, Prod.mk.injEq] at h2
        obtain ⟨rfl, rfl⟩ := h2
        refine ⟨f, h1, ?_⟩
        simp [*]
  · rintro ⟨f, h1, rfl⟩
    rw [h1]
    simp only [Option.map_some, cancelAbove, Option.some.injEq]
    split <;> rfl

/-- Learning the final segment number, when no fetcher of a segment up to it has failed. -/
theorem core_final {N R s} (h : Core N R s) {n : Nat} (hf : s.hasFinalBlockId = false)
    (hgood : ∀ i f k, At s i f k → k ≤ n → f.hasError = false)
    {s' : St} (hs : s'.slots = s.slots.map (cancelAbove n))
    (heq : s' = { s with slots := s'.slots, lastSegmentNo := n, hasFinalBlockId := true }) :
    Core N R s' := by
  have hAt := At_map hs
  have e1 : s'.maxPipelineSize = s.maxPipelineSize := by rw [heq]
  have e2 : s'.maxRetries = s.maxRetries := by rw [heq]
  have e3 : s'.nextSegmentNo = s.nextSegmentNo := by rw [heq]
  have e4 : s'.lastSegmentNo = n := by rw [heq]
  have e5 : s'.hasFinalBlockId = true := by rw [heq]
  have e6 : s'.nReceived = s.nReceived := by rw [heq]
  have e7 : s'.isStopping = s.isStopping := by rw [heq]
  have e8 : s'.ub = s.ub := by rw [heq]
  have e9 : s'.assertFailed = s.assertFailed := by rw [heq]
  have e11 : s'.log = s.log := by rw [heq]
  clear heq
  have hinv : ∀ f m, DataFetcher.Inv R R f → DataFetcher.Inv R R (if m > n then f.cancel else f) := by
    intro f m hf; split
    · exact inv_cancel hf
    · exact hf
  constructor
  · rw [e1]; exact h.cfgN
  · rw [e2]; exact h.cfgR
  · rw [e7, hs]; simpa using h.len
  · rw [e7]; intro h1; have := h.stop h1; simp [hs, this]
  · intro j g m hj
    obtain ⟨f, h1, rfl⟩ := (hAt j g m).1 hj
    exact hinv f m (h.fet _ _ _ h1)
  · intro j g m hj hg
    obtain ⟨f, h1, rfl⟩ := (hAt j g m).1 hj
    have hfe : f.hasError = true := by
      split at hg
      · rwa [cancel_hasError] at hg
      · exact hg
    rw [cancel_isStopped hfe]
    simpa using h.excl _ _ _ h1 hfe
  · intro j j' g g' m hj hj'
    obtain ⟨f, h1, rfl⟩ := (hAt j g m).1 hj
    obtain ⟨f', h2, rfl⟩ := (hAt j' g' m).1 hj'
    exact h.uniq _ _ _ _ _ h1 h2
  · intro j g m hj
    obtain ⟨f, h1, rfl⟩ := (hAt j g m).1 hj
    rw [e3]; exact h.lt _ _ _ h1
  · intro j g m hj
    obtain ⟨f, h1, rfl⟩ := (hAt j g m).1 hj
    rw [e11]; exact h.req _ _ _ h1
  · rw [e11]; exact h.rnodup
  · rw [e11, e3]; exact h.rlt
  · rw [e11, e6]; exact h.cnt
  · intro j g m hj hg
    obtain ⟨f, h1, rfl⟩ := (hAt j g m).1 hj
    rw [e11]
    apply h.live _ _ _ h1
    split at hg
    · rw [cancel_hasError, cancel_running] at hg
      simp at hg
      exact Or.inr hg
    · exact hg
  · rw [e7, e3, e4, e11]
    intro h1 k hk hk2
    have hkn := hk2 e5
    rcases h.cover h1 k hk (by simp [hf]) with h2 | ⟨i, f, h3, h4⟩
    · exact Or.inl h2
    · right
      have hnk : ¬ k > n := by omega
      refine ⟨i, f, (hAt _ _ _).2 ⟨f, h3, by simp [hnk]⟩, ?_⟩
      rcases h4 with h4 | h4 | ⟨j, g, m, h5, h6, h7⟩
      · exact Or.inl h4
      · exact Or.inr (Or.inl h4)
      · have := hgood _ _ _ h5 (by omega)
        simp [h7] at this
  · intro _ j g m hj
    obtain ⟨f, h1, rfl⟩ := (hAt j g m).1 hj
    rw [e4]
    refine ⟨fun h2 => ?_, fun h2 => ?_⟩
    · rw [if_pos h2]; exact cancel_running f
    · have : ¬ m > n := by omega
      rw [if_neg this]
      exact hgood _ _ _ h1 h2
  · intro h1; simp [e5] at h1
  · rw [e8]; exact h.noub
  · rw [e9]; exact h.noassert
  · rw [e11]; exact h.order
  · rw [e11, e3, e4]
    intro k hk hk2
    exact h.asked k hk (by simp [hf])
  · rw [e11]; exact h.dreq
  · rw [e11, e3]; exact h.ireq

/-- A fetcher failed while the final segment number is unknown. -/
theorem core_fail {N R s i f k} (h : Core N R s) (ha : At s i f k) (hr : f.isRunning = true)
    (hf : s.hasFinalBlockId = false)
    {f' : Fetcher} (hf' : DataFetcher.Inv R R f') (hr' : f'.isRunning = false)
    (he' : f'.hasError = true) (hst' : f'.isStopped = false)
    {s' : St} (hs : s'.slots = (s.slots.set i (some (f', k))).map (cancelAbove k))
    (heq : s' = { s with slots := s'.slots, hasFailure := true }) : Core N R s' := by
  have hAt1 := At_set (s' := { s with slots := s.slots.set i (some (f', k)) }) (At_lt ha) rfl
  have hAt2 := At_map (s := { s with slots := s.slots.set i (some (f', k)) }) hs
  have hAt : ∀ j g m, At s' j g m ↔ (j = i ∧ g = f' ∧ m = k) ∨
      (j ≠ i ∧ ∃ g', At s j g' m ∧ g = (if m > k then g'.cancel else g')) := by
    intro j g m
    rw [hAt2]
    constructor
    · rintro ⟨g', h1, h2⟩
      rcases (hAt1 j g' m).1 h1 with ⟨rfl, rfl, rfl⟩ | ⟨h3, h4⟩
      · left; simpa using h2
      · right; exact ⟨h3, g', h4, h2⟩
    · rintro (⟨rfl, rfl, rfl⟩ | ⟨h3, g', h4, h2⟩)
      · exact ⟨g, (hAt1 _ _ _).2 (Or.inl ⟨rfl, rfl, rfl⟩), by simp⟩
      · exact ⟨g', (hAt1 _ _ _).2 (Or.inr ⟨h3, h4⟩), h2⟩
  have e1 : s'.maxPipelineSize = s.maxPipelineSize := by rw [heq]
  have e2 : s'.maxRetries = s.maxRetries := by rw [heq]
  have e3 : s'.nextSegmentNo = s.nextSegmentNo := by rw [heq]
  have e4 : s'.lastSegmentNo = s.lastSegmentNo := by rw [heq]
  have e5 : s'.hasFinalBlockId = s.hasFinalBlockId := by rw [heq]
  have e6 : s'.nReceived = s.nReceived := by rw [heq]
  have e7 : s'.isStopping = s.isStopping := by rw [heq]
  have e8 : s'.ub = s.ub := by rw [heq]
  have e9 : s'.assertFailed = s.assertFailed := by rw [heq]
  have e10 : s'.hasFailure = true := by rw [heq]
  have e11 : s'.log = s.log := by rw [heq]
  clear heq hAt1 hAt2
  have hlen : s'.slots.length = s.slots.length := by simp [hs]
  clear hs
  have herr : ∀ (g : Fetcher) (m : Nat), (if m > k then g.cancel else g).hasError = true → g.hasError = true := by
    intro g m hg; split at hg
    · rwa [cancel_hasError] at hg
    · exact hg
  have hrun : ∀ (g : Fetcher) (m : Nat), (if m > k then g.cancel else g).isRunning = true → g.isRunning = true := by
    intro g m hg; split at hg
    · simp [cancel_running] at hg
    · exact hg
  constructor
  · rw [e1]; exact h.cfgN
  · rw [e2]; exact h.cfgR
  · rw [e7, hlen]; exact h.len
  · rw [e7]; intro h1; have := h.stop h1; simp [At, this] at ha
  · intro j g m hj
    rcases (hAt j g m).1 hj with ⟨rfl, rfl, rfl⟩ | ⟨_, g', h1, rfl⟩
    · exact hf'
    · split
      · exact inv_cancel (h.fet _ _ _ h1)
      · exact h.fet _ _ _ h1
  · intro j g m hj hg
    rcases (hAt j g m).1 hj with ⟨rfl, rfl, rfl⟩ | ⟨_, g', h1, rfl⟩
    · exact hst'
    · have := herr _ _ hg
      rw [cancel_isStopped this]
      simpa using h.excl _ _ _ h1 this
  · intro j j' g g' m hj hj'
    rcases (hAt j g m).1 hj with ⟨rfl, rfl, rfl⟩ | ⟨_, g1, h1, rfl⟩ <;>
    rcases (hAt j' g' _).1 hj' with ⟨rfl, rfl, h3⟩ | ⟨_, g2, h2, rfl⟩
    · rfl
    · exact h.uniq _ _ _ _ _ ha h2
    · subst h3; exact h.uniq _ _ _ _ _ h1 ha
    · exact h.uniq _ _ _ _ _ h1 h2
  · intro j g m hj
    rw [e3]
    rcases (hAt j g m).1 hj with ⟨rfl, rfl, rfl⟩ | ⟨_, g', h1, rfl⟩
    · exact h.lt _ _ _ ha
    · exact h.lt _ _ _ h1
  · intro j g m hj
    rw [e11]
    rcases (hAt j g m).1 hj with ⟨rfl, rfl, rfl⟩ | ⟨_, g', h1, rfl⟩
    · exact h.req _ _ _ ha
    · exact h.req _ _ _ h1
  · rw [e11]; exact h.rnodup
  · rw [e11, e3]; exact h.rlt
  · rw [e11, e6]; exact h.cnt
  · intro j g m hj hg
    rw [e11]
    rcases (hAt j g m).1 hj with ⟨rfl, rfl, rfl⟩ | ⟨_, g', h1, rfl⟩
    · exact h.live _ _ _ ha (Or.inl hr)
    · exact h.live _ _ _ h1 (hg.imp (hrun _ _) (herr _ _))
  · rw [e7, e3, e5, e4, e11]
    intro h1 m hm hm2
    rcases h.cover h1 m hm hm2 with h2 | ⟨j, g, h3, h4⟩
    · exact Or.inl h2
    · right
      by_cases hj : j = i
      · subst hj
        have hgm : g = f ∧ m = k := by
          unfold At at h3 ha; rw [h3] at ha; simpa using ha
        obtain ⟨rfl, rfl⟩ := hgm
        exact ⟨j, f', (hAt _ _ _).2 (Or.inl ⟨rfl, rfl, rfl⟩), Or.inr (Or.inl he')⟩
      · refine ⟨j, _, (hAt _ _ _).2 (Or.inr ⟨hj, g, h3, rfl⟩), ?_⟩
        by_cases hmk : m > k
        · right; right
          exact ⟨i, f', k, (hAt _ _ _).2 (Or.inl ⟨rfl, rfl, rfl⟩), hmk, he'⟩
        · rw [if_neg hmk]
          rcases h4 with h4 | h4 | ⟨j', g', m', h5, h6, h7⟩
          · exact Or.inl h4
          · exact Or.inr (Or.inl h4)
          · right; right
            have hj' : j' ≠ i := by
              rintro rfl
              have hgm : g' = f ∧ m' = k := by
                unfold At at h5 ha; rw [h5] at ha; simpa using ha
              rw [hgm.1] at h7
              simp [Fetcher.isRunning, h7] at hr
            refine ⟨j', _, m', (hAt _ _ _).2 (Or.inr ⟨hj', g', h5, rfl⟩), h6, ?_⟩
            split
            · rw [cancel_hasError]; exact h7
            · exact h7
  · rw [e5]; intro h1; simp [hf] at h1
  · rw [e5, e10]
    intro h1 j g m hj h2
    refine ⟨rfl, ?_⟩
    intro j' g' m' hj' h5
    rcases (hAt j g m).1 hj with ⟨rfl, rfl, rfl⟩ | ⟨_, g1, h3, rfl⟩
    · rcases (hAt j' g' m').1 hj' with ⟨rfl, rfl, rfl⟩ | ⟨_, g2, h4, rfl⟩
      · exact hr'
      · rw [if_pos h5]; exact cancel_running _
    · obtain ⟨_, h6⟩ := h.nofin h1 _ _ _ h3 (herr _ _ h2)
      rcases (hAt j' g' m').1 hj' with ⟨rfl, rfl, rfl⟩ | ⟨_, g2, h4, rfl⟩
      · exact hr'
      · have := h6 _ _ _ h4 h5
        by_contra hc
        simp only [Bool.not_eq_false] at hc
        simp [hrun _ _ hc] at this
  · rw [e8]; exact h.noub
  · rw [e9]; exact h.noassert
  · rw [e11]; exact h.order
  · rw [e11, e3, e4, e5]; exact h.asked
  · rw [e11]; exact h.dreq
  · rw [e11, e3]; exact h.ireq

/-- The whole invariant. -/
structure Inv (N : Nat) (R : Int) (s : St) : Prop where
  core : Core N R s
  prog : Prog s

theorem core_emit_complete {N R s} (h : Core N R s) : Core N R (s.emit .complete) := by
  obtain ⟨cfgN, cfgR, len, stop, fet, excl, uniq, lt, req, rnodup, rlt, cnt, live, cover, fin, nofin,
    noub, noassert, order, asked, dreq, ireq⟩ := h
  constructor <;> simp only [St.emit, received_append, received_complete, List.append_nil] <;>
    try assumption
  · intro i f k hi; have := req i f k hi; simp [this]
  · intro pre k post hh
    rcases snoc_split hh with ⟨_, h2, rfl⟩ | ⟨post', rfl, h2⟩
    · simp at h2
    · exact order pre k post' h2
  · intro k h1 h2; have := asked k h1 h2; simp [this]
  · intro pre k p post hh
    rcases snoc_split hh with ⟨_, h2, rfl⟩ | ⟨post', rfl, h2⟩
    · simp at h2
    · exact dreq pre k p post' h2
  · intro k hk; exact ireq k (by simpa using hk)

/-- A list of distinct numbers below `b` has at most `b` elements. -/
theorem nodup_length_le {l : List Nat} {b : Nat} (hn : l.Nodup) (hb : ∀ x ∈ l, x < b) :
    l.length ≤ b := by
  have := (List.Nodup.subperm hn (l₂ := List.range b) (fun x hx => by simpa using hb x hx)).length_le
  simpa using this

/-- After the last segment was received everything has been requested. -/
theorem inv_complete {N R s} (h : Core N R s) (hall : s.allSegmentsReceived = true) :
    Inv N R (s.emit .complete) := by
  refine ⟨core_emit_complete h, ?_⟩
  intro _ _ h3
  simp only [St.allSegmentsReceived, Bool.and_eq_true, decide_eq_true_eq] at hall
  obtain ⟨⟨h4, h5⟩, h6⟩ := hall
  simp only [St.emit] at h3
  have h7 := nodup_length_le h.rnodup h.rlt
  rw [← h.cnt] at h7
  rcases h3 with h3 | h3
  · simp [h5] at h3
  · omega

theorem inv_finish {N R s i} (h : Core N R s) (hi : i < N)
    (hfree : ∀ f k, At s i f k → f.isRunning = false ∧ f.hasError = false ∧ k ∈ received s.log) :
    Inv N R (if s.allSegmentsReceived then s.emit .complete else (s.fetchNextSegment i).1) := by
  split
  · rename_i hall
    exact inv_complete h hall
  · have := core_fetchNext h hi hfree
    exact ⟨this.1, this.2⟩

theorem inv_stopped {N R s} (h : Core N R s) (hs : s.isStopping = true) : Inv N R s :=
  ⟨h, prog_of_stopping hs⟩

theorem core_threw {N R s x} (h : Core N R s) : Core N R { s with threw := x } := by
  obtain ⟨cfgN, cfgR, len, stop, fet, excl, uniq, lt, req, rnodup, rlt, cnt, live, cover, fin, nofin,
    noub, noassert, order, asked, dreq, ireq⟩ := h
  constructor <;> assumption

theorem inv_afterOnData {N R s i} (h : Core N R s) (hi : i < N)
    (hfree : ∀ f k, At s i f k → f.isRunning = false ∧ f.hasError = false ∧ k ∈ received s.log)
    (p : Pkt) : Inv N R (s.afterOnData i p) := by
  unfold St.afterOnData
  split
  · rename_i hnf
    simp only [Bool.not_eq_true'] at hnf
    split
    · exact inv_finish h hi hfree
    · exact ⟨core_threw h, fun _ h2 => by simp at h2⟩
    · rename_i n heq
      dsimp only
      rcases hloop : finalLoop n s.slots with ⟨sl, err⟩
      rcases err with _ | e
      · dsimp only
        obtain ⟨h1, h2⟩ := finalLoop_none hloop
        have hgood : ∀ j g m, At s j g m → m ≤ n → g.hasError = false := by
          intro j g m hj hm
          exact h2 g m (List.mem_of_getElem? hj) hm
        have hcf := core_final (s' := { s with lastSegmentNo := n, hasFinalBlockId := true, slots := sl })
          h hnf hgood h1 rfl
        apply inv_finish hcf hi
        intro g m hg
        obtain ⟨g', h3, rfl⟩ := (At_map (s := s) h1 i g m).1 hg
        obtain ⟨h4, h5, h6⟩ := hfree g' m h3
        refine ⟨?_, ?_, h6⟩
        · split
          · exact cancel_running _
          · exact h4
        · split
          · rw [cancel_hasError]; exact h5
          · exact h5
      · dsimp only
        have hstp := onFailure_stopping ({ s with lastSegmentNo := n, hasFinalBlockId := true, slots := sl } : St) (.segment e)
        refine inv_stopped ?_ hstp
        by_cases hs1s : s.isStopping = true
        · have := h.stop hs1s
          rw [this] at hloop
          simp [finalLoop] at hloop
        · obtain ⟨cfgN, cfgR, len, stop, fet, excl, uniq, lt, req, rnodup, rlt, cnt, live, cover, fin, nofin,
            noub, noassert, order, asked, dreq, ireq⟩ := h
          simp only [St.onFailure, hs1s, Bool.false_eq_true, if_false, St.cancel]
          constructor <;> simp only [At, List.getElem?_nil, reduceCtorEq, false_implies, implies_true] <;>
            first | assumption | skip
          intro k hk _
          exact asked k hk (by simp [hnf])
  · exact inv_finish h hi hfree

theorem not_stopping {N R s i f k} (h : Core N R s) (ha : At s i f k) : s.isStopping = false := by
  by_contra hc
  simp only [Bool.not_eq_false] at hc
  have := h.stop hc
  simp [At, this] at ha

theorem inv_handleData {N R s i f k} (h : Core N R s) (ha : At s i f k) (hr : f.isRunning = true)
    {f' : Fetcher} (hf' : DataFetcher.Inv R R f') (hr' : f'.isRunning = false)
    (he' : f'.hasError = false) (p : Pkt) (c : Bool) :
    Inv N R ({ s with slots := s.slots.set i (some (f', k)) }.handleData i k p c) := by
  have hst := not_stopping h ha
  have hi : i < N := by rw [← h.len hst]; exact At_lt ha
  unfold St.handleData
  rw [if_neg (by simp [hst])]
  have hd := core_data (s' := ({ s with
      slots := s.slots.set i (some (f', k)), nReceived := s.nReceived + 1,
      receivedSize := s.receivedSize + p.content.length, log := s.log ++ [.data k p] } : St))
    h ha hr hf' hr' he' p rfl rfl rfl rfl
  have hA := At_set (s' := ({ s with
      slots := s.slots.set i (some (f', k)), nReceived := s.nReceived + 1,
      receivedSize := s.receivedSize + p.content.length, log := s.log ++ [.data k p] } : St))
    (At_lt ha) rfl
  cases c
  · apply inv_afterOnData
    · exact hd
    · exact hi
    · intro g m hg
      rcases (hA i g m).1 hg with ⟨_, rfl, rfl⟩ | ⟨h1, _⟩
      · exact ⟨hr', he', by simp [St.onData, St.emit]⟩
      · exact absurd rfl h1
  · apply inv_afterOnData
    · exact core_cancel hd
    · exact hi
    · intro g m hg
      simp [At, St.onData, St.emit, St.cancel, hst] at hg

theorem inv_handleFail {N R s i f k} (h : Core N R s) (ha : At s i f k) (hr : f.isRunning = true)
    {f' : Fetcher} (hf' : DataFetcher.Inv R R f') (hr' : f'.isRunning = false)
    (he' : f'.hasError = true) (hst' : f'.isStopped = false) (m : FailMsg) :
    Inv N R ({ s with slots := s.slots.set i (some (f', k)) }.handleFail m i) := by
  have hst := not_stopping h ha
  have hi := At_lt ha
  unfold St.handleFail
  rw [if_neg (by simp [hst])]
  have hget : (s.slots.set i (some (f', k)))[i]? = some (some (f', k)) := by
    simp [List.getElem?_set, hi]
  simp only [hget, slotSeg]
  unfold St.handleFailSeg
  have hfailcore : ∀ (sl : List Slot) (m' : FailMsg),
      Inv N R (({ s with slots := sl } : St).onFailure m') := by
    intro sl m'
    refine inv_stopped ?_ (onFailure_stopping _ _)
    refine core_stopped h ?_ ?_ ?_ ?_ ?_ ?_ ?_ ?_ ?_ ?_ ?_ <;> simp [St.onFailure, St.cancel, hst]
  split
  · exact hfailcore _ _
  · rename_i hnf
    split
    · rename_i hf
      simp only [Bool.not_eq_true'] at hf
      obtain ⟨h1, h2⟩ := failLoop_eq k (s.slots.set i (some (f', k)))
      dsimp only
      split
      · exact hfailcore _ _
      · rename_i hall
        refine ⟨core_fail h ha hr hf hf' hr' he' hst' (s' := { s with slots := _, hasFailure := true }) h1 rfl, ?_⟩
        intro _ _ _
        rw [h2] at hall
        simp only [not_forall] at hall
        obtain ⟨g, j, hm, hj, hg⟩ := hall
        obtain ⟨q, hq⟩ := List.mem_iff_getElem?.1 hm
        refine ⟨q, g, j, ?_, by simpa using hg⟩
        unfold At
        rw [show ({ s with slots := (failLoop k (s.slots.set i (some (f', k)))).1, hasFailure := true } : St).slots
          = (s.slots.set i (some (f', k))).map (cancelAbove k) from h1]
        rw [List.getElem?_map, hq]
        have : ¬ j > k := by omega
        simp [cancelAbove, this]
    · rename_i hf
      simp only [Bool.not_eq_true', Bool.not_eq_false] at hf
      simp only [hf, true_and] at hnf
      have := (h.fin hf _ _ _ ha).1 (by omega)
      simp [hr] at this

theorem prog_of_running {s : St} {i f k} (h : At s i f k) (hr : f.isRunning = true) : Prog s :=
  fun _ _ _ => ⟨i, f, k, h, hr⟩

theorem running_flags {f : Fetcher} (h : f.isRunning = true) :
    f.isStopped = false ∧ f.hasError = false := by
  simpa [Fetcher.isRunning] using h

theorem inv_fetcherEvent {N R s i e p c} (h : Inv N R s) (he : s.slotEnabled i e)
    (hne : e ≠ .cancel) : Inv N R (s.fetcherEvent i e p c) := by
  obtain ⟨f, k, ha⟩ : ∃ f k, At s i f k := by
    unfold St.slotEnabled at he
    split at he
    · rename_i f k ha; exact ⟨f, k, ha⟩
    · exact absurd he (by simp)
  have ha0 : s.slots[i]? = some (some (f, k)) := ha
  simp only [St.slotEnabled, ha0] at he
  simp only [St.fetcherEvent, ha0]
  have hfi := h.core.fet _ _ _ ha
  by_cases hr : f.isRunning = true
  · obtain ⟨hi', heff⟩ := DataFetcher.step_running hfi hr he
    have hrf := running_flags hr
    generalize (f.step e).1 = f' at heff hi' ⊢
    generalize (f.step e).2 = o at heff ⊢
    rcases DataFetcher.eff_single heff with rfl | ⟨x, rfl⟩
    · simp only [List.foldl_nil]
      have hr' := DataFetcher.eff_silent heff hne rfl
      have hrf' := running_flags hr'
      refine ⟨core_retry h.core ha hi' (by rw [hrf'.1, hrf.1]) (by rw [hrf'.2, hrf.2])
        (s' := { s with slots := s.slots.set i (some (f', k)) }) rfl (Or.inl rfl) rfl, ?_⟩
      exact prog_of_running (i := i) (k := k)
        ((At_set (s := s) (x := (f', k)) (At_lt ha) rfl i f' k).2 (Or.inl ⟨rfl, rfl, rfl⟩)) hr'
    · simp only [List.foldl_cons, List.foldl_nil]
      cases x with
      | interest =>
        have hr' := DataFetcher.eff_interest heff (by simp)
        have hrf' := running_flags hr'
        refine ⟨core_retry h.core ha hi' (by rw [hrf'.1, hrf.1]) (by rw [hrf'.2, hrf.2])
          (s' := { s with slots := s.slots.set i (some (f', k)), log := s.log ++ [.interest k] })
          rfl (Or.inr rfl) rfl, ?_⟩
        exact prog_of_running (i := i) (k := k)
          ((At_set (s := s) (x := (f', k)) (At_lt ha) rfl i f' k).2 (Or.inl ⟨rfl, rfl, rfl⟩)) hr'
      | onData =>
        obtain ⟨_, h2, h3⟩ := DataFetcher.eff_data heff (by simp)
        exact inv_handleData h.core ha hr hi' h3 h2 p c
      | onNack m =>
        obtain ⟨h1, h2, h3⟩ := DataFetcher.eff_fail heff (m := m) (by simp)
        exact inv_handleFail h.core ha hr hi' h3 h1 h2 m
      | onTimeout m =>
        obtain ⟨h1, h2, h3⟩ := DataFetcher.eff_fail heff (m := m) (by simp)
        exact inv_handleFail h.core ha hr hi' h3 h1 h2 m
  · simp only [Bool.not_eq_true] at hr
    have hi' := DataFetcher.inv_step hfi he
    obtain ⟨h1, h2, _, _, _, _, _, _, h9, h10⟩ := DataFetcher.step_idle hfi hr he
    rw [h1, List.foldl_nil]
    generalize (f.step e).1 = f' at hi' h2 h9 h10 ⊢
    refine ⟨core_retry h.core ha hi' h9 h10
      (s' := { s with slots := s.slots.set i (some (f', k)) }) rfl (Or.inl rfl) rfl, ?_⟩
    intro q1 q2 q3
    obtain ⟨j, g, m, hj, hg⟩ := h.prog q1 q2 q3
    refine ⟨j, g, m, (At_set (s := s) (x := (f', k)) (At_lt ha) rfl j g m).2 (Or.inr ⟨?_, hj⟩), hg⟩
    rintro rfl
    have hgm : g = f ∧ m = k := by
      unfold At at hj; rw [hj] at ha0; simpa using ha0
    rw [hgm.1, hr] at hg
    simp at hg

theorem core_emit_failure {N R s m r} (h : Core N R s) :
    Core N R (({ s with posted := r } : St).emit (.failure m)) := by
  obtain ⟨cfgN, cfgR, len, stop, fet, excl, uniq, lt, req, rnodup, rlt, cnt, live, cover, fin, nofin,
    noub, noassert, order, asked, dreq, ireq⟩ := h
  constructor <;> simp only [St.emit, received_append, received_failure, List.append_nil] <;>
    try assumption
  · intro i f k hi; have := req i f k hi; simp [this]
  · intro pre k post hh
    rcases snoc_split hh with ⟨_, h2, rfl⟩ | ⟨post', rfl, h2⟩
    · simp at h2
    · exact order pre k post' h2
  · intro k h1 h2; have := asked k h1 h2; simp [this]
  · intro pre k p post hh
    rcases snoc_split hh with ⟨_, h2, rfl⟩ | ⟨post', rfl, h2⟩
    · simp at h2
    · exact dreq pre k p post' h2
  · intro k hk; exact ireq k (by simpa using hk)

theorem inv_step {N R s e} (h : Inv N R s) (he : s.enabled e) : Inv N R (s.step e) := by
  unfold St.step
  split
  · exact h
  · cases e with
    | data i p c => exact inv_fetcherEvent h he (by simp)
    | nack i r => exact inv_fetcherEvent h he (by simp)
    | timeout i => exact inv_fetcherEvent h he (by simp)
    | timer i => exact inv_fetcherEvent h he (by simp)
    | cancel => exact inv_stopped (core_cancel h.core) (cancel_stopping _)
    | posted =>
      dsimp only
      split
      · exact h
      · exact ⟨core_emit_failure h.core, h.prog⟩

theorem core_construct (N R) : Core N R (construct N R) := by
  have hA : ∀ i f k, ¬ At (construct N R) i f k := by
    intro i f k h
    simp [At, construct, List.getElem?_replicate] at h
  constructor
  · rfl
  · rfl
  · intro _; simp [construct]
  · intro h; simp [construct] at h
  · intro i f k ha; exact absurd ha (hA _ _ _)
  · intro i f k ha; exact absurd ha (hA _ _ _)
  · intro i j f g k ha; exact absurd ha (hA _ _ _)
  · intro i f k ha; exact absurd ha (hA _ _ _)
  · intro i f k ha; exact absurd ha (hA _ _ _)
  · simp [construct]
  · simp [construct]
  · simp [construct]
  · intro i f k ha; exact absurd ha (hA _ _ _)
  · intro _ k hk; simp [construct] at hk
  · intro _ i f k ha; exact absurd ha (hA _ _ _)
  · intro _ i f k ha; exact absurd ha (hA _ _ _)
  · rfl
  · rfl
  · intro pre k post hh; simp [construct] at hh
  · intro k hk; simp [construct] at hk
  · intro pre k p post hh; simp [construct] at hh
  · intro k hk; simp [construct] at hk

theorem fetchNext_other {N R s i j} (h : Core N R s) (hj : j ≠ i) (f k) :
    At (s.fetchNextSegment i).1 j f k → At s j f k := by
  unfold St.fetchNextSegment
  split
  · exact id
  · split
    · intro h1; rename_i h2 _; simp [At, St.onFailure, h2, St.cancel] at h1
    · dsimp only
      split
      · exact id
      · simp only [St.emit]
        split
        · exact id
        · intro h1
          simp only [At, List.getElem?_set] at h1
          rw [if_neg (fun h => hj h.symm)] at h1
          exact h1

theorem inv_doRunLoop {N R} (n : Nat) (s : St) (i : Nat) (hin : i + n = N) (h : Core N R s)
    (hp : n = 0 → Prog s) (hempty : ∀ j, i ≤ j → ∀ f k, ¬ At s j f k) :
    Inv N R (s.doRunLoop i n) := by
  induction n generalizing s i with
  | zero => exact ⟨h, hp rfl⟩
  | succ n ih =>
    unfold St.doRunLoop
    have hf := core_fetchNext h (i := i) (by omega) (fun f k ha => absurd ha (hempty i (Nat.le_refl i) f k))
    rcases hx : s.fetchNextSegment i with ⟨s', ok⟩
    rw [hx] at hf
    simp only at hf ⊢
    split
    · apply ih _ _ (by omega) hf.1 (fun _ => hf.2)
      intro j hj f k hc
      have := fetchNext_other h (i := i) (j := j) (by omega) f k (by rw [hx]; exact hc)
      exact hempty j (by omega) f k this
    · exact ⟨hf.1, hf.2⟩

theorem inv_start {N : Nat} {R} (hN : 0 < N) : Inv N R (start N R) := by
  refine inv_doRunLoop N _ 0 (by omega) (core_construct N R) (fun h => by omega) ?_
  intro j _ f k h
  simp [At, construct, List.getElem?_replicate] at h

theorem run_inv {N : Nat} {R es s} (hN : 0 < N) (h : (machine N R).Run es s) : Inv N R s :=
  h.invariant (P := Inv N R) (inv_start hN) (fun _ _ h he => inv_step h he)

end Verif.Fixed
