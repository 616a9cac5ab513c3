import Verif.Spec.PutVersion
import Verif.Proofs.Uri
import Verif.Props.Cli

/-! # The version that ndnputchunks is given: C114 -/

namespace Verif.PutVersion

open Cli Cli.Spec Uri

private theorem nni_some (v : Bytes) : (nniDecode v).isSome = true ↔ v.length ∈ [1, 2, 4, 8] := by
  unfold nniDecode
  split
  · rename_i h
    simpa using h
  · rename_i h
    simpa using h

private theorem good_iff (c : Comp) : c.isVersion = true ↔ GoodVersion c := by
  obtain ⟨t, v⟩ := c
  unfold Comp.isVersion Comp.toVersion Comp.decode GoodVersion ttGeneric ttVersion versionMarker
  dsimp only
  constructor
  · intro h
    by_cases h8 : t = 8
    · rw [if_pos h8] at h
      cases v with
      | nil => cases h
      | cons m r =>
        dsimp only at h
        by_cases hm : m = 0xFD
        · rw [if_pos hm, nni_some] at h
          exact ⟨r, h, .inr (by rw [h8, hm])⟩
        · rw [if_neg hm] at h
          cases h
    · rw [if_neg h8] at h
      by_cases h54 : t = 54
      · rw [if_pos h54, nni_some] at h
        exact ⟨v, h, .inl (by rw [h54])⟩
      · rw [if_neg h54] at h
        cases h
  · rintro ⟨w, hw, h | h⟩
    · cases h
      exact (nni_some v).mpr hw
    · cases h
      exact (nni_some w).mpr hw

private theorem ends_iff (p : Name) (c : Comp) : Name.endsWithVersion (p ++ [c]) = true ↔ GoodVersion c := by
  rw [← good_iff]
  unfold Name.endsWithVersion
  rw [List.getLast?_concat]

/-- C114: a version at the end of the prefix is used. -/
theorem C114_given (o : Producer.Opts) (p : Name) (c : Comp) (hc : GoodVersion c) (now : Nat) (input : Bytes) :
    (Producer.construct o (p ++ [c]) now input).versionedPrefix = p ++ [c] ∧
    (Producer.construct o (p ++ [c]) now input).pre = p := by
  unfold Producer.construct
  dsimp only
  rw [if_pos ((ends_iff p c).mpr hc), if_pos ((ends_iff p c).mpr hc), List.dropLast_concat]
  exact ⟨rfl, rfl⟩

/-- C114: if there is none, one is generated and appended. -/
theorem C114_generated (o : Producer.Opts) (n : Name) (hn : ∀ p c, n = p ++ [c] → ¬ GoodVersion c) (now : Nat) (input : Bytes) :
    (Producer.construct o n now input).versionedPrefix = n ++ [.fromVersion o.conv now] ∧
    (Producer.construct o n now input).pre = n ∧ (now < 2 ^ 64 → GoodVersion (.fromVersion o.conv now)) := by
  have h : ¬ n.endsWithVersion = true := by
    induction n using List.reverseRecOn with
    | nil => decide
    | append_singleton p c _ => exact fun h => hn p c rfl ((ends_iff p c).mp h)
  unfold Producer.construct
  dsimp only
  rw [if_neg h, if_neg h]
  refine ⟨rfl, rfl, fun hlt => (good_iff _).mp ?_⟩
  have := nniDecode_nniEncode hlt
  cases o.conv <;>
    simp [Comp.isVersion, Comp.toVersion, Comp.fromVersion, Comp.encode, Comp.decode, ttGeneric, ttVersion, this]

example : GoodVersion ⟨54, [0, 7]⟩ ∧ GoodVersion ⟨8, [0xFD, 7]⟩ ∧ ¬ GoodVersion ⟨54, [0, 0, 7]⟩ ∧ ¬ GoodVersion ⟨8, [7]⟩ := by
  simp only [← good_iff]
  decide +kernel

/-- A text after the last slash that is no component. -/
private theorem none_append {a w : Bytes} (ha : a.getLast? ≠ some 47) (hw : w ≠ []) (hs : 47 ∉ w)
    (hc : parseComp w = none) : parseName (a ++ 47 :: w) = none := by
  have hone : ([w].mapM parseComp) = none := by simp [hc]
  have h1 := getLast_suffix (dropScheme_suffix a) ha
  have h2 := getLast_suffix (dropStart_suffix (dropScheme a)) h1
  unfold parseName
  rw [dropScheme_append, dropStart_append h1 hw hs]
  split
  · rw [pieces_one hw hs, hone]
  · rename_i h0
    rw [pieces_append h0 h2 hw hs, mapM_append, hone]
    cases (pieces (dropStart (dropScheme a))).mapM parseComp <;> rfl

/-- C114, in part: a prefix that ends with `/v=` and something else than a number below 2^64, as `std::to_string` writes it, is
refused: ndnputchunks ends with status 1 or 2. -/
theorem C114_refused_partial (lib : Lib) (hlib : ∀ s, lib.name s = parseName (utf8 s)) (a : PutArgs) (hh : a.help = false)
    (hv : a.version = false) (p w : Bytes) (hp : p.getLast? ≠ some 47) (hw : 47 ∉ w)
    (hn : ∀ n, n < 2 ^ 64 → w ≠ decimal n) (ha : utf8 a.pre = p ++ text "/v=" ++ w) :
    ∃ s, putchunks lib (some a) = .exit s ∧ s ≠ 0 := by
  have hc : parseComp (118 :: 61 :: w) = none := by
    have h1 := parts (k := [118]) (v := w) (by decide)
    unfold parseComp
    rw [show (118 :: 61 :: w : Bytes) = [118] ++ 61 :: w from rfl, if_pos h1.1, h1.2.1, h1.2.2]
    dsimp only
    rw [parseNumber_none (by decide)]
    dsimp only
    rw [show typeOfKey [118] = some 54 by decide +kernel]
    dsimp only
    rw [if_neg (by decide)]
    unfold parseNumber
    dsimp only
    rw [if_neg]
    · rfl
    · rintro ⟨h2, h3⟩
      exact hn _ h2 h3.symm
  have e : lib.name a.pre = none := by
    rw [hlib, ha, show text "/v=" = [47, 118, 61] by decide +kernel, List.append_assoc]
    exact none_append hp (by simp) (by simpa using hw) hc
  obtain ⟨s, h1, h2, -⟩ := (C44_putchunks lib a).rejects (by simp [hh, hv]) (fun ok => by
    have := ok.name.1
    rw [e] at this
    cases this)
  exact ⟨s, h1, h2⟩

example : utf8 "/a/v=12x" = text "/a" ++ text "/v=" ++ text "12x" ∧ ∀ n, n < 2 ^ 64 → text "12x" ≠ decimal n := by
  refine ⟨by decide +kernel, fun n _ h => ?_⟩
  have hx : (decimal n).all isDigit = true := decimal_isDigit n
  rw [← h] at hx
  revert hx
  decide +kernel

/-- C114 is false: with a component of the type for versions that is not a version, ndnputchunks does not end with an error, but
publishes under a generated version behind this component. -/
theorem C114_refuted (lib : Lib) (a : PutArgs) (hh : a.help = false) (hv : a.version = false) (ok : PutOk lib a) (p : Name) (c : Comp)
    (hc : BadVersion c) (ha : lib.name a.pre = some (p ++ [c])) :
    ∃ o, putchunks lib (some a) = .run (p ++ [c], o) ∧ ∀ now input,
      (Producer.construct o (p ++ [c]) now input).versionedPrefix = p ++ [c, .fromVersion o.conv now] := by
  have hb : ¬ GoodVersion c := by
    rintro ⟨v, hv, rfl | rfl⟩
    · exact hc.2 hv
    · exact absurd hc.1 (show ¬ 8 = 54 by decide)
  obtain ⟨⟨n, o⟩, h1, h2⟩ := (C44_putchunks lib a).runs (by simp [hh, hv]) ok
  have e : n = p ++ [c] := by
    have := h2.name
    rw [ha] at this
    exact (Option.some.inj this).symm
  subst e
  refine ⟨o, h1, fun now input => ?_⟩
  rw [(C114_generated o (p ++ [c]) ?_ now input).1, List.append_assoc]
  · rfl
  · intro q d hq
    obtain ⟨-, h⟩ := List.append_inj' hq rfl
    cases h
    exact hb

example : parseName (utf8 "/a/54=abc") = some ([⟨8, [97]⟩] ++ [⟨54, text "abc"⟩]) ∧ BadVersion ⟨54, text "abc"⟩ :=
  ⟨by decide +kernel, rfl, by decide +kernel⟩

/-- The command line `ndnputchunks /a/54=abc`. -/
example : PutOk ⟨fun s => parseName (utf8 s), fun _ => true, fun _ => none, fun _ => none, fun _ => false, fun _ => false,
    fun _ => false⟩ { pre := "/a/54=abc" } where
  name := ⟨by decide +kernel, by decide⟩
  convention := ⟨.typed, .inr ⟨rfl, by decide⟩⟩
  freshness := by decide
  size := by decide
  signing := rfl
  output := by decide

end Verif.PutVersion
