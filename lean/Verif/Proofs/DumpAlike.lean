import Verif.Proofs.DumpText
import Verif.Proofs.WiresharkText

/-! # Names that ndndump prints alike -/

namespace Verif.DumpText

open Dump Dump.Spec PingOutput

/-- The component with the shortest encoding of its number. -/
def shortComp (c : Comp) : Comp :=
  if c.type ∈ [50, 52, 54, 56, 58] ∧ c.value.length ∈ [1, 2, 4, 8] then ⟨c.type, nniEncode (beNat c.value)⟩ else c

theorem short_lt {v : Bytes} (h : v.length ∈ [1, 2, 4, 8]) : beNat v < 2 ^ 64 := by
  refine Nat.lt_of_lt_of_le (beNat_lt v) ?_
  have hl : v.length ≤ 8 := by
    simp only [List.mem_cons, List.not_mem_nil, or_false] at h
    omega
  calc 256 ^ v.length ≤ 256 ^ 8 := Nat.pow_le_pow_right (by decide) hl
    _ = 2 ^ 64 := by norm_num

theorem nni_mem (n : Nat) : (nniEncode n).length ∈ [1, 2, 4, 8] := by
  rcases Wireshark.nni_length n with h | h | h | h <;> rw [h] <;> decide

theorem shortComp_type (c : Comp) : (shortComp c).type = c.type := by
  unfold shortComp; split <;> rfl

theorem shortComp_minimal (n : Name) : Minimal (n.map shortComp) := by
  intro d hd h1 h2
  obtain ⟨c, -, rfl⟩ := List.mem_map.mp hd
  unfold shortComp at h1 h2 ⊢
  by_cases h : c.type ∈ [50, 52, 54, 56, 58] ∧ c.value.length ∈ [1, 2, 4, 8]
  · rw [if_pos h]
    dsimp only
    rw [Wireshark.beNat_nni (short_lt h.2)]
  · rw [if_neg h] at h1 h2
    exact absurd ⟨h1, h2⟩ h

theorem isNumber_iff (c : Comp) : isNumber c = true ↔ c.value.length ∈ [1, 2, 4, 8] := by
  simp [isNumber, or_assoc]

theorem shortComp_text (c : Comp) : compText (shortComp c) = compText c := by
  unfold shortComp
  by_cases h : c.type ∈ [50, 52, 54, 56, 58] ∧ c.value.length ∈ [1, 2, 4, 8]
  · rw [if_pos h]
    have k : ∃ s, numberKey c.type = some s := by
      have := h.1
      simp only [List.mem_cons, List.not_mem_nil, or_false] at this
      rcases this with h | h | h | h | h <;> rw [h] <;> exact ⟨_, rfl⟩
    have e : c.type ≠ 1 ∧ c.type ≠ 2 ∧ c.type ≠ 8 := by
      have := h.1
      simp only [List.mem_cons, List.not_mem_nil, or_false] at this
      omega
    obtain ⟨s, k⟩ := k
    unfold compText
    dsimp only
    rw [if_neg e.1, if_neg e.2.1, if_neg e.2.2, if_neg e.1, if_neg e.2.1, if_neg e.2.2, k]
    dsimp only
    rw [if_pos ((isNumber_iff _).mpr (nni_mem _)), if_pos ((isNumber_iff _).mpr h.2), Wireshark.beNat_nni (short_lt h.2)]
  · rw [if_neg h]

theorem short_text (n : Name) : nameText (n.map shortComp) = nameText n := by
  unfold nameText
  cases n with
  | nil => rfl
  | cons c n =>
    rw [if_neg (by simp), if_neg (by simp), List.flatMap_map]
    simp only [shortComp_text]

theorem shortComp_eq {c d : Comp} : shortComp c = shortComp d ↔ CompAlike c d := by
  constructor
  · intro h
    have ht : c.type = d.type := by rw [← shortComp_type c, h, shortComp_type]
    refine ⟨ht, ?_⟩
    unfold shortComp at h
    by_cases h1 : c.type ∈ [50, 52, 54, 56, 58] ∧ c.value.length ∈ [1, 2, 4, 8] <;>
      by_cases h2 : d.type ∈ [50, 52, 54, 56, 58] ∧ d.value.length ∈ [1, 2, 4, 8]
    · rw [if_pos h1, if_pos h2] at h
      have := congrArg (fun c : Comp => beNat c.value) h
      dsimp only at this
      rw [Wireshark.beNat_nni (short_lt h1.2), Wireshark.beNat_nni (short_lt h2.2)] at this
      exact .inr ⟨h1.1, h1.2, h2.2, this⟩
    · rw [if_pos h1, if_neg h2] at h
      exact absurd (by rw [← h]; exact ⟨h1.1, nni_mem _⟩) h2
    · rw [if_neg h1, if_pos h2] at h
      exact absurd (by rw [h]; exact ⟨h2.1, nni_mem _⟩) h1
    · rw [if_neg h1, if_neg h2] at h
      exact .inl (by rw [h])
  · obtain ⟨t, v⟩ := c
    obtain ⟨u, w⟩ := d
    rintro ⟨h, h' | ⟨h1, h2, h3, h4⟩⟩
    · dsimp only at h h'
      rw [h, h']
    · dsimp only at h h1 h2 h3 h4
      subst h
      unfold shortComp
      rw [if_pos ⟨h1, h2⟩, if_pos ⟨h1, h3⟩]
      dsimp only
      rw [h4]

theorem short_eq {n m : Name} : n.map shortComp = m.map shortComp ↔ NameAlike n m := by
  unfold NameAlike
  induction n generalizing m with
  | nil => cases m <;> simp
  | cons c n ih => cases m <;> simp [ih, shortComp_eq]

/-! ## Lines -/

def shortNet : Content → Content
  | .interest n t => .interest (n.map shortComp) t
  | .nack r n t => .nack r (n.map shortComp) t
  | .data n => .data (n.map shortComp)
  | c => c

def shortPayload : Payload → Payload
  | .bare c => .bare (shortNet c)
  | .lp c => .lp (shortNet c)
  | k => k

def shortInfo (i : Info) : Info := ⟨i.time, i.encap, shortPayload i.payload⟩

theorem shortNet_words (c : Content) : netWords (shortNet c) = netWords c := by
  cases c <;> simp only [shortNet, netWords, short_text]

theorem shortInfo_words (i : Info) (n : Nat) : infoWords (shortInfo i) n = infoWords i n := by
  obtain ⟨t, e, k⟩ := i
  have : payloadWords (shortPayload k) = payloadWords k := by
    cases k <;> simp only [shortPayload, payloadWords, shortNet_words]
  simp only [infoWords, shortInfo, this]

theorem shortNet_ok {N : Name → Prop} {c : Content} (h : IsNet N c) : IsNet Minimal (shortNet c) := by
  cases c with
  | interest n t => exact ⟨shortComp_minimal n, h.2⟩
  | nack r n t => exact ⟨shortComp_minimal n, h.2⟩
  | data n => exact shortComp_minimal n
  | _ => exact h.elim

theorem shortInfo_ok {N : Name → Prop} {b : Bool} {i : Info} (h : InfoOk N b i) : InfoOk Minimal b (shortInfo i) := by
  obtain ⟨t, e, k⟩ := i
  refine ⟨h.1, ?_, h.2.2⟩
  have hu := h.2.1
  cases k with
  | bare c => exact shortNet_ok (c := c) hu
  | lp c => exact shortNet_ok (c := c) hu
  | _ => exact hu.elim

theorem shortNet_alike {N : Name → Prop} {c d : Content} (hc : IsNet N c) (hd : IsNet N d) (h : shortNet c = shortNet d) :
    NetAlike c d := by
  cases c with
  | interest n t =>
    cases d with
    | interest m u =>
      obtain ⟨h1, rfl⟩ := Content.interest.inj h
      exact .interest _ _ _ (short_eq.mp h1)
    | nack => cases h
    | data => cases h
    | _ => exact hd.elim
  | nack r n t =>
    cases d with
    | nack q m u =>
      obtain ⟨rfl, h1, rfl⟩ := Content.nack.inj h
      exact .nack _ _ _ _ (short_eq.mp h1)
    | interest => cases h
    | data => cases h
    | _ => exact hd.elim
  | data n =>
    cases d with
    | data m => exact .data _ _ (short_eq.mp (Content.data.inj h))
    | interest => cases h
    | nack => cases h
    | _ => exact hd.elim
  | _ => exact hc.elim

theorem shortInfo_alike {N : Name → Prop} {b : Bool} {i j : Info} (hi : InfoOk N b i) (hj : InfoOk N b j)
    (h : shortInfo i = shortInfo j) : InfoAlike i j := by
  obtain ⟨t, e, k⟩ := i
  obtain ⟨u, f, l⟩ := j
  obtain ⟨rfl, rfl, h⟩ := Info.mk.inj h
  refine ⟨rfl, rfl, ?_⟩
  have hk := hi.2.1
  have hl := hj.2.1
  dsimp only at h hk hl ⊢
  cases k with
  | bare c =>
    cases l with
    | bare d => exact .bare _ _ (shortNet_alike hk hl (Payload.bare.inj h))
    | lp d => cases h
    | _ => exact hl.elim
  | lp c =>
    cases l with
    | lp d => exact .lp _ _ (shortNet_alike hk hl (Payload.lp.inj h))
    | bare d => cases h
    | _ => exact hl.elim
  | _ => exact hk.elim

theorem short_zip (is : List Info) (ns : List Nat) :
    (((is.map shortInfo).zip ns).map fun x => infoWords x.1 x.2) = ((is.zip ns).map fun x => infoWords x.1 x.2) := by
  induction is generalizing ns with
  | nil => rfl
  | cons i is ih =>
    cases ns with
    | nil => rfl
    | cons n ns => simp only [List.map_cons, List.zip_cons_cons, ih, shortInfo_words]

theorem short_infos {N : Name → Prop} {b : Bool} : ∀ {is js : List Info}, (∀ i ∈ is, InfoOk N b i) → (∀ i ∈ js, InfoOk N b i) →
    is.map shortInfo = js.map shortInfo → List.Forall₂ InfoAlike is js := by
  intro is
  induction is with
  | nil =>
    intro js _ _ h
    cases js with
    | nil => exact .nil
    | cons => cases h
  | cons i is ih =>
    intro js hi hj h
    cases js with
    | nil => cases h
    | cons j js =>
      rw [List.map_cons, List.map_cons] at h
      obtain ⟨h1, h2⟩ := List.cons.inj h
      exact .cons (shortInfo_alike (hi i (by simp)) (hj j (by simp)) h1)
        (ih (fun x hx => hi x (List.mem_cons_of_mem _ hx)) (fun x hx => hj x (List.mem_cons_of_mem _ hx)) h2)

theorem infos_alike {N : Name → Prop} {b : Bool} {is js : List Info} {ns ms : List Nat} (h1 : ns.length = is.length)
    (h2 : ms.length = js.length) (h3 : ∀ i ∈ is, InfoOk N b i) (h4 : ∀ i ∈ js, InfoOk N b i)
    (e : ((is.zip ns).map fun x => infoWords x.1 x.2) = ((js.zip ms).map fun x => infoWords x.1 x.2)) :
    List.Forall₂ InfoAlike is js := by
  refine short_infos h3 h4 (infos_inj (b := b) (ns := ns) (ns' := ms) (by simpa using h1) (by simpa using h2) ?_ ?_ ?_)
  · intro i hi
    obtain ⟨j, hj, rfl⟩ := List.mem_map.mp hi
    exact shortInfo_ok (h3 j hj)
  · intro i hi
    obtain ⟨j, hj, rfl⟩ := List.mem_map.mp hi
    exact shortInfo_ok (h4 j hj)
  · rw [short_zip, short_zip, e]

end Verif.DumpText
