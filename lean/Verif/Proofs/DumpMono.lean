import Verif.Proofs.DumpLink

/-! # Lemmas about ndndump: more captured bytes change nothing but undefined behaviour -/

namespace Verif.Dump

/-- The first is undefined behaviour, or both are the same. -/
def Le {α : Type} (a b : Res α) : Prop := a = .error .ub ∨ a = b

theorem Le.refl {α : Type} (a : Res α) : Le a a := .inr rfl

theorem Le.bind {α β : Type} {a b : Res α} {g g' : α → Res β} (h : Le a b) (hg : ∀ v, Le (g v) (g' v)) :
    Le (a >>= g) (b >>= g') := by
  rcases h with rfl | rfl
  · exact .inl rfl
  · cases a with
    | error e => exact .inr rfl
    | ok v => exact hg v

theorem Le.ite {α : Type} {p : Prop} [Decidable p] {a b a' b' : Res α} (h : Le a a') (h' : Le b b') :
    Le (if p then a else b) (if p then a' else b') := by
  split
  · exact h
  · exact h'

variable (mem x : Bytes)

theorem rd_mono (i : Nat) : Le (rd mem i) (rd (mem ++ x) i) := by
  unfold rd
  by_cases h : i < mem.length
  · rw [List.getElem?_append_left h]; exact .inr rfl
  · rw [List.getElem?_eq_none (by omega)]; exact .inl rfl

theorem rdBytes_mono (i n : Nat) : Le (rdBytes mem i n) (rdBytes (mem ++ x) i n) := by
  induction n generalizing i with
  | zero => exact .refl _
  | succ n ih =>
    simp only [rdBytes]
    exact (rd_mono mem x i).bind fun b => (ih (i + 1)).bind fun r => .refl _

theorem rd16_mono (i : Nat) : Le (rd16 mem i) (rd16 (mem ++ x) i) :=
  (rdBytes_mono mem x i 2).bind fun _ => .refl _

theorem memVarNumber_mono (i n : Nat) : Le (memVarNumber mem i n) (memVarNumber (mem ++ x) i n) := by
  unfold memVarNumber
  exact .ite (.refl _) ((rd_mono mem x i).bind fun b => .ite (.refl _)
    (.ite (.refl _) ((rdBytes_mono mem x _ _).bind fun _ => .refl _)))

theorem memBlock_mono (i n : Nat) : Le (memBlock mem i n) (memBlock (mem ++ x) i n) := by
  unfold memBlock
  refine (memVarNumber_mono mem x i n).bind fun v => ?_
  cases v with
  | none => exact .refl _
  | some v =>
    obtain ⟨t, off, len⟩ := v
    refine .ite (.refl _) ((memVarNumber_mono mem x off len).bind fun v => ?_)
    cases v with
    | none => exact .refl _
    | some v =>
      obtain ⟨t, off, len⟩ := v
      exact .ite (.refl _) ((rdBytes_mono mem x _ _).bind fun _ => .refl _)

variable (c : Cfg) (f : Fmt)

theorem printNdn_mono (f : Fmt) (i n : Nat) : Le (printNdn c mem f i n) (printNdn c (mem ++ x) f i n) := by
  unfold printNdn
  refine .ite (.refl _) ((memBlock_mono mem x i n).bind fun v => ?_)
  cases v <;> exact .refl _

theorem printUdp_mono (f : Fmt) (i n : Nat) : Le (printUdp c mem f i n) (printUdp c (mem ++ x) f i n) := by
  unfold printUdp
  exact .ite (.refl _) ((rd16_mono mem x _).bind fun _ => .ite (.refl _) (.ite (.refl _) (printNdn_mono mem x c _ _ _)))

theorem printTcp_mono (f : Fmt) (i n : Nat) : Le (printTcp c mem f i n) (printTcp c (mem ++ x) f i n) := by
  unfold printTcp
  exact .ite (.refl _) ((rd_mono mem x _).bind fun _ => .ite (.refl _) (.ite (.refl _) (printNdn_mono mem x c _ _ _)))

theorem dispatchByIpProto_mono (f : Fmt) (i n p : Nat) :
    Le (dispatchByIpProto c mem f i n p) (dispatchByIpProto c (mem ++ x) f i n p) := by
  unfold dispatchByIpProto
  exact .ite (.refl _) (.ite (printTcp_mono mem x c _ _ _) (.ite (printUdp_mono mem x c _ _ _) (.refl _)))

theorem printIp4_mono (f : Fmt) (i n : Nat) : Le (printIp4 c mem f i n) (printIp4 c (mem ++ x) f i n) := by
  unfold printIp4
  exact .ite (.refl _) ((rd_mono mem x _).bind fun _ => .ite (.refl _) (.ite (.refl _)
    ((rd16_mono mem x _).bind fun _ => .ite (.refl _) (.ite (.refl _)
      ((rdBytes_mono mem x _ _).bind fun _ => (rdBytes_mono mem x _ _).bind fun _ =>
        (rd_mono mem x _).bind fun _ => dispatchByIpProto_mono mem x c _ _ _ _)))))

theorem printIp6_mono (f : Fmt) (i n : Nat) : Le (printIp6 c mem f i n) (printIp6 c (mem ++ x) f i n) := by
  unfold printIp6
  exact .ite (.refl _) ((rd_mono mem x _).bind fun _ => .ite (.refl _)
    ((rd16_mono mem x _).bind fun _ => .ite (.refl _)
      ((rdBytes_mono mem x _ _).bind fun _ => (rdBytes_mono mem x _ _).bind fun _ =>
        (rd_mono mem x _).bind fun _ => dispatchByIpProto_mono mem x c _ _ _ _)))

theorem dispatchByEtherType_mono (f : Fmt) (i n t : Nat) :
    Le (dispatchByEtherType c mem f i n t) (dispatchByEtherType c (mem ++ x) f i n t) := by
  unfold dispatchByEtherType
  exact .ite (printIp4_mono mem x c _ _ _) (.ite (printIp6_mono mem x c _ _ _)
    (.ite (printNdn_mono mem x c _ _ _) (.refl _)))

theorem printPppBody_mono (f : Fmt) (i n p : Nat) :
    Le (printPppBody c mem f i n p) (printPppBody c (mem ++ x) f i n p) := by
  unfold printPppBody
  exact .ite (.ite (.refl _) (printNdn_mono mem x c _ _ _)) (.refl _)

theorem printPppProto_mono (f : Fmt) (i n : Nat) :
    Le (printPppProto c mem f i n) (printPppProto c (mem ++ x) f i n) := by
  unfold printPppProto
  exact (rd_mono mem x _).bind fun _ => .ite (printPppBody_mono mem x c _ _ _ _)
    ((rd_mono mem x _).bind fun _ => printPppBody_mono mem x c _ _ _ _)

theorem isHdlc_mono : Le (isHdlc mem) (isHdlc (mem ++ x)) := by
  unfold isHdlc
  exact (rd_mono mem x _).bind fun _ => .ite ((rd_mono mem x _).bind fun _ => .refl _) (.refl _)

theorem printLink_mono (n : Nat) : Le (printLink c mem n) (printLink c (mem ++ x) n) := by
  unfold printLink
  cases c.link with
  | ether =>
    simp only [printEther]
    exact .ite (.refl _) ((rd16_mono mem x _).bind fun _ => dispatchByEtherType_mono mem x c _ _ _ _)
  | sll =>
    simp only [printLinuxSll]
    exact .ite (.refl _) ((rd16_mono mem x _).bind fun _ => dispatchByEtherType_mono mem x c _ _ _ _)
  | ppp =>
    simp only [printPpp]
    exact .ite (.refl _) ((isHdlc_mono mem x).bind fun _ =>
      .ite (.ite (.refl _) (printPppProto_mono mem x c _ _ _)) (printPppProto_mono mem x c _ _ _))

end Verif.Dump
