import Verif.Proofs.DumpPacket
import Verif.Proofs.DumpMono

/-! # Lemmas about ndndump: packets that were not captured entirely -/

namespace Verif.Dump

open Spec

/-- Both are undefined behaviour or none is. -/
def Same {α : Type} (a b : Res α) : Prop := a = .error .ub ↔ b = .error .ub

theorem Same.bind {α β : Type} (a : Res α) {g g' : α → Res β} (hg : ∀ v, Same (g v) (g' v)) : Same (a >>= g) (a >>= g') := by
  cases a with
  | error e => exact Iff.rfl
  | ok v => exact hg v

theorem Same.ite {α : Type} {p : Prop} [Decidable p] {a b a' b' : Res α} (h : Same a a') (h' : Same b b') :
    Same (if p then a else b) (if p then a' else b') := by
  split
  · exact h
  · exact h'

theorem Same.ok {α : Type} (v w : α) : Same (.ok v : Res α) (.ok w) :=
  ⟨fun h => (by cases h), fun h => (by cases h)⟩

theorem printBlock_ub (c : Cfg) (f : Fmt) (b : Block) : printBlock c f b ≠ .error .ub := by
  unfold printBlock
  repeat' split
  all_goals (intro h; cases h)

variable (c d : Cfg) (mem : Bytes)

theorem printNdn_same (f : Fmt) (i n : Nat) : Same (printNdn c mem f i n) (printNdn d mem f i n) := by
  unfold printNdn
  refine .ite (.ok _ _) (.bind _ fun v => ?_)
  cases v with
  | none => exact .ok _ _
  | some b => exact ⟨fun h => absurd h (printBlock_ub _ _ _), fun h => absurd h (printBlock_ub _ _ _)⟩

theorem printUdp_same (f : Fmt) (i n : Nat) : Same (printUdp c mem f i n) (printUdp d mem f i n) := by
  unfold printUdp
  exact .ite (.ok _ _) (.bind _ fun _ => .ite (.ok _ _) (.ite (.ok _ _) (printNdn_same c d mem _ _ _)))

theorem printTcp_same (f : Fmt) (i n : Nat) : Same (printTcp c mem f i n) (printTcp d mem f i n) := by
  unfold printTcp
  exact .ite (.ok _ _) (.bind _ fun _ => .ite (.ok _ _) (.ite (.ok _ _) (printNdn_same c d mem _ _ _)))

theorem dispatchByIpProto_same (f : Fmt) (i n p : Nat) : Same (dispatchByIpProto c mem f i n p) (dispatchByIpProto d mem f i n p) := by
  unfold dispatchByIpProto
  exact .ite (.ok _ _) (.ite (printTcp_same c d mem _ _ _) (.ite (printUdp_same c d mem _ _ _) (.ok _ _)))

theorem printIp4_same (f : Fmt) (i n : Nat) : Same (printIp4 c mem f i n) (printIp4 d mem f i n) := by
  unfold printIp4
  exact .ite (.ok _ _) (.bind _ fun _ => .ite (.ok _ _) (.ite (.ok _ _) (.bind _ fun _ => .ite (.ok _ _) (.ite (.ok _ _)
    (.bind _ fun _ => .bind _ fun _ => .bind _ fun _ => dispatchByIpProto_same c d mem _ _ _ _)))))

theorem printIp6_same (f : Fmt) (i n : Nat) : Same (printIp6 c mem f i n) (printIp6 d mem f i n) := by
  unfold printIp6
  exact .ite (.ok _ _) (.bind _ fun _ => .ite (.ok _ _) (.bind _ fun _ => .ite (.ok _ _)
    (.bind _ fun _ => .bind _ fun _ => .bind _ fun _ => dispatchByIpProto_same c d mem _ _ _ _)))

theorem dispatchByEtherType_same (f : Fmt) (i n t : Nat) :
    Same (dispatchByEtherType c mem f i n t) (dispatchByEtherType d mem f i n t) := by
  unfold dispatchByEtherType
  exact .ite (printIp4_same c d mem _ _ _) (.ite (printIp6_same c d mem _ _ _) (.ite (printNdn_same c d mem _ _ _) (.ok _ _)))

theorem printPppBody_same (f : Fmt) (i n p : Nat) : Same (printPppBody c mem f i n p) (printPppBody d mem f i n p) := by
  unfold printPppBody
  exact .ite (.ite (.ok _ _) (printNdn_same c d mem _ _ _)) (.ok _ _)

theorem printPppProto_same (f : Fmt) (i n : Nat) : Same (printPppProto c mem f i n) (printPppProto d mem f i n) := by
  unfold printPppProto
  exact .bind _ fun _ => .ite (printPppBody_same c d mem _ _ _ _) (.bind _ fun _ => printPppBody_same c d mem _ _ _ _)

/-- Whether bytes outside are read depends on the link type only, not on what is made of the NDN packet. -/
theorem printLink_same (h : c.link = d.link) (n : Nat) : Same (printLink c mem n) (printLink d mem n) := by
  unfold printLink
  rw [h]
  cases d.link with
  | ether =>
    simp only [printEther]
    exact .ite (.ok _ _) (.bind _ fun _ => dispatchByEtherType_same c d mem _ _ _ _)
  | sll =>
    simp only [printLinuxSll]
    exact .ite (.ok _ _) (.bind _ fun _ => dispatchByEtherType_same c d mem _ _ _ _)
  | ppp =>
    simp only [printPpp]
    exact .ite (.ok _ _) (.bind _ fun _ => .ite (.ite (.ok _ _) (printPppProto_same c d mem _ _ _)) (printPppProto_same c d mem _ _ _))

/-- The payload of a frame can be exchanged for another one of the same length. -/
theorem frame_replace {P : Prop} {link : Link} {e : Encap} {payload rest frame : Bytes} (h : IsFrame P link e payload rest frame) :
    ∃ hd, frame = hd ++ payload ++ rest ∧
      ∀ payload', payload'.length = payload.length → IsFrame P link e payload' rest (hd ++ payload' ++ rest) := by
  cases h with
  | direct _ t h _ _ ht hh => exact ⟨h, rfl, fun p' _ => .direct link t h p' rest ht hh⟩
  | ppp h _ _ hh => exact ⟨h, rfl, fun p' _ => .ppp h p' rest hh⟩
  | ip _ v t lh ih th src dst _ _ fo h1 h2 h3 h4 h5 =>
    exact ⟨lh ++ ih ++ th, rfl, fun p' hp => .ip link v t lh ih th src dst p' rest fo h1 h2 (hp ▸ h3) (hp ▸ h4) (fun x => hp ▸ h5 x)⟩

/-- Decoders that complain, and tell whether the value of the element is `v`. -/
def tells (v : Bytes) : Decoders where
  lp b := .error (if b.value = v then "a" else "b")
  interest b := .error (if b.value = v then "a" else "b")
  data b := .error (if b.value = v then "a" else "b")

theorem printBlock_tells {link : Link} {T : List Tok} {t : Nat} {v w : Bytes} (ht : t = 5 ∨ t = 6 ∨ t = 100) (h : w ≠ v) :
    printBlock { link, dec := tells v } ⟨T, false, true⟩ ⟨t, v⟩ ≠ printBlock { link, dec := tells v } ⟨T, false, true⟩ ⟨t, w⟩ := by
  rcases ht with rfl | rfl | rfl <;>
    simp [printBlock, printNet, tells, h, Fmt.puts, Fmt.put, Fmt.addDelimiter]

theorem ndnOut_element {c : Cfg} {T : List Tok} {t : Nat} {v el r : Bytes} (h : IsElement t v el) :
    ndnOut c T (el ++ r) = printBlock c ⟨T, false, true⟩ ⟨t, v⟩ := by
  have h1 : fromBuffer (el ++ r) = some ⟨t, v⟩ := (fromBuffer_iff _ _).mpr ⟨el, r, rfl, h⟩
  unfold ndnOut
  rw [if_neg, h1]
  intro hc
  rw [hc] at h1
  cases h1

/-- Of a frame with a complete element of the three types the bytes up to the end of the element are read. -/
theorem cut_ub {P : Prop} {c : Cfg} {e : Encap} {t : Nat} {v el more rest frame : Bytes}
    (h : IsFrame P c.link e (el ++ more) rest frame) (hel : IsElement t v el) (ht : t = 5 ∨ t = 6 ∨ t = 100) (hv : v ≠ [])
    (hlt : frame.length < 2 ^ 64) {k : Nat} (hk : k + rest.length + more.length < frame.length) :
    printLink c (frame.take k) frame.length = .error .ub := by
  by_contra hub
  obtain ⟨v0, b, rfl⟩ : ∃ v0 b, v = v0 ++ [b] := ⟨v.dropLast, v.getLast hv, (List.dropLast_concat_getLast hv).symm⟩
  obtain ⟨g1, g2, x, l, gx, gl, rfl⟩ := hel
  have hel : IsElement t (v0 ++ [b]) (x ++ l ++ (v0 ++ [b])) := ⟨g1, g2, x, l, gx, gl, rfl⟩
  have hel' : IsElement t (v0 ++ [b + 1]) (x ++ l ++ (v0 ++ [b + 1])) := ⟨g1, g2, x, l, gx, by simpa using gl, rfl⟩
  obtain ⟨hd, rfl, hrep⟩ := frame_replace h
  have h' := hrep (x ++ l ++ (v0 ++ [b + 1]) ++ more) (by simp)
  have e1 : (hd ++ (x ++ l ++ (v0 ++ [b]) ++ more) ++ rest) = (hd ++ x ++ l ++ v0) ++ ([b] ++ more ++ rest) := by simp
  have e2 : (hd ++ (x ++ l ++ (v0 ++ [b + 1]) ++ more) ++ rest) = (hd ++ x ++ l ++ v0) ++ ([b + 1] ++ more ++ rest) := by simp
  have hkk : k ≤ (hd ++ x ++ l ++ v0).length := by simp at hk ⊢; omega
  have hlen : (hd ++ (x ++ l ++ (v0 ++ [b + 1]) ++ more) ++ rest).length = (hd ++ (x ++ l ++ (v0 ++ [b]) ++ more) ++ rest).length := by simp
  have t1 : (hd ++ (x ++ l ++ (v0 ++ [b + 1]) ++ more) ++ rest).take k = (hd ++ (x ++ l ++ (v0 ++ [b]) ++ more) ++ rest).take k := by
    rw [e1, e2, List.take_append_of_le_length hkk, List.take_append_of_le_length hkk]
  generalize hf : (hd ++ (x ++ l ++ (v0 ++ [b]) ++ more) ++ rest) = frame at *
  generalize hf' : (hd ++ (x ++ l ++ (v0 ++ [b + 1]) ++ more) ++ rest) = frame' at *
  let d : Cfg := { link := c.link, dec := tells (v0 ++ [b]) }
  have hd' : printLink d (frame.take k) frame.length ≠ .error .ub := fun hc => hub ((printLink_same c d _ rfl _).mpr hc)
  have m1 := (printLink_mono (frame.take k) (frame.drop k) d frame.length).resolve_left hd'
  have m2 := (printLink_mono (frame.take k) (frame'.drop k) d frame.length).resolve_left hd'
  rw [List.take_append_drop] at m1
  rw [← t1, List.take_append_drop, ← hlen] at m2
  rw [t1, hlen, m1, ← hlen] at m2
  rw [hlen] at m2
  have p1 := printLink_frame (c := d) h hlt
  have p2 := printLink_frame (c := d) h' (hlen ▸ hlt)
  rw [hlen] at p2
  rw [p1, p2] at m2
  have hs : ∀ z : Bytes, ∃ r, seen e (z ++ more) rest = z ++ r ∧ r.length = (seen e more rest).length := by
    intro z
    unfold seen
    split
    · exact ⟨more, rfl, rfl⟩
    · exact ⟨more ++ rest, by simp, rfl⟩
  obtain ⟨r, q1, r1⟩ := hs (x ++ l ++ (v0 ++ [b]))
  obtain ⟨r', q2, r2⟩ := hs (x ++ l ++ (v0 ++ [b + 1]))
  rw [q1, q2, ndnOut_element hel, ndnOut_element hel'] at m2
  have hT : (x ++ l ++ (v0 ++ [b + 1]) ++ r').length = (x ++ l ++ (v0 ++ [b]) ++ r).length := by
    simp [r1, r2]
  rw [hT] at m2
  exact printBlock_tells ht (by simp) m2

end Verif.Dump
