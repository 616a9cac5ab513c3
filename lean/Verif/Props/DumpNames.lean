import Verif.Spec.DumpNames
import Verif.Props.DumpText
import Verif.Props.Uri
import Verif.Model.Cli

/-! # Names that ndndump shows can be given to ndnpeek: C112 -/

namespace Verif.DumpText

open Dump Dump.Spec PingOutput

private theorem free63 (n : Name) : ∀ b ∈ nameText n, (b != 63) = true := by
  have : (nameText n).all (fun b => okChar b || b == 47) = true := by
    unfold nameText
    split
    · decide +kernel
    · rw [List.all_eq_true]
      intro x hx
      obtain ⟨c, -, hc⟩ := List.mem_flatMap.mp hx
      rcases List.mem_cons.mp hc with rfl | hc
      · decide
      · rw [List.all_eq_true.mp (compText_all c) x hc]; rfl
  intro b hb
  have h := List.all_eq_true.mp this b hb
  simp only [bne_iff_ne, ne_eq]
  rintro rfl
  revert h
  decide

private theorem upto {n : Name} {r : Bytes} (h : r = [] ∨ r.head? = some 63) :
    (nameText n ++ r).takeWhile (· != 63) = nameText n := by
  rw [List.takeWhile_append_of_pos (free63 n)]
  rcases h with rfl | h
  · simp
  · cases r with
    | nil => cases h
    | cons b r =>
      cases h
      simp

private theorem payload_last {N : Name → Prop} {k : Payload} (h : Understood N k) : ∃ n, k.name? = some n ∧ N n ∧
    ∀ pre, (((pre ++ payloadWords k).getLast?).getD []).takeWhile (· != 63) = nameText n := by
  have net : ∀ {c : Content}, IsNet N c → ∃ n, c.name? = some n ∧ N n ∧ ∃ ws w, netWords c = ws ++ [w] ∧
      w.takeWhile (· != 63) = nameText n := by
    intro c hc
    cases c with
    | interest n t => exact ⟨n, rfl, hc.1, [_], _, rfl, upto (text_head hc.2)⟩
    | nack r n t => exact ⟨n, rfl, hc.1, [_, _], _, rfl, upto (text_head hc.2)⟩
    | data n => exact ⟨n, rfl, hc, [_], _, rfl, by simpa using upto (n := n) (r := []) (.inl rfl)⟩
    | _ => exact hc.elim
  cases k with
  | bare c =>
    obtain ⟨n, h1, h2, ws, w, h3, h4⟩ := net (c := c) h
    refine ⟨n, h1, h2, fun pre => ?_⟩
    rw [payloadWords, h3, ← List.append_assoc, List.getLast?_concat]
    exact h4
  | lp c =>
    obtain ⟨n, h1, h2, ws, w, h3, h4⟩ := net (c := c) h
    refine ⟨n, h1, h2, fun pre => ?_⟩
    rw [payloadWords, h3, ← List.cons_append, ← List.append_assoc, List.getLast?_concat]
    exact h4
  | _ => exact h.elim

private theorem zip_forall {R : Bytes → Info → Prop} : ∀ {is : List Info} {ns : List Nat}, ns.length = is.length →
    (∀ i ∈ is, ∀ n, R (PingOutput.join (infoWords i n)) i) →
    List.Forall₂ R (((is.zip ns).map fun x => infoWords x.1 x.2).map PingOutput.join) is := by
  intro is
  induction is with
  | nil => intro ns _ _; exact .nil
  | cons i is ih =>
    intro ns h1 h2
    cases ns with
    | nil => cases h1
    | cons n ns =>
      exact .cons (h2 i (by simp) n) (ih (Nat.succ.inj h1) fun j hj => h2 j (List.mem_cons_of_mem _ hj))

/-- C112: from every line that ndndump prints for an Interest, Data or Nack one can copy the name. ndnpeek, given this text, asks
for a name that differs from the one in the packet at most in the width of numbers; if the numbers in the packet are in the shortest
form, for this name. -/
theorem C112_copied (lib : Cli.Lib) (c : Cfg) (ps : List Packet) (is : List Info) (h : Infos Uri.Valid c ps is) :
    List.Forall₂ (fun l i => ∃ n o, i.payload.name? = some n ∧
      Cli.peek lib (some { name := Uri.parseName (copied l) }) = .run o ∧ NameAlike n o.name ∧ (Minimal n → o.name = n))
      (outputLines (output (loop c ps).1)) is := by
  obtain ⟨a1, ns, a2, a3, -⟩ := infos_text h
  unfold outputLines
  rw [a3.lines, List.dropLast_concat]
  refine zip_forall a2 fun i hi n => ?_
  obtain ⟨m, h1, h2, h3⟩ := payload_last (a1 i hi).2.1
  obtain ⟨⟨q, h4, h5, -⟩, -⟩ := Uri.C99_all h2
  have e : copied (PingOutput.join (infoWords i n)) = nameText m := by
    unfold copied
    rw [words_join (infoWords_ne i n) fun w hw => (info_word (a1 i hi) n w hw).1]
    exact h3 _
  refine ⟨m, { name := q, interestLifetime := 4000 }, h1, ?_, h5, fun hm => ?_⟩
  · rw [e, h4]
    rfl
  · have := Uri.parse_nameText h2 hm
    rw [h4] at this
    exact Option.some.inj this

example : ∃ is, Infos Uri.Valid segCfg [segPacket [5], segPacket [1, 0]] is ∧ is.length = 2 ∧
    (outputLines (output (loop segCfg [segPacket [5], segPacket [1, 0]]).1)).map copied = [text "/seg=5", text "/seg=256"] := by
  have v : ∀ w, Uri.Valid [⟨50, w⟩] := by
    intro w c hc
    rw [List.mem_singleton.mp hc]
    simp
  exact ⟨_, .shown _ _ _ _ _ (segShows _ (by decide) (v _)) (.shown _ _ _ _ _ (segShows _ (by decide) (v _)) .nil), rfl,
    by decide +kernel⟩

example : copied (text "1.5 IP 10.0.0.1 > 10.0.0.2, UDP, length 30, NDNLPv2, NACK (None): /a/b%3F?CanBePrefix&Nonce=01020304") =
    text "/a/b%3F" := by decide +kernel

end Verif.DumpText
