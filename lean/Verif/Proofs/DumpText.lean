import Verif.Proofs.NameText
import Verif.Proofs.AddrText
import Verif.Proofs.DumpPacket

/-! # The words of the lines of ndndump -/

namespace Verif.DumpText

open Dump Dump.Spec PingOutput

/-! ## Words -/

theorem join_words {a b : List Bytes} (ha : a ≠ []) (hb : b ≠ []) :
    PingOutput.join (a ++ b) = PingOutput.join a ++ 32 :: PingOutput.join b := by
  induction a with
  | nil => exact absurd rfl ha
  | cons w a ih =>
    cases a with
    | nil =>
      cases b with
      | nil => exact absurd rfl hb
      | cons x b => rfl
    | cons y a =>
      show w ++ 32 :: PingOutput.join (y :: a ++ b) = (w ++ 32 :: PingOutput.join (y :: a)) ++ _
      rw [ih (by simp), List.append_assoc, List.cons_append]

def timeWords (t : Option (Nat × Nat)) : List Bytes :=
  match t with
  | none => []
  | some (s, u) => [decimal s ++ 46 :: pad6 (decimal u)]

def ipText : IpVersion → Bytes → Bytes
  | .v4, a => ip4Text a
  | .v6, a => ip6Text a

def ipKey : IpVersion → Bytes
  | .v4 => text "IP"
  | .v6 => text "IP6"

def transportKey : Transport → Bytes
  | .udp => text "UDP,"
  | .tcp => text "TCP,"

def encapWords (n : Nat) : Encap → List Bytes
  | .ethernet => [text "Ethernet,"]
  | .ppp => [text "PPP,"]
  | .ip v t src dst => [ipKey v, ipText v src, [62], ipText v dst ++ [44], transportKey t, text "length", decimal n ++ [44]]

def netWords : Content → List Bytes
  | .interest n t => [text "INTEREST:", nameText n ++ text t]
  | .nack r n t => [text "NACK", 40 :: (reasonText r ++ [41, 58]), nameText n ++ text t]
  | .data n => [text "DATA:", nameText n]
  | _ => []

def payloadWords : Payload → List Bytes
  | .bare c => netWords c
  | .lp c => text "NDNLPv2," :: netWords c
  | _ => []

theorem encapWords_ne (n : Nat) (e : Encap) : encapWords n e ≠ [] := by cases e <;> simp [encapWords]

theorem netWords_ne {N : Name → Prop} {c : Content} (h : IsNet N c) : netWords c ≠ [] := by
  cases c <;> first | exact h.elim | simp [netWords]

theorem payloadWords_ne {N : Name → Prop} {k : Payload} (h : Understood N k) : payloadWords k ≠ [] := by
  cases k <;> first | exact h.elim | exact netWords_ne h | simp [payloadWords]

/-- The encapsulation and a comma. -/
theorem encap_text (n : Nat) (e : Encap) :
    (Dump.Spec.join (e.fields n)).flatMap tokText ++ [44] = PingOutput.join (encapWords n e) := by
  have c : tokText .delim = [44, 32] := by decide +kernel
  have s1 : text "IP " = text "IP" ++ [32] := by decide +kernel
  have s2 : text "IP6 " = text "IP6" ++ [32] := by decide +kernel
  have s3 : text " > " = [32, 62, 32] := by decide +kernel
  have s4 : text "UDP," = text "UDP" ++ [44] := by decide +kernel
  have s5 : text "TCP," = text "TCP" ++ [44] := by decide +kernel
  have s6 : text "length " = text "length" ++ [32] := by decide +kernel
  have s7 : text "Ethernet," = text "Ethernet" ++ [44] := by decide +kernel
  have s8 : text "PPP," = text "PPP" ++ [44] := by decide +kernel
  cases e with
  | ethernet => simp [Encap.fields, Dump.Spec.join, encapWords, PingOutput.join, tokText, s7]
  | ppp => simp [Encap.fields, Dump.Spec.join, encapWords, PingOutput.join, tokText, s8]
  | ip v t src dst =>
    cases v <;> cases t <;>
      simp only [Encap.fields, Dump.Spec.join, encapWords, PingOutput.join, ipKey, ipText, transportKey, List.flatMap_append,
        List.flatMap_cons, List.flatMap_nil, List.append_nil, c] <;>
      simp only [tokText, s1, s2, s3, s4, s5, s6, List.append_assoc, List.cons_append, List.nil_append, List.singleton_append]

theorem net_text {N : Name → Prop} {c : Content} (h : IsNet N c) : c.field.flatMap tokText = PingOutput.join (netWords c) := by
  have s1 : text "INTEREST: " = text "INTEREST:" ++ [32] := by decide +kernel
  have s2 : text "NACK (" = text "NACK" ++ [32, 40] := by decide +kernel
  have s3 : text "): " = [41, 58, 32] := by decide +kernel
  have s4 : text "DATA: " = text "DATA:" ++ [32] := by decide +kernel
  cases c with
  | interest n t => simp [Content.field, netWords, PingOutput.join, tokText, s1]
  | nack r n t => simp [Content.field, netWords, PingOutput.join, tokText, s2, s3]
  | data n => simp [Content.field, netWords, PingOutput.join, tokText, s4]
  | badNack => exact h.elim
  | invalid => exact h.elim
  | unsupported => exact h.elim

theorem payload_text {N : Name → Prop} {k : Payload} (h : Understood N k) :
    (Dump.Spec.join k.fields).flatMap tokText = PingOutput.join (payloadWords k) ∧ k.fields ≠ [] := by
  have c : tokText .delim = [44, 32] := by decide +kernel
  have s1 : text "NDNLPv2," = text "NDNLPv2" ++ [44] := by decide +kernel
  cases k with
  | bare x => exact ⟨net_text h, by simp [Payload.fields]⟩
  | lp x =>
    refine ⟨?_, by simp [Payload.fields]⟩
    have hn := net_text (c := x) h
    have hne := netWords_ne (c := x) h
    show (Dump.Spec.join [[.str "NDNLPv2"], x.field]).flatMap tokText = _
    show ([Tok.str "NDNLPv2"] ++ .delim :: x.field).flatMap tokText = _
    rw [List.flatMap_append, List.flatMap_cons (x := Tok.delim), hn, c]
    show _ = PingOutput.join ([text "NDNLPv2,"] ++ netWords x)
    rw [join_words (by simp) hne, show PingOutput.join [text "NDNLPv2,"] = text "NDNLPv2," from rfl, s1]
    simp [tokText]
  | empty => exact h.elim
  | incomplete => exact h.elim
  | lpInvalid => exact h.elim
  | lpIdle => exact h.elim
  | lpFragment => exact h.elim
  | lpThrows => exact h.elim

/-- The line of a packet. -/
theorem line_text {N : Name → Prop} {k : Payload} (h : Understood N k) (n : Nat) (e : Encap) (t : Option (Nat × Nat)) :
    lineText (.packet (t.map fun x => printTimestamp x.1 x.2) (Dump.Spec.join (e.fields n ++ k.fields))) =
      PingOutput.join (timeWords t ++ encapWords n e ++ payloadWords k) ++ [10] := by
  obtain ⟨h1, h2⟩ := payload_text h
  have nl : text "\n" = [10] := by decide +kernel
  have c : tokText .delim = [44, 32] := by decide +kernel
  have body : (Dump.Spec.join (e.fields n ++ k.fields)).flatMap tokText = PingOutput.join (encapWords n e ++ payloadWords k) := by
    rw [Dump.join_append _ _ (encap_fields_ne _ _) h2, List.flatMap_append, List.flatMap_cons, h1,
      join_words (encapWords_ne n e) (payloadWords_ne h), ← encap_text n e, c]
    simp
  have ne : encapWords n e ++ payloadWords k ≠ [] := by simp [encapWords_ne]
  rw [lineText, body, nl]
  cases t with
  | none => rfl
  | some x =>
    rw [timeWords, List.append_assoc [_] (encapWords n e), join_words (by simp) ne]
    simp [printTimestamp, PingOutput.join]

/-! ## No spaces or line breaks within words -/

theorem text_mem {t : String} (h : PlainParams t) {b : UInt8} (hb : b ∈ text t) : 33 ≤ b.toNat ∧ b.toNat ≤ 126 := by
  obtain ⟨c, hc, rfl⟩ := List.mem_map.mp hb
  have := h.2 c hc
  rw [UInt8.toNat_ofNat']
  omega

theorem params_word {t : String} (h : PlainParams t) : Word (text t) :=
  ⟨fun hb => absurd (text_mem h hb) (by decide), fun hb => absurd (text_mem h hb) (by decide)⟩

theorem text_inj_plain {t u : String} (ht : PlainParams t) (hu : PlainParams u) (h : text t = text u) : t = u := by
  have key : ∀ (l m : List Char), (∀ c ∈ l, c.toNat ≤ 126) → (∀ c ∈ m, c.toNat ≤ 126) →
      (l.map fun c => UInt8.ofNat c.toNat) = (m.map fun c => UInt8.ofNat c.toNat) → l = m := by
    intro l
    induction l with
    | nil => intro m _ _ h; cases m with
      | nil => rfl
      | cons => cases h
    | cons a l ih =>
      intro m hl hm h
      cases m with
      | nil => cases h
      | cons b m =>
        simp only [List.map_cons, List.cons.injEq] at h
        have ha := hl a (by simp)
        have hb := hm b (by simp)
        have := congrArg UInt8.toNat h.1
        rw [UInt8.toNat_ofNat', UInt8.toNat_ofNat'] at this
        have e : a = b := Char.toNat_inj.mp (by omega)
        rw [e, ih m (fun c hc => hl c (List.mem_cons_of_mem _ hc)) (fun c hc => hm c (List.mem_cons_of_mem _ hc)) h.2]
  exact String.toList_inj.mp (key _ _ (fun c hc => (ht.2 c hc).2) (fun c hc => (hu.2 c hc).2) h)

theorem text_head {t : String} (h : PlainParams t) : text t = [] ∨ (text t).head? = some 63 := by
  rcases h.1 with rfl | h
  · exact .inl rfl
  · right
    unfold text
    rw [List.head?_map, h]
    rfl

theorem sep_free {c x : UInt8} (hx : x ≠ c) : ∀ {ws : List Bytes}, (∀ w ∈ ws, x ∉ w) → x ∉ sep c ws := by
  intro ws
  induction ws with
  | nil => intro _; simp [sep]
  | cons w ws ih =>
    intro h
    cases ws with
    | nil => simpa [sep] using h
    | cons y ws =>
      show x ∉ w ++ c :: sep c (y :: ws)
      rw [List.mem_append, List.mem_cons, not_or, not_or]
      exact ⟨h w (by simp), hx, ih fun z hz => h z (List.mem_cons_of_mem _ hz)⟩

theorem ip4_free {x : UInt8} (hx : x ≠ 46) (hd : isDigit x = false) (a : Bytes) : x ∉ ip4Text a := by
  refine sep_free hx ?_
  intro w hw
  obtain ⟨b, -, rfl⟩ := List.mem_map.mp hw
  exact decimal_free hd _

theorem ip6_free {x : UInt8} (h1 : x ≠ 46) (h2 : x ≠ 58) (hd : hexChar x = false) (a : Bytes) : x ∉ ip6Text a := by
  have hd' : isDigit x = false := by
    unfold hexChar at hd
    rw [Bool.or_eq_false_iff] at hd
    exact hd.1
  have hs : ∀ ws : List Nat, x ∉ sep 58 (ws.map hexText) := by
    intro ws
    refine sep_free h2 ?_
    intro w hw
    obtain ⟨b, -, rfl⟩ := List.mem_map.mp hw
    exact hex_free hd _
  have two : x ∉ text "::" := by
    rw [show text "::" = [58, 58] by decide +kernel]
    simpa using h2
  have ff : x ∉ text "::ffff:" := by
    rw [show text "::ffff:" = [58, 58] ++ (hexText 0xffff ++ [58]) by decide +kernel]
    simp only [List.mem_append, List.mem_cons, List.not_mem_nil, or_false, not_or]
    exact ⟨⟨h2, h2⟩, hex_free hd _, h2⟩
  unfold ip6Text
  cases hb : bestRun (words6 a) with
  | none => simp only [hb]; exact hs _
  | some r =>
    simp only [hb]
    split
    · rw [List.mem_append, not_or]; exact ⟨two, ip4_free h1 hd' _⟩
    · split
      · rw [List.mem_append, not_or]; exact ⟨ff, ip4_free h1 hd' _⟩
      · rw [List.mem_append, List.mem_append, not_or, not_or]; exact ⟨⟨hs _, two⟩, hs _⟩

theorem ipText_word (v : IpVersion) (a : Bytes) : Word (ipText v a) := by
  cases v
  · exact ⟨ip4_free (by decide) (by decide) a, ip4_free (by decide) (by decide) a⟩
  · exact ⟨ip6_free (by decide) (by decide) (by decide) a, ip6_free (by decide) (by decide) (by decide) a⟩

theorem pad6_digit (n : Nat) : ∀ b ∈ pad6 (decimal n), isDigit b = true := by
  intro b hb
  unfold pad6 at hb
  rcases List.mem_append.mp hb with hb | hb
  · rw [List.eq_of_mem_replicate hb]; decide
  · exact List.all_eq_true.mp (decimal_isDigit n) b hb

theorem Word.digits {a : Bytes} (h : ∀ b ∈ a, isDigit b = true) : Word a :=
  ⟨fun hb => absurd (h _ hb) (by decide), fun hb => absurd (h _ hb) (by decide)⟩

theorem time_word (t : Option (Nat × Nat)) : ∀ w ∈ timeWords t, Word w := by
  cases t with
  | none => intro w hw; cases hw
  | some x =>
    intro w hw
    rw [timeWords, List.mem_singleton] at hw
    subst hw
    exact .append (.nat _) (.append (a := [46]) (by unfold Word; decide) (Word.digits (pad6_digit _)))

theorem encap_word (n : Nat) (e : Encap) : ∀ w ∈ encapWords n e, Word w := by
  cases e with
  | ethernet => simp only [encapWords, List.mem_singleton, forall_eq, Word]; decide +kernel
  | ppp => simp only [encapWords, List.mem_singleton, forall_eq, Word]; decide +kernel
  | ip v t src dst =>
    intro w hw
    simp only [encapWords, List.mem_cons, List.not_mem_nil, or_false] at hw
    rcases hw with rfl | rfl | rfl | rfl | rfl | rfl | rfl
    · unfold Word; cases v <;> decide +kernel
    · exact ipText_word v src
    · unfold Word; decide
    · exact (ipText_word v dst).append (by unfold Word; decide)
    · unfold Word; cases t <;> decide +kernel
    · unfold Word; decide +kernel
    · exact (Word.nat n).append (by unfold Word; decide)

theorem net_word {N : Name → Prop} {c : Content} (h : IsNet N c) : ∀ w ∈ netWords c, Word w := by
  cases c with
  | interest n t =>
    intro w hw
    simp only [netWords, List.mem_cons, List.not_mem_nil, or_false] at hw
    rcases hw with rfl | rfl
    · unfold Word; decide +kernel
    · exact (nameText_word n).append (params_word h.2)
  | nack r n t =>
    intro w hw
    simp only [netWords, List.mem_cons, List.not_mem_nil, or_false] at hw
    rcases hw with rfl | rfl | rfl
    · unfold Word; decide +kernel
    · unfold Word; cases r <;> decide +kernel
    · exact (nameText_word n).append (params_word h.2)
  | data n =>
    intro w hw
    simp only [netWords, List.mem_cons, List.not_mem_nil, or_false] at hw
    rcases hw with rfl | rfl
    · unfold Word; decide +kernel
    · exact nameText_word n
  | badNack => exact h.elim
  | invalid => exact h.elim
  | unsupported => exact h.elim

theorem payload_word {N : Name → Prop} {k : Payload} (h : Understood N k) : ∀ w ∈ payloadWords k, Word w := by
  cases k with
  | bare c => exact net_word (c := c) h
  | lp c =>
    intro w hw
    rcases List.mem_cons.mp hw with rfl | hw
    · unfold Word; decide +kernel
    · exact net_word (c := c) h w hw
  | empty => exact h.elim
  | incomplete => exact h.elim
  | lpInvalid => exact h.elim
  | lpIdle => exact h.elim
  | lpFragment => exact h.elim
  | lpThrows => exact h.elim

/-! ## What the words say -/

theorem time_inj {s u s' u' : Nat}
    (h : decimal s ++ 46 :: pad6 (decimal u) = decimal s' ++ 46 :: pad6 (decimal u')) : s = s' ∧ u = u' := by
  obtain ⟨h1, h2⟩ := cut_inj (decimal_free (by decide) _) (decimal_free (by decide) _) h
  refine ⟨Verif.decimal_inj h1, ?_⟩
  have rd : ∀ u : Nat, readDec (pad6 (decimal u)) = u := by
    intro u
    unfold pad6 readDec
    rw [List.foldl_append]
    have : ∀ k, (List.replicate k (48 : UInt8)).foldl (fun a x => a * 10 + (x.toNat - 48)) 0 = 0 := by
      intro k
      induction k with
      | zero => rfl
      | succ k ih => rw [List.replicate_succ, List.foldl_cons]; exact ih
    rw [this]
    exact decimal_parse u
  rw [← rd u, h2, rd]

theorem frame_addr {P : Prop} {l : Link} {e : Encap} {a b f : Bytes} (h : IsFrame P l e a b f) :
    ∀ v t src dst, e = .ip v t src dst → (v = .v4 → src.length = 4 ∧ dst.length = 4) ∧ (v = .v6 → src.length = 16 ∧ dst.length = 16) := by
  intro v t src dst he
  cases h with
  | direct => cases he
  | ppp => cases he
  | ip _ v t lh ih th src dst payload rest following h1 h2 =>
    cases he
    constructor
    · rintro rfl
      obtain ⟨_, _, _, _, -, -, -, h3, h4, -⟩ := h2
      exact ⟨h3, h4⟩
    · rintro rfl
      obtain ⟨_, _, _, -, -, h3, h4, -⟩ := h2
      exact ⟨h3, h4⟩

/-- The addresses have the right length. -/
def AddrOk (e : Encap) : Prop :=
  ∀ v t src dst, e = .ip v t src dst → (v = .v4 → src.length = 4 ∧ dst.length = 4) ∧ (v = .v6 → src.length = 16 ∧ dst.length = 16)

theorem ip_inj {v : IpVersion} {a b : Bytes} (h4 : v = .v4 → a.length = 4 ∧ b.length = 4) (h6 : v = .v6 → a.length = 16 ∧ b.length = 16)
    (h : ipText v a = ipText v b) : a = b := by
  cases v with
  | v4 =>
    have ⟨ha, hb⟩ := h4 rfl
    rw [← readIp4_ip4Text (a := a) (by rintro rfl; cases ha), ← readIp4_ip4Text (a := b) (by rintro rfl; cases hb)]
    exact congrArg readIp4 h
  | v6 =>
    have ⟨ha, hb⟩ := h6 rfl
    rw [← readIp6_ip6Text ha, ← readIp6_ip6Text hb]
    exact congrArg readIp6 h

theorem encap_inj {e e' : Encap} (he : AddrOk e) (he' : AddrOk e') {n n' : Nat} {r r' : List Bytes}
    (h : encapWords n e ++ r = encapWords n' e' ++ r') : e = e' ∧ r = r' := by
  have x1 : text "Ethernet," ≠ text "PPP," := by decide +kernel
  have x2 : ∀ v, text "Ethernet," ≠ ipKey v := by intro v; cases v <;> decide +kernel
  have x3 : ∀ v, text "PPP," ≠ ipKey v := by intro v; cases v <;> decide +kernel
  have x4 : text "IP" ≠ text "IP6" := by decide +kernel
  have x5 : text "UDP," ≠ text "TCP," := by decide +kernel
  cases e with
  | ethernet =>
    cases e' with
    | ethernet => exact ⟨rfl, (List.cons.inj h).2⟩
    | ppp => exact absurd (List.cons.inj h).1 x1
    | ip v t s d => exact absurd (List.cons.inj h).1 (x2 v)
  | ppp =>
    cases e' with
    | ethernet => exact absurd (List.cons.inj h).1.symm x1
    | ppp => exact ⟨rfl, (List.cons.inj h).2⟩
    | ip v t s d => exact absurd (List.cons.inj h).1 (x3 v)
  | ip v t s d =>
    cases e' with
    | ethernet => exact absurd (List.cons.inj h).1.symm (x2 v)
    | ppp => exact absurd (List.cons.inj h).1.symm (x3 v)
    | ip v' t' s' d' =>
      simp only [encapWords, List.cons_append, List.nil_append, List.cons.injEq, true_and] at h
      obtain ⟨h1, h2, h3, h4, -, h5⟩ := h
      have hv : v = v' := by
        cases v <;> cases v'
        · rfl
        · exact absurd h1 x4
        · exact absurd h1.symm x4
        · rfl
      subst hv
      have ht : t = t' := by
        cases t <;> cases t'
        · rfl
        · exact absurd h4 x5
        · exact absurd h4.symm x5
        · rfl
      subst ht
      have a1 := he _ _ _ _ rfl
      have a2 := he' _ _ _ _ rfl
      have hs := ip_inj (fun h => ⟨(a1.1 h).1, (a2.1 h).1⟩) (fun h => ⟨(a1.2 h).1, (a2.2 h).1⟩) h2
      have hd := ip_inj (fun h => ⟨(a1.1 h).2, (a2.1 h).2⟩) (fun h => ⟨(a1.2 h).2, (a2.2 h).2⟩) (List.append_cancel_right h3)
      subst hs hd
      exact ⟨rfl, h5⟩

theorem reason_inj {r r' : NackReason} (h : reasonText r = reasonText r') : r = r' := by
  cases r <;> cases r' <;> first | rfl | exact absurd h (by decide +kernel)

theorem net_inj {c c' : Content} (h : IsNet Minimal c) (h' : IsNet Minimal c') (e : netWords c = netWords c') : c = c' := by
  have x1 : text "INTEREST:" ≠ text "NACK" := by decide +kernel
  have x2 : text "INTEREST:" ≠ text "DATA:" := by decide +kernel
  have x3 : text "NACK" ≠ text "DATA:" := by decide +kernel
  have nm : ∀ {n n' : Name} {t t' : String}, Minimal n → Minimal n' → PlainParams t → PlainParams t' →
      nameText n ++ text t = nameText n' ++ text t' → n = n' ∧ t = t' := by
    intro n n' t t' hn hn' ht ht' e
    obtain ⟨i, j⟩ := nameText_inj hn hn' (text_head ht) (text_head ht') e
    exact ⟨i, text_inj_plain ht ht' j⟩
  cases c with
  | interest n t =>
    cases c' with
    | interest n' t' =>
      simp only [netWords, List.cons.injEq, and_true, true_and] at e
      obtain ⟨rfl, rfl⟩ := nm h.1 h'.1 h.2 h'.2 e
      rfl
    | nack r' n' t' => exact absurd (List.cons.inj e).1 x1
    | data n' => exact absurd (List.cons.inj e).1 x2
    | badNack => exact h'.elim
    | invalid => exact h'.elim
    | unsupported => exact h'.elim
  | nack r n t =>
    cases c' with
    | interest n' t' => exact absurd (List.cons.inj e).1.symm x1
    | nack r' n' t' =>
      simp only [netWords, List.cons.injEq, and_true, true_and] at e
      obtain ⟨rfl, rfl⟩ := nm h.1 h'.1 h.2 h'.2 e.2
      have := reason_inj (List.append_cancel_right e.1)
      subst this
      rfl
    | data n' => exact absurd (List.cons.inj e).1 x3
    | badNack => exact h'.elim
    | invalid => exact h'.elim
    | unsupported => exact h'.elim
  | data n =>
    cases c' with
    | interest n' t' => exact absurd (List.cons.inj e).1.symm x2
    | nack r' n' t' => exact absurd (List.cons.inj e).1.symm x3
    | data n' =>
      simp only [netWords, List.cons.injEq, and_true, true_and] at e
      have := (nameText_inj (r := []) (s := []) h h' (.inl rfl) (.inl rfl) (by simpa using e)).1
      subst this
      rfl
    | badNack => exact h'.elim
    | invalid => exact h'.elim
    | unsupported => exact h'.elim
  | badNack => exact h.elim
  | invalid => exact h.elim
  | unsupported => exact h.elim

theorem payload_inj {k k' : Payload} (h : Understood Minimal k) (h' : Understood Minimal k') (e : payloadWords k = payloadWords k') :
    k = k' := by
  have x : ∀ {c : Content}, IsNet Minimal c → ∀ l, netWords c ≠ text "NDNLPv2," :: l := by
    intro c hc l e
    cases c with
    | interest => exact absurd (List.cons.inj e).1 (by decide +kernel)
    | nack => exact absurd (List.cons.inj e).1 (by decide +kernel)
    | data => exact absurd (List.cons.inj e).1 (by decide +kernel)
    | badNack => exact hc.elim
    | invalid => exact hc.elim
    | unsupported => exact hc.elim
  cases k with
  | bare c =>
    cases k' with
    | bare c' => rw [net_inj h h' e]
    | lp c' => exact absurd e (x h _)
    | _ => exact h'.elim
  | lp c =>
    cases k' with
    | bare c' => exact absurd e.symm (x h' _)
    | lp c' => rw [net_inj h h' (List.cons.inj e).2]
    | _ => exact h'.elim
  | _ => exact h.elim

/-! ## Lines of captures -/

/-- The line of a packet that is shown. -/
theorem shows_line {N : Name → Prop} {c : Cfg} {p : Packet} {e : Encap} {k : Payload} (h : Shows N c p e k) :
    ∃ n, AddrOk e ∧ printPacket c p = .ok [.packet ((if c.wantTimestamp then some (p.sec, p.usec) else none).map
      fun x => printTimestamp x.1 x.2) (Dump.Spec.join (e.fields n ++ k.fields))] := by
  obtain ⟨payload, rest, b, h1, h2, h3⟩ := h.frame
  have hu := h.understood
  have hs := seen_payload (e := e) (rest := rest) h3 ⟨b, h2⟩
  rcases printPacket_frame h.whole h1 hs with ⟨h4, -⟩ | ⟨s, h4, -⟩ | ⟨h4, -⟩ | ⟨-, -, -, hp⟩
  · rw [h4] at hu; exact hu.elim
  · rw [h4] at hu; exact hu.elim
  · exact absurd h.accepted h4
  · refine ⟨(seen e payload rest).length, frame_addr h1, ?_⟩
    rw [hp]
    cases c.wantTimestamp <;> rfl

def infoWords (i : Info) (n : Nat) : List Bytes := timeWords i.time ++ encapWords n i.encap ++ payloadWords i.payload

def InfoOk (N : Name → Prop) (stamped : Bool) (i : Info) : Prop :=
  AddrOk i.encap ∧ Understood N i.payload ∧ i.time.isSome = stamped

theorem info_word {N : Name → Prop} {b : Bool} {i : Info} (h : InfoOk N b i) (n : Nat) : ∀ w ∈ infoWords i n, Word w := by
  intro w hw
  rcases List.mem_append.mp hw with hw | hw
  · rcases List.mem_append.mp hw with hw | hw
    · exact time_word _ w hw
    · exact encap_word _ _ w hw
  · exact payload_word h.2.1 w hw

theorem infoWords_ne (i : Info) (n : Nat) : infoWords i n ≠ [] := by
  simp [infoWords, encapWords_ne]

theorem info_inj {b : Bool} {i i' : Info} (h : InfoOk Minimal b i) (h' : InfoOk Minimal b i') {n n' : Nat}
    (e : infoWords i n = infoWords i' n') : i = i' := by
  obtain ⟨t, en, k⟩ := i
  obtain ⟨t', en', k'⟩ := i'
  obtain ⟨a1, a2, a4⟩ := h
  obtain ⟨b1, b2, b4⟩ := h'
  dsimp only at a1 a2 a4 b1 b2 b4
  unfold infoWords at e
  dsimp only at e
  rw [List.append_assoc, List.append_assoc] at e
  have : t = t' ∧ encapWords n en ++ payloadWords k = encapWords n' en' ++ payloadWords k' := by
    cases t with
    | none =>
      cases t' with
      | none => exact ⟨rfl, e⟩
      | some y => rw [← b4] at a4; cases a4
    | some x =>
      cases t' with
      | none => rw [← b4] at a4; cases a4
      | some y =>
        obtain ⟨h1, h2⟩ := List.cons.inj e
        obtain ⟨h3, h4⟩ := time_inj h1
        exact ⟨by rw [show x = y from Prod.ext h3 h4], h2⟩
  obtain ⟨rfl, e2⟩ := this
  obtain ⟨rfl, e3⟩ := encap_inj a1 b1 e2
  rw [payload_inj a2 b2 e3]

/-- The output about a capture consists of one line for every packet that is shown. -/
theorem infos_text {N : Name → Prop} {c : Cfg} {ps : List Packet} {is : List Info} (h : Infos N c ps is) :
    (∀ i ∈ is, InfoOk N c.wantTimestamp i) ∧ ∃ ns : List Nat, ns.length = is.length ∧
      Text ((is.zip ns).map fun x => infoWords x.1 x.2) (output (loop c ps).1) ∧ (loop c ps).2 = .exit 0 := by
  induction h with
  | nil => exact ⟨by simp, [], rfl, Text.nil, rfl⟩
  | shown p e k ps is hs _ ih =>
    obtain ⟨i1, ns, i2, i3, i4⟩ := ih
    obtain ⟨n, ha, hp⟩ := shows_line hs
    have ok : InfoOk N c.wantTimestamp ⟨if c.wantTimestamp then some (p.sec, p.usec) else none, e, k⟩ := by
      refine ⟨ha, hs.understood, ?_⟩
      dsimp only
      cases c.wantTimestamp <;> rfl
    refine ⟨?_, n :: ns, by simp [i2], ?_, ?_⟩
    · intro i hi
      rcases List.mem_cons.mp hi with rfl | hi
      · exact ok
      · exact i1 i hi
    · rw [loop, hp]
      simp only [List.zip_cons_cons, List.map_cons]
      show Text _ (output (_ :: (loop c ps).1))
      rw [output, List.flatMap_cons, line_text hs.understood]
      exact Text.append (a := [infoWords _ n]) (Text.one (infoWords_ne _ _) (info_word ok n) rfl) i3
    · rw [loop, hp]
      exact i4
  | skipped p ps is hp _ ih =>
    obtain ⟨i1, ns, i2, i3, i4⟩ := ih
    refine ⟨i1, ns, i2, ?_, ?_⟩
    · rw [loop, hp]; exact i3
    · rw [loop, hp]; exact i4

theorem text_words {wss vss : List (List Bytes)} {x : Bytes} (h : Text wss x) (k : Text vss x) : wss = vss := by
  have e : wss.map PingOutput.join = vss.map PingOutput.join := by
    have := h.lines.symm.trans k.lines
    exact List.append_cancel_right this
  have m : ∀ {uss : List (List Bytes)}, Text uss x → (uss.map PingOutput.join).map words = uss := by
    intro uss hu
    rw [List.map_map]
    conv => rhs; rw [← List.map_id uss]
    apply List.map_congr_left
    intro us hus
    exact words_join (hu.ne us hus) (fun w hw => (hu.word us hus w hw).1)
  rw [← m h, e, m k]

theorem infos_inj {b : Bool} : ∀ {is is' : List Info} {ns ns' : List Nat}, ns.length = is.length → ns'.length = is'.length →
    (∀ i ∈ is, InfoOk Minimal b i) → (∀ i ∈ is', InfoOk Minimal b i) →
    ((is.zip ns).map fun x => infoWords x.1 x.2) = ((is'.zip ns').map fun x => infoWords x.1 x.2) → is = is' := by
  intro is
  induction is with
  | nil =>
    intro is' ns ns' _ h2 _ _ e
    cases is' with
    | nil => rfl
    | cons i is' =>
      cases ns' with
      | nil => cases h2
      | cons => cases e
  | cons i is ih =>
    intro is' ns ns' h1 h2 h3 h4 e
    cases ns with
    | nil => cases h1
    | cons n ns =>
      cases is' with
      | nil => cases e
      | cons i' is' =>
        cases ns' with
        | nil => cases h2
        | cons n' ns' =>
          simp only [List.zip_cons_cons, List.map_cons, List.cons.injEq] at e
          rw [info_inj (h3 i (by simp)) (h4 i' (by simp)) e.1, ih (Nat.succ.inj h1) (Nat.succ.inj h2)
            (fun x hx => h3 x (List.mem_cons_of_mem _ hx)) (fun x hx => h4 x (List.mem_cons_of_mem _ hx)) e.2]

end Verif.DumpText
