import Verif.Proofs.DumpMono

/-! # Lemmas about ndndump: whole packets -/

namespace Verif.Dump

open Spec

theorem encap_fields_ne (e : Encap) (n : Nat) : e.fields n ≠ [] := by
  cases e <;> simp [Encap.fields]

theorem encap_fields_ok (e : Encap) (n : Nat) : ∀ f ∈ e.fields n, f ≠ [] ∧ ∀ t ∈ f, Plain t := by
  intro f hf
  cases e with
  | ethernet =>
    simp only [Encap.fields, List.mem_singleton] at hf
    subst hf; exact ⟨by simp, plain_one (plain_str _)⟩
  | ppp =>
    simp only [Encap.fields, List.mem_singleton] at hf
    subst hf; exact ⟨by simp, plain_one (plain_str _)⟩
  | ip v t src dst =>
    simp only [Encap.fields, List.mem_cons, List.not_mem_nil, or_false] at hf
    rcases hf with rfl | rfl | rfl
    · cases v
      · exact ⟨by simp, by
          intro t ht
          simp only [List.mem_cons, List.not_mem_nil, or_false] at ht
          rcases ht with rfl | rfl | rfl | rfl
          · exact plain_str _
          · exact plain_ip4 _
          · exact plain_str _
          · exact plain_ip4 _⟩
      · exact ⟨by simp, by
          intro t ht
          simp only [List.mem_cons, List.not_mem_nil, or_false] at ht
          rcases ht with rfl | rfl | rfl | rfl
          · exact plain_str _
          · exact plain_ip6 _
          · exact plain_str _
          · exact plain_ip6 _⟩
    · cases t
      · exact ⟨by simp, plain_one (plain_str _)⟩
      · exact ⟨by simp, plain_one (plain_str _)⟩
    · exact ⟨by simp, plain_two (plain_str _) (plain_num _)⟩

theorem mem_join {t : Tok} {fs : List (List Tok)} (h : t ∈ join fs) : t = .delim ∨ ∃ f ∈ fs, t ∈ f := by
  induction fs with
  | nil => simp [join] at h
  | cons f fs ih =>
    cases fs with
    | nil => exact .inr ⟨f, by simp, h⟩
    | cons g fs =>
      simp only [join, List.mem_append, List.mem_cons] at h
      rcases h with h | h | h
      · exact .inr ⟨f, by simp, h⟩
      · exact .inl h
      · rcases ih h with h | ⟨f', hf', h⟩
        · exact .inl h
        · exact .inr ⟨f', by simp [hf'], h⟩

theorem encap_fine (e : Encap) (n : Nat) : Fine (join (e.fields n)) := by
  refine ⟨⟨e.fields n, rfl, encap_fields_ne e n, ?_⟩, ?_⟩
  · intro f hf
    have := encap_fields_ok e n f hf
    exact ⟨this.1, fun hm => (this.2 _ hm).1 rfl⟩
  · intro t ht
    rcases mem_join ht with rfl | ⟨f, hf, h⟩
    · exact ⟨by simp, by simp⟩
    · exact ((encap_fields_ok e n f hf).2 t h).2

theorem content_field_ok (x : Content) : x.field ≠ [] ∧ Tok.delim ∉ x.field := by
  cases x <;> simp [Content.field]

theorem payload_fields_ok (k : Payload) (h1 : k ≠ .empty) (h2 : ∀ e, k ≠ .lpThrows e) :
    k.fields ≠ [] ∧ ∀ f ∈ k.fields, f ≠ [] ∧ Tok.delim ∉ f := by
  cases k with
  | empty => exact absurd rfl h1
  | lpThrows e => exact absurd rfl (h2 e)
  | incomplete n => simp [Payload.fields]
  | bare x => simpa [Payload.fields] using content_field_ok x
  | lp x => simpa [Payload.fields] using content_field_ok x
  | lpInvalid e => simp [Payload.fields]
  | lpIdle => simp [Payload.fields]
  | lpFragment => simp [Payload.fields]

theorem content_name {x : Content} {t : Tok} {n : Name} (ht : t ∈ x.field) (h : t = .name n ∨ ∃ s, t = .interest n s) :
    x.name? = some n := by
  cases x <;> simp only [Content.field, List.mem_cons, List.not_mem_nil, or_false] at ht
  all_goals
    rcases h with rfl | ⟨s, rfl⟩ <;> simp_all [Content.name?]

theorem payload_name {k : Payload} {t : Tok} {n : Name} (ht : t ∈ join k.fields)
    (h : t = .name n ∨ ∃ s, t = .interest n s) : k.name? = some n := by
  rcases mem_join ht with rfl | ⟨f, hf, hm⟩
  · rcases h with h | ⟨s, h⟩ <;> cases h
  · cases k with
    | empty => simp [Payload.fields] at hf
    | lpThrows e => simp [Payload.fields] at hf
    | incomplete m =>
      simp only [Payload.fields, List.mem_singleton] at hf; subst hf
      rcases h with rfl | ⟨s, rfl⟩ <;> simp at hm
    | bare x =>
      simp only [Payload.fields, List.mem_singleton] at hf; subst hf
      exact content_name hm h
    | lp x =>
      simp only [Payload.fields, List.mem_cons, List.not_mem_nil, or_false] at hf
      rcases hf with rfl | rfl
      · rcases h with rfl | ⟨s, rfl⟩ <;> simp at hm
      · exact content_name hm h
    | lpInvalid e =>
      simp only [Payload.fields, List.mem_singleton] at hf; subst hf
      rcases h with rfl | ⟨s, rfl⟩ <;> simp at hm
    | lpIdle =>
      simp only [Payload.fields, List.mem_singleton] at hf; subst hf
      rcases h with rfl | ⟨s, rfl⟩ <;> simp at hm
    | lpFragment =>
      simp only [Payload.fields, List.mem_singleton] at hf; subst hf
      rcases h with rfl | ⟨s, rfl⟩ <;> simp at hm

theorem StartsWith_append {s : Bytes} {b : Block} (h : StartsWith s b) (r : Bytes) : StartsWith (s ++ r) b := by
  obtain ⟨e, r', rfl, he⟩ := h
  exact ⟨e, r' ++ r, by simp, he⟩

/-- A payload that starts with a complete element keeps its kind when bytes are added. -/
theorem IsPayload_append {d : Decoders} {s : Bytes} {k : Payload} (h : IsPayload d s k) (hb : ∃ b, StartsWith s b)
    (r : Bytes) : IsPayload d (s ++ r) k := by
  cases h with
  | empty h =>
    subst h
    obtain ⟨b, hb⟩ := hb
    have := (fromBuffer_iff _ _).mpr hb
    cases this
  | incomplete h1 h2 => exact absurd hb h2
  | bare b c h1 h2 h3 => exact .bare b c (StartsWith_append h1 r) h2 h3
  | lp b lp f net c h1 h2 h3 h4 h5 h6 => exact .lp b lp f net c (StartsWith_append h1 r) h2 h3 h4 h5 h6
  | lpInvalid b e h1 h2 h3 => exact .lpInvalid b e (StartsWith_append h1 r) h2 h3
  | lpIdle b lp h1 h2 h3 h4 => exact .lpIdle b lp (StartsWith_append h1 r) h2 h3 h4
  | lpFragment b lp f h1 h2 h3 h4 h5 => exact .lpFragment b lp f (StartsWith_append h1 r) h2 h3 h4 h5
  | lpThrows b lp e h1 h2 h3 h4 => exact .lpThrows b lp e (StartsWith_append h1 r) h2 h3 h4

theorem payload_starts {d : Decoders} {s : Bytes} {k : Payload} (h : IsPayload d s k) {n : Name}
    (hn : k.name? = some n) : ∃ b, StartsWith s b := by
  cases h with
  | empty h => cases hn
  | incomplete h1 h2 => cases hn
  | bare b c h1 h2 h3 => exact ⟨b, h1⟩
  | lp b lp f net c h1 h2 h3 h4 h5 h6 => exact ⟨b, h1⟩
  | lpInvalid b e h1 h2 h3 => cases hn
  | lpIdle b lp h1 h2 h3 h4 => cases hn
  | lpFragment b lp f h1 h2 h3 h4 h5 => cases hn
  | lpThrows b lp e h1 h2 h3 h4 => cases hn

theorem seen_payload {d : Decoders} {e : Encap} {s rest : Bytes} {k : Payload} (h : IsPayload d s k)
    (hb : ∃ b, StartsWith s b) : IsPayload d (seen e s rest) k := by
  unfold seen
  split
  · exact h
  · exact IsPayload_append h hb rest

theorem frame_ne {P : Prop} {l : Link} {e : Encap} {s r f : Bytes} (h : IsFrame P l e s r f) : f ≠ [] := by
  cases h with
  | direct _ t h _ _ ht hh =>
    cases hh with
    | ether mac hm =>
      intro h0
      have := congrArg List.length h0
      simp [hm] at this
    | sll mac hm =>
      intro h0
      have := congrArg List.length h0
      simp [hm] at this
  | ppp h _ _ hh =>
    obtain ⟨a, b, c, rfl, -, -, hc⟩ := hh
    intro h0
    have := congrArg List.length h0
    simp [hc] at this
  | ip _ v t lh ih th src dst _ _ fo hlh =>
    cases hlh with
    | ether mac hm =>
      intro h0
      have := congrArg List.length h0
      simp [hm] at this
    | sll mac hm =>
      intro h0
      have := congrArg List.length h0
      simp [hm] at this

/-- A packet passes the checks of `printPacket`. -/
def Sane (p : Packet) : Prop := p.mem ≠ [] ∧ p.mem.length ≤ p.len

theorem printPacket_sane {p : Packet} (h : Sane p) (c : Cfg) :
    printPacket c p = (do
      let r ← printLink c p.mem p.len
      if r.1 then
        .ok [.packet (if c.wantTimestamp then some (printTimestamp p.sec p.usec) else none) r.2.toks]
      else .ok []) := by
  have h1 : 0 < p.mem.length := List.length_pos_iff.mpr h.1
  have h2 := h.2
  unfold printPacket
  rw [if_neg (by omega), if_neg (by omega), if_neg (by omega)]

theorem printPacket_insane {p : Packet} (h : ¬ Sane p) (c : Cfg) :
    printPacket c p = .ok [.zeroCaplen] ∨ printPacket c p = .ok [.zeroLen] ∨
      printPacket c p = .ok [.badLen p.len p.mem.length] := by
  unfold printPacket
  by_cases h1 : p.mem.length = 0
  · rw [if_pos h1]; exact .inl rfl
  · rw [if_neg h1]
    by_cases h2 : p.len = 0
    · rw [if_pos h2]; exact .inr (.inl rfl)
    · rw [if_neg h2]
      by_cases h3 : p.len < p.mem.length
      · rw [if_pos h3]; exact .inr (.inr rfl)
      · exact absurd ⟨List.length_pos_iff.mp (by omega), by omega⟩ h

/-- The bytes that were not captured can be taken as anything, unless they are read. -/
theorem printLink_whole {p : Packet} (h : Sane p) (c : Cfg) :
    ∃ x, (p.mem ++ x).length = p.len ∧
      (printLink c p.mem p.len = .error .ub ∨
       printLink c p.mem p.len = printLink c (p.mem ++ x) (p.mem ++ x).length) := by
  refine ⟨List.replicate (p.len - p.mem.length) 0, ?_, ?_⟩
  · have := h.2
    simp; omega
  · have hl : (p.mem ++ List.replicate (p.len - p.mem.length) (0 : UInt8)).length = p.len := by
      have := h.2
      simp; omega
    rw [hl]
    exact printLink_mono p.mem _ c p.len

/-- All that can happen with a packet of which the length field is sane. -/
theorem printPacket_cases {p : Packet} (h : Sane p) (hlt : p.len < 2 ^ 32) (c : Cfg) :
    (printPacket c p = .error .ub ∧ ¬ Whole p) ∨
    (∃ T, Fine T ∧ printPacket c p =
      .ok [.packet (if c.wantTimestamp then some (printTimestamp p.sec p.usec) else none) T]) ∨
    ∃ x e payload rest k, (p.mem ++ x).length = p.len ∧ IsFrame False c.link e payload rest (p.mem ++ x) ∧
      TakesAll e rest ∧ IsPayload c.dec payload k ∧
      ((k = .empty ∧ printPacket c p = .ok []) ∨
       (∃ s, k = .lpThrows s ∧ printPacket c p = .error (.thrown s)) ∨
       (¬ Accepts c.nameFilter k.name? ∧ printPacket c p = .ok []) ∨
       (k ≠ .empty ∧ (∀ s, k ≠ .lpThrows s) ∧ Accepts c.nameFilter k.name? ∧ printPacket c p =
        .ok [.packet (if c.wantTimestamp then some (printTimestamp p.sec p.usec) else none)
          (join (e.fields payload.length ++ k.fields))])) := by
  rw [printPacket_sane h]
  obtain ⟨x, hx, hu⟩ := printLink_whole h c
  by_cases hub : printLink c p.mem p.len = .error .ub
  · refine .inl ⟨by rw [hub]; rfl, ?_⟩
    rintro ⟨hw, -⟩
    rw [hw] at hub
    rcases printLink_cases c p.mem (by omega) with ⟨T, hd, -⟩ | ⟨e, payload, rest, hf, he⟩
    · rw [hd] at hub; cases hub
    · rw [he] at hub
      obtain ⟨k, hk⟩ := exists_payload c.dec payload
      rcases ndnOut_spec (c := c) (T := join (e.fields payload.length)) hk with
        ⟨-, h⟩ | ⟨s, -, h⟩ | ⟨-, -, ⟨-, h⟩ | ⟨-, f, h⟩⟩ <;>
      · rw [h] at hub; cases hub
  · have hu := hu.resolve_left hub
    rw [hu]
    rcases printLink_cases c (p.mem ++ x) (by omega) with ⟨T, hd, hT⟩ | ⟨e, payload, rest, hf, he⟩
    · exact .inr (.inl ⟨T, hT, by rw [hd]; rfl⟩)
    · have htake : TakesAll e rest ∨ ¬ TakesAll e rest := Classical.em _
      obtain ⟨payload', rest', hf', ht', he'⟩ : ∃ payload' rest', IsFrame False c.link e payload' rest' (p.mem ++ x) ∧
          TakesAll e rest' ∧ printLink c (p.mem ++ x) (p.mem ++ x).length =
            ndnOut c (join (e.fields payload'.length)) payload' := by
        rcases htake with ht | ht
        · exact ⟨payload, rest, hf, ht, he⟩
        · have hs := printLink_frame hf (by omega)
          refine ⟨payload ++ rest, [], ?_, .inl rfl, ?_⟩
          · generalize p.mem ++ x = m at hf
            generalize hl : c.link = l at hf
            cases hf with
            | direct _ t h _ _ h1 h2 =>
              have := IsFrame.direct (exact := False) l t h (payload ++ rest) [] h1 h2
              simpa using this
            | ppp h _ _ h1 =>
              have := IsFrame.ppp (exact := False) h (payload ++ rest) [] h1
              simpa using this
            | ip _ v t lh ih th src dst _ _ fo h1 h2 h3 h4 h5 =>
              cases t with
              | udp => exact absurd (.inr ⟨v, src, dst, rfl⟩) ht
              | tcp =>
                have := IsFrame.ip (exact := False) l v .tcp lh ih th src dst (payload ++ rest) [] fo h1 h2 h3
                  (by simp; omega) (fun h => h.elim)
                simpa using this
          · rw [hs]
            have : seen e payload rest = payload ++ rest := by
              unfold seen
              split
              · rename_i v src dst
                exact absurd (.inr ⟨v, src, dst, rfl⟩) ht
              · rfl
            rw [this]
      obtain ⟨k, hk⟩ := exists_payload c.dec payload'
      refine .inr (.inr ⟨x, e, payload', rest', k, hx, hf', ht', hk, ?_⟩)
      rw [he']
      rcases ndnOut_spec (c := c) (T := join (e.fields payload'.length)) hk with
        ⟨h1, h⟩ | ⟨s, h1, h⟩ | ⟨h1, h2, ⟨ha, h⟩ | ⟨ha, f, h⟩⟩
      · exact .inl ⟨h1, by rw [h]; rfl⟩
      · exact .inr (.inl ⟨s, h1, by rw [h]; rfl⟩)
      · refine .inr (.inr (.inr ⟨h1, h2, ha, ?_⟩))
        rw [h, join_append _ _ (encap_fields_ne _ _) (payload_fields_ok k h1 h2).1]
        rfl
      · exact .inr (.inr (.inl ⟨ha, by rw [h]; rfl⟩))

/-- What is printed for a frame. -/
theorem printPacket_frame {P : Prop} {c : Cfg} {p : Packet} {e : Encap} {payload rest : Bytes} {k : Payload}
    (hw : Whole p) (h : IsFrame P c.link e payload rest p.mem) (hk : IsPayload c.dec (seen e payload rest) k) :
    (k = .empty ∧ printPacket c p = .ok []) ∨
    (∃ s, k = .lpThrows s ∧ printPacket c p = .error (.thrown s)) ∨
    (¬ Accepts c.nameFilter k.name? ∧ printPacket c p = .ok []) ∨
    (k ≠ .empty ∧ (∀ s, k ≠ .lpThrows s) ∧ Accepts c.nameFilter k.name? ∧ printPacket c p =
      .ok [.packet (if c.wantTimestamp then some (printTimestamp p.sec p.usec) else none)
        (join (e.fields (seen e payload rest).length ++ k.fields))]) := by
  have hs : Sane p := ⟨frame_ne h, by rw [hw.1]⟩
  have hl : p.len < 2 ^ 32 := hw.2
  rw [printPacket_sane hs, hw.1, printLink_frame h (by rw [← hw.1]; omega)]
  rcases ndnOut_spec (c := c) (T := join (e.fields (seen e payload rest).length)) hk with
    ⟨h1, h⟩ | ⟨s, h1, h⟩ | ⟨h1, h2, ⟨ha, h⟩ | ⟨ha, f, h⟩⟩
  · exact .inl ⟨h1, by rw [h]; rfl⟩
  · exact .inr (.inl ⟨s, h1, by rw [h]; rfl⟩)
  · refine .inr (.inr (.inr ⟨h1, h2, ha, ?_⟩))
    rw [h, join_append _ _ (encap_fields_ne _ _) (payload_fields_ok k h1 h2).1]
    rfl
  · exact .inr (.inr (.inl ⟨ha, by rw [h]; rfl⟩))

/-! ## The timestamp -/

theorem readDigits_append (a b : Bytes) :
    readDigits (a ++ b) = b.foldl (fun a x => if 48 ≤ x.toNat ∧ x.toNat ≤ 57 then a * 10 + (x.toNat - 48) else a)
      (readDigits a) := by
  simp [readDigits, List.foldl_append]

theorem toNat_digit {n : Nat} (h : n < 10) : (UInt8.ofNat (48 + n)).toNat = 48 + n := by
  rw [UInt8.toNat_ofNat']; omega

/-- Text of digits after a number shifts the number. -/
theorem foldl_decimal (n : Nat) : ∀ a,
    (decimal n).foldl (fun a x => if 48 ≤ x.toNat ∧ x.toNat ≤ 57 then a * 10 + (x.toNat - 48) else a) a =
      a * 10 ^ (decimal n).length + n := by
  induction n using Nat.strongRecOn with
  | _ n ih =>
    intro a
    rw [decimal]
    by_cases h : n < 10
    · rw [if_pos h]
      simp only [List.foldl_cons, List.foldl_nil, toNat_digit h, List.length_singleton]
      rw [if_pos (by omega)]; omega
    · rw [if_neg h]
      rw [List.foldl_append, ih (n / 10) (by omega)]
      simp only [List.foldl_cons, List.foldl_nil, toNat_digit (show n % 10 < 10 by omega), List.length_append,
        List.length_singleton, Nat.pow_succ]
      rw [if_pos (by omega), ← Nat.mul_assoc, Nat.add_mul]
      omega

theorem decimal_digits (n : Nat) : ∀ x ∈ decimal n, 48 ≤ x.toNat ∧ x.toNat ≤ 57 := by
  induction n using Nat.strongRecOn with
  | _ n ih =>
    rw [decimal]
    by_cases h : n < 10
    · rw [if_pos h]
      intro x hx
      rw [List.mem_singleton] at hx
      rw [hx, toNat_digit h]; omega
    · rw [if_neg h]
      intro x hx
      rcases List.mem_append.mp hx with hx | hx
      · exact ih (n / 10) (by omega) x hx
      · rw [List.mem_singleton] at hx
        rw [hx, toNat_digit (by omega)]; omega

theorem length_decimal_le {k : Nat} : ∀ n, n < 10 ^ (k + 1) → (decimal n).length ≤ k + 1 := by
  induction k with
  | zero =>
    intro n h
    rw [decimal, if_pos (by omega)]; simp
  | succ k ih =>
    intro n h
    rw [decimal]
    by_cases hn : n < 10
    · rw [if_pos hn]; simp
    · rw [if_neg hn]
      have := ih (n / 10) (by rw [Nat.pow_succ] at h; omega)
      simp; omega

theorem length_pad6 {n : Nat} (h : n < 10 ^ 6) : (pad6 (decimal n)).length = 6 := by
  have := length_decimal_le (k := 5) n h
  simp [pad6]; omega

theorem foldl_zeros (k : Nat) : ∀ a : Nat, (List.replicate k (48 : UInt8)).foldl
    (fun a x => if 48 ≤ x.toNat ∧ x.toNat ≤ 57 then a * 10 + (x.toNat - 48) else a) a = a * 10 ^ k := by
  induction k with
  | zero => intro a; simp
  | succ k ih =>
    intro a
    simp only [List.replicate_succ, List.foldl_cons]
    rw [ih, if_pos (by decide), Nat.pow_succ]
    simp [Nat.mul_comm, Nat.mul_left_comm, Nat.mul_assoc]

theorem foldl_pad6 {n : Nat} (h : n < 10 ^ 6) (a : Nat) : (pad6 (decimal n)).foldl
    (fun a x => if 48 ≤ x.toNat ∧ x.toNat ≤ 57 then a * 10 + (x.toNat - 48) else a) a = a * 10 ^ 6 + n := by
  have hl := length_decimal_le (k := 5) n h
  unfold pad6
  rw [List.foldl_append, foldl_zeros, foldl_decimal, Nat.mul_assoc, ← Nat.pow_add,
    show 6 - (decimal n).length + (decimal n).length = 6 by omega]

end Verif.Dump
