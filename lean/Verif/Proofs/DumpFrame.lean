import Verif.Proofs.Dump

/-! # Lemmas about ndndump: the headers of frames -/

namespace Verif.Dump

open Spec

theorem beNat_be16 {n : Nat} (h : n < 2 ^ 16) : beNat (be16 n) = n := by
  rw [be16, beNat_beBytes, Nat.mod_eq_of_lt (by omega)]

theorem length_be16 (n : Nat) : (be16 n).length = 2 := length_beBytes 2 n

theorem exists_split {n : Nat} {s : Bytes} (h : n ≤ s.length) : ∃ a b, s = a ++ b ∧ a.length = n :=
  ⟨s.take n, s.drop n, (List.take_append_drop n s).symm, by rw [List.length_take]; omega⟩

theorem exists_two {v : Bytes} (h : v.length = 2) : ∃ a b, v = [a, b] := by
  match v, h with
  | [a, b], _ => exact ⟨a, b, rfl⟩

theorem be16_beNat {v : Bytes} (h : v.length = 2) : be16 (beNat v) = v := by
  obtain ⟨a, b, rfl⟩ := exists_two h
  have ha := a.toNat_lt
  have hb := b.toNat_lt
  have h1 : beNat [a, b] = a.toNat * 256 + b.toNat := by simp [beNat]
  rw [be16, h1]
  simp only [beBytes, List.nil_append, List.cons_append]
  have h2 : (a.toNat * 256 + b.toNat) % 256 = b.toNat := by omega
  have h3 : (a.toNat * 256 + b.toNat) / 256 % 256 = a.toNat := by omega
  rw [h2, h3]
  simp

theorem beNat_two_lt {v : Bytes} (h : v.length = 2) : beNat v < 2 ^ 16 := by
  have := beNat_lt v
  rw [h] at this; omega

/-- A line that reports a problem with a header, or that nothing of NDN follows. -/
def Diag (r : Res (Bool × Fmt)) : Prop := ∃ T, r = .ok (true, ⟨T, false, false⟩) ∧ Fine T

theorem plain_str (s : String) : Plain (.str s) := ⟨by simp, by simp, by simp⟩
theorem plain_num (n : Nat) : Plain (.num n) := ⟨by simp, by simp, by simp⟩
theorem plain_hex (n : Nat) : Plain (.hex n) := ⟨by simp, by simp, by simp⟩
theorem plain_ip4 (a : Bytes) : Plain (.ip4 a) := ⟨by simp, by simp, by simp⟩
theorem plain_ip6 (a : Bytes) : Plain (.ip6 a) := ⟨by simp, by simp, by simp⟩

theorem plain_two {a b : Tok} (ha : Plain a) (hb : Plain b) : ∀ t ∈ [a, b], Plain t := by
  intro t h
  simp only [List.mem_cons, List.not_mem_nil, or_false] at h
  rcases h with rfl | rfl <;> assumption

theorem plain_three {a b c : Tok} (ha : Plain a) (hb : Plain b) (hc : Plain c) : ∀ t ∈ [a, b, c], Plain t := by
  intro t h
  simp only [List.mem_cons, List.not_mem_nil, or_false] at h
  rcases h with rfl | rfl | rfl <;> assumption

theorem plain_one {a : Tok} (ha : Plain a) : ∀ t ∈ [a], Plain t := by
  intro t h
  rw [List.mem_singleton] at h
  rw [h]; exact ha

theorem diag_puts {T : List Tok} {ts : List Tok} (h : Fine T) (hp : ∀ t ∈ ts, Plain t) :
    Diag (.ok (true, (Fmt.mk T false false).puts ts)) := ⟨_, by rw [puts_open], h.more hp⟩

theorem diag_delim {T : List Tok} {t : Tok} {ts : List Tok} (h : Fine T) (hp : ∀ x ∈ t :: ts, Plain x) :
    Diag (.ok (true, (Fmt.mk T false true).puts (t :: ts))) := ⟨_, by rw [puts_delim], h.field (by simp) hp⟩

theorem diag_empty {t : Tok} {ts : List Tok} (hp : ∀ x ∈ t :: ts, Plain x) :
    Diag (.ok (true, Fmt.puts {} (t :: ts))) := ⟨_, by rw [puts_empty], Fine.one (by simp) hp⟩

/-! ## UDP -/

theorem printUdp_ok (c : Cfg) (T : List Tok) (w : Bool) (pre th payload rest : Bytes) (i n : Nat) (hi : i = pre.length)
    (hn : n = th.length + payload.length + rest.length) (h : IsUdpHeader th (8 + payload.length)) :
    printUdp c (pre ++ th ++ payload ++ rest) ⟨T, false, w⟩ i n =
      ndnOut c (T ++ [.delim, .str "UDP", .delim, .str "length ", .num payload.length]) payload := by
  obtain ⟨ports, sum, hth, hp, hs, hu⟩ := h
  have hl : th.length = 8 := by rw [hth]; simp [hp, hs, length_be16]
  unfold printUdp
  simp only [addDelimiter_mk, put_delim]
  rw [if_neg (by omega)]
  rw [show pre ++ th ++ payload ++ rest = (pre ++ ports) ++ be16 (8 + payload.length) ++ (sum ++ payload ++ rest) by
    rw [hth]; simp]
  rw [rd16_append _ _ _ _ (by simp [hi, hp]) (length_be16 _), bind_ok, beNat_be16 hu]
  rw [if_neg (by omega), if_neg (by omega), subSize_eq (by omega) (by omega)]
  simp only [puts_delim]
  rw [show (pre ++ ports) ++ be16 (8 + payload.length) ++ (sum ++ payload ++ rest) = (pre ++ th) ++ payload ++ rest by
    rw [hth]; simp]
  rw [printNdn_eq c _ (pre ++ th) payload rest _ _ (by simp [hi, hl]) (by omega)]
  rw [show 8 + payload.length - 8 = payload.length by omega]
  simp

theorem printUdp_cases (c : Cfg) (T : List Tok) (w : Bool) (pre s : Bytes) (hT : Fine T) :
    Diag (printUdp c (pre ++ s) ⟨T, false, w⟩ pre.length s.length) ∨
    ∃ th payload rest, s = th ++ payload ++ rest ∧ IsUdpHeader th (8 + payload.length) := by
  unfold printUdp
  simp only [addDelimiter_mk, put_delim]
  have hT1 : Fine (T ++ [.delim, .str "UDP"]) := hT.field (by simp) (plain_one (plain_str _))
  by_cases h8 : s.length < 8
  · rw [if_pos h8]
    exact .inl (diag_puts hT1 (plain_two (plain_str _) (plain_num _)))
  · rw [if_neg h8]
    obtain ⟨ports, s1, rfl, hp⟩ := exists_split (n := 4) (s := s) (by omega)
    simp only [List.length_append, hp] at h8 ⊢
    obtain ⟨ul, s2, rfl, hu⟩ := exists_split (n := 2) (s := s1) (by omega)
    simp only [List.length_append, hu] at h8 ⊢
    obtain ⟨sum, body, rfl, hs⟩ := exists_split (n := 2) (s := s2) (by omega)
    simp only [List.length_append, hs] at h8 ⊢
    rw [show pre ++ (ports ++ (ul ++ (sum ++ body))) = (pre ++ ports) ++ ul ++ (sum ++ body) by simp]
    rw [rd16_append _ _ _ _ (by simp [hp]) hu, bind_ok]
    by_cases h1 : beNat ul < 8
    · rw [if_pos h1]
      exact .inl (diag_puts hT1 (plain_two (plain_str _) (plain_num _)))
    · rw [if_neg h1]
      by_cases h2 : beNat ul > 4 + (2 + (2 + body.length))
      · rw [if_pos h2]
        exact .inl (diag_puts hT1 (plain_three (plain_str _) (plain_num _) (plain_str _)))
      · refine .inr ?_
        obtain ⟨payload, rest, rfl, hpl⟩ := exists_split (n := beNat ul - 8) (s := body) (by omega)
        refine ⟨ports ++ ul ++ sum, payload, rest, by simp, ports, sum, ?_, hp, hs, ?_⟩
        · rw [show 8 + payload.length = beNat ul by omega, be16_beNat hu]
        · have := beNat_two_lt hu; omega

/-! ## TCP -/

theorem printTcp_ok (c : Cfg) (T : List Tok) (w : Bool) (pre th body : Bytes) (i n : Nat) (hi : i = pre.length)
    (hn : n = th.length + body.length) (hlt : n < 2 ^ 64) (h : IsTcpHeader th) :
    printTcp c (pre ++ th ++ body) ⟨T, false, w⟩ i n =
      ndnOut c (T ++ [.delim, .str "TCP", .delim, .str "length ", .num body.length]) body := by
  obtain ⟨a, b, low, hth, ha, h20, h4, h60⟩ := h
  unfold printTcp
  simp only [addDelimiter_mk, put_delim]
  rw [if_neg (by omega)]
  rw [show pre ++ th ++ body = (pre ++ a) ++ UInt8.ofNat (th.length / 4 * 16 + low.toNat % 16) :: (b ++ body) by
    conv => lhs; rw [hth]
    simp]
  rw [rd_append _ _ _ _ (by simp [hi, ha]), bind_ok, UInt8.toNat_ofNat']
  have hd : (th.length / 4 * 16 + low.toNat % 16) % 2 ^ 8 / 16 * 4 = th.length := by omega
  rw [hd, if_neg (by omega), if_neg (by omega), subSize_eq (by omega) hlt]
  simp only [puts_delim]
  rw [show (pre ++ a) ++ UInt8.ofNat (th.length / 4 * 16 + low.toNat % 16) :: (b ++ body) = (pre ++ th) ++ body ++ [] by
    conv => rhs; rw [hth]
    simp]
  rw [printNdn_eq c _ (pre ++ th) body [] _ _ (by simp [hi]) (by omega)]
  rw [show n - th.length = body.length by omega]
  simp

theorem printTcp_cases (c : Cfg) (T : List Tok) (w : Bool) (pre s : Bytes) (hT : Fine T) :
    Diag (printTcp c (pre ++ s) ⟨T, false, w⟩ pre.length s.length) ∨
    ∃ th body, s = th ++ body ∧ IsTcpHeader th := by
  unfold printTcp
  simp only [addDelimiter_mk, put_delim]
  have hT1 : Fine (T ++ [.delim, .str "TCP"]) := hT.field (by simp) (plain_one (plain_str _))
  by_cases h8 : s.length < 20
  · rw [if_pos h8]
    exact .inl (diag_puts hT1 (plain_two (plain_str _) (plain_num _)))
  · rw [if_neg h8]
    obtain ⟨a, s1, rfl, ha⟩ := exists_split (n := 12) (s := s) (by omega)
    simp only [List.length_append, ha] at h8 ⊢
    cases s1 with
    | nil => simp at h8
    | cons x s2 =>
      simp only [List.length_cons] at h8 ⊢
      rw [show pre ++ (a ++ x :: s2) = (pre ++ a) ++ x :: s2 by simp]
      rw [rd_append _ _ _ _ (by simp [ha]), bind_ok]
      have hx := x.toNat_lt
      by_cases h1 : x.toNat / 16 * 4 < 20
      · rw [if_pos h1]
        exact .inl (diag_puts hT1 (plain_two (plain_str _) (plain_num _)))
      · rw [if_neg h1]
        by_cases h2 : x.toNat / 16 * 4 > 12 + (s2.length + 1)
        · rw [if_pos h2]
          exact .inl (diag_puts hT1 (plain_three (plain_str _) (plain_num _) (plain_str _)))
        · refine .inr ?_
          obtain ⟨b, body, rfl, hb⟩ := exists_split (n := x.toNat / 16 * 4 - 13) (s := s2) (by omega)
          have hl : (a ++ x :: b).length = x.toNat / 16 * 4 := by simp [ha, hb]; omega
          refine ⟨a ++ x :: b, body, by simp, a, b, x, ?_, ha, by omega, by omega, by omega⟩
          rw [hl, show x.toNat / 16 * 4 / 4 * 16 + x.toNat % 16 = x.toNat by omega]
          simp

/-! ## The transport protocol -/

/-- What is taken as the payload: UDP tells its length, otherwise it is everything. -/
def seen (e : Encap) (payload rest : Bytes) : Bytes :=
  match e with
  | .ip _ .udp _ _ => payload
  | _ => payload ++ rest

theorem dispatchByIpProto_ok (c : Cfg) (T : List Tok) (w : Bool) (pre th payload rest : Bytes) (t : Transport)
    (i n : Nat) (hi : i = pre.length) (hn : n = th.length + payload.length + rest.length) (hlt : n < 2 ^ 64)
    (h : IsTransportHeader th payload.length t) (v src dst) :
    dispatchByIpProto c (pre ++ th ++ payload ++ rest) ⟨T, false, w⟩ i n t.proto.toNat =
      ndnOut c (T ++ .delim :: join (((Encap.ip v t src dst).fields
        (seen (.ip v t src dst) payload rest).length).drop 1)) (seen (.ip v t src dst) payload rest) := by
  unfold dispatchByIpProto
  simp only [addDelimiter_mk]
  cases t with
  | udp =>
    rw [if_neg (by decide), if_neg (by decide), if_pos (by decide), printUdp_ok c T true pre th payload rest i n hi hn h]
    rfl
  | tcp =>
    rw [if_neg (by decide), if_pos (by decide), List.append_assoc _ payload rest,
      printTcp_ok c T true pre th (payload ++ rest) i n hi (by rw [hn]; simp; omega) hlt h]
    rfl

theorem dispatchByIpProto_cases (c : Cfg) (T : List Tok) (w : Bool) (pre s : Bytes) (proto : UInt8) (hT : Fine T) :
    Diag (dispatchByIpProto c (pre ++ s) ⟨T, false, w⟩ pre.length s.length proto.toNat) ∨
    ∃ t th payload rest, proto = t.proto ∧ s = th ++ payload ++ rest ∧
      IsTransportHeader th payload.length t ∧ (t = .tcp → rest = []) := by
  unfold dispatchByIpProto
  simp only [addDelimiter_mk]
  by_cases h1 : proto.toNat = 59
  · rw [if_pos h1]
    exact .inl (diag_delim hT (ts := []) (plain_one (plain_str _)))
  · rw [if_neg h1]
    by_cases h2 : proto.toNat = 6
    · rw [if_pos h2]
      rcases printTcp_cases c T true pre s hT with h | ⟨th, body, rfl, h⟩
      · exact .inl h
      · exact .inr ⟨.tcp, th, body, [], toNat_eq_lit h2, by simp, h, fun _ => rfl⟩
    · rw [if_neg h2]
      by_cases h3 : proto.toNat = 17
      · rw [if_pos h3]
        rcases printUdp_cases c T true pre s hT with h | ⟨th, payload, rest, rfl, h⟩
        · exact .inl h
        · exact .inr ⟨.udp, th, payload, rest, toNat_eq_lit h3, rfl, h, fun h => by cases h⟩
      · rw [if_neg h3]
        exact .inl (diag_delim hT (plain_three (plain_str _) (plain_num _) (plain_str _)))

/-! ## IPv4 -/

theorem printIp4_ok (c : Cfg) (pre ih src dst th payload rest : Bytes) (t : Transport) (following : Nat)
    (i n : Nat) (hi : i = pre.length) (hn : n = ih.length + th.length + payload.length + rest.length) (hlt : n < 2 ^ 64)
    (hih : IsIp4Header ih src dst t.proto (ih.length + following))
    (hf : following ≤ th.length + payload.length + rest.length) (h : IsTransportHeader th payload.length t) :
    printIp4 c (pre ++ ih ++ th ++ payload ++ rest) {} i n =
      ndnOut c (join ((Encap.ip .v4 t src dst).fields (seen (.ip .v4 t src dst) payload rest).length))
        (seen (.ip .v4 t src dst) payload rest) := by
  obtain ⟨tos, mid, sum, opts, hb, hm, hs, hsrc, hdst, h4, h60, ht⟩ := hih
  have h20 : 20 ≤ ih.length := by
    rw [hb]; simp [hm, hs, hsrc, hdst, length_be16]; omega
  generalize hmem : pre ++ ih ++ th ++ payload ++ rest = mem
  have e0 : mem = pre ++ UInt8.ofNat (0x40 + ih.length / 4) ::
      (tos :: be16 (ih.length + following) ++ mid ++ [t.proto] ++ sum ++ src ++ dst ++ opts ++ th ++ payload ++ rest) := by
    rw [← hmem]
    conv => lhs; rw [hb]
    simp
  have r0 : rd mem i = .ok (UInt8.ofNat (0x40 + ih.length / 4)) := by rw [e0]; exact rd_append _ _ _ _ hi
  have r2 : rd16 mem (i + 2) = .ok (ih.length + following) := by
    rw [show mem = (pre ++ [UInt8.ofNat (0x40 + ih.length / 4), tos]) ++ be16 (ih.length + following) ++
      (mid ++ [t.proto] ++ sum ++ src ++ dst ++ opts ++ th ++ payload ++ rest) by rw [e0]; simp]
    rw [rd16_append _ _ _ _ (by simp [hi]) (length_be16 _), beNat_be16 ht]
  have rs : rdBytes mem (i + 12) 4 = .ok src := by
    rw [show mem = (pre ++ UInt8.ofNat (0x40 + ih.length / 4) :: tos :: be16 (ih.length + following) ++ mid ++ [t.proto]
      ++ sum) ++ src ++ (dst ++ opts ++ th ++ payload ++ rest) by rw [e0]; simp]
    exact rdBytes_append _ _ _ _ _ (by simp [hi, hm, hs, length_be16]) hsrc.symm
  have rt : rdBytes mem (i + 16) 4 = .ok dst := by
    rw [show mem = (pre ++ UInt8.ofNat (0x40 + ih.length / 4) :: tos :: be16 (ih.length + following) ++ mid ++ [t.proto]
      ++ sum ++ src) ++ dst ++ (opts ++ th ++ payload ++ rest) by rw [e0]; simp]
    exact rdBytes_append _ _ _ _ _ (by simp [hi, hm, hs, hsrc, length_be16]) hdst.symm
  have r9 : rd mem (i + 9) = .ok t.proto := by
    rw [show mem = (pre ++ UInt8.ofNat (0x40 + ih.length / 4) :: tos :: be16 (ih.length + following) ++ mid) ++ t.proto ::
      (sum ++ src ++ dst ++ opts ++ th ++ payload ++ rest) by rw [e0]; simp]
    exact rd_append _ _ _ _ (by simp [hi, hm, length_be16])
  have hv : (UInt8.ofNat (0x40 + ih.length / 4)).toNat = 64 + ih.length / 4 := by
    rw [UInt8.toNat_ofNat']; omega
  unfold printIp4
  simp only [addDelimiter_empty, put_empty]
  rw [if_neg (by omega), r0, bind_ok, hv, if_neg (by omega)]
  have hh : (64 + ih.length / 4) % 16 * 4 = ih.length := by omega
  rw [hh, if_neg (by omega), r2, bind_ok, if_neg (by omega), if_neg (by omega), rs, bind_ok, rt, bind_ok, r9, bind_ok,
    puts_open, subSize_eq (by omega) hlt, ← hmem]
  rw [dispatchByIpProto_ok c _ false (pre ++ ih) th payload rest t _ _ (by simp [hi]) (by omega) (by omega) h .v4 src dst]
  rfl

theorem printIp4_cases (c : Cfg) (pre s : Bytes) (hlt : s.length < 2 ^ 64) :
    Diag (printIp4 c (pre ++ s) {} pre.length s.length) ∨
    ∃ ih src dst t th payload rest following, s = ih ++ th ++ payload ++ rest ∧
      IsIp4Header ih src dst (Transport.proto t) (ih.length + following) ∧
      following ≤ th.length + payload.length + rest.length ∧ IsTransportHeader th payload.length t ∧
      (t = .tcp → rest = []) := by
  unfold printIp4
  simp only [addDelimiter_empty, put_empty]
  have hT : Fine [.str "IP "] := Fine.one (by simp) (plain_one (plain_str _))
  by_cases h20 : s.length < 20
  · rw [if_pos h20]
    exact .inl (diag_puts hT (plain_two (plain_str _) (plain_num _)))
  · rw [if_neg h20]
    generalize hmem : pre ++ s = mem
    obtain ⟨b0, s1, hs1⟩ : ∃ x l, s = x :: l := by
      cases s with
      | nil => simp at h20
      | cons x l => exact ⟨x, l, rfl⟩
    have l1 : s.length = s1.length + 1 := by rw [hs1]; simp
    obtain ⟨tos, s2, hs2⟩ : ∃ x l, s1 = x :: l := by
      cases hh : s1 with
      | nil => rw [hh] at l1; simp at l1; omega
      | cons x l => exact ⟨x, l, rfl⟩
    have l2 : s1.length = s2.length + 1 := by rw [hs2]; simp
    obtain ⟨tot, s3, hs3, htot⟩ := exists_split (n := 2) (s := s2) (by omega)
    have l3 : s2.length = 2 + s3.length := by rw [hs3]; simp [htot]
    obtain ⟨mid, s4, hs4, hmid⟩ := exists_split (n := 5) (s := s3) (by omega)
    have l4 : s3.length = 5 + s4.length := by rw [hs4]; simp [hmid]
    obtain ⟨proto, s5, hs5⟩ : ∃ x l, s4 = x :: l := by
      cases hh : s4 with
      | nil => rw [hh] at l4; simp at l4; omega
      | cons x l => exact ⟨x, l, rfl⟩
    have l5 : s4.length = s5.length + 1 := by rw [hs5]; simp
    obtain ⟨sum, s6, hs6, hsum⟩ := exists_split (n := 2) (s := s5) (by omega)
    have l6 : s5.length = 2 + s6.length := by rw [hs6]; simp [hsum]
    obtain ⟨src, s7, hs7, hsrc⟩ := exists_split (n := 4) (s := s6) (by omega)
    have l7 : s6.length = 4 + s7.length := by rw [hs7]; simp [hsrc]
    obtain ⟨dst, s8, hs8, hdst⟩ := exists_split (n := 4) (s := s7) (by omega)
    have l8 : s7.length = 4 + s8.length := by rw [hs8]; simp [hdst]
    have e0 : mem = pre ++ b0 :: tos :: tot ++ mid ++ [proto] ++ sum ++ src ++ dst ++ s8 := by
      rw [← hmem, hs1, hs2, hs3, hs4, hs5, hs6, hs7, hs8]; simp
    have r0 : rd mem pre.length = .ok b0 := by
      rw [show mem = pre ++ b0 :: (tos :: tot ++ mid ++ [proto] ++ sum ++ src ++ dst ++ s8) by rw [e0]; simp]
      exact rd_append _ _ _ _ rfl
    have r2 : rd16 mem (pre.length + 2) = .ok (beNat tot) := by
      rw [show mem = (pre ++ [b0, tos]) ++ tot ++ (mid ++ [proto] ++ sum ++ src ++ dst ++ s8) by rw [e0]; simp]
      exact rd16_append _ _ _ _ (by simp) htot
    have rs : rdBytes mem (pre.length + 12) 4 = .ok src := by
      rw [show mem = (pre ++ b0 :: tos :: tot ++ mid ++ [proto] ++ sum) ++ src ++ (dst ++ s8) by rw [e0]; simp]
      exact rdBytes_append _ _ _ _ _ (by simp [htot, hmid, hsum]) hsrc.symm
    have rt : rdBytes mem (pre.length + 16) 4 = .ok dst := by
      rw [show mem = (pre ++ b0 :: tos :: tot ++ mid ++ [proto] ++ sum ++ src) ++ dst ++ s8 by rw [e0]]
      exact rdBytes_append _ _ _ _ _ (by simp [htot, hmid, hsum, hsrc]) hdst.symm
    have r9 : rd mem (pre.length + 9) = .ok proto := by
      rw [show mem = (pre ++ b0 :: tos :: tot ++ mid) ++ proto :: (sum ++ src ++ dst ++ s8) by rw [e0]; simp]
      exact rd_append _ _ _ _ (by simp [htot, hmid])
    rw [r0, bind_ok]
    by_cases h4 : b0.toNat / 16 = 4
    · rw [if_neg (by simpa using h4)]
      by_cases hh : b0.toNat % 16 * 4 < 20
      · rw [if_pos hh]
        exact .inl (diag_puts hT (plain_two (plain_str _) (plain_num _)))
      · rw [if_neg hh, r2, bind_ok]
        by_cases h1 : beNat tot < b0.toNat % 16 * 4
        · rw [if_pos h1]
          exact .inl (diag_puts hT (plain_two (plain_str _) (plain_num _)))
        · rw [if_neg h1]
          by_cases h2 : beNat tot > s.length
          · rw [if_pos h2]
            exact .inl (diag_puts hT (plain_three (plain_str _) (plain_num _) (plain_str _)))
          · rw [if_neg h2, rs, bind_ok, rt, bind_ok, r9, bind_ok, puts_open, subSize_eq (by omega) hlt]
            obtain ⟨opts, body, hs9, hopts⟩ := exists_split (n := b0.toNat % 16 * 4 - 20) (s := s8) (by omega)
            have l9 : s8.length = b0.toNat % 16 * 4 - 20 + body.length := by rw [hs9]; simp [hopts]
            generalize hih : b0 :: tos :: tot ++ mid ++ [proto] ++ sum ++ src ++ dst ++ opts = ih
            have hil : ih.length = b0.toNat % 16 * 4 := by
              rw [← hih]; simp [htot, hmid, hsum, hsrc, hdst, hopts]; omega
            have hme : mem = (pre ++ ih) ++ body := by rw [e0, ← hih, hs9]; simp
            have hse : s = ih ++ body := by
              have : pre ++ s = pre ++ (ih ++ body) := by rw [hmem, hme]; simp
              exact List.append_cancel_left this
            have hT2 : Fine ([.str "IP "] ++ [.ip4 src, .str " > ", .ip4 dst]) :=
              hT.more (plain_three (plain_ip4 _) (plain_str _) (plain_ip4 _))
            have hb0 := b0.toNat_lt
            have := dispatchByIpProto_cases c _ false (pre ++ ih) body proto hT2
            rw [hme, show pre.length + b0.toNat % 16 * 4 = (pre ++ ih).length by simp [hil],
              show s.length - b0.toNat % 16 * 4 = body.length by omega]
            rcases this with h | ⟨t, th, payload, rest, hp, hbody, hth, htcp⟩
            · exact .inl h
            · refine .inr ⟨ih, src, dst, t, th, payload, rest, beNat tot - ih.length, ?_, ?_, ?_, hth, htcp⟩
              · rw [hse, hbody]; simp
              · refine ⟨tos, mid, sum, opts, ?_, hmid, hsum, hsrc, hdst, by omega, by omega, ?_⟩
                · rw [show ih.length + (beNat tot - ih.length) = beNat tot by omega, be16_beNat htot, ← hp,
                    show 0x40 + ih.length / 4 = b0.toNat by omega, ← hih]
                  simp
                · have := beNat_two_lt htot; omega
              · have : body.length = th.length + payload.length + rest.length := by rw [hbody]; simp; omega
                omega
    · rw [if_pos (by simpa using h4)]
      exact .inl (diag_puts hT (plain_two (plain_str _) (plain_num _)))

end Verif.Dump
