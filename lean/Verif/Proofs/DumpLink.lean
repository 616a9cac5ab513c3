import Verif.Proofs.DumpFrame

/-! # Lemmas about ndndump: IPv6 and the link layers -/

namespace Verif.Dump

open Spec

theorem printIp6_ok (c : Cfg) (pre ih src dst th payload rest : Bytes) (t : Transport) (following : Nat)
    (i n : Nat) (hi : i = pre.length) (hn : n = ih.length + th.length + payload.length + rest.length) (hlt : n < 2 ^ 64)
    (hih : IsIp6Header ih src dst t.proto following)
    (hf : following ≤ th.length + payload.length + rest.length) (h : IsTransportHeader th payload.length t) :
    printIp6 c (pre ++ ih ++ th ++ payload ++ rest) {} i n =
      ndnOut c (join ((Encap.ip .v6 t src dst).fields (seen (.ip .v6 t src dst) payload rest).length))
        (seen (.ip .v6 t src dst) payload rest) := by
  obtain ⟨low, hop, flow, hb, hfl, hsrc, hdst, ht⟩ := hih
  have h40 : ih.length = 40 := by
    rw [hb]; simp [hfl, hsrc, hdst, length_be16]
  generalize hmem : pre ++ ih ++ th ++ payload ++ rest = mem
  generalize hx : UInt8.ofNat (0x60 + low.toNat % 16) = x at hb
  have hv : x.toNat = 96 + low.toNat % 16 := by
    rw [← hx, UInt8.toNat_ofNat']; omega
  have e0 : mem = pre ++ x :: (flow ++ be16 following ++ [t.proto, hop] ++ src ++ dst ++ th ++ payload ++ rest) := by
    rw [← hmem]
    conv => lhs; rw [hb]
    simp
  have r0 : rd mem i = .ok x := by rw [e0]; exact rd_append _ _ _ _ hi
  have r4 : rd16 mem (i + 4) = .ok following := by
    rw [show mem = (pre ++ x :: flow) ++ be16 following ++ ([t.proto, hop] ++ src ++ dst ++ th ++ payload ++ rest) by
      rw [e0]; simp]
    rw [rd16_append _ _ _ _ (by simp [hi, hfl]) (length_be16 _), beNat_be16 ht]
  have r6 : rd mem (i + 6) = .ok t.proto := by
    rw [show mem = (pre ++ x :: flow ++ be16 following) ++ t.proto :: (hop :: src ++ dst ++ th ++ payload ++ rest) by
      rw [e0]; simp]
    exact rd_append _ _ _ _ (by simp [hi, hfl, length_be16])
  have rs : rdBytes mem (i + 8) 16 = .ok src := by
    rw [show mem = (pre ++ x :: flow ++ be16 following ++ [t.proto, hop]) ++ src ++ (dst ++ th ++ payload ++ rest) by
      rw [e0]; simp]
    exact rdBytes_append _ _ _ _ _ (by simp [hi, hfl, length_be16]) hsrc.symm
  have rt : rdBytes mem (i + 24) 16 = .ok dst := by
    rw [show mem = (pre ++ x :: flow ++ be16 following ++ [t.proto, hop] ++ src) ++ dst ++ (th ++ payload ++ rest) by
      rw [e0]; simp]
    exact rdBytes_append _ _ _ _ _ (by simp [hi, hfl, hsrc, length_be16]) hdst.symm
  unfold printIp6
  simp only [addDelimiter_empty, put_empty]
  rw [if_neg (by omega), r0, bind_ok, hv, if_neg (by omega), subSize_eq (by omega) hlt, r4, bind_ok, if_neg (by omega),
    rs, bind_ok, rt, bind_ok, r6, bind_ok, puts_open, ← hmem]
  rw [dispatchByIpProto_ok c _ false (pre ++ ih) th payload rest t _ _ (by simp [hi, h40]) (by omega) (by omega) h .v6
    src dst]
  rfl

theorem printIp6_cases (c : Cfg) (pre s : Bytes) (hlt : s.length < 2 ^ 64) :
    Diag (printIp6 c (pre ++ s) {} pre.length s.length) ∨
    ∃ ih src dst t th payload rest following, s = ih ++ th ++ payload ++ rest ∧
      IsIp6Header ih src dst (Transport.proto t) following ∧
      following ≤ th.length + payload.length + rest.length ∧ IsTransportHeader th payload.length t ∧
      (t = .tcp → rest = []) := by
  unfold printIp6
  simp only [addDelimiter_empty, put_empty]
  have hT : Fine [.str "IP6 "] := Fine.one (by simp) (plain_one (plain_str _))
  by_cases h40 : s.length < 40
  · rw [if_pos h40]
    exact .inl (diag_puts hT (plain_two (plain_str _) (plain_num _)))
  · rw [if_neg h40]
    generalize hmem : pre ++ s = mem
    obtain ⟨b0, s1, hs1⟩ : ∃ x l, s = x :: l := by
      cases s with
      | nil => simp at h40
      | cons x l => exact ⟨x, l, rfl⟩
    have l1 : s.length = s1.length + 1 := by rw [hs1]; simp
    obtain ⟨flow, s2, hs2, hflow⟩ := exists_split (n := 3) (s := s1) (by omega)
    have l2 : s1.length = 3 + s2.length := by rw [hs2]; simp [hflow]
    obtain ⟨pl, s3, hs3, hpl⟩ := exists_split (n := 2) (s := s2) (by omega)
    have l3 : s2.length = 2 + s3.length := by rw [hs3]; simp [hpl]
    obtain ⟨ph, s4, hs4, hph⟩ := exists_split (n := 2) (s := s3) (by omega)
    have l4 : s3.length = 2 + s4.length := by rw [hs4]; simp [hph]
    obtain ⟨proto, hop, rfl⟩ := exists_two hph
    obtain ⟨src, s5, hs5, hsrc⟩ := exists_split (n := 16) (s := s4) (by omega)
    have l5 : s4.length = 16 + s5.length := by rw [hs5]; simp [hsrc]
    obtain ⟨dst, body, hs6, hdst⟩ := exists_split (n := 16) (s := s5) (by omega)
    have l6 : s5.length = 16 + body.length := by rw [hs6]; simp [hdst]
    have e0 : mem = pre ++ b0 :: (flow ++ pl ++ [proto, hop] ++ src ++ dst ++ body) := by
      rw [← hmem, hs1, hs2, hs3, hs4, hs5, hs6]; simp
    have r0 : rd mem pre.length = .ok b0 := by rw [e0]; exact rd_append _ _ _ _ rfl
    have r4 : rd16 mem (pre.length + 4) = .ok (beNat pl) := by
      rw [show mem = (pre ++ b0 :: flow) ++ pl ++ ([proto, hop] ++ src ++ dst ++ body) by rw [e0]; simp]
      exact rd16_append _ _ _ _ (by simp [hflow]) hpl
    have r6 : rd mem (pre.length + 6) = .ok proto := by
      rw [show mem = (pre ++ b0 :: flow ++ pl) ++ proto :: (hop :: src ++ dst ++ body) by rw [e0]; simp]
      exact rd_append _ _ _ _ (by simp [hflow, hpl])
    have rs : rdBytes mem (pre.length + 8) 16 = .ok src := by
      rw [show mem = (pre ++ b0 :: flow ++ pl ++ [proto, hop]) ++ src ++ (dst ++ body) by rw [e0]; simp]
      exact rdBytes_append _ _ _ _ _ (by simp [hflow, hpl]) hsrc.symm
    have rt : rdBytes mem (pre.length + 24) 16 = .ok dst := by
      rw [show mem = (pre ++ b0 :: flow ++ pl ++ [proto, hop] ++ src) ++ dst ++ body by rw [e0]; simp]
      exact rdBytes_append _ _ _ _ _ (by simp [hflow, hpl, hsrc]) hdst.symm
    rw [r0, bind_ok]
    by_cases h6 : b0.toNat / 16 = 6
    · rw [if_neg (by simpa using h6), r4, bind_ok, subSize_eq (by omega) hlt]
      by_cases h1 : s.length - 40 < beNat pl
      · rw [if_pos h1]
        exact .inl (diag_puts hT (plain_three (plain_str _) (plain_num _) (plain_str _)))
      · rw [if_neg h1, rs, bind_ok, rt, bind_ok, r6, bind_ok, puts_open]
        generalize hih : b0 :: flow ++ pl ++ [proto, hop] ++ src ++ dst = ih
        have hil : ih.length = 40 := by
          rw [← hih]; simp [hflow, hpl, hsrc, hdst]
        have hme : mem = (pre ++ ih) ++ body := by rw [e0, ← hih]; simp
        have hse : s = ih ++ body := by
          have : pre ++ s = pre ++ (ih ++ body) := by rw [hmem, hme]; simp
          exact List.append_cancel_left this
        have hT2 : Fine ([.str "IP6 "] ++ [.ip6 src, .str " > ", .ip6 dst]) :=
          hT.more (plain_three (plain_ip6 _) (plain_str _) (plain_ip6 _))
        have hb0 := b0.toNat_lt
        have := dispatchByIpProto_cases c _ false (pre ++ ih) body proto hT2
        rw [hme, show pre.length + 40 = (pre ++ ih).length by simp [hil],
          show s.length - 40 = body.length by omega]
        rcases this with h | ⟨t, th, payload, rest, hp, hbody, hth, htcp⟩
        · exact .inl h
        · refine .inr ⟨ih, src, dst, t, th, payload, rest, beNat pl, ?_, ?_, ?_, hth, htcp⟩
          · rw [hse, hbody]; simp
          · refine ⟨b0, hop, flow, ?_, hflow, hsrc, hdst, beNat_two_lt hpl⟩
            rw [be16_beNat hpl, ← hp, show 0x60 + b0.toNat % 16 = b0.toNat by omega, ← hih]
            simp
          · have : body.length = th.length + payload.length + rest.length := by rw [hbody]; simp; omega
            omega
    · rw [if_pos (by simpa using h6)]
      exact .inl (diag_puts hT (plain_two (plain_str _) (plain_num _)))

/-! ## By EtherType -/

theorem dispatchByEtherType_ip (c : Cfg) (pre ih src dst th payload rest : Bytes) (v : IpVersion) (t : Transport)
    (following : Nat) (i n : Nat) (hi : i = pre.length)
    (hn : n = ih.length + th.length + payload.length + rest.length) (hlt : n < 2 ^ 64)
    (hih : IsIpHeader ih src dst t.proto following v)
    (hf : following ≤ th.length + payload.length + rest.length) (h : IsTransportHeader th payload.length t) :
    dispatchByEtherType c (pre ++ ih ++ th ++ payload ++ rest) {} i n v.etherType =
      ndnOut c (join ((Encap.ip v t src dst).fields (seen (.ip v t src dst) payload rest).length))
        (seen (.ip v t src dst) payload rest) := by
  unfold dispatchByEtherType
  simp only [addDelimiter_empty]
  cases v with
  | v4 => rw [if_pos (by decide)]; exact printIp4_ok c pre ih src dst th payload rest t following i n hi hn hlt hih hf h
  | v6 =>
    rw [if_neg (by decide), if_pos (by decide)]
    exact printIp6_ok c pre ih src dst th payload rest t following i n hi hn hlt hih hf h

theorem dispatchByEtherType_ndn (c : Cfg) (pre s : Bytes) (t i n : Nat) (hi : i = pre.length) (hn : n = s.length)
    (ht : t = 0x8624 ∨ t = 0x7777) :
    dispatchByEtherType c (pre ++ s) {} i n t = ndnOut c [.str "Ethernet"] s := by
  unfold dispatchByEtherType
  simp only [addDelimiter_empty, put_empty]
  rw [if_neg (by omega), if_neg (by omega), if_pos ht]
  have := printNdn_eq c [.str "Ethernet"] pre s [] i n hi hn
  rw [List.append_nil] at this
  exact this

theorem dispatchByEtherType_cases (c : Cfg) (pre s : Bytes) (hlt : s.length < 2 ^ 64) (type : Nat) :
    Diag (dispatchByEtherType c (pre ++ s) {} pre.length s.length type) ∨
    (type = 0x8624 ∨ type = 0x7777) ∨
    ∃ v ih src dst t th payload rest following, type = IpVersion.etherType v ∧ s = ih ++ th ++ payload ++ rest ∧
      IsIpHeader ih src dst (Transport.proto t) following v ∧
      following ≤ th.length + payload.length + rest.length ∧ IsTransportHeader th payload.length t ∧
      (t = .tcp → rest = []) := by
  by_cases h1 : type = 0x0800
  · rcases printIp4_cases c pre s hlt with h | ⟨ih, src, dst, t, th, payload, rest, fo, h⟩
    · left
      unfold dispatchByEtherType
      simp only [addDelimiter_empty]
      rw [if_pos h1]; exact h
    · exact .inr (.inr ⟨.v4, ih, src, dst, t, th, payload, rest, fo, h1, h⟩)
  · by_cases h2 : type = 0x86DD
    · rcases printIp6_cases c pre s hlt with h | ⟨ih, src, dst, t, th, payload, rest, fo, h⟩
      · left
        unfold dispatchByEtherType
        simp only [addDelimiter_empty]
        rw [if_neg h1, if_pos h2]; exact h
      · exact .inr (.inr ⟨.v6, ih, src, dst, t, th, payload, rest, fo, h2, h⟩)
    · by_cases h3 : type = 0x8624 ∨ type = 0x7777
      · exact .inr (.inl h3)
      · left
        unfold dispatchByEtherType
        simp only [addDelimiter_empty]
        rw [if_neg h1, if_neg h2, if_neg h3]
        exact diag_empty (plain_three (plain_str _) (plain_hex _) (plain_str _))

/-! ## Ethernet and Linux cooked capture -/

theorem printLink_header (c : Cfg) (t : Nat) (h s : Bytes) (hh : IsLinkHeader t c.link h) (ht : t < 2 ^ 16)
    (hlt : (h ++ s).length < 2 ^ 64) :
    printLink c (h ++ s) (h ++ s).length = dispatchByEtherType c (h ++ s) {} h.length s.length t := by
  unfold printLink
  generalize hl : c.link = link at hh
  cases hh with
  | ether mac hm =>
    unfold printEther
    have hx : (mac ++ be16 t).length = 14 := by simp [hm, length_be16]
    have hy : (mac ++ be16 t ++ s).length = 14 + s.length := by rw [List.length_append, hx]
    simp only
    rw [if_neg (by omega), rd16_append _ _ _ _ hm.symm (length_be16 t), bind_ok, beNat_be16 ht, hx,
      subSize_eq (by omega) hlt, hy, show 14 + s.length - 14 = s.length by omega]
  | sll mac hm =>
    unfold printLinuxSll
    have hx : (mac ++ be16 t).length = 16 := by simp [hm, length_be16]
    have hy : (mac ++ be16 t ++ s).length = 16 + s.length := by rw [List.length_append, hx]
    simp only
    rw [if_neg (by omega), rd16_append _ _ _ _ hm.symm (length_be16 t), bind_ok, beNat_be16 ht, hx,
      subSize_eq (by omega) hlt, hy, show 16 + s.length - 16 = s.length by omega]

theorem printLink_cases_header (c : Cfg) (hc : c.link ≠ .ppp) (mem : Bytes) :
    Diag (printLink c mem mem.length) ∨ ∃ t h s, mem = h ++ s ∧ IsLinkHeader t c.link h ∧ t < 2 ^ 16 := by
  unfold printLink
  cases hl : c.link with
  | ether =>
    simp only [printEther]
    by_cases h : mem.length < 14
    · rw [if_pos h]
      exact .inl (diag_empty (plain_two (plain_str _) (plain_num _)))
    · obtain ⟨mac, s1, hs1, hm⟩ := exists_split (n := 12) (s := mem) (by omega)
      have l1 : mem.length = 12 + s1.length := by rw [hs1]; simp [hm]
      obtain ⟨ty, s, hs2, hty⟩ := exists_split (n := 2) (s := s1) (by omega)
      refine .inr ⟨beNat ty, mac ++ ty, s, by rw [hs1, hs2]; simp, ?_, beNat_two_lt hty⟩
      have := IsLinkHeader.ether (t := beNat ty) mac hm
      rw [be16_beNat hty] at this; exact this
  | sll =>
    simp only [printLinuxSll]
    by_cases h : mem.length < 16
    · rw [if_pos h]
      exact .inl (diag_empty (plain_two (plain_str _) (plain_num _)))
    · obtain ⟨mac, s1, hs1, hm⟩ := exists_split (n := 14) (s := mem) (by omega)
      have l1 : mem.length = 14 + s1.length := by rw [hs1]; simp [hm]
      obtain ⟨ty, s, hs2, hty⟩ := exists_split (n := 2) (s := s1) (by omega)
      refine .inr ⟨beNat ty, mac ++ ty, s, by rw [hs1, hs2]; simp, ?_, beNat_two_lt hty⟩
      have := IsLinkHeader.sll (t := beNat ty) mac hm
      rw [be16_beNat hty] at this; exact this
  | ppp => exact absurd hl hc

/-! ## PPP -/

theorem printPppBody_ndn (c : Cfg) (pre s : Bytes) (x y : UInt8) (i n : Nat) (hi : i = pre.length)
    (hn : n = s.length + 2) (hlt : n < 2 ^ 64) :
    printPppBody c (pre ++ x :: y :: s) {} i n 0x0077 = ndnOut c [.str "PPP"] s := by
  unfold printPppBody
  rw [if_pos rfl, if_neg (by omega), subSize_eq (by omega) hlt, put_empty]
  have := printNdn_eq c [.str "PPP"] (pre ++ [x, y]) s [] (i + 2) (n - 2) (by simp [hi]) (by omega)
  rw [List.append_nil, show pre ++ [x, y] ++ s = pre ++ x :: y :: s by simp] at this
  exact this

theorem printPppProto_one (c : Cfg) (pre s : Bytes) (b : UInt8) (i n : Nat) (hi : i = pre.length)
    (hn : n = s.length + 1) (hlt : n < 2 ^ 64) (hb : b.toNat % 2 = 1) :
    printPppProto c (pre ++ b :: s) {} i n = printPppBody c (pre ++ b :: s) {} (i + 1) s.length b.toNat := by
  unfold printPppProto
  rw [rd_append _ _ _ _ hi, bind_ok, if_pos hb, subSize_eq (by omega) hlt, show n - 1 = s.length by omega]

theorem printPppProto_two (c : Cfg) (pre s : Bytes) (b b1 : UInt8) (i n : Nat) (hi : i = pre.length)
    (hn : n = s.length + 2) (hlt : n < 2 ^ 64) (hb : ¬ b.toNat % 2 = 1) :
    printPppProto c (pre ++ b :: b1 :: s) {} i n =
      printPppBody c (pre ++ b :: b1 :: s) {} (i + 2) s.length (b.toNat * 256 + b1.toNat) := by
  unfold printPppProto
  have h1 : rd (pre ++ b :: b1 :: s) (i + 1) = .ok b1 := by
    rw [show pre ++ b :: b1 :: s = (pre ++ [b]) ++ b1 :: s by simp]
    exact rd_append _ _ _ _ (by simp [hi])
  rw [rd_append _ _ _ _ hi, bind_ok, if_neg hb, h1, bind_ok, subSize_eq (by omega) hlt, show n - 2 = s.length by omega]

theorem printPppProto_ok (c : Cfg) (pre proto s : Bytes) (x y : UInt8) (i n : Nat) (hi : i = pre.length)
    (hp : proto = [0x77] ∨ proto = [0x00, 0x77]) (hn : n = proto.length + 2 + s.length) (hlt : n < 2 ^ 64) :
    printPppProto c (pre ++ proto ++ x :: y :: s) {} i n = ndnOut c [.str "PPP"] s := by
  rcases hp with rfl | rfl
  · have h1 := printPppProto_one c pre (x :: y :: s) 0x77 i n hi (by simp [hn]; omega) hlt (by decide)
    rw [show pre ++ [0x77] ++ x :: y :: s = pre ++ 0x77 :: x :: y :: s by simp, h1,
      show pre ++ 0x77 :: x :: y :: s = (pre ++ [0x77]) ++ x :: y :: s by simp]
    exact printPppBody_ndn c _ s x y _ _ (by simp [hi]) (by simp) (by simp at hn ⊢; omega)
  · have h1 := printPppProto_two c pre (x :: y :: s) 0x00 0x77 i n hi (by simp [hn]; omega) hlt (by decide)
    rw [show pre ++ [0x00, 0x77] ++ x :: y :: s = pre ++ 0x00 :: 0x77 :: x :: y :: s by simp, h1,
      show pre ++ 0x00 :: 0x77 :: x :: y :: s = (pre ++ [0x00, 0x77]) ++ x :: y :: s by simp]
    exact printPppBody_ndn c _ s x y _ _ (by simp [hi]) (by simp) (by simp at hn ⊢; omega)

theorem isHdlc_framed (s : Bytes) : isHdlc (0xff :: 0x03 :: s) = .ok true := rfl

theorem printPpp_ok (c : Cfg) (h s : Bytes) (hh : IsPppHeader h) (hlt : (h ++ s).length < 2 ^ 64) :
    printPpp c (h ++ s) {} (h ++ s).length = ndnOut c [.str "PPP"] s := by
  obtain ⟨framing, proto, extra, rfl, hf, hp, he⟩ := hh
  obtain ⟨x, y, rfl⟩ := exists_two he
  have hpl : 1 ≤ proto.length ∧ proto.length ≤ 2 := by rcases hp with rfl | rfl <;> simp
  unfold printPpp
  rcases hf with rfl | rfl
  · have hd : isHdlc ([] ++ proto ++ [x, y] ++ s) = .ok false := by
      rcases hp with rfl | rfl <;> rfl
    rw [if_neg (by simp; omega), hd, bind_ok, if_neg (by simp)]
    have := printPppProto_ok c [] proto s x y 0 ([] ++ proto ++ [x, y] ++ s).length rfl hp (by simp; omega) hlt
    rw [show [] ++ proto ++ x :: y :: s = [] ++ proto ++ [x, y] ++ s by simp] at this
    exact this
  · have hd : isHdlc ([0xff, 0x03] ++ proto ++ [x, y] ++ s) = .ok true := rfl
    have hl : ([0xff, 0x03] ++ proto ++ [x, y] ++ s : Bytes).length = proto.length + 4 + s.length := by simp; omega
    rw [hl] at hlt ⊢
    rw [if_neg (by omega), hd, bind_ok, if_pos rfl, if_neg (by omega), subSize_eq (by omega) hlt]
    have := printPppProto_ok c [0xff, 0x03] proto s x y 2 (proto.length + 4 + s.length - 2) rfl hp (by omega) (by omega)
    rw [show [0xff, 0x03] ++ proto ++ x :: y :: s = [0xff, 0x03] ++ proto ++ [x, y] ++ s by simp] at this
    exact this

theorem printPppBody_cases (c : Cfg) (pre s : Bytes) (proto : Nat) (hlt : s.length < 2 ^ 64) :
    Diag (printPppBody c (pre ++ s) {} pre.length s.length proto) ∨
    proto = 0x77 ∧ ∃ extra body, s = extra ++ body ∧ extra.length = 2 := by
  unfold printPppBody
  by_cases h : proto = 0x77
  · rw [if_pos h]
    by_cases h2 : s.length < 2
    · rw [if_pos h2]
      exact .inl (diag_empty (ts := []) (plain_one (plain_str _)))
    · obtain ⟨e, b, hs, he⟩ := exists_split (n := 2) (s := s) (by omega)
      exact .inr ⟨h, e, b, hs, he⟩
  · rw [if_neg h]
    exact .inl (diag_empty (plain_three (plain_str _) (plain_hex _) (plain_str _)))

theorem printPppProto_cases (c : Cfg) (pre s : Bytes) (h2 : 2 ≤ s.length) (hlt : s.length < 2 ^ 64) :
    Diag (printPppProto c (pre ++ s) {} pre.length s.length) ∨
    ∃ proto extra body, s = proto ++ extra ++ body ∧ (proto = [0x77] ∨ proto = [0x00, 0x77]) ∧ extra.length = 2 := by
  match s, h2 with
  | b :: b1 :: r, _ =>
    have hb := b.toNat_lt
    have hb1 := b1.toNat_lt
    simp only [List.length_cons] at hlt ⊢
    by_cases hodd : b.toNat % 2 = 1
    · rw [printPppProto_one c pre (b1 :: r) b pre.length _ rfl (by simp) hlt hodd]
      have := printPppBody_cases c (pre ++ [b]) (b1 :: r) b.toNat (by simp; omega)
      rw [show pre ++ b :: b1 :: r = (pre ++ [b]) ++ b1 :: r by simp,
        show pre.length + 1 = (pre ++ [b]).length by simp]
      rcases this with h | ⟨h, e, body, hs, he⟩
      · exact .inl h
      · refine .inr ⟨[0x77], e, body, ?_, .inl rfl, he⟩
        rw [hs, toNat_eq_lit h]; rfl
    · rw [printPppProto_two c pre r b b1 pre.length _ rfl (by simp) hlt hodd]
      have := printPppBody_cases c (pre ++ [b, b1]) r (b.toNat * 256 + b1.toNat) (by omega)
      rw [show pre ++ b :: b1 :: r = (pre ++ [b, b1]) ++ r by simp,
        show pre.length + 2 = (pre ++ [b, b1]).length by simp]
      rcases this with h | ⟨h, e, body, hs, he⟩
      · exact .inl h
      · refine .inr ⟨[0x00, 0x77], e, body, ?_, .inr rfl, he⟩
        have h0 : b.toNat = 0 := by omega
        have h1 : b1.toNat = 0x77 := by omega
        rw [hs, toNat_eq_lit h0, toNat_eq_lit h1]; rfl

theorem printPpp_cases (c : Cfg) (mem : Bytes) (hlt : mem.length < 2 ^ 64) :
    Diag (printPpp c mem {} mem.length) ∨ ∃ h s, mem = h ++ s ∧ IsPppHeader h := by
  unfold printPpp
  by_cases h2 : mem.length < 2
  · rw [if_pos h2]
    exact .inl (diag_empty (plain_two (plain_str _) (plain_num _)))
  · rw [if_neg h2]
    obtain ⟨b0, b1, r, rfl⟩ : ∃ b0 b1 r, mem = b0 :: b1 :: r := by
      match mem, h2 with
      | [], h => exact absurd (by simp) h
      | [_], h => exact absurd (by simp) h
      | b0 :: b1 :: r, _ => exact ⟨b0, b1, r, rfl⟩
    · clear h2
      by_cases hf : b0.toNat = 0xff ∧ b1.toNat = 0x03
      · have e0 : b0 = 0xff := toNat_eq_lit hf.1
        have e1 : b1 = 0x03 := toNat_eq_lit hf.2
        subst e0 e1
        rw [isHdlc_framed, bind_ok, if_pos rfl]
        simp only [List.length_cons] at hlt ⊢
        by_cases h4 : r.length + 1 + 1 < 4
        · rw [if_pos h4]
          exact .inl (diag_empty (plain_two (plain_str _) (plain_num _)))
        · rw [if_neg h4, subSize_eq (by omega) hlt]
          have := printPppProto_cases c [0xff, 0x03] r (by omega) (by omega)
          rcases this with h | ⟨p, e, s, hs, hp, he⟩
          · exact .inl (by simpa using h)
          · exact .inr ⟨[0xff, 0x03] ++ p ++ e, s, by rw [hs]; simp, [0xff, 0x03], p, e, rfl, .inr rfl, hp, he⟩
      · have hd : isHdlc (b0 :: b1 :: r) = .ok false := by
          unfold isHdlc
          rw [show rd (b0 :: b1 :: r) 0 = .ok b0 from rfl, bind_ok]
          by_cases h0 : b0.toNat = 0xff
          · rw [if_pos h0, show rd (b0 :: b1 :: r) 1 = .ok b1 from rfl, bind_ok]
            simp only [h0, true_and] at hf
            simp [hf]
          · rw [if_neg h0]
        rw [hd, bind_ok, if_neg (by simp)]
        have := printPppProto_cases c [] (b0 :: b1 :: r) (by simp) hlt
        rcases this with h | ⟨p, e, s, hs, hp, he⟩
        · exact .inl (by simpa using h)
        · exact .inr ⟨[] ++ p ++ e, s, by rw [hs]; simp, [], p, e, rfl, .inl rfl, hp, he⟩

/-! ## Frames -/

/-- A frame is printed as its encapsulation and its payload. -/
theorem printLink_frame {P : Prop} {c : Cfg} {e : Encap} {payload rest frame : Bytes}
    (h : IsFrame P c.link e payload rest frame) (hlt : frame.length < 2 ^ 64) :
    printLink c frame frame.length = ndnOut c (join (e.fields (seen e payload rest).length)) (seen e payload rest) := by
  generalize hl : c.link = link at h
  cases h with
  | direct _ t h payload rest ht hh =>
    subst hl
    rw [List.append_assoc] at hlt ⊢
    rw [printLink_header c t h (payload ++ rest) hh (by omega) hlt, dispatchByEtherType_ndn c h _ t _ _ rfl rfl ht]
    rfl
  | ppp h payload rest hh =>
    have : printLink c (h ++ payload ++ rest) (h ++ payload ++ rest).length =
        printPpp c (h ++ payload ++ rest) {} (h ++ payload ++ rest).length := by unfold printLink; rw [hl]
    rw [this]
    rw [List.append_assoc] at hlt ⊢
    rw [printPpp_ok c h _ hh hlt]
    rfl
  | ip _ v t lh ih th src dst payload rest fo hlh hih hth hf hx =>
    subst hl
    have e0 : lh ++ ih ++ th ++ payload ++ rest = lh ++ (ih ++ th ++ payload ++ rest) := by simp
    have hlt' := hlt
    rw [e0] at hlt
    rw [e0, printLink_header c _ lh _ hlh (by cases v <;> decide) hlt, ← e0]
    rw [dispatchByEtherType_ip c lh ih src dst th payload rest v t fo _ _ rfl (by simp; omega) (by simp at hlt ⊢; omega) hih hf hth]

/-- Everything else is a line about a problem. -/
theorem printLink_cases (c : Cfg) (mem : Bytes) (hlt : mem.length < 2 ^ 64) :
    Diag (printLink c mem mem.length) ∨
    ∃ e payload rest, IsFrame False c.link e payload rest mem ∧
      printLink c mem mem.length = ndnOut c (join (e.fields payload.length)) payload := by
  have key : Diag (printLink c mem mem.length) ∨ ∃ e payload rest, IsFrame False c.link e payload rest mem ∧
      seen e payload rest = payload := by
    cases hl : c.link with
    | ppp =>
      have : printLink c mem mem.length = printPpp c mem {} mem.length := by unfold printLink; rw [hl]
      rw [this]
      rcases printPpp_cases c mem hlt with h | ⟨h, s, rfl, hh⟩
      · exact .inl h
      · refine .inr ⟨.ppp, s, [], ?_, by simp [seen]⟩
        have := IsFrame.ppp (exact := False) h s [] hh
        rw [List.append_nil] at this; exact this
    | ether =>
      rcases printLink_cases_header c (by rw [hl]; simp) mem with h | ⟨t, h, s, rfl, hh, ht⟩
      · exact .inl h
      · rw [printLink_header c t h s hh ht hlt]
        rcases dispatchByEtherType_cases c h s (by simp at hlt; omega) t with hd | ht |
          ⟨v, ih, src, dst, tr, th, payload, rest, fo, rfl, rfl, hih, hf, hth, htcp⟩
        · exact .inl hd
        · refine .inr ⟨.ethernet, s, [], ?_, by simp [seen]⟩
          have := IsFrame.direct (exact := False) c.link t h s [] ht hh
          rw [List.append_nil, hl] at this; exact this
        · refine .inr ⟨.ip v tr src dst, payload, rest, ?_, ?_⟩
          · have := IsFrame.ip (exact := False) c.link v tr h ih th src dst payload rest fo hh hih hth hf (fun h => h.elim)
            rw [hl] at this
            rw [show h ++ (ih ++ th ++ payload ++ rest) = h ++ ih ++ th ++ payload ++ rest by simp]; exact this
          · cases tr with
            | udp => rfl
            | tcp => rw [htcp rfl]; simp [seen]
    | sll =>
      rcases printLink_cases_header c (by rw [hl]; simp) mem with h | ⟨t, h, s, rfl, hh, ht⟩
      · exact .inl h
      · rw [printLink_header c t h s hh ht hlt]
        rcases dispatchByEtherType_cases c h s (by simp at hlt; omega) t with hd | ht |
          ⟨v, ih, src, dst, tr, th, payload, rest, fo, rfl, rfl, hih, hf, hth, htcp⟩
        · exact .inl hd
        · refine .inr ⟨.ethernet, s, [], ?_, by simp [seen]⟩
          have := IsFrame.direct (exact := False) c.link t h s [] ht hh
          rw [List.append_nil, hl] at this; exact this
        · refine .inr ⟨.ip v tr src dst, payload, rest, ?_, ?_⟩
          · have := IsFrame.ip (exact := False) c.link v tr h ih th src dst payload rest fo hh hih hth hf (fun h => h.elim)
            rw [hl] at this
            rw [show h ++ (ih ++ th ++ payload ++ rest) = h ++ ih ++ th ++ payload ++ rest by simp]; exact this
          · cases tr with
            | udp => rfl
            | tcp => rw [htcp rfl]; simp [seen]
  rcases key with h | ⟨e, payload, rest, hf, hs⟩
  · exact .inl h
  · refine .inr ⟨e, payload, rest, hf, ?_⟩
    rw [printLink_frame hf hlt, hs]

end Verif.Dump
