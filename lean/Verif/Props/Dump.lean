import Verif.Proofs.DumpPacket

/-! # Properties of ndndump: C35 to C39 and C62 -/

namespace Verif.Dump

open Spec

/-! ## Test data for the examples -/

/-- Decoders for the examples: every Interest and every Data has as its name one component with the bytes of the
element; an LpPacket has what it contains as its fragment, and an empty one cannot be read. -/
def tdec : Decoders where
  lp b := .ok ⟨some (if b.value = [] then .error "empty" else .ok b.value), none⟩
  interest b := .ok ([⟨8, b.value⟩], "?")
  data b := .ok [⟨8, b.value⟩]

/-- A Data packet for the examples: type 6, the value is one byte. -/
def tdata : Bytes := [6, 1, 65]

def tmac : Bytes := [1, 2, 3, 4, 5, 6, 7, 8, 9, 10, 11, 12]

/-- An IPv4 header that tells 28 bytes or as given, to be followed by the given protocol. -/
def tip4 (proto : UInt8) (total : Nat) : Bytes :=
  [0x45, 0] ++ be16 total ++ [0, 0, 0, 0, 64, proto, 0, 0, 10, 0, 0, 1, 10, 0, 0, 2]

def tudp (n : Nat) : Bytes := [0x18, 0xdb, 0x18, 0xdb] ++ be16 (8 + n) ++ [0, 0]

def ttcp : Bytes := [0x18, 0xdb, 0x18, 0xdb, 0, 0, 0, 0, 0, 0, 0, 0, 0x50, 0x18, 0, 0, 0, 0, 0, 0]

def tcfg (f : Option (Name → Bool) := none) : Cfg := { link := .ether, nameFilter := f, dec := tdec }

theorem tip4_header (proto : UInt8) (n : Nat) (h : 20 + n < 2 ^ 16) :
    IsIpHeader (tip4 proto (20 + n)) [10, 0, 0, 1] [10, 0, 0, 2] proto n .v4 :=
  ⟨0, [0, 0, 0, 0, 64], [0, 0], [], by simp [tip4, length_be16], rfl, rfl, rfl, rfl, by simp [tip4, length_be16],
    by simp [tip4, length_be16], by simp [tip4, length_be16]; omega⟩

theorem tudp_header (n : Nat) (h : 8 + n < 2 ^ 16) : IsTransportHeader (tudp n) n .udp :=
  ⟨[0x18, 0xdb, 0x18, 0xdb], [0, 0], rfl, rfl, rfl, h⟩

theorem ttcp_header (n : Nat) : IsTransportHeader ttcp n .tcp :=
  ⟨[0x18, 0xdb, 0x18, 0xdb, 0, 0, 0, 0, 0, 0, 0, 0], [0x18, 0, 0, 0, 0, 0, 0], 0, by decide, rfl, by decide, by decide,
    by decide⟩

/-- The Data packet in UDP over IPv4 over Ethernet, with padding. -/
theorem tudp_frame : IsFrame True .ether (.ip .v4 .udp [10, 0, 0, 1] [10, 0, 0, 2]) tdata [0, 0, 0]
    (tmac ++ be16 0x0800 ++ tip4 17 (20 + 11) ++ tudp 3 ++ tdata ++ [0, 0, 0]) :=
  .ip .ether .v4 .udp (tmac ++ be16 0x0800) (tip4 17 (20 + 11)) (tudp 3) _ _ tdata [0, 0, 0] 11 (.ether tmac rfl)
    (tip4_header 17 11 (by omega)) (tudp_header 3 (by omega)) (by decide) (fun _ => by decide)

/-- The same with TCP, with six bytes of padding. -/
theorem ttcp_frame : IsFrame True .ether (.ip .v4 .tcp [10, 0, 0, 1] [10, 0, 0, 2]) tdata [0, 0, 0]
    (tmac ++ be16 0x0800 ++ tip4 6 (20 + 23) ++ ttcp ++ tdata ++ [0, 0, 0]) :=
  .ip .ether .v4 .tcp (tmac ++ be16 0x0800) (tip4 6 (20 + 23)) ttcp _ _ tdata [0, 0, 0] 23 (.ether tmac rfl)
    (tip4_header 6 23 (by omega)) (ttcp_header 3) (by decide) (fun _ => by decide)

theorem tdata_payload : IsPayload tdec tdata (.bare (.data [⟨8, [65]⟩])) :=
  .bare ⟨6, [65]⟩ _ ⟨[6, 1, 65], [], rfl, by decide, by decide, [6], [1], .inl ⟨6, rfl, rfl, by decide⟩,
    .inl ⟨1, rfl, rfl, by decide⟩, rfl⟩ (by decide) (.data _ rfl rfl)

/-! ## C35 -/

/-- C35: of a packet that was captured entirely, no byte outside is read, whatever its bytes are. -/
theorem C35_inside_partial (c : Cfg) (p : Packet) (hw : Whole p) : printPacket c p ≠ .error .ub := by
  intro h
  by_cases hs : Sane p
  · rcases printPacket_cases hs hw.2 c with ⟨-, h'⟩ | ⟨T, -, h'⟩ | ⟨x, e, payload, rest, k, -, -, -, -, h'⟩
    · exact h' hw
    · rw [h] at h'; cases h'
    · rcases h' with ⟨-, h'⟩ | ⟨s, -, h'⟩ | ⟨-, h'⟩ | ⟨-, -, -, h'⟩ <;>
      · rw [h] at h'; cases h'
  · rcases printPacket_insane hs c with h' | h' | h' <;>
    · rw [h] at h'; cases h'

/-- An Ethernet frame with a length field of UDP that lies. -/
example : Whole ⟨tmac ++ be16 0x0800 ++ tip4 17 31 ++ tudp 60000 ++ tdata, 45, 0, 0⟩ := ⟨by decide +kernel, by decide⟩

/-- C35 does not hold when less was captured than the packet had: the code goes on with the original length. The witness
is an Ethernet frame of 60 bytes of which the header was captured. -/
theorem C35_refuted : ∃ p : Packet, p.mem ≠ [] ∧ p.mem.length ≤ p.len ∧ printPacket (tcfg) p = .error .ub :=
  ⟨⟨tmac ++ [0x86, 0x24], 60, 0, 0⟩, by decide, by decide, rfl⟩

/-! ## C36 -/

/-- C36: a frame with an Interest, Data or Nack is printed if and only if the filter accepts the name. -/
theorem C36_printed_iff (P : Prop) (c : Cfg) (p : Packet) (hw : Whole p) (e : Encap) (payload rest : Bytes)
    (h : IsFrame P c.link e payload rest p.mem) (k : Payload) (hk : IsPayload c.dec payload k) (n : Name)
    (hn : k.name? = some n) :
    ((∃ l, printPacket c p = .ok [l]) ↔ Accepts c.nameFilter (some n)) ∧
    (printPacket c p = .ok [] ↔ ¬ Accepts c.nameFilter (some n)) := by
  have hk' := seen_payload (e := e) (rest := rest) hk (payload_starts hk hn)
  rcases printPacket_frame hw h hk' with ⟨h1, -⟩ | ⟨s, h1, -⟩ | ⟨ha, hp⟩ | ⟨-, -, ha, hp⟩
  · subst h1; cases hn
  · subst h1; cases hn
  · rw [hn] at ha
    rw [hp]
    exact ⟨⟨(fun ⟨l, hl⟩ => by cases hl), fun h => absurd h ha⟩, ⟨fun _ => ha, fun _ => rfl⟩⟩
  · rw [hn] at ha
    rw [hp]
    exact ⟨⟨fun _ => ha, fun _ => ⟨_, rfl⟩⟩, ⟨(fun h => by cases h), fun h => absurd ha h⟩⟩

example : ∃ (c : Cfg) (p : Packet) (e : Encap) (payload rest : Bytes) (k : Payload) (n : Name), Whole p ∧
    IsFrame True c.link e payload rest p.mem ∧ IsPayload c.dec payload k ∧ k.name? = some n ∧
    ¬ Accepts c.nameFilter (some n) :=
  ⟨tcfg (some fun n => n == []), ⟨_, _, 0, 0⟩, _, _, _, _, _, ⟨rfl, by decide +kernel⟩, tudp_frame, tdata_payload, rfl,
    fun h => absurd (h _ _ rfl rfl) (by decide)⟩

/-- C36: whatever the packet, if a name of an Interest, Data or Nack is printed, then the filter accepts it. -/
theorem C36_only_accepted (c : Cfg) (p : Packet) (hlt : p.len < 2 ^ 32) (ls : List Line) (h : printPacket c p = .ok ls)
    (ts : Option Bytes) (toks : List Tok) (hl : .packet ts toks ∈ ls) (n : Name)
    (hn : .name n ∈ toks ∨ ∃ s, .interest n s ∈ toks) : Accepts c.nameFilter (some n) := by
  obtain ⟨t, ht, htn⟩ : ∃ t ∈ toks, t = .name n ∨ ∃ s, t = .interest n s := by
    rcases hn with h | ⟨s, h⟩
    · exact ⟨_, h, .inl rfl⟩
    · exact ⟨_, h, .inr ⟨s, rfl⟩⟩
  by_cases hs : Sane p
  · rcases printPacket_cases hs hlt c with ⟨h', -⟩ | ⟨T, hT, h'⟩ | ⟨x, e, payload, rest, k, -, -, -, -, h'⟩
    · rw [h] at h'; cases h'
    · rw [h] at h'; cases h'
      rw [List.mem_singleton] at hl
      cases hl
      have := hT.2 t ht
      rcases htn with rfl | ⟨s, rfl⟩
      · exact absurd rfl (this.1 n)
      · exact absurd rfl (this.2 n s)
    · rcases h' with ⟨-, h'⟩ | ⟨s, -, h'⟩ | ⟨-, h'⟩ | ⟨h1, h2, ha, h'⟩
      · rw [h] at h'; cases h'; cases hl
      · rw [h] at h'; cases h'
      · rw [h] at h'; cases h'; cases hl
      · rw [h] at h'; cases h'
        rw [List.mem_singleton] at hl
        cases hl
        rw [join_append _ _ (encap_fields_ne _ _) (payload_fields_ok k h1 h2).1] at ht
        rcases List.mem_append.mp ht with ht | ht
        · have := (encap_fine e payload.length).2 t ht
          rcases htn with rfl | ⟨s, rfl⟩
          · exact absurd rfl (this.1 n)
          · exact absurd rfl (this.2 n s)
        · rcases List.mem_cons.mp ht with ht | ht
          · rcases htn with rfl | ⟨s, rfl⟩ <;> cases ht
          · rw [payload_name ht htn] at ha; exact ha
  · rcases printPacket_insane hs c with h' | h' | h' <;>
    · rw [h] at h'; cases h'
      rw [List.mem_singleton] at hl
      cases hl

example : printPacket (tcfg (some fun n => n == [⟨8, [65]⟩])) ⟨tmac ++ be16 0x8624 ++ tdata, 17, 1, 2⟩ =
    .ok [.packet (some (printTimestamp 1 2)) [.str "Ethernet", .delim, .str "DATA: ", .name [⟨8, [65]⟩]]] := rfl

/-! ## C37 -/

/-- C37: in every supported encapsulation, with any header fields and any padding, precisely the packet that the payload
starts with is decoded, and shown after the encapsulation. -/
theorem C37_decoded (P : Prop) (c : Cfg) (p : Packet) (hw : Whole p) (e : Encap) (payload rest : Bytes)
    (h : IsFrame P c.link e payload rest p.mem) (b : Block) (hb : StartsWith payload b) (k : Payload)
    (hk : IsPayload c.dec payload k) (ha : Accepts c.nameFilter k.name?) (hk' : ∀ s, k ≠ .lpThrows s) :
    ∃ ts n, printPacket c p = .ok [.packet ts (join (e.fields n ++ k.fields))] := by
  have hs := seen_payload (e := e) (rest := rest) hk ⟨b, hb⟩
  rcases printPacket_frame hw h hs with ⟨h1, -⟩ | ⟨s, h1, -⟩ | ⟨h1, -⟩ | ⟨-, -, -, hp⟩
  · subst h1
    cases hk with
    | empty h0 =>
      subst h0
      have := (fromBuffer_iff _ _).mpr hb
      cases this
  · exact absurd h1 (hk' s)
  · exact absurd ha h1
  · exact ⟨_, _, hp⟩

example : ∃ (e : Encap) (payload rest frame : Bytes) (b : Block) (k : Payload), IsFrame True .ether e payload rest frame ∧
    StartsWith payload b ∧ IsPayload tdec payload k ∧ ∀ s, k ≠ .lpThrows s :=
  ⟨_, _, _, _, ⟨6, [65]⟩, _, ttcp_frame, ⟨[6, 1, 65], [], rfl, by decide, by decide, [6], [1], .inl ⟨6, rfl, rfl, by decide⟩,
    .inl ⟨1, rfl, rfl, by decide⟩, rfl⟩, tdata_payload, by simp⟩

/-- Every kind of payload is described by exactly one way to show it: the specification is not contradictory. -/
theorem C37_unambiguous (c : Cfg) (payload : Bytes) (k k' : Payload) (hk : IsPayload c.dec payload k)
    (hk' : IsPayload c.dec payload k') : k.fields = k'.fields ∧ k.name? = k'.name? := by
  have key : ∀ {nack b x x'}, IsContent c.dec nack b x → IsContent c.dec nack b x' → x = x' := by
    intro nack b x x' h h'
    cases h <;> cases h' <;> simp_all
  have hne : ∀ {b}, StartsWith ([] : Bytes) b → False := by
    intro b hb
    have := (fromBuffer_iff _ _).mpr hb
    cases this
  have main : k = k' := by
    cases hk with
    | empty h =>
      cases hk' with
      | empty => rfl
      | incomplete h1 => exact absurd h h1
      | bare _ _ h1 => exact (hne (h ▸ h1)).elim
      | lp _ _ _ _ _ h1 => exact (hne (h ▸ h1)).elim
      | lpInvalid _ _ h1 => exact (hne (h ▸ h1)).elim
      | lpIdle _ _ h1 => exact (hne (h ▸ h1)).elim
      | lpFragment _ _ _ h1 => exact (hne (h ▸ h1)).elim
      | lpThrows _ _ _ h1 => exact (hne (h ▸ h1)).elim
    | incomplete h1 h2 =>
      cases hk' with
      | empty h => exact absurd h h1
      | incomplete => rfl
      | bare b _ h => exact absurd ⟨b, h⟩ h2
      | lp b _ _ _ _ h => exact absurd ⟨b, h⟩ h2
      | lpInvalid b _ h => exact absurd ⟨b, h⟩ h2
      | lpIdle b _ h => exact absurd ⟨b, h⟩ h2
      | lpFragment b _ _ h => exact absurd ⟨b, h⟩ h2
      | lpThrows b _ _ h => exact absurd ⟨b, h⟩ h2
    | bare b x hb ht hx =>
      cases hk' with
      | empty h => exact (hne (h ▸ hb)).elim
      | incomplete _ h2 => exact absurd ⟨b, hb⟩ h2
      | bare b' x' hb' ht' hx' =>
        cases startsWith_unique hb hb'
        rw [key hx hx']
      | lp b' _ _ _ _ hb' ht' => cases startsWith_unique hb hb'; exact absurd ht' ht
      | lpInvalid b' _ hb' ht' => cases startsWith_unique hb hb'; exact absurd ht' ht
      | lpIdle b' _ hb' ht' => cases startsWith_unique hb hb'; exact absurd ht' ht
      | lpFragment b' _ _ hb' ht' => cases startsWith_unique hb hb'; exact absurd ht' ht
      | lpThrows b' _ _ hb' ht' => cases startsWith_unique hb hb'; exact absurd ht' ht
    | lp b lp f net x hb ht hl hf hn hx =>
      cases hk' with
      | empty h => exact (hne (h ▸ hb)).elim
      | incomplete _ h2 => exact absurd ⟨b, hb⟩ h2
      | bare b' _ hb' ht' => cases startsWith_unique hb hb'; exact absurd ht ht'
      | lp b' lp' f' net' x' hb' ht' hl' hf' hn' hx' =>
        cases startsWith_unique hb hb'
        cases hl.symm.trans hl'
        cases hf.symm.trans hf'
        cases startsWith_unique hn hn'
        rw [key hx hx']
      | lpInvalid b' _ hb' ht' hl' => cases startsWith_unique hb hb'; cases hl.symm.trans hl'
      | lpIdle b' _ hb' ht' hl' hf' =>
        cases startsWith_unique hb hb'; cases hl.symm.trans hl'; cases hf.symm.trans hf'
      | lpFragment b' _ _ hb' ht' hl' hf' hn' =>
        cases startsWith_unique hb hb'; cases hl.symm.trans hl'; cases hf.symm.trans hf'; exact absurd ⟨_, hn⟩ hn'
      | lpThrows b' _ _ hb' ht' hl' hf' =>
        cases startsWith_unique hb hb'; cases hl.symm.trans hl'; cases hf.symm.trans hf'
    | lpInvalid b e hb ht hl =>
      cases hk' with
      | empty h => exact (hne (h ▸ hb)).elim
      | incomplete _ h2 => exact absurd ⟨b, hb⟩ h2
      | bare b' _ hb' ht' => cases startsWith_unique hb hb'; exact absurd ht ht'
      | lp b' _ _ _ _ hb' ht' hl' => cases startsWith_unique hb hb'; cases hl.symm.trans hl'
      | lpInvalid b' _ hb' ht' hl' => cases startsWith_unique hb hb'; cases hl.symm.trans hl'; rfl
      | lpIdle b' _ hb' ht' hl' => cases startsWith_unique hb hb'; cases hl.symm.trans hl'
      | lpFragment b' _ _ hb' ht' hl' => cases startsWith_unique hb hb'; cases hl.symm.trans hl'
      | lpThrows b' _ _ hb' ht' hl' => cases startsWith_unique hb hb'; cases hl.symm.trans hl'
    | lpIdle b lp hb ht hl hf =>
      cases hk' with
      | empty h => exact (hne (h ▸ hb)).elim
      | incomplete _ h2 => exact absurd ⟨b, hb⟩ h2
      | bare b' _ hb' ht' => cases startsWith_unique hb hb'; exact absurd ht ht'
      | lp b' _ _ _ _ hb' ht' hl' hf' =>
        cases startsWith_unique hb hb'; cases hl.symm.trans hl'; cases hf.symm.trans hf'
      | lpInvalid b' _ hb' ht' hl' => cases startsWith_unique hb hb'; cases hl.symm.trans hl'
      | lpIdle => rfl
      | lpFragment b' _ _ hb' ht' hl' hf' =>
        cases startsWith_unique hb hb'; cases hl.symm.trans hl'; cases hf.symm.trans hf'
      | lpThrows b' _ _ hb' ht' hl' hf' =>
        cases startsWith_unique hb hb'; cases hl.symm.trans hl'; cases hf.symm.trans hf'
    | lpFragment b lp f hb ht hl hf hn =>
      cases hk' with
      | empty h => exact (hne (h ▸ hb)).elim
      | incomplete _ h2 => exact absurd ⟨b, hb⟩ h2
      | bare b' _ hb' ht' => cases startsWith_unique hb hb'; exact absurd ht ht'
      | lp b' _ _ _ _ hb' ht' hl' hf' hn' =>
        cases startsWith_unique hb hb'; cases hl.symm.trans hl'; cases hf.symm.trans hf'; exact absurd ⟨_, hn'⟩ hn
      | lpInvalid b' _ hb' ht' hl' => cases startsWith_unique hb hb'; cases hl.symm.trans hl'
      | lpIdle b' _ hb' ht' hl' hf' =>
        cases startsWith_unique hb hb'; cases hl.symm.trans hl'; cases hf.symm.trans hf'
      | lpFragment => rfl
      | lpThrows b' _ _ hb' ht' hl' hf' =>
        cases startsWith_unique hb hb'; cases hl.symm.trans hl'; cases hf.symm.trans hf'
    | lpThrows b lp e hb ht hl hf =>
      cases hk' with
      | empty h => exact (hne (h ▸ hb)).elim
      | incomplete _ h2 => exact absurd ⟨b, hb⟩ h2
      | bare b' _ hb' ht' => cases startsWith_unique hb hb'; exact absurd ht ht'
      | lp b' _ _ _ _ hb' ht' hl' hf' =>
        cases startsWith_unique hb hb'; cases hl.symm.trans hl'; cases hf.symm.trans hf'
      | lpInvalid b' _ hb' ht' hl' => cases startsWith_unique hb hb'; cases hl.symm.trans hl'
      | lpIdle b' _ hb' ht' hl' hf' =>
        cases startsWith_unique hb hb'; cases hl.symm.trans hl'; cases hf.symm.trans hf'
      | lpFragment b' _ _ hb' ht' hl' hf' =>
        cases startsWith_unique hb hb'; cases hl.symm.trans hl'; cases hf.symm.trans hf'
      | lpThrows b' _ _ hb' ht' hl' hf' =>
        cases startsWith_unique hb hb'; cases hl.symm.trans hl'; cases hf.symm.trans hf'; rfl
  rw [main]; exact ⟨rfl, rfl⟩

example : IsPayload tdec tdata (.bare (.data [⟨8, [65]⟩])) := tdata_payload

/-! ## C38 -/

/-- C38 for UDP: the length in the line is that of the payload, however much padding there is. -/
theorem C38_udp (c : Cfg) (p : Packet) (hw : Whole p) (v : IpVersion) (src dst payload rest : Bytes)
    (h : IsFrame True c.link (.ip v .udp src dst) payload rest p.mem) (ls : List Line) (hp : printPacket c p = .ok ls)
    (ts : Option Bytes) (toks : List Tok) (hl : .packet ts toks ∈ ls) :
    ∃ fs, toks = join ((Encap.ip v .udp src dst).fields payload.length ++ fs) := by
  obtain ⟨k, hk⟩ := exists_payload c.dec (seen (.ip v .udp src dst) payload rest)
  rcases printPacket_frame hw h hk with ⟨-, h'⟩ | ⟨s, -, h'⟩ | ⟨-, h'⟩ | ⟨-, -, -, h'⟩
  · rw [hp] at h'; cases h'; cases hl
  · rw [hp] at h'; cases h'
  · rw [hp] at h'; cases h'; cases hl
  · rw [hp] at h'; cases h'
    rw [List.mem_singleton] at hl
    cases hl
    exact ⟨_, rfl⟩

example : ∃ p : Packet, Whole p ∧ IsFrame True .ether (.ip .v4 .udp [10, 0, 0, 1] [10, 0, 0, 2]) tdata [0, 0, 0] p.mem ∧
    ∃ ts toks, printPacket tcfg p = .ok [.packet ts toks] :=
  ⟨⟨_, _, 0, 0⟩, ⟨rfl, by decide +kernel⟩, tudp_frame, _, _, rfl⟩

/-- C38 for TCP, only without padding: the length in the line is that of the payload. -/
theorem C38_tcp_partial (c : Cfg) (p : Packet) (hw : Whole p) (v : IpVersion) (src dst payload : Bytes)
    (h : IsFrame True c.link (.ip v .tcp src dst) payload [] p.mem) (ls : List Line) (hp : printPacket c p = .ok ls)
    (ts : Option Bytes) (toks : List Tok) (hl : .packet ts toks ∈ ls) :
    ∃ fs, toks = join ((Encap.ip v .tcp src dst).fields payload.length ++ fs) := by
  obtain ⟨k, hk⟩ := exists_payload c.dec (seen (.ip v .tcp src dst) payload [])
  rcases printPacket_frame hw h hk with ⟨-, h'⟩ | ⟨s, -, h'⟩ | ⟨-, h'⟩ | ⟨-, -, -, h'⟩
  · rw [hp] at h'; cases h'; cases hl
  · rw [hp] at h'; cases h'
  · rw [hp] at h'; cases h'; cases hl
  · rw [hp] at h'; cases h'
    rw [List.mem_singleton] at hl
    cases hl
    exact ⟨_, by rw [show seen (.ip v .tcp src dst) payload [] = payload by simp [seen]]⟩

example : IsFrame True .ether (.ip .v4 .tcp [10, 0, 0, 1] [10, 0, 0, 2]) tdata []
    (tmac ++ be16 0x0800 ++ tip4 6 (20 + 23) ++ ttcp ++ tdata ++ []) :=
  .ip .ether .v4 .tcp (tmac ++ be16 0x0800) (tip4 6 (20 + 23)) ttcp _ _ tdata [] 23 (.ether tmac rfl)
    (tip4_header 6 23 (by omega)) (ttcp_header 3) (by decide) (fun _ => by decide)

/-- How wrong it is for TCP: the padding is counted. -/
theorem C38_tcp_counts_padding (c : Cfg) (p : Packet) (hw : Whole p) (v : IpVersion) (src dst payload rest : Bytes)
    (h : IsFrame True c.link (.ip v .tcp src dst) payload rest p.mem) (ls : List Line) (hp : printPacket c p = .ok ls)
    (ts : Option Bytes) (toks : List Tok) (hl : .packet ts toks ∈ ls) :
    ∃ fs, toks = join ((Encap.ip v .tcp src dst).fields (payload.length + rest.length) ++ fs) := by
  obtain ⟨k, hk⟩ := exists_payload c.dec (seen (.ip v .tcp src dst) payload rest)
  rcases printPacket_frame hw h hk with ⟨-, h'⟩ | ⟨s, -, h'⟩ | ⟨-, h'⟩ | ⟨-, -, -, h'⟩
  · rw [hp] at h'; cases h'; cases hl
  · rw [hp] at h'; cases h'
  · rw [hp] at h'; cases h'; cases hl
  · rw [hp] at h'; cases h'
    rw [List.mem_singleton] at hl
    cases hl
    exact ⟨_, by rw [show seen (.ip v .tcp src dst) payload rest = payload ++ rest from rfl, List.length_append]⟩

/-- C38 does not hold for TCP with padding: for an acknowledgement without payload, padded to the smallest size of an
Ethernet frame, a truncated NDN packet of six bytes is reported. -/
theorem C38_refuted : ∃ p : Packet, Whole p ∧
    IsFrame True .ether (.ip .v4 .tcp [10, 0, 0, 1] [10, 0, 0, 2]) [] [0, 0, 0, 0, 0, 0] p.mem ∧
    ∃ ts, printPacket tcfg p = .ok [.packet ts
      (join ((Encap.ip .v4 .tcp [10, 0, 0, 1] [10, 0, 0, 2]).fields 6 ++ [[.str "NDN truncated packet, length ", .num 6]]))] :=
  ⟨⟨tmac ++ be16 0x0800 ++ tip4 6 (20 + 20) ++ ttcp ++ [] ++ [0, 0, 0, 0, 0, 0], 60, 0, 0⟩,
    ⟨by decide +kernel, by decide +kernel⟩,
    .ip .ether .v4 .tcp (tmac ++ be16 0x0800) (tip4 6 (20 + 20)) ttcp _ _ [] [0, 0, 0, 0, 0, 0] 20 (.ether tmac rfl)
      (tip4_header 6 20 (by omega)) (ttcp_header 0) (by decide) (fun _ => by decide), _, rfl⟩

/-! ## C39 -/

/-- C39: for every packet at most one line is printed, of fields with exactly one delimiter between them, and with the
timestamp in front if it is wanted. -/
theorem C39_line (c : Cfg) (p : Packet) (hlt : p.len < 2 ^ 32) (ls : List Line) (h : printPacket c p = .ok ls) :
    ls = [] ∨ ∃ l, ls = [l] ∧ ∀ ts toks, l = .packet ts toks →
      IsLine toks ∧ ts = if c.wantTimestamp then some (printTimestamp p.sec p.usec) else none := by
  by_cases hs : Sane p
  · rcases printPacket_cases hs hlt c with ⟨h', -⟩ | ⟨T, hT, h'⟩ | ⟨x, e, payload, rest, k, -, -, -, -, h'⟩
    · rw [h] at h'; cases h'
    · rw [h] at h'; cases h'
      refine .inr ⟨_, rfl, ?_⟩
      intro ts toks hl; cases hl
      exact ⟨hT.1, rfl⟩
    · rcases h' with ⟨-, h'⟩ | ⟨s, -, h'⟩ | ⟨-, h'⟩ | ⟨h1, h2, ha, h'⟩
      · rw [h] at h'; cases h'; exact .inl rfl
      · rw [h] at h'; cases h'
      · rw [h] at h'; cases h'; exact .inl rfl
      · rw [h] at h'; cases h'
        refine .inr ⟨_, rfl, ?_⟩
        intro ts toks hl; cases hl
        refine ⟨⟨_, rfl, ?_, ?_⟩, rfl⟩
        · simp [encap_fields_ne]
        · intro f hf
          rcases List.mem_append.mp hf with hf | hf
          · have := encap_fields_ok e payload.length f hf
            exact ⟨this.1, fun hm => (this.2 _ hm).1 rfl⟩
          · exact (payload_fields_ok k h1 h2).2 f hf
  · right
    rcases printPacket_insane hs c with h' | h' | h' <;>
    · rw [h] at h'; cases h'
      exact ⟨_, rfl, fun ts toks hl => by cases hl⟩

example : IsLine [.str "Ethernet", .delim, .str "DATA: ", .name []] :=
  ⟨[[.str "Ethernet"], [.str "DATA: ", .name []]], rfl, by simp, by simp⟩

/-- In a line, no delimiter is at the start, at the end, or after another. -/
theorem C39_delimiters (T : List Tok) (h : IsLine T) :
    T.head? ≠ some .delim ∧ T.getLast? ≠ some .delim ∧ ∀ a b, T ≠ a ++ .delim :: .delim :: b := by
  obtain ⟨fs, rfl, hne, hf⟩ := h
  have start : ∀ fs : List (List Tok), fs ≠ [] → (∀ f ∈ fs, f ≠ [] ∧ Tok.delim ∉ f) →
      ∃ t l, join fs = t :: l ∧ t ≠ .delim := by
    intro fs hne hf
    cases fs with
    | nil => exact absurd rfl hne
    | cons f fs =>
      have := hf f (by simp)
      cases f with
      | nil => exact absurd rfl this.1
      | cons t f =>
        have htd : t ≠ .delim := by
          rintro rfl
          exact this.2 (by simp)
        cases fs with
        | nil => exact ⟨t, f, rfl, htd⟩
        | cons g fs => exact ⟨t, _, rfl, htd⟩
  refine ⟨?_, ?_, ?_⟩
  · obtain ⟨t, l, h, ht⟩ := start fs hne hf
    rw [h]; simpa using ht
  · obtain ⟨l, x, rfl⟩ : ∃ l x, fs = l ++ [x] := ⟨_, _, (List.dropLast_concat_getLast hne).symm⟩
    have hx := hf x (by simp)
    have : ∃ pre, join (l ++ [x]) = pre ++ x := by
      cases l with
      | nil => exact ⟨[], rfl⟩
      | cons y l => exact ⟨join (y :: l) ++ [.delim], by rw [join_snoc _ (by simp)]; simp⟩
    obtain ⟨pre, hp⟩ := this
    rw [hp]
    intro hlast
    have hm : (x.getLast hx.1) = .delim := by
      rw [List.getLast?_append, List.getLast?_eq_some_getLast hx.1] at hlast
      exact Option.some.inj hlast
    exact hx.2 (hm ▸ List.getLast_mem hx.1)
  · clear hne
    induction fs with
    | nil => intro a b h; cases a <;> simp [join] at h
    | cons f fs ih =>
      intro a b h
      have hff := hf f (by simp)
      cases fs with
      | nil =>
        simp only [join] at h
        exact hff.2 (by rw [h]; simp)
      | cons g fs =>
        simp only [join] at h
        obtain ⟨t, l, hj, ht⟩ := start (g :: fs) (by simp) (fun f' h' => hf f' (by simp [h']))
        rcases List.append_eq_append_iff.mp h with ⟨m, hm1, hm2⟩ | ⟨m, hm1, hm2⟩
        · cases m with
          | nil =>
            simp only [List.nil_append, List.cons.injEq, true_and] at hm2
            rw [hj] at hm2
            cases hm2
            exact ht rfl
          | cons y m =>
            simp only [List.cons_append, List.cons.injEq] at hm2
            exact ih (fun f' h' => hf f' (by simp [h'])) m b hm2.2
        · cases m with
          | nil =>
            simp only [List.nil_append, List.cons.injEq, true_and] at hm2
            rw [hj] at hm2
            cases hm2
            exact ht rfl
          | cons y m =>
            simp only [List.cons_append, List.cons.injEq] at hm2
            exact hff.2 (by rw [hm1, hm2.1]; simp)

/-- C39: the timestamp has six digits after the point, and read as a number without the point it is the time in
microseconds; hence the order of capture times is preserved. -/
theorem C39_timestamp (sec usec : Nat) (h : usec < 10 ^ 6) :
    ∃ s f : Bytes, printTimestamp sec usec = s ++ [46] ++ f ++ [32] ∧
      (∀ x ∈ s ++ f, 48 ≤ x.toNat ∧ x.toNat ≤ 57) ∧ s ≠ [] ∧ f.length = 6 ∧ readDigits s = sec ∧ readDigits f = usec ∧
      readDigits (printTimestamp sec usec) = sec * 10 ^ 6 + usec := by
  refine ⟨decimal sec, pad6 (decimal usec), rfl, ?_, ?_, length_pad6 h, ?_, ?_, ?_⟩
  · intro x hx
    rcases List.mem_append.mp hx with hx | hx
    · exact decimal_digits _ x hx
    · unfold pad6 at hx
      rcases List.mem_append.mp hx with hx | hx
      · rw [List.eq_of_mem_replicate hx]; decide
      · exact decimal_digits _ x hx
  · rw [decimal]; split <;> simp
  · have := foldl_decimal sec 0
    rw [Nat.zero_mul, Nat.zero_add] at this; exact this
  · have := foldl_pad6 h 0
    rw [Nat.zero_mul, Nat.zero_add] at this; exact this
  · have h0 := foldl_decimal sec 0
    rw [Nat.zero_mul, Nat.zero_add] at h0
    unfold printTimestamp
    rw [readDigits_append, readDigits_append, readDigits_append]
    unfold readDigits
    rw [h0]
    simp only [List.foldl_cons, List.foldl_nil]
    rw [if_neg (by decide), if_neg (by decide), foldl_pad6 h]

example : printTimestamp 1700000000 42 = [49, 55, 48, 48, 48, 48, 48, 48, 48, 48, 46, 48, 48, 48, 48, 52, 50, 32] := by
  decide +kernel

/-- C39: a packet for which no line is printed is a frame whose payload is empty, or holds a packet that the filter
rejects. (`x` stands for the bytes that were not captured.) -/
theorem C39_skipped (c : Cfg) (p : Packet) (hlt : p.len < 2 ^ 32) (h : printPacket c p = .ok []) :
    ∃ x e payload rest, (p.mem ++ x).length = p.len ∧ IsFrame False c.link e payload rest (p.mem ++ x) ∧
      TakesAll e rest ∧
      (payload = [] ∨ ∃ k n, IsPayload c.dec payload k ∧ k.name? = some n ∧ ¬ Accepts c.nameFilter (some n)) := by
  by_cases hs : Sane p
  · rcases printPacket_cases hs hlt c with ⟨h', -⟩ | ⟨T, hT, h'⟩ | ⟨x, e, payload, rest, k, hx, hf, ht, hk, h'⟩
    · rw [h] at h'; cases h'
    · rw [h] at h'; cases h'
    · refine ⟨x, e, payload, rest, hx, hf, ht, ?_⟩
      rcases h' with ⟨h1, h'⟩ | ⟨s, -, h'⟩ | ⟨h1, h'⟩ | ⟨h1, h2, ha, h'⟩
      · subst h1
        cases hk with
        | empty h0 => exact .inl h0
      · rw [h] at h'; cases h'
      · cases hn : k.name? with
        | none => rw [hn] at h1; exact absurd (accepts_none _) h1
        | some n => exact .inr ⟨k, n, hk, hn, hn ▸ h1⟩
      · rw [h] at h'; cases h'
  · rcases printPacket_insane hs c with h' | h' | h' <;>
    · rw [h] at h'; cases h'

example : printPacket (tcfg (some fun n => n == [])) ⟨tmac ++ be16 0x8624 ++ tdata, 17, 1, 2⟩ = .ok [] := by rfl

/-! ## C62 -/

/-- C62, in part: a capture in which every packet was captured entirely is read to its end, and gives the lines of its
packets in their order, unless it has an LpPacket of which the Fragment field cannot be read; then the program ends with
status 1. -/
theorem C62_to_the_end_partial (c : Cfg) (ps : List Packet) (hw : ∀ p ∈ ps, Whole p) :
    ((loop c ps).2 = .exit 0 ∧ ∃ lss : List (List Line), (loop c ps).1 = lss.flatten ∧
      List.Forall₂ (fun p ls => printPacket c p = .ok ls) ps lss) ∨
    ((loop c ps).2 = .exit 1 ∧ ∃ p ∈ ps, ∃ e payload rest s, IsFrame False c.link e payload rest p.mem ∧
      TakesAll e rest ∧ IsPayload c.dec payload (.lpThrows s)) := by
  induction ps with
  | nil => exact .inl ⟨rfl, [], rfl, .nil⟩
  | cons p ps ih =>
    have hp := hw p (by simp)
    have ih := ih (fun q hq => hw q (by simp [hq]))
    simp only [loop]
    cases h : printPacket c p with
    | error f =>
      cases f with
      | ub => exact absurd h (C35_inside_partial c p hp)
      | thrown s =>
        refine .inr ⟨rfl, p, by simp, ?_⟩
        by_cases hs : Sane p
        · rcases printPacket_cases hs hp.2 c with ⟨h', -⟩ | ⟨T, hT, h'⟩ | ⟨x, e, payload, rest, k, hx, hf, ht, hk, h'⟩
          · rw [h] at h'; cases h'
          · rw [h] at h'; cases h'
          · rcases h' with ⟨h1, h'⟩ | ⟨s', h1, h'⟩ | ⟨h1, h'⟩ | ⟨h1, h2, ha, h'⟩
            · rw [h] at h'; cases h'
            · rw [h] at h'; cases h'
              subst h1
              have : x = [] := by
                have := hp.1
                simp only [List.length_append] at hx
                exact List.length_eq_zero_iff.mp (by omega)
              subst this
              rw [List.append_nil] at hf
              exact ⟨e, payload, rest, s, hf, ht, hk⟩
            · rw [h] at h'; cases h'
            · rw [h] at h'; cases h'
        · rcases printPacket_insane hs c with h' | h' | h' <;>
          · rw [h] at h'; cases h'
    | ok ls =>
      simp only
      rcases ih with ⟨h1, lss, h2, h3⟩ | ⟨h1, q, hq, hr⟩
      · exact .inl ⟨h1, ls :: lss, by rw [h2]; rfl, .cons h h3⟩
      · exact .inr ⟨h1, q, by simp [hq], hr⟩

example : Whole ⟨tmac ++ be16 0x8624 ++ tdata, 17, 1, 2⟩ := ⟨by decide +kernel, by decide⟩

/-- C62 does not hold: with decoders that cannot read an empty Fragment field, one such LpPacket ends the program, and
the Data after it is not shown. -/
theorem C62_refuted : loop tcfg [⟨tmac ++ be16 0x8624 ++ [100, 0], 16, 0, 0⟩, ⟨tmac ++ be16 0x8624 ++ tdata, 17, 1, 2⟩] =
    ([], .exit 1) ∧
    ∃ l, loop tcfg [⟨tmac ++ be16 0x8624 ++ tdata, 17, 1, 2⟩] = ([l], .exit 0) :=
  ⟨rfl, _, rfl⟩

end Verif.Dump
