import Verif.Proofs.DumpAlike

/-! # The text of the lines of ndndump: C92 -/

namespace Verif.DumpText

open Dump Dump.Spec

/-! ## Test data -/

/-- Names have one component with the bytes of the element, of type 50 (segment number). -/
def segDec : Decoders where
  lp b := .ok ⟨some (.ok b.value), none⟩
  interest b := .ok ([⟨50, b.value⟩], "?CanBePrefix")
  data b := .ok [⟨50, b.value⟩]

def segCfg : Cfg := { link := .ppp, dec := segDec }

/-- A Data packet of ndnSIM whose name has the given bytes as its segment component. -/
def segPacket (v : Bytes) : Packet :=
  { mem := [0x77, 0, 0] ++ (6 :: UInt8.ofNat v.length :: v), len := 5 + v.length, sec := 1, usec := 23 }

theorem segElement {v : Bytes} (h : v.length < 253) : IsElement 6 v (6 :: UInt8.ofNat v.length :: v) := by
  refine ⟨by decide, by omega, [6], [UInt8.ofNat v.length], .inl ⟨6, rfl, rfl, by decide⟩, .inl ⟨_, rfl, ?_, ?_⟩, rfl⟩
  · rw [UInt8.toNat_ofNat']; omega
  · omega

theorem segShows {v : Bytes} (N : Name → Prop) (h : v.length < 253) (hN : N [⟨50, v⟩]) :
    Shows N segCfg (segPacket v) .ppp (.bare (.data [⟨50, v⟩])) where
  whole := ⟨by simp [segPacket]; omega, by simp only [segPacket]; omega⟩
  frame := ⟨6 :: UInt8.ofNat v.length :: v, [], ⟨6, v⟩, by
      have := IsFrame.ppp (exact := False) [0x77, 0, 0] (6 :: UInt8.ofNat v.length :: v) []
        ⟨[], [0x77], [0, 0], rfl, .inl rfl, .inl rfl, rfl⟩
      simpa [segPacket, segCfg] using this,
    ⟨_, [], (List.append_nil _).symm, segElement h⟩,
    .bare ⟨6, v⟩ _ ⟨_, [], (List.append_nil _).symm, segElement h⟩ (by simp) (.data _ rfl rfl)⟩
  accepted := by intro f m hf; cases hf
  understood := hN

/-! ## C92 -/

/-- C92: an address that is printed, read by the rules for such texts, is the address in the packet. -/
theorem C92_addresses (a : Bytes) :
    (a.length = 4 → readIp4 (tokText (.ip4 a)) = a) ∧ (a.length = 16 → readIp6 (tokText (.ip6 a)) = a) :=
  ⟨fun h => readIp4_ip4Text (by rintro rfl; cases h), fun h => readIp6_ip6Text h⟩

example : tokText (.ip6 [0x20, 1, 0xd, 0xb8, 0, 0, 0, 0, 0, 1, 0, 0, 0, 0, 0, 1]) = text "2001:db8::1:0:0:1" ∧
    tokText (.ip6 [0, 0, 0, 0, 0, 0, 0, 0, 0, 0, 255, 255, 10, 0, 0, 1]) = text "::ffff:10.0.0.1" ∧
    tokText (.ip4 [10, 0, 0, 1]) = text "10.0.0.1" := by decide +kernel

/-- C92: as many lines are printed as packets are shown; neither a name nor the parameters of an Interest can add a line,
and the run does not end early. -/
theorem C92_lines (N : Name → Prop) (c : Cfg) (ps : List Packet) (is : List Info) (h : Infos N c ps is) :
    (output (loop c ps).1).count 10 = is.length ∧ (loop c ps).2 = .exit 0 := by
  obtain ⟨-, ns, h1, h2, h3⟩ := infos_text h
  refine ⟨?_, h3⟩
  have key : ∀ (wss : List (List Bytes)) (x : Bytes), PingOutput.Text wss x → x.count 10 = wss.length := by
    intro wss
    induction wss with
    | nil => intro x hx; rw [hx.eq]; rfl
    | cons ws wss ih =>
      intro x hx
      rw [hx.eq, List.map_cons, List.flatten_cons, List.count_append, List.count_append,
        List.count_eq_zero_of_not_mem (PingOutput.join_free fun w hw => (hx.word ws (by simp) w hw).2),
        ih _ ⟨fun v hv => hx.ne v (List.mem_cons_of_mem _ hv), fun v hv => hx.word v (List.mem_cons_of_mem _ hv), rfl⟩]
      simp
      omega
  rw [key _ _ h2, List.length_map, List.length_zip, h1, Nat.min_self]

example : ∃ is, Infos (fun _ => True) segCfg [segPacket [5], segPacket [10]] is ∧ is.length = 2 :=
  ⟨_, .shown _ _ _ _ _ (segShows _ (by decide) trivial) (.shown _ _ _ _ _ (segShows _ (by decide) trivial) .nil), rfl⟩

/-- C92: two captures for which the same text is printed were about the same packets: the same number, in the same order,
with the same capture times (if those are printed), link types, transports, addresses, and the same kind of packet, name,
parameters and reason; provided that numbers in names have the shortest encoding. -/
theorem C92_capture_partial (c : Cfg) (ps qs : List Packet) (is js : List Info) (hp : Infos Minimal c ps is)
    (hq : Infos Minimal c qs js) (h : output (loop c ps).1 = output (loop c qs).1) : is = js := by
  obtain ⟨a1, ns, a2, a3, -⟩ := infos_text hp
  obtain ⟨b1, ms, b2, b3, -⟩ := infos_text hq
  rw [h] at a3
  exact infos_inj a2 b2 a1 b1 (text_words a3 b3)

theorem minimal5 : Minimal [⟨50, [5]⟩] := by
  intro c hc _ _
  rw [List.mem_singleton] at hc
  subst hc
  decide

example : ∃ is, Infos Minimal segCfg [segPacket [5]] is ∧
    output (loop segCfg [segPacket [5]]).1 = text "1.000023 PPP, DATA: /seg=5\n" :=
  ⟨_, .shown _ _ _ _ _ (segShows _ (by decide) minimal5) .nil, by decide +kernel⟩

/-- C92: the same for one packet. -/
theorem C92_packet_partial (c : Cfg) (p q : Packet) (e f : Encap) (k l : Payload) (hp : Shows Minimal c p e k)
    (hq : Shows Minimal c q f l) (h : (printPacket c p).map output = (printPacket c q).map output) :
    (c.wantTimestamp = true → p.sec = q.sec ∧ p.usec = q.usec) ∧ e = f ∧ k = l := by
  obtain ⟨n, -, h1⟩ := shows_line hp
  obtain ⟨m, -, h2⟩ := shows_line hq
  rw [h1, h2] at h
  have one : ∀ {r : Packet} {x : Line}, printPacket c r = .ok [x] → (loop c [r]).1 = [x] := by
    intro r x hr
    rw [loop, hr]
    rfl
  have := C92_capture_partial c [p] [q] _ _ (.shown _ _ _ _ _ hp .nil) (.shown _ _ _ _ _ hq .nil) (by
    rw [one h1, one h2]
    exact Except.ok.inj h)
  simp only [List.cons.injEq, Info.mk.injEq, and_true] at this
  refine ⟨fun ht => ?_, this.2⟩
  have h3 := this.1
  rw [if_pos ht, if_pos ht] at h3
  exact Prod.mk.inj (Option.some.inj h3)

example : Shows Minimal segCfg (segPacket [5]) .ppp (.bare (.data [⟨50, [5]⟩])) := segShows _ (by decide) minimal5

/-- C92: exactly the names that differ at most in the width of numbers are printed alike. -/
theorem C92_names (n m : Name) : nameText n = nameText m ↔ NameAlike n m := by
  rw [← short_eq]
  constructor
  · intro h
    refine (nameText_inj (r := []) (s := []) (shortComp_minimal n) (shortComp_minimal m) (.inl rfl) (.inl rfl) ?_).1
    rw [short_text, short_text, h]
  · intro h
    rw [← short_text n, h, short_text]

example : NameAlike [⟨8, [97]⟩, ⟨50, [5]⟩] [⟨8, [97]⟩, ⟨50, [0, 5]⟩] ∧
    ¬ NameAlike [⟨8, [97]⟩, ⟨50, [5]⟩] [⟨8, [97]⟩, ⟨50, [0, 0, 5]⟩] ∧ ¬ NameAlike [⟨8, [5]⟩] [⟨8, [0, 5]⟩] := by
  simp only [← C92_names]
  decide +kernel

/-- C92 without a condition on the names: two captures for which the same text is printed were about the same packets, but for the
width of numbers in the names. -/
theorem C92_alike_partial (c : Cfg) (ps qs : List Packet) (is js : List Info) (hp : Infos (fun _ => True) c ps is)
    (hq : Infos (fun _ => True) c qs js) (h : output (loop c ps).1 = output (loop c qs).1) : List.Forall₂ InfoAlike is js := by
  obtain ⟨a1, ns, a2, a3, -⟩ := infos_text hp
  obtain ⟨b1, ms, b2, b3, -⟩ := infos_text hq
  rw [h] at a3
  exact infos_alike a2 b2 a1 b1 (text_words a3 b3)

example : ∃ is js, Infos (fun _ => True) segCfg [segPacket [5]] is ∧ Infos (fun _ => True) segCfg [segPacket [0, 5]] js ∧
    output (loop segCfg [segPacket [5]]).1 = output (loop segCfg [segPacket [0, 5]]).1 :=
  ⟨_, _, .shown _ _ _ _ _ (segShows _ (by decide) trivial) .nil, .shown _ _ _ _ _ (segShows _ (by decide) trivial) .nil,
    by decide +kernel⟩

/-- C92 is false for all names: two different names, of different lengths, are printed alike. -/
theorem C92_refuted : ∃ (c : Cfg) (p q : Packet) (k l : Payload), Shows (fun _ => True) c p .ppp k ∧
    Shows (fun _ => True) c q .ppp l ∧ p.sec = q.sec ∧ p.usec = q.usec ∧
    (printPacket c p).map output = (printPacket c q).map output ∧ k.name? ≠ l.name? :=
  ⟨segCfg, segPacket [5], segPacket [0, 5], _, _, segShows _ (by decide) trivial, segShows _ (by decide) trivial, rfl, rfl,
    by decide +kernel, by simp [Payload.name?, Content.name?]⟩

end Verif.DumpText
