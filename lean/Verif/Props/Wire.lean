import Verif.Spec.Wire
import Verif.Proofs.Wire
import Verif.Props.Producer
import Verif.Props.PingServer

/-! # C75: Interests do not stop a server -/

namespace Verif.Wire

/-! ## ndnpingserver -/

private theorem no_final {d : Data} (h : d.final = none) :
    ∀ c, d.final = some c → (Block.encode ⟨c.type, c.value⟩).length ≤ 11 := by
  intro c hc; rw [h] at hc; cases hc

/-- The size of an Interest with only a Nonce. -/
private theorem len_interest {n : Name} {a b c d : UInt8} :
    (WireInterest.encode ⟨⟨n, false, false⟩, nonceElement a b c d⟩).length =
      1 + sizeOfVarNumber ((encodeName n).length + 6) + ((encodeName n).length + 6) := by
  unfold WireInterest.encode
  rw [len_block]
  simp [nonceElement, sz_small (by decide : (5 : Nat) < 253)]

/-- A component that makes the Interest for a name exactly as large as allowed. -/
private theorem long_name {pre : Name} (hp : (encodeComps pre).length ≤ 8500) (x a b c d : UInt8) :
    ∃ k, 1 < k ∧ (WireInterest.encode ⟨⟨pre ++ [⟨8, List.replicate k x⟩], false, false⟩, nonceElement a b c d⟩).length = 8800 ∧
      (encodeName (pre ++ [⟨8, List.replicate k x⟩])).length = 8790 := by
  refine ⟨8782 - (encodeComps pre).length, by omega, ?_⟩
  have h1 : (encodeComps (pre ++ [⟨8, List.replicate (8782 - (encodeComps pre).length) x⟩])).length = 8786 := by
    rw [encodeComps_append, encodeComps_one, List.length_append, len_block, List.length_replicate,
      sz_small (n := 8) (by decide), sz_mid (by omega) (by omega)]
    omega
  have h2 : (encodeName (pre ++ [⟨8, List.replicate (8782 - (encodeComps pre).length) x⟩])).length = 8790 := by
    rw [len_name, h1, sz_mid (by decide) (by decide)]
  exact ⟨by rw [len_interest, h2, sz_mid (by decide) (by decide)], h2⟩

private theorem reply_large {hash : Data → Bytes} (hh : ∀ d, (hash d).length = 32) {o : PingServer.Opts} {i : Interest}
    (hl : 8760 ≤ (encodeName i.name).length) :
    maxPacket < (encodeData (sha256Sig hash (PingServer.reply o i)) (PingServer.reply o i)).length := by
  have hf : (PingServer.reply o i).final = none := rfl
  have h1 : (sha256Sig hash (PingServer.reply o i)).value.length = 32 := hh _
  have h2 : (PingServer.reply o i).name = i.name := rfl
  generalize PingServer.reply o i = d at *
  apply data_large (no_final hf)
  rw [h1, h2]
  omega

private theorem reply_fits {hash : Data → Bytes} (hh : ∀ d, (hash d).length = 32) {o : PingServer.Opts} {i : Interest}
    (hl : (encodeName i.name).length + o.payloadSize + 80 ≤ 8800) :
    (encodeData (sha256Sig hash (PingServer.reply o i)) (PingServer.reply o i)).length ≤ maxPacket := by
  have hf : (PingServer.reply o i).final = none := rfl
  have h1 : (sha256Sig hash (PingServer.reply o i)).value.length = 32 := hh _
  have h2 : (PingServer.reply o i).name = i.name := rfl
  have h3 : (sha256Sig hash (PingServer.reply o i)).info.length = 3 := rfl
  have h4 : (PingServer.reply o i).content.length = o.payloadSize := by simp [PingServer.reply, PingServer.payload]
  generalize PingServer.reply o i = d at *
  apply data_fits (no_final hf)
  rw [h1, h2, h3, h4]
  omega

private theorem ping_fails {hash : Data → Bytes} {o : PingServer.Opts} {s : PingSt} {w : WireInterest}
    (h : maxPacket < (encodeData (sha256Sig hash (PingServer.reply o w.i)) (PingServer.reply o w.i)).length) :
    (pingMachine hash o).step s (.interest w) =
      { st := { s.st with log := s.st.log ++ [.received w.i.name] }, failed := true } := by
  rw [show (pingMachine hash o).step = PingSt.step hash o from rfl]
  unfold PingSt.step
  dsimp only
  rw [if_neg (Nat.not_le.mpr h)]

private theorem ping_goes {hash : Data → Bytes} {o : PingServer.Opts} {s : PingSt} {w : WireInterest}
    (h : (encodeData (sha256Sig hash (PingServer.reply o w.i)) (PingServer.reply o w.i)).length ≤ maxPacket) :
    (pingMachine hash o).step s (.interest w) = { s with st := s.st.step o (.interest w.i) } := by
  rw [show (pingMachine hash o).step = PingSt.step hash o from rfl]
  unfold PingSt.step
  dsimp only
  rw [if_pos h]

/-- **C75 (refuted, ndnpingserver)** With every prefix of reasonable length and every option, in every state: some
Interest of the allowed size under the prefix, carrying nothing but its name and a Nonce, makes the server exit with
status 1. The reply repeats the name, and does not fit into a packet. -/
theorem C75_ping_refuted {hash : Data → Bytes} (hh : ∀ d, (hash d).length = 32) {o : PingServer.Opts}
    (hp : (encodeComps (PingServer.filterPrefix o)).length ≤ 8500) (a b c d : UInt8) {es s}
    (h : (pingMachine hash o).Run es s) (hs : s.failed = false) :
    ∃ w s', (pingMachine hash o).Run (es ++ [.interest w]) s' ∧ w.rest = nonceElement a b c d ∧
      w.encode.length ≤ maxPacket ∧ (∀ n, s'.Exits n ↔ n = 1) ∧
      s'.st.log = s.st.log ++ [.received w.i.name] := by
  obtain ⟨k, _, h1, h2⟩ := long_name hp 0 a b c d
  generalize hnm : PingServer.filterPrefix o ++ [⟨8, List.replicate k 0⟩] = nm at h1 h2
  have hpre : PingServer.filterPrefix o <+: nm := by rw [← hnm]; exact List.prefix_append _ _
  have hlarge := reply_large (hash := hash) (o := o) (i := ⟨nm, false, false⟩) hh (by rw [h2]; decide)
  refine ⟨⟨⟨nm, false, false⟩, nonceElement a b c d⟩, _, h.snoc _ ⟨hs, hpre, Nat.le_of_eq h1⟩, rfl, Nat.le_of_eq h1, ?_⟩
  have hst := ping_fails (s := s) (w := ⟨⟨nm, false, false⟩, nonceElement a b c d⟩) hlarge
  rw [hst]
  exact ⟨fun n => by simp [PingSt.Exits], rfl⟩

/-- The claim is false for every ping server whose prefix has a reasonable length. -/
theorem C75_ping_refuted_claim {hash : Data → Bytes} (hh : ∀ d, (hash d).length = 32) {o : PingServer.Opts}
    (hp : (encodeComps (PingServer.filterPrefix o)).length ≤ 8500) : ¬ PingStaysUp hash o := by
  intro hc
  obtain ⟨w, s', h1, _, _, h2, _⟩ := C75_ping_refuted hh hp 0 0 0 0 (Machine.Run.nil (M := pingMachine hash o)) rfl
  have h3 := (h2 1).mpr rfl
  have h4 := hc _ _ h1
  unfold PingSt.Exits at h3
  rw [h4] at h3
  simp at h3

/-- **C75 (what does hold, ndnpingserver)** If name and payload together leave some room, the server does not stop, and
answers as in C32. The only other end is the end with status 0. Missing from the claim: large names and large
payloads. -/
theorem C75_ping_partial {hash : Data → Bytes} (hh : ∀ d, (hash d).length = 32) {o : PingServer.Opts} {es s}
    (h : (pingMachine hash o).Run es s)
    (hs : ∀ w, PingEv.interest w ∈ es → (encodeName w.i.name).length + o.payloadSize + 80 ≤ maxPacket) :
    s.failed = false ∧ (PingServer.machine o).Run (es.map PingEv.plain) s.st ∧
    ∀ n, s.Exits n → n = 0 ∧ s.st.registered = false := by
  have key : s.failed = false ∧ (PingServer.machine o).Run (es.map PingEv.plain) s.st := by
    induction h with
    | nil => exact ⟨rfl, .nil⟩
    | snoc e _ he ih =>
      rename_i es s hr
      obtain ⟨ih1, ih2⟩ := ih (fun w hw => hs w (List.mem_append_left _ hw))
      rw [List.map_append, List.map_singleton]
      cases e with
      | sigint => exact ⟨ih1, ih2.snoc _ trivial⟩
      | interest w =>
        have hw := hs w (by simp)
        rw [ping_goes (reply_fits hh hw)]
        exact ⟨ih1, ih2.snoc _ he.2.1⟩
  refine ⟨key.1, key.2, ?_⟩
  intro n hn
  unfold PingSt.Exits at hn
  rw [key.1] at hn
  simp only [Bool.false_eq_true, if_false] at hn
  exact ⟨hn.2, hn.1⟩

/-! ## ndnputchunks -/

/-- An Interest of allowed size for which the Nack is too long. -/
theorem large_nack {digest : Data → Bytes} {o : Producer.Opts} {pre : Name} {now : Nat}
    {input : Bytes} (hn : now < 2 ^ 64) (hm : 0 < o.maxSegmentSize)
    (hp : (encodeComps (Producer.construct o pre now input).versionedPrefix).length ≤ 8500) (a b c d : UInt8) (now' : Nat) :
    ∃ w : WireInterest, w.rest = nonceElement a b c d ∧ w.encode.length ≤ maxPacket ∧
      (Producer.construct o pre now input).versionedPrefix <+: w.i.name ∧
      (Producer.construct o pre now input).onInterest digest now' w.i = [.nack] ∧ maxPacket < (encodeNack w).length := by
  generalize hvp : (Producer.construct o pre now input).versionedPrefix = vp at hp
  obtain ⟨k, hk, h1, h2⟩ := long_name hp 1 a b c d
  obtain ⟨d0, hd0⟩ : ∃ d, (Producer.construct o pre now input).store[0]? = some d := by
    cases hx : (Producer.construct o pre now input).store with
    | nil => exact absurd hx (Producer.store_ne_nil hm)
    | cons x xs => exact ⟨x, rfl⟩
  have hreply : (Producer.construct o pre now input).onInterest digest now'
      ⟨vp ++ [⟨8, List.replicate k 1⟩], false, false⟩ = [.nack] := by
    have hnk : ∀ c : Comp, vp ++ [⟨8, List.replicate k 1⟩] = vp ++ [c] → c = ⟨8, List.replicate k 1⟩ := by
      intro c hc
      have := List.append_cancel_left hc
      simpa using this.symm
    have hseg : (⟨8, List.replicate k 1⟩ : Comp).isSegment = false := by
      obtain ⟨j, rfl⟩ : ∃ j, k = j + 1 := ⟨k - 1, by omega⟩
      simp [Comp.isSegment, Comp.toSegment, Comp.decode, ttGeneric, List.replicate_succ, segmentMarker]
    refine (Producer.C26_unspecified_reply digest hn (i := ⟨vp ++ [⟨8, List.replicate k 1⟩], false, false⟩) hd0
      (Or.inr ⟨by rw [hvp]; exact List.prefix_append _ _, ?_⟩)).2 ?_
    · intro c hc
      unfold Producer.AsksSegment at hc
      rw [hvp] at hc
      rw [hnk c hc]; exact hseg
    · obtain ⟨_, hname, _⟩ := Producer.store_get hd0
      rw [hvp] at hname
      rintro ⟨h | ⟨h, _⟩ | h, _⟩
      · dsimp only at h
        rw [hname] at h
        have := hnk _ h
        have h3 : (Comp.fromSegment o.conv 0).isSegment = true := by
          simp [Comp.isSegment, toSegment_fromSegment (show 0 < 2 ^ 64 by norm_num)]
        rw [this, hseg] at h3
        cases h3
      · cases h
      · dsimp only at h
        have := congrArg List.length h
        rw [hname] at this
        simp at this
  have hnack : maxPacket < (encodeNack ⟨⟨vp ++ [⟨8, List.replicate k 1⟩], false, false⟩, nonceElement a b c d⟩).length := by
    unfold encodeNack
    rw [len_block, List.length_append, len_block 80, h1]
    have := sz_pos 100
    unfold maxPacket
    omega
  have h2' : (WireInterest.encode ⟨⟨vp ++ [⟨8, List.replicate k 1⟩], false, false⟩, nonceElement a b c d⟩).length ≤ maxPacket := by
    unfold maxPacket; omega
  exact ⟨_, rfl, h2', List.prefix_append _ _, hreply, hnack⟩

/-- **C75 (refuted, ndnputchunks)** With every option and input and a name of reasonable length, in every state: some
Interest of the allowed size makes ndnputchunks exit with status 1. It has to be rejected with a Nack,
which contains the Interest and does not fit into a packet. -/
theorem C75_put_refuted {digest : Data → Bytes} {sign : Data → Sig} {o : Producer.Opts} {pre : Name} {now : Nat}
    {input : Bytes} (hn : now < 2 ^ 64) (hm : 0 < o.maxSegmentSize)
    (hp : (encodeComps (Producer.construct o pre now input).versionedPrefix).length ≤ 8500) (a b c d : UInt8) {es s}
    (h : (putMachine digest sign (Producer.construct o pre now input)).Run es s) (hs : s.failed = false) (now' : Nat) :
    ∃ w s', (putMachine digest sign (Producer.construct o pre now input)).Run (es ++ [⟨w, now'⟩]) s' ∧
      w.rest = nonceElement a b c d ∧ w.encode.length ≤ maxPacket ∧ s'.Exits 1 ∧ s'.sent = s.sent := by
  obtain ⟨w, h1, h2, -, hreply, hnack⟩ := large_nack (digest := digest) (pre := pre) (input := input) hn hm hp a b c d now'
  refine ⟨w, _, h.snoc _ ⟨hs, h2⟩, h1, h2, ?_⟩
  have hst : (putMachine digest sign (Producer.construct o pre now input)).step s ⟨w, now'⟩ = { s with failed := true } := by
    rw [show (putMachine digest sign (Producer.construct o pre now input)).step =
      PutSt.step digest sign (Producer.construct o pre now input) from rfl]
    unfold PutSt.step
    dsimp only
    rw [hreply]
    simp only [List.foldl_cons, List.foldl_nil, PutSt.put, hs, Bool.false_eq_true, if_false, encodeReply]
    rw [if_neg (Nat.not_le.mpr hnack)]
  rw [hst]
  exact ⟨⟨rfl, rfl⟩, rfl⟩

private theorem segment_full {o : Producer.Opts} {pre : Name} {now : Nat} {input : Bytes} (hm : 0 < o.maxSegmentSize)
    (hi : o.maxSegmentSize ≤ input.length) {d0 : Data} (hd0 : (Producer.construct o pre now input).store[0]? = some d0) :
    d0.content.length = o.maxSegmentSize := by
  obtain ⟨hc, _⟩ := Producer.store_get hd0
  obtain ⟨g1, g2⟩ := Producer.split_sizes hm input 0 _ hc
  by_cases hl : 1 < (Producer.split o.maxSegmentSize input).length
  · exact g2 hl
  · have hf := Producer.split_flatten (m := o.maxSegmentSize) hm input
    cases hsp : Producer.split o.maxSegmentSize input with
    | nil => rw [hsp] at hc; simp at hc
    | cons x xs =>
      rw [hsp] at hl hc hf
      cases xs with
      | nil =>
        simp at hc hf
        rw [← hc, hf] at g1 ⊢
        omega
      | cons y ys => simp at hl

private theorem segment_large {sign : Data → Sig} {o : Producer.Opts} {pre : Name} {now : Nat}
    {input : Bytes} (hm : 8790 < o.maxSegmentSize) (hi : o.maxSegmentSize ≤ input.length) {d0 : Data}
    (hd0 : (Producer.construct o pre now input).store[0]? = some d0) : maxPacket < (encodeData (sign d0) d0).length := by
  have hlen := segment_full (Nat.lt_of_le_of_lt (Nat.zero_le _) hm) hi hd0
  obtain ⟨_, hnm, hfin, _⟩ := Producer.store_get hd0
  apply data_large
  · intro c hc
    rw [hfin] at hc
    cases hc
    exact len_numComp (by decide)
  · have := len_name d0.name
    have h2 := sz_pos (encodeComps d0.name).length
    have h3 : 2 ≤ (encodeComps d0.name).length := by
      rw [hnm, encodeComps_append, encodeComps_one, List.length_append, len_block]
      have := sz_pos (Comp.fromSegment o.conv 0).type
      have := sz_pos (Comp.fromSegment o.conv 0).value.length
      omega
    rw [hlen]
    omega

/-- **C75 (refuted, segment sizes)** The command line accepts segment sizes up to 8800. If the size is more than 8790 and
the input fills a segment, then already the first Interest for segment 0 makes ndnputchunks exit with
status 1, whatever the signature. -/
theorem C75_put_size_refuted {digest : Data → Bytes} {sign : Data → Sig} {o : Producer.Opts} {pre : Name} {now : Nat}
    {input : Bytes} (hn : now < 2 ^ 64) (hm : 8790 < o.maxSegmentSize) (hi : o.maxSegmentSize ≤ input.length)
    {w : WireInterest} (hw : w.encode.length ≤ maxPacket)
    (hname : w.i.name = (Producer.construct o pre now input).versionedPrefix ++ [.fromSegment o.conv 0]) (now' : Nat)
    {es s} (h : (putMachine digest sign (Producer.construct o pre now input)).Run es s) (hs : s.failed = false) :
    ∃ s', (putMachine digest sign (Producer.construct o pre now input)).Run (es ++ [⟨w, now'⟩]) s' ∧
      s'.Exits 1 ∧ s'.sent = s.sent := by
  obtain ⟨d0, hd0⟩ : ∃ d, (Producer.construct o pre now input).store[0]? = some d := by
    cases hx : (Producer.construct o pre now input).store with
    | nil => exact absurd hx (Producer.store_ne_nil (by omega))
    | cons x xs => exact ⟨x, rfl⟩
  have hseg : (Comp.fromSegment o.conv 0).toSegment = some 0 := toSegment_fromSegment (by norm_num)
  have hreply := (Producer.C26_segment_reply digest (now' := now') (o := o) (pre := pre) (input := input) hn hname hseg).1
    d0 hd0
  have hlarge := segment_large (sign := sign) hm hi hd0
  refine ⟨_, h.snoc ⟨w, now'⟩ ⟨hs, by dsimp only; exact hw⟩, ?_⟩
  have hst : (putMachine digest sign (Producer.construct o pre now input)).step s ⟨w, now'⟩ = { s with failed := true } := by
    rw [show (putMachine digest sign (Producer.construct o pre now input)).step =
      PutSt.step digest sign (Producer.construct o pre now input) from rfl]
    unfold PutSt.step
    dsimp only
    rw [hreply]
    simp only [List.foldl_cons, List.foldl_nil, PutSt.put, hs, Bool.false_eq_true, if_false, encodeReply]
    rw [if_neg (Nat.not_le.mpr hlarge)]
  rw [hst]
  exact ⟨⟨rfl, rfl⟩, rfl⟩

private theorem nack_fits {w : WireInterest} (h : w.encode.length + 12 ≤ maxPacket) : (encodeNack w).length ≤ maxPacket := by
  unfold encodeNack
  generalize w.encode = b at h
  unfold maxPacket at h ⊢
  have e1 : (Block.encode ⟨800, []⟩).length = 4 := by decide
  have h1 := sz_le (n := b.length) (by omega)
  have h2 := sz_le (n := 4 + (1 + sizeOfVarNumber b.length + b.length)) (by omega)
  rw [len_block, List.length_append, len_block 80, e1, sz_small (n := 100) (by decide), sz_small (n := 80) (by decide)]
  omega

private theorem segment_not_metadata {digest : Data → Bytes} {p : Producer.Prod} {i : Interest} {x f v} :
    Producer.Reply.metadata x f v ≠ p.processSegmentInterest digest i := by
  unfold Producer.Prod.processSegmentInterest
  dsimp only
  split
  · split
    · simp
    · split <;> simp
  · split
    · simp
    · split <;> simp

/-- The names of metadata packets. -/
private theorem metadata_names {digest : Data → Bytes} {o : Producer.Opts} {pre : Name} {now now' : Nat} {input : Bytes}
    {i : Interest} (hn : now < 2 ^ 64) {x f v}
    (h : Producer.Reply.metadata x f v ∈ (Producer.construct o pre now input).onInterest digest now' i) :
    (Producer.construct o pre now input).pre ++ [metadataComp] <+: i.name ∧
    (x = i.name ∨ ∃ c c', x = i.name ++ [Comp.fromVersion c now', Comp.fromSegment c' 0]) := by
  by_cases hdisc : (Producer.construct o pre now input).pre ++ [metadataComp] <+: i.name
  · refine ⟨hdisc, ?_⟩
    rw [Producer.onInterest_discovery hn hdisc] at h
    unfold Producer.Prod.processDiscoveryInterest at h
    split at h
    · simp at h
    · cases hmn : Producer.metadataName (Producer.construct o pre now input).opts.conv now' i.name with
      | none => rw [hmn] at h; simp at h
      | some y =>
        rw [hmn] at h
        simp only [List.mem_singleton, Producer.Reply.metadata.injEq] at h
        obtain ⟨rfl, _, rfl⟩ := h
        unfold Producer.metadataName at hmn
        dsimp only at hmn
        by_cases hl : i.name.getLast? = some metadataComp
        · rw [if_pos hl] at hmn
          split at hmn
          · cases hmn; exact Or.inr ⟨_, _, rfl⟩
          · cases hmn
        · rw [if_neg hl] at hmn
          split at hmn
          · cases hmn; exact Or.inl rfl
          · cases hmn
  · exfalso
    obtain ⟨_, hv, hx⟩ := Producer.metadata_reply hn h
    by_cases hc : Producer.Concerns (Producer.construct o pre now input) i
    · rcases hc with hc | hc | hc
      · rw [Producer.onInterest_versioned hn hc] at h
        obtain ⟨r, hr⟩ : ∃ r, r = (Producer.construct o pre now input).processSegmentInterest digest i := ⟨_, rfl⟩
        rw [← hr] at h
        simp only [List.mem_singleton] at h
        rw [← h] at hr
        exact segment_not_metadata hr
      · rw [Producer.onInterest_exact hn hc] at h
        simp only [List.mem_singleton] at h
        exact segment_not_metadata h
      · exact hdisc hc
    · rw [Producer.onInterest_other hc] at h
      cases h

theorem reply_fits_put {digest : Data → Bytes} {sign : Data → Sig} {o : Producer.Opts} {pre : Name} {now now' : Nat}
    {input : Bytes} (hn : now < 2 ^ 64) (hm : 0 < o.maxSegmentSize) {sigSize : Nat}
    (hg : ∀ d, (sign d).info.length + (sign d).value.length ≤ sigSize)
    (hsz : (encodeName (Producer.construct o pre now input).versionedPrefix).length + o.maxSegmentSize + sigSize + 100
      ≤ maxPacket) {w : WireInterest} (hw : Moderate (Producer.construct o pre now input) sigSize w)
    {r : Producer.Reply} (hr : r ∈ (Producer.construct o pre now input).onInterest digest now' w.i) (h1 : r ≠ .threw)
    (h2 : r ≠ .ub) : ∃ b, encodeReply sign w r = some b ∧ b.length ≤ maxPacket := by
  cases r with
  | threw => exact absurd rfl h1
  | ub => exact absurd rfl h2
  | nack => exact ⟨_, rfl, nack_fits hw.size⟩
  | data d =>
    refine ⟨_, rfl, ?_⟩
    obtain ⟨k, hk⟩ := Producer.data_reply hr
    obtain ⟨hc, hname, hfin, _⟩ := Producer.store_get hk
    have hlen := (Producer.split_sizes hm input k _ hc).1
    have hgd := hg d
    apply data_fits
    · intro c hc
      rw [hfin] at hc
      cases hc
      exact len_numComp (by decide)
    · have hcomp : (Block.encode ⟨(Comp.fromSegment o.conv k).type, (Comp.fromSegment o.conv k).value⟩).length ≤ 11 :=
        len_numComp (by decide)
      have e1 := len_name (Producer.construct o pre now input).versionedPrefix
      have e2 := len_name d.name
      have e3 : (encodeComps d.name).length = (encodeComps (Producer.construct o pre now input).versionedPrefix).length +
          (Block.encode ⟨(Comp.fromSegment o.conv k).type, (Comp.fromSegment o.conv k).value⟩).length := by
        rw [hname, encodeComps_append, encodeComps_one, List.length_append]
      unfold maxPacket at hsz
      have e4 := sz_pos (encodeComps (Producer.construct o pre now input).versionedPrefix).length
      have e5 := sz_le (n := (encodeComps d.name).length) (by omega)
      omega
  | metadata x f v =>
    refine ⟨_, rfl, ?_⟩
    obtain ⟨hdisc, hx⟩ := metadata_names hn hr
    obtain ⟨hv, _⟩ := Producer.metadata_reply hn hr
    have hroom := (hw.discovery hdisc).2
    subst hv
    have hgd := hg { name := x, content := encodeName (Producer.construct o pre now input).versionedPrefix, freshness := f }
    have e1 := len_name w.i.name
    have e2 := len_name x
    have e3 : (encodeComps x).length ≤ (encodeComps w.i.name).length + 22 := by
      rcases hx with rfl | ⟨c, c', rfl⟩
      · omega
      · have g1 : (Block.encode ⟨(Comp.fromVersion c now').type, (Comp.fromVersion c now').value⟩).length ≤ 11 :=
          len_numComp (by decide)
        have g2 : (Block.encode ⟨(Comp.fromSegment c' 0).type, (Comp.fromSegment c' 0).value⟩).length ≤ 11 :=
          len_numComp (by decide)
        have g3 : encodeComps (w.i.name ++ [Comp.fromVersion c now', Comp.fromSegment c' 0]) =
            encodeComps w.i.name ++ (encodeComps [Comp.fromVersion c now'] ++ encodeComps [Comp.fromSegment c' 0]) := by
          rw [← encodeComps_append, ← encodeComps_append]; rfl
        rw [g3, List.length_append, List.length_append, encodeComps_one, encodeComps_one]
        omega
    unfold maxPacket at hroom
    have e4 := sz_pos (encodeComps w.i.name).length
    have e5 := sz_le (n := (encodeComps x).length) (by omega)
    apply data_fits
    · intro c hc; cases hc
    · dsimp only
      omega

/-- **C75 (what does hold, ndnputchunks)** The signature has at most `sigSize` bytes, and together with the versioned name
and the segment size it leaves 100 bytes of a packet. Then ndnputchunks does not stop because of Interests that leave
room for the header of a Nack and, if they are for version discovery, have a name as consumers use it: each
Interest that concerns it is answered by one packet, of an allowed size. Missing from the claim: larger Interests, and
other names for version discovery. -/
theorem C75_put_partial {digest : Data → Bytes} {sign : Data → Sig} {o : Producer.Opts} {pre : Name} {now : Nat}
    {input : Bytes} (hn : now < 2 ^ 64) (hm : 0 < o.maxSegmentSize) {sigSize : Nat}
    (hg : ∀ d, (sign d).info.length + (sign d).value.length ≤ sigSize)
    (hsz : (encodeName (Producer.construct o pre now input).versionedPrefix).length + o.maxSegmentSize + sigSize + 100
      ≤ maxPacket) {es s}
    (h : (putMachine digest sign (Producer.construct o pre now input)).Run es s)
    (hw : ∀ e ∈ es, Moderate (Producer.construct o pre now input) sigSize e.w ∧ e.now < 2 ^ 64) :
    s.failed = false ∧ (∀ n, ¬ s.Exits n) ∧
    ∀ e, Moderate (Producer.construct o pre now input) sigSize e.w → e.now < 2 ^ 64 →
      Producer.Concerns (Producer.construct o pre now input) e.w.i →
      ∃ r b, ((putMachine digest sign (Producer.construct o pre now input)).step s e).sent = s.sent ++ [r] ∧
        encodeReply sign e.w r = some b ∧ b.length ≤ maxPacket := by
  have one : ∀ (s : PutSt) (e : PutEv), s.failed = false → Moderate (Producer.construct o pre now input) sigSize e.w →
      e.now < 2 ^ 64 →
      (s.step digest sign (Producer.construct o pre now input) e).failed = false ∧
      (Producer.Concerns (Producer.construct o pre now input) e.w.i →
        ∃ r b, (s.step digest sign (Producer.construct o pre now input) e).sent = s.sent ++ [r] ∧
          encodeReply sign e.w r = some b ∧ b.length ≤ maxPacket) := by
    intro s e hs hmod hnow
    obtain ⟨g1, g2⟩ := Producer.C26_one_reply_partial digest (o := o) (pre := pre) (now := now) (now' := e.now)
      (input := input) hm hn hnow e.w.i
    unfold PutSt.step
    by_cases hc : Producer.Concerns (Producer.construct o pre now input) e.w.i
    · obtain ⟨r, hr, h1, h2⟩ := g2 hc (fun hd _ => (hmod.discovery hd).1)
      obtain ⟨b, hb, hl⟩ := reply_fits_put hn hm hg hsz hmod (r := r) (by rw [hr]; simp) h1 h2
      rw [hr]
      simp only [List.foldl_cons, List.foldl_nil, PutSt.put, hs, Bool.false_eq_true, if_false]
      rw [hb]
      dsimp only
      rw [if_pos hl]
      exact ⟨rfl, fun _ => ⟨r, b, rfl, hb, hl⟩⟩
    · rw [g1 hc]
      exact ⟨hs, fun h => absurd h hc⟩
  have key : s.failed = false := by
    induction h with
    | nil => rfl
    | snoc e _ he ih =>
      obtain ⟨w1, w2⟩ := hw e (by simp)
      exact (one _ e (ih (fun x hx => hw x (List.mem_append_left _ hx))) w1 w2).1
  refine ⟨key, ?_, ?_⟩
  · rintro n ⟨h1, _⟩
    rw [key] at h1; cases h1
  · intro e h1 h2 h3
    exact (one s e key h1 h2).2 h3

/-! ## Concrete cases -/

private def exHash (_ : Data) : Bytes := List.replicate 32 0
private def exOpts : PingServer.Opts := { pre := [⟨8, [65]⟩], payloadSize := 100 }
private def exPing : WireInterest :=
  ⟨⟨[⟨8, [65]⟩, ⟨8, [0x70, 0x69, 0x6e, 0x67]⟩, ⟨8, [49]⟩], false, true⟩, nonceElement 1 2 3 4⟩

/-- Beside `C75_ping_partial`: a ping and its answer, and the sizes. -/
example : ∃ s, (pingMachine exHash exOpts).Run [.interest exPing] s ∧
    (encodeName exPing.i.name).length + exOpts.payloadSize + 80 ≤ maxPacket ∧
    s.st.log = [.received exPing.i.name, .reply (PingServer.reply exOpts exPing.i)] ∧ s.failed = false ∧
    exPing.encode.length = 24 ∧
    (encodeData (sha256Sig exHash (PingServer.reply exOpts exPing.i)) (PingServer.reply exOpts exPing.i)).length = 163 :=
  ⟨_, Machine.exec_run (M := pingMachine exHash exOpts) (s := ((pingMachine exHash exOpts).exec
    (pingMachine exHash exOpts).init [.interest exPing]).get (by decide +kernel)) (Option.some_get _).symm,
    by decide +kernel, by decide +kernel, by decide +kernel, by decide +kernel, by decide +kernel⟩

/-- Beside `C75_ping_refuted`: its hypotheses hold after that ping. -/
example : ∃ w s', (pingMachine exHash exOpts).Run [.interest exPing, .interest w] s' ∧ w.encode.length ≤ maxPacket ∧
    s'.Exits 1 := by
  obtain ⟨w, s', h1, _, h2, h3, _⟩ := C75_ping_refuted (hash := exHash) (fun _ => rfl) (o := exOpts) (by decide)
    1 2 3 4 (Machine.exec_run (M := pingMachine exHash exOpts) (s := ((pingMachine exHash exOpts).exec
    (pingMachine exHash exOpts).init [.interest exPing]).get (by decide +kernel)) (Option.some_get _).symm)
    (by decide +kernel)
  exact ⟨w, s', h1, h2, (h3 1).mpr rfl⟩

private def exSign (_ : Data) : Sig := ⟨[27, 1, 0], List.replicate 32 0⟩
private def exProd : Producer.Prod := Producer.construct { maxSegmentSize := 2 } [⟨8, [65]⟩] 7 [1, 2, 3]
private def exSegment : WireInterest := ⟨⟨[⟨8, [65]⟩, ⟨54, [7]⟩, ⟨50, [1]⟩], false, false⟩, nonceElement 1 2 3 4⟩
private def exDiscovery : WireInterest := ⟨makeDiscoveryInterest [⟨8, [65]⟩], nonceElement 1 2 3 4⟩

/-- Beside `C75_put_partial`: the hypotheses hold of the default segment size, a name with one component and a digest as
signature, and of an Interest for a segment and one for version discovery; both are answered. -/
example : (encodeName (Producer.construct {} [⟨8, [65]⟩] 7 [1, 2, 3]).versionedPrefix).length + 8000 + 35 + 100 ≤ maxPacket ∧
    Moderate exProd 35 exSegment ∧ Moderate exProd 35 exDiscovery ∧
    ∃ s, (putMachine (fun _ => []) exSign exProd).Run [⟨exDiscovery, 8⟩, ⟨exSegment, 9⟩] s ∧ s.failed = false ∧
      s.sent = [.metadata [⟨8, [65]⟩, metadataComp, ⟨54, [8]⟩, ⟨50, [0]⟩] 10 [⟨8, [65]⟩, ⟨54, [7]⟩],
        .data ⟨[⟨8, [65]⟩, ⟨54, [7]⟩, ⟨50, [1]⟩], [3], some ⟨50, [1]⟩, 10000, true⟩] := by
  refine ⟨by decide, ⟨by decide, fun h => absurd h (by decide)⟩, ⟨by decide, fun _ => ⟨by decide, by decide⟩⟩,
    _, Machine.exec_run (M := putMachine (fun _ => []) exSign exProd) (s := ((putMachine (fun _ => []) exSign exProd).exec
      (putMachine (fun _ => []) exSign exProd).init [⟨exDiscovery, 8⟩, ⟨exSegment, 9⟩]).get (by decide +kernel))
      (Option.some_get _).symm, by decide +kernel, by decide +kernel⟩

/-- Beside `C75_put_refuted` and `C75_put_size_refuted`: the hypotheses hold. -/
example : (∃ w s', (putMachine (fun _ => []) exSign exProd).Run [⟨w, 9⟩] s' ∧ w.encode.length ≤ maxPacket ∧ s'.Exits 1) ∧
    ∃ s', (putMachine (fun _ => []) exSign (Producer.construct { maxSegmentSize := 8800 } [⟨8, [65]⟩] 7
      (List.replicate 10000 0))).Run [⟨⟨⟨[⟨8, [65]⟩, ⟨54, [7]⟩, ⟨50, [0]⟩], false, false⟩, nonceElement 1 2 3 4⟩, 9⟩] s' ∧
      s'.Exits 1 := by
  constructor
  · obtain ⟨w, s', h1, _, h2, h3, _⟩ := C75_put_refuted (digest := fun _ => []) (sign := exSign)
      (o := { maxSegmentSize := 2 }) (pre := [⟨8, [65]⟩]) (now := 7) (input := [1, 2, 3]) (by decide) (by decide)
      (by decide) 1 2 3 4 Machine.Run.nil rfl 9
    exact ⟨w, s', h1, h2, h3⟩
  · obtain ⟨s', h1, h2, _⟩ := C75_put_size_refuted (digest := fun _ => []) (sign := exSign)
      (o := { maxSegmentSize := 8800 }) (pre := [⟨8, [65]⟩]) (now := 7) (input := List.replicate 10000 0) (by decide)
      (by decide) (by rw [List.length_replicate]; decide)
      (w := ⟨⟨[⟨8, [65]⟩, ⟨54, [7]⟩, ⟨50, [0]⟩], false, false⟩, nonceElement 1 2 3 4⟩) (by decide) rfl 9
      Machine.Run.nil rfl
    exact ⟨s', h1, h2⟩

end Verif.Wire
