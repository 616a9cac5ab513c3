import Verif.Spec.DumpRun
import Verif.Proofs.DumpFrame

/-! # Lemmas about ndndump as a program -/

namespace Verif.DumpRun

open Dump Dump.Spec Spec Cli Cli.Spec

theorem link?_iff (n : Nat) (l : Link) : link? n = some l ↔ KnownLink n l := by
  constructor
  · intro h
    unfold link? at h
    split at h
    · cases h; exact .ether
    · cases h; exact .ppp
    · cases h; exact .sll
    · cases h
  · intro h
    cases h <;> rfl

/-- What the loop does: the packets before a fault give their lines. -/
theorem loop_spec (c : Cfg) (ps : List Packet) :
    (∃ lss, List.Forall₂ (fun p ls => printPacket c p = .ok ls) ps lss ∧ loop c ps = (lss.flatten, .exit 0) ∧
      thrown c ps = none) ∨
    (∃ pre p post lss, ps = pre ++ p :: post ∧ List.Forall₂ (fun p ls => printPacket c p = .ok ls) pre lss ∧
      ((∃ e, printPacket c p = .error (.thrown e) ∧ loop c ps = (lss.flatten, .exit 1) ∧ thrown c ps = some e) ∨
        (printPacket c p = .error .ub ∧ loop c ps = (lss.flatten, .ub) ∧ thrown c ps = none))) := by
  induction ps with
  | nil => exact .inl ⟨[], .nil, rfl, rfl⟩
  | cons p ps ih =>
    cases h : printPacket c p with
    | error f =>
      cases f with
      | ub => exact .inr ⟨[], p, ps, [], rfl, .nil, .inr ⟨h, by simp only [loop, h, List.flatten_nil], by simp only [thrown, h]⟩⟩
      | thrown e =>
        exact .inr ⟨[], p, ps, [], rfl, .nil, .inl ⟨e, h, by simp only [loop, h, List.flatten_nil], by simp only [thrown, h]⟩⟩
    | ok ls =>
      rcases ih with ⟨lss, h1, h2, h3⟩ | ⟨pre, q, post, lss, h1, h2, h3⟩
      · exact .inl ⟨ls :: lss, .cons h h1, by simp only [loop, h, h2, List.flatten_cons], by simp only [thrown, h, h3]⟩
      · refine .inr ⟨p :: pre, q, post, ls :: lss, by rw [h1]; rfl, .cons h h2, ?_⟩
        rcases h3 with ⟨e, h3, h4, h5⟩ | ⟨h3, h4, h5⟩
        · exact .inl ⟨e, h3, by simp only [loop, h, h4, List.flatten_cons], by simp only [thrown, h, h5]⟩
        · exact .inr ⟨h3, by simp only [loop, h, h4, List.flatten_cons], by simp only [thrown, h, h5]⟩

/-! ## The filter -/

theorem load8_append (pre : Bytes) (x : UInt8) (post : Bytes) (i : Nat) (h : i = pre.length) :
    load8 (pre ++ x :: post) i = some x.toNat := by
  subst h
  simp [load8]

theorem load16_append (pre v post : Bytes) (i : Nat) (h : i = pre.length) (hv : v.length = 2) :
    load16 (pre ++ v ++ post) i = some (beNat v) := by
  match v, hv with
  | [a, b], _ =>
    have h1 : load8 (pre ++ [a, b] ++ post) i = some a.toNat := by
      rw [List.append_assoc]
      exact load8_append pre a (b :: post) i h
    have h2 : load8 (pre ++ [a, b] ++ post) (i + 1) = some b.toNat := by
      have : pre ++ [a, b] ++ post = (pre ++ [a]) ++ b :: post := by simp
      rw [this]
      exact load8_append _ _ _ _ (by simp [h])
    simp only [load16, h1, h2, beNat, Option.bind_eq_bind, Option.bind_some, Option.pure_def, List.foldl_cons, List.foldl_nil]
    simp

theorem load16_be16 (pre post : Bytes) (n i : Nat) (h : i = pre.length) (hn : n < 2 ^ 16) :
    load16 (pre ++ be16 n ++ post) i = some n := by
  rw [load16_append _ _ _ _ h (length_be16 n), beNat_be16 hn]

theorem linkHeader_facts {link : Link} {t : Nat} {h : Bytes} (hl : IsLinkHeader t link h) (ht : t < 2 ^ 16) (rest : Bytes) :
    load16 (h ++ rest) (typeOffset link) = some t ∧ h.length = typeOffset link + 2 ∧ ∀ x, linkType link x = x := by
  cases hl with
  | ether mac hm => exact ⟨load16_be16 _ _ _ _ hm.symm ht, by simp [hm, length_be16, typeOffset], fun _ => rfl⟩
  | sll mac hm => exact ⟨load16_be16 _ _ _ _ hm.symm ht, by simp [hm, length_be16, typeOffset], fun _ => rfl⟩

theorem evalPort_other {link : Link} {t : Nat} {h rest : Bytes} (hl : IsLinkHeader t link h) (ht : t < 2 ^ 16)
    (h4 : t ≠ 0x0800) (h6 : t ≠ 0x86DD) (proto port : Nat) : evalPort link (h ++ rest) proto port = some false := by
  obtain ⟨h1, -, h3⟩ := linkHeader_facts hl ht rest
  simp only [evalPort, h1, h3, Option.bind_eq_bind, Option.bind_some, Option.pure_def, if_neg h4, if_neg h6]

theorem eval_ether {link : Link} {t : Nat} {h rest : Bytes} (hl : IsLinkHeader t link h) (ht : t < 2 ^ 16) (x : Nat) :
    (Filter.etherProto x).eval link (h ++ rest) = some (decide (t = x)) := by
  obtain ⟨h1, -, h3⟩ := linkHeader_facts hl ht rest
  simp only [Filter.eval, h1, h3, Option.bind_eq_bind, Option.bind_some, Option.pure_def]

theorem evalPort_ip {link : Link} {t : Transport} {sport dport : Nat} {mem : Bytes} (hs : sport < 2 ^ 16)
    (hd : dport < 2 ^ 16) (h : CarriesIp link t sport dport mem) (proto port : Nat) :
    evalPort link mem proto port = some (decide (t.proto.toNat = proto ∧ (sport = port ∨ dport = port))) := by
  obtain ⟨v, lh, ih, src, dst, rest, following, hl, hi, hf, rfl⟩ := h
  have hv : v.etherType < 2 ^ 16 := by cases v <;> decide
  have e0 : lh ++ ih ++ be16 sport ++ be16 dport ++ rest = lh ++ (ih ++ be16 sport ++ be16 dport ++ rest) := by simp
  obtain ⟨h1, h2, h3⟩ := linkHeader_facts hl hv (ih ++ be16 sport ++ be16 dport ++ rest)
  rw [← e0] at h1
  have hp : load16 (lh ++ ih ++ be16 sport ++ be16 dport ++ rest) (typeOffset link + 2 + ih.length) = some sport := by
    have : lh ++ ih ++ be16 sport ++ be16 dport ++ rest = (lh ++ ih) ++ be16 sport ++ (be16 dport ++ rest) := by simp
    rw [this]
    exact load16_be16 _ _ _ _ (by simp [h2]) hs
  have hq : load16 (lh ++ ih ++ be16 sport ++ be16 dport ++ rest) (typeOffset link + 2 + ih.length + 2) = some dport := by
    exact load16_be16 _ _ _ _ (by simp [h2, length_be16]; omega) hd
  cases v with
  | v4 =>
    obtain ⟨tos, mid, sum, opts, e, hm, hsum, hsrc, hdst, h4, h60, ht⟩ := hi
    have hb0 : load8 (lh ++ ih ++ be16 sport ++ be16 dport ++ rest) (typeOffset link + 2) = some (0x40 + ih.length / 4) := by
      have : lh ++ ih ++ be16 sport ++ be16 dport ++ rest = lh ++ UInt8.ofNat (0x40 + ih.length / 4) ::
          (tos :: be16 (ih.length + following) ++ mid ++ [t.proto] ++ sum ++ src ++ dst ++ opts ++ be16 sport ++ be16 dport ++ rest) := by
        conv_lhs => rw [e]
        simp
      rw [this, load8_append _ _ _ _ h2.symm]
      simp only [UInt8.toNat_ofNat']
      congr 1
      omega
    have hb9 : load8 (lh ++ ih ++ be16 sport ++ be16 dport ++ rest) (typeOffset link + 2 + 9) = some t.proto.toNat := by
      have : lh ++ ih ++ be16 sport ++ be16 dport ++ rest = (lh ++ UInt8.ofNat (0x40 + ih.length / 4) ::
          tos :: be16 (ih.length + following) ++ mid) ++ t.proto :: (sum ++ src ++ dst ++ opts ++ be16 sport ++ be16 dport ++ rest) := by
        conv_lhs => rw [e]
        simp
      rw [this, load8_append _ _ _ _ (by simp [h2, hm, length_be16])]
    obtain ⟨a, x, y, b, e', ha, hz⟩ := hf
    have hb6 : load16 (lh ++ ih ++ be16 sport ++ be16 dport ++ rest) (typeOffset link + 2 + 6) = some (x.toNat * 256 + y.toNat) := by
      have : lh ++ ih ++ be16 sport ++ be16 dport ++ rest = (lh ++ a) ++ [x, y] ++ (b ++ be16 sport ++ be16 dport ++ rest) := by
        rw [e']
        simp
      rw [this, load16_append _ _ _ _ (by simp [h2, ha]) rfl]
      simp [beNat]
    have hx : (0x40 + ih.length / 4) % 16 * 4 = ih.length := by omega
    have hz' : (x.toNat * 256 + y.toNat) % 8192 = 0 := hz
    simp only [evalPort, h1, h3, Option.bind_eq_bind, Option.bind_some, Option.pure_def, IpVersion.etherType, hb0, hb9, hb6, hz', hx,
      hp, hq]
    rw [if_neg (by decide), if_pos trivial]
    by_cases c1 : t.proto.toNat = proto <;> by_cases c2 : sport = port <;> simp [c1, c2]
  | v6 =>
    obtain ⟨low, hop, flow, e, hfl, hsrc, hdst, hpl⟩ := hi
    have hlen : ih.length = 40 := by rw [e]; simp [hfl, hsrc, hdst, length_be16]
    have hb6 : load8 (lh ++ ih ++ be16 sport ++ be16 dport ++ rest) (typeOffset link + 2 + 6) = some t.proto.toNat := by
      have : lh ++ ih ++ be16 sport ++ be16 dport ++ rest = (lh ++ UInt8.ofNat (0x60 + low.toNat % 16) :: flow ++
          be16 following) ++ t.proto :: (hop :: src ++ dst ++ be16 sport ++ be16 dport ++ rest) := by
        conv_lhs => rw [e]
        simp
      rw [this, load8_append _ _ _ _ (by simp [h2, hfl, length_be16])]
    rw [hlen] at hp hq
    simp only [evalPort, h1, h3, Option.bind_eq_bind, Option.bind_some, Option.pure_def, IpVersion.etherType, hb6, hp, hq]
    rw [if_pos trivial]
    by_cases c1 : t.proto.toNat = proto <;> by_cases c2 : sport = port <;> simp [c1, c2]

/-! ## The program -/

theorem dump_run {lib : Lib} {a : DumpArgs} (hh : a.help = false) (hv : a.version = false) (hok : DumpOk lib a) :
    Cli.dump lib (some a) =
      .run { interface := a.interface.getD "", read := a.read.getD "", filter := a.filter,
             wantPromisc := !a.noPromisc, wantTimestamp := !a.noTimestamp, wantVerbose := a.verbose,
             pcapFilter := a.pcapFilter } := by
  have h1 : ¬ (a.interface.isSome = true ∧ a.read.isSome = true) := by
    rcases hok.source with h | h <;> simp [h]
  have h2 : ¬ (a.filter.any (fun f => decide (¬ lib.regex f = true)) = true) := by
    have := hok.filter
    cases hf : a.filter with
    | none => simp
    | some f => simp [this f hf]
  simp only [Cli.dump, hh, hv]
  rw [if_neg (by simp), if_neg (by simp), if_neg h1, if_neg h2]

/-- What `run` does after it has decided what to open. -/
def after (env : Env) (o : DumpOpts) (x : Opened) : Out :=
  match x with
  | .live i p =>
    match env.live i p with
    | .error e => { opened := some x, msgs := [.cannotListen i e], ending := .exit 1 }
    | .ok s => withLink env o s (.listening i) { opened := some x, ending := .exit 1 }
  | .file f =>
    match env.offline f with
    | .error e => { opened := some x, msgs := [.cannotRead f e], ending := .exit 1 }
    | .ok s => withLink env o s (.reading f) { opened := some x, ending := .exit 1 }

theorem openLive_eq (env : Env) (o : DumpOpts) (i : String) : openLive env o i = after env o (.live i o.wantPromisc) := by
  simp only [openLive, after]
  cases env.live i o.wantPromisc <;> rfl

theorem openFile_eq (env : Env) (o : DumpOpts) : openFile env o = after env o (.file o.read) := by
  simp only [openFile, after]
  cases env.offline o.read <;> rfl

/-- The two ways in which the reading of a capture goes. -/
theorem capture_spec (env : Env) (o : DumpOpts) (link : Link) (pass : Bytes → Bool) (s : Source) (out : Out)
    (c : Cfg) (hc : c = { link := link, nameFilter := o.filter.map env.regexMatch, wantTimestamp := o.wantTimestamp,
                          dec := env.dec }) :
    ∃ pre post lss, s.packets.filter (fun p => pass p.mem) = pre ++ post ∧
      List.Forall₂ (fun p ls => printPacket c p = .ok ls) pre lss ∧
      (capture env o link pass s out).opened = out.opened ∧
      (capture env o link pass s out).lines = lss.flatten ∧
      ((post = [] ∧ ((s.failure = none ∧ (capture env o link pass s out).ending = .exit 0 ∧
            (capture env o link pass s out).msgs = out.msgs) ∨
          (∃ e, s.failure = some e ∧ (capture env o link pass s out).ending = .exit 1 ∧
            (capture env o link pass s out).msgs = out.msgs ++ [.loop e]))) ∨
        (∃ p q e, post = p :: q ∧ printPacket c p = .error (.thrown e) ∧
          (capture env o link pass s out).ending = .exit 1 ∧
          (capture env o link pass s out).msgs = out.msgs ++ [.packet e]) ∨
        (∃ p q, post = p :: q ∧ printPacket c p = .error .ub ∧ (capture env o link pass s out).ending = .ub ∧
          (capture env o link pass s out).msgs = out.msgs)) := by
  have key : capture env o link pass s out =
      match thrown c (s.packets.filter fun p => pass p.mem), (loop c (s.packets.filter fun p => pass p.mem)).2, s.failure with
      | some e, end_, _ => { out with lines := (loop c (s.packets.filter fun p => pass p.mem)).1, msgs := out.msgs ++ [.packet e], ending := end_ }
      | none, .exit _, some e => { out with lines := (loop c (s.packets.filter fun p => pass p.mem)).1, msgs := out.msgs ++ [.loop e], ending := .exit 1 }
      | none, end_, _ => { out with lines := (loop c (s.packets.filter fun p => pass p.mem)).1, ending := end_ } := by
    subst hc
    rfl
  generalize s.packets.filter (fun p => pass p.mem) = ps at *
  rcases loop_spec c ps with ⟨lss, h1, h2, h3⟩ | ⟨pre, p, post, lss, h1, h2, h3⟩
  · refine ⟨ps, [], lss, by simp, h1, ?_⟩
    rw [h2, h3] at key
    cases hf : s.failure with
    | none =>
      rw [hf] at key
      simp only at key
      rw [key]
      exact ⟨rfl, rfl, .inl ⟨rfl, .inl ⟨rfl, rfl, rfl⟩⟩⟩
    | some e =>
      rw [hf] at key
      simp only at key
      rw [key]
      exact ⟨rfl, rfl, .inl ⟨rfl, .inr ⟨e, rfl, rfl, rfl⟩⟩⟩
  · refine ⟨pre, p :: post, lss, h1, h2, ?_⟩
    rcases h3 with ⟨e, h3, h4, h5⟩ | ⟨h3, h4, h5⟩
    · rw [h4, h5] at key
      simp only at key
      rw [key]
      exact ⟨rfl, rfl, .inr (.inl ⟨p, post, e, rfl, h3, rfl, rfl⟩)⟩
    · rw [h4, h5] at key
      simp only at key
      rw [key]
      exact ⟨rfl, rfl, .inr (.inr ⟨p, post, rfl, h3, rfl, rfl⟩)⟩

theorem filterText_spec (o : DumpOpts) (a : DumpArgs) (h : o.pcapFilter = a.pcapFilter) (t : String) :
    FilterText a t ↔ t = filterText o := by
  unfold filterText
  rw [h]
  constructor
  · rintro (h | h)
    · rw [if_pos h]; rfl
    · rw [if_neg h]
  · rintro rfl
    by_cases h : a.pcapFilter = []
    · rw [if_pos h]; exact .default h
    · rw [if_neg h]; exact .words h

/-- After opening: either the capture cannot be read, and the last message tells why, or it is read. -/
theorem withLink_spec (env : Env) (o : DumpOpts) (a : DumpArgs) (ha : o.pcapFilter = a.pcapFilter) (s : Source)
    (msg : String → Msg) (out : Out) :
    ((¬ ∃ link pass, KnownLink s.dlt link ∧ ∃ text, FilterText a text ∧ Filters env s.dlt text pass) ∧
      ∃ ms m, withLink env o s msg out =
        { out with msgs := out.msgs ++ [msg (env.linkName s.dlt)] ++ ms ++ [m], ending := .exit 1 } ∧
        (∀ x ∈ ms, Msg.isError x = false) ∧ Msg.isError m = true) ∨
    ∃ link pass ms, KnownLink s.dlt link ∧ (∃ text, FilterText a text ∧ Filters env s.dlt text pass) ∧
      (∀ x ∈ ms, Msg.isError x = false) ∧
      withLink env o s msg out =
        capture env o link pass s { out with msgs := out.msgs ++ [msg (env.linkName s.dlt)] ++ ms } := by
  simp only [filterText_spec o a ha]
  unfold withLink
  dsimp only
  cases hl : link? s.dlt with
  | none =>
    refine .inl ⟨?_, [], _, by simp only [List.append_nil]; rfl, by simp, rfl⟩
    rintro ⟨link, pass, hk, -⟩
    rw [← link?_iff, hl] at hk
    cases hk
  | some link =>
    have hk := (link?_iff _ _).mp hl
    dsimp only
    unfold filterAndCapture
    dsimp only
    by_cases ht : filterText o = ""
    · rw [if_pos ht]
      exact .inr ⟨link, _, [], hk, ⟨_, rfl, .inl ⟨ht, rfl⟩⟩, by simp, by simp only [List.append_nil]⟩
    · rw [if_neg ht]
      have hv : ∃ ms : List Msg, (∀ x ∈ ms, Msg.isError x = false) ∧
          (if o.wantVerbose = true then { out with msgs := out.msgs ++ [msg (env.linkName s.dlt)] ++ [.filter (filterText o)] }
            else { out with msgs := out.msgs ++ [msg (env.linkName s.dlt)] } : Out) =
          { out with msgs := out.msgs ++ [msg (env.linkName s.dlt)] ++ ms } := by
        cases o.wantVerbose
        · exact ⟨[], by simp, by simp⟩
        · exact ⟨[.filter (filterText o)], by simp [Msg.isError], by simp⟩
      obtain ⟨ms, hms, e⟩ := hv
      simp only [e]
      cases hc : env.compile s.dlt (filterText o) with
      | error x =>
        refine .inl ⟨?_, ms, _, rfl, hms, rfl⟩
        rintro ⟨link', pass, -, t, rfl, h | h⟩
        · exact ht h.1
        · rw [hc] at h; cases h.2.1
      | ok pass =>
        dsimp only
        cases hs : env.setFilter s.dlt (filterText o) with
        | error x =>
          refine .inl ⟨?_, ms, _, rfl, hms, rfl⟩
          rintro ⟨link', pass, -, t, rfl, h | h⟩
          · exact ht h.1
          · obtain ⟨-, -, u, hu⟩ := h
            rw [hs] at hu; cases hu
        | ok u => exact .inr ⟨link, pass, ms, hk, ⟨_, rfl, .inr ⟨ht, hc, u, hs⟩⟩, hms, rfl⟩

/-- What a run that opened `x` leaves. -/
def Result (env : Env) (a : DumpArgs) (x : Opened) (r : Out) : Prop :=
  r.opened = some x ∧
  (((¬ ∃ s link pass, Captures env a x s link pass) ∧ r.lines = [] ∧ r.ending = .exit 1 ∧
      ∃ ms m, r.msgs = ms ++ [m] ∧ (∀ y ∈ ms, Msg.isError y = false) ∧ Msg.isError m = true) ∨
    ∃ s link pass, Captures env a x s link pass ∧
      ∃ pre post lss, s.packets.filter (fun p => pass p.mem) = pre ++ post ∧
        List.Forall₂ (fun p ls => printPacket (config env a link) p = .ok ls) pre lss ∧ r.lines = lss.flatten ∧
        ∃ ms, (∀ y ∈ ms, Msg.isError y = false) ∧
        ((post = [] ∧ ((s.failure = none ∧ r.ending = .exit 0 ∧ r.msgs = ms) ∨
            (∃ e, s.failure = some e ∧ r.ending = .exit 1 ∧ r.msgs = ms ++ [.loop e]))) ∨
          (∃ p q e, post = p :: q ∧ printPacket (config env a link) p = .error (.thrown e) ∧
            r.ending = .exit 1 ∧ r.msgs = ms ++ [.packet e]) ∨
          (∃ p q, post = p :: q ∧ printPacket (config env a link) p = .error .ub ∧ r.ending = .ub ∧ r.msgs = ms)))

/-- The options that the command line gives. -/
def optsOf (a : DumpArgs) : DumpOpts where
  interface := a.interface.getD ""
  read := a.read.getD ""
  filter := a.filter
  wantPromisc := !a.noPromisc
  wantTimestamp := !a.noTimestamp
  wantVerbose := a.verbose
  pcapFilter := a.pcapFilter

theorem withLink_result (env : Env) (a : DumpArgs) (x : Opened) (s : Source) (msg : String → Msg)
    (hmsg : ∀ l, Msg.isError (msg l) = false) (ho : Env.open env x = .ok s) :
    Result env a x (withLink env (optsOf a) s msg { opened := some x, ending := .exit 1 }) := by
  rcases withLink_spec env (optsOf a) a rfl s msg { opened := some x, ending := .exit 1 } with
    ⟨hn, ms, m, e, h1, h2⟩ | ⟨link, pass, ms, hk, hf, hms, e⟩
  · rw [e]
    refine ⟨rfl, .inl ⟨?_, rfl, rfl, [msg (env.linkName s.dlt)] ++ ms, m, by simp, ?_, h2⟩⟩
    · rintro ⟨s', link, pass, hc⟩
      have : s' = s := by
        have := hc.opens
        rw [ho] at this
        cases this
        rfl
      subst this
      exact hn ⟨link, pass, hc.link, hc.filter⟩
    · intro y hy
      rcases List.mem_append.mp hy with hy | hy
      · rw [List.mem_singleton.mp hy]; exact hmsg _
      · exact h1 y hy
  · rw [e]
    obtain ⟨pre, post, lss, h1, h2, h3, h4, h5⟩ := capture_spec env (optsOf a) link pass s
      { opened := some x, msgs := [msg (env.linkName s.dlt)] ++ ms, ending := .exit 1 } (config env a link) rfl
    refine ⟨h3, .inr ⟨s, link, pass, ⟨ho, hk, hf⟩, pre, post, lss, h1, h2, h4, [msg (env.linkName s.dlt)] ++ ms, ?_, h5⟩⟩
    intro y hy
    rcases List.mem_append.mp hy with hy | hy
    · rw [List.mem_singleton.mp hy]; exact hmsg _
    · exact hms y hy

theorem after_result (env : Env) (a : DumpArgs) (x : Opened) : Result env a x (after env (optsOf a) x) := by
  cases x with
  | live i p =>
    unfold after
    dsimp only
    cases h : env.live i p with
    | error e =>
      refine ⟨rfl, .inl ⟨?_, rfl, rfl, [], _, rfl, by simp, rfl⟩⟩
      rintro ⟨s', link, pass, hc⟩
      have := hc.opens
      simp only [Spec.Env.open, h] at this
      cases this
    | ok s => exact withLink_result env a (.live i p) s (.listening i) (fun _ => rfl) h
  | file f =>
    unfold after
    dsimp only
    cases h : env.offline f with
    | error e =>
      refine ⟨rfl, .inl ⟨?_, rfl, rfl, [], _, rfl, by simp, rfl⟩⟩
      rintro ⟨s', link, pass, hc⟩
      have := hc.opens
      simp only [Spec.Env.open, h] at this
      cases this
    | ok s => exact withLink_result env a (.file f) s (.reading f) (fun _ => rfl) h

/-- What `main` does with a command line that asks for a capture. -/
theorem main_cases (lib : Lib) (env : Env) (a : DumpArgs) (hh : a.help = false) (hv : a.version = false)
    (hok : DumpOk lib a) :
    (∃ i, a.interface = some i ∧ i ≠ "" ∧ main lib env (some a) = after env (optsOf a) (.live i (!a.noPromisc))) ∨
    (∃ f, a.read = some f ∧ f ≠ "" ∧ main lib env (some a) = after env (optsOf a) (.file f)) ∨
    ((a.interface = none ∨ a.interface = some "") ∧ (a.read = none ∨ a.read = some "") ∧
      ((∃ e, env.devices = .error e ∧ main lib env (some a) = { msgs := [.noDevices e], ending := .exit 1 }) ∨
        (env.devices = .ok [] ∧ main lib env (some a) = { msgs := [.noInterface], ending := .exit 1 }) ∨
        (∃ d ds, env.devices = .ok (d :: ds) ∧ d.name ≠ "" ∧
          main lib env (some a) = after env (optsOf a) (.live d.name (!a.noPromisc))) ∨
        (∃ d ds, env.devices = .ok (d :: ds) ∧ d.name = "" ∧
          main lib env (some a) = after env (optsOf a) (.file "")))) := by
  have e : main lib env (some a) = run env (optsOf a) := by
    unfold main
    rw [dump_run hh hv hok]
    rfl
  rw [e]
  have hi : (optsOf a).interface = "" ↔ (a.interface = none ∨ a.interface = some "") := by
    unfold optsOf
    cases a.interface <;> simp
  have hr : (optsOf a).read = "" ↔ (a.read = none ∨ a.read = some "") := by
    unfold optsOf
    cases a.read <;> simp
  unfold run
  by_cases c1 : (optsOf a).interface = ""
  · by_cases c2 : (optsOf a).read = ""
    · rw [if_pos ⟨c2, c1⟩]
      refine .inr (.inr ⟨hi.mp c1, hr.mp c2, ?_⟩)
      cases hd : env.devices with
      | error e => exact .inl ⟨e, rfl, rfl⟩
      | ok ds =>
        cases ds with
        | nil => exact .inr (.inl ⟨rfl, rfl⟩)
        | cons d ds =>
          dsimp only
          by_cases c3 : d.name = ""
          · rw [if_neg (by simpa using c3), openFile_eq, c2]
            exact .inr (.inr (.inr ⟨d, ds, rfl, c3, rfl⟩))
          · rw [if_pos c3, openLive_eq]
            exact .inr (.inr (.inl ⟨d, ds, rfl, c3, rfl⟩))
    · rw [if_neg (fun h => c2 h.1), if_neg (by simpa using c1), openFile_eq]
      refine .inr (.inl ?_)
      cases h : a.read with
      | none => exact absurd (hr.mpr (.inl h)) c2
      | some f => exact ⟨f, rfl, fun h' => c2 (hr.mpr (.inr (by rw [h, h']))), by simp [optsOf, h]⟩
  · rw [if_neg (fun h => c1 h.2), if_pos c1, openLive_eq]
    refine .inl ?_
    cases h : a.interface with
    | none => exact absurd (hi.mpr (.inl h)) c1
    | some i => exact ⟨i, rfl, fun h' => c1 (hi.mpr (.inr (by rw [h, h']))), by simp [optsOf, h]⟩

/-- Either nothing is opened, or the run is as described. -/
theorem main_result (lib : Lib) (env : Env) (a : DumpArgs) (hh : a.help = false) (hv : a.version = false)
    (hok : DumpOk lib a) :
    ((main lib env (some a)).opened = none ∧ (main lib env (some a)).lines = [] ∧
      (main lib env (some a)).ending = .exit 1 ∧ ∃ m, (main lib env (some a)).msgs = [m] ∧ Msg.isError m = true) ∨
    ∃ x, Result env a x (main lib env (some a)) := by
  rcases main_cases lib env a hh hv hok with ⟨i, -, -, e⟩ | ⟨f, -, -, e⟩ | ⟨-, -, ⟨x, -, e⟩ | ⟨-, e⟩ | ⟨d, ds, -, -, e⟩ | ⟨d, ds, -, -, e⟩⟩
  · rw [e]; exact .inr ⟨_, after_result _ _ _⟩
  · rw [e]; exact .inr ⟨_, after_result _ _ _⟩
  · rw [e]; exact .inl ⟨rfl, rfl, rfl, _, rfl, rfl⟩
  · rw [e]; exact .inl ⟨rfl, rfl, rfl, _, rfl, rfl⟩
  · rw [e]; exact .inr ⟨_, after_result _ _ _⟩
  · rw [e]; exact .inr ⟨_, after_result _ _ _⟩

/-! ## The option `--verbose` -/

/-- The same except for the messages. -/
def Same (r r' : Out) : Prop := r.opened = r'.opened ∧ r.lines = r'.lines ∧ r.ending = r'.ending

theorem capture_same (env : Env) (o : DumpOpts) (link : Link) (pass : Bytes → Bool) (s : Source) {out out' : Out}
    (h : Same out out') : Same (capture env o link pass s out) (capture env o link pass s out') := by
  unfold capture
  dsimp only
  split
  · exact ⟨h.1, rfl, rfl⟩
  · exact ⟨h.1, rfl, rfl⟩
  · exact ⟨h.1, rfl, rfl⟩

theorem capture_verbose (env : Env) (o : DumpOpts) (b : Bool) (link : Link) (pass : Bytes → Bool) (s : Source) (out : Out) :
    capture env { o with wantVerbose := b } link pass s out = capture env o link pass s out := rfl

theorem filterAndCapture_same (env : Env) (o : DumpOpts) (b b' : Bool) (link : Link) (s : Source) (out : Out) :
    Same (filterAndCapture env { o with wantVerbose := b } link s out)
      (filterAndCapture env { o with wantVerbose := b' } link s out) := by
  unfold filterAndCapture
  have e : ∀ b, filterText { o with wantVerbose := b } = filterText o := fun _ => rfl
  simp only [e, capture_verbose]
  split
  · exact ⟨rfl, rfl, rfl⟩
  · have h1 : Same (if b = true then { out with msgs := out.msgs ++ [.filter (filterText o)] } else out)
        (if b' = true then { out with msgs := out.msgs ++ [.filter (filterText o)] } else out) := by
      cases b <;> cases b' <;> exact ⟨rfl, rfl, rfl⟩
    generalize (if b = true then { out with msgs := out.msgs ++ [.filter (filterText o)] } else out : Out) = r at h1
    generalize (if b' = true then { out with msgs := out.msgs ++ [.filter (filterText o)] } else out : Out) = r' at h1
    split
    · exact ⟨h1.1, h1.2.1, rfl⟩
    · split
      · exact ⟨h1.1, h1.2.1, rfl⟩
      · exact capture_same env o link _ s h1

theorem withLink_same (env : Env) (o : DumpOpts) (b b' : Bool) (s : Source) (msg : String → Msg) (out : Out) :
    Same (withLink env { o with wantVerbose := b } s msg out) (withLink env { o with wantVerbose := b' } s msg out) := by
  unfold withLink
  dsimp only
  split
  · exact ⟨rfl, rfl, rfl⟩
  · exact filterAndCapture_same env o b b' _ s _

theorem run_same (env : Env) (o : DumpOpts) (b b' : Bool) :
    Same (run env { o with wantVerbose := b }) (run env { o with wantVerbose := b' }) := by
  have hl : ∀ i, Same (openLive env { o with wantVerbose := b } i) (openLive env { o with wantVerbose := b' } i) := by
    intro i
    unfold openLive
    dsimp only
    split
    · exact ⟨rfl, rfl, rfl⟩
    · exact withLink_same env o b b' _ _ _
  have hf : Same (openFile env { o with wantVerbose := b }) (openFile env { o with wantVerbose := b' }) := by
    unfold openFile
    dsimp only
    split
    · exact ⟨rfl, rfl, rfl⟩
    · exact withLink_same env o b b' _ _ _
  unfold run
  dsimp only
  split
  · split
    · exact ⟨rfl, rfl, rfl⟩
    · exact ⟨rfl, rfl, rfl⟩
    · split
      · exact hl _
      · exact hf
  · split
    · exact hl _
    · exact hf

theorem main_verbose (lib : Lib) (env : Env) (a : DumpArgs) :
    Same (main lib env (some { a with verbose := true })) (main lib env (some { a with verbose := false })) := by
  unfold main Cli.dump
  dsimp only
  split_ifs
  · exact ⟨rfl, rfl, rfl⟩
  · exact ⟨rfl, rfl, rfl⟩
  · exact ⟨rfl, rfl, rfl⟩
  · exact ⟨rfl, rfl, rfl⟩
  · exact run_same env (optsOf a) true false

end Verif.DumpRun
