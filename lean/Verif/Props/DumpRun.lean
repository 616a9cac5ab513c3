import Verif.Proofs.DumpRun
import Verif.Props.Dump

/-! # Properties of ndndump as a program: C89, C90, C91 -/

namespace Verif.DumpRun

open Dump Dump.Spec Spec Cli Cli.Spec

/-! ## Test data for the examples -/

def tlib : Lib where
  name _ := none
  signing _ := true
  base64 _ := none
  readFile _ := none
  writable _ := true
  readable _ := true
  regex f := f ≠ "("

/-- One Data packet in Ethernet. -/
def tether : Packet := ⟨tmac ++ be16 0x8624 ++ tdata, 17, 1, 2⟩

/-- The same in PPP, as ndnSIM writes it. -/
def tppp : Packet := ⟨[0xff, 0x03, 0x00, 0x77, 0, 0] ++ tdata, 9, 1, 2⟩

/-- libpcap for the examples: `lo` and `eth0`, a file with a frame of Ethernet and another with one of PPP. -/
def tenv (devs : List Dev) : Env where
  devices := .ok devs
  live i _ := if i = "eth0" ∨ i = "lo" then .ok ⟨1, [tether], none⟩ else .error "No such device exists"
  offline f := if f = "trace" then .ok ⟨1, [tether], none⟩ else if f = "ndnsim" then .ok ⟨9, [tppp], none⟩
    else if f = "broken" then .ok ⟨1, [tether], some "truncated dump file"⟩
    else if f = "wifi" then .ok ⟨105, [], none⟩ else .error "No such file or directory"
  linkName n := if n = 1 then "EN10MB (Ethernet)" else if n = 9 then "PPP (PPP)" else "IEEE802_11 (802.11)"
  compile dlt text := if text = defaultFilter then .ok ((defaultAst.passes ((link? dlt).getD .ether))) else .error "syntax error"
  setFilter _ _ := .ok ()
  regexMatch _ _ := false
  dec := tdec

/-! ## C89: from where the packets come -/

/-- C89, in part: ndndump opens precisely what the command line asks for, if the names on the command line are not empty,
there is an interface other than loopback interfaces, and libpcap lists it before them. -/
theorem C89_source_partial (lib : Lib) (env : Env) (a : DumpArgs) (hh : a.help = false) (hv : a.version = false)
    (hok : DumpOk lib a) (hi : a.interface ≠ some "") (hr : a.read ≠ some "") (devs : List Dev)
    (hd : env.devices = .ok devs) (hl : LoopbackLast devs) (he : ∃ d ∈ devs, d.loopback = false)
    (hne : ∀ d ∈ devs, d.name ≠ "") (x : Opened) :
    (main lib env (some a)).opened = some x ↔ Asked devs a x := by
  have one : ∀ y, (main lib env (some a)).opened = some y → Asked devs a y → (∀ z, Asked devs a z → z = y) →
      ((main lib env (some a)).opened = some x ↔ Asked devs a x) := by
    intro y h1 h2 h3
    rw [h1]
    constructor
    · intro h; cases h; exact h2
    · intro h; rw [h3 x h]
  have hsrc := hok.source
  rcases main_cases lib env a hh hv hok with ⟨i, h1, -, e⟩ | ⟨f, h1, -, e⟩ |
    ⟨h1, h2, ⟨x, h, e⟩ | ⟨h, e⟩ | ⟨d, ds, h, -, e⟩ | ⟨d, ds, h, h', e⟩⟩
  · refine one (.live i (!a.noPromisc)) (by rw [e]; exact (after_result _ _ _).1) (.interface i h1) ?_
    intro z hz
    cases hz with
    | file f hf => rw [h1, hf] at hsrc; simp at hsrc
    | interface j hj => rw [h1] at hj; cases hj; rfl
    | first _ _ _ _ hj => rw [h1] at hj; cases hj
  · refine one (.file f) (by rw [e]; exact (after_result _ _ _).1) (.file f h1) ?_
    intro z hz
    cases hz with
    | file g hg => rw [h1] at hg; cases hg; rfl
    | interface j hj => rw [h1, hj] at hsrc; simp at hsrc
    | first _ _ _ hj => rw [h1] at hj; cases hj
  · rw [h] at hd; cases hd
  · rw [h] at hd; cases hd; simp at he
  · have h1 := h1.resolve_right hi
    have h2 := h2.resolve_right hr
    rw [h] at hd
    cases hd
    have hlo : d.loopback = false := by
      obtain ⟨d', hd', hf⟩ := he
      rcases List.mem_cons.mp hd' with rfl | hm
      · exact hf
      · obtain ⟨pre, post, rfl⟩ := List.append_of_mem hm
        exact hl (d :: pre) d' post rfl hf d (by simp)
    refine one (.live d.name (!a.noPromisc)) (by rw [e]; exact (after_result _ _ _).1)
      (.first [] d ds h2 h1 rfl (by simp) hlo) ?_
    intro z hz
    cases hz with
    | file g hg => rw [h2] at hg; cases hg
    | interface j hj => rw [h1] at hj; cases hj
    | first pre d' post _ _ hs hp hf =>
      cases pre with
      | nil => cases hs; rfl
      | cons y ys =>
        cases hs
        have := hp d (by simp)
        rw [hlo] at this
        cases this
  · rw [h] at hd
    cases hd
    exact absurd h' (hne d (by simp))

example : DumpOk tlib { read := some "trace" } ∧ LoopbackLast [⟨"eth0", false⟩, ⟨"lo", true⟩] ∧
    (∃ d ∈ [Dev.mk "eth0" false, ⟨"lo", true⟩], d.loopback = false) ∧
    (main tlib (tenv [⟨"eth0", false⟩, ⟨"lo", true⟩]) (some {})).opened = some (.live "eth0" true) := by
  refine ⟨⟨by simp, by simp⟩, ?_, ⟨⟨"eth0", false⟩, by simp, rfl⟩, by decide +kernel⟩
  intro pre d post h hf x hx
  match pre, h with
  | [], _ => cases hx
  | [y], h => cases h; cases hf
  | y :: z :: r, h => simp at h

/-- C89 does not hold: with an empty file name after `--read`, ndndump listens on the first interface, and puts it into
promiscuous mode, although the command line asks to read a file. -/
theorem C89_read_refuted (lib : Lib) (env : Env) (d : Dev) (ds : List Dev) (hd : env.devices = .ok (d :: ds))
    (hn : d.name ≠ "") :
    (main lib env (some { read := some "" })).opened = some (.live d.name true) ∧
    ∀ devs, ¬ Asked devs { read := some "" } (.live d.name true) := by
  constructor
  · rcases main_cases lib env { read := some "" } rfl rfl ⟨.inl rfl, by simp⟩ with ⟨i, h1, -, -⟩ | ⟨f, h1, h2, -⟩ |
      ⟨-, -, ⟨x, h, -⟩ | ⟨h, -⟩ | ⟨d', ds', h, -, e⟩ | ⟨d', ds', h, h', -⟩⟩
    · cases h1
    · cases h1; exact absurd rfl h2
    · rw [hd] at h; cases h
    · rw [hd] at h; cases h
    · rw [hd] at h; cases h
      rw [e]; exact (after_result _ _ _).1
    · rw [hd] at h; cases h; exact absurd h' hn
  · intro devs h
    generalize hx : Opened.live d.name true = x at h
    cases h with
    | file f h => cases hx
    | interface i h => cases h
    | first _ _ _ h => cases h

example : (main tlib (tenv [⟨"eth0", false⟩]) (some { read := some "" })).opened = some (.live "eth0" true) := by
  decide +kernel

/-- C89 does not hold: if there are only loopback interfaces, ndndump listens on the first of them, although the
documentation says that loopback interfaces are not used. -/
theorem C89_loopback_refuted (lib : Lib) (env : Env) (d : Dev) (ds : List Dev) (hd : env.devices = .ok (d :: ds))
    (hn : d.name ≠ "") (hl : ∀ x ∈ d :: ds, x.loopback = true) :
    (main lib env (some {})).opened = some (.live d.name true) ∧ ¬ Asked (d :: ds) {} (.live d.name true) := by
  constructor
  · rcases main_cases lib env {} rfl rfl ⟨.inl rfl, by simp⟩ with ⟨i, h1, -, -⟩ | ⟨f, h1, h2, -⟩ |
      ⟨-, -, ⟨x, h, -⟩ | ⟨h, -⟩ | ⟨d', ds', h, -, e⟩ | ⟨d', ds', h, h', -⟩⟩
    · cases h1
    · cases h1
    · rw [hd] at h; cases h
    · rw [hd] at h; cases h
    · rw [hd] at h; cases h
      rw [e]; exact (after_result _ _ _).1
    · rw [hd] at h; cases h; exact absurd h' hn
  · intro h
    generalize hx : Opened.live d.name true = x at h
    cases h with
    | file f h => cases hx
    | interface i h => cases h
    | first pre d' post _ _ hs _ hf =>
      have := hl d' (by rw [hs]; simp)
      rw [hf] at this
      cases this

example : (main tlib (tenv [⟨"lo", true⟩]) (some {})).opened = some (.live "lo" true) := by decide +kernel

/-! ## C90: exit status and output -/

/-- A command line without `--help` and `--version`. -/
theorem wellFormed_or (lib : Lib) (env : Env) (a : DumpArgs) :
    ((a.help = true ∨ a.version = true) ∧ main lib env (some a) = { ending := .exit 0 }) ∨
    (a.help = false ∧ a.version = false ∧ ¬ DumpOk lib a ∧ main lib env (some a) = { ending := .exit 2 }) ∨
    (a.help = false ∧ a.version = false ∧ DumpOk lib a) := by
  cases hh : a.help with
  | true => exact .inl ⟨.inl rfl, by simp [main, Cli.dump, hh]⟩
  | false =>
    cases hv : a.version with
    | true => exact .inl ⟨.inr rfl, by simp [main, Cli.dump, hh, hv]⟩
    | false =>
      by_cases hok : DumpOk lib a
      · exact .inr (.inr ⟨rfl, rfl, hok⟩)
      · refine .inr (.inl ⟨rfl, rfl, hok, ?_⟩)
        have : Cli.dump lib (some a) = .exit 2 := by
          simp only [Cli.dump, hh, hv]
          rw [if_neg (by simp), if_neg (by simp)]
          by_cases h1 : a.interface.isSome = true ∧ a.read.isSome = true
          · rw [if_pos h1]
          · rw [if_neg h1]
            by_cases h2 : a.filter.any (fun f => decide (¬ lib.regex f = true)) = true
            · rw [if_pos h2]
            · refine absurd ⟨?_, ?_⟩ hok
              · cases hi : a.interface with
                | none => exact .inl rfl
                | some i =>
                  cases hr : a.read with
                  | none => exact .inr rfl
                  | some r => simp [hi, hr] at h1
              · intro f hf
                rw [hf] at h2
                simpa using h2
        simp only [main, this]

/-- The bytes of all packets are there. -/
def AllWhole (env : Env) : Prop := ∀ x s, Env.open env x = .ok s → ∀ p ∈ s.packets, Whole p

/-- **C90, status.** If every packet was captured entirely: the exit status is 2 precisely for a malformed command line; 0
precisely if help or version was asked for or the capture could be opened, its link type and the filter are accepted, no
packet that the filter lets through causes an error, and libpcap did not report one; and otherwise 1. -/
theorem C90_status (lib : Lib) (env : Env) (hw : AllWhole env) (a : Option DumpArgs) :
    ((main lib env a).ending = .exit 2 ↔
      ∀ b, a = some b → b.help = false ∧ b.version = false ∧ ¬ DumpOk lib b) ∧
    ((main lib env a).ending = .exit 0 ↔
      ∃ b, a = some b ∧ (b.help = true ∨ b.version = true ∨ (DumpOk lib b ∧
        ∃ x s link pass, (main lib env a).opened = some x ∧ Captures env b x s link pass ∧ s.failure = none ∧
          ∀ p ∈ s.packets, pass p.mem = true → ∃ ls, printPacket (config env b link) p = .ok ls))) ∧
    ((main lib env a).ending = .exit 0 ∨ (main lib env a).ending = .exit 1 ∨ (main lib env a).ending = .exit 2) := by
  cases a with
  | none =>
    have e : (main lib env none).ending = .exit 2 := rfl
    rw [e]
    exact ⟨⟨fun _ b hb => (by cases hb), fun _ => rfl⟩, ⟨fun h => (by cases h), fun ⟨b, hb, _⟩ => (by cases hb)⟩, .inr (.inr rfl)⟩
  | some a =>
    rcases wellFormed_or lib env a with ⟨h, e⟩ | ⟨hh, hv, hok, e⟩ | ⟨hh, hv, hok⟩
    · rw [e]
      refine ⟨⟨fun h => (by cases h), fun h' => ?_⟩, ⟨fun _ => ⟨a, rfl, ?_⟩, fun _ => rfl⟩, .inl rfl⟩
      · obtain ⟨h1, h2, -⟩ := h' a rfl
        rw [h1, h2] at h
        rcases h with h | h <;> cases h
      · rcases h with h | h
        · exact .inl h
        · exact .inr (.inl h)
    · rw [e]
      refine ⟨⟨fun _ b hb => (by cases hb; exact ⟨hh, hv, hok⟩), fun _ => rfl⟩, ⟨fun h => (by cases h), ?_⟩, .inr (.inr rfl)⟩
      rintro ⟨b, hb, h⟩
      cases hb
      rw [hh, hv] at h
      rcases h with h | h | ⟨h, -⟩
      · cases h
      · cases h
      · exact absurd h hok
    · have h2 : ¬ ∀ b, some a = some b → b.help = false ∧ b.version = false ∧ ¬ DumpOk lib b :=
        fun h => (h a rfl).2.2 hok
      have fin1 : (main lib env (some a)).ending = .exit 1 →
          (¬ ∃ x s link pass, (main lib env (some a)).opened = some x ∧ Captures env a x s link pass ∧ s.failure = none ∧
            ∀ p ∈ s.packets, pass p.mem = true → ∃ ls, printPacket (config env a link) p = .ok ls) →
          ((main lib env (some a)).ending = .exit 2 ↔
            ∀ b, some a = some b → b.help = false ∧ b.version = false ∧ ¬ DumpOk lib b) ∧
          ((main lib env (some a)).ending = .exit 0 ↔
            ∃ b, some a = some b ∧ (b.help = true ∨ b.version = true ∨ (DumpOk lib b ∧
              ∃ x s link pass, (main lib env (some a)).opened = some x ∧ Captures env b x s link pass ∧ s.failure = none ∧
                ∀ p ∈ s.packets, pass p.mem = true → ∃ ls, printPacket (config env b link) p = .ok ls))) ∧
          ((main lib env (some a)).ending = .exit 0 ∨ (main lib env (some a)).ending = .exit 1 ∨
            (main lib env (some a)).ending = .exit 2) := by
        intro e hn
        rw [e]
        refine ⟨⟨fun h => (by cases h), fun h => absurd h h2⟩, ⟨fun h => (by cases h), ?_⟩, .inr (.inl rfl)⟩
        rintro ⟨b, hb, h⟩
        cases hb
        rw [hh, hv] at h
        rcases h with h | h | ⟨-, h⟩
        · cases h
        · cases h
        · exact absurd h hn
      rcases main_result lib env a hh hv hok with ⟨ho, -, he, -⟩ | ⟨x, ho, ⟨hn, -, he, -⟩ |
        ⟨s, link, pass, hc, pre, post, lss, hp, hls, -, ms, -, hcases⟩⟩
      · refine fin1 he ?_
        rintro ⟨x, s, link, pass, h, -⟩
        rw [ho] at h; cases h
      · refine fin1 he ?_
        rintro ⟨x', s, link, pass, h, hc, -⟩
        rw [ho] at h; cases h
        exact hn ⟨s, link, pass, hc⟩
      · -- what a second description of the same capture has to be
        have uniq : ∀ {x' s' link' pass'}, (main lib env (some a)).opened = some x' → Captures env a x' s' link' pass' →
            s' = s ∧ link' = link ∧ pass' = pass := by
          intro x' s' link' pass' h hc'
          rw [ho] at h; cases h
          have e1 : s' = s := by
            have := hc'.opens
            rw [hc.opens] at this
            cases this; rfl
          subst e1
          have e2 : link' = link := by
            have h1 := (link?_iff _ _).mpr hc'.link
            rw [(link?_iff _ _).mpr hc.link] at h1
            cases h1; rfl
          refine ⟨rfl, e2, ?_⟩
          obtain ⟨t, ht, hf⟩ := hc.filter
          obtain ⟨t', ht', hf'⟩ := hc'.filter
          rw [filterText_spec (optsOf a) a rfl] at ht ht'
          subst ht; subst ht'
          rcases hf with ⟨h1, h2⟩ | ⟨h1, h2, -⟩ <;> rcases hf' with ⟨h1', h2'⟩ | ⟨h1', h2', -⟩
          · rw [h2, h2']
          · exact absurd h1 h1'
          · exact absurd h1' h1
          · rw [h2] at h2'; cases h2'; rfl
        rcases hcases with ⟨rfl, ⟨hf, he, -⟩ | ⟨e, hf, he, -⟩⟩ | ⟨p, q, e, rfl, hpp, he, -⟩ | ⟨p, q, rfl, hpp, he, -⟩
        · rw [he]
          refine ⟨⟨fun h => (by cases h), fun h => absurd h h2⟩, ⟨fun _ => ⟨a, rfl, .inr (.inr ⟨hok, x, s, link, pass, ho, hc, hf, ?_⟩)⟩,
            fun _ => rfl⟩, .inl rfl⟩
          intro p hp1 hp2
          have hm : p ∈ pre := by
            rw [List.append_nil] at hp
            rw [← hp]
            exact List.mem_filter.mpr ⟨hp1, hp2⟩
          clear hp
          induction hls with
          | nil => cases hm
          | cons h _ ih =>
            rcases List.mem_cons.mp hm with rfl | hm
            · exact ⟨_, h⟩
            · exact ih hm
        · refine fin1 he ?_
          rintro ⟨x', s', link', pass', h, hc', hf', -⟩
          obtain ⟨rfl, -, -⟩ := uniq h hc'
          rw [hf] at hf'; cases hf'
        · refine fin1 he ?_
          rintro ⟨x', s', link', pass', h, hc', -, hall⟩
          obtain ⟨rfl, rfl, rfl⟩ := uniq h hc'
          have hm : p ∈ s'.packets.filter (fun p => pass' p.mem) := by rw [hp]; simp
          obtain ⟨hm1, hm2⟩ := List.mem_filter.mp hm
          obtain ⟨ls, hl⟩ := hall p hm1 hm2
          rw [hpp] at hl; cases hl
        · have hm : p ∈ s.packets.filter (fun p => pass p.mem) := by rw [hp]; simp
          exact absurd hpp (C35_inside_partial _ p (hw x s hc.opens p (List.mem_filter.mp hm).1))

example : AllWhole (tenv []) := by
  intro x s h p hp
  have two : p = tether ∨ p = tppp := by
    cases x with
    | live i pr =>
      simp only [Spec.Env.open, tenv] at h
      split at h
      · cases h; exact .inl (List.mem_singleton.mp hp)
      · cases h
    | file f =>
      simp only [Spec.Env.open, tenv] at h
      split at h
      · cases h; exact .inl (List.mem_singleton.mp hp)
      · split at h
        · cases h; exact .inr (List.mem_singleton.mp hp)
        · split at h
          · cases h; exact .inl (List.mem_singleton.mp hp)
          · split at h
            · cases h; cases hp
            · cases h
  rcases two with rfl | rfl
  · exact ⟨by decide +kernel, by decide⟩
  · exact ⟨by decide +kernel, by decide⟩

example : (main tlib (tenv []) (some { read := some "trace" })).ending = .exit 0 ∧
    (main tlib (tenv []) (some { read := some "trace" })).lines.length = 1 ∧
    (main tlib (tenv []) (some { read := some "broken" })).ending = .exit 1 ∧
    (main tlib (tenv []) (some { read := some "broken" })).lines.length = 1 ∧
    (main tlib (tenv []) (some { read := some "wifi" })).ending = .exit 1 ∧
    (main tlib (tenv []) (some { read := some "missing" })).ending = .exit 1 ∧
    (main tlib (tenv []) (some { read := some "trace", pcapFilter := ["tcp", "or"] })).ending = .exit 1 ∧
    (main tlib (tenv []) (some { filter := some "(" })).ending = .exit 2 := by decide +kernel

/-- **C90, output.** Without a malformed command line, help or version: if the capture can be read, the standard output has
the lines of the packets that the filter lets through, in their order, all of them if the status is 0, else up to the
packet that ends the program; if the capture cannot be read, it is empty. -/
theorem C90_output (lib : Lib) (env : Env) (a : DumpArgs) (hh : a.help = false) (hv : a.version = false)
    (hok : DumpOk lib a) (x : Opened) (hx : (main lib env (some a)).opened = some x) :
    ((¬ ∃ s link pass, Captures env a x s link pass) → (main lib env (some a)).lines = []) ∧
    ∀ s link pass, Captures env a x s link pass →
      ∃ pre post lss, s.packets.filter (fun p => pass p.mem) = pre ++ post ∧
        List.Forall₂ (fun p ls => printPacket (config env a link) p = .ok ls) pre lss ∧
        (main lib env (some a)).lines = lss.flatten ∧
        ((main lib env (some a)).ending = .exit 0 → post = []) ∧
        ∀ p q, post = p :: q → ∃ f, printPacket (config env a link) p = .error f := by
  rcases main_result lib env a hh hv hok with ⟨ho, -⟩ | ⟨x', ho, h⟩
  · rw [ho] at hx; cases hx
  rw [ho] at hx
  cases hx
  rcases h with ⟨hn, hl, -⟩ | ⟨s, link, pass, hc, pre, post, lss, hp, hls, hl, ms, -, hcases⟩
  · exact ⟨fun _ => hl, fun s link pass hc => absurd ⟨s, link, pass, hc⟩ hn⟩
  · refine ⟨fun hn => absurd ⟨s, link, pass, hc⟩ hn, ?_⟩
    intro s' link' pass' hc'
    have e1 : s' = s := by
      have := hc'.opens
      rw [hc.opens] at this
      cases this; rfl
    subst e1
    have e2 : link' = link := by
      have h1 := (link?_iff _ _).mpr hc'.link
      rw [(link?_iff _ _).mpr hc.link] at h1
      cases h1; rfl
    subst e2
    have e3 : pass' = pass := by
      obtain ⟨t, ht, hf⟩ := hc.filter
      obtain ⟨t', ht', hf'⟩ := hc'.filter
      rw [filterText_spec (optsOf a) a rfl] at ht ht'
      subst ht; subst ht'
      rcases hf with ⟨h1, h2⟩ | ⟨h1, h2, -⟩ <;> rcases hf' with ⟨h1', h2'⟩ | ⟨h1', h2', -⟩
      · rw [h2, h2']
      · exact absurd h1 h1'
      · exact absurd h1' h1
      · rw [h2] at h2'; cases h2'; rfl
    subst e3
    refine ⟨pre, post, lss, hp, hls, hl, ?_, ?_⟩
    · intro he
      rcases hcases with ⟨h, -⟩ | ⟨p, q, e, -, -, h, -⟩ | ⟨p, q, -, -, h, -⟩
      · exact h
      · rw [he] at h; cases h
      · rw [he] at h; cases h
    · intro p q hpq
      rcases hcases with ⟨h, -⟩ | ⟨p', q', e, h, h', -⟩ | ⟨p', q', h, h', -⟩
      · rw [h] at hpq; cases hpq
      · rw [h] at hpq; cases hpq; exact ⟨_, h'⟩
      · rw [h] at hpq; cases hpq; exact ⟨_, h'⟩

/-- **C90, messages.** With status 1, the last message on the standard error, and only the last, is about an error; with
status 0 there is none. -/
theorem C90_messages (lib : Lib) (env : Env) (a : Option DumpArgs) :
    ((main lib env a).ending = .exit 1 →
      ∃ ms m, (main lib env a).msgs = ms ++ [m] ∧ (∀ y ∈ ms, Msg.isError y = false) ∧ Msg.isError m = true) ∧
    ((main lib env a).ending = .exit 0 → ∀ y ∈ (main lib env a).msgs, Msg.isError y = false) := by
  cases a with
  | none => exact ⟨fun h => (by cases h), fun h => (by cases h)⟩
  | some a =>
    rcases wellFormed_or lib env a with ⟨-, e⟩ | ⟨-, -, -, e⟩ | ⟨hh, hv, hok⟩
    · rw [e]; exact ⟨fun h => (by cases h), fun _ y hy => (by cases hy)⟩
    · rw [e]; exact ⟨fun h => (by cases h), fun h => (by cases h)⟩
    · rcases main_result lib env a hh hv hok with ⟨-, -, he, m, hm, hm'⟩ | ⟨x, -, ⟨-, -, he, h⟩ |
        ⟨s, link, pass, -, pre, post, lss, -, -, -, ms, hms, hcases⟩⟩
      · rw [he]
        exact ⟨fun _ => ⟨[], m, by rw [hm]; rfl, by simp, hm'⟩, fun h => (by cases h)⟩
      · rw [he]
        exact ⟨fun _ => h, fun h => (by cases h)⟩
      · rcases hcases with ⟨-, ⟨-, he, hm⟩ | ⟨e, -, he, hm⟩⟩ | ⟨p, q, e, -, -, he, hm⟩ | ⟨p, q, -, -, he, hm⟩
        · rw [he, hm]; exact ⟨fun h => (by cases h), fun _ => hms⟩
        · rw [he, hm]; exact ⟨fun _ => ⟨ms, _, rfl, hms, rfl⟩, fun h => (by cases h)⟩
        · rw [he, hm]; exact ⟨fun _ => ⟨ms, _, rfl, hms, rfl⟩, fun h => (by cases h)⟩
        · rw [he]; exact ⟨fun h => (by cases h), fun h => (by cases h)⟩

example : (main tlib (tenv []) (some { read := some "broken" })).msgs =
    [.reading "broken" "EN10MB (Ethernet)", .loop "truncated dump file"] := by decide +kernel

/-- **C90, verbose.** `--verbose` changes only the standard error: what is opened, the standard output and the exit status
are the same, for all captures. (The documentation says "print more detailed information about each packet".) -/
theorem C90_verbose (lib : Lib) (env : Env) (a : DumpArgs) :
    (main lib env (some { a with verbose := true })).opened = (main lib env (some { a with verbose := false })).opened ∧
    (main lib env (some { a with verbose := true })).lines = (main lib env (some { a with verbose := false })).lines ∧
    (main lib env (some { a with verbose := true })).ending = (main lib env (some { a with verbose := false })).ending := by
  exact main_verbose lib env a

/-! ## C91: the default filter -/

/-- **C91, other types.** Of the frames that do not carry IP, the default filter lets precisely those through that have the
Ethernet type of NDN. -/
theorem C91_ethernet (link : Link) (t : Nat) (ht : t < 2 ^ 16) (h4 : t ≠ 0x0800) (h6 : t ≠ 0x86DD) (mem : Bytes)
    (h : Carries link t mem) : defaultAst.passes link mem = true ↔ t = 0x8624 := by
  obtain ⟨hd, rest, hl, rfl⟩ := h
  simp only [Filter.passes, defaultAst, Filter.eval, Option.bind_eq_bind, Option.pure_def,
    evalPort_other hl ht h4 h6]
  have := eval_ether (rest := rest) hl ht 0x8624
  simp only [Filter.eval, Option.bind_eq_bind, Option.pure_def] at this
  rw [this]
  by_cases c : t = 0x8624 <;> simp [c]

example : Carries .ether 0x8624 tether.mem := ⟨_, _, .ether tmac rfl, rfl⟩

/-- **C91, ports.** Of the frames with TCP or UDP in IP, the default filter lets precisely those through of which one of the
ports is a port of NDN: 6363, and for UDP 56363. -/
theorem C91_ports (link : Link) (t : Transport) (sport dport : Nat) (hs : sport < 2 ^ 16) (hd : dport < 2 ^ 16) (mem : Bytes)
    (h : CarriesIp link t sport dport mem) :
    defaultAst.passes link mem = true ↔ NdnPort t sport ∨ NdnPort t dport := by
  have hp := evalPort_ip hs hd h
  obtain ⟨v, lh, ih, src, dst, rest, following, hl, hi, hf, rfl⟩ := h
  have hv : v.etherType < 2 ^ 16 := by cases v <;> decide
  have hne : v.etherType ≠ 0x8624 := by cases v <;> decide
  have e0 : lh ++ ih ++ be16 sport ++ be16 dport ++ rest = lh ++ (ih ++ be16 sport ++ be16 dport ++ rest) := by simp
  have he := eval_ether (rest := ih ++ be16 sport ++ be16 dport ++ rest) hl hv 0x8624
  rw [← e0] at he
  simp only [Filter.eval, Option.bind_eq_bind, Option.pure_def] at he
  simp only [Filter.passes, defaultAst, Filter.eval, Option.bind_eq_bind, Option.pure_def, hp, he, NdnPort]
  cases t with
  | udp =>
    simp only [Transport.proto, hne]
    by_cases c1 : sport = 6363 <;> by_cases c2 : dport = 6363 <;> simp [c1, c2]
  | tcp =>
    simp only [Transport.proto, hne]
    by_cases c1 : sport = 6363 <;> by_cases c2 : dport = 6363 <;> simp [c1, c2]

example : CarriesIp .ether .udp 6363 6363 (tmac ++ be16 0x0800 ++ tip4 17 (20 + 11) ++ tudp 3 ++ tdata) :=
  ⟨.v4, tmac ++ be16 0x0800, tip4 17 (20 + 11), [10, 0, 0, 1], [10, 0, 0, 2], be16 11 ++ [0, 0] ++ tdata, 11,
    .ether tmac rfl, tip4_header 17 11 (by omega),
    ⟨[0x45, 0] ++ be16 31 ++ [0, 0], 0, 0, [64, 17, 0, 0, 10, 0, 0, 1, 10, 0, 0, 2], by decide +kernel, rfl, rfl⟩,
    by decide +kernel⟩

/-- libpcap gives the default filter the meaning of Model/DumpRun. -/
def ReadsDefault (env : Env) : Prop :=
  ∀ dlt link, KnownLink dlt link →
    env.compile dlt "(ether proto 0x8624) or (tcp port 6363) or (udp port 6363) or (udp port 56363)" =
      .ok (defaultAst.passes link) ∧
    env.setFilter dlt "(ether proto 0x8624) or (tcp port 6363) or (udp port 6363) or (udp port 56363)" = .ok ()

/-- **C91, in part.** Without a filter on the command line, every packet with the Ethernet type of NDN or with a port of NDN
in a capture that is read to its end is shown, if the name filter accepts it. -/
theorem C91_shown_partial (lib : Lib) (env : Env) (hr : ReadsDefault env) (a : DumpArgs) (hh : a.help = false)
    (hv : a.version = false) (hok : DumpOk lib a) (hf : a.pcapFilter = []) (x : Opened)
    (hx : (main lib env (some a)).opened = some x) (s : Source) (hs : Env.open env x = .ok s) (link : Link)
    (hl : KnownLink s.dlt link) (he : (main lib env (some a)).ending = .exit 0)
    (p : Packet) (hp : p ∈ s.packets) (hw : Whole p) (P : Prop) (e : Encap) (payload rest : Bytes)
    (hfr : IsFrame P link e payload rest p.mem) (b : Block) (hb : StartsWith payload b) (k : Payload)
    (hk : IsPayload env.dec payload k) (ha : Accepts (a.filter.map env.regexMatch) k.name?)
    (hn : Carries link 0x8624 p.mem ∨ ∃ t sport dport, sport < 2 ^ 16 ∧ dport < 2 ^ 16 ∧
      CarriesIp link t sport dport p.mem ∧ (NdnPort t sport ∨ NdnPort t dport)) :
    ∃ ts n, Line.packet ts (join (e.fields n ++ k.fields)) ∈ (main lib env (some a)).lines := by
  have hpass : defaultAst.passes link p.mem = true := by
    rcases hn with h | ⟨t, sport, dport, h1, h2, h3, h4⟩
    · exact (C91_ethernet link 0x8624 (by decide) (by decide) (by decide) _ h).mpr rfl
    · exact (C91_ports link t sport dport h1 h2 _ h3).mpr h4
  have hc : Captures env a x s link (defaultAst.passes link) :=
    ⟨hs, hl, _, .default hf, .inr ⟨by decide, (hr _ _ hl).1, (), (hr _ _ hl).2⟩⟩
  obtain ⟨pre, post, lss, h1, h2, h3, h4, -⟩ := (C90_output lib env a hh hv hok x hx).2 s link _ hc
  rw [h4 he, List.append_nil] at h1
  have hm : p ∈ pre := by
    rw [← h1]
    exact List.mem_filter.mpr ⟨hp, hpass⟩
  rw [h3]
  clear h1 h3
  induction h2 with
  | nil => cases hm
  | @cons q ls qs lss h _ ih =>
    rcases List.mem_cons.mp hm with rfl | hm
    · have hne : ∀ s, k ≠ .lpThrows s := by
        intro s' hs'
        subst hs'
        obtain ⟨_, hbad⟩ : ∃ e, printPacket (config env a link) p = .error (.thrown e) := by
          rcases printPacket_frame (c := config env a link) hw hfr (seen_payload (e := e) (rest := rest) hk ⟨b, hb⟩) with
            ⟨h1, -⟩ | ⟨s, h1, h2⟩ | ⟨h1, h2⟩ | ⟨h1, h2, -, -⟩
          · cases h1
          · exact ⟨_, h2⟩
          · exact absurd ha h1
          · exact absurd rfl (h2 s')
        rw [h] at hbad
        cases hbad
      obtain ⟨ts, n, hd⟩ := C37_decoded P (config env a link) p hw e payload rest hfr b hb k hk ha hne
      rw [h] at hd
      cases hd
      exact ⟨ts, n, by simp⟩
    · obtain ⟨ts, n, hi⟩ := ih hm
      exact ⟨ts, n, by simp [hi]⟩

example : ReadsDefault (tenv []) := by
  intro dlt link h
  cases h <;> exact ⟨rfl, rfl⟩

example : (main tlib (tenv []) (some { read := some "trace", noTimestamp := true })).lines =
    [.packet none [.str "Ethernet", .delim, .str "DATA: ", .name [⟨8, [65]⟩]]] := by decide +kernel

/-- C91 does not hold for PPP: what ndnSIM writes, and what the documentation says is supported, is never let through by the
default filter. -/
theorem C91_ppp_refuted (rest : Bytes) : defaultAst.passes .ppp ([0xff, 0x03, 0x00, 0x77] ++ rest) = false := by
  have h : load16 (0xff :: 0x03 :: 0x00 :: 0x77 :: rest) 2 = some 0x77 := load16_append [0xff, 0x03] [0x00, 0x77] rest 2 rfl rfl
  simp [Filter.passes, defaultAst, Filter.eval, evalPort, typeOffset, linkType, h]

/-- The whole program with a trace of ndnSIM: without a filter nothing is shown, with the empty filter the Data is. -/
example : IsPppHeader [0xff, 0x03, 0x00, 0x77, 0, 0] ∧
    (main tlib (tenv []) (some { read := some "ndnsim" })).lines = [] ∧
    (main tlib (tenv []) (some { read := some "ndnsim" })).ending = .exit 0 ∧
    (main tlib (tenv []) (some { read := some "ndnsim", pcapFilter := [""], noTimestamp := true })).lines =
      [.packet none [.str "PPP", .delim, .str "DATA: ", .name [⟨8, [65]⟩]]] :=
  ⟨⟨[0xff, 0x03], [0x00, 0x77], [0, 0], rfl, .inr rfl, .inr rfl, rfl⟩, by decide +kernel, by decide +kernel,
    by decide +kernel⟩

/-- C91 does not hold for the Ethernet type of ndnSIM either, which ndndump would decode. -/
theorem C91_ndnsim_refuted (link : Link) (mem : Bytes) (h : Carries link 0x7777 mem) :
    defaultAst.passes link mem = false := by
  have := C91_ethernet link 0x7777 (by decide) (by decide) (by decide) mem h
  cases hp : defaultAst.passes link mem with
  | false => rfl
  | true => exact absurd (this.mp hp) (by decide)

example : Carries .sll 0x7777 (tmac ++ [0, 0] ++ be16 0x7777 ++ tdata) := ⟨_, _, .sll (tmac ++ [0, 0]) rfl, rfl⟩

end Verif.DumpRun
