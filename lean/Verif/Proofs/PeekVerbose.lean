import Verif.Spec.PeekVerbose
import Verif.Proofs.AddrText
import Verif.Proofs.PeekTime
import Verif.Props.Peek
import Verif.Props.Poke

/-! # Lemmas about the standard error of ndnpeek and ndnpoke -/

namespace Verif.PeekVerbose

open PingOutput (lines words field split split_cons split_free)

/-- Lines with their ends. -/
def unl (ls : List Bytes) : Bytes := (ls.map (· ++ text "\n")).flatten

theorem nl : text "\n" = [10] := by decide

theorem unl_append (a b : List Bytes) : unl (a ++ b) = unl a ++ unl b := by simp [unl]

theorem lines_unl {ls : List Bytes} (h : ∀ l ∈ ls, (10 : UInt8) ∉ l) : lines (unl ls) = ls ++ [[]] := by
  induction ls with
  | nil => rfl
  | cons a ls ih =>
    have : unl (a :: ls) = a ++ 10 :: unl ls := by simp [unl, nl]
    rw [this]
    unfold lines
    rw [split_cons (h a (by simp))]
    show a :: lines (unl ls) = _
    rw [ih (fun l hl => h l (List.mem_cons_of_mem _ hl))]
    rfl

/-- The lines for an event. -/
def evLines (v : Env) (e : PeekTime.Ev) : List Bytes :=
  match e.kind with
  | .data d => [text "DATA: " ++ v.uri d.name, text "RTT: " ++ decimal (e.t / 10 ^ 6) ++ text " ms"]
  | .nack r => [text "NACK: " ++ PingOutput.reasonText r, text "RTT: " ++ decimal (e.t / 10 ^ 6) ++ text " ms"]
  | .expire => [text "TIMEOUT"]
  | .timer => [text "TIMEOUT"]

theorem message_eq (v : Env) (e : PeekTime.Ev) : message v e = unl (evLines v e) := by
  have : text "\nRTT: " = text "\n" ++ text "RTT: " := by decide
  unfold message evLines
  cases e.kind <;> simp [unl, this]

/-- The first line. -/
def firstLine (v : Env) (digest : Bytes → Bytes) (o : Peek.Opts) : Bytes := text "INTEREST: " ++ v.interest (Peek.createInterest digest o)

/-- All lines. -/
def allLines (v : Env) (digest : Bytes → Bytes) (o : Peek.Opts) (es : List PeekTime.Ev) : List Bytes :=
  firstLine v digest o :: es.flatMap (evLines v)

theorem project {v : Env} {late : Option Nat} {digest : Bytes → Bytes} {o : Peek.Opts} {es x} (h : (machine v late digest o).Run es x) :
    (PeekTime.machine late digest o).Run es x.s := by
  induction h with
  | nil => exact .nil
  | @snoc es x e h he ih =>
    have : ((machine v late digest o).step x e).s = (PeekTime.machine late digest o).step x.s e := by
      show (x.step v o e).s = x.s.step o e
      unfold VSt.step
      split
      · rename_i hu
        unfold PeekTime.St.step
        rw [if_pos hu]
      · rfl
    rw [this]
    exact .snoc e ih he

theorem lift {v : Env} {late : Option Nat} {digest : Bytes → Bytes} {o : Peek.Opts} {es s} (h : (PeekTime.machine late digest o).Run es s) :
    ∃ x, (machine v late digest o).Run es x ∧ x.s = s := by
  induction h with
  | nil => exact ⟨_, .nil, rfl⟩
  | @snoc es s e h he ih =>
    obtain ⟨x, h1, rfl⟩ := ih
    refine ⟨_, .snoc e h1 he, ?_⟩
    show (x.step v o e).s = x.s.step o e
    unfold VSt.step
    split
    · rename_i hu
      unfold PeekTime.St.step
      rw [if_pos hu]
    · rfl

theorem err_eq {v : Env} (hv : v.verbose = true) {late : Option Nat} {digest : Bytes → Bytes} {o : Peek.Opts} (hr : PeekTime.InRange o) {es x}
    (h : (machine v late digest o).Run es x) : x.err = unl (allLines v digest o es) := by
  induction h with
  | nil =>
    show (if v.verbose then _ else _) = _
    rw [if_pos hv]
    simp [allLines, unl, firstLine]
  | @snoc es x e h he ih =>
    have hu := (PeekTime.inv hr (project h)).ub
    show (x.step v o e).err = _
    unfold VSt.step
    rw [if_neg (by rw [hu]; simp), if_pos hv]
    dsimp only
    rw [ih, message_eq, ← unl_append]
    simp [allLines]

theorem ten_free {a b : Bytes} (ha : (10 : UInt8) ∉ a) (hb : (10 : UInt8) ∉ b) : (10 : UInt8) ∉ a ++ b := by
  rw [List.mem_append]; rintro (h | h) <;> contradiction

theorem dec_ten (n : Nat) : (10 : UInt8) ∉ decimal n := DumpText.decimal_free (by decide) n

theorem free {v : Env} (hc : v.Clean) {digest : Bytes → Bytes} {o : Peek.Opts} {es : List PeekTime.Ev} :
    ∀ l ∈ allLines v digest o es, (10 : UInt8) ∉ l := by
  intro l hl
  unfold allLines at hl
  rw [List.mem_cons, List.mem_flatMap] at hl
  rcases hl with rfl | ⟨e, -, hl⟩
  · exact ten_free (by decide) (hc.interest _)
  · unfold evLines at hl
    cases hk : e.kind <;> rw [hk] at hl <;> simp only [List.mem_cons, List.not_mem_nil, or_false] at hl
    · rcases hl with rfl | rfl
      · exact ten_free (by decide) (hc.uri _)
      · exact ten_free (ten_free (by decide) (dec_ten _)) (by decide)
    · rename_i r
      rcases hl with rfl | rfl
      · exact ten_free (by decide) (by cases r <;> decide)
      · exact ten_free (ten_free (by decide) (dec_ten _)) (by decide)
    · subst hl; decide
    · subst hl; decide

theorem lines_eq {v : Env} (hc : v.Clean) (hv : v.verbose = true) {late : Option Nat} {digest : Bytes → Bytes} {o : Peek.Opts}
    (hr : PeekTime.InRange o) {es x} (h : (machine v late digest o).Run es x) : lines x.err = allLines v digest o es ++ [[]] := by
  rw [err_eq hv hr h, lines_unl (free hc)]

/-- The exit status that goes with an event. -/
def code : Peek.Ev → Nat
  | .data _ => 0
  | .nack _ => 4
  | .expire => 3
  | .timer => 3

theorem not_prefix {a b : Bytes} (c : Bytes) (h : a.isPrefixOf b = false) (hl : a.length ≤ b.length) : ¬ a <+: b ++ c := by
  intro hp
  have := List.prefix_of_prefix_length_le hp (List.prefix_append b c) hl
  rw [← List.isPrefixOf_iff_prefix, h] at this
  cases this

theorem ne_of_head {a b : Bytes} (c : Bytes) (h2 : b.isPrefixOf a = false) : b ++ c ≠ a := by
  intro he
  have : b <+: a := by rw [← he]; exact List.prefix_append _ _
  rw [← List.isPrefixOf_iff_prefix, h2] at this
  cases this

theorem not_rtt {k : Bytes} (hk : ∀ a ∈ k.head?, a ≠ 82) (c : Bytes) (h0 : k ≠ [] := by decide) : ¬ k <+: text "RTT: " ++ c := by
  rintro ⟨t, ht⟩
  have := congrArg (fun l => l.head?) ht
  cases k with
  | nil => exact h0 rfl
  | cons a k =>
    simp [show text "RTT: " = 82 :: text "TT: " by decide] at this
    exact hk a rfl this

theorem outcome_ev (v : Env) (e : PeekTime.Ev) : (evLines v e).filterMap outcome = [code e.kind] := by
  have r : ∀ n, outcome (text "RTT: " ++ decimal n ++ text " ms") = none := by
    intro n
    unfold outcome
    rw [List.append_assoc, if_neg (ne_of_head _ (by decide)), if_neg (not_rtt (by decide) _), if_neg (not_rtt (by decide) _)]
  unfold evLines code
  cases e.kind with
  | data d =>
    have : outcome (text "DATA: " ++ v.uri d.name) = some 0 := by
      unfold outcome
      rw [if_neg (ne_of_head _ (by decide)), if_pos (List.prefix_append _ _)]
    simp only [List.filterMap_cons, List.filterMap_nil, r, this]
  | nack q =>
    have : outcome (text "NACK: " ++ PingOutput.reasonText q) = some 4 := by cases q <;> decide
    simp only [List.filterMap_cons, List.filterMap_nil, r, this]
  | expire => exact (by decide : [text "TIMEOUT"].filterMap outcome = [3])
  | timer => exact (by decide : [text "TIMEOUT"].filterMap outcome = [3])

theorem outcomes {v : Env} {digest : Bytes → Bytes} {o : Peek.Opts} (es : List PeekTime.Ev) :
    (allLines v digest o es ++ [[]]).filterMap outcome = es.map (fun e => code e.kind) := by
  have h1 : outcome (firstLine v digest o) = none := by
    unfold outcome firstLine
    rw [if_neg (ne_of_head _ (by decide)), if_neg (not_prefix _ (by decide) (by decide)),
      if_neg (not_prefix _ (by decide) (by decide))]
  have h2 : outcome [] = none := by decide
  rw [allLines, List.cons_append, List.filterMap_cons, h1, List.filterMap_append, List.filterMap_cons, h2]
  simp only [List.filterMap_nil, List.append_nil]
  induction es with
  | nil => rfl
  | cons e es ih => rw [List.flatMap_cons, List.filterMap_append, outcome_ev, ih]; rfl

theorem result_last {digest : Bytes → Bytes} {o : Peek.Opts} {es s} (h : (Peek.machine digest o).Run es s) (hn : es ≠ []) :
    (es.map code).getLast? = some s.result.code := by
  cases h with
  | nil => exact absurd rfl hn
  | @snoc es s e h he =>
    rw [List.map_append, List.map_cons, List.map_nil, List.getLast?_concat]
    cases e <;> rfl

theorem words_rtt (n : Nat) : words (text "RTT: " ++ decimal n ++ text " ms") = [text "RTT:", decimal n, text "ms"] := by
  have e : text "RTT: " ++ decimal n ++ text " ms" = text "RTT:" ++ 32 :: (decimal n ++ 32 :: text "ms") := by
    rw [show text "RTT: " = text "RTT:" ++ [32] by decide, show text " ms" = 32 :: text "ms" by decide]
    simp
  rw [e]
  unfold words
  rw [split_cons (by decide), split_cons (DumpText.decimal_free (by decide) n), split_free (by decide)]

theorem readRtt_other {a : Bytes} (c : Bytes) (ha : (32 : UInt8) ∉ a) (hn : a ≠ text "RTT:") : readRtt (a ++ 32 :: c) = none := by
  unfold readRtt words
  rw [split_cons ha]
  split
  · rename_i heq
    injection heq with h1 h2
    rw [if_neg]
    rintro ⟨h, -⟩
    exact hn (h1.trans h)
  · rfl

theorem rtt_ev (v : Env) (e : PeekTime.Ev) : (evLines v e).filterMap readRtt = (answerTime e).toList := by
  have r : ∀ n, readRtt (text "RTT: " ++ decimal n ++ text " ms") = some n := by
    intro n
    unfold readRtt
    rw [words_rtt]
    dsimp only
    rw [if_pos ⟨rfl, rfl⟩, readNat_decimal]
  unfold evLines answerTime
  cases e.kind with
  | data d =>
    have : readRtt (text "DATA: " ++ v.uri d.name) = none := by
      rw [show text "DATA: " = text "DATA:" ++ [32] by decide, List.append_assoc]
      exact readRtt_other _ (by decide) (by decide)
    simp only [List.filterMap_cons, List.filterMap_nil, r, this, Option.toList]
    rfl
  | nack q =>
    have : readRtt (text "NACK: " ++ PingOutput.reasonText q) = none := by cases q <;> decide
    simp only [List.filterMap_cons, List.filterMap_nil, r, this, Option.toList]
    rfl
  | expire => exact (by decide : [text "TIMEOUT"].filterMap readRtt = [])
  | timer => exact (by decide : [text "TIMEOUT"].filterMap readRtt = [])

theorem rtts {v : Env} {digest : Bytes → Bytes} {o : Peek.Opts} (es : List PeekTime.Ev) :
    (allLines v digest o es ++ [[]]).filterMap readRtt = es.filterMap answerTime := by
  have h1 : readRtt (firstLine v digest o) = none := by
    unfold firstLine
    rw [show text "INTEREST: " = text "INTEREST:" ++ [32] by decide, List.append_assoc]
    exact readRtt_other _ (by decide) (by decide)
  have h2 : readRtt [] = none := by decide
  rw [allLines, List.cons_append, List.filterMap_cons, h1, List.filterMap_append, List.filterMap_cons, h2]
  simp only [List.filterMap_nil, List.append_nil]
  induction es with
  | nil => rfl
  | cons e es ih =>
    rw [List.flatMap_cons, List.filterMap_append, rtt_ev, ih, List.filterMap_cons]
    cases answerTime e <;> rfl

theorem field_of {k : String} (c : Bytes) : field k (text k ++ c) = some c := by
  unfold field
  rw [if_pos (List.prefix_append _ _)]
  simp

theorem field_none {k : String} {b : Bytes} (c : Bytes) (h : (text k).isPrefixOf b = false) (hl : (text k).length ≤ b.length) :
    field k (b ++ c) = none := if_neg (not_prefix c h hl)

theorem data_lines {v : Env} {digest : Bytes → Bytes} {o : Peek.Opts} (es : List PeekTime.Ev) :
    (allLines v digest o es ++ [[]]).filterMap (field "DATA: ") = (es.filterMap dataName).map v.uri := by
  have h1 : field "DATA: " (firstLine v digest o) = none := field_none _ (by decide) (by decide)
  have h2 : field "DATA: " [] = none := by decide
  rw [allLines, List.cons_append, List.filterMap_cons, h1, List.filterMap_append, List.filterMap_cons, h2]
  simp only [List.filterMap_nil, List.append_nil]
  induction es with
  | nil => rfl
  | cons e es ih =>
    have he : (evLines v e).filterMap (field "DATA: ") = ((dataName e).map v.uri).toList := by
      have r : ∀ n, field "DATA: " (text "RTT: " ++ decimal n ++ text " ms") = none := by
        intro n
        rw [List.append_assoc]
        exact if_neg (not_rtt (by decide) _)
      unfold evLines dataName
      cases e.kind with
      | data d => simp only [List.filterMap_cons, List.filterMap_nil, r, field_of]; rfl
      | nack q =>
        have : field "DATA: " (text "NACK: " ++ PingOutput.reasonText q) = none := by cases q <;> decide
        simp only [List.filterMap_cons, List.filterMap_nil, r, this]; rfl
      | expire => exact (by decide : [text "TIMEOUT"].filterMap (field "DATA: ") = [])
      | timer => exact (by decide : [text "TIMEOUT"].filterMap (field "DATA: ") = [])
    rw [List.flatMap_cons, List.filterMap_append, he, ih, List.filterMap_cons]
    cases dataName e <;> rfl

end Verif.PeekVerbose

namespace Verif.PokeVerbose

open PingOutput (lines words field split)
open PeekVerbose (unl unl_append lines_unl nl ten_free not_prefix ne_of_head field_of field_none)

/-- The lines about a Data. -/
def dataLines (v : Env) (d : Data) : List Bytes := (text "DATA: " ++ (v.data d).1) :: (v.data d).2

theorem dataMessage_eq (v : Env) (d : Data) : dataMessage v d = unl (dataLines v d) := by
  simp [dataMessage, unl, dataLines]

/-- The lines for an event. -/
def evLines (digest : Data → Bytes) (v : Env) (d : Data) : Poke.Ev → List Bytes
  | .regSuccess => [text "Prefix registration successful"]
  | .regFailure => [text "Prefix registration failure (" ++ v.reason ++ text ")"]
  | .timer => [text "TIMEOUT"]
  | .interest i => (text "INTEREST: " ++ v.interest i) ::
      (if i.matchesData digest d then dataLines v d else [text "Interest cannot be satisfied"])

theorem message_eq {digest : Data → Bytes} {v : Env} (hv : v.verbose = true) {o : Poke.Opts} {input : Bytes} {d : Data}
    (hd : Poke.createData o input = some d) (e : Poke.Ev) : message digest v o input e = unl (evLines digest v d e) := by
  cases e with
  | regSuccess => simp [message, hv, unl, evLines]
  | regFailure => simp [message, unl, evLines]
  | timer => simp [message, hv, unl, evLines]
  | interest i =>
    unfold message evLines
    rw [hd]
    dsimp only
    rw [if_pos hv]
    split
    · rw [dataMessage_eq]; simp [unl]
    · simp [unl]

theorem project {digest : Data → Bytes} {v : Env} {o : Poke.Opts} {input : Bytes} {es x} (h : (machine digest v o input).Run es x) :
    (Poke.machine digest o input).Run es x.s := by
  induction h with
  | nil => exact .nil
  | snoc e h he ih => exact .snoc e ih he

theorem lift {digest : Data → Bytes} {v : Env} {o : Poke.Opts} {input : Bytes} {es s} (h : (Poke.machine digest o input).Run es s) :
    ∃ x, (machine digest v o input).Run es x ∧ x.s = s := by
  induction h with
  | nil => exact ⟨_, .nil, rfl⟩
  | @snoc es s e h he ih =>
    obtain ⟨x, h1, rfl⟩ := ih
    exact ⟨_, .snoc e h1 he, rfl⟩

/-- All lines. -/
def allLines (digest : Data → Bytes) (v : Env) (o : Poke.Opts) (d : Data) (es : List Poke.Ev) : List Bytes :=
  (if o.wantUnsolicited then dataLines v d else []) ++ es.flatMap (evLines digest v d)

theorem err_eq {digest : Data → Bytes} {v : Env} (hv : v.verbose = true) {o : Poke.Opts} {input : Bytes} {d : Data}
    (hd : Poke.createData o input = some d) {es x} (h : (machine digest v o input).Run es x) :
    x.err = unl (allLines digest v o d es) := by
  induction h with
  | nil =>
    show (start v o input).err = _
    unfold start
    dsimp only
    rw [hd]
    dsimp only
    rw [hv, Bool.and_true]
    unfold allLines
    cases o.wantUnsolicited
    · rfl
    · simp [dataMessage_eq]
  | @snoc es x e h he ih =>
    show x.err ++ message digest v o input e = _
    rw [ih, message_eq hv hd, ← unl_append]
    simp [allLines]

theorem free {digest : Data → Bytes} {v : Env} (hc : v.Clean) {o : Poke.Opts} {d : Data} {es : List Poke.Ev} :
    ∀ l ∈ allLines digest v o d es, (10 : UInt8) ∉ l := by
  have hd : ∀ l ∈ dataLines v d, (10 : UInt8) ∉ l := by
    intro l hl
    unfold dataLines at hl
    rw [List.mem_cons] at hl
    rcases hl with rfl | hl
    · exact ten_free (by decide) (hc.data d)
    · exact (hc.more d l hl).1
  intro l hl
  unfold allLines at hl
  rw [List.mem_append, List.mem_flatMap] at hl
  rcases hl with hl | ⟨e, -, hl⟩
  · split at hl
    · exact hd l hl
    · cases hl
  · unfold evLines at hl
    cases e with
    | regSuccess => rw [List.mem_singleton.mp hl]; decide
    | regFailure => rw [List.mem_singleton.mp hl]; exact ten_free (ten_free (by decide) hc.reason) (by decide)
    | timer => rw [List.mem_singleton.mp hl]; decide
    | interest i =>
      dsimp only at hl
      rw [List.mem_cons] at hl
      rcases hl with rfl | hl
      · exact ten_free (by decide) (hc.interest i)
      · split at hl
        · exact hd l hl
        · rw [List.mem_singleton.mp hl]; decide

theorem lines_eq {digest : Data → Bytes} {v : Env} (hc : v.Clean) (hv : v.verbose = true) {o : Poke.Opts} {input : Bytes} {d : Data}
    (hd : Poke.createData o input = some d) {es x} (h : (machine digest v o input).Run es x) :
    lines x.err = allLines digest v o d es ++ [[]] := by
  rw [err_eq hv hd h, lines_unl (free hc)]

/-- The exit status that goes with an event. -/
def code (digest : Data → Bytes) (d : Data) : Poke.Ev → Option Nat
  | .regSuccess => none
  | .regFailure => some 5
  | .timer => some 3
  | .interest i => if i.matchesData digest d then some 0 else none

theorem more_none {v : Env} (hc : v.Clean) (d : Data) (f : Bytes → Option α)
    (hf : ∀ k ∈ [text "MetaInfo: ", text "Content: ", text "Signature: "], ∀ c, f (k ++ c) = none) : (v.data d).2.filterMap f = [] := by
  rw [List.filterMap_eq_nil_iff]
  intro l hl
  rcases (hc.more d l hl).2 with ⟨c, rfl⟩ | ⟨c, rfl⟩ | ⟨c, rfl⟩
  · exact hf _ (by simp) c
  · exact hf _ (by simp) c
  · exact hf _ (by simp) c

theorem outcome_none {b : Bytes} (c : Bytes) (h1 : b.isPrefixOf (text "TIMEOUT") = false) (h2 : (text "DATA: ").isPrefixOf b = false)
    (h3 : ∀ c, ¬ text "Prefix registration failure (" <+: b ++ c) (h4 : (text "DATA: ").length ≤ b.length) : outcome (b ++ c) = none := by
  unfold outcome
  rw [if_neg, if_neg (not_prefix c h2 h4), if_neg (h3 c)]
  intro he
  have : b <+: text "TIMEOUT" := by rw [← he]; exact List.prefix_append _ _
  rw [← List.isPrefixOf_iff_prefix, h1] at this
  cases this

theorem not_fail {a : UInt8} {b : Bytes} (ha : a ≠ 80) (c : Bytes) : ¬ text "Prefix registration failure (" <+: (a :: b) ++ c := by
  rintro ⟨t, ht⟩
  have := congrArg (fun l => l.head?) ht
  rw [show text "Prefix registration failure (" = 80 :: text "refix registration failure (" by decide] at this
  simp at this
  exact ha this.symm

theorem outcome_data {v : Env} (hc : v.Clean) (d : Data) : (dataLines v d).filterMap outcome = [0] := by
  unfold dataLines
  have h1 : outcome (text "DATA: " ++ (v.data d).1) = some 0 := by
    unfold outcome
    rw [if_neg (ne_of_head _ (by decide)), if_pos (List.prefix_append _ _)]
  rw [List.filterMap_cons, h1, more_none hc]
  intro k hk c
  simp only [List.mem_cons, List.not_mem_nil, or_false] at hk
  rcases hk with rfl | rfl | rfl
  · exact outcome_none c (by decide) (by decide) (fun c => by
      rw [show text "MetaInfo: " = 77 :: text "etaInfo: " by decide]; exact not_fail (by decide) c) (by decide)
  · exact outcome_none c (by decide) (by decide) (fun c => by
      rw [show text "Content: " = 67 :: text "ontent: " by decide]; exact not_fail (by decide) c) (by decide)
  · exact outcome_none c (by decide) (by decide) (fun c => by
      rw [show text "Signature: " = 83 :: text "ignature: " by decide]; exact not_fail (by decide) c) (by decide)

theorem outcome_ev {digest : Data → Bytes} {v : Env} (hc : v.Clean) (d : Data) (e : Poke.Ev) :
    (evLines digest v d e).filterMap outcome = (code digest d e).toList := by
  unfold evLines code
  cases e with
  | regSuccess => exact (by decide : [text "Prefix registration successful"].filterMap outcome = [])
  | regFailure =>
    have : outcome (text "Prefix registration failure (" ++ v.reason ++ text ")") = some 5 := by
      rw [List.append_assoc]
      unfold outcome
      rw [if_neg (ne_of_head _ (by decide)), if_neg (not_prefix _ (by decide) (by decide)), if_pos (List.prefix_append _ _)]
    simp only [List.filterMap_cons, List.filterMap_nil, this]; rfl
  | timer => exact (by decide : [text "TIMEOUT"].filterMap outcome = [3])
  | interest i =>
    have : outcome (text "INTEREST: " ++ v.interest i) = none :=
      outcome_none _ (by decide) (by decide) (fun c => by
        rw [show text "INTEREST: " = 73 :: text "NTEREST: " by decide]; exact not_fail (by decide) c) (by decide)
    dsimp only
    rw [List.filterMap_cons, this]
    dsimp only
    split
    · rw [outcome_data hc]; rfl
    · decide

theorem outcomes {digest : Data → Bytes} {v : Env} (hc : v.Clean) {o : Poke.Opts} (d : Data) (es : List Poke.Ev) :
    (allLines digest v o d es ++ [[]]).filterMap outcome =
      (if o.wantUnsolicited then [0] else []) ++ es.filterMap (code digest d) := by
  have h2 : outcome [] = none := by decide
  rw [allLines, List.filterMap_append, List.filterMap_append, List.filterMap_cons, h2]
  simp only [List.filterMap_nil, List.append_nil]
  congr 1
  · split
    · exact outcome_data hc d
    · rfl
  · induction es with
    | nil => rfl
    | cons e es ih =>
      rw [List.flatMap_cons, List.filterMap_append, outcome_ev hc, ih, List.filterMap_cons]
      cases code digest d e <;> rfl

/-- The exit status that goes with a result. -/
def told : Poke.Result → Option Nat
  | .unknown => none
  | r => some r.code

/-- The result goes with the last event that tells one. -/
theorem result_last {digest : Data → Bytes} {o : Poke.Opts} {input : Bytes} {d : Data} (hd : Poke.createData o input = some d) {es s}
    (h : (Poke.machine digest o input).Run es s) :
    ((if o.wantUnsolicited then [0] else []) ++ es.filterMap (code digest d)).getLast? = told s.result := by
  induction h with
  | nil =>
    show _ = told (Poke.start o input).result
    unfold Poke.start
    rw [hd]
    dsimp only
    cases o.wantUnsolicited <;> rfl
  | @snoc es s e h he ih =>
    rw [List.filterMap_append, ← List.append_assoc]
    show _ = told (s.step digest o input e).result
    cases e with
    | regSuccess =>
      show _ = told s.result
      rw [← ih]
      simp [code]
    | regFailure => simp [code, Poke.St.step, Poke.Result.code, told]
    | timer => simp [code, Poke.St.step, Poke.Result.code, told]
    | interest i =>
      unfold Poke.St.step
      dsimp only
      rw [hd]
      dsimp only
      by_cases hm : i.matchesData digest d = true
      · rw [if_pos hm]
        simp [code, hm, Poke.St.sendData, Poke.Result.code, told]
      · rw [if_neg hm, ← ih]
        simp [code, hm]

theorem sent_eq {digest : Data → Bytes} {o : Poke.Opts} {input : Bytes} {d : Data} (hd : Poke.createData o input = some d) {es s}
    (h : (Poke.machine digest o input).Run es s) :
    s.sent.length = (if o.wantUnsolicited then 1 else 0) + ((interests es).filter (fun i => i.matchesData digest d)).length := by
  induction h with
  | nil =>
    show (Poke.start o input).sent.length = _
    unfold Poke.start
    rw [hd]
    dsimp only
    cases o.wantUnsolicited <;> rfl
  | @snoc es s e h he ih =>
    show (s.step digest o input e).sent.length = _
    unfold interests at *
    rw [List.filterMap_append, List.filter_append, List.length_append, ← Nat.add_assoc, ← ih]
    cases e with
    | regSuccess => rfl
    | regFailure => rfl
    | timer => rfl
    | interest i =>
      unfold Poke.St.step
      dsimp only
      rw [hd]
      dsimp only
      by_cases hm : i.matchesData digest d = true
      · rw [if_pos hm]; simp [Poke.St.sendData, hm]
      · rw [if_neg hm]; simp [hm]

/-- Reading the lines that begin with a word, event by event. -/
theorem read_lines {digest : Data → Bytes} {v : Env} {o : Poke.Opts} (d : Data) (f : Bytes → Option α) (h0 : f [] = none) (es : List Poke.Ev) :
    (allLines digest v o d es ++ [[]]).filterMap f =
      (if o.wantUnsolicited then (dataLines v d).filterMap f else []) ++ es.flatMap (fun e => (evLines digest v d e).filterMap f) := by
  rw [allLines, List.filterMap_append, List.filterMap_append, List.filterMap_cons, h0]
  simp only [List.filterMap_nil, List.append_nil, List.filterMap_flatMap]
  congr 1
  split <;> rfl

end Verif.PokeVerbose
