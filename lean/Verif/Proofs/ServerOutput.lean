import Verif.Spec.ServerOutput
import Verif.Proofs.PingOutput
import Verif.Props.DissectFaithful

/-! # Lemmas about the output of ndnpingserver -/

namespace Verif.ServerOutput

open Wire PingOutput

theorem escape_word (v : Bytes) : Word (v.flatMap Dissect.escapeByte) := by
  have h : ∀ n : Fin 256, (Dissect.escapeByte (UInt8.ofNat n)).all (fun c => c != 32 && c != 10) = true := by decide +kernel
  have hb : ∀ b : UInt8, (Dissect.escapeByte b).all (fun c => c != 32 && c != 10) = true := by
    intro b
    have := h ⟨b.toNat, b.toNat_lt⟩
    simpa using this
  have : ∀ x ∈ v.flatMap Dissect.escapeByte, x ≠ 32 ∧ x ≠ 10 := by
    intro x hx
    obtain ⟨b, _, hx⟩ := List.mem_flatMap.mp hx
    have := List.all_eq_true.mp (hb b) x hx
    simpa using this
  exact ⟨fun h => (this _ h).1 rfl, fun h => (this _ h).2 rfl⟩

theorem component_word {v : Env} (hv : v.Plain) (c : Comp) : Word (componentText v c) := by
  unfold componentText
  split
  · refine .append ?_ (escape_word _)
    split
    · unfold Word; decide +kernel
    · exact ⟨by simp, by simp⟩
  · exact hv.typed c

theorem escape_dots {l : Bytes} (h : l.all (· == 46) = true) : l.flatMap Dissect.escapeByte = l := by
  induction l with
  | nil => rfl
  | cons b l ih =>
    simp only [List.all_cons, Bool.and_eq_true, beq_iff_eq] at h
    obtain ⟨rfl, h⟩ := h
    rw [List.flatMap_cons, ih h]
    rfl

theorem dots_of_escape {l : Bytes} (h : (l.flatMap Dissect.escapeByte).all (· == 46) = true) : l.all (· == 46) = true := by
  have key : ∀ n : Fin 256, (Dissect.escapeByte (UInt8.ofNat n)).all (· == 46) = true → UInt8.ofNat n = 46 := by decide +kernel
  rw [List.all_eq_true] at h ⊢
  intro b hb
  have h1 : (Dissect.escapeByte b).all (· == 46) = true :=
    List.all_eq_true.mpr fun x hx => h x (List.mem_flatMap.mpr ⟨b, hb, hx⟩)
  have := key ⟨b.toNat, b.toNat_lt⟩
  simp only [UInt8.ofNat_toNat] at this
  simpa using this h1

theorem component_inj {v : Env} {a b : Comp} (ha : a.type = ttGeneric) (hb : b.type = ttGeneric)
    (h : componentText v a = componentText v b) : a = b := by
  have hd : (text "...").all (· == 46) = true := by decide +kernel
  have hval : a.value = b.value := by
    unfold componentText at h
    rw [if_pos ha, if_pos hb] at h
    by_cases h1 : a.value.all (· == 46) = true
    · by_cases h2 : b.value.all (· == 46) = true
      · rw [if_pos h1, if_pos h2] at h
        exact Dissect.escape_inj (List.append_cancel_left h)
      · rw [if_pos h1, if_neg h2, escape_dots h1, List.nil_append] at h
        exact absurd (dots_of_escape (by rw [← h, List.all_append, hd, h1]; rfl)) h2
    · by_cases h2 : b.value.all (· == 46) = true
      · rw [if_neg h1, if_pos h2, escape_dots h2, List.nil_append] at h
        exact absurd (dots_of_escape (by rw [h, List.all_append, hd, h2]; rfl)) h1
      · rw [if_neg h1, if_neg h2] at h
        exact Dissect.escape_inj (List.append_cancel_left h)
  obtain ⟨t, x⟩ := a
  obtain ⟨t', x'⟩ := b
  simp only at ha hb hval
  rw [ha, hb, hval]

/-- Digits are not changed. -/
theorem component_decimal (v : Env) (n : Nat) : componentText v ⟨ttGeneric, decimal n⟩ = decimal n := by
  have key : ∀ n : Fin 256, isDigit (UInt8.ofNat n) = true → Dissect.escapeByte (UInt8.ofNat n) = [UInt8.ofNat n] ∧
      UInt8.ofNat n ≠ 46 := by decide +kernel
  have hk : ∀ b : UInt8, isDigit b = true → Dissect.escapeByte b = [b] ∧ b ≠ 46 := by
    intro b hb
    have := key ⟨b.toNat, b.toNat_lt⟩
    simp only [UInt8.ofNat_toNat] at this
    exact this hb
  have hall := decimal_isDigit n
  have hne : decimal n ≠ [] := by
    intro h
    have := readNat_decimal n
    rw [h] at this
    simp [readNat] at this
  generalize decimal n = l at hall hne
  have he : l.flatMap Dissect.escapeByte = l := by
    clear hne
    induction l with
    | nil => rfl
    | cons b l ih =>
      simp only [List.all_cons, Bool.and_eq_true] at hall
      rw [List.flatMap_cons, (hk b hall.1).1, ih hall.2]
      rfl
  have hnd : ¬ l.all (· == 46) = true := by
    cases l with
    | nil => exact absurd rfl hne
    | cons b l =>
      simp only [List.all_cons, Bool.and_eq_true] at hall
      simp only [List.all_cons, Bool.and_eq_true, beq_iff_eq, not_and]
      exact fun h => absurd h (hk b hall.1).2
  unfold componentText
  simp only [if_true]
  rw [if_neg hnd, he, List.nil_append]

/-- The names in a history. -/
def recvd (l : List PingServer.Obs) : List Name :=
  l.filterMap fun
    | .received n => some n
    | _ => none

/-- The text for the last component. -/
def lastText (v : Env) (n : Name) : Bytes := match n.getLast? with | some c => componentText v c | none => []

theorem lastText_word {v : Env} (hv : v.Plain) (n : Name) : Word (lastText v n) := by
  unfold lastText
  split
  · exact component_word hv _
  · exact ⟨by simp, by simp⟩

def lineWords (v : Env) (i : Nat) (n : Name) : List Bytes :=
  (if v.stamps then [v.time i, text "-"] else []) ++ [text "interest", text "received:", text "seq=" ++ lastText v n]

/-- One line. -/
def readItem (stamps : Bool) (ws : List Bytes) : Option Bytes := readWords (if stamps then ws.drop 2 else ws)

theorem text_interests {wss : List (List Bytes)} {out : Bytes} (h : Text wss out) (stamps : Bool) :
    interests stamps out = wss.filterMap (readItem stamps) := by
  unfold interests
  rw [h.lines, List.filterMap_append, List.filterMap_map]
  have : [([] : Bytes)].filterMap (readLine stamps) = [] := by cases stamps <;> rfl
  rw [this, List.append_nil]
  refine List.filterMap_congr fun ws hw => ?_
  simp only [Function.comp, readLine, readItem, words_join (h.ne ws hw) fun w hw' => (h.word ws hw w hw').1]

theorem text_totals {wss : List (List Bytes)} {out : Bytes} (h : Text wss out) : totals out = wss.filterMap readTotal := by
  unfold totals
  rw [h.lines, List.filterMap_append, List.filterMap_map]
  have : [([] : Bytes)].filterMap (fun l => readTotal (words l)) = [] := rfl
  rw [this, List.append_nil]
  refine List.filterMap_congr fun ws hw => ?_
  simp only [Function.comp, words_join (h.ne ws hw) fun w hw' => (h.word ws hw w hw').1]

theorem line_text {v : Env} (hv : v.Plain) (i : Nat) (n : Name) (hq : v.quiet = false) :
    Text [lineWords v i n] (trace v i (.received n)) := by
  refine Text.one (by simp [lineWords]) ?_ ?_
  · intro w hw
    unfold lineWords at hw
    rcases List.mem_append.1 hw with hw | hw
    · split at hw
      · simp only [List.mem_cons, List.not_mem_nil, or_false] at hw
        rcases hw with rfl | rfl
        · exact hv.time i
        · unfold Word; decide +kernel
      · cases hw
    · simp only [List.mem_cons, List.not_mem_nil, or_false] at hw
      rcases hw with rfl | rfl | rfl
      · unfold Word; decide +kernel
      · unfold Word; decide +kernel
      · exact .append (by unfold Word; decide +kernel) (lastText_word hv n)
  · unfold trace lineWords
    rw [hq]
    simp only [Bool.false_eq_true, if_false]
    show _ ++ text "interest received: seq=" ++ lastText v n ++ text "\n" = _
    generalize lastText v n = x
    cases v.stamps <;> simp [join, text]

theorem readItem_line (v : Env) (i : Nat) (n : Name) : readItem v.stamps (lineWords v i n) = some (lastText v n) := by
  unfold readItem lineWords
  cases v.stamps
  · simp only [Bool.false_eq_true, if_false, List.nil_append, readWords, and_self, if_true]
    exact field_append _ _
  · simp only [if_true, List.cons_append, List.nil_append, List.drop_succ_cons, List.drop_zero, readWords, and_self]
    exact field_append _ _

theorem readTotal_line (v : Env) (i : Nat) (n : Name) : readTotal (lineWords v i n) = none := by
  unfold lineWords
  cases v.stamps
  · simp only [Bool.false_eq_true, if_false, List.nil_append, readTotal]
    rw [if_neg]
    intro ⟨h, _⟩
    exact absurd h (by decide +kernel)
  · simp [readTotal]

theorem traces_text {v : Env} (hv : v.Plain) (l : List PingServer.Obs) (k : Nat) :
    ∃ wss, Text wss ((l.zipIdx k).map fun x => trace v x.2 x.1).flatten ∧
      wss.filterMap (readItem v.stamps) = (if v.quiet then [] else (recvd l).map (lastText v)) ∧
      wss.filterMap readTotal = [] := by
  induction l generalizing k with
  | nil => exact ⟨[], Text.nil, by simp [recvd], rfl⟩
  | cons x l ih =>
    obtain ⟨wss, h1, h2, h3⟩ := ih (k + 1)
    simp only [List.zipIdx_cons, List.map_cons, List.flatten_cons]
    cases x with
    | reply d => exact ⟨wss, by simpa [trace] using h1, h2, h3⟩
    | finish => exact ⟨wss, by simpa [trace] using h1, h2, h3⟩
    | received n =>
      cases hq : v.quiet with
      | true =>
        rw [hq] at h2
        exact ⟨wss, by simpa [trace, hq] using h1, h2, h3⟩
      | false =>
        rw [hq] at h2
        refine ⟨[lineWords v k n] ++ wss, (line_text hv k n hq).append h1, ?_, ?_⟩
        · rw [List.filterMap_append, h2, List.filterMap_cons, readItem_line]
          rfl
        · rw [List.filterMap_append, h3, List.filterMap_cons, readTotal_line]
          rfl

theorem final_text {v : Env} (hv : v.Plain) (s : PingSt) :
    interests v.stamps (final v s) = (if v.quiet then [] else (recvd s.st.log).map (lastText v)) ∧
    totals (final v s) = if s.failed then [] else [s.st.nPings] := by
  obtain ⟨wss, h1, h2, h3⟩ := traces_text hv s.st.log 0
  have hh : Text [[text "PING", text "SERVER", v.uri]] (text "PING SERVER " ++ v.uri ++ text "\n") := by
    refine Text.one (by simp) ?_ (by simp [join, text])
    intro w hw
    simp only [List.mem_cons, List.not_mem_nil, or_false] at hw
    rcases hw with rfl | rfl | rfl
    · unfold Word; decide +kernel
    · unfold Word; decide +kernel
    · exact hv.uri
  have r1 : ∀ b, readItem b [text "PING", text "SERVER", v.uri] = none := by
    intro b
    cases b
    · simp only [readItem, readWords, Bool.false_eq_true, if_false]
      rw [if_neg]
      intro ⟨h, _⟩
      exact absurd h (by decide +kernel)
    · rfl
  have r2 : readTotal [text "PING", text "SERVER", v.uri] = none := by
    show (if text "SERVER" = text "packets" ∧ v.uri = text "processed" then readNat (text "PING") else none) = none
    rw [if_neg]
    intro ⟨h, _⟩
    exact absurd h (by decide +kernel)
  have hw := hh.append h1
  unfold final written
  cases hf : s.failed with
  | true =>
    simp only [if_true, List.append_nil]
    rw [text_interests hw, text_totals hw]
    constructor
    · rw [List.filterMap_append, h2, List.filterMap_cons, r1]; rfl
    · rw [List.filterMap_append, h3, List.filterMap_cons, r2]; rfl
  | false =>
    have hs : Text [[[]], [text "---", v.uri, text "ping", text "server", text "statistics", text "---"],
        [decimal s.st.nPings, text "packets", text "processed"]]
        (text "\n--- " ++ v.uri ++ text " ping server statistics ---\n" ++ decimal s.st.nPings ++ text " packets processed" ++ text "\n") := by
      refine ⟨by simp, ?_, by simp [join, text]⟩
      intro ws hws w hw
      simp only [List.mem_cons, List.not_mem_nil, or_false] at hws
      rcases hws with rfl | rfl | rfl
      · rw [List.mem_singleton] at hw; subst hw; exact ⟨by simp, by simp⟩
      · simp only [List.mem_cons, List.not_mem_nil, or_false] at hw
        rcases hw with rfl | rfl | rfl | rfl | rfl | rfl
        · unfold Word; decide +kernel
        · exact hv.uri
        all_goals unfold Word; decide +kernel
      · simp only [List.mem_cons, List.not_mem_nil, or_false] at hw
        rcases hw with rfl | rfl | rfl
        · exact .nat _
        all_goals unfold Word; decide +kernel
    have ht := hw.append hs
    simp only [Bool.false_eq_true, if_false]
    rw [text_interests ht, text_totals ht]
    have q1 : ∀ b, readItem b [decimal s.st.nPings, text "packets", text "processed"] = none := by
      intro b
      cases b
      · simp only [readItem, readWords, Bool.false_eq_true, if_false]
        rw [if_neg]
        intro ⟨_, h⟩
        exact absurd h (by decide +kernel)
      · rfl
    have q2 : ∀ b, readItem b [text "---", v.uri, text "ping", text "server", text "statistics", text "---"] = none := by
      intro b; cases b <;> rfl
    have q3 : ∀ b, readItem b [[]] = none := by intro b; cases b <;> rfl
    constructor
    · rw [List.filterMap_append, List.filterMap_append, h2, List.filterMap_cons, r1]
      simp [q1, q2, q3]
    · rw [List.filterMap_append, List.filterMap_append, h3, List.filterMap_cons, r2]
      have e1 : readTotal [decimal s.st.nPings, text "packets", text "processed"] = some s.st.nPings := by
        show (if text "packets" = text "packets" ∧ text "processed" = text "processed" then readNat (decimal s.st.nPings) else none) = _
        rw [if_pos ⟨rfl, rfl⟩, readNat_decimal]
      have e2 : readTotal [text "---", v.uri, text "ping", text "server", text "statistics", text "---"] = none := rfl
      have e3 : readTotal [[]] = none := rfl
      simp [e1, e2, e3]

/-- The history of a run. -/
structure Hist (es : List PingEv) (s : PingSt) : Prop where
  names : recvd s.st.log = es.filterMap PingEv.name?
  answered : ∃ n, n = (if s.failed then 1 else 0) ∧ (replies s.st.log).length + n = (recvd s.st.log).length
  owed : ∀ (j : Nat) (d : Data), (replies s.st.log)[j]? = some d → ∃ m, (recvd s.st.log)[j]? = some m ∧ d.name = m
  count : s.st.nPings = (replies s.st.log).length % 2 ^ 64

theorem recvd_append (a b : List PingServer.Obs) : recvd (a ++ b) = recvd a ++ recvd b := by simp [recvd]
theorem replies_append (a b : List PingServer.Obs) : replies (a ++ b) = replies a ++ replies b := by simp [replies]

theorem interest_log (o : PingServer.Opts) (s : PingServer.St) (i : Interest) :
    recvd (s.step o (.interest i)).log = recvd s.log ++ [i.name] ∧
    replies (s.step o (.interest i)).log = replies s.log ++ [PingServer.reply o i] ∧
    (s.step o (.interest i)).nPings = (s.nPings + 1) % 2 ^ 64 := by
  simp only [PingServer.St.step, PingServer.St.onInterest]
  split <;> simp [PingServer.St.stop, recvd, replies]

theorem run_hist {hash : Data → Bytes} {o : PingServer.Opts} {es s} (h : (pingMachine hash o).Run es s) : Hist es s := by
  induction h with
  | nil => exact ⟨rfl, ⟨0, rfl, rfl⟩, fun j d h => by simp [pingMachine, replies] at h, rfl⟩
  | snoc e hr he ih =>
    rename_i es s
    obtain ⟨h1, ⟨n, hn, h2⟩, h3, h4⟩ := ih
    cases e with
    | sigint =>
      refine ⟨?_, ⟨n, hn, h2⟩, h3, h4⟩
      rw [List.filterMap_append, show [PingEv.sigint].filterMap PingEv.name? = [] from rfl, List.append_nil]
      exact h1
    | interest w =>
      have hf : s.failed = false := he.1
      rw [hf] at hn
      simp only [Bool.false_eq_true, if_false] at hn
      subst hn
      have hlen : (replies s.st.log).length = (recvd s.st.log).length := by omega
      simp only [pingMachine, PingSt.step]
      split
      · obtain ⟨g1, g2, g3⟩ := interest_log o s.st w.i
        refine ⟨?_, ⟨0, by simp [hf], ?_⟩, ?_, ?_⟩
        · dsimp only; rw [g1, h1, List.filterMap_append]; rfl
        · dsimp only; rw [g1, g2, List.length_append, List.length_append]; simp [hlen]
        · dsimp only
          rw [g1, g2]
          intro j d hj
          by_cases hlt : j < (replies s.st.log).length
          · rw [List.getElem?_append_left hlt] at hj
            obtain ⟨m, hm, hd⟩ := h3 j d hj
            exact ⟨m, by rw [List.getElem?_append_left (by omega)]; exact hm, hd⟩
          · rw [List.getElem?_append_right (by omega)] at hj
            have hj0 : j - (replies s.st.log).length = 0 := by
              by_contra hc
              rw [List.getElem?_eq_none (by simp; omega)] at hj
              cases hj
            rw [hj0] at hj
            simp only [List.getElem?_cons_zero, Option.some.injEq] at hj
            subst hj
            refine ⟨w.i.name, ?_, rfl⟩
            rw [List.getElem?_append_right (by omega), ← hlen, hj0]
            rfl
        · dsimp only; rw [g2, g3, h4, List.length_append]
          simp only [List.length_singleton]
          omega
      · refine ⟨?_, ⟨1, by simp, ?_⟩, ?_, ?_⟩
        · dsimp only; rw [recvd_append, h1, List.filterMap_append]; rfl
        · dsimp only; rw [recvd_append, replies_append]; simp [recvd, replies] at hlen ⊢; omega
        · dsimp only
          rw [replies_append]
          intro j d hj
          have hj' : (replies s.st.log)[j]? = some d := by simpa [replies] using hj
          obtain ⟨m, hm, hd⟩ := h3 j d hj'
          refine ⟨m, ?_, hd⟩
          rw [recvd_append, List.getElem?_append_left]
          · exact hm
          · exact (List.getElem?_eq_some_iff.mp hm).1
        · dsimp only; rw [replies_append, h4]; simp [replies]

theorem prog_foldl {r : ℚ → ℚ} {c : Ping.Opts} {w : PingOutput.Env} {ps t} (h : (PingOutput.machine r c w).Run ps t) :
    t.prog = ps.foldl (Ping.Prog.step r c) (Ping.Prog.start r c) := by
  induction h with
  | nil => rfl
  | snoc e _ _ ih =>
    rw [List.foldl_append, ← ih]
    cases e <;> rfl

theorem client_foldl {digest : Data → Bytes} {r : ℚ → ℚ} {c : Ping.Opts} {o : PingServer.Opts} {es s}
    (h : (PingNet.netMachine digest r c o).Run es s) :
    s.client = (es.filterMap clientEv?).foldl (Ping.Prog.step r c) (Ping.Prog.start r c) := by
  induction h with
  | nil => rfl
  | snoc e _ _ ih =>
    rw [List.filterMap_append, List.foldl_append, ← ih]
    cases e <;> rfl

theorem client_prog {digest : Data → Bytes} {r : ℚ → ℚ} {c : Ping.Opts} {o : PingServer.Opts} {w : PingOutput.Env} {es s t}
    (h : (PingNet.netMachine digest r c o).Run es s) (ht : (PingOutput.machine r c w).Run (es.filterMap clientEv?) t) :
    t.prog = s.client := by rw [prog_foldl ht, client_foldl h]

end Verif.ServerOutput
