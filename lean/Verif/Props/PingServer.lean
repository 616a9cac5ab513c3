import Verif.Model.PingServer
import Verif.Proofs.Ping

/-! # C32, C56: the ping server -/

namespace Verif.PingServer

/-- The Interests that arrived. -/
def Ev.interest? : Ev → Option Interest
  | .interest i => some i
  | .sigint => none

/-- The Data that were put. -/
def Obs.reply? : Obs → Option Data
  | .reply d => some d
  | _ => none

/-- The reply that the server owes to an Interest. -/
def Owed (o : Opts) (i : Interest) (d : Data) : Prop :=
  d.name = i.name ∧ d.content.length = o.payloadSize ∧ d.freshness = o.freshnessPeriod ∧
  d.isBlob = true ∧ d.final = none

private structure Inv (o : Opts) (es : List Ev) (s : St) : Prop where
  cnt : s.nPings = (es.filterMap Ev.interest?).length % 2 ^ 64
  rep : List.Forall₂ (Owed o) (es.filterMap Ev.interest?) (s.log.filterMap Obs.reply?)
  fin : o.nMaxPings < 2 ^ 64 → (es.filterMap Ev.interest?).length < 2 ^ 64 + o.nMaxPings →
    s.log.count .finish = if 0 < o.nMaxPings ∧ o.nMaxPings ≤ (es.filterMap Ev.interest?).length then 1 else 0
  pos : ∀ pre post, s.log = pre ++ Obs.finish :: post →
    0 < o.nMaxPings ∧ (pre.filterMap Obs.reply?).length % 2 ^ 64 = o.nMaxPings

private theorem inv {o : Opts} {es s} (h : (machine o).Run es s) : Inv o es s := by
  induction h with
  | nil =>
    refine ⟨rfl, .nil, ?_, ?_⟩
    · intro _ _
      show ([] : List Obs).count _ = _
      rw [if_neg (by simp only [List.filterMap_nil, List.length_nil]; omega)]; rfl
    · intro pre post e
      have : ([] : List Obs) = _ := e
      simp at this
  | snoc e h he ih =>
    rename_i es s
    have hst : (machine o).step = St.step o := rfl
    rw [hst]
    cases e with
    | sigint =>
      have e1 : (es ++ [Ev.sigint]).filterMap Ev.interest? = es.filterMap Ev.interest? := by simp [Ev.interest?]
      exact ⟨by rw [e1]; exact ih.cnt, by rw [e1]; exact ih.rep, by rw [e1]; exact ih.fin, ih.pos⟩
    | interest i =>
      have e1 : (es ++ [Ev.interest i]).filterMap Ev.interest? = es.filterMap Ev.interest? ++ [i] := by simp [Ev.interest?]
      let d : Data := { name := i.name, content := payload o, freshness := o.freshnessPeriod }
      have hd : Owed o i d := ⟨rfl, by simp [d, payload], rfl, rfl, rfl⟩
      have hlen := ih.rep.length_eq
      have hcnt : (s.nPings + 1) % 2 ^ 64 = (es.filterMap Ev.interest? ++ [i]).length % 2 ^ 64 := by
        rw [ih.cnt, List.length_append, List.length_singleton]; omega
      have hrep : List.Forall₂ (Owed o) (es.filterMap Ev.interest? ++ [i])
          ((s.log ++ [Obs.received i.name, Obs.reply d]).filterMap Obs.reply?) := by
        have : (s.log ++ [Obs.received i.name, Obs.reply d]).filterMap Obs.reply? =
          s.log.filterMap Obs.reply? ++ [d] := by rw [List.filterMap_append]; rfl
        rw [this]
        exact List.rel_append ih.rep (.cons hd .nil)
      have hpos : ∀ pre post, s.log ++ [Obs.received i.name, Obs.reply d] = pre ++ Obs.finish :: post →
          0 < o.nMaxPings ∧ (pre.filterMap Obs.reply?).length % 2 ^ 64 = o.nMaxPings := by
        intro pre post e
        rcases List.append_eq_append_iff.mp e with ⟨a, ha, hb⟩ | ⟨a, ha, hb⟩
        · exfalso
          have : Obs.finish ∈ [Obs.received i.name, Obs.reply d] := by rw [hb]; simp
          simp at this
        · cases a with
          | nil =>
            exfalso
            have : Obs.finish ∈ [Obs.received i.name, Obs.reply d] := by
              simp at hb
            simp at this
          | cons y a =>
            have hy : Obs.finish = y := by simpa using (List.cons.inj hb).1
            subst hy
            exact ih.pos pre a ha
      have hcount : ∀ l : List Obs, (l ++ [Obs.received i.name, Obs.reply d]).count Obs.finish = l.count Obs.finish := by
        intro l; simp [List.count_append, List.count_cons]
      show Inv o _ (s.onInterest o i)
      unfold St.onInterest
      dsimp only
      split
      · rename_i hm
        rw [hcnt] at hm
        have hm2 := hm.2
        rw [List.length_append, List.length_singleton] at hm2
        refine ⟨by rw [e1]; exact hcnt, ?_, ?_, ?_⟩
        · rw [e1]
          have : (s.log ++ [Obs.received i.name, Obs.reply d] ++ [Obs.finish]).filterMap Obs.reply? =
            (s.log ++ [Obs.received i.name, Obs.reply d]).filterMap Obs.reply? := by
            rw [List.filterMap_append]; exact List.append_nil _
          show List.Forall₂ _ _ (List.filterMap _ (s.log ++ [Obs.received i.name, Obs.reply d] ++ [Obs.finish]))
          rw [this]; exact hrep
        · intro h1 h2
          rw [e1, List.length_append, List.length_singleton] at h2 ⊢
          have h3 := ih.fin h1 (by omega)
          show (s.log ++ [Obs.received i.name, Obs.reply d] ++ [Obs.finish]).count Obs.finish = _
          rw [List.count_append, hcount, h3]
          rw [if_neg (by omega), if_pos (by omega)]
          simp
        · intro pre post e
          have e' : s.log ++ [Obs.received i.name, Obs.reply d] ++ [Obs.finish] = pre ++ Obs.finish :: post := e
          rcases List.eq_nil_or_concat post with rfl | ⟨post', z, rfl⟩
          · have := (List.append_inj' e' rfl).1
            refine ⟨hm.1, ?_⟩
            rw [← this]
            have hl := hrep.length_eq
            rw [List.length_append, List.length_singleton] at hl
            rw [← hl]
            exact hm2.symm
          · rw [List.concat_eq_append, ← List.cons_append, ← List.append_assoc] at e'
            exact hpos pre post' (List.append_inj' e' rfl).1
      · rename_i hm
        rw [hcnt, List.length_append, List.length_singleton] at hm
        refine ⟨by rw [e1]; exact hcnt, by rw [e1]; exact hrep, ?_, hpos⟩
        intro h1 h2
        rw [e1, List.length_append, List.length_singleton] at h2 ⊢
        have h3 := ih.fin h1 (by omega)
        show (s.log ++ [Obs.received i.name, Obs.reply d]).count Obs.finish = _
        rw [hcount, h3]
        by_cases hc : 0 < o.nMaxPings ∧ o.nMaxPings ≤ (es.filterMap Ev.interest?).length
        · rw [if_pos hc, if_pos (by omega)]
        · rw [if_neg hc, if_neg (by omega)]

/-- **C32** Whatever Interests arrive: they are answered in order, each by exactly one Data with its name, a payload
of the configured size and the configured freshness. -/
theorem C32_one_reply {o : Opts} {es s} (h : (machine o).Run es s) :
    List.Forall₂ (Owed o) (es.filterMap Ev.interest?) (s.log.filterMap Obs.reply?) := (inv h).rep

/-- **C32** The finish notification is given exactly once, right when the configured number of Interests has been
answered, and never without a limit; the number of processed Interests is counted. (The counter has
64 bits; the bound on the number of Interests excludes that it comes to the limit a second time.) -/
theorem C32_finish {o : Opts} (ho : o.nMaxPings < 2 ^ 64) {es s} (h : (machine o).Run es s)
    (hk : (es.filterMap Ev.interest?).length < 2 ^ 64) :
    s.log.count .finish = (if 0 < o.nMaxPings ∧ o.nMaxPings ≤ (es.filterMap Ev.interest?).length then 1 else 0) ∧
    (∀ pre post, s.log = pre ++ Obs.finish :: post → (pre.filterMap Obs.reply?).length = o.nMaxPings) ∧
    s.nPings = (es.filterMap Ev.interest?).length := by
  have hi := inv h
  refine ⟨hi.fin ho (by omega), ?_, by rw [hi.cnt]; omega⟩
  intro pre post e
  have h1 := (hi.pos pre post e).2
  have h2 := hi.rep.length_eq
  have h3 : (pre.filterMap Obs.reply?).length ≤ (s.log.filterMap Obs.reply?).length := by
    rw [e, List.filterMap_append, List.length_append]; omega
  omega

/-- Without a limit the server never finishes, however many Interests arrive. -/
theorem C32_no_limit {o : Opts} (ho : o.nMaxPings = 0) {es s} (h : (machine o).Run es s) : Obs.finish ∉ s.log := by
  intro hf
  obtain ⟨pre, post, e⟩ := List.append_of_mem hf
  have := ((inv h).pos pre post e).1
  omega

private def exOpts : Opts := { pre := [⟨8, [65]⟩], nMaxPings := 2, payloadSize := 3 }
private def exName (b : UInt8) : Name := [⟨8, [65]⟩, ⟨8, [0x70, 0x69, 0x6e, 0x67]⟩, ⟨8, [b]⟩]

/-- Three Interests with limit two: three replies, one notification after the second one. -/
example : ∃ s, (machine exOpts).Run [.interest { name := exName 49 }, .interest { name := exName 50 },
      .interest { name := exName 51 }] s ∧
    s.log = [.received (exName 49), .reply { name := exName 49, content := [97, 97, 97], freshness := 1000 },
      .received (exName 50), .reply { name := exName 50, content := [97, 97, 97], freshness := 1000 }, .finish,
      .received (exName 51), .reply { name := exName 51, content := [97, 97, 97], freshness := 1000 }] :=
  ⟨_, Machine.exec_run (M := machine exOpts) (s := ((machine exOpts).exec (machine exOpts).init
    [.interest { name := exName 49 }, .interest { name := exName 50 }, .interest { name := exName 51 }]).get (by decide))
    (Option.some_get _).symm, by decide⟩

/-- **C56 (partial)** Every Interest of a ping client that uses the server's prefix passes the server's filter,
and whatever Data answers it satisfies it, provided that the server sets a positive freshness period or the
client allows stale Data. -/
theorem C56_reply_satisfies_partial {o : Opts} {c : Ping.Opts} (hp : c.pre = o.pre)
    (hf : 0 < o.freshnessPeriod ∨ c.shouldAllowStaleData = true) (hs : c.startSeq < 2 ^ 64)
    {es s cs t} (hc : (Ping.machine c).Run cs t)
    (h : (machine o).Run es s) (digest : Data → Bytes) {q : Nat} {i : Interest} {d : Data}
    (hi : Ping.Obs.interest q i ∈ t.log) (hd : Obs.reply d ∈ s.log) (hn : d.name = i.name) :
    filterPrefix o <+: i.name ∧ i.matchesData digest d = true := by
  have e := Ping.run_names hs hc hi
  have hm : d ∈ s.log.filterMap Obs.reply? := List.mem_filterMap.mpr ⟨_, hd, rfl⟩
  have hfr : d.freshness = o.freshnessPeriod := by
    have := (inv h).rep
    obtain ⟨k, hk, hk'⟩ := List.getElem_of_mem hm
    have hl := this.length_eq
    have := List.Forall₂.get this (i := k) (by omega) hk
    rw [← hk']; exact this.2.2.1
  subst e
  constructor
  · unfold filterPrefix Ping.makePingName
    rw [hp, List.append_assoc (_ ++ _)]
    exact List.prefix_append _ _
  · unfold Interest.matchesData
    dsimp only
    rw [if_neg (by rw [hn]; simp), if_neg (by simp)]
    rw [hfr]
    rcases hf with hf | hf <;> simp [hf, hn]

/-- **C56 (the full statement is false)** With freshness period 0, which the command line accepts, the server's
replies never satisfy the Interests of a client that does not allow stale Data: the client gets timeouts. -/
theorem C56_refuted {o : Opts} (hf : o.freshnessPeriod = 0) {c : Ping.Opts} (hs : c.startSeq < 2 ^ 64)
    (ha : c.shouldAllowStaleData = false) {es s cs t} (hc : (Ping.machine c).Run cs t)
    (h : (machine o).Run es s) (digest : Data → Bytes) {q : Nat} {i : Interest} {d : Data}
    (hi : Ping.Obs.interest q i ∈ t.log) (hd : Obs.reply d ∈ s.log) : i.matchesData digest d = false := by
  have e := Ping.run_names hs hc hi
  have hm : d ∈ s.log.filterMap Obs.reply? := List.mem_filterMap.mpr ⟨_, hd, rfl⟩
  have hfr : d.freshness = o.freshnessPeriod := by
    have := (inv h).rep
    obtain ⟨k, hk, hk'⟩ := List.getElem_of_mem hm
    have hl := this.length_eq
    have := List.Forall₂.get this (i := k) (by omega) hk
    rw [← hk']; exact this.2.2.1
  subst e
  unfold Interest.matchesData
  rw [hfr, hf, ha]
  simp

/-- A client and a server for which the hypotheses of C56 hold: the first Interest and its reply. -/
example : ∃ i d, Ping.Obs.interest 7 i ∈ (Ping.machine { pre := [⟨8, [65]⟩], startSeq := 7 }).init.log ∧
    (∃ s, (machine exOpts).Run [.interest i] s ∧ Obs.reply d ∈ s.log) ∧ d.name = i.name := by
  refine ⟨{ name := exName 55, mustBeFresh := true }, { name := exName 55, content := [97, 97, 97], freshness := 1000 },
    by decide +kernel, ⟨_, .snoc (M := machine exOpts) _ .nil (by decide), by decide⟩, rfl⟩

end Verif.PingServer
