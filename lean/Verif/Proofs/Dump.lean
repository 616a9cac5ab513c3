import Verif.Spec.Dump
import Verif.Proofs.Tlv

/-! # Lemmas about ndndump: reading memory, the formatter, and the NDN payload -/

namespace Verif.Dump

open Spec

theorem bind_ok {α β : Type} (a : α) (g : α → Res β) : (Except.ok a >>= g) = g a := rfl

theorem bind_error {α β : Type} (e : Fault) (g : α → Res β) : ((Except.error e : Res α) >>= g) = .error e := rfl

/-! ## Reading -/

theorem rd_append (pre : Bytes) (x : UInt8) (post : Bytes) (i : Nat) (h : i = pre.length) :
    rd (pre ++ x :: post) i = .ok x := by
  subst h; unfold rd
  rw [List.getElem?_append_right (by omega)]
  simp

theorem rdBytes_append (pre v post : Bytes) (i n : Nat) (h : i = pre.length) (hn : n = v.length) :
    rdBytes (pre ++ v ++ post) i n = .ok v := by
  induction v generalizing pre i n with
  | nil => subst hn; rfl
  | cons x v ih =>
    subst hn
    simp only [List.length_cons, rdBytes]
    rw [List.append_assoc, List.cons_append, rd_append _ _ _ _ h, bind_ok]
    have := ih (pre ++ [x]) (i + 1) v.length (by simp [h]) rfl
    rw [show pre ++ x :: (v ++ post) = (pre ++ [x]) ++ v ++ post by simp, this, bind_ok]

theorem rd16_append (pre v post : Bytes) (i : Nat) (h : i = pre.length) (hv : v.length = 2) :
    rd16 (pre ++ v ++ post) i = .ok (beNat v) := by
  unfold rd16
  rw [rdBytes_append _ _ _ _ _ h hv.symm, bind_ok]

theorem subSize_eq {a b : Nat} (h : b ≤ a) (ha : a < 2 ^ 64) : subSize a b = a - b := by
  unfold subSize; omega

theorem memVarNumber_append (pre s post : Bytes) (i n : Nat) (h : i = pre.length) (hn : n = s.length) :
    memVarNumber (pre ++ s ++ post) i n =
      .ok ((readVarNumber s).map fun x => (x.1, pre.length + (s.length - x.2.length), x.2.length)) := by
  subst h hn
  cases s with
  | nil => rfl
  | cons b r =>
    unfold memVarNumber
    rw [if_neg (by simp), List.append_assoc, List.cons_append, rd_append _ _ _ _ rfl, bind_ok]
    simp only [readVarNumber]
    by_cases h1 : b.toNat < 253
    · rw [if_pos h1, if_pos h1]
      simp
    · rw [if_neg h1, if_neg h1]
      generalize (if b.toNat = 253 then 2 else if b.toNat = 254 then 4 else 8) = w
      by_cases h2 : r.length < w
      · rw [if_pos h2, if_pos (by simpa using h2)]; rfl
      · rw [if_neg h2, if_neg (by simpa using h2)]
        have := rdBytes_append (pre ++ [b]) (r.take w) (r.drop w ++ post) (pre.length + 1) w (by simp)
          (by rw [List.length_take]; omega)
        have hr : r.take w ++ (r.drop w ++ post) = r ++ post := by
          rw [← List.append_assoc, List.take_append_drop]
        rw [show pre ++ b :: (r ++ post) = pre ++ [b] ++ r.take w ++ (r.drop w ++ post) by
          rw [List.append_assoc _ (r.take w), hr]; simp, this, bind_ok]
        simp only [Option.map_some, List.length_drop, List.length_cons]
        congr 4
        omega

theorem memBlock_append (pre s post : Bytes) (i n : Nat) (h : i = pre.length) (hn : n = s.length) :
    memBlock (pre ++ s ++ post) i n = .ok (fromBuffer s) := by
  unfold memBlock fromBuffer readBlock readType
  rw [memVarNumber_append _ _ _ _ _ h hn, bind_ok]
  cases h1 : readVarNumber s with
  | none => rfl
  | some x =>
    obtain ⟨t, r⟩ := x
    obtain ⟨e, -, rfl⟩ := (readVarNumber_iff _ _ _).mp h1
    simp only [Option.map_some]
    by_cases ht : t = 0 ∨ 2 ^ 32 ≤ t
    · rw [if_pos ht, if_pos ht]
    · rw [if_neg ht, if_neg ht]
      rw [show pre ++ (e ++ r) ++ post = (pre ++ e) ++ r ++ post by simp,
        memVarNumber_append (pre ++ e) r post _ _ (by simp) rfl, bind_ok]
      cases h2 : readVarNumber r with
      | none => simp only [Option.map_none, h2]
      | some y =>
        obtain ⟨m, q⟩ := y
        obtain ⟨e2, -, rfl⟩ := (readVarNumber_iff _ _ _).mp h2
        simp only [Option.map_some, h2]
        by_cases hm : q.length < m
        · rw [if_pos hm, if_pos hm]
        · rw [if_neg hm, if_neg hm]
          rw [show pre ++ e ++ (e2 ++ q) ++ post = (pre ++ e ++ e2) ++ q.take m ++ (q.drop m ++ post) by
            simp only [List.append_assoc]
            rw [← List.append_assoc (q.take m), List.take_append_drop],
            rdBytes_append _ _ _ _ _ (by simp; omega) (by rw [List.length_take]; omega), bind_ok]

theorem fromBuffer_iff (s : Bytes) (b : Block) : fromBuffer s = some b ↔ StartsWith s b := by
  unfold fromBuffer StartsWith
  constructor
  · intro h
    split at h
    · cases h
    · rename_i x r hx
      cases h
      obtain ⟨e, he, hs⟩ := (readBlock_iff _ _ _).mp hx
      exact ⟨e, r, hs, he⟩
  · rintro ⟨e, r, hs, he⟩
    rw [(readBlock_iff s b r).mpr ⟨e, he, hs⟩]

theorem fromBuffer_none (s : Bytes) : fromBuffer s = none ↔ ¬ ∃ b, StartsWith s b := by
  constructor
  · rintro h ⟨b, hb⟩
    rw [(fromBuffer_iff _ _).mpr hb] at h; cases h
  · intro h
    cases hs : fromBuffer s with
    | none => rfl
    | some b => exact absurd ⟨b, (fromBuffer_iff _ _).mp hs⟩ h

theorem startsWith_unique {s : Bytes} {b b' : Block} (h : StartsWith s b) (h' : StartsWith s b') : b = b' := by
  have h1 := (fromBuffer_iff _ _).mpr h
  rw [(fromBuffer_iff _ _).mpr h'] at h1
  exact (Option.some.inj h1).symm

/-! ## The formatter -/

theorem puts_open (T : List Tok) (ts : List Tok) : (Fmt.mk T false false).puts ts = ⟨T ++ ts, false, false⟩ := by
  induction ts generalizing T with
  | nil => simp [Fmt.puts]
  | cons t ts ih =>
    have h : (Fmt.mk T false false).puts (t :: ts) = (Fmt.mk (T ++ [t]) false false).puts ts := rfl
    rw [h, ih]; simp

theorem puts_delim (T : List Tok) (t : Tok) (ts : List Tok) :
    (Fmt.mk T false true).puts (t :: ts) = ⟨T ++ .delim :: t :: ts, false, false⟩ := by
  have h : (Fmt.mk T false true).puts (t :: ts) = (Fmt.mk (T ++ [.delim] ++ [t]) false false).puts ts := rfl
  rw [h, puts_open]; simp

theorem puts_empty (t : Tok) (ts : List Tok) : Fmt.puts {} (t :: ts) = ⟨t :: ts, false, false⟩ := by
  have h : Fmt.puts {} (t :: ts) = (Fmt.mk [t] false false).puts ts := rfl
  rw [h, puts_open]; simp

theorem put_open (T : List Tok) (t : Tok) : (Fmt.mk T false false).put t = ⟨T ++ [t], false, false⟩ := rfl

theorem put_delim (T : List Tok) (t : Tok) : (Fmt.mk T false true).put t = ⟨T ++ [.delim, t], false, false⟩ := by
  have h : (Fmt.mk T false true).put t = ⟨T ++ [.delim] ++ [t], false, false⟩ := rfl
  rw [h]; simp

theorem put_empty (t : Tok) : Fmt.put {} t = ⟨[t], false, false⟩ := rfl

theorem addDelimiter_mk (T : List Tok) (w : Bool) : (Fmt.mk T false w).addDelimiter = ⟨T, false, true⟩ := rfl

theorem addDelimiter_empty : Fmt.addDelimiter {} = {} := rfl

/-! ## Lines -/

/-- Neither a delimiter nor the name of a packet. -/
def Plain (t : Tok) : Prop := t ≠ .delim ∧ (∀ n, t ≠ .name n) ∧ ∀ n s, t ≠ .interest n s

theorem join_snoc (fs : List (List Tok)) (h : fs ≠ []) (g : List Tok) : join (fs ++ [g]) = join fs ++ .delim :: g := by
  induction fs with
  | nil => exact absurd rfl h
  | cons f fs ih =>
    cases fs with
    | nil => rfl
    | cons f' fs =>
      have := ih (by simp)
      simp only [List.cons_append, join] at this ⊢
      rw [this]; simp

theorem join_last (fs : List (List Tok)) (f g : List Tok) : join (fs ++ [f ++ g]) = join (fs ++ [f]) ++ g := by
  cases fs with
  | nil => rfl
  | cons x fs =>
    rw [join_snoc _ (by simp), join_snoc _ (by simp)]; simp

theorem join_append (fs gs : List (List Tok)) (h : fs ≠ []) (h' : gs ≠ []) :
    join (fs ++ gs) = join fs ++ .delim :: join gs := by
  induction fs with
  | nil => exact absurd rfl h
  | cons f fs ih =>
    cases fs with
    | nil => cases gs with
      | nil => exact absurd rfl h'
      | cons g gs => rfl
    | cons f' fs =>
      have := ih (by simp)
      simp only [List.cons_append, join] at this ⊢
      rw [this]; simp

theorem Spec.IsLine.field {T : List Tok} (h : IsLine T) {ts : List Tok} (h1 : ts ≠ []) (h2 : Tok.delim ∉ ts) :
    IsLine (T ++ .delim :: ts) := by
  obtain ⟨fs, rfl, hne, hf⟩ := h
  refine ⟨fs ++ [ts], (join_snoc _ hne _).symm, by simp, ?_⟩
  intro f hm
  rcases List.mem_append.mp hm with hm | hm
  · exact hf f hm
  · rw [List.mem_singleton] at hm; subst hm; exact ⟨h1, h2⟩

theorem Spec.IsLine.more {T : List Tok} (h : IsLine T) {ts : List Tok} (h2 : Tok.delim ∉ ts) : IsLine (T ++ ts) := by
  obtain ⟨fs, rfl, hne, hf⟩ := h
  obtain ⟨l, x, rfl⟩ : ∃ l x, fs = l ++ [x] := ⟨_, _, (List.dropLast_concat_getLast hne).symm⟩
  refine ⟨l ++ [x ++ ts], (join_last _ _ _).symm, by simp, ?_⟩
  intro f hm
  rcases List.mem_append.mp hm with hm | hm
  · exact hf f (by simp [hm])
  · rw [List.mem_singleton] at hm; subst hm
    have := hf x (by simp)
    exact ⟨by simp [this.1], by simp [this.2, h2]⟩

theorem Spec.IsLine.one {ts : List Tok} (h1 : ts ≠ []) (h2 : Tok.delim ∉ ts) : IsLine ts :=
  ⟨[ts], rfl, by simp, by simp [h1, h2]⟩

/-- A line that names no packet. -/
def Fine (T : List Tok) : Prop := IsLine T ∧ ∀ t ∈ T, (∀ n, t ≠ .name n) ∧ ∀ n s, t ≠ .interest n s

theorem Fine.field {T : List Tok} (h : Fine T) {ts : List Tok} (h1 : ts ≠ []) (h2 : ∀ t ∈ ts, Plain t) :
    Fine (T ++ .delim :: ts) := by
  refine ⟨h.1.field h1 (fun hm => (h2 _ hm).1 rfl), ?_⟩
  intro t hm
  rcases List.mem_append.mp hm with hm | hm
  · exact h.2 t hm
  · rcases List.mem_cons.mp hm with rfl | hm
    · exact ⟨by simp, by simp⟩
    · exact (h2 t hm).2

theorem Fine.more {T : List Tok} (h : Fine T) {ts : List Tok} (h2 : ∀ t ∈ ts, Plain t) : Fine (T ++ ts) := by
  refine ⟨h.1.more (fun hm => (h2 _ hm).1 rfl), ?_⟩
  intro t hm
  rcases List.mem_append.mp hm with hm | hm
  · exact h.2 t hm
  · exact (h2 t hm).2

theorem Fine.one {ts : List Tok} (h1 : ts ≠ []) (h2 : ∀ t ∈ ts, Plain t) : Fine ts :=
  ⟨IsLine.one h1 (fun hm => (h2 _ hm).1 rfl), fun t hm => (h2 t hm).2⟩

/-! ## The payload -/

/-- What is printed for a payload after the fields `T`. -/
def ndnOut (c : Cfg) (T : List Tok) (s : Bytes) : Res (Bool × Fmt) :=
  if s = [] then .ok (false, ⟨T, false, false⟩)
  else match fromBuffer s with
    | none => .ok (true, (Fmt.mk T false true).puts [.str "NDN truncated packet, length ", .num s.length])
    | some b => printBlock c ⟨T, false, true⟩ b

theorem printNdn_eq (c : Cfg) (T : List Tok) (pre s post : Bytes) (i n : Nat) (h : i = pre.length) (hn : n = s.length) :
    printNdn c (pre ++ s ++ post) ⟨T, false, false⟩ i n = ndnOut c T s := by
  unfold printNdn ndnOut
  by_cases hs : s = []
  · subst hs; subst hn; rfl
  · rw [if_neg hs, if_neg (by rw [hn]; simpa using hs), memBlock_append _ _ _ _ _ h hn, bind_ok, addDelimiter_mk]
    cases fromBuffer s with
    | none => rw [hn]
    | some b => rfl

theorem exists_content (d : Decoders) (nack : Option (Except String NackReason)) (b : Block) :
    ∃ c, IsContent d nack b c := by
  by_cases h5 : b.type = 5
  · cases h : d.interest b with
    | error e => exact ⟨_, .badInterest e h5 h⟩
    | ok x =>
      obtain ⟨n, t⟩ := x
      cases hn : nack with
      | none => exact ⟨_, .interest n t h5 h rfl⟩
      | some y =>
        cases hy : y with
        | error e => exact ⟨_, .badNack e n t h5 h (by rw [])⟩
        | ok r => exact ⟨_, .nack r n t h5 h (by rw [])⟩
  · by_cases h6 : b.type = 6
    · cases h : d.data b with
      | error e => exact ⟨_, .badData e h6 h⟩
      | ok n => exact ⟨_, .data n h6 h⟩
    · exact ⟨_, .unsupported h5 h6⟩

theorem matchesFilter_iff (c : Cfg) (n : Name) : matchesFilter c n = true ↔ Accepts c.nameFilter (some n) := by
  unfold matchesFilter Accepts
  cases c.nameFilter with
  | none => simp
  | some f => simp

theorem accepts_none (f : Option (Name → Bool)) : Accepts f none := by intro _ _ _ h; cases h

theorem printNet_accepted {c : Cfg} {T : List Tok} {nack} {b : Block} {x : Content} (h : IsContent c.dec nack b x)
    (ha : Accepts c.nameFilter x.name?) :
    printNet c ⟨T, false, true⟩ nack b = (true, ⟨T ++ .delim :: x.field, false, false⟩) := by
  unfold printNet
  cases h with
  | interest n t h5 hi hn =>
    rw [if_pos h5, hi]
    simp only [(matchesFilter_iff c n).mpr ha, hn, puts_delim]; rfl
  | nack r n t h5 hi hn =>
    rw [if_pos h5, hi]
    simp only [(matchesFilter_iff c n).mpr ha, hn, puts_delim]; rfl
  | badNack e n t h5 hi hn =>
    rw [if_pos h5, hi]
    simp only [(matchesFilter_iff c n).mpr ha, hn, puts_delim]; rfl
  | data n h6 hd =>
    rw [if_neg (by omega), if_pos h6, hd]
    simp only [(matchesFilter_iff c n).mpr ha, puts_delim]; rfl
  | badInterest e h5 hi => rw [if_pos h5, hi]; simp only [puts_delim]; rfl
  | badData e h6 hd => rw [if_neg (by omega), if_pos h6, hd]; simp only [puts_delim]; rfl
  | unsupported h5 h6 => rw [if_neg h5, if_neg h6]; simp only [puts_delim]; rfl

theorem printNet_rejected {c : Cfg} {T : List Tok} {nack} {b : Block} {x : Content} (h : IsContent c.dec nack b x)
    (ha : ¬ Accepts c.nameFilter x.name?) : (printNet c ⟨T, false, true⟩ nack b).1 = false := by
  unfold printNet
  cases h with
  | interest n t h5 hi hn =>
    rw [if_pos h5, hi]
    have hf : matchesFilter c n = false := by
      cases hm : matchesFilter c n with
      | true => exact absurd ((matchesFilter_iff c n).mp hm) ha
      | false => rfl
    simp [hf]
  | nack r n t h5 hi hn =>
    rw [if_pos h5, hi]
    have hf : matchesFilter c n = false := by
      cases hm : matchesFilter c n with
      | true => exact absurd ((matchesFilter_iff c n).mp hm) ha
      | false => rfl
    simp [hf]
  | badNack e n t h5 hi hn =>
    rw [if_pos h5, hi]
    have hf : matchesFilter c n = false := by
      cases hm : matchesFilter c n with
      | true => exact absurd ((matchesFilter_iff c n).mp hm) ha
      | false => rfl
    simp [hf]
  | data n h6 hd =>
    rw [if_neg (by omega), if_pos h6, hd]
    have hf : matchesFilter c n = false := by
      cases hm : matchesFilter c n with
      | true => exact absurd ((matchesFilter_iff c n).mp hm) ha
      | false => rfl
    simp [hf]
  | badInterest e h5 hi => exact absurd (accepts_none _) ha
  | badData e h6 hd => exact absurd (accepts_none _) ha
  | unsupported h5 h6 => exact absurd (accepts_none _) ha

theorem exists_payload (d : Decoders) (s : Bytes) : ∃ p, IsPayload d s p := by
  by_cases hs : s = []
  · exact ⟨_, .empty hs⟩
  · cases hb : fromBuffer s with
    | none => exact ⟨_, .incomplete hs ((fromBuffer_none s).mp hb)⟩
    | some b =>
      have h := (fromBuffer_iff _ _).mp hb
      by_cases ht : b.type = 100
      · cases hl : d.lp b with
        | error e => exact ⟨_, .lpInvalid b e h ht hl⟩
        | ok lp =>
          cases hf : lp.fragment with
          | none => exact ⟨_, .lpIdle b lp h ht hl hf⟩
          | some y =>
            cases y with
            | error e => exact ⟨_, .lpThrows b lp e h ht hl hf⟩
            | ok f =>
              cases hn : fromBuffer f with
              | none => exact ⟨_, .lpFragment b lp f h ht hl hf ((fromBuffer_none f).mp hn)⟩
              | some net =>
                obtain ⟨x, hx⟩ := exists_content d lp.nack net
                exact ⟨_, .lp b lp f net x h ht hl hf ((fromBuffer_iff _ _).mp hn) hx⟩
      · obtain ⟨x, hx⟩ := exists_content d none b
        exact ⟨_, .bare b x h ht hx⟩

/-- What is printed for a payload, by the kind of the payload. -/
theorem ndnOut_spec {c : Cfg} {T : List Tok} {s : Bytes} {p : Payload} (h : IsPayload c.dec s p) :
    (p = .empty ∧ ndnOut c T s = .ok (false, ⟨T, false, false⟩)) ∨
    (∃ e, p = .lpThrows e ∧ ndnOut c T s = .error (.thrown e)) ∨
    (p ≠ .empty ∧ (∀ e, p ≠ .lpThrows e) ∧
      ((Accepts c.nameFilter p.name? ∧ ndnOut c T s = .ok (true, ⟨T ++ .delim :: join p.fields, false, false⟩)) ∨
       (¬ Accepts c.nameFilter p.name? ∧ ∃ f, ndnOut c T s = .ok (false, f)))) := by
  cases h with
  | empty hs => exact .inl ⟨rfl, by rw [ndnOut, if_pos hs]⟩
  | incomplete hs hn =>
    refine .inr (.inr ⟨by simp, by simp, .inl ⟨accepts_none _, ?_⟩⟩)
    rw [ndnOut, if_neg hs, (fromBuffer_none s).mpr hn]
    simp only [puts_delim]; rfl
  | bare b x hb ht hx =>
    have hs : s ≠ [] := by
      rintro rfl
      have := (fromBuffer_iff _ _).mpr hb
      cases this
    refine .inr (.inr ⟨by simp, by simp, ?_⟩)
    rw [ndnOut, if_neg hs, (fromBuffer_iff _ _).mpr hb]
    simp only [printBlock]
    rw [if_neg ht, addDelimiter_mk]
    by_cases ha : Accepts c.nameFilter x.name?
    · exact .inl ⟨ha, by rw [printNet_accepted hx ha]; rfl⟩
    · refine .inr ⟨ha, (printNet c ⟨T, false, true⟩ none b).2, ?_⟩
      exact congrArg Except.ok (Prod.ext (printNet_rejected hx ha) rfl)
  | lp b lp f net x hb ht hl hf hn hx =>
    have hs : s ≠ [] := by
      rintro rfl
      have := (fromBuffer_iff _ _).mpr hb
      cases this
    refine .inr (.inr ⟨by simp, by simp, ?_⟩)
    rw [ndnOut, if_neg hs, (fromBuffer_iff _ _).mpr hb]
    simp only [printBlock]
    rw [if_pos ht, hl]
    simp only [hf, (fromBuffer_iff _ _).mpr hn, put_delim, addDelimiter_mk]
    by_cases ha : Accepts c.nameFilter x.name?
    · exact .inl ⟨ha, by rw [printNet_accepted hx ha]; simp [Payload.fields, join]⟩
    · refine .inr ⟨ha, (printNet c ⟨T ++ [.delim, .str "NDNLPv2"], false, true⟩ lp.nack net).2, ?_⟩
      exact congrArg Except.ok (Prod.ext (printNet_rejected hx ha) rfl)
  | lpInvalid b e hb ht hl =>
    have hs : s ≠ [] := by
      rintro rfl
      have := (fromBuffer_iff _ _).mpr hb
      cases this
    refine .inr (.inr ⟨by simp, by simp, .inl ⟨accepts_none _, ?_⟩⟩)
    rw [ndnOut, if_neg hs, (fromBuffer_iff _ _).mpr hb]
    simp only [printBlock]
    rw [if_pos ht, hl]
    simp only [put_delim, puts_open]; simp [Payload.fields, join]
  | lpIdle b lp hb ht hl hf =>
    have hs : s ≠ [] := by
      rintro rfl
      have := (fromBuffer_iff _ _).mpr hb
      cases this
    refine .inr (.inr ⟨by simp, by simp, .inl ⟨accepts_none _, ?_⟩⟩)
    rw [ndnOut, if_neg hs, (fromBuffer_iff _ _).mpr hb]
    simp only [printBlock]
    rw [if_pos ht, hl]
    simp only [hf, put_delim, put_open]; simp [Payload.fields, join]
  | lpFragment b lp f hb ht hl hf hn =>
    have hs : s ≠ [] := by
      rintro rfl
      have := (fromBuffer_iff _ _).mpr hb
      cases this
    refine .inr (.inr ⟨by simp, by simp, .inl ⟨accepts_none _, ?_⟩⟩)
    rw [ndnOut, if_neg hs, (fromBuffer_iff _ _).mpr hb]
    simp only [printBlock]
    rw [if_pos ht, hl]
    simp only [hf, (fromBuffer_none f).mpr hn, put_delim, put_open]; simp [Payload.fields, join]
  | lpThrows b lp e hb ht hl hf =>
    have hs : s ≠ [] := by
      rintro rfl
      have := (fromBuffer_iff _ _).mpr hb
      cases this
    refine .inr (.inl ⟨e, rfl, ?_⟩)
    rw [ndnOut, if_neg hs, (fromBuffer_iff _ _).mpr hb]
    simp only [printBlock]
    rw [if_pos ht, hl]
    simp only [hf]

end Verif.Dump
