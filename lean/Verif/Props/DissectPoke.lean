import Verif.Props.DissectData
import Verif.Props.PeekPoke

/-!
# `ndnpoke`, `ndnpeek` and `ndn-dissect`

What ndn-dissect prints for the packet that ndnpoke published and ndnpeek wrote to the standard output.
-/

namespace Verif.Dissect
open Wire

mutual
/-- What is told about an element at this depth and those inside. -/
def Tree.told (depth : Nat) : Tree → List (Nat × String × Option Bytes)
  | .mk t v cs => (depth, typeLabel t, if cs.isEmpty then some v else none) :: forestTold (depth + 1) cs

def forestTold (depth : Nat) : List Tree → List (Nat × String × Option Bytes)
  | [] => []
  | t :: ts => t.told depth ++ forestTold depth ts
end

mutual
theorem lines_told (br : List Bool) : ∀ t : Tree, (t.lines br).map Line.told = t.told br.length
  | .mk t v cs => by rw [told_lines, Tree.told, forestLines_told br cs]

theorem forestLines_told (br : List Bool) : ∀ ts : List Tree, (forestLines br ts).map Line.told = forestTold (br.length + 1) ts
  | [] => rfl
  | t :: ts => by
    rw [told_forest, forestTold, lines_told _ t, forestLines_told br ts, List.length_append, List.length_singleton]
end

/-- The elements of MetaInfo. -/
def metaElements (d : Data) : List Tree :=
  (if d.freshness = 0 then [] else [.mk 25 (nniEncode d.freshness) []]) ++
  (match d.final with
  | none => []
  | some c => [.mk 26 (Block.encode ⟨c.type, c.value⟩) [leafOf c]])

private theorem encodeMeta_eq (d : Data) : encodeMeta d = Block.encode ⟨20, ((metaElements d).map encodeTree).flatten⟩ := by
  unfold encodeMeta metaElements encodeTree
  congr 2
  cases d.final <;> by_cases h : d.freshness = 0 <;> simp [h, Tree.type, Tree.value]

private theorem data_told {o : Opts} {d : Data} {t : UInt8} {k : Option Name} {sig : Bytes} {name key : List (Nat × String × Option Bytes)}
    {ct : Tree} (hn : d.name ≠ []) (h1 : TellsName 2 d.name name)
    (hk : ∀ n ∈ k, n ≠ []) (h3 : ∀ n ∈ k, TellsName 4 n key) (p4 : ∀ n ∈ k, ∀ c ∈ n, NotElements o.keep c.value)
    (p1 : ∀ c ∈ d.name, NotElements o.keep c.value) (p2 : d.freshness ≠ 0 → NotElements o.keep (nniEncode d.freshness))
    (h2 : ∀ c ∈ d.final, 1 ≤ c.type ∧ c.type < 2 ^ 32) (p3 : ∀ c ∈ d.final, NotElements o.keep c.value)
    (hct : ct.type = 21) (hcv : ct.value = d.content) (hcf : Fits o ct)
    (size : (encodeData ⟨sigInfo t k, sig⟩ d).length ≤ maxPacket) :
    (dissect o (encodeData ⟨sigInfo t k, sig⟩ d)).error = none ∧
    (dissect o (encodeData ⟨sigInfo t k, sig⟩ d)).out.map Line.told =
      [(0, "Data", none), (1, "Name", none)] ++ name ++
      ((1, "MetaInfo", if (metaElements d).isEmpty then some [] else none) :: forestTold 2 (metaElements d)) ++ ct.told 1 ++
      [(1, "SignatureInfo", none), (2, "SignatureType", some [t])] ++
      (if k = none then [] else (2, "KeyLocator", none) :: (3, "Name", none) :: key) ++ [(1, "SignatureValue", some sig)] := by
  let mt : Tree := .mk 20 ((metaElements d).map encodeTree).flatten (metaElements d)
  let kids : List Tree := [nameTree d.name, mt, ct, sigTree t k, .mk 23 sig []]
  let dt : Tree := .mk 6 (kids.map encodeTree).flatten kids
  have he : encodeData ⟨sigInfo t k, sig⟩ d = encodeTree dt := by
    unfold encodeData
    rw [encodeMeta_eq, ← hcv]
    simp only [dt, kids, mt, encodeName, encodeTree, nameTree, sigTree, Tree.type, Tree.value, List.map_cons, List.map_nil, List.flatten_cons,
      List.flatten_nil, List.append_nil, List.append_assoc]
    rw [← hct]
    rfl
  rw [he] at size ⊢
  have hlen : (kids.map encodeTree).flatten.length ≤ maxPacket := le_trans (le_encode ⟨6, _⟩) size
  unfold maxPacket at hlen
  have hsmall : Small [dt] := by
    intro t ht
    rw [List.mem_singleton.mp ht, ← length_encode]
    exact size
  have hall : (encodeComps d.name).length ≤ 8800 ∧ ((metaElements d).map encodeTree).flatten.length ≤ 8800 ∧
      (sigTree t k).value.length ≤ 8800 := by
    clear size
    simp only [kids, List.map_cons, List.map_nil, List.flatten_cons, List.length_append, List.flatten_nil, List.append_nil] at hlen
    unfold encodeTree at hlen
    have a := le_encode ⟨(nameTree d.name).type, (nameTree d.name).value⟩
    have b := le_encode ⟨mt.type, mt.value⟩
    have c := le_encode ⟨(sigTree t k).type, (sigTree t k).value⟩
    have e1 : (nameTree d.name).value.length = (encodeComps d.name).length := rfl
    have e2 : mt.value.length = ((metaElements d).map encodeTree).flatten.length := rfl
    unfold encodeTree at e2 ⊢
    dsimp only at a b c
    exact ⟨by omega, by omega, by omega⟩
  have hname : (encodeComps d.name).length ≤ 8800 ∧ (sigTree t k).value.length ≤ 8800 := ⟨hall.1, hall.2.2⟩
  have tcomp : ∀ c ∈ d.name, 1 ≤ c.type ∧ c.type < 2 ^ 32 := by
    intro c hc
    obtain ⟨s, hs⟩ := tells_types h1 c hc
    exact (known hs).2
  have fname : Fits o (nameTree d.name) := fits_name hn tcomp hname.1 p1
  have fsig : Fits o (sigTree t k) := by
    have hlen2 := hname.2
    unfold sigTree sigInfo at hlen2 ⊢
    cases k with
    | none =>
      refine .inner (es := [[0x1b, 1, t]]) ?_ (by simp) ?_ (by simp) ?_
      · rintro (h | h | ⟨h, _⟩) <;> cases h
      · exact encodings_map (l := [.mk 27 [t] []]) (by intro t ht; rw [List.mem_singleton.mp ht]; exact ⟨by simp [Tree.type], by simp [Tree.type]⟩)
          (by simp [encodeTree, Tree.type, Tree.value, Block.encode, writeVarNumber])
      · intro t ht; rw [List.mem_singleton.mp ht]; exact .leaf (Or.inr (short_notElements _ _))
    | some n =>
      simp only [Tree.value, List.length_append] at hlen2
      have hle := le_encode ⟨28, encodeName n⟩
      have hle' := le_encode ⟨7, encodeComps n⟩
      have hen : encodeName n = Block.encode ⟨7, encodeComps n⟩ := rfl
      rw [← hen] at hle'
      dsimp only at hle hle'
      refine .inner (es := [[0x1b, 1, t], Block.encode ⟨28, encodeName n⟩]) ?_ (by simp) ?_ (by simp) ?_
      · rintro (h | h | ⟨h, _⟩) <;> cases h
      · refine encodings_map (l := [.mk 27 [t] [], .mk 28 (encodeName n) [nameTree n]]) ?_ ?_
        · intro t ht
          rcases List.mem_cons.mp ht with rfl | ht
          · exact ⟨by simp [Tree.type], by simp [Tree.type]⟩
          · rw [List.mem_singleton.mp ht]; exact ⟨by simp [Tree.type], by simp [Tree.type]⟩
        · have : encodeTree (.mk 27 [t] []) = [0x1b, 1, t] := by simp [encodeTree, Tree.type, Tree.value, Block.encode, writeVarNumber]
          simp only [List.map_cons, List.map_nil, this, List.flatten_cons, List.flatten_nil, List.append_nil, List.length_append]
          simp only [encodeTree, Tree.type, Tree.value]
          omega
      · intro t ht
        rcases List.mem_cons.mp ht with rfl | ht
        · exact .leaf (Or.inr (short_notElements _ _))
        · rw [List.mem_singleton.mp ht]
          refine .inner (es := [encodeName n]) ?_ (by simp) ?_ (by simp) ?_
          · rintro (h | h | ⟨h, _⟩) <;> cases h
          · refine encodings_map (l := [nameTree n]) ?_ ?_
            · intro t ht; rw [List.mem_singleton.mp ht]; exact ⟨by simp [Tree.type, nameTree], by simp [Tree.type, nameTree]⟩
            · have : encodeTree (nameTree n) = encodeName n := rfl
              simp only [List.map_cons, List.map_nil, this, List.flatten_cons, List.flatten_nil, List.append_nil]
              omega
          · intro t ht
            rw [List.mem_singleton.mp ht]
            refine fits_name (hk n rfl) ?_ (by omega) (p4 n rfl)
            intro c hc
            obtain ⟨s, hs⟩ := tells_types (h3 n rfl) c hc
            exact (known hs).2
  have mtypes : ∀ x ∈ metaElements d, 1 ≤ x.type ∧ x.type < 2 ^ 32 := by
    intro x hx
    unfold metaElements at hx
    rcases List.mem_append.mp hx with hx | hx
    · split at hx
      · cases hx
      · rw [List.mem_singleton.mp hx]; exact ⟨by simp [Tree.type], by simp [Tree.type]⟩
    · split at hx
      · cases hx
      · rw [List.mem_singleton.mp hx]; exact ⟨by simp [Tree.type], by simp [Tree.type]⟩
  have mfits : ∀ x ∈ metaElements d, Fits o x := by
    intro x hx
    have hle : (encodeTree x).length ≤ 8800 := by
      have := (List.sublist_flatten_of_mem (List.mem_map_of_mem (f := encodeTree) hx)).length_le
      omega
    unfold metaElements at hx
    rcases List.mem_append.mp hx with hx | hx
    · split at hx
      · cases hx
      · rename_i hne
        rw [List.mem_singleton.mp hx]; exact .leaf (Or.inr (p2 hne))
    · cases hfin : d.final with
      | none => rw [hfin] at hx; cases hx
      | some c =>
        rw [hfin] at hx
        have hx' := List.mem_singleton.mp hx
        subst hx'
        have hl := le_encode ⟨26, Block.encode ⟨c.type, c.value⟩⟩
        simp only [encodeTree, Tree.type, Tree.value] at hle
        dsimp only at hl
        refine .inner (es := [Block.encode ⟨c.type, c.value⟩]) ?_ (by simp) ?_ (by simp) ?_
        · rintro (h | h | ⟨h, _⟩) <;> cases h
        · refine encodings_map (l := [leafOf c]) ?_ ?_
          · intro t ht; rw [List.mem_singleton.mp ht]; exact h2 c (by rw [hfin]; rfl)
          · simp only [List.map_cons, List.map_nil, encodeTree, leafOf, Tree.type, Tree.value, List.flatten_cons, List.flatten_nil,
              List.append_nil]
            omega
        · intro t ht; rw [List.mem_singleton.mp ht]; exact .leaf (Or.inr (p3 c (by rw [hfin]; rfl)))
  have fmeta : Fits o mt := by
    by_cases hemp : metaElements d = []
    · show Fits o (.mk 20 ((metaElements d).map encodeTree).flatten (metaElements d))
      rw [hemp]
      refine .leaf (Or.inr ?_)
      intro ts es rest he hts hv
      exfalso
      have h0 : es.flatten = [] := (List.append_eq_nil_iff.mp hv.symm).1
      obtain ⟨t, ts, rfl⟩ := List.exists_cons_of_ne_nil hts
      have := he.length_lt t (by simp)
      rw [h0] at this
      simp at this
    · refine .inner (es := (metaElements d).map encodeTree) ?_ hemp (encodings_map mtypes (by omega)) rfl mfits
      rintro (h | h | ⟨h, _⟩) <;> cases h
  have fdata : Fits o dt := by
    refine .inner (es := kids.map encodeTree) ?_ (by simp [kids]) (encodings_map ?_ (by omega)) rfl ?_
    · rintro (h | h | ⟨h, _⟩) <;> cases h
    · intro t ht
      simp only [kids, List.mem_cons, List.not_mem_nil, or_false] at ht
      rcases ht with rfl | rfl | rfl | rfl | rfl
      · exact ⟨by simp [nameTree, Tree.type], by simp [nameTree, Tree.type]⟩
      · exact ⟨by simp [mt, Tree.type], by simp [mt, Tree.type]⟩
      · rw [hct]; exact ⟨by simp, by simp⟩
      · exact ⟨by simp [sigTree, Tree.type], by simp [sigTree, Tree.type]⟩
      · exact ⟨by simp [Tree.type], by simp [Tree.type]⟩
    · intro t ht
      simp only [kids, List.mem_cons, List.not_mem_nil, or_false] at ht
      rcases ht with rfl | rfl | rfl | rfl | rfl
      · exact fname
      · exact fmeta
      · exact hcf
      · exact fsig
      · exact .leaf (Or.inl (Or.inl rfl))
  have henc : Encodings [dt] [encodeTree dt] :=
    encodings_map (l := [dt]) (by intro t ht; rw [List.mem_singleton.mp ht]; exact ⟨by simp [Tree.type, dt], by simp [Tree.type, dt]⟩) (by
      rw [List.map_singleton, List.flatten_singleton]; unfold maxPacket at size; omega)
  obtain ⟨r1, r2⟩ := C41_lines_partial henc hsmall (by intro t ht; rw [List.mem_singleton.mp ht]; exact fdata)
  rw [List.flatten_singleton] at r1 r2
  refine ⟨r1, ?_⟩
  rw [r2.unique (shows_topLines _)]
  have l6 : typeLabel 6 = "Data" := by decide +kernel
  have l7 : typeLabel 7 = "Name" := by decide +kernel
  have l20 : typeLabel 20 = "MetaInfo" := by decide +kernel
  have l22 : typeLabel 22 = "SignatureInfo" := by decide +kernel
  have l23 : typeLabel 23 = "SignatureValue" := by decide +kernel
  have l27 : typeLabel 27 = "SignatureType" := by decide +kernel
  have l28 : typeLabel 28 = "KeyLocator" := by decide +kernel
  unfold topLines
  rw [List.flatMap_cons, List.flatMap_nil, List.append_nil, lines_told]
  have tname : (nameTree d.name).told 1 = (1, "Name", none) :: name := by
    have hne : (d.name.map leafOf).isEmpty = false := by simpa using hn
    unfold nameTree
    rw [Tree.told, hne, l7]
    congr 1
    exact (forestLines_told [true] _).symm.trans (told_name h1 [true] rfl)
  have tsig : (sigTree t k).told 1 = [(1, "SignatureInfo", none), (2, "SignatureType", some [t])] ++
      (if k = none then [] else (2, "KeyLocator", none) :: (3, "Name", none) :: key) := by
    unfold sigTree
    cases k with
    | none => simp [Tree.told, forestTold, l22, l27]
    | some n =>
      have hn' : (n.map leafOf).isEmpty = false := by simpa using hk n rfl
      have tk : forestTold 4 (n.map leafOf) = key := (forestLines_told [true, true, true] _).symm.trans (told_name (h3 n rfl) [true, true, true] rfl)
      simp only [Tree.told, forestTold, nameTree, hn', l22, l27, l28, l7, tk, List.isEmpty_cons, List.isEmpty_nil, if_true,
        Bool.false_eq_true, if_false, List.append_nil, reduceCtorEq]
      rfl
  have tmeta : mt.told 1 = (1, "MetaInfo", if (metaElements d).isEmpty then some [] else none) :: forestTold 2 (metaElements d) := by
    show Tree.told 1 (.mk 20 _ _) = _
    rw [Tree.told, l20]
    congr 3
    by_cases hemp : (metaElements d).isEmpty = true
    · rw [if_pos hemp, if_pos hemp, List.isEmpty_iff.1 hemp]; rfl
    · rw [if_neg hemp, if_neg hemp]
  show Tree.told 0 (.mk 6 _ kids) = _
  rw [Tree.told, l6]
  simp only [kids, forestTold, List.isEmpty_cons, Bool.false_eq_true, if_false, tname, tmeta, tsig, Nat.zero_add, List.append_nil]
  simp [Tree.told, forestTold, l23, List.append_assoc]

/-- What is told about the content: the bytes, or the elements if it consists of elements and is to be looked into. -/
inductive TellsContent (o : Opts) (content : Bytes) : List (Nat × String × Option Bytes) → Prop
  | closed : o.dissectContent = false → TellsContent o content [(1, "Content", some content)]
  | bytes : NotElements o.keep content → TellsContent o content [(1, "Content", some content)]
  | elements {f es} : o.dissectContent = true → f ≠ [] → Encodings f es → content = es.flatten → (∀ t ∈ f, Fits o t) →
      TellsContent o content ((1, "Content", none) :: forestTold 2 f)

/-- What should be told about the packet of ndnpoke. -/
def pokeTold (p : Poke.Opts) (name final content key : List (Nat × String × Option Bytes)) (t : UInt8) (k : Option Name) (sig : Bytes) :
    List (Nat × String × Option Bytes) :=
  [(0, "Data", none), (1, "Name", none)] ++ name ++
  [(1, "MetaInfo", if p.freshnessPeriod = 0 ∧ p.wantFinalBlockId = false then some [] else none)] ++
  (if p.freshnessPeriod = 0 then [] else [(2, "FreshnessPeriod", some (nniEncode p.freshnessPeriod))]) ++
  (if p.wantFinalBlockId = false then [] else (2, "FinalBlockId", none) :: final) ++
  content ++
  [(1, "SignatureInfo", none), (2, "SignatureType", some [t])] ++
  (if k = none then [] else (2, "KeyLocator", none) :: (3, "Name", none) :: key) ++
  [(1, "SignatureValue", some sig)]

/-- **C109 (partial)** Over every network: if ndnpeek without `-p` exits with status 0, it wrote one packet, and ndn-dissect shows for it the
name that was given to ndnpoke, the freshness period if one was given, the last component as FinalBlockId if that was asked for, the
input of ndnpoke as the content (with `-c` the elements that it consists of, if it does), and the signature. Missing from the full claim:
component values and freshness periods that look like elements. -/
theorem C109_shown_partial {u : PeekPoke.Setup} {es s} (hn : u.poke.name ≠ []) (h : (PeekPoke.netMachine u).Run es s)
    (hx : s.peek.Exits 0) (hp : u.peek.wantPayloadOnly = false) {o : Opts} {t : UInt8} {k : Option Name} {sig : Bytes}
    {name final content key : List (Nat × String × Option Bytes)}
    (h1 : TellsName 2 u.poke.name name) (h2 : ∀ c ∈ u.poke.name.getLast?, TellsName 3 [c] final) (h4 : TellsContent o u.input content)
    (hk : ∀ n ∈ k, n ≠ []) (h3 : ∀ n ∈ k, TellsName 4 n key) (p4 : ∀ n ∈ k, ∀ c ∈ n, NotElements o.keep c.value)
    (p1 : ∀ c ∈ u.poke.name, NotElements o.keep c.value)
    (p2 : u.poke.freshnessPeriod ≠ 0 → NotElements o.keep (nniEncode u.poke.freshnessPeriod)) :
    ∃ d, s.peek.out = [.packet d] ∧ ((encodeData ⟨sigInfo t k, sig⟩ d).length ≤ maxPacket →
      (dissect o (encodeData ⟨sigInfo t k, sig⟩ d)).error = none ∧
      (dissect o (encodeData ⟨sigInfo t k, sig⟩ d)).out.map Line.told = pokeTold u.poke name final content key t k sig) := by
  obtain ⟨d, ho, -, hout, -⟩ := PeekPoke.C77_output hn h hx
  rw [hp] at hout
  refine ⟨d, hout, fun size => ?_⟩
  have hdf : ∀ c ∈ d.final, c ∈ u.poke.name.getLast? := by
    intro c hc
    rw [ho.final] at hc
    split at hc
    · exact hc
    · cases hc
  have hmem : ∀ c ∈ d.final, c ∈ u.poke.name := fun c hc => List.mem_of_getLast? (hdf c hc)
  obtain ⟨ct, c1, c2, c3, c4⟩ : ∃ ct : Tree, ct.type = 21 ∧ ct.value = d.content ∧ Fits o ct ∧ ct.told 1 = content := by
    have l21 : typeLabel 21 = "Content" := by decide +kernel
    rw [ho.content]
    cases h4 with
    | closed hc => exact ⟨.mk 21 u.input [], rfl, rfl, .leaf (Or.inl (Or.inr (Or.inr ⟨rfl, hc⟩))), by simp [Tree.told, forestTold, l21]⟩
    | bytes hc => exact ⟨.mk 21 u.input [], rfl, rfl, .leaf (Or.inr hc), by simp [Tree.told, forestTold, l21]⟩
    | @elements f es hc hf he hv hfit =>
      refine ⟨.mk 21 u.input f, rfl, rfl, .inner ?_ hf he hv hfit, by simp [Tree.told, l21, hf]⟩
      rintro (h | h | ⟨_, h⟩)
      · cases h
      · cases h
      · rw [hc] at h; cases h
  obtain ⟨r1, r2⟩ := data_told (o := o) (d := d) (t := t) (k := k) (sig := sig) (name := name) (key := key) (ct := ct)
    (by rw [ho.name]; exact hn) (by rw [ho.name]; exact h1) hk h3 p4 (by rw [ho.name]; exact p1) (by rw [ho.fresh]; exact p2)
    (fun c hc => by
      obtain ⟨s, hs⟩ := tells_types h1 c (hmem c hc)
      exact (known hs).2)
    (fun c hc => p1 c (hmem c hc)) c1 c2 c3 size
  refine ⟨r1, r2.trans ?_⟩
  rw [c4]
  have l25 : typeLabel 25 = "FreshnessPeriod" := by decide +kernel
  have l26 : typeLabel 26 = "FinalBlockId" := by decide +kernel
  obtain ⟨last, hlast⟩ : ∃ c, u.poke.name.getLast? = some c := by
    cases hl : u.poke.name.getLast? with
    | none => exact absurd (List.getLast?_eq_none_iff.mp hl) hn
    | some c => exact ⟨c, rfl⟩
  have tfin : forestTold 3 [leafOf last] = final :=
    (forestLines_told [true, true] _).symm.trans (told_name (h2 last (by rw [hlast]; rfl)) [true, true] rfl)
  unfold pokeTold metaElements
  rw [ho.fresh, ho.final, hlast]
  by_cases hfr : u.poke.freshnessPeriod = 0 <;> by_cases hw : u.poke.wantFinalBlockId = true <;>
    simp [hfr, hw, forestTold, Tree.told, l25, l26] <;> (rw [← tfin]; simp [forestTold])

/-- `ndnpeek /%08%00` and `echo hi | ndnpoke /%08%00`. -/
private def oddName : PeekPoke.Setup :=
  { peek := { name := [⟨8, [8, 0]⟩] }, poke := { name := [⟨8, [8, 0]⟩] }, input := [0x68, 0x69], params := fun _ => [], digest := fun _ => [] }

private def oddData : Data := { name := [⟨8, [8, 0]⟩], content := [0x68, 0x69] }

/-- **C109 (the full statement is false)** The only component of the name is `08 00`. The packet arrives, but ndn-dissect shows a component
without value inside of the component, and the value nowhere. -/
theorem C109_refuted : ∃ s, (PeekPoke.netMachine oddName).Run
      [.poke .regSuccess, .poke (.interest ⟨[⟨8, [8, 0]⟩], false, false⟩), .peek (.data oddData)] s ∧
    s.peek.Exits 0 ∧ s.peek.out = [.packet oddData] ∧ TellsName 2 oddName.poke.name [(2, "GenericNameComponent", some [8, 0])] ∧
    ∀ keep, (dissect ⟨false, keep⟩ (encodeData ⟨sigInfo 0 none, List.replicate 32 0⟩ oddData)).out.map Line.told =
      [(0, "Data", none), (1, "Name", none), (2, "GenericNameComponent", none), (3, "GenericNameComponent", some []),
       (1, "MetaInfo", some []), (1, "Content", some [0x68, 0x69]), (1, "SignatureInfo", none), (2, "SignatureType", some [0]),
       (1, "SignatureValue", some (List.replicate 32 0))] := by
  refine ⟨_, Machine.exec_run (M := PeekPoke.netMachine oddName) (s := ((PeekPoke.netMachine oddName).exec (PeekPoke.netMachine oddName).init
    [.poke .regSuccess, .poke (.interest ⟨[⟨8, [8, 0]⟩], false, false⟩), .peek (.data oddData)]).get (by decide)) (by decide),
    by decide, by decide, .cons .generic .nil, fun keep => ?_⟩
  cases keep <;> decide +kernel

/-- `ndnpeek /a/b` and `ndnpoke -x 5000 -F /a/b`, the input being a Data packet of its own. -/
private def nested : PeekPoke.Setup :=
  { peek := { name := [PeekPoke.ca, PeekPoke.cb] }
    poke := { name := [PeekPoke.ca, PeekPoke.cb], freshnessPeriod := 5000, wantFinalBlockId := true }
    input := [6, 3, 7, 1, 9], params := fun _ => [], digest := fun _ => [] }

private def nestedData : Data :=
  { name := [PeekPoke.ca, PeekPoke.cb], content := [6, 3, 7, 1, 9], final := some PeekPoke.cb, freshness := 5000 }

/-- The hypotheses of `C109_shown_partial` about the network can be met. -/
example : ∃ s, (PeekPoke.netMachine nested).Run
      [.poke .regSuccess, .poke (.interest ⟨[PeekPoke.ca, PeekPoke.cb], false, false⟩), .peek (.data nestedData)] s ∧
    s.peek.Exits 0 ∧ nested.peek.wantPayloadOnly = false ∧ s.peek.out = [.packet nestedData] :=
  ⟨_, Machine.exec_run (M := PeekPoke.netMachine nested) (s := ((PeekPoke.netMachine nested).exec (PeekPoke.netMachine nested).init
    [.poke .regSuccess, .poke (.interest ⟨[PeekPoke.ca, PeekPoke.cb], false, false⟩), .peek (.data nestedData)]).get (by decide)) (by decide),
    by decide, by decide, by decide⟩

/-- And those about the packet. -/
example (keep : Bool) : TellsName 2 nested.poke.name [(2, "GenericNameComponent", some [0x61]), (2, "GenericNameComponent", some [0x62])] ∧
    (∀ c ∈ nested.poke.name.getLast?, TellsName 3 [c] [(3, "GenericNameComponent", some [0x62])]) ∧
    TellsContent ⟨false, keep⟩ nested.input [(1, "Content", some [6, 3, 7, 1, 9])] ∧
    TellsContent ⟨true, keep⟩ nested.input
      ((1, "Content", none) :: forestTold 2 [.mk 6 [7, 1, 9] [.mk 7 [9] []]]) ∧
    (∀ c ∈ nested.poke.name, NotElements keep c.value) ∧ NotElements keep (nniEncode nested.poke.freshnessPeriod) ∧
    (encodeData ⟨sigInfo 0 none, List.replicate 32 0⟩ nestedData).length ≤ maxPacket := by
  refine ⟨.cons .generic (.cons .generic .nil), ?_, .closed rfl, ?_, ?_, ?_, by decide +kernel⟩
  · intro c hc
    cases hc
    exact .cons .generic .nil
  · refine .elements (es := [[6, 3, 7, 1, 9]]) rfl (by simp) ?_ rfl ?_
    · exact ⟨⟨by decide, by decide, [6], [3], .inl ⟨6, rfl, rfl, by decide⟩, .inl ⟨3, rfl, rfl, by decide⟩, rfl⟩, trivial⟩
    · intro t ht
      rw [List.mem_singleton.mp ht]
      refine .inner (es := [[7, 1, 9]]) (by rintro (h | h | ⟨h, _⟩) <;> cases h) (by simp)
        ⟨⟨by decide, by decide, [7], [1], .inl ⟨7, rfl, rfl, by decide⟩, .inl ⟨1, rfl, rfl, by decide⟩, rfl⟩, trivial⟩ rfl ?_
      intro t ht
      rw [List.mem_singleton.mp ht]
      exact .leaf (Or.inr (short_notElements _ _))
  · intro c hc
    simp only [nested, List.mem_cons, List.not_mem_nil, or_false] at hc
    rcases hc with rfl | rfl <;> exact short_notElements _ _
  · refine notElements_of_error ?_
    have : readBlock (nniEncode nested.poke.freshnessPeriod) = .error .value := by decide +kernel
    intro x hx
    rw [this] at hx
    cases hx

/-- The text for this packet with `-c`. -/
example : (dissect ⟨true, true⟩ (encodeData ⟨sigInfo 0 none, [1, 2]⟩ nestedData)).out.map Line.text =
    ["6 (Data) (size: 35)\n",
     "├─7 (Name) (size: 6)\n",
     "│ ├─8 (GenericNameComponent) (size: 1) [[a]]\n",
     "│ └─8 (GenericNameComponent) (size: 1) [[b]]\n",
     "├─20 (MetaInfo) (size: 9)\n",
     "│ ├─25 (FreshnessPeriod) (size: 2) [[%13%88]]\n",
     "│ └─26 (FinalBlockId) (size: 3)\n",
     "│   └─8 (GenericNameComponent) (size: 1) [[b]]\n",
     "├─21 (Content) (size: 5)\n",
     "│ └─6 (Data) (size: 3)\n",
     "│   └─7 (Name) (size: 1) [[%09]]\n",
     "├─22 (SignatureInfo) (size: 3)\n",
     "│ └─27 (SignatureType) (size: 1) [[%00]]\n",
     "└─23 (SignatureValue) (size: 2) [[%01%02]]\n"].map (fun s : String => s.toByteArray.data.toList) := by
  decide +kernel

end Verif.Dissect
