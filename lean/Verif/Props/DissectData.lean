import Verif.Props.DissectFaithful
import Verif.Model.Wire
import Verif.Model.Wireshark

/-!
# ndn-dissect on the packets of the other tools

The Data packets that ndnputchunks and ndnpingserver send, as encoded in `Model/Wire`, and what ndn-dissect prints for them.
-/

namespace Verif.Dissect
open Wire

/-- What a line tells: how deep the element is nested, the name of its type, and its value if it has no sub-elements. -/
def Line.told (l : Line) : Nat × String × Option Bytes := (l.glyphs.length, l.label, l.value)

/-- The types of name components in the NDN packet format and the naming conventions. -/
inductive ComponentType : Nat → String → Prop
  | implicitDigest : ComponentType 1 "ImplicitSha256DigestComponent"
  | parametersDigest : ComponentType 2 "ParametersSha256DigestComponent"
  | generic : ComponentType 8 "GenericNameComponent"
  | keyword : ComponentType 32 "KeywordNameComponent"
  | segment : ComponentType 50 "SegmentNameComponent"
  | byteOffset : ComponentType 52 "ByteOffsetNameComponent"
  | version : ComponentType 54 "VersionNameComponent"
  | timestamp : ComponentType 56 "TimestampNameComponent"
  | sequenceNum : ComponentType 58 "SequenceNumNameComponent"

/-- The lines tell the components, each at this depth. -/
inductive TellsName (depth : Nat) : Name → List (Nat × String × Option Bytes) → Prop
  | nil : TellsName depth [] []
  | cons {c s n ls} : ComponentType c.type s → TellsName depth n ls → TellsName depth (c :: n) ((depth, s, some c.value) :: ls)

/-- The SignatureInfo of ndn-cxx: the number of the signature type, and the name of the key if there is one (none for
SHA-256 digests, type 0). -/
def sigInfo (t : UInt8) (key : Option Name) : Bytes :=
  [0x1b, 1, t] ++ (match key with
    | none => []
    | some n => Block.encode ⟨28, encodeName n⟩)

/-- What should be told about a Data packet whose MetaInfo has a freshness period and perhaps a final block; `name`, `final`
and `key` are what is told about the components. -/
def dataTold (name final key : List (Nat × String × Option Bytes)) (d : Data) (t : UInt8) (k : Option Name) (sig : Bytes) :
    List (Nat × String × Option Bytes) :=
  [(0, "Data", none), (1, "Name", none)] ++ name ++
  [(1, "MetaInfo", none), (2, "FreshnessPeriod", some (nniEncode d.freshness))] ++
  (if d.final = none then [] else (2, "FinalBlockId", none) :: final) ++
  [(1, "Content", some d.content), (1, "SignatureInfo", none), (2, "SignatureType", some [t])] ++
  (if k = none then [] else (2, "KeyLocator", none) :: (3, "Name", none) :: key) ++
  [(1, "SignatureValue", some sig)]

def leafOf (c : Comp) : Tree := .mk c.type c.value []

def nameTree (n : Name) : Tree := .mk 7 (encodeComps n) (n.map leafOf)

private def metaTree (d : Data) : Tree :=
  .mk 20 (Block.encode ⟨25, nniEncode d.freshness⟩ ++
    (match d.final with
    | none => []
    | some c => Block.encode ⟨26, Block.encode ⟨c.type, c.value⟩⟩))
    (.mk 25 (nniEncode d.freshness) [] ::
      (match d.final with
      | none => []
      | some c => [.mk 26 (Block.encode ⟨c.type, c.value⟩) [leafOf c]]))

def sigTree (t : UInt8) (key : Option Name) : Tree :=
  .mk 22 (sigInfo t key) (.mk 27 [t] [] :: (match key with
    | none => []
    | some n => [.mk 28 (encodeName n) [nameTree n]]))

private def dataChildren (d : Data) (t : UInt8) (key : Option Name) (sig : Bytes) : List Tree :=
  [nameTree d.name, metaTree d, .mk 21 d.content [], sigTree t key, .mk 23 sig []]

def encodeTree (t : Tree) : Bytes := Block.encode ⟨t.type, t.value⟩

private def dataTree (d : Data) (t : UInt8) (key : Option Name) (sig : Bytes) : Tree :=
  .mk 6 ((dataChildren d t key sig).map encodeTree).flatten (dataChildren d t key sig)

theorem le_encode (b : Block) : b.value.length ≤ b.encode.length := by
  unfold Block.encode; simp; omega

theorem encodings_map : ∀ {l : List Tree}, (∀ t ∈ l, 1 ≤ t.type ∧ t.type < 2 ^ 32) →
    (l.map encodeTree).flatten.length < 2 ^ 64 → Encodings l (l.map encodeTree) := by
  intro l
  induction l with
  | nil => intro _ _; trivial
  | cons t l ih =>
    intro h hl
    rw [List.map_cons, List.flatten_cons, List.length_append] at hl
    have := le_encode ⟨t.type, t.value⟩
    unfold encodeTree at hl
    dsimp only at this
    exact ⟨isElement_encode (b := ⟨t.type, t.value⟩) ⟨(h t (by simp)).1, (h t (by simp)).2, by dsimp only; omega⟩,
      ih (fun x hx => h x (List.mem_cons_of_mem _ hx)) (by unfold encodeTree; omega)⟩

theorem known {t : Nat} {s : String} (h : ComponentType t s) : typeLabel t = s ∧ 1 ≤ t ∧ t < 2 ^ 32 := by
  cases h <;> refine ⟨by decide +kernel, ?_, ?_⟩ <;> decide

theorem tells_types {depth : Nat} {n : Name} {ls} (h : TellsName depth n ls) : ∀ c ∈ n, ∃ s, ComponentType c.type s := by
  induction h with
  | nil => intro c hc; cases hc
  | cons h1 _ ih =>
    intro c hc
    rcases List.mem_cons.mp hc with rfl | hc
    · exact ⟨_, h1⟩
    · exact ih c hc

theorem told_name {depth : Nat} {n : Name} {ls} (h : TellsName depth n ls) : ∀ br : List Bool, br.length + 1 = depth →
    (forestLines br (n.map leafOf)).map Line.told = ls := by
  induction h with
  | nil => intro br _; rfl
  | cons h1 h2 ih =>
    intro br hb
    rw [List.map_cons, forestLines, leafOf, Tree.lines, forestLines, List.map_append, List.map_cons, List.map_nil,
      ih br hb, List.singleton_append]
    congr 1
    simp only [Line.told, treeLine, length_printBranches, List.length_append, List.length_singleton, Tree.type, Tree.children,
      Tree.value, List.isEmpty_nil, if_true, hb, (known h1).1]

theorem told_lines (br : List Bool) (t : Nat) (v : Bytes) (cs : List Tree) :
    ((Tree.mk t v cs).lines br).map Line.told =
      (br.length, typeLabel t, if cs.isEmpty then some v else none) :: (forestLines br cs).map Line.told := by
  rw [Tree.lines, List.map_cons]
  simp only [Line.told, treeLine, length_printBranches, Tree.type, Tree.children, Tree.value]
  rfl

theorem told_forest (br : List Bool) (c : Tree) (cs : List Tree) : (forestLines br (c :: cs)).map Line.told =
    (c.lines (br ++ [!cs.isEmpty])).map Line.told ++ (forestLines br cs).map Line.told := by
  rw [forestLines, List.map_append]

private theorem fits_comps {o : Opts} {n : Name} (h : ∀ c ∈ n, NotElements o.keep c.value) : ∀ t ∈ n.map leafOf, Fits o t := by
  intro t ht
  obtain ⟨c, hc, rfl⟩ := List.mem_map.mp ht
  exact .leaf (Or.inr (h c hc))

theorem fits_name {o : Opts} {n : Name} (hn : n ≠ []) (ht : ∀ c ∈ n, 1 ≤ c.type ∧ c.type < 2 ^ 32)
    (hl : (encodeComps n).length ≤ 8800) (h : ∀ c ∈ n, NotElements o.keep c.value) : Fits o (nameTree n) := by
  refine .inner (es := (n.map leafOf).map encodeTree) ?_ (by simpa using hn) (encodings_map ?_ ?_) ?_ (fits_comps h)
  · rintro (h | h | ⟨h, _⟩) <;> cases h
  · intro t htt
    obtain ⟨c, hc, rfl⟩ := List.mem_map.mp htt
    exact ht c hc
  · have : ((n.map leafOf).map encodeTree).flatten = encodeComps n := by
      unfold encodeComps; rw [List.map_map]; rfl
    rw [this]; omega
  · unfold encodeComps; rw [List.map_map]; rfl

theorem short_notElements (keep : Bool) (x : UInt8) : NotElements keep [x] := by
  intro ts es rest he hts hv
  exfalso
  obtain ⟨t, ts, rfl⟩ := List.exists_cons_of_ne_nil hts
  cases es with
  | nil => cases he
  | cons e es =>
    obtain ⟨⟨_, _, a, b, h1, h2, rfl⟩, _⟩ := he
    have l1 := sizeOfVarNumber_le h1
    have l2 := sizeOfVarNumber_le h2
    have l3 : ∀ n, 1 ≤ sizeOfVarNumber n := by
      intro n; unfold sizeOfVarNumber; split <;> (try split) <;> (try split) <;> omega
    have l4 := l3 t.type
    have l5 := l3 t.value.length
    have := congrArg List.length hv
    simp at this
    omega

/-- **C83** For every Data packet that is not larger than packets may be, has a name with at least one component, all of types
known in NDN, a freshness period, perhaps a final block, and a signature with or without the name of a key,
ndn-dissect without `-c` reports no error and prints exactly the elements of the packet, each with its right name, at its depth, and the components, the
content and the other values as they are; provided that the values of the components and the number in the freshness
period do not happen to look like TLV elements themselves. -/
theorem C83_data_partial {o : Opts} (hc : o.dissectContent = false) {d : Data} {t : UInt8} {k : Option Name} {sig : Bytes}
    {name final key : List (Nat × String × Option Bytes)} (hn : d.name ≠ []) (hf : d.freshness ≠ 0)
    (h1 : TellsName 2 d.name name) (h2 : ∀ c ∈ d.final, TellsName 3 [c] final)
    (hk : ∀ n ∈ k, n ≠ []) (h3 : ∀ n ∈ k, TellsName 4 n key) (p4 : ∀ n ∈ k, ∀ c ∈ n, NotElements o.keep c.value)
    (p1 : ∀ c ∈ d.name, NotElements o.keep c.value) (p2 : NotElements o.keep (nniEncode d.freshness))
    (p3 : ∀ c ∈ d.final, NotElements o.keep c.value)
    (size : (encodeData ⟨sigInfo t k, sig⟩ d).length ≤ maxPacket) :
    (dissect o (encodeData ⟨sigInfo t k, sig⟩ d)).error = none ∧
    (dissect o (encodeData ⟨sigInfo t k, sig⟩ d)).out.map Line.told = dataTold name final key d t k sig := by
  have he : encodeData ⟨sigInfo t k, sig⟩ d = encodeTree (dataTree d t k sig) := by
    unfold encodeData encodeMeta encodeName dataTree dataChildren encodeTree nameTree metaTree sigTree
    rw [if_neg hf]
    simp only [Tree.type, Tree.value, List.map_cons, List.map_nil, List.flatten_cons, List.flatten_nil, List.append_nil,
      List.append_assoc]
    cases d.final <;> rfl
  rw [he] at size ⊢
  have hlen : ((dataChildren d t k sig).map encodeTree).flatten.length ≤ maxPacket :=
    le_trans (le_encode ⟨6, _⟩) size
  unfold maxPacket at hlen
  have hsmall : Small [dataTree d t k sig] := by
    intro t ht
    rw [List.mem_singleton.mp ht, ← length_encode]
    exact size
  have hname : (encodeComps d.name).length ≤ 8800 ∧ (metaTree d).value.length ≤ 8800 ∧
      (sigTree t k).value.length ≤ 8800 := by
    clear size
    unfold dataChildren encodeTree at hlen
    simp only [List.map_cons, List.map_nil, List.flatten_cons, List.length_append, List.flatten_nil, List.append_nil] at hlen
    have a := le_encode ⟨(nameTree d.name).type, (nameTree d.name).value⟩
    have b := le_encode ⟨(metaTree d).type, (metaTree d).value⟩
    have c := le_encode ⟨(sigTree t k).type, (sigTree t k).value⟩
    have : (nameTree d.name).value.length = (encodeComps d.name).length := rfl
    dsimp only at a b c
    exact ⟨by omega, by omega, by omega⟩
  have tcomp : ∀ c ∈ d.name, 1 ≤ c.type ∧ c.type < 2 ^ 32 := by
    intro c hc
    obtain ⟨s, hs⟩ := tells_types h1 c hc
    exact (known hs).2
  have tfin : ∀ c ∈ d.final, 1 ≤ c.type ∧ c.type < 2 ^ 32 := by
    intro c hc
    obtain ⟨s, hs⟩ := tells_types (h2 c hc) c (by simp)
    exact (known hs).2
  have fname : Fits o (nameTree d.name) := fits_name hn tcomp hname.1 p1
  have fsig : Fits o (sigTree t k) := by
    have hlen2 := hname.2.2
    unfold sigTree sigInfo at hlen2 ⊢
    cases k with
    | none =>
      refine .inner (es := [[0x1b, 1, t]]) ?_ (by simp) ?_ (by simp) ?_
      · rintro (h | h | ⟨h, _⟩) <;> cases h
      · exact encodings_map (l := [.mk 27 [t] []]) (by intro t ht; rw [List.mem_singleton.mp ht]; exact ⟨by simp [Tree.type], by simp [Tree.type]⟩)
          (by simp [encodeTree, Tree.type, Tree.value, Block.encode, writeVarNumber])
      · intro t ht; rw [List.mem_singleton.mp ht]; exact .leaf (Or.inr (short_notElements _ _))
    | some n =>
      simp only [Tree.value, List.length_append] at hlen2
      have hle := le_encode ⟨28, encodeName n⟩
      have hle' := le_encode ⟨7, encodeComps n⟩
      have hen : encodeName n = Block.encode ⟨7, encodeComps n⟩ := rfl
      rw [← hen] at hle'
      dsimp only at hle hle'
      refine .inner (es := [[0x1b, 1, t], Block.encode ⟨28, encodeName n⟩]) ?_ (by simp) ?_ (by simp) ?_
      · rintro (h | h | ⟨h, _⟩) <;> cases h
      · refine encodings_map (l := [.mk 27 [t] [], .mk 28 (encodeName n) [nameTree n]]) ?_ ?_
        · intro t ht
          rcases List.mem_cons.mp ht with rfl | ht
          · exact ⟨by simp [Tree.type], by simp [Tree.type]⟩
          · rw [List.mem_singleton.mp ht]; exact ⟨by simp [Tree.type], by simp [Tree.type]⟩
        · have : encodeTree (.mk 27 [t] []) = [0x1b, 1, t] := by simp [encodeTree, Tree.type, Tree.value, Block.encode, writeVarNumber]
          simp only [List.map_cons, List.map_nil, this, List.flatten_cons, List.flatten_nil, List.append_nil, List.length_append]
          simp only [encodeTree, Tree.type, Tree.value]
          omega
      · intro t ht
        rcases List.mem_cons.mp ht with rfl | ht
        · exact .leaf (Or.inr (short_notElements _ _))
        · rw [List.mem_singleton.mp ht]
          refine .inner (es := [encodeName n]) ?_ (by simp) ?_ (by simp) ?_
          · rintro (h | h | ⟨h, _⟩) <;> cases h
          · refine encodings_map (l := [nameTree n]) ?_ ?_
            · intro t ht; rw [List.mem_singleton.mp ht]; exact ⟨by simp [Tree.type, nameTree], by simp [Tree.type, nameTree]⟩
            · have : encodeTree (nameTree n) = encodeName n := rfl
              simp only [List.map_cons, List.map_nil, this, List.flatten_cons, List.flatten_nil, List.append_nil]
              omega
          · intro t ht
            rw [List.mem_singleton.mp ht]
            refine fits_name (hk n rfl) ?_ (by omega) (p4 n rfl)
            intro c hc
            obtain ⟨s, hs⟩ := tells_types (h3 n rfl) c hc
            exact (known hs).2
  have fmeta : Fits o (metaTree d) := by
    have hlen2 := hname.2.1
    unfold metaTree at hlen2 ⊢
    cases hfin : d.final with
    | none =>
      rw [hfin] at hlen2
      simp only [Tree.value, List.append_nil] at hlen2
      refine .inner (es := [Block.encode ⟨25, nniEncode d.freshness⟩]) ?_ (by simp) ?_ (by simp) ?_
      · rintro (h | h | ⟨h, _⟩) <;> cases h
      · refine encodings_map (l := [.mk 25 (nniEncode d.freshness) []]) ?_ ?_
        · intro t ht; rw [List.mem_singleton.mp ht]; exact ⟨by simp [Tree.type], by simp [Tree.type]⟩
        · simp only [List.map_cons, List.map_nil, encodeTree, Tree.type, Tree.value, List.flatten_cons, List.flatten_nil, List.append_nil]
          omega
      · intro t ht; rw [List.mem_singleton.mp ht]; exact .leaf (Or.inr p2)
    | some c =>
      rw [hfin] at hlen2
      simp only [Tree.value, List.length_append] at hlen2
      have hle := le_encode ⟨26, Block.encode ⟨c.type, c.value⟩⟩
      have hcf := tfin c (by rw [hfin]; rfl)
      dsimp only at hle
      refine .inner (es := [Block.encode ⟨25, nniEncode d.freshness⟩, Block.encode ⟨26, Block.encode ⟨c.type, c.value⟩⟩]) ?_ (by simp) ?_ (by simp) ?_
      · rintro (h | h | ⟨h, _⟩) <;> cases h
      · refine encodings_map (l := [.mk 25 (nniEncode d.freshness) [], .mk 26 (Block.encode ⟨c.type, c.value⟩) [leafOf c]]) ?_ ?_
        · intro t ht
          rcases List.mem_cons.mp ht with rfl | ht
          · exact ⟨by simp [Tree.type], by simp [Tree.type]⟩
          · rw [List.mem_singleton.mp ht]; exact ⟨by simp [Tree.type], by simp [Tree.type]⟩
        · simp only [List.map_cons, List.map_nil, encodeTree, Tree.type, Tree.value, List.flatten_cons, List.flatten_nil,
            List.append_nil, List.length_append]
          omega
      · intro t ht
        rcases List.mem_cons.mp ht with rfl | ht
        · exact .leaf (Or.inr p2)
        · rw [List.mem_singleton.mp ht]
          refine .inner (es := [Block.encode ⟨c.type, c.value⟩]) ?_ (by simp) ?_ (by simp) ?_
          · rintro (h | h | ⟨h, _⟩) <;> cases h
          · refine encodings_map (l := [leafOf c]) ?_ ?_
            · intro t ht; rw [List.mem_singleton.mp ht]; exact hcf
            · simp only [List.map_cons, List.map_nil, encodeTree, leafOf, Tree.type, Tree.value, List.flatten_cons, List.flatten_nil,
                List.append_nil]
              omega
          · intro t ht; rw [List.mem_singleton.mp ht]; exact .leaf (Or.inr (p3 c (by rw [hfin]; rfl)))
  have fdata : Fits o (dataTree d t k sig) := by
    refine .inner (es := (dataChildren d t k sig).map encodeTree) ?_ (by simp [dataChildren]) (encodings_map ?_ (by omega)) rfl ?_
    · rintro (h | h | ⟨h, _⟩) <;> cases h
    · intro t ht
      simp only [dataChildren, List.mem_cons, List.not_mem_nil, or_false] at ht
      rcases ht with rfl | rfl | rfl | rfl | rfl <;> exact ⟨by simp [nameTree, metaTree, sigTree, Tree.type], by simp [nameTree, metaTree, sigTree, Tree.type]⟩
    · intro t ht
      simp only [dataChildren, List.mem_cons, List.not_mem_nil, or_false] at ht
      rcases ht with rfl | rfl | rfl | rfl | rfl
      · exact fname
      · exact fmeta
      · exact .leaf (Or.inl (Or.inr (Or.inr ⟨rfl, hc⟩)))
      · exact fsig
      · exact .leaf (Or.inl (Or.inl rfl))
  have henc : Encodings [dataTree d t k sig] [encodeTree (dataTree d t k sig)] :=
    encodings_map (l := [dataTree d t k sig]) (by intro t ht; rw [List.mem_singleton.mp ht]; exact ⟨by simp [Tree.type, dataTree], by simp [Tree.type, dataTree]⟩) (by
      rw [List.map_singleton, List.flatten_singleton]; unfold maxPacket at size; omega)
  obtain ⟨r1, r2⟩ := C41_lines_partial henc hsmall (by intro t ht; rw [List.mem_singleton.mp ht]; exact fdata)
  rw [List.flatten_singleton] at r1 r2
  refine ⟨r1, ?_⟩
  rw [r2.unique (shows_topLines _)]
  have l6 : typeLabel 6 = "Data" := by decide +kernel
  have l7 : typeLabel 7 = "Name" := by decide +kernel
  have l20 : typeLabel 20 = "MetaInfo" := by decide +kernel
  have l21 : typeLabel 21 = "Content" := by decide +kernel
  have l22 : typeLabel 22 = "SignatureInfo" := by decide +kernel
  have l23 : typeLabel 23 = "SignatureValue" := by decide +kernel
  have l25 : typeLabel 25 = "FreshnessPeriod" := by decide +kernel
  have l26 : typeLabel 26 = "FinalBlockId" := by decide +kernel
  have l27 : typeLabel 27 = "SignatureType" := by decide +kernel
  have hne : (d.name.map leafOf).isEmpty = false := by simpa using hn
  have tn := told_name h1
  unfold topLines dataTree dataChildren dataTold nameTree metaTree
  rw [List.flatMap_cons, List.flatMap_nil, List.append_nil]
  have fnil : ∀ br, (forestLines br []).map Line.told = [] := fun br => rfl
  have l28 : typeLabel 28 = "KeyLocator" := by decide +kernel
  have tsig : ((sigTree t k).lines [true]).map Line.told =
      [(1, "SignatureInfo", none), (2, "SignatureType", some [t])] ++
      (if k = none then [] else (2, "KeyLocator", none) :: (3, "Name", none) :: key) := by
    unfold sigTree
    cases k with
    | none => simp [told_lines, told_forest, fnil, l22, l27]
    | some n =>
      have hn' : (n.map leafOf).isEmpty = false := by simpa using hk n rfl
      simp only [told_lines, told_forest, fnil, nameTree, hn', l22, l27, l28, l7, List.isEmpty_cons, List.isEmpty_nil,
        List.cons_append, List.nil_append, List.append_nil, Bool.not_false, Bool.not_true, if_true, Bool.false_eq_true, if_false]
      rw [told_name (h3 n rfl) _ rfl]
      simp
  cases hfin : d.final with
  | none =>
    simp only [told_lines, told_forest, fnil, hne, List.nil_append, List.length_nil, List.length_singleton,
      l6, l7, l20, l21, l23, l25, List.isEmpty_cons, List.isEmpty_nil, if_true, if_false, Bool.false_eq_true,
      List.append_nil, List.cons_append, Bool.not_false, tsig]
    rw [tn _ rfl]
    simp
  | some c =>
    have tc := told_name (h2 c (by rw [hfin]; rfl)) [true, false] rfl
    rw [List.map_cons, List.map_nil, told_forest, fnil, List.append_nil] at tc
    simp only [told_lines, told_forest, fnil, hne, List.nil_append, List.length_nil, List.length_singleton,
      l6, l7, l20, l21, l23, l25, l26, List.isEmpty_cons, List.isEmpty_nil, if_true, if_false, Bool.false_eq_true,
      List.append_nil, List.cons_append, Bool.not_false, Bool.not_true, tsig]
    rw [tn _ rfl]
    simpa using tc

/-- A value that does not start with an element is not a sequence of elements. -/
theorem notElements_of_error {keep : Bool} {v : Bytes} (h : ∀ x, readBlock v ≠ .ok x) : NotElements keep v := by
  intro ts es rest he hts hv
  exfalso
  obtain ⟨t, ts, rfl⟩ := List.exists_cons_of_ne_nil hts
  cases es with
  | nil => cases he
  | cons e es =>
    refine h (⟨t.type, t.value⟩, es.flatten ++ rest) ((readBlock_iff _ _ _).mpr ?_)
    rw [hv, List.flatten_cons, List.append_assoc]
    exact ⟨e, he.1, rfl⟩

/-- **C83 (segments)** What ndnputchunks publishes: names with the typed convention and the default freshness period, at most
256 segments. If the components of the prefix are of known types and none of them looks like a TLV element, then every
packet is shown exactly, with its number in a line `SegmentNameComponent` and the last number in one below
`FinalBlockId`. -/
theorem C83_segments_partial {o : Opts} (hc : o.dissectContent = false) {po : Producer.Opts} (hconv : po.conv = .typed)
    (hfr : po.freshness = 10000) {vp : Name} {input : Bytes} {vpTold : List (Nat × String × Option Bytes)}
    (hvp : TellsName 2 vp vpTold) (pvp : ∀ c ∈ vp, ∀ x, readBlock c.value ≠ .ok x)
    (hlen : (Producer.split po.maxSegmentSize input).length ≤ 256) {t : UInt8} {sig : Data → Bytes} {j : Nat} {d : Data}
    (hd : (Producer.makeStore po vp input)[j]? = some d)
    (size : (encodeData ⟨sigInfo t none, sig d⟩ d).length ≤ maxPacket) :
    (dissect o (encodeData ⟨sigInfo t none, sig d⟩ d)).out.map Line.told =
      dataTold (vpTold ++ [(2, "SegmentNameComponent", some [UInt8.ofNat j])])
        [(3, "SegmentNameComponent", some [UInt8.ofNat ((Producer.split po.maxSegmentSize input).length - 1)])] [] d t none (sig d) := by
  unfold Producer.makeStore at hd
  dsimp only at hd
  rw [List.getElem?_map, List.getElem?_zipIdx] at hd
  cases hcs : (Producer.split po.maxSegmentSize input)[j]? with
  | none => rw [hcs] at hd; cases hd
  | some cont =>
    rw [hcs] at hd
    have hj : j < (Producer.split po.maxSegmentSize input).length := (List.getElem?_eq_some_iff.mp hcs).1
    generalize (Producer.split po.maxSegmentSize input).length = len at hlen hj hd ⊢
    have one : ∀ n, n < 256 → Comp.fromSegment po.conv n = ⟨50, [UInt8.ofNat n]⟩ := by
      intro n hn
      rw [hconv]
      unfold Comp.fromSegment Comp.encode
      simp only [ttSegment]
      unfold nniEncode
      rw [if_pos (by omega)]
      simp [beBytes, Nat.mod_eq_of_lt hn]
    simp only [Option.map_some, Option.some.injEq, Nat.zero_add] at hd
    subst hd
    rw [one j (by omega), one (len - 1) (by omega), hfr] at size ⊢
    have sn : ∀ (x : UInt8) (y), readBlock [x] ≠ .ok y := by
      intro x y h
      obtain ⟨y, r⟩ := y
      have h2 := readBlock_shorter h
      have h3 : r = [] := List.length_eq_zero_iff.mp (by simpa using h2)
      subst h3
      obtain ⟨e, he, hx⟩ := (readBlock_iff _ _ _).mp h
      have := short_notElements true x [.mk y.type y.value []] [e] [] ⟨he, trivial⟩ (by simp) (by simpa using hx)
      exact this.1 rfl
    refine (C83_data_partial (name := vpTold ++ [(2, "SegmentNameComponent", some [UInt8.ofNat j])])
      (final := [(3, "SegmentNameComponent", some [UInt8.ofNat (len - 1)])]) (key := []) hc (by simp) (by simp) ?_ ?_ ?_ ?_ ?_ ?_ ?_ ?_ size).2
    · clear * - hvp
      dsimp only
      induction hvp with
      | nil => exact .cons .segment .nil
      | cons h1 _ ih => exact .cons h1 ih
    · intro c hc
      cases hc
      exact .cons .segment .nil
    · intro n hn; cases hn
    · intro n hn; cases hn
    · intro n hn; cases hn
    · intro c hc
      rcases List.mem_append.mp hc with hc | hc
      · exact notElements_of_error (pvp c hc)
      · rw [List.mem_singleton.mp hc]
        exact notElements_of_error (sn _)
    · refine notElements_of_error ?_
      have : readBlock (nniEncode 10000) = .error .value := by decide +kernel
      intro x hx
      dsimp only at hx
      rw [this] at hx
      cases hx
    · intro c hc
      cases hc
      exact notElements_of_error (sn _)

/-- Segment 256 of a transfer of 257 bytes, one byte in each segment. -/
private def exSegment : Data :=
  { name := [⟨8, [0x41]⟩, ⟨54, [7]⟩, ⟨50, [1, 0]⟩]
    content := [0x78]
    final := some ⟨50, [1, 0]⟩
    freshness := 10000 }

/-- **C83 (refuted)** Without the limit on the number of segments: the number of segment 256 is encoded as `01 00`, which is also
the encoding of an element of type 1 without value. ndn-dissect shows an ImplicitSha256DigestComponent inside the
SegmentNameComponent, and the number is not shown. -/
theorem C83_segments_refuted : ∃ (po : Producer.Opts) (vp : Name) (input : Bytes) (d : Data) (told : List (Nat × String × Option Bytes)),
    po.conv = .typed ∧ po.freshness = 10000 ∧ vp = [⟨8, [0x41]⟩, .fromVersion .typed 7] ∧
    (Producer.makeStore po vp input)[256]? = some d ∧ d.name = vp ++ [.fromSegment .typed 256] ∧
    (∀ keep, (dissect ⟨false, keep⟩ (encodeData ⟨sigInfo 0 none, List.replicate 32 0⟩ d)).out.map Line.told = told) ∧
    (2, "SegmentNameComponent", none) ∈ told ∧ (3, "ImplicitSha256DigestComponent", some []) ∈ told ∧
    ¬ ∃ depth, (depth, "SegmentNameComponent", some (nniEncode 256)) ∈ told := by
  refine ⟨{ maxSegmentSize := 1 }, [⟨8, [0x41]⟩, ⟨54, [7]⟩], List.replicate 257 0x78, exSegment,
    (dissect ⟨false, true⟩ (encodeData ⟨sigInfo 0 none, List.replicate 32 0⟩ exSegment)).out.map Line.told,
    rfl, rfl, by decide +kernel, by decide +kernel, by decide +kernel, ?_, by decide +kernel, by decide +kernel, ?_⟩
  · intro keep
    cases keep <;> decide +kernel
  · have : ∀ x ∈ (dissect ⟨false, true⟩ (encodeData ⟨sigInfo 0 none, List.replicate 32 0⟩ exSegment)).out.map Line.told,
        x.2 ≠ ("SegmentNameComponent", some (nniEncode 256)) := by decide +kernel
    rintro ⟨depth, h⟩
    exact this _ h rfl

/-- Beside C83: a packet of a transfer of two segments, with the name of a key. -/
private def exData : Data :=
  { name := [⟨8, [0x41]⟩, ⟨54, [7]⟩, ⟨50, [0]⟩]
    content := [8, 1, 65]
    final := some ⟨50, [1]⟩
    freshness := 10000 }

example : exData ∈ Producer.makeStore { maxSegmentSize := 3 } [⟨8, [0x41]⟩, .fromVersion .typed 7] [8, 1, 65, 66] := by decide +kernel

example : TellsName 2 exData.name [(2, "GenericNameComponent", some [0x41]), (2, "VersionNameComponent", some [7]), (2, "SegmentNameComponent", some [0])] ∧
    (∀ c ∈ exData.name, NotElements true c.value) ∧ NotElements true (nniEncode exData.freshness) ∧
    (encodeData ⟨sigInfo 3 (some [⟨8, [0x4b]⟩]), [1, 2, 3]⟩ exData).length ≤ maxPacket := by
  refine ⟨.cons .generic (.cons .version (.cons .segment .nil)), ?_, ?_, by decide +kernel⟩
  · intro c hc
    simp only [exData, List.mem_cons, List.not_mem_nil, or_false] at hc
    rcases hc with rfl | rfl | rfl <;> exact short_notElements _ _
  · refine notElements_of_error ?_
    have : readBlock (nniEncode exData.freshness) = .error .value := by decide +kernel
    intro x hx
    rw [this] at hx
    cases hx

example : (dissect {} (encodeData ⟨sigInfo 3 (some [⟨8, [0x4b]⟩]), [1, 2, 3]⟩ exData)).out.map Line.text =
    ["6 (Data) (size: 44)\n",
     "├─7 (Name) (size: 9)\n",
     "│ ├─8 (GenericNameComponent) (size: 1) [[A]]\n",
     "│ ├─54 (VersionNameComponent) (size: 1) [[%07]]\n",
     "│ └─50 (SegmentNameComponent) (size: 1) [[%00]]\n",
     "├─20 (MetaInfo) (size: 9)\n",
     "│ ├─25 (FreshnessPeriod) (size: 2) [[%27%10]]\n",
     "│ └─26 (FinalBlockId) (size: 3)\n",
     "│   └─50 (SegmentNameComponent) (size: 1) [[%01]]\n",
     "├─21 (Content) (size: 3) [[%08%01A]]\n",
     "├─22 (SignatureInfo) (size: 10)\n",
     "│ ├─27 (SignatureType) (size: 1) [[%03]]\n",
     "│ └─28 (KeyLocator) (size: 5)\n",
     "│   └─7 (Name) (size: 3)\n",
     "│     └─8 (GenericNameComponent) (size: 1) [[K]]\n",
     "└─23 (SignatureValue) (size: 3) [[%01%02%03]]\n"].map (fun s : String => s.toByteArray.data.toList) := by
  decide +kernel

/-- **C61 (agreement with the other dissector)** For every type that both ndn-dissect and the Wireshark dissector know, they use the
same name. Those that only the Wireshark dissector knows are the ones of the link protocol, with the names assigned there; ndn-dissect
calls all of them `RESERVED`. -/
theorem C61_agreement (n : Nat) (i : Wireshark.Info) (h : Wireshark.ndnDict.lookup n = some i) :
    (typeLabel n = i.name ∧ n < 80) ∨ (typeLabel n = "RESERVED" ∧ (n, i.name) ∈ assignedLink) := by
  have hm : ∀ (l : List (Nat × Wireshark.Info)), l.lookup n = some i → (n, i) ∈ l := by
    intro l
    induction l with
    | nil => intro h; cases h
    | cons p l ih =>
      intro h
      obtain ⟨a, b⟩ := p
      rw [List.lookup_cons] at h
      by_cases e : n = a
      · subst e; simp at h; subst h; simp
      · have : (n == a) = false := by simpa using e
        rw [this] at h
        exact List.mem_cons_of_mem _ (ih h)
  have all : ∀ x ∈ Wireshark.ndnDict, (typeLabel x.1 = x.2.name ∧ x.1 < 80) ∨
      (typeLabel x.1 = "RESERVED" ∧ (x.1, x.2.name) ∈ assignedLink) := by
    decide +kernel
  exact all _ (hm _ h)

/-- **C61 (the link protocol)** The Wireshark dissector knows all of these types by their assigned names. -/
theorem C61_link {n : Nat} {name : String} (h : (n, name) ∈ assignedLink) :
    ∃ i, Wireshark.ndnDict.lookup n = some i ∧ i.name = name := by
  have all : ∀ x ∈ assignedLink, (Wireshark.ndnDict.lookup x.1).map (·.name) = some x.2 := by decide +kernel
  exact Option.map_eq_some_iff.mp (all _ h)

example : Wireshark.ndnDict.lookup 26 = some ⟨"FinalBlockId", some .string, some .finalBlockId⟩ := by decide +kernel

/-- **C60 (readable values)** A letter, a digit and each of `-`, `.`, `_` and `~` is printed as itself; every other byte as a percent
sign and its value in two upper-case hexadecimal digits. -/
theorem C60_escape (b : UInt8) : ∃ h l : Fin 16,
    b.toNat = 16 * h.val + l.val ∧
    escapeByte b =
      if b ∈ text "ABCDEFGHIJKLMNOPQRSTUVWXYZabcdefghijklmnopqrstuvwxyz0123456789-._~" then [b]
      else 37 :: [(text "0123456789ABCDEF")[h.val]!, (text "0123456789ABCDEF")[l.val]!] := by
  have all : ∀ n : Fin 256, escapeByte (UInt8.ofNat n) =
      if UInt8.ofNat n ∈ text "ABCDEFGHIJKLMNOPQRSTUVWXYZabcdefghijklmnopqrstuvwxyz0123456789-._~" then [UInt8.ofNat n]
      else 37 :: [(text "0123456789ABCDEF")[n.val / 16]!, (text "0123456789ABCDEF")[n.val % 16]!] := by decide +kernel
  have := all ⟨b.toNat, b.toNat_lt⟩
  rw [UInt8.ofNat_toNat] at this
  have hb := b.toNat_lt
  exact ⟨⟨b.toNat / 16, by omega⟩, ⟨b.toNat % 16, by omega⟩, by dsimp only; omega, this⟩

example : escapeByte 0x7e = [0x7e] ∧ escapeByte 0xab = text "%AB" := by decide +kernel

end Verif.Dissect
