import Verif.Proofs.Uri
import Verif.Proofs.DumpAlike
import Verif.Proofs.WiresharkCols
import Verif.Props.Transfer
import Verif.Props.Wireshark

/-! # Names that the tools print can be given back to them -/

namespace Verif.Uri

open DumpText

/-! ## C99: Names that the tools print can be given back to them

"The text that the tools print for a name, with or without `ndn:` before it, is read as this name when it is given on a command
line, provided that components that stand for numbers are in the shortest form. The same holds for the text that the Wireshark
dissector shows, in every form. The text of a name and the line that `ndnputchunks -p` prints, with a slash between them, is the
versioned name of the object; given to ndncatchunks it makes it fetch this object." -/

/-- **C99, printed names.** `nameText` is what ndndump, ndnping, ndnpingserver, ndnputchunks and ndnpeek print. -/
theorem C99_printed {n : Name} (h : Valid n) (hm : Minimal n) :
    parseName (nameText n) = some n ∧ parseName (text "ndn:" ++ nameText n) = some n := by
  refine ⟨parse_nameText h hm, ?_⟩
  have e : text "ndn:" = [110, 100, 110, 58] := by decide +kernel
  have hd : ∀ s, dropScheme (nameText n) = nameText n → dropScheme (s ++ nameText n) = nameText n →
      parseName (s ++ nameText n) = some n := by
    intro s h1 h2
    have := parse_nameText h hm
    unfold parseName at this ⊢
    rw [h1] at this
    rw [h2]
    exact this
  have hs : ∃ r, nameText n = 47 :: r := by
    unfold nameText
    split
    · exact ⟨[], by decide +kernel⟩
    · cases n with
      | nil => contradiction
      | cons c n => exact ⟨_, rfl⟩
  obtain ⟨r, hr⟩ := hs
  refine hd _ ?_ ?_
  · rw [hr]; exact dropScheme_append [] r
  · rw [e, hr, dropScheme_append]; rfl

/-- **C99, typed names.** Texts without special characters, after slashes, are read as generic components with these texts. -/
theorem C99_typed {ws : List Bytes} (h : ∀ w ∈ ws, Typed w) :
    parseName (ws.flatMap (47 :: ·)) = some (ws.map (⟨8, ·⟩)) := by
  have := (parseName_texts (f := Comp.value) (n := ws.map fun w => ⟨8, w⟩) ?_ ?_ ?_).1
  · rw [List.flatMap_map] at this
    exact this
  all_goals
    intro c hc
    obtain ⟨w, hw, rfl⟩ := List.mem_map.mp hc
  · obtain ⟨⟨b, hb, -⟩, -⟩ := h w hw
    exact List.ne_nil_of_mem hb
  · exact (h w hw).2.1
  · exact parse_typedWord (h w hw)

example : Typed (text "localhop:1") := by
  refine ⟨by decide +kernel, by decide +kernel, by decide +kernel, fun a x y r e => ?_⟩
  have h1 : (37 : UInt8) ∉ text "localhop:1" := by decide +kernel
  rw [e] at h1
  exact absurd (List.mem_append_right a List.mem_cons_self) h1

/-- `/a%zz/100%`: a percent sign without two hexadecimal digits stays. -/
example : parseName (text "/a%zz/100%") = some [⟨8, text "a%zz"⟩, ⟨8, text "100%"⟩] := by decide +kernel

/-- **C99, accepted names.** Every text that is accepted as a name gives a name of NDN; so the text that is printed for it is
accepted, and for the same name if its numbers are in the shortest form. -/
theorem C99_accepted {s : Bytes} {n : Name} (h : parseName s = some n) :
    Valid n ∧ (Minimal n → parseName (nameText n) = some n) := by
  have hv : Valid n := by
    intro c hc
    obtain ⟨w, hw⟩ := mapM_mem h c hc
    exact parseComp_valid hw
  exact ⟨hv, fun hm => parse_nameText hv hm⟩

/-- **C99, all names.** The text that is printed for a name is read as a name that differs from it at most in the width of numbers,
and as this name exactly if its numbers are in the shortest form. -/
theorem C99_all {n : Name} (h : Valid n) :
    (∃ m, parseName (nameText n) = some m ∧ NameAlike n m ∧ Minimal m) ∧ (parseName (nameText n) = some n ↔ Minimal n) := by
  have hv : Valid (n.map shortComp) := by
    intro d hd
    obtain ⟨c, hc, rfl⟩ := List.mem_map.mp hd
    obtain ⟨h1, h2, h3⟩ := h c hc
    rw [shortComp_type]
    refine ⟨h1, h2, fun h4 => ?_⟩
    unfold shortComp
    rw [if_neg]
    · exact h3 h4
    · rintro ⟨h5, -⟩
      simp only [List.mem_cons, List.not_mem_nil, or_false] at h5
      omega
  have e := parse_nameText hv (shortComp_minimal n)
  rw [short_text] at e
  have hm := shortComp_minimal n
  have same : NameAlike n (n.map shortComp) := short_eq.mp (by
    have := shortComp_minimal (n.map shortComp)
    exact (nameText_inj (r := []) (s := []) hm this (.inl rfl) (.inl rfl) (by simp only [short_text])).1)
  refine ⟨⟨_, e, same, hm⟩, fun h' => ?_, fun h' => parse_nameText h h'⟩
  rw [e, Option.some.injEq] at h'
  rw [← h']
  exact hm

example : Valid [⟨8, [97]⟩, ⟨50, [0, 5]⟩] ∧ ¬ Minimal [⟨8, [97]⟩, ⟨50, [0, 5]⟩] := by
  constructor
  · intro c hc
    simp only [List.mem_cons, List.not_mem_nil, or_false] at hc
    rcases hc with rfl | rfl <;> simp
  · intro h
    exact absurd (h ⟨50, [0, 5]⟩ (by simp) (by decide) (by decide)) (by decide)

open Wireshark Wireshark.Spec in
/-- **C99, Wireshark.** The text that the dissector shows for a name is read as this name, whatever the form of its
numbers. -/
theorem C99_wireshark {tvb : Bytes} {k : Nat} {t x : Tree} (ht : t ∈ Result.shown (dissector tvb k)) (hx : Inside t x)
    (h7 : HasType x 7) (hp : x.parsed = true) (hv : Valid (x.elements.map fun y => component tvb y.block)) :
    ∃ s, x.value = some (.text s) ∧ parseName s = some (x.elements.map fun y => component tvb y.block) := by
  have g := (dissector_shown ht).2.2.2
  obtain ⟨s, h1, h2, -⟩ := (g x hx).name_value h7 (fun y hy => g y (inside_trans hx (.child hy (.self _))))
  exact ⟨s, h1, by rw [h2 hp]; exact parse_uri hv⟩

/-- **C99, the line of `ndnputchunks -p`.** `pre` is the text of the prefix on its command line, without a slash at the end. The
program prints one line; the prefix, a slash and this line are the versioned name, if the prefix has no version itself. -/
theorem C99_version {v : PutView} {o : Producer.Opts} {pre : Bytes} {n : Name} {now : Nat} {input : Bytes}
    (hn : now < 2 ^ 64) (hv : v.wantShowVersion = true) (hp : parseName pre = some n) (hs : pre.getLast? ≠ some 47)
    (hver : n.endsWithVersion = false) :
    ∃ l, putOut v (Producer.construct o n now input) = some (l ++ [10]) ∧ 10 ∉ l ∧
      parseName (pre ++ 47 :: l) = some (Producer.construct o n now input).versionedPrefix ∧
      (Producer.construct o n now input).versionedPrefix = n ++ [.fromVersion o.conv now] := by
  have e : (Producer.construct o n now input).versionedPrefix = n ++ [.fromVersion o.conv now] := by
    simp [Producer.construct, hver]
  refine ⟨compText (.fromVersion o.conv now), ?_, ?_, ?_, e⟩
  · unfold putOut
    rw [if_pos hv, e]
    simp
  · intro h
    have := List.all_eq_true.mp (compText_all _) 10 h
    revert this
    decide
  · rw [parseName_append hs (compText_ne _) (compText_slash _) (parse_compText (version_valid _ _) (version_minimal _ hn)), hp, e]
    rfl

/-- **C99, the message of ndnputchunks.** Unless the program is quiet it says under which name it published how many packets:
the name can be read back from the message. -/
theorem C99_published {v : PutView} {o : Producer.Opts} {pre : Bytes} {n : Name} {now : Nat} {input : Bytes}
    (hn : now < 2 ^ 64) (hq : v.isQuiet = false) (hp : parseName pre = some n) (hm : Minimal n) :
    ∃ a u, putErr v (Producer.construct o n now input) =
        text "Loading input ...\nPublished " ++ decimal (Producer.construct o n now input).store.length ++ a ++
          text " with prefix " ++ u ++ [10] ∧
      (a = text " Data packet" ∨ a = text " Data packets") ∧
      parseName u = some (Producer.construct o n now input).versionedPrefix := by
  have hv := (C99_accepted hp).1
  have h1 : Valid (Producer.construct o n now input).versionedPrefix ∧
      Minimal (Producer.construct o n now input).versionedPrefix := by
    unfold Producer.construct
    dsimp only
    split
    · exact ⟨hv, hm⟩
    · constructor
      · intro c hc
        rcases List.mem_append.mp hc with hc | hc
        · exact hv c hc
        · exact version_valid o.conv now c hc
      · intro c hc
        rcases List.mem_append.mp hc with hc | hc
        · exact hm c hc
        · exact version_minimal o.conv hn c hc
  refine ⟨text " Data packet" ++ (if (Producer.construct o n now input).store.length > 1 then text "s" else []),
    nameText (Producer.construct o n now input).versionedPrefix, ?_, ?_, parse_nameText h1.1 h1.2⟩
  · unfold putErr
    rw [if_neg (by simp [hq])]
    have e1 : text "Loading input ...\nPublished " = text "Loading input ...\n" ++ text "Published " := by decide +kernel
    have e2 : text "\n" = [10] := by decide +kernel
    rw [e1, e2]
    simp only [List.append_assoc]
  · split
    · right; decide +kernel
    · left; decide +kernel

open Cli Cli.Spec Transfer Catchunks Transfer.Spec in
/-- **C99, from one command line to the other.** ndnputchunks was started with `-p` and a prefix without version; ndncatchunks is
started with the prefix, a slash and the line that ndnputchunks printed. Over a network that does not lose too much it can only
end with status 0 and the whole input, and can always go on to do so; the version is not looked for. -/
theorem C99_transfer {lib lib' : Lib} (hlib : ∀ s, lib.name s = parseName (utf8 s)) (hlib' : ∀ s, lib'.name s = parseName (utf8 s))
    {digest : Data → Bytes} {pa : PutArgs} {pre0 : Name} {po : Producer.Opts} {now : Nat}
    {input : Bytes} (hn : now < 2 ^ 64) (hi : input.length < 2 ^ 64) (hput : putchunks lib' (some pa) = .run (pre0, po))
    (hver : pre0.endsWithVersion = false) (hslash : (utf8 pa.pre).getLast? ≠ some 47)
    {v : PutView} (hv : v.wantShowVersion = true) {l : Bytes}
    (hl : putOut v (Producer.construct po pre0 now input) = some (l ++ [10]))
    {a : CatArgs} {o : CatOpts} (hcat : catchunks lib (some a) = .run o) (hpre : utf8 a.pre = utf8 pa.pre ++ 47 :: l)
    (hconv : ∀ c, Spelling a.nameConv c ↔ Spelling pa.nameConv c)
    (hfresh : a.fresh = true → 0 < pa.freshness) :
    o.pre = (Producer.construct po pre0 now input).versionedPrefix ∧ o.pre.endsWithVersion = true ∧
    ∀ es s, (fairMachine o.size o.retries (discOpts o) digest (Producer.construct po pre0 now input) o.conv o.mustBeFresh
      o.pre).Run es s →
    (∀ n, s.Exits (fixedPipe o.size o.retries) n → n = 0 ∧ s.stdout = input) ∧
    (∃ es' s', (fairMachine o.size o.retries (discOpts o) digest (Producer.construct po pre0 now input)
        o.conv o.mustBeFresh o.pre).RunFrom s es' s' ∧ (∀ e ∈ es', e.isLoss = false) ∧
      s'.Exits (fixedPipe o.size o.retries) 0 ∧ s'.stdout = input) := by
  obtain ⟨_, hg, _⟩ := C44_catchunks_runs lib a o hcat
  have hp0 : parseName (utf8 pa.pre) = some pre0 := by
    rw [← hlib']
    have hd := C44_putchunks lib' pa
    by_cases hinf : pa.help = true ∨ pa.version = true
    · rw [hd.information hinf] at hput; cases hput
    · by_cases hok : PutOk lib' pa
      · obtain ⟨o', ho', hg⟩ := hd.runs hinf hok
        rw [ho'] at hput; cases hput
        exact hg.name
      · obtain ⟨k, hk, _⟩ := hd.rejects hinf hok
        rw [hk] at hput; cases hput
  obtain ⟨l', h1, h2, h3, h4⟩ := C99_version (v := v) (o := po) (input := input) hn hv hp0 hslash hver
  rw [h1] at hl
  have hl := List.append_cancel_right (Option.some.inj hl)
  subst hl
  have hname : o.pre = (Producer.construct po pre0 now input).versionedPrefix := by
    have := hg.name
    rw [hlib, hpre, h3] at this
    exact (Option.some.inj this).symm
  refine ⟨hname, ?_, fun es s h => C79_succeeds hn hi hput hcat (.inl hname) hconv hfresh h⟩
  rw [hname, h4]
  simp [Name.endsWithVersion, Comp.isVersion, toVersion_fromVersion hn]

/-! ### Examples -/

/-- A name with components of every kind. -/
private def exName : Name :=
  [⟨8, [65, 47, 58, 61, 255]⟩, ⟨8, []⟩, ⟨8, [46, 46]⟩, ⟨32, [97]⟩, ⟨54, [7]⟩, ⟨50, [1, 0]⟩, ⟨54, [1, 2, 3]⟩, ⟨1, List.replicate 32 171⟩]

example : Valid exName ∧ Minimal exName := by
  constructor
  · unfold Valid; decide +kernel
  · unfold DumpText.Minimal; decide +kernel

example : nameText exName = text ("/A%2F%3A%3D%FF/.../...../32=a/v=7/seg=256/54=%01%02%03/sha256digest=" ++
    "abababababababababababababababababababababababababababababababab") := by decide +kernel

example : parseName (nameText exName) = some exName := by decide +kernel

/-- Texts that are read: with scheme and authority, a slash at the end, no slash at the start, lower case digits. -/
example : parseName (text "ndn://host/a/b%2fc/") = some [⟨8, [97]⟩, ⟨8, [98, 47, 99]⟩] ∧
    parseName (text "a/v=300") = some [⟨8, [97]⟩, ⟨54, [1, 44]⟩] ∧ parseName (text "ndn:") = some [] := by decide +kernel

/-- Texts that are refused: an empty component, a component of two dots, an unknown type, a number with a zero in front. -/
example : parseName (text "/a//b") = none ∧ parseName (text "/..") = none ∧ parseName (text "/x=1") = none ∧
    parseName (text "/v=01") = none ∧ parseName (text "/0=a") = none ∧ parseName (text "/65536=a") = none := by decide +kernel

/-- The condition on numbers is needed: the type 54 with the value 0, 1 is printed as version 1, which is another component. -/
example : parseName (text "/54=%00%01") = some [⟨54, [0, 1]⟩] ∧ nameText [⟨54, [0, 1]⟩] = text "/v=1" ∧
    parseName (text "/v=1") = some [⟨54, [1]⟩] := by decide +kernel

/-- A Data packet in Wireshark: a slash, an empty component, a version that is not in the shortest form. -/
example : Wireshark.shownNames (Wireshark.dissector [6, 11, 7, 9, 8, 1, 47, 8, 0, 54, 2, 0, 1] 13) =
      [some (.text (text "/%2F/.../54=%00%01"))] ∧
    parseName (text "/%2F/.../54=%00%01") = some [⟨8, [47]⟩, ⟨8, []⟩, ⟨54, [0, 1]⟩] := by decide +kernel

/-- `ndnputchunks -p ndn:/a`, with both conventions. -/
example : parseName (text "ndn:/a") = some [⟨8, [97]⟩] ∧ (text "ndn:/a").getLast? ≠ some 47 ∧
    putOut { wantShowVersion := true } (Producer.construct {} [⟨8, [97]⟩] 1000 [1]) = some (text "v=1000\n") ∧
    putOut { wantShowVersion := true } (Producer.construct { conv := .marker } [⟨8, [97]⟩] 1000 [1]) = some (text "%FD%03%E8\n") ∧
    parseName (text "ndn:/a/%FD%03%E8") = some (Producer.construct { conv := .marker } [⟨8, [97]⟩] 1000 [1]).versionedPrefix := by
  decide +kernel

example : putErr {} (Producer.construct { maxSegmentSize := 2 } [⟨8, [97]⟩] 1000 [1, 2, 3]) =
    text "Loading input ...\nPublished 2 Data packets with prefix /a/v=1000\n" := by decide +kernel

/-- The condition on the slash is needed: `ndnputchunks -p /` and `//v=5`, in which `v=5` is an authority. -/
example : parseName (text "/") = some [] ∧
    putOut { wantShowVersion := true } (Producer.construct {} [] 5 [1]) = some (text "v=5\n") ∧
    parseName (text "//v=5") = some [] := by decide +kernel

end Verif.Uri
