import Verif.Model.Transfer
import Verif.Spec.Cli
import Verif.Spec.Catchunks

/-! # Vocabulary for the statements about whole transfers -/

namespace Verif.Transfer.Spec

open Cli Cli.Spec Catchunks

/-- The command line asks for help or the version. -/
def CatInfo (a : Option CatArgs) : Prop := ∃ x, a = some x ∧ (x.help = true ∨ x.version = true)

/-- Everything that is checked before the name is decoded. -/
structure CatSyntax (a : CatArgs) : Prop where
  name : a.pre ≠ ""
  convention : ∃ c, Spelling a.nameConv c
  lifetime : 0 ≤ a.lifetime
  retries : -1 ≤ a.retries ∧ a.retries ≤ 1024
  output : ¬ (a.quiet = true ∧ a.verbose = true)
  size : 1 ≤ a.pipelineSize ∧ a.pipelineSize ≤ 1024
  k : 0 ≤ a.rtoK
  rto : 0 ≤ a.minRto ∧ a.minRto ≤ a.maxRto

/-- A malformed command line: the option parser does not accept it, a value is not in its range, or (if the name is a name)
the type of the pipeline does not exist. -/
def CatMalformed (lib : Lib) (a : Option CatArgs) : Prop :=
  ∀ x, a = some x → ¬ (x.help = true ∨ x.version = true) ∧
    (¬ CatSyntax x ∨ ((lib.name x.pre).isSome ∧ x.pipelineType ∉ ["fixed", "aimd", "cubic"]))

/-- A file for statistics cannot be opened. -/
def CatNoLog (lib : Lib) (a : Option CatArgs) : Prop :=
  ∃ x, a = some x ∧ ¬ (x.help = true ∨ x.version = true) ∧ CatSyntax x ∧ (lib.name x.pre).isSome ∧
    x.pipelineType ∈ ["aimd", "cubic"] ∧ ∃ f ∈ [x.logCwnd, x.logRtt], f ≠ "" ∧ lib.writable f = false

/-- The name is not a name. -/
def CatNoName (lib : Lib) (a : Option CatArgs) : Prop :=
  ∃ x, a = some x ∧ ¬ (x.help = true ∨ x.version = true) ∧ CatSyntax x ∧ lib.name x.pre = none

/-- All calls delivered segments, and no application Nack. -/
def AllGood (l : List Call) : Prop := ∀ x ∈ l, Call.good x

/-- The first call that is not the delivery of a segment is `x`. -/
def FirstBad (l : List Call) (x : Call) : Prop := ∃ pre post, l = pre ++ x :: post ∧ AllGood pre ∧ ¬ x.good

/-- What the exit status of ndncatchunks means. -/
structure CatStatus (lib : Lib) (a : Option CatArgs) (failed : Bool) (v : View) (n : Nat) : Prop where
  success : n = 0 ↔ CatInfo a ∨ (failed = false ∧ v.broken = false ∧ ∃ l, v.calls = some l ∧ AllGood l)
  error : n = 1 ↔ CatNoName lib a ∨ failed = true ∨
    (¬ CatInfo a ∧ ¬ CatMalformed lib a ∧ ¬ CatNoLog lib a ∧
      (v.calls = none ∨ ∃ l, v.calls = some l ∧ ((AllGood l ∧ v.broken = true) ∨ ∃ m, FirstBad l (.failure m))))
  malformed : n = 2 ↔ CatMalformed lib a
  appNack : n = 3 ↔ failed = false ∧ ∃ l k p, v.calls = some l ∧ FirstBad l (.data k p) ∧ p.appNack = true
  noLog : n = 4 ↔ CatNoLog lib a
  others : n ≤ 4

/-- Everything that arrives comes from this producer, directly or from caches. -/
def fromProducer (digest : Data → Bytes) (p : Producer.Prod) (o : CatOpts) : World :=
  { disc := Discover.FromProducer digest p
    seg := fun n k q => k < 2 ^ 64 ∧ ∃ i now r, r ∈ p.onInterest digest now i ∧
      Answers digest (segmentInterest o.conv o.mustBeFresh n k) q r }

/-- Nothing is known about what arrives. -/
def anyWorld (_ : CatOpts) : World := { disc := fun _ => True, seg := fun _ _ _ => True }

end Verif.Transfer.Spec
