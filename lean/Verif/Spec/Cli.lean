import Verif.Model.Cli

/-! # What the tools document about their command lines -/

namespace Verif.Cli.Spec

/-- What `main` does with a command line: information is printed and the status is `s0`; or all values are acceptable and
the tool runs with options as described by `good`; or it ends with a status other than 0 as described by `status`. -/
structure Decides {α : Type} (e : Ending α) (s0 : Nat) (info ok : Prop) (status : Nat → Prop) (good : α → Prop) : Prop where
  information : info → e = .exit s0
  runs : ¬ info → ok → ∃ o, e = .run o ∧ good o
  rejects : ¬ info → ¬ ok → ∃ s, e = .exit s ∧ s ≠ 0 ∧ status s

/-- The spellings of the naming conventions: `ndnputchunks.rst`, option `-N`. -/
def Spelling (s : String) (c : Convention) : Prop :=
  (c = .marker ∧ s ∈ ["marker", "m", "1"]) ∨ (c = .typed ∧ s ∈ ["typed", "t", "2", ""])

/-- A command line of ndncatchunks whose values are in the ranges that its messages state. -/
structure CatOk (lib : Lib) (a : CatArgs) : Prop where
  name : (lib.name a.pre).isSome ∧ a.pre ≠ ""
  convention : ∃ c, Spelling a.nameConv c
  lifetime : 0 ≤ a.lifetime
  retries : -1 ≤ a.retries ∧ a.retries ≤ 1024
  output : ¬ (a.quiet = true ∧ a.verbose = true)
  size : 1 ≤ a.pipelineSize ∧ a.pipelineSize ≤ 1024
  k : 0 ≤ a.rtoK
  rto : 0 ≤ a.minRto ∧ a.minRto ≤ a.maxRto
  pipeline : a.pipelineType ∈ ["fixed", "aimd", "cubic"]
  logs : a.pipelineType ≠ "fixed" → ∀ f ∈ [a.logCwnd, a.logRtt], f = "" ∨ lib.writable f = true

/-- The options are those of the command line, and they are in the ranges. -/
structure CatGood (lib : Lib) (a : CatArgs) (o : CatOpts) : Prop where
  name : lib.name a.pre = some o.pre
  convention : Spelling a.nameConv o.conv
  lifetime : o.lifetime = a.lifetime ∧ 0 ≤ o.lifetime
  retries : o.retries = a.retries ∧ -1 ≤ o.retries ∧ o.retries ≤ 1024
  flags : o.mustBeFresh = a.fresh ∧ o.noDiscovery = a.noDiscovery ∧ o.ignoreMarks = a.ignoreMarks ∧
    o.disableCwa = a.disableCwa
  kind : a.pipelineType = (match o.kind with | .fixed => "fixed" | .aimd => "aimd" | .cubic => "cubic")
  size : o.size = a.pipelineSize ∧ 1 ≤ o.size ∧ o.size ≤ 1024
  k : o.rtoK = a.rtoK ∧ 0 ≤ o.rtoK
  rto : o.minRto = 1000000 * a.minRto ∧ o.maxRto = 1000000 * a.maxRto ∧ 0 ≤ o.minRto ∧ o.minRto ≤ o.maxRto

/-- Status 2 for a malformed command line; 1 if the name is malformed, 4 if a file cannot be opened. -/
def CatStatus (lib : Lib) (a : CatArgs) (s : Nat) : Prop :=
  s = 2 ∨ (s = 1 ∧ lib.name a.pre = none) ∨
    (s = 4 ∧ ∃ f ∈ [a.logCwnd, a.logRtt], f ≠ "" ∧ lib.writable f = false)

/-- The values of ndncatchunks that are used without a check: durations that are not representable in nanoseconds, and the
weights of the RTT estimator. -/
def CatUnchecked (a : CatArgs) : Prop :=
  a.minRto.natAbs < 2 ^ 63 / 10 ^ 6 ∧ a.maxRto.natAbs < 2 ^ 63 / 10 ^ 6 ∧
    ∃ x y : ℚ, a.rtoAlpha = .num x ∧ 0 ≤ x ∧ x ≤ 1 ∧ a.rtoBeta = .num y ∧ 0 ≤ y ∧ y ≤ 1

/-- ndnputchunks. -/
structure PutOk (lib : Lib) (a : PutArgs) : Prop where
  name : (lib.name a.pre).isSome ∧ a.pre ≠ ""
  convention : ∃ c, Spelling a.nameConv c
  freshness : 0 ≤ a.freshness
  size : 1 ≤ a.size ∧ a.size ≤ 8800
  signing : lib.signing a.signing = true
  output : ¬ (a.quiet = true ∧ a.verbose = true)

structure PutGood (lib : Lib) (a : PutArgs) (o : Name × Producer.Opts) : Prop where
  name : lib.name a.pre = some o.1
  convention : Spelling a.nameConv o.2.conv
  freshness : (o.2.freshness : Int) = a.freshness
  size : o.2.maxSegmentSize = a.size ∧ 1 ≤ o.2.maxSegmentSize ∧ o.2.maxSegmentSize ≤ 8800

/-- Status 2 for a malformed command line; 1 if the name is malformed. -/
def PutStatus (lib : Lib) (a : PutArgs) (s : Nat) : Prop := s = 2 ∨ (s = 1 ∧ lib.name a.pre = none)

/-- Letters and digits of ASCII. -/
def Alnum (b : UInt8) : Prop :=
  (48 ≤ b.toNat ∧ b.toNat ≤ 57) ∨ (65 ≤ b.toNat ∧ b.toNat ≤ 90) ∨ (97 ≤ b.toNat ∧ b.toNat ≤ 122)

/-- ndnping. -/
structure PingOk (a : PingArgs) : Prop where
  name : a.pre ≠ none
  interval : 1 ≤ a.interval
  count : ∀ c, a.count = some c → 1 ≤ c
  identifier : ∀ i, a.identifier = some i → i ≠ [] ∧ ∀ b ∈ i, Alnum b

structure PingGood (lib : Lib) (seq : Nat) (a : PingArgs) (o : Ping.Opts × Nat) : Prop where
  name : ∃ s, a.pre = some s ∧ lib.name s = some o.1.pre
  interval : (o.2 : Int) = a.interval ∧ 1 ≤ o.2
  count : (a.count = some o.1.nPings ∧ 1 ≤ o.1.nPings) ∨ (a.count = none ∧ o.1.nPings < 0)
  timeout : o.1.timeout = a.timeout
  start : a.start = some o.1.startSeq ∨ (a.start = none ∧ o.1.startSeq = seq)
  identifier : (a.identifier = some o.1.clientIdentifier ∧ o.1.clientIdentifier ≠ [] ∧
      ∀ b ∈ o.1.clientIdentifier, Alnum b) ∨ (a.identifier = none ∧ o.1.clientIdentifier = [])
  stale : o.1.shouldAllowStaleData = a.cache

/-- ndnpingserver. -/
structure ServerOk (a : PingServerArgs) : Prop where
  name : a.pre ≠ ""
  freshness : 0 ≤ a.freshness
  satisfy : 0 ≤ a.satisfy
  size : 0 ≤ a.size

structure ServerGood (lib : Lib) (a : PingServerArgs) (o : PingServer.Opts) : Prop where
  name : lib.name a.pre = some o.pre
  freshness : (o.freshnessPeriod : Int) = a.freshness
  satisfy : (o.nMaxPings : Int) = a.satisfy
  size : (o.payloadSize : Int) = a.size

/-- ndnpeek. -/
structure PeekOk (lib : Lib) (a : PeekArgs) : Prop where
  name : a.name ≠ none
  timeout : ∀ t, a.timeout = some t → 0 ≤ t
  lifetime : 0 ≤ a.lifetime
  hopLimit : ∀ h, a.hopLimit = some h → 0 ≤ h ∧ h ≤ 255
  params : ∀ s, a.appParams = some s → a.appParamsFile = none ∧ lib.base64 s ≠ none
  file : ∀ f, a.appParamsFile = some f → lib.readFile f ≠ none

structure PeekGood (lib : Lib) (a : PeekArgs) (o : Peek.Opts) : Prop where
  name : a.name = some o.name
  flags : o.canBePrefix = a.canBePrefix ∧ o.mustBeFresh = a.fresh ∧ o.wantPayloadOnly = a.payload ∧
    o.forwardingHint = a.fwhint
  timeout : (∃ t : Nat, a.timeout = some (t : Int) ∧ o.timeout = some t) ∨ (a.timeout = none ∧ o.timeout = none)
  lifetime : (o.interestLifetime : Int) = a.lifetime
  hopLimit : (∃ h : Nat, a.hopLimit = some (h : Int) ∧ o.hopLimit = some h ∧ h ≤ 255) ∨
    (a.hopLimit = none ∧ o.hopLimit = none)
  params : (∃ s b, a.appParams = some s ∧ lib.base64 s = some b ∧ o.applicationParameters = some b) ∨
    (∃ f b, a.appParamsFile = some f ∧ lib.readFile f = some b ∧ o.applicationParameters = some b) ∨
    (a.appParams = none ∧ a.appParamsFile = none ∧ o.applicationParameters = none)

/-- ndnpoke. -/
structure PokeOk (lib : Lib) (a : PokeArgs) : Prop where
  name : ∃ s n, a.name = some s ∧ lib.name s = some n ∧ n ≠ []
  freshness : 0 ≤ a.freshness
  signing : lib.signing a.signing = true
  timeout : ∀ t, a.timeout = some t → 0 ≤ t ∧ a.unsolicited = false

structure PokeGood (lib : Lib) (a : PokeArgs) (o : Poke.Opts) : Prop where
  name : ∃ s, a.name = some s ∧ lib.name s = some o.name ∧ o.name ≠ []
  freshness : (o.freshnessPeriod : Int) = a.freshness
  flags : o.wantFinalBlockId = a.final ∧ o.wantUnsolicited = a.unsolicited
  timeout : (∃ t : Nat, a.timeout = some (t : Int) ∧ o.timeout = some t ∧ o.wantUnsolicited = false) ∨
    (a.timeout = none ∧ o.timeout = none)

/-- ndndump. -/
structure DumpOk (lib : Lib) (a : DumpArgs) : Prop where
  source : a.interface = none ∨ a.read = none
  filter : ∀ f, a.filter = some f → lib.regex f = true

structure DumpGood (a : DumpArgs) (o : DumpOpts) : Prop where
  source : (a.interface = some o.interface ∧ a.read = none ∧ o.read = "") ∨
    (a.read = some o.read ∧ a.interface = none ∧ o.interface = "") ∨
    (a.interface = none ∧ a.read = none ∧ o.interface = "" ∧ o.read = "")
  filter : o.filter = a.filter
  flags : (o.wantPromisc = true ↔ a.noPromisc = false) ∧ (o.wantTimestamp = true ↔ a.noTimestamp = false) ∧
    o.wantVerbose = a.verbose ∧ o.pcapFilter = a.pcapFilter

/-- ndn-dissect. -/
def DissectOk (lib : Lib) (a : DissectArgs) : Prop := ∀ f, a.file = some f → f = "-" ∨ lib.readable f = true

structure DissectGood (a : DissectArgs) (o : DissectOpts) : Prop where
  file : (∃ f, a.file = some f ∧ f ≠ "-" ∧ o.file = some f) ∨ (o.file = none ∧ (a.file = none ∨ a.file = some "-"))
  content : o.content = a.content

end Verif.Cli.Spec
