import Verif.Model.Name
import Verif.Model.Ping
import Verif.Model.PingServer
import Verif.Model.Peek
import Verif.Model.Poke
import Verif.Model.Producer

/-!
# Model of the `main` functions: checks of the command line

The tokenising of the command line is Boost's: the arguments of these functions are the values of the options by type, or
`none` if the parser throws `po::error` or `bad_any_cast`. Texts are byte strings where the code looks at their
characters, and strings otherwise.
-/

namespace Verif.Cli

/-- How `main` goes on: it ends with an exit status before any event is processed, an exception leaves `main`, undefined
behaviour, a failed assertion, or the program runs with these options. -/
inductive Ending (α : Type)
  | exit (status : Nat)
  | terminate
  | ub
  | assertFailed
  | run (o : α)
  deriving DecidableEq

/-- What ndn-cxx, the regular expressions of the standard library and the file system answer. `name`: the constructor
`Name(std::string)`, `none` if it throws `Name::Error`; `signing`: whether the constructor of `SigningInfo` accepts;
`base64` and `readFile`: `none` if the input cannot be read; `writable`, `regex` and `readable`: whether opening and
compiling succeed. -/
structure Lib where
  name : String → Option Name
  signing : String → Bool
  base64 : String → Option Bytes
  readFile : String → Option Bytes
  writable : String → Bool
  readable : String → Bool
  regex : String → Bool

/-- A `double` from the command line; the parser accepts "inf" and "nan". -/
inductive Num
  | num (x : ℚ)
  | inf
  | negInf
  | nan
  deriving DecidableEq

/-- A comparison `a <= b` with constants: false for NaN. -/
def Num.between (lo hi : ℚ) : Num → Bool
  | .num x => decide (lo ≤ x ∧ x ≤ hi)
  | _ => false

/-- The values of a signed 64 bit type. -/
def int64 (x : Int) : Bool := decide (-2 ^ 63 ≤ x ∧ x < 2 ^ 63)

/-- The choice of naming convention, chunks/catchunks/main.cpp:183-192 and chunks/putchunks/main.cpp:118-127; the library's
default if none is given. -/
def convention (s : String) : Option Convention :=
  if s = "marker" ∨ s = "m" ∨ s = "1" then some .marker
  else if s = "typed" ∨ s = "t" ∨ s = "2" then some .typed
  else if s ≠ "" then none
  else some .typed

/-! ## ndncatchunks -/

/-- chunks/catchunks/main.cpp:62-151: the options. -/
structure CatArgs where
  help : Bool := false
  version : Bool := false
  pre : String := ""
  nameConv : String := ""
  lifetime : Int := 4000
  retries : Int := 15
  quiet : Bool := false
  verbose : Bool := false
  fresh : Bool := false
  noDiscovery : Bool := false
  pipelineType : String := "cubic"
  pipelineSize : Nat := 1
  ignoreMarks : Bool := false
  disableCwa : Bool := false
  rtoAlpha : Num := .num (1 / 8)
  rtoBeta : Num := .num (1 / 4)
  rtoK : Int := 8
  minRto : Int := 200
  maxRto : Int := 60000
  logCwnd : String := ""
  logRtt : String := ""

/-- main.cpp:241-289: the pipelines that `--pipeline-type` can select. -/
inductive PipelineKind
  | fixed
  | aimd
  | cubic
  deriving DecidableEq, Repr

/-- With what ndncatchunks runs. `minRto` and `maxRto` in nanoseconds. -/
structure CatOpts where
  pre : Name
  conv : Convention
  lifetime : Int
  retries : Int
  mustBeFresh : Bool
  noDiscovery : Bool
  kind : PipelineKind
  size : Nat
  ignoreMarks : Bool
  disableCwa : Bool
  rtoK : Int
  minRto : Int
  maxRto : Int
  deriving DecidableEq

/-- chunks/catchunks/main.cpp:266-282: opening the files for statistics. -/
def logFiles (lib : Lib) (a : CatArgs) : Bool :=
  (a.logCwnd = "" || lib.writable a.logCwnd) && (a.logRtt = "" || lib.writable a.logRtt)

/-- chunks/catchunks/main.cpp:232-289: the rest of the checks, in the `try` block. The constructor of the RTT estimator of
ndn-cxx asserts ranges of alpha and beta. -/
def catPipeline (lib : Lib) (a : CatArgs) (c : Convention) : Ending CatOpts :=
  match lib.name a.pre with
  | none => .exit 1
  | some n =>
    let o (k : PipelineKind) : CatOpts :=
      { pre := n, conv := c, lifetime := a.lifetime, retries := a.retries, mustBeFresh := a.fresh,
        noDiscovery := a.noDiscovery, kind := k, size := a.pipelineSize, ignoreMarks := a.ignoreMarks,
        disableCwa := a.disableCwa, rtoK := a.rtoK, minRto := a.minRto * 10 ^ 6, maxRto := a.maxRto * 10 ^ 6 }
    if a.pipelineType = "fixed" then .run (o .fixed)
    else if a.pipelineType = "aimd" ∨ a.pipelineType = "cubic" then
      if ¬ (a.rtoAlpha.between 0 1 ∧ a.rtoBeta.between 0 1) then .assertFailed
      else if ¬ logFiles lib a then .exit 4
      else .run (o (if a.pipelineType = "aimd" then .aimd else .cubic))
    else .exit 2

/-- chunks/catchunks/main.cpp:152-231. `minRto` and `maxRto` have type `time::nanoseconds`: the conversion multiplies. -/
def catchunks (lib : Lib) : Option CatArgs → Ending CatOpts
  | none => .exit 2
  | some a =>
    if a.help then .exit 0
    else if a.version then .exit 0
    else if a.pre = "" then .exit 2
    else match convention a.nameConv with
      | none => .exit 2
      | some c =>
        if a.lifetime < 0 then .exit 2
        else if a.retries < -1 ∨ a.retries > 1024 then .exit 2
        else if a.quiet ∧ a.verbose then .exit 2
        else if a.pipelineSize < 1 ∨ a.pipelineSize > 1024 then .exit 2
        else if a.rtoK < 0 then .exit 2
        else if ¬ int64 (a.minRto * 10 ^ 6) then .ub
        else if a.minRto * 10 ^ 6 < 0 then .exit 2
        else if ¬ int64 (a.maxRto * 10 ^ 6) then .ub
        else if a.maxRto * 10 ^ 6 < a.minRto * 10 ^ 6 then .exit 2
        else catPipeline lib a c

/-! ## ndnputchunks -/

/-- chunks/putchunks/main.cpp:62-87. -/
structure PutArgs where
  help : Bool := false
  version : Bool := false
  pre : String := ""
  nameConv : String := ""
  freshness : Int := 10000
  size : Nat := 8000
  signing : String := ""
  quiet : Bool := false
  verbose : Bool := false

/-- chunks/putchunks/main.cpp:89-157. The conversion of the prefix to a name throws in the `try` block. -/
def putchunks (lib : Lib) : Option PutArgs → Ending (Name × Producer.Opts)
  | none => .exit 2
  | some a =>
    if a.help then .exit 0
    else if a.version then .exit 0
    else if a.pre = "" then .exit 2
    else match convention a.nameConv with
      | none => .exit 2
      | some c =>
        if a.freshness < 0 then .exit 2
        else if a.size < 1 ∨ a.size > 8800 then .exit 2
        else if ¬ lib.signing a.signing then .exit 2
        else if a.quiet ∧ a.verbose then .exit 2
        else match lib.name a.pre with
          | none => .exit 1
          | some n => .run (n, { maxSegmentSize := a.size, freshness := a.freshness.toNat, conv := c })

/-! ## ndnping -/

/-- ping/client/main.cpp:147-173. `seq` is the random number that is used without `--start` (ping.cpp:34-38). -/
structure PingArgs where
  help : Bool := false
  version : Bool := false
  pre : Option String := none
  interval : Int := 1000
  timeout : Int := 4000
  count : Option Int := none
  start : Option Nat := none
  identifier : Option Bytes := none
  cache : Bool := false

/-- ping/client/main.cpp:217, `std::all_of(..., &isalnum)`: `isalnum` is defined for the values of `unsigned char` and for
EOF, which is -1, but is called with a signed `char`. `none`: undefined. -/
def allAlnum : Bytes → Option Bool
  | [] => some true
  | b :: bs =>
    let n := b.toNat
    if (48 ≤ n ∧ n ≤ 57) ∨ (65 ≤ n ∧ n ≤ 90) ∨ (97 ≤ n ∧ n ≤ 122) then allAlnum bs
    else if n < 128 ∨ n = 255 then some false
    else none

/-- ping/client/main.cpp:131-240. Only `po::error` is caught, so that the exception for a malformed name leaves `main`. -/
def ping (lib : Lib) (seq : Nat) : Option PingArgs → Ending (Ping.Opts × Nat)
  | none => .exit 2
  | some a =>
    if a.help then .exit 2
    else if a.version then .exit 0
    else match a.pre with
      | none => .exit 2
      | some s =>
        match lib.name s with
        | none => .terminate
        | some n =>
          if a.interval < 1 then .exit 2
          else if a.count.any (· ≤ 0) then .exit 2
          else
            let o (i : Bytes) : Ping.Opts × Nat :=
              ({ pre := n, shouldAllowStaleData := a.cache, nPings := a.count.getD (-1), timeout := a.timeout,
                 startSeq := a.start.getD seq, clientIdentifier := i }, a.interval.toNat)
            match a.identifier with
            | none => .run (o [])
            | some i =>
              match allAlnum i with
              | none => .ub
              | some ok => if i = [] ∨ ok = false then .exit 2 else .run (o i)

/-! ## ndnpingserver -/

/-- ping/server/main.cpp:110-134. -/
structure PingServerArgs where
  help : Bool := false
  version : Bool := false
  pre : String := ""
  freshness : Int := 1000
  satisfy : Int := 0
  size : Int := 0

/-- ping/server/main.cpp:102-187. The conversion of the prefix to a name (line 167) is not in a `try` block. -/
def pingServer (lib : Lib) : Option PingServerArgs → Ending PingServer.Opts
  | none => .exit 2
  | some a =>
    if a.help then .exit 0
    else if a.version then .exit 0
    else if a.pre = "" then .exit 2
    else match lib.name a.pre with
      | none => .terminate
      | some n =>
        if a.freshness < 0 then .exit 2
        else if a.satisfy < 0 then .exit 2
        else if a.size < 0 then .exit 2
        else .run { pre := n, freshnessPeriod := a.freshness.toNat, nMaxPings := a.satisfy.toNat,
                    payloadSize := a.size.toNat }

/-! ## ndnpeek -/

/-- peek/ndnpeek/main.cpp:75-109. The name and the delegation names are converted by the option parser
(core/program-options-ext.cpp), so that they are names here. -/
structure PeekArgs where
  help : Bool := false
  version : Bool := false
  name : Option Name := none
  payload : Bool := false
  timeout : Option Int := none
  canBePrefix : Bool := false
  fresh : Bool := false
  fwhint : List Name := []
  lifetime : Int := 4000
  hopLimit : Option Int := none
  appParams : Option String := none
  appParamsFile : Option String := none

/-- peek/ndnpeek/main.cpp:160-189: the application parameters; `none`: an error. -/
def appParams (lib : Lib) (a : PeekArgs) : Option (Option Bytes) :=
  match a.appParams, a.appParamsFile with
  | some _, some _ => none
  | some s, none => (lib.base64 s).map some
  | none, some f => (lib.readFile f).map some
  | none, none => some none

/-- peek/ndnpeek/main.cpp:111-193. -/
def peek (lib : Lib) : Option PeekArgs → Ending Peek.Opts
  | none => .exit 2
  | some a =>
    if a.help then .exit 0
    else if a.version then .exit 0
    else match a.name with
      | none => .exit 2
      | some n =>
        if a.timeout.any (· < 0) then .exit 2
        else if a.lifetime < 0 then .exit 2
        else if a.hopLimit.any (fun h => h < 0 ∨ h > 255) then .exit 2
        else match appParams lib a with
          | none => .exit 2
          | some p =>
            .run { name := n, canBePrefix := a.canBePrefix, mustBeFresh := a.fresh, forwardingHint := a.fwhint,
                   interestLifetime := a.lifetime.toNat, hopLimit := a.hopLimit.map Int.toNat,
                   applicationParameters := p, wantPayloadOnly := a.payload, timeout := a.timeout.map Int.toNat }

/-! ## ndnpoke -/

/-- peek/ndnpoke/main.cpp:58-88. -/
structure PokeArgs where
  help : Bool := false
  version : Bool := false
  name : Option String := none
  unsolicited : Bool := false
  timeout : Option Int := none
  freshness : Int := 0
  final : Bool := false
  signing : String := ""

/-- peek/ndnpoke/main.cpp:90-158. -/
def poke (lib : Lib) : Option PokeArgs → Ending Poke.Opts
  | none => .exit 2
  | some a =>
    if a.help then .exit 0
    else if a.version then .exit 0
    else match a.name with
      | none => .exit 2
      | some s =>
        match lib.name s with
        | none => .exit 2
        | some n =>
          if n = [] then .exit 2
          else if a.freshness < 0 then .exit 2
          else if ¬ lib.signing a.signing then .exit 2
          else if a.timeout.isSome ∧ a.unsolicited then .exit 2
          else if a.timeout.any (· < 0) then .exit 2
          else .run { name := n, freshnessPeriod := a.freshness.toNat, wantFinalBlockId := a.final,
                      wantUnsolicited := a.unsolicited, timeout := a.timeout.map Int.toNat }

/-! ## ndndump -/

/-- dump/main.cpp:50-81. -/
structure DumpArgs where
  help : Bool := false
  version : Bool := false
  interface : Option String := none
  read : Option String := none
  filter : Option String := none
  noPromisc : Bool := false
  noTimestamp : Bool := false
  verbose : Bool := false
  pcapFilter : List String := []

/-- With what ndndump runs. An empty interface or file name stands for none; an empty `pcapFilter` for the default of
ndndump.hpp. -/
structure DumpOpts where
  interface : String
  read : String
  filter : Option String
  wantPromisc : Bool
  wantTimestamp : Bool
  wantVerbose : Bool
  pcapFilter : List String
  deriving DecidableEq

/-- dump/main.cpp:83-136. -/
def dump (lib : Lib) : Option DumpArgs → Ending DumpOpts
  | none => .exit 2
  | some a =>
    if a.help then .exit 0
    else if a.version then .exit 0
    else if a.interface.isSome ∧ a.read.isSome then .exit 2
    else if a.filter.any (fun f => ¬ lib.regex f) then .exit 2
    else .run { interface := a.interface.getD "", read := a.read.getD "", filter := a.filter,
                wantPromisc := !a.noPromisc, wantTimestamp := !a.noTimestamp, wantVerbose := a.verbose,
                pcapFilter := a.pcapFilter }

/-! ## ndn-dissect -/

/-- dissect/main.cpp:45-63. -/
structure DissectArgs where
  help : Bool := false
  version : Bool := false
  content : Bool := false
  file : Option String := none

/-- From where ndn-dissect reads: a file, or standard input; and whether the Content is dissected. -/
structure DissectOpts where
  file : Option String
  content : Bool
  deriving DecidableEq

/-- dissect/main.cpp:65-97. -/
def dissect (lib : Lib) : Option DissectArgs → Ending DissectOpts
  | none => .exit 2
  | some a =>
    if a.help then .exit 0
    else if a.version then .exit 0
    else match a.file with
      | some f =>
        if f ≠ "-" then
          if ¬ lib.readable f then .exit 3 else .run { file := some f, content := a.content }
        else .run { file := none, content := a.content }
      | none => .run { file := none, content := a.content }

end Verif.Cli
