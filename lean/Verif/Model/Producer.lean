import Verif.Model.Name

/-!
# Model of `Producer`

`tools/chunks/putchunks/producer.{hpp,cpp}`, with the ndn-cxx `Segmenter`. Signing and verbose
output (see `Model/PutVerbose`) are left out. Registration of the prefix is assumed to succeed (otherwise the Face is shut
down, producer.cpp:62-65).
-/

namespace Verif.Producer

/-- producer.hpp:52-60 `Options`, and the naming convention set by main.cpp:118-123. -/
structure Opts where
  maxSegmentSize : Nat := 8000
  freshness : Nat := 10000
  conv : Convention := .typed
  deriving DecidableEq, Repr

/-- ndn-cxx `Segmenter::segment`, the loop that reads `m` bytes at a time (`BOOST_ASSERT(m > 0)`).
`fuel` bounds the number of rounds; the length of the input is enough. -/
def readLoop (m : Nat) : Nat → Bytes → List Bytes
  | 0, _ => []
  | _ + 1, [] => []
  | fuel + 1, b :: bs => (b :: bs).take m :: readLoop m fuel ((b :: bs).drop m)

/-- ndn-cxx `Segmenter::segment`: the contents of the segments; an empty input gives one empty
segment. -/
def split (m : Nat) (input : Bytes) : List Bytes :=
  let cs := readLoop m input.length input
  if cs.isEmpty then [[]] else cs

/-- producer.hpp:86-94 member variables that are fixed by the constructor. -/
structure Prod where
  pre : Name
  versionedPrefix : Name
  store : List Data
  opts : Opts
  deriving DecidableEq, Repr

/-- ndn-cxx `Segmenter::segment`: the packets. -/
def makeStore (o : Opts) (vp : Name) (input : Bytes) : List Data :=
  let cs := split o.maxSegmentSize input
  cs.zipIdx.map fun (c, k) =>
    { name := vp ++ [.fromSegment o.conv k]
      content := c
      final := some (.fromSegment o.conv (cs.length - 1))
      freshness := o.freshness }

/-- producer.cpp:40-59, the constructor. `now` is the version number that `Name::appendVersion()`
takes from the clock. -/
def construct (o : Opts) (pre : Name) (now : Nat) (input : Bytes) : Prod :=
  let vp := if pre.endsWithVersion then pre else pre ++ [.fromVersion o.conv now]
  { pre := if pre.endsWithVersion then pre.dropLast else pre
    versionedPrefix := vp
    store := makeStore o vp input
    opts := o }

/-- What a handler does with an Interest: it puts a Data or a Nack on the Face, puts a metadata
packet (Data and the versioned name in its content), throws, or has undefined behaviour. -/
inductive Reply
  | data (d : Data)
  | metadata (name : Name) (freshness : Nat) (versionedName : Name)
  | nack
  | threw
  | ub
  deriving DecidableEq, Repr

/-- producer.cpp:124-159 `processSegmentInterest`. -/
def Prod.processSegmentInterest (digest : Data → Bytes) (p : Prod) (i : Interest) : Reply :=
  match i.name.getLast?, p.store with
  | last, store =>
    if decide (i.name.length = p.versionedPrefix.length + 1) && (last.any Comp.isSegment) then
      match last.bind Comp.toSegment with
      | none => .threw
      | some segmentNo =>
        match store[segmentNo]? with
        | some d => .data d
        | none => .nack
    else
      match store with
      | [] => .ub
      | d :: _ => if i.matchesData digest d then .data d else .nack

/-- ndn-cxx `MetadataObject::makeData(name, ...)`: the name of the metadata packet; version and
segment number are appended to a name that ends with the keyword, any other name must be a valid
metadata name already, else `tlv::Error` is thrown. `now`: the version number from the clock. -/
def metadataName (conv : Convention) (now : Nat) (n : Name) : Option Name :=
  let n' := if n.getLast? = some metadataComp then n ++ [.fromVersion conv now, .fromSegment conv 0] else n
  if isValidMetadataName n' then some n' else none

/-- ndn-cxx `MetadataObject::makeData`: the default freshness period, in milliseconds. -/
def metadataFreshness : Nat := 10

/-- producer.cpp:98-122 `processDiscoveryInterest`. -/
def Prod.processDiscoveryInterest (p : Prod) (now : Nat) (i : Interest) : Reply :=
  if !i.canBePrefix then .nack
  else
    match metadataName p.opts.conv now i.name with
    | none => .threw
    | some n => .metadata n metadataFreshness p.versionedPrefix

/-- producer.cpp:67-81: the Interest filters. ndn-cxx calls the handler of every filter that
matches; `InterestFilter(m_prefix, "")` matches only the name `m_prefix`. The result is the list
of what the called handlers do. -/
def Prod.onInterest (digest : Data → Bytes) (p : Prod) (now : Nat) (i : Interest) : List Reply :=
  (if p.versionedPrefix.isPrefixOf i.name then [p.processSegmentInterest digest i] else []) ++
  (if i.name = p.pre then [p.processSegmentInterest digest i] else []) ++
  (if (makeDiscoveryInterest p.pre).name.isPrefixOf i.name then [p.processDiscoveryInterest now i] else [])

end Verif.Producer
