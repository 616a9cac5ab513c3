import Verif.Model.Wire

/-!
# ndnputchunks with `--verbose`

`tools/chunks/putchunks/producer.cpp:98-159` with the lines that the handlers print to the standard error. The handlers are transcribed again,
with the lines. `Face::put` is posted (as the unit tests of ndnpoke say, an oversized packet is refused in `processEvents`, not in `put`): a
packet is sent later, and other Interests may be handled before.
-/

namespace Verif.PutVerbose

open Producer Wire

/-- What is printed for an Interest; the texts of Interests and packets, which are those of ndn-cxx, are left out.
* `discovery i`: "Discovery Interest: i" (producer.cpp:101-102),
* `lacksCanBePrefix`: "Discovery Interest lacks CanBePrefix, sending Nack" (lines 105-107),
* `metadata n f v`: "Sending metadata: ..." (lines 118-119), with the name, the freshness period and the content of the packet,
* `interest i`: "Interest: i" (lines 129-130),
* `data d`: "Data: d" (lines 148-150),
* `unsatisfied`: "Interest cannot be satisfied, sending Nack" (lines 154-156). -/
inductive Line
  | discovery (i : Interest)
  | lacksCanBePrefix
  | metadata (name : Name) (freshness : Nat) (versionedName : Name)
  | interest (i : Interest)
  | data (d : Data)
  | unsatisfied
  deriving DecidableEq, Repr

/-- What was printed; the packets for which `put` was called and that are not sent yet, with the Interests that they answer; the packets that
were sent; whether an exception left `processEvents`. -/
structure St where
  lines : List Line := []
  queue : List (WireInterest × Reply) := []
  sent : List Reply := []
  failed : Bool := false
  deriving DecidableEq, Repr

namespace St

/-- Print a line. -/
def say (s : St) (l : Line) : St := { s with lines := s.lines ++ [l] }

/-- `m_face.put`. -/
def put (s : St) (w : WireInterest) (r : Reply) : St := { s with queue := s.queue ++ [(w, r)] }

/-- An exception leaves the handler. -/
def throw (s : St) : St := { s with failed := true }

/-- producer.cpp:98-122 `processDiscoveryInterest`. -/
def processDiscoveryInterest (p : Prod) (now : Nat) (w : WireInterest) (s : St) : St :=
  let s := s.say (.discovery w.i)
  if !w.i.canBePrefix then (s.say .lacksCanBePrefix).put w .nack
  else
    match metadataName p.opts.conv now w.i.name with
    | none => s.throw
    | some n => (s.say (.metadata n metadataFreshness p.versionedPrefix)).put w (.metadata n metadataFreshness p.versionedPrefix)

/-- producer.cpp:147-158, the end of `processSegmentInterest`. -/
def answer (w : WireInterest) (data : Option Data) (s : St) : St :=
  match data with
  | some d => (s.say (.data d)).put w (.data d)
  | none => (s.say .unsatisfied).put w .nack

/-- producer.cpp:124-159 `processSegmentInterest`. With an empty store `m_store[0]` would be undefined; the store is never empty, and the
assertion of line 127 says so. -/
def processSegmentInterest (digest : Data → Bytes) (p : Prod) (w : WireInterest) (s : St) : St :=
  let s := s.say (.interest w.i)
  if decide (w.i.name.length = p.versionedPrefix.length + 1) && (w.i.name.getLast?.any Comp.isSegment) then
    match w.i.name.getLast?.bind Comp.toSegment with
    | none => s.throw
    | some segmentNo => s.answer w (if segmentNo < p.store.length then p.store[segmentNo]? else none)
  else
    match p.store with
    | [] => s.throw
    | d :: _ => s.answer w (if w.i.matchesData digest d then some d else none)

/-- producer.cpp:67-81: the handlers of the filters that match, one after the other unless there is an exception. -/
def onInterest (digest : Data → Bytes) (p : Prod) (now : Nat) (w : WireInterest) (s : St) : St :=
  let s := if !s.failed && p.versionedPrefix.isPrefixOf w.i.name then s.processSegmentInterest digest p w else s
  let s := if !s.failed && decide (w.i.name = p.pre) then s.processSegmentInterest digest p w else s
  if !s.failed && (makeDiscoveryInterest p.pre).name.isPrefixOf w.i.name then s.processDiscoveryInterest p now w else s

/-- The packet that was posted first is sent, or refused by an exception if it is too long. -/
def flush (sign : Data → Sig) (s : St) : St :=
  match s.queue with
  | [] => s
  | (w, r) :: q =>
    match encodeReply sign w r with
    | none => s.throw
    | some b => if b.length ≤ maxPacket then { s with queue := q, sent := s.sent ++ [r] } else s.throw

end St

/-- An Interest arrives, or a posted packet is sent. -/
inductive Ev
  | interest (w : WireInterest) (now : Nat)
  | flush
  deriving DecidableEq, Repr

/-- One event. -/
def St.step (digest : Data → Bytes) (sign : Data → Sig) (p : Prod) (s : St) : Ev → St
  | .interest w now => s.onInterest digest p now w
  | .flush => s.flush sign

/-- Nothing happens after an exception. Interests are not longer than packets may be; `now` is a number of 64 bits. -/
def St.enabled (s : St) : Ev → Prop
  | .interest w now => s.failed = false ∧ w.encode.length ≤ maxPacket ∧ now < 2 ^ 64
  | .flush => s.failed = false ∧ s.queue ≠ []

instance (s : St) (e : Ev) : Decidable (s.enabled e) := by cases e <;> unfold St.enabled <;> infer_instance

/-- ndnputchunks with `--verbose`, after the constructor. -/
def machine (digest : Data → Bytes) (sign : Data → Sig) (p : Prod) : Machine St Ev :=
  { init := {}, step := St.step digest sign p, enabled := St.enabled }

instance (digest : Data → Bytes) (sign : Data → Sig) (p : Prod) (s : St) (e : Ev) : Decidable ((machine digest sign p).enabled s e) :=
  inferInstanceAs (Decidable (s.enabled e))

end Verif.PutVerbose
