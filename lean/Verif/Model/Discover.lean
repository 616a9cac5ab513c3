import Verif.Model.Name
import Verif.Model.Machine
import Verif.Model.DataFetcher

/-!
# Model of `DiscoverVersion`

`tools/chunks/catchunks/discover-version.{hpp,cpp}`. Verbose output is left out here, see `Model/DiscoverVerbose`.
-/

namespace Verif.Discover

open Verif.DataFetcher (Fetcher Out)

/-- The options that matter: `disableVersionDiscovery` and `maxRetriesOnTimeoutOrNack`. -/
structure Opts where
  disable : Bool
  maxRetries : Int
  deriving DecidableEq, Repr

/-- A Data packet that arrives in reply to the discovery Interest. `content` is the name encoded in
the Content element, `none` if the Content is not a well-formed name. -/
structure Meta where
  name : Name
  isBlob : Bool
  content : Option Name
  deriving DecidableEq, Repr

/-- The reasons given to `onDiscoveryFailure`: the failure of the fetch (discover-version.cpp:60-65),
a packet that is not a metadata packet (line 81), a name without version (line 86). -/
inductive Reason
  | nack (m : FailMsg)
  | timeout (m : FailMsg)
  | invalidMetadata
  | notVersioned
  deriving DecidableEq, Repr

/-- What becomes visible: Interests, and the two signals. -/
inductive Obs
  | interest
  | success (n : Name)
  | failure (r : Reason)
  deriving DecidableEq, Repr

/-- discover-version.hpp: `m_fetcher`, and what became visible so far. -/
structure St where
  fetcher : Option Fetcher
  log : List Obs
  deriving DecidableEq, Repr

/-- ndn-cxx `MetadataObject::MetadataObject(data)`: the versioned name, `none` where it throws
`tlv::Error`. -/
def Meta.parse (m : Meta) : Option Name :=
  if m.isBlob && isValidMetadataName m.name then m.content else none

/-- discover-version.cpp:69-95 `handleData`. -/
def handleData (m : Meta) : Obs :=
  match m.parse with
  | none => .failure .invalidMetadata
  | some n => if n.endsWithVersion then .success n else .failure .notVersioned

/-- The callbacks given to `DataFetcher::fetch` (discover-version.cpp:56-66). -/
def react (m : Meta) : Out → Obs
  | .interest => .interest
  | .onData => handleData m
  | .onNack r => .failure (.nack r)
  | .onTimeout r => .failure (.timeout r)

/-- discover-version.cpp:45-67 `run`. -/
def start (o : Opts) (pre : Name) : St :=
  if o.disable || pre.endsWithVersion then { fetcher := none, log := [.success pre] }
  else
    let r := DataFetcher.fetch o.maxRetries o.maxRetries
    { fetcher := some r.1, log := r.2.map (react ⟨[], false, none⟩) }

/-- What can happen: an event for the fetch. -/
inductive Ev
  | data (m : Meta)
  | nack (r : NackReason)
  | timeout
  | timer
  deriving DecidableEq, Repr

/-- The event as the fetcher sees it. -/
def Ev.toFetch : Ev → DataFetcher.Ev
  | .data _ => .data
  | .nack r => .nack r
  | .timeout => .timeout
  | .timer => .timer

/-- The metadata of the event. -/
def Ev.meta : Ev → Meta
  | .data m => m
  | _ => ⟨[], false, none⟩

/-- One event. -/
def St.step (s : St) (e : Ev) : St :=
  match s.fetcher with
  | none => s
  | some f =>
    let r := f.step e.toFetch
    { fetcher := some r.1, log := s.log ++ r.2.map (react e.meta) }

/-- Which events can happen: those that the Face and the Scheduler can deliver; Data satisfies the
discovery Interest for `pre`. -/
def St.enabled (pre : Name) (s : St) (e : Ev) : Prop :=
  (∃ f, s.fetcher = some f ∧ f.enabled e.toFetch) ∧
  ∀ m, e = .data m → (makeDiscoveryInterest pre).name <+: m.name

/-- Version discovery for the name `pre`. -/
def machine (o : Opts) (pre : Name) : Machine St Ev :=
  { init := start o pre, step := St.step, enabled := St.enabled pre }

end Verif.Discover
