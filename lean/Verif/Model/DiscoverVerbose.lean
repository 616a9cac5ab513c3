import Verif.Model.Discover
import Verif.Model.DumpText

/-!
# Version discovery with `--verbose`

`tools/chunks/catchunks/discover-version.cpp` and `data-fetcher.cpp` with the lines that they print to the standard error. The functions of
`Model/Discover` that print, or that call one that prints, are transcribed again, with the lines. Of the line about a Data packet
only the name is kept, of the lines about Nacks and timeouts all but the Interest, which is always the discovery Interest.
-/

namespace Verif.DiscoverVerbose

open Discover
open Verif.DataFetcher (Fetcher Out)

/-- A line on the standard error.
* `nack r`: "Received Nack with reason r for Interest ..." (data-fetcher.cpp:108-110),
* `timeout`: "Timeout for Interest ..." (data-fetcher.cpp:160-161),
* `data n`: "Data: ..." (discover-version.cpp:72-73), a packet with the name `n`,
* `discovered t`: "Discovered Data version: t" (discover-version.cpp:90-92). -/
inductive Line
  | nack (r : NackReason)
  | timeout
  | data (n : Name)
  | discovered (t : Bytes)
  deriving DecidableEq, Repr

/-- The discovery and what it has printed. -/
structure St where
  d : Discover.St
  lines : List Line := []
  deriving DecidableEq, Repr

/-- data-fetcher.cpp:98-110 and 151-161: what the fetcher prints when an event reaches it; the state is that before the event. -/
def fetcherLines (f : Fetcher) : Ev → List Line
  | .nack r => if !f.isRunning then [] else [.nack r]
  | .timeout => if !f.isRunning then [] else [.timeout]
  | _ => []

/-- discover-version.cpp:69-95 `handleData`: the signal, and the lines, all of which are printed before it. -/
def handleData (m : Meta) : Obs × List Line :=
  match m.parse with
  | none => (.failure .invalidMetadata, [.data m.name])
  | some n =>
    match n.getLast? with
    | none => (.failure .notVersioned, [.data m.name])
    | some c =>
      if !c.isVersion then (.failure .notVersioned, [.data m.name])
      else (.success n, [.data m.name, .discovered (DumpText.compText c)])

/-- The callbacks given to `DataFetcher::fetch` (discover-version.cpp:56-66). -/
def react (m : Meta) : Out → Obs × List Line
  | .interest => (.interest, [])
  | .onData => handleData m
  | .onNack r => (.failure (.nack r), [])
  | .onTimeout r => (.failure (.timeout r), [])

/-- discover-version.cpp:45-67 `run`. -/
def start (o : Opts) (pre : Name) : St :=
  if o.disable || pre.endsWithVersion then { d := { fetcher := none, log := [.success pre] } }
  else
    let r := DataFetcher.fetch o.maxRetries o.maxRetries
    { d := { fetcher := some r.1, log := r.2.map fun x => (react ⟨[], false, none⟩ x).1 }
      lines := r.2.flatMap fun x => (react ⟨[], false, none⟩ x).2 }

/-- One event. The fetcher prints before it does anything else that can be seen. -/
def St.step (s : St) (e : Ev) : St :=
  match s.d.fetcher with
  | none => s
  | some f =>
    let r := f.step e.toFetch
    { d := { fetcher := some r.1, log := s.d.log ++ r.2.map fun x => (react e.meta x).1 }
      lines := s.lines ++ fetcherLines f e ++ r.2.flatMap fun x => (react e.meta x).2 }

/-- Version discovery for the name `pre`, with its lines. -/
def machine (o : Opts) (pre : Name) : Machine St Ev :=
  { init := start o pre, step := St.step, enabled := fun s e => s.d.enabled pre e }

end Verif.DiscoverVerbose
