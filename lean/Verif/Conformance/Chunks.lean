import Verif.Model.Consumer
import Verif.Model.Discover
import Verif.Model.Producer

/-!
# The unit tests of version discovery, of the consumer and of the producer, on the model

`tests/chunks/{discover-version,consumer,producer}.t.cpp`. These are tests of the model, not proofs. Signatures are not modelled.
-/

namespace Verif.Conformance.Chunks

private def bytes (s : String) : Bytes := s.toList.map fun c => UInt8.ofNat c.toNat

private def name : Name := ["ndn", "chunks", "test"].map fun s => ⟨ttGeneric, bytes s⟩

private def version : Nat := 1449227841747

private def versioned : Name := name ++ [.fromVersion .typed version]

/-! ## discover-version.t.cpp -/

namespace DiscoverVersion

open Verif.Discover

private def run (maxRetries : Int) (es : List Ev) : St := es.foldl St.step (start ⟨false, maxRetries⟩ name)

/-- A metadata packet as `MetadataObject::makeData` gives it. -/
private def metadata (n : Name) : Ev :=
  .data ⟨(makeDiscoveryInterest name).name ++ [.fromVersion .typed 1, .fromSegment .typed 0], true, some n⟩

/-- Disabled, NameWithVersion -/
example : (start ⟨true, 15⟩ name).log = [.success name] := by decide +kernel
example : (start ⟨false, 15⟩ versioned).log = [.success versioned] ∧
    (versioned.getLast?.bind Comp.toVersion) = some version := by decide +kernel

/-- Success -/
example : (run 15 []).log = [.interest] ∧ (run 15 [metadata versioned]).log = [.interest, .success versioned] := by decide +kernel

/-- InvalidDiscoveredVersionedName -/
example : (run 15 [metadata name]).log = [.interest, .failure .notVersioned] := by decide +kernel

/-- InvalidMetadataPacket: a packet of the type Key with the name of the Interest. -/
example : (run 15 [.data ⟨(makeDiscoveryInterest name).name, false, none⟩]).log = [.interest, .failure .invalidMetadata] := by
  decide +kernel

private def rounds : List Ev := [.timeout, .nack .duplicate, .timeout, .nack .duplicate, .timeout, .nack .duplicate]

/-- MaxRetriesExceeded -/
example : (∀ k ∈ List.range 7, (run 3 (rounds.take k)).log = List.replicate (k + 1) .interest) ∧
    (run 3 (rounds ++ [.timeout])).log = List.replicate 7 .interest ++ [.failure (.timeout (.maxTimeoutRetries 3))] := by decide +kernel

/-- SuccessAfterNackAndTimeout -/
example : (run 3 (rounds ++ [metadata versioned])).log = List.replicate 7 .interest ++ [.success versioned] := by decide +kernel

end DiscoverVersion

/-! ## consumer.t.cpp -/

namespace Consumer

open Verif.Consumer

private def s1 : String := "a1b2c3%^&(#$&%^$$/><"

private def s2 : String :=
  "123456789123456789123456789123456789123456789123456789123456789123456789123456789123456789123456789123456789123456789123456789"

private def s3 : String :=
  "Lorem ipsum dolor sit amet, consectetuer adipiscing elit. Aenean commodo ligula eget dolor. Aenean massa. Cum sociis natoque penatibus et magnis dis parturient montes, nascetur ridiculus mus. Donec quam felis, ultricies nec, pellentesque eu, pretium quis, sem. Nulla consequat massa Donec pede justo,"

/-- `m_bufferedData[k] = data; writeInOrderData()`. -/
private def put (s : St) (x : Nat × String) : St := { s with buffered := mapSet x.1 (bytes x.2) s.buffered }.writeInOrderData

private def out (xs : List (Nat × String)) : Bytes := (xs.foldl put {}).out

/-- InOrderData -/
example : out [(0, "")] = [] ∧ out [(0, ""), (1, s1)] = bytes s1 ∧ out [(0, ""), (1, s1), (2, s2)] = bytes s1 ++ bytes s2 ∧
    out [(0, ""), (1, s1), (2, s2), (3, s3)] = bytes s1 ++ bytes s2 ++ bytes s3 := by decide +kernel

/-- OutOfOrderData -/
example : out [(1, s2)] = [] ∧ out [(1, s2), (0, s1)] = bytes s1 ++ bytes s2 ∧
    out [(1, s2), (0, s1), (2, s3)] = bytes s1 ++ bytes s2 ++ bytes s3 := by decide +kernel

end Consumer

/-! ## producer.t.cpp -/

namespace Producer

open Verif.Producer

private def opts : Opts := { maxSegmentSize := 40 }

private def size (s : String) : Nat := (construct opts name version (bytes s)).store.length

private def ceil (n : Nat) : Nat := (n + 39) / 40

/-- InputData -/
example : size "" = 1 ∧ size Consumer.s1 = ceil Consumer.s1.length ∧ size Consumer.s2 = ceil Consumer.s2.length ∧
    size Consumer.s3 = ceil Consumer.s3.length := by decide +kernel

private def nSegments : Nat := ceil Consumer.s3.length

private def onInterest (pre : Name) (i : Interest) : List Reply :=
  (construct opts pre version (bytes Consumer.s3)).onInterest (fun _ => []) 7 i

/-- The length of the name, the version, the segment and the last segment of a Data. -/
private def view : Reply → List (Option Nat)
  | .data d => [some d.name.length, d.name.dropLast.getLast?.bind Comp.toVersion, d.name.getLast?.bind Comp.toSegment,
      d.final.bind Comp.toSegment]
  | _ => []

/-- RequestSegmentUnspecifiedVersion -/
example : (onInterest name { name := name, canBePrefix := true }).map view = [[some 5, some version, some 0, some (nSegments - 1)]] ∧
    (onInterest name { name := versioned ++ [.fromSegment .typed 1], canBePrefix := true }).map view =
      [[some 5, some version, some 1, some (nSegments - 1)]] := by decide +kernel

/-- RequestSegmentSpecifiedVersion -/
example : (onInterest versioned { name := versioned, canBePrefix := true }).map view = [[some 5, some version, some 0, some (nSegments - 1)]] ∧
    (onInterest versioned { name := versioned ++ [.fromSegment .typed 1], canBePrefix := true }).map view =
      [[some 5, some version, some 1, some (nSegments - 1)]] := by decide +kernel

/-- RequestNotExistingSegment -/
example : onInterest name { name := versioned ++ [.fromSegment .typed nSegments], canBePrefix := true } = [.nack] := by decide +kernel

/-- RequestMetadata -/
example : onInterest versioned (makeDiscoveryInterest name) =
    [.metadata ((makeDiscoveryInterest name).name ++ [.fromVersion .typed 7, .fromSegment .typed 0]) 10 versioned] ∧
    isValidMetadataName ((makeDiscoveryInterest name).name ++ [.fromVersion .typed 7, .fromSegment .typed 0]) = true ∧
    onInterest versioned { makeDiscoveryInterest name with canBePrefix := false } = [.nack] := by decide +kernel

end Producer

end Verif.Conformance.Chunks
