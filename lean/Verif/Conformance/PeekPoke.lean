import Verif.Model.PeekTime

/-!
# The unit tests of ndnpeek and ndnpoke, on the model

`tests/peek/{ndnpeek,ndnpoke}.t.cpp`. These are tests of the model, not proofs. Left out are the tests of signatures and of packets that are
too long.
-/

namespace Verif.Conformance.PeekPoke

private def bytes (s : String) : Bytes := s.toList.map fun c => UInt8.ofNat c.toNat

private def name (l : List String) : Name := l.map fun s => ⟨ttGeneric, bytes s⟩

private def ms (n : Nat) : Nat := n * 10 ^ 6

/-! ## ndnpeek.t.cpp -/

namespace Peek

open Verif.Peek

private def opts : Opts := { name := name ["peek", "test"] }

/-- The state after the events, if they are possible. -/
private def run (o : Opts) (es : List (Ev × Nat)) : Option St :=
  let m := PeekTime.machine (some 0) (fun b => b) o
  (m.exec m.init (es.map fun e => ⟨e.1, e.2⟩)).map (·.prog)

private def data : Data := { name := name ["peek", "test"], content := bytes "ndnpeek" }

private def longer : Data := { name := name ["peek", "test", "suffix"], content := bytes "ndnpeek", freshness := 1000 }

private def interest : FullInterest := ⟨name ["peek", "test"], false, false, [], 4000, none, none⟩

/-- Default -/
example : run opts [(.data data, ms 100)] = some { interests := [interest], result := .data, out := [.packet data] } := by decide +kernel
example : run { opts with wantPayloadOnly := true } [(.data data, ms 100)] =
    some { interests := [interest], result := .data, out := [.payload (bytes "ndnpeek")] } := by decide +kernel

private def nonDefault : Opts :=
  { opts with canBePrefix := true, mustBeFresh := true, forwardingHint := [name ["fh"]], interestLifetime := 200, hopLimit := some 64 }

/-- NonDefault -/
example : run nonDefault [(.data longer, ms 100)] =
    some { interests := [⟨name ["peek", "test"], true, true, [name ["fh"]], 200, some 64, none⟩], result := .data, out := [.packet longer] } := by
  decide +kernel
example : (run { nonDefault with wantPayloadOnly := true } [(.data longer, ms 100)]).map (·.out) = some [.payload (bytes "ndnpeek")] := by
  decide +kernel

/-- ReceiveNackWithReason, ReceiveNackWithoutReason -/
example : ∀ r ∈ [NackReason.noRoute, .none],
    run opts [(.nack r, ms 100)] = some { interests := [interest], result := .nack, out := [.nackHeader r] } ∧
    run { opts with wantPayloadOnly := true } [(.nack r, ms 100)] = some { interests := [interest], result := .nack, out := [.nackText r] } := by
  decide +kernel

/-- ApplicationParameters. In these tests the digest of parameters is the parameters. -/
example : (run { opts with applicationParameters := some (bytes "hello") } []).map (·.interests) =
    some [{ interest with name := name ["peek", "test"] ++ [⟨2, bytes "hello"⟩], applicationParameters := some (bytes "hello") }] := by decide +kernel

/-- NoTimeout: no time-out after 900 ms, one after a second. -/
example : run { opts with interestLifetime := 1000 } [(.expire, ms 900)] = none ∧
    (run { opts with interestLifetime := 1000 } []).map (fun s => (s.pending, s.result)) = some (true, .unknown) ∧
    (run { opts with interestLifetime := 1000 } [(.expire, ms 1000)]).map (fun s => (s.pending, s.result)) = some (false, .timeout) := by
  decide +kernel

/-- TimeoutLessThanLifetime -/
example : (run { opts with interestLifetime := 200, timeout := some 100 } [(.timer, ms 100)]).map (fun s => (s.interests.length, s.handle, s.result)) =
    some (1, false, .timeout) ∧
    run { opts with interestLifetime := 200, timeout := some 100 } [(.expire, ms 200)] = none := by decide +kernel

/-- TimeoutGreaterThanLifetime -/
example : (run { opts with interestLifetime := 50, timeout := some 200 } [(.expire, ms 50)]).map (fun s => (s.interests.length, s.pending, s.result)) =
    some (1, false, .timeout) := by decide +kernel

end Peek

/-! ## ndnpoke.t.cpp -/

namespace Poke

open Verif.Poke

private def opts : Opts := { name := name ["poke", "test"] }

private def payload : Bytes := bytes "Hello, world!\n"

/-- The state after the events, if they are possible. The prefix is registered after a millisecond. -/
private def run (o : Opts) (es : List (Ev × Nat)) : Option St :=
  let m := PokeTime.machine none (fun _ => []) o payload
  (m.exec m.init (es.map fun e => ⟨e.1, e.2⟩)).map (·.prog)

private def ask (l : List String) : Ev := .interest { name := name l }

private def sent (o : Opts) (es : List (Ev × Nat)) : Option (Result × List Data × Bool) :=
  (run o es).map fun s => (s.result, s.sent, s.cancelled)

private def data : Data := { name := name ["poke", "test"], content := [0x48, 0x65, 0x6C, 0x6C, 0x6F, 0x2C, 0x20, 0x77, 0x6F, 0x72, 0x6C, 0x64, 0x21, 0x0A] }

/-- Basic -/
example : sent opts [(.regSuccess, ms 1), (ask ["poke", "test"], ms 10)] = some (.dataSent, [data], true) := by decide +kernel

/-- NoMatch -/
example : sent opts [(.regSuccess, ms 1), (ask ["poke", "test", "foo"], ms 10)] = some (.unknown, [], false) ∧
    sent opts [(.regSuccess, ms 1), (ask ["poke", "test", "foo"], ms 10), (ask ["poke", "test"], ms 20)] = some (.dataSent, [data], true) := by
  decide +kernel

/-- FreshnessPeriod -/
example : sent { opts with freshnessPeriod := 1000 } [(.regSuccess, ms 1), (ask ["poke", "test"], ms 10)] =
    some (.dataSent, [{ data with freshness := 1000 }], true) := by decide +kernel

/-- FinalBlockId -/
example : sent { name := name ["poke", "test", "123"], wantFinalBlockId := true } [(.regSuccess, ms 1), (ask ["poke", "test", "123"], ms 10)] =
    some (.dataSent, [{ data with name := name ["poke", "test", "123"], final := some ⟨ttGeneric, bytes "123"⟩ }], true) := by decide +kernel

/-- Unsolicited -/
example : sent { opts with wantUnsolicited := true } [] = some (.dataSent, [data], false) := by decide +kernel

/-- Timeout -/
example : sent { opts with timeout := some 4000 } [(.regSuccess, ms 1), (.timer, ms 3999)] = none ∧
    sent { opts with timeout := some 4000 } [(.regSuccess, ms 1), (.timer, ms 4001)] = some (.timeout, [], true) := by decide +kernel

/-- PrefixRegTimeout -/
example : sent opts [(.regFailure, ms 10000)] = some (.prefixRegFail, [], false) := by decide +kernel

end Poke

end Verif.Conformance.PeekPoke
