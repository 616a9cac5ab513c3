import Verif.Model.PeekVerbose
import Verif.Spec.PeekTime
import Verif.Spec.PingOutput

/-! # Reading the standard error of ndnpeek and ndnpoke -/

namespace Verif.PeekVerbose

open PingOutput (lines words field)

/-- The texts of ndn-cxx have no line ends. -/
structure Env.Clean (v : Env) : Prop where
  uri : ∀ n, (10 : UInt8) ∉ v.uri n
  interest : ∀ i, (10 : UInt8) ∉ v.interest i

/-- The exit status that goes with a line, if it tells one. -/
def outcome (l : Bytes) : Option Nat :=
  if l = text "TIMEOUT" then some 3
  else if text "DATA: " <+: l then some 0
  else if text "NACK: " <+: l then some 4
  else none

/-- The exit status that goes with the last line that tells one. -/
def status (err : Bytes) : Option Nat := ((lines err).filterMap outcome).getLast?

/-- The number in a line `RTT: <number> ms`. -/
def readRtt (l : Bytes) : Option Nat :=
  match words l with
  | [a, n, b] => if a = text "RTT:" ∧ b = text "ms" then readNat n else none
  | _ => none

/-- When a Data or Nack was received, in milliseconds. -/
def answerTime (e : PeekTime.Ev) : Option Nat :=
  match e.kind with
  | .data _ => some (e.t / 1000000)
  | .nack _ => some (e.t / 1000000)
  | _ => none

/-- The name of a Data that was received. -/
def dataName (e : PeekTime.Ev) : Option Name :=
  match e.kind with
  | .data d => some d.name
  | _ => none

/-- The claim that is too strong: `TIMEOUT` is printed only if the exit status is 3. -/
def TimeoutMeans3 (v : Env) (late : Option Nat) (digest : Bytes → Bytes) (o : Peek.Opts) : Prop :=
  ∀ es x, (machine v late digest o).Run es x → text "TIMEOUT" ∈ lines x.err → ∀ n, x.s.prog.Exits n → n = 3

end Verif.PeekVerbose

namespace Verif.PokeVerbose

open PingOutput (lines field)

/-- The texts of ndn-cxx have no line ends, and the further lines of the text of a Data begin as they do in ndn-cxx. -/
structure Env.Clean (v : Env) : Prop where
  interest : ∀ i, (10 : UInt8) ∉ v.interest i
  reason : (10 : UInt8) ∉ v.reason
  data : ∀ d, (10 : UInt8) ∉ (v.data d).1
  more : ∀ d, ∀ l ∈ (v.data d).2, (10 : UInt8) ∉ l ∧
    (text "MetaInfo: " <+: l ∨ text "Content: " <+: l ∨ text "Signature: " <+: l)

/-- The exit status that goes with a line, if it tells one. -/
def outcome (l : Bytes) : Option Nat :=
  if l = text "TIMEOUT" then some 3
  else if text "DATA: " <+: l then some 0
  else if text "Prefix registration failure (" <+: l then some 5
  else none

/-- The exit status that goes with the last line that tells one. -/
def status (err : Bytes) : Option Nat := ((lines err).filterMap outcome).getLast?

/-- The Interests that came in. -/
def interests (es : List Poke.Ev) : List Interest :=
  es.filterMap fun e => match e with
    | .interest i => some i
    | _ => none

/-- The claim that is too strong: `TIMEOUT` is printed only if the exit status is 3. -/
def TimeoutMeans3 (digest : Data → Bytes) (v : Env) (o : Poke.Opts) (input : Bytes) : Prop :=
  ∀ es x, (machine digest v o input).Run es x → text "TIMEOUT" ∈ lines x.err → ∀ n, x.s.Exits n → n = 3

end Verif.PokeVerbose
