import Verif.Model.ServerOutput
import Verif.Spec.PingOutput
import Verif.Spec.PingNet

/-! # Reading the output of ndnpingserver -/

namespace Verif.ServerOutput

open PingOutput (lines words field)

/-- The text of the component in a line about an Interest. -/
def readWords : List Bytes → Option Bytes
  | [a, b, s] => if a = text "interest" ∧ b = text "received:" then field "seq=" s else none
  | _ => none

/-- With timestamps the line starts with the time and a dash. -/
def readLine (stamps : Bool) (l : Bytes) : Option Bytes := readWords (if stamps then (words l).drop 2 else words l)

/-- All lines about Interests. -/
def interests (stamps : Bool) (out : Bytes) : List Bytes := (lines out).filterMap (readLine stamps)

/-- The number in the line of totals. -/
def readTotal : List Bytes → Option Nat
  | [n, a, b] => if a = text "packets" ∧ b = text "processed" then readNat n else none
  | _ => none

/-- All lines of totals. -/
def totals (out : Bytes) : List Nat := (lines out).filterMap fun l => readTotal (words l)

/-- Texts from the environment have neither spaces nor line breaks. -/
structure Env.Plain (v : Env) : Prop where
  uri : 32 ∉ v.uri ∧ 10 ∉ v.uri
  time : ∀ i, 32 ∉ v.time i ∧ 10 ∉ v.time i
  typed : ∀ c, 32 ∉ v.typed c ∧ 10 ∉ v.typed c

/-- The Interests of the events, in their order. -/
def PingEv.name? : Wire.PingEv → Option Name
  | .interest w => some w.i.name
  | .sigint => none

/-- The replies in a history. -/
def replies (l : List PingServer.Obs) : List Data :=
  l.filterMap fun
    | .reply d => some d
    | _ => none

/-- The events of the client. -/
def clientEv? : PingNet.Ev → Option Ping.PEv
  | .client e => some e
  | .server _ => none

end Verif.ServerOutput
