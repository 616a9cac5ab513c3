import Verif.Model.PingOutput
import Verif.Spec.Format
import Verif.Spec.Ping

/-! # Reading the output of ndnping -/

namespace Verif.PingOutput

open Ping

/-- The parts between the occurrences of a byte. -/
def split (c : UInt8) : Bytes → List Bytes
  | [] => [[]]
  | b :: l =>
    if b = c then [] :: split c l
    else match split c l with
      | [] => [[b]]
      | w :: ws => (b :: w) :: ws

/-- Lines, and the words of a line. -/
def lines (l : Bytes) : List Bytes := split 10 l
def words (l : Bytes) : List Bytes := split 32 l

/-- What is left of a word that starts with `key`. -/
def field (key : String) (w : Bytes) : Option Bytes :=
  if text key <+: w then some (w.drop (text key).length) else none

/-- What is left of a word that ends with `key`. -/
def fieldEnd (key : String) (w : Bytes) : Option Bytes :=
  if text key <:+ w then some (w.take (w.length - (text key).length)) else none

/-- A line about a ping: its sequence number, and the time in milliseconds. -/
inductive Item
  | content (seq : Nat) (ms : ℚ)
  | nack (seq : Nat) (ms : ℚ) (reason : Bytes)
  | timeout (seq : Nat)
  deriving DecidableEq

def Item.isContent : Item → Bool
  | .content _ _ => true
  | _ => false

def Item.isNack : Item → Bool
  | .nack _ _ _ => true
  | _ => false

def Item.isTimeout : Item → Bool
  | .timeout _ => true
  | _ => false

def readSeq (w : Bytes) : Option Nat := (field "seq=" w).bind readNat
def readTime (w : Bytes) : Option ℚ := (field "time=" w).bind readNumber

def readWords : List Bytes → Option Item
  | [a, b, _, s] => if a = text "timeout" ∧ b = text "from" then (readSeq s).map .timeout else none
  | [a, b, _, s, t, m] =>
    if a = text "content" ∧ b = text "from" ∧ m = text "ms" then
      (readSeq s).bind fun q => (readTime t).map fun x => .content q x
    else none
  | [a, b, _, s, t, m, n] =>
    if a = text "nack" ∧ b = text "from" ∧ m = text "ms" then
      (readSeq s).bind fun q => (readTime t).bind fun x => (field "reason=" n).map fun z => .nack q x z
    else none
  | _ => none

/-- With timestamps the line starts with the time and a dash. -/
def readLine (stamps : Bool) (l : Bytes) : Option Item := readWords (if stamps then (words l).drop 2 else words l)

/-- All lines about pings of an output. -/
def items (stamps : Bool) (out : Bytes) : List Item := (lines out).filterMap (readLine stamps)

/-- The line with the totals: the numbers of pings, and what percentage is said to be lost and nacked. -/
structure Totals where
  sent : Nat
  received : Nat
  nacked : Nat
  lostPercent : Option ℚ
  nackedPercent : Option ℚ
  deriving DecidableEq

def readPercent (w : Bytes) : Option ℚ := (fieldEnd "%" w).bind readNumber

def readTotals : List Bytes → Option Totals
  | n :: a :: b :: r :: c :: k :: d :: rest =>
    if a = text "packets" ∧ b = text "transmitted," ∧ c = text "received," ∧ d = text "nacked," then
      (readNat n).bind fun n => (readNat r).bind fun r => (readNat k).map fun k =>
        match rest with
        | [p, l, q, m, _, _, _] =>
          if l = text "lost," ∧ m = text "nacked," then ⟨n, r, k, readPercent p, readPercent q⟩ else ⟨n, r, k, none, none⟩
        | _ => ⟨n, r, k, none, none⟩
    else none
  | _ => none

/-- All lines with totals of an output. -/
def totals (out : Bytes) : List Totals := (lines out).filterMap fun l => readTotals (words l)

/-- The line with the round-trip times: minimum, average, maximum, deviation; `none` for what is not a number. -/
def readRtt : List Bytes → Option (List (Option ℚ))
  | [a, b, c, w, m] =>
    if a = text "rtt" ∧ b = text "min/avg/max/mdev" ∧ c = text "=" ∧ m = text "ms" then some ((split 47 w).map readNumber) else none
  | _ => none

/-- All such lines of an output. -/
def rttLines (out : Bytes) : List (List (Option ℚ)) := (lines out).filterMap fun l => readRtt (words l)

/-- The reasons for a Nack. -/
def reasons : List (NackReason × String) :=
  [(.none, "None"), (.congestion, "Congestion"), (.duplicate, "Duplicate"), (.noRoute, "NoRoute")]

/-- The line says what happened to the ping; the time is right up to six millionths of it. -/
inductive Says : Obs → Item → Prop
  | content (q t : Nat) (ms : ℚ) : |ms - (t : ℚ) / 10 ^ 6| ≤ (t : ℚ) / 10 ^ 6 * (6 / 10 ^ 6) → Says (.data q t) (.content q ms)
  | nack (q t : Nat) (ms : ℚ) (n : NackReason) (s : String) : |ms - (t : ℚ) / 10 ^ 6| ≤ (t : ℚ) / 10 ^ 6 * (6 / 10 ^ 6) →
      (n, s) ∈ reasons → Says (.nack q t n) (.nack q ms (text s))
  | timeout (q : Nat) : Says (.timeout q) (.timeout q)

/-- The text of a name or of a time, or of a number that is none, has neither spaces nor line breaks, and the last one no slash. -/
structure Env.Plain (v : Env) : Prop where
  uri : 32 ∉ v.uri ∧ 10 ∉ v.uri
  time : ∀ i, 32 ∉ v.time i ∧ 10 ∉ v.time i
  nan : 32 ∉ v.nan ∧ 10 ∉ v.nan
  slash : 47 ∉ v.nan

end Verif.PingOutput
