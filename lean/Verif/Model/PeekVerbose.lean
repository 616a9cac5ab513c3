import Verif.Model.PeekTime
import Verif.Model.PingOutput

/-!
# What ndnpeek and ndnpoke write to the standard error

`tools/peek/ndnpeek/ndnpeek.cpp` and `tools/peek/ndnpoke/ndnpoke.cpp` with the messages, which are printed with `--verbose`; ndnpoke prints
one of them always.
-/

namespace Verif.PeekVerbose

open PeekTime (St Ev)

/-- The option `--verbose`, the URI of a name and the text of an Interest (both of ndn-cxx). -/
structure Env where
  verbose : Bool
  uri : Name → Bytes
  interest : Peek.FullInterest → Bytes

/-- ndnpeek.cpp:95-99, 116-120 and 135-137. The time that has passed is given in nanoseconds. -/
def message (v : Env) (e : Ev) : Bytes :=
  match e.kind with
  | .data d => text "DATA: " ++ v.uri d.name ++ text "\nRTT: " ++ decimal (e.t / 10 ^ 6) ++ text " ms" ++ text "\n"
  | .nack r => text "NACK: " ++ PingOutput.reasonText r ++ text "\nRTT: " ++ decimal (e.t / 10 ^ 6) ++ text " ms" ++ text "\n"
  | .expire => text "TIMEOUT" ++ text "\n"
  | .timer => text "TIMEOUT" ++ text "\n"

/-- The program and what it has written to the standard error. -/
structure VSt where
  s : St
  err : Bytes
  deriving DecidableEq

/-- ndnpeek.cpp:43-59 `start`, with the line of `createInterest` (lines 76-78). -/
def start (v : Env) (digest : Bytes → Bytes) (o : Peek.Opts) : VSt :=
  { s := PeekTime.start digest o
    err := if v.verbose then text "INTEREST: " ++ v.interest (Peek.createInterest digest o) ++ text "\n" else [] }

/-- One event. -/
def VSt.step (v : Env) (o : Peek.Opts) (x : VSt) (e : Ev) : VSt :=
  if x.s.ub then x else { s := x.s.step o e, err := x.err ++ (if v.verbose then message v e else []) }

/-- ndnpeek with its messages. -/
def machine (v : Env) (late : Option Nat) (digest : Bytes → Bytes) (o : Peek.Opts) : Machine VSt Ev :=
  { init := start v digest o, step := VSt.step v o, enabled := fun x e => x.s.enabled late o e }

instance (v : Env) (late : Option Nat) (digest : Bytes → Bytes) (o : Peek.Opts) (x : VSt) (e : Ev) :
    Decidable ((machine v late digest o).enabled x e) := inferInstanceAs (Decidable (x.s.enabled late o e))

end Verif.PeekVerbose

namespace Verif.PokeVerbose

open Poke (St Ev)

/-- The option `--verbose`; the texts of an Interest and of a Data (the latter without the line end behind each of its lines), both of
ndn-cxx; the reason that ndn-cxx gives when the registration fails. -/
structure Env where
  verbose : Bool
  interest : Interest → Bytes
  data : Data → Bytes × List Bytes
  reason : Bytes

/-- ndnpoke.cpp:85-87. `operator<<` ends the last line. -/
def dataMessage (v : Env) (d : Data) : Bytes :=
  text "DATA: " ++ (v.data d).1 ++ text "\n" ++ ((v.data d).2.map (· ++ text "\n")).flatten

/-- ndnpoke.cpp:90-135. The messages for an event. -/
def message (digest : Data → Bytes) (v : Env) (o : Poke.Opts) (input : Bytes) : Ev → Bytes
  | .regSuccess => if v.verbose then text "Prefix registration successful" ++ text "\n" else []
  | .regFailure => text "Prefix registration failure (" ++ v.reason ++ text ")" ++ text "\n"
  | .timer => if v.verbose then text "TIMEOUT" ++ text "\n" else []
  | .interest i =>
    (if v.verbose then text "INTEREST: " ++ v.interest i ++ text "\n" else []) ++
    match Poke.createData o input with
    | none => []
    | some d =>
      if i.matchesData digest d then (if v.verbose then dataMessage v d else [])
      else if v.verbose then text "Interest cannot be satisfied" ++ text "\n"
      else []

/-- The program and what it has written to the standard error. -/
structure VSt where
  s : St
  err : Bytes
  deriving DecidableEq

/-- ndnpoke.cpp:46-59 `start`. -/
def start (v : Env) (o : Poke.Opts) (input : Bytes) : VSt :=
  { s := Poke.start o input
    err := match Poke.createData o input with
      | none => []
      | some d => if o.wantUnsolicited && v.verbose then dataMessage v d else [] }

/-- One event. -/
def VSt.step (digest : Data → Bytes) (v : Env) (o : Poke.Opts) (input : Bytes) (x : VSt) (e : Ev) : VSt :=
  { s := x.s.step digest o input e, err := x.err ++ message digest v o input e }

/-- ndnpoke with its messages. -/
def machine (digest : Data → Bytes) (v : Env) (o : Poke.Opts) (input : Bytes) : Machine VSt Ev :=
  { init := start v o input, step := VSt.step digest v o input, enabled := fun x e => x.s.enabled o e }

instance (digest : Data → Bytes) (v : Env) (o : Poke.Opts) (input : Bytes) (x : VSt) (e : Ev) :
    Decidable ((machine digest v o input).enabled x e) := inferInstanceAs (Decidable (x.s.enabled o e))

end Verif.PokeVerbose
