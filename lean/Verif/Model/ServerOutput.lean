import Verif.Model.Wire
import Verif.Model.Dissect

/-!
# What ndnpingserver writes to its standard output

`tools/ping/server/tracer.cpp` and `main.cpp:63-82`.
-/

namespace Verif.ServerOutput

open Wire

/-- What the text depends on besides the execution: the URI of the prefix; the options `-q` and `-t`; the text of the time at which
the entry of that number of the history is printed; the URIs of components that are not generic. -/
structure Env where
  uri : Bytes
  quiet : Bool := false
  stamps : Bool := false
  time : Nat → Bytes := fun _ => []
  typed : Comp → Bytes := fun _ => []

/-- `operator<<(std::ostream&, const name::Component&)` of ndn-cxx: a generic component is percent-encoded, and three dots are put before
a value that has no other characters than dots. -/
def componentText (v : Env) (c : Comp) : Bytes :=
  if c.type = ttGeneric then
    (if c.value.all (· == 46) then text "..." else []) ++ c.value.flatMap Dissect.escapeByte
  else v.typed c

/-- tracer.cpp:31-37. `name.at(-1)` exists, because the name has the prefix of the filter. Nothing is printed at the other
entries of the history. -/
def trace (v : Env) (i : Nat) : PingServer.Obs → Bytes
  | .received n =>
    if v.quiet then []
    else
      (if v.stamps then v.time i ++ text " - " else []) ++
        text "interest received: seq=" ++ (match n.getLast? with | some c => componentText v c | none => []) ++ text "\n"
  | .reply _ => []
  | .finish => []

/-- main.cpp:65, and what the tracer prints. -/
def written (v : Env) (s : PingSt) : Bytes :=
  text "PING SERVER " ++ v.uri ++ text "\n" ++ (s.st.log.zipIdx.map fun x => trace v x.2 x.1).flatten

/-- main.cpp:67-80: all of the output, if the program ends in this state. -/
def final (v : Env) (s : PingSt) : Bytes :=
  written v s ++
    if s.failed then []
    else text "\n--- " ++ v.uri ++ text " ping server statistics ---\n" ++ decimal s.st.nPings ++ text " packets processed" ++ text "\n"

end Verif.ServerOutput
