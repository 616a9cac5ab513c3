import Verif.Model.Ping
import Verif.Model.Format

/-!
# What ndnping writes to its standard output

`tools/ping/client/tracer.cpp`, the two functions of `statistics-collector.cpp` that print, and `main.cpp:239`.
-/

namespace Verif.PingOutput

open Ping

/-- What the text depends on besides the execution: the URI of the prefix; the option `-t`; the text of the time at which
the entry of that number of the history is printed; the text of NaN; `std::sqrt`. -/
structure Env where
  uri : Bytes
  stamps : Bool := false
  time : Nat → Bytes := fun _ => []
  nan : Bytes := text "-nan"
  sqrt : ℚ → ℚ := fun x => x

/-- `operator<<(std::ostream&, lp::NackReason)` of ndn-cxx. -/
def reasonText : NackReason → Bytes
  | .none => text "None"
  | .congestion => text "Congestion"
  | .duplicate => text "Duplicate"
  | .noRoute => text "NoRoute"

/-- tracer.cpp:40-42, 51-53 and 62-64. -/
def stamp (v : Env) (i : Nat) : Bytes := if v.stamps then v.time i ++ text " - " else []

/-- tracer.cpp:37-68: the reactions to the signals of the ping client. Nothing is connected to the other entries. -/
def trace (r : ℚ → ℚ) (v : Env) (i : Nat) : Obs → Bytes
  | .data q t =>
    stamp v i ++ text "content from " ++ v.uri ++ text ": seq=" ++ decimal q ++ text " time=" ++
      general (r ((t : ℚ) / 10 ^ 6)) ++ text " ms\n"
  | .nack q t n =>
    stamp v i ++ text "nack from " ++ v.uri ++ text ": seq=" ++ decimal q ++ text " time=" ++
      general (r ((t : ℚ) / 10 ^ 6)) ++ text " ms" ++ text " reason=" ++ reasonText n ++ text "\n"
  | .timeout q => stamp v i ++ text "timeout from " ++ v.uri ++ text ": seq=" ++ decimal q ++ text "\n"
  | .interest _ _ => []
  | .finish => []

/-- `os << n` for an `int`. -/
def intText (n : Int) : Bytes := (if n < 0 then [45] else []) ++ decimal n.natAbs

/-- statistics-collector.cpp:83 `packetLossRate`, if `m_nSent > 0`. -/
def lossRate (r : ℚ → ℚ) (c : Coll) : ℚ := r (((c.nSent - c.nReceived - c.nNacked : Int) : ℚ) / c.nSent)

/-- statistics-collector.cpp:84 `packetNackedRate`, if `m_nSent > 0`. -/
def nackedRate (r : ℚ → ℚ) (c : Coll) : ℚ := r ((c.nNacked : ℚ) / c.nSent)

/-- statistics-collector.cpp:108-110 and 128-130. -/
def rates (r : ℚ → ℚ) (c : Coll) : Bytes :=
  if c.nSent > 0 then
    text ", " ++ general (r (lossRate r c * 100)) ++ text "% lost, " ++ general (r (nackedRate r c * 100)) ++ text "% nacked"
  else []

/-- statistics-collector.cpp:113-116 and 134-137, the four numbers. -/
def times (r : ℚ → ℚ) (v : Env) (c : Coll) : Bytes :=
  general c.minRtt ++ text "/" ++ general (r (c.sumRtt / c.nReceived)) ++ text "/" ++ general c.maxRtt ++ text "/" ++
    (if c.variance r < 0 then v.nan else general (v.sqrt (c.variance r))) ++ text " ms"

/-- statistics-collector.cpp:103-119 `printSummary`. -/
def printSummary (r : ℚ → ℚ) (v : Env) (c : Coll) : Bytes :=
  intText c.nReceived ++ text "/" ++ intText c.nSent ++ text " packets" ++ rates r c ++
    (if c.nReceived > 0 then text ", min/avg/max/mdev = " ++ times r v c else []) ++ text "\n"

/-- statistics-collector.cpp:121-140 `printFull`. -/
def printFull (r : ℚ → ℚ) (v : Env) (c : Coll) : Bytes :=
  text "\n--- " ++ v.uri ++ text " ping statistics ---\n" ++
    intText c.nSent ++ text " packets transmitted" ++ text ", " ++ intText c.nReceived ++ text " received" ++
    text ", " ++ intText c.nNacked ++ text " nacked" ++ rates r c ++ text ", time " ++ general c.sumRtt ++ text " ms" ++
    (if c.nReceived > 0 then text "\nrtt min/avg/max/mdev = " ++ times r v c else []) ++ text "\n"

/-- What the tracer prints for new entries of the history. -/
def traces (r : ℚ → ℚ) (v : Env) (old : Nat) (new : List Obs) : Bytes :=
  ((new.zipIdx old).map fun x => trace r v x.2 x.1).flatten

/-- The program and what it has written. -/
structure St where
  prog : Prog
  out : Bytes

/-- One event: main.cpp:98-107 for SIGQUIT, the tracer for the events of the ping client. -/
def St.step (r : ℚ → ℚ) (o : Opts) (v : Env) (s : St) (e : PEv) : St :=
  let p := s.prog.step r o e
  match e with
  | .ping _ => ⟨p, s.out ++ traces r v s.prog.ping.log.length (p.ping.log.drop s.prog.ping.log.length)⟩
  | .sigint => ⟨p, s.out⟩
  | .sigquit => ⟨p, s.out ++ printSummary r v s.prog.coll⟩

/-- The program with its output; main.cpp:239. -/
def machine (r : ℚ → ℚ) (o : Opts) (v : Env) : Machine St PEv :=
  { init := ⟨Prog.start r o, text "PING " ++ v.uri ++ text "\n" ++ traces r v 0 (Prog.start r o).ping.log⟩
    step := St.step r o v
    enabled := fun s e => s.prog.enabled e }

instance (r : ℚ → ℚ) (o : Opts) (v : Env) (s : St) (e : PEv) : Decidable ((machine r o v).enabled s e) :=
  inferInstanceAs (Decidable (s.prog.enabled e))

/-- main.cpp:58-68: all of the output, if the program ends in this state. -/
def St.final (r : ℚ → ℚ) (v : Env) (s : St) : Bytes :=
  s.out ++ if s.prog.ping.threw then [] else printFull r v s.prog.coll

end Verif.PingOutput
