import Verif.Model.Cli
import Verif.Model.Catchunks

/-!
# ndncatchunks and ndnputchunks from their command lines

The whole of `main` of ndncatchunks: the checks of the command line (Model/Cli), then version discovery, pipeline and consumer
(Model/Catchunks). An exception, for example because there is no connection to the forwarder, may end the tool at any time.
The window algorithms and the RTT estimator are arbitrary.
-/

namespace Verif.Transfer

open Cli Catchunks

/-- The window algorithm that main.cpp:259-264 chooses, with its initial window, and the time, RTO and input of the window
algorithm when the pipeline is started. -/
structure Windows (σ ε : Type) where
  alg : CatOpts → Adaptive.Alg σ ε
  init : CatOpts → σ
  env : CatOpts → Adaptive.Env ε

/-- options.hpp: the options that the version discovery uses. -/
def discOpts (o : CatOpts) : Discover.Opts := ⟨o.noDiscovery, o.retries⟩

/-- options.hpp: the options that the adaptive pipelines use. -/
def adaptOpts (o : CatOpts) : Adaptive.Opts := ⟨o.retries, o.ignoreMarks, o.disableCwa⟩

/-- What the outside world may do to the program: the metadata packets and the segments that arrive for a name with a segment
number satisfy these conditions. -/
structure World where
  disc : Discover.Ev → Prop
  seg : Name → Nat → Pkt → Prop

/-- The program in this world. `getAcceptAllValidator` (main.cpp:290) accepts every packet. -/
def worldMachine {σ ε : Type} (P : Pipe σ ε) (w : World) (o : CatOpts) : Machine (St σ) (Ev ε) :=
  { init := start P (discOpts o) o.pre
    step := St.step P
    enabled := fun s e => s.enabled P o.pre e ∧
      match e with
      | .disc e => w.disc e
      | .pipe e => ∀ n q k p, s.pipe = some (n, q) → P.arrival q e = some (k, p) → p.valid = true ∧ w.seg n k p }

/-- What can be seen of an execution: the standard output, the calls of the consumer by the pipeline (`none` if it was never
started), whether an exception left the pipeline, the number of discovery Interests, and the name that the pipeline
fetches. -/
structure View where
  out : Bytes := []
  calls : Option (List Call) := none
  broken : Bool := false
  discovery : Nat := 0
  name : Option Name := none

/-- What is seen of a state of the run: standard output, the calls of the pipeline, whether it threw an exception, the number of
Interests for discovery and the name that was fetched. -/
def viewOf {σ ε : Type} (P : Pipe σ ε) (s : St σ) : View :=
  { out := s.stdout, calls := s.pipe.map fun q => P.calls q.2, broken := s.pipe.any fun q => P.threw q.2,
    discovery := s.disc.log.count .interest, name := s.pipe.map Prod.fst }

/-- main.cpp:291-310 with the given pipeline: the program terminates with status `n`, and `v` is what was seen. `failed`: an
exception that is not one of the pipeline or the consumer left `processEvents`. -/
def Ends {σ ε : Type} (P : Pipe σ ε) (w : World) (o : CatOpts) (failed : Bool) (v : View) (n : Nat) : Prop :=
  ∃ es s, (worldMachine P w o).Run es s ∧ v = viewOf P s ∧ if failed then n = 1 else s.Exits P n

/-- chunks/catchunks/main.cpp:152-310. With the command line `a` (`none`: the option parser failed), in a world that may
depend on the options. -/
def Cat {σ ε : Type} (lib : Lib) (W : Windows σ ε) (w : CatOpts → World) (a : Option CatArgs) (failed : Bool) (v : View)
    (n : Nat) : Prop :=
  match catchunks lib a with
  | .exit status => failed = false ∧ v = {} ∧ n = status
  | .run o =>
    match o.kind with
    | .fixed => Ends (fixedPipe o.size o.retries) (w o) o failed v n
    | _ => Ends (adaptivePipe (W.alg o) (adaptOpts o) (W.init o) (W.env o)) (w o) o failed v n
  | _ => False

/-- chunks/putchunks/main.cpp:89-157 and producer.cpp:40-96: with the command line `a`, the input `input` and the time `now`
the program serves as the producer `p`. -/
def Serves (lib : Lib) (a : Option PutArgs) (now : Nat) (input : Bytes) (p : Producer.Prod) : Prop :=
  ∃ o, putchunks lib a = .run o ∧ p = Producer.construct o.2 o.1 now input

end Verif.Transfer
