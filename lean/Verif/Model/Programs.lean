import Verif.Model.Cli

/-!
# ndnpeek and ndnpoke from the command line to the exit status

The whole of `main`: the checks of the command line (Model/Cli), then the tool itself (Model/Peek, Model/Poke). An exception,
for example because there is no connection to the forwarder, may end the tool at any time.
-/

namespace Verif.Programs

open Cli

/-- peek/ndnpeek/main.cpp:111-203. With the command line `a` (`none`: the option parser failed) the events `es` happened, an
exception left `processEvents` if `failed`, `out` was written to the standard output (other than help and version), the
Interests `sent` were expressed and the exit status was `n`. -/
def Peek (lib : Lib) (digest : Bytes → Bytes) (a : Option PeekArgs) (es : List Peek.Ev) (failed : Bool)
    (out : List Peek.Out) (sent : List Peek.FullInterest) (n : Nat) : Prop :=
  match peek lib a with
  | .exit status => es = [] ∧ failed = false ∧ out = [] ∧ sent = [] ∧ n = status
  | .run o => ∃ s, (Peek.machine digest o).Run es s ∧ out = s.out ∧ sent = s.interests ∧
      if failed then n = 1 else s.Exits n
  | _ => False

/-- peek/ndnpoke/main.cpp:90-168, likewise. `input`: the standard input; `sent`: the Data that were put on the face. -/
def Poke (lib : Lib) (digest : Data → Bytes) (input : Bytes) (a : Option PokeArgs) (es : List Poke.Ev) (failed : Bool)
    (sent : List Data) (n : Nat) : Prop :=
  match poke lib a with
  | .exit status => es = [] ∧ failed = false ∧ sent = [] ∧ n = status
  | .run o => ∃ s, (Poke.machine digest o input).Run es s ∧ sent = s.sent ∧ if failed then n = 1 else s.Exits n
  | _ => False

end Verif.Programs
