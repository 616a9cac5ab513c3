import Verif.Spec.Cli

/-! # The exit statuses in the manual pages of ndnpeek and ndnpoke -/

namespace Verif.Programs.Spec

open Cli Cli.Spec

/-- A command line that asks for help or the version. -/
def PeekInfo (a : Option PeekArgs) : Prop := ∃ x, a = some x ∧ (x.help = true ∨ x.version = true)

/-- A malformed command line: the option parser does not accept it, or a value is not in its range. -/
def PeekMalformed (lib : Lib) (a : Option PeekArgs) : Prop :=
  ∀ x, a = some x → ¬ (x.help = true ∨ x.version = true) ∧ ¬ PeekOk lib x

def PokeInfo (a : Option PokeArgs) : Prop := ∃ x, a = some x ∧ (x.help = true ∨ x.version = true)

def PokeMalformed (lib : Lib) (a : Option PokeArgs) : Prop :=
  ∀ x, a = some x → ¬ (x.help = true ∨ x.version = true) ∧ ¬ PokeOk lib x

/-- ndnpeek.rst, "Exit Status". -/
structure PeekStatus (lib : Lib) (a : Option PeekArgs) (es : List Peek.Ev) (failed : Bool) (n : Nat) : Prop where
  success : n = 0 ↔ PeekInfo a ∨ (failed = false ∧ ∃ d, Peek.Ev.data d ∈ es)
  error : n = 1 ↔ failed = true
  malformed : n = 2 ↔ PeekMalformed lib a
  timedOut : n = 3 ↔ failed = false ∧ (Peek.Ev.expire ∈ es ∨ Peek.Ev.timer ∈ es) ∧ (∀ d, Peek.Ev.data d ∉ es) ∧
    ∀ r, Peek.Ev.nack r ∉ es
  nack : n = 4 ↔ failed = false ∧ ∃ r, Peek.Ev.nack r ∈ es
  others : n ≤ 4

/-- ndnpoke.rst, "Exit Status". -/
structure PokeStatus (lib : Lib) (a : Option PokeArgs) (es : List Poke.Ev) (failed : Bool) (sent : List Data)
    (n : Nat) : Prop where
  success : n = 0 ↔ PokeInfo a ∨ (failed = false ∧ sent ≠ [])
  error : n = 1 ↔ failed = true
  malformed : n = 2 ↔ PokeMalformed lib a
  timedOut : n = 3 ↔ failed = false ∧ Poke.Ev.timer ∈ es ∧ sent = []
  registration : n = 5 ↔ failed = false ∧ Poke.Ev.regFailure ∈ es
  others : n ≤ 3 ∨ n = 5

end Verif.Programs.Spec
