import Verif.Model.Consumer
import Verif.Model.Discover
import Verif.Model.Fixed
import Verif.Model.Adaptive

/-!
# Model of the program `ndncatchunks`

`tools/chunks/catchunks/main.cpp:232-310` and `consumer.cpp:40-57`: version discovery, pipeline and
consumer wired together, and the exit status. The command line is not part of this model
(`Model/Cli.lean`).
-/

namespace Verif.Catchunks

/-- A call of one of the two callbacks that the consumer gives to the pipeline (consumer.cpp:48-52). -/
inductive Call
  | data (k : Nat) (p : Pkt)
  | failure (m : FailMsg)
  deriving DecidableEq, Repr

/-- A pipeline, as far as the consumer and the event loop see it.
* `M`: the component after `run()` was called,
* `calls`: the calls of the callbacks so far,
* `threw`: an exception left one of its handlers,
* `idle`: it has no pending Interest, scheduled event or posted handler,
* `byUser`: the event is something that only the owner of the pipeline does (`cancel()`); the
  consumer never does,
* `arrival`: the Data that the event brings, with its segment number. -/
structure Pipe (σ ε : Type) where
  M : Machine σ ε
  calls : σ → List Call
  threw : σ → Bool
  idle : σ → Prop
  byUser : ε → Bool
  arrival : σ → ε → Option (Nat × Pkt)

/-- Nothing of the fetch can call back any more. A fetch that is not running has cancelled its pending
Interest (data-fetcher.cpp:67-75). -/
def fetchIdle (f : DataFetcher.Fetcher) : Prop :=
  f.timer = none ∧ (f.isRunning = true → f.pending = 0)

instance (f : DataFetcher.Fetcher) : Decidable (fetchIdle f) := by unfold fetchIdle; infer_instance

/-- The fixed pipeline (main.cpp:241-243). -/
def fixedPipe (maxPipelineSize : Nat) (maxRetries : Int) : Pipe Fixed.St Fixed.Ev where
  M := Fixed.machine maxPipelineSize maxRetries
  calls s := s.log.filterMap fun
    | .data k p => some (.data k p)
    | .failure m => some (.failure m)
    | _ => none
  threw s := s.threw.isSome
  idle s := s.posted = [] ∧ ∀ x ∈ s.slots, ∀ f k, x = some (f, k) → fetchIdle f
  byUser
    | .cancel => true
    | .data _ _ c => c
    | _ => false
  arrival s
    | .data i p _ => match s.slots[i]? with
      | some (some (_, k)) => some (k, p)
      | _ => none
    | _ => none

/-- An adaptive pipeline (main.cpp:244-285). -/
def adaptivePipe {σ ε : Type} (A : Adaptive.Alg σ ε) (o : Adaptive.Opts) (w : σ) (v : Adaptive.Env ε) :
    Pipe (Adaptive.St σ) (Adaptive.Ev ε) where
  M := Adaptive.machine A o w v
  calls s := s.log.filterMap fun
    | .data k p => some (.data k p)
    | .failure m => some (.failure m)
    | _ => none
  threw s := s.threw.isSome
  idle s := s.posted = [] ∧ s.timer = false ∧ ∀ x ∈ s.info, x.2.pending = false
  byUser
    | .cancel => true
    | .data _ _ c _ => c
    | _ => false
  arrival _
    | .data k p _ _ => some (k, p)
    | _ => none

variable {σ ε : Type}

/-- `m_discover`, `m_pipeline` once it runs (with the name that it fetches), and the consumer itself. -/
structure St (σ : Type) where
  disc : Discover.St
  pipe : Option (Name × σ)
  cons : Consumer.St

/-- consumer.cpp:48-52,59-77: what a callback does. The validator is called for every packet and calls
back at once; `p.valid` is its verdict. -/
def deliver (c : Consumer.St) : Call → Consumer.St
  | .data k p =>
    if p.valid then (c.step (.data k p)).step (.valid k p) else (c.step (.data k p)).step (.invalid k p)
  | .failure _ => if c.threw.isSome then c else { c with threw := some .failure }

/-- consumer.cpp:48-55: the reaction to the signals of the version discovery. -/
def onReport (P : Pipe σ ε) (s : St σ) : Discover.Obs → St σ
  | .interest => s
  | .success n =>
    { s with pipe := some (n, P.M.init), cons := (P.calls P.M.init).foldl deliver s.cons }
  | .failure _ => { s with cons := if s.cons.threw.isSome then s.cons else { s.cons with threw := some .failure } }

/-- main.cpp:291-294 and consumer.cpp:40-57 `run`. -/
def start (P : Pipe σ ε) (o : Discover.Opts) (name : Name) : St σ :=
  let d := Discover.start o name
  d.log.foldl (onReport P) { disc := d, pipe := none, cons := {} }

/-- What can happen: an event for the version discovery or one for the pipeline. -/
inductive Ev (ε : Type)
  | disc (e : Discover.Ev)
  | pipe (e : ε)

/-- One event. -/
def St.step (P : Pipe σ ε) (s : St σ) : Ev ε → St σ
  | .disc e =>
    let d := s.disc.step e
    (d.log.drop s.disc.log.length).foldl (onReport P) { s with disc := d }
  | .pipe e =>
    match s.pipe with
    | none => s
    | some (n, q) =>
      let q' := P.M.step q e
      { s with pipe := some (n, q')
               cons := ((P.calls q').drop (P.calls q).length).foldl deliver s.cons }

/-- An exception left `face.processEvents()`. -/
def St.ended (P : Pipe σ ε) (s : St σ) : Prop :=
  s.cons.threw ≠ none ∨ ∃ n q, s.pipe = some (n, q) ∧ P.threw q = true

/-- Which events can happen. -/
def St.enabled (P : Pipe σ ε) (name : Name) (s : St σ) (e : Ev ε) : Prop :=
  ¬ s.ended P ∧
  match e with
  | .disc e => s.disc.enabled name e
  | .pipe e => ∃ n q, s.pipe = some (n, q) ∧ P.M.enabled q e ∧ P.byUser e = false

/-- The program, fetching `name`. -/
def machine (P : Pipe σ ε) (o : Discover.Opts) (name : Name) : Machine (St σ) (Ev ε) :=
  { init := start P o name, step := St.step P, enabled := St.enabled P name }

/-- Nothing can happen any more, so `face.processEvents()` returns. -/
def St.idle (P : Pipe σ ε) (s : St σ) : Prop :=
  (∀ f, s.disc.fetcher = some f → fetchIdle f) ∧ ∀ n q, s.pipe = some (n, q) → P.idle q

/-- main.cpp:295-310: the program terminates in state `s` with exit status `n`. -/
def St.Exits (P : Pipe σ ε) (s : St σ) (n : Nat) : Prop :=
  match s.cons.threw with
  | some .appNack => n = 3
  | some .invalid => n = 5
  | some .failure => n = 1
  | none => (s.ended P ∧ n = 1) ∨ (¬ s.ended P ∧ s.idle P ∧ n = 0)

/-- What was written to the standard output. -/
def St.stdout (s : St σ) : Bytes := s.cons.out

end Verif.Catchunks
