import Verif.Model.Catchunks
import Verif.Model.Producer
import Verif.Spec.Discover
import Verif.Spec.Fixed
import Verif.Spec.Adaptive

/-! # Vocabulary for the end-to-end statements -/

namespace Verif.Catchunks

variable {σ ε : Type}

/-- The FinalBlockId of a packet, as the pipelines read it. -/
def finalOf : Option Comp → FinalBlock
  | none => .absent
  | some c => match c.toSegment with
    | some n => .seg n
    | none => .notSegment

/-- The packet `p` that reaches the pipeline is the Data `d`. It may have got a congestion mark; the
accept-all validator finds it valid. -/
def Carries (d : Data) (p : Pkt) : Prop :=
  p.content = d.content ∧ p.final = finalOf d.final ∧ (d.isBlob = true → p.appNack = false) ∧ p.valid = true

/-- A reply of the producer can be delivered as the packet `p` in answer to the Interest `i`, directly or
from a cache. (Of metadata packets only the name is kept in the model.) -/
def Answers (digest : Data → Bytes) (i : Interest) (p : Pkt) : Producer.Reply → Prop
  | .data d => i.matchesData digest d = true ∧ Carries d p
  | .metadata n _ _ => i.name = n ∨ ∃ b, i.name = n ++ [⟨ttImplicitDigest, b⟩]
  | _ => False

/-- The Interest for segment `k` below the name `n` (pipeline-interests-fixed.cpp:85-88,
pipeline-interests-adaptive.cpp:145-148). -/
def segmentInterest (conv : Convention) (fresh : Bool) (n : Name) (k : Nat) : Interest :=
  { name := n ++ [.fromSegment conv k], canBePrefix := false, mustBeFresh := fresh }

/-- All Data come from the given producer: whatever arrives in answer to an Interest is a reply that the
producer gave, at some time, to some Interest, and that satisfies this Interest. Packets may be
lost, delayed, reordered, duplicated, answered by Nacks, and served from caches. Segment numbers are
`uint64_t`. -/
def FromProducer (P : Pipe σ ε) (digest : Data → Bytes) (prod : Producer.Prod) (conv : Convention)
    (fresh : Bool) (s : St σ) : Ev ε → Prop
  | .disc e => Discover.FromProducer digest prod e
  | .pipe e => ∀ n q k p, s.pipe = some (n, q) → P.arrival q e = some (k, p) →
      k < 2 ^ 64 ∧ ∃ i now r, r ∈ prod.onInterest digest now i ∧ Answers digest (segmentInterest conv fresh n k) p r

/-- `ndncatchunks` fetching `name` over such a network. -/
def netMachine (P : Pipe σ ε) (o : Discover.Opts) (digest : Data → Bytes) (prod : Producer.Prod)
    (conv : Convention) (fresh : Bool) (name : Name) : Machine (St σ) (Ev ε) :=
  { init := start P o name
    step := St.step P
    enabled := fun s e => s.enabled P name e ∧ FromProducer P digest prod conv fresh s e }

/-- The loss of a discovery Interest does not matter: the Interest may be sent again, because at most
`maxRetries` of the permitted `maxRetries + 1` Interests have been sent. -/
def DiscTolerable (o : Discover.Opts) (d : Discover.St) : Discover.Ev → Prop
  | .nack r => (r = .duplicate ∨ r = .congestion) ∧
      (o.maxRetries = -1 ∨ (d.log.count .interest : Int) ≤ o.maxRetries)
  | .timeout => o.maxRetries = -1 ∨ (d.log.count .interest : Int) ≤ o.maxRetries
  | _ => True

/-- `ndncatchunks` with the fixed pipeline over a network that does not lose too much: of the Interests that the
program may send for the metadata or for one segment not all are lost, and Nacks with other
reasons than Duplicate and Congestion are only received for segments that do not exist, once Data
with a FinalBlockId has arrived. -/
def fairMachine (N : Nat) (R : Int) (o : Discover.Opts) (digest : Data → Bytes) (prod : Producer.Prod)
    (conv : Convention) (fresh : Bool) (name : Name) : Machine (St Fixed.St) (Ev Fixed.Ev) :=
  { init := start (fixedPipe N R) o name
    step := St.step (fixedPipe N R)
    enabled := fun s e => (netMachine (fixedPipe N R) o digest prod conv fresh name).enabled s e ∧
      match e with
      | .disc e => DiscTolerable o s.disc e
      | .pipe e => ∀ n q, s.pipe = some (n, q) → Fixed.Tolerable R (prod.store.map (·.content)) q e }

/-- The event reaches a fetch (of the metadata or of a segment) that is still running. -/
def active (s : St Fixed.St) : Ev Fixed.Ev → Bool
  | .disc _ => s.disc.fetcher.any (·.isRunning)
  | .pipe e => s.pipe.any fun nq => Fixed.active nq.2 e

/-- The event is a Nack or a timeout. -/
def Ev.isLoss : Ev Fixed.Ev → Bool
  | .disc (.nack _) => true
  | .disc .timeout => true
  | .disc _ => false
  | .pipe e => e.isLoss

/-- How many of the events reach a running fetch. -/
def activeCount (N : Nat) (R : Int) (s : St Fixed.St) : List (Ev Fixed.Ev) → Nat
  | [] => 0
  | e :: es => (active s e).toNat + activeCount N R (s.step (fixedPipe N R) e) es

/-- How many of the events are Nacks and timeouts that reach a running fetch. -/
def lossCount (N : Nat) (R : Int) (s : St Fixed.St) : List (Ev Fixed.Ev) → Nat
  | [] => 0
  | e :: es => (active s e && e.isLoss).toNat + lossCount N R (s.step (fixedPipe N R) e) es

/-- `ndncatchunks` with an adaptive pipeline over a usable network: of the Interests that the program may send
for the metadata not all are lost; Nacks with other reasons than Duplicate and Congestion are only received for
segments that do not exist; and the Face calls back only for Interests that have not been
cancelled. -/
def usableMachine {σ ε : Type} (A : Adaptive.Alg σ ε) (ao : Adaptive.Opts) (w : σ) (v : Adaptive.Env ε)
    (o : Discover.Opts) (digest : Data → Bytes) (prod : Producer.Prod) (conv : Convention) (fresh : Bool) (name : Name) :
    Machine (St (Adaptive.St σ)) (Ev (Adaptive.Ev ε)) :=
  { init := start (adaptivePipe A ao w v) o name
    step := St.step (adaptivePipe A ao w v)
    enabled := fun s e => (netMachine (adaptivePipe A ao w v) o digest prod conv fresh name).enabled s e ∧
      match e with
      | .disc e => DiscTolerable o s.disc e
      | .pipe e => Adaptive.BeyondEndEv (prod.store.map (·.content)) e ∧
          ∀ n q, s.pipe = some (n, q) → Adaptive.Prompt q e }

/-- The events that reach the pipeline. -/
def pipeEvents (es : List (Ev ε)) : List ε :=
  es.filterMap fun
    | .disc _ => none
    | .pipe e => some e

/-- The name is one under which the object of the producer can be requested: its versioned name; or its name
without version, and the version will be discovered. -/
def Requests (prod : Producer.Prod) (o : Discover.Opts) (name : Name) : Prop :=
  name = prod.versionedPrefix ∨ (name = prod.pre ∧ o.disable = false ∧ name.endsWithVersion = false)

/-- The pipeline delivered a packet that is valid and no application Nack. -/
def Call.good : Call → Prop
  | .data _ p => p.valid = true ∧ p.appNack = false
  | .failure _ => False

/-- The exit status that a bad call leads to. -/
def Call.status : Call → Nat
  | .failure _ => 1
  | .data _ p => if p.valid then 3 else 5

end Verif.Catchunks
