import Verif.Spec.Ping
import Verif.Model.PingServer

/-!
# `ndnping` and `ndnpingserver` with a network between them

The network brings Interests to the server, possibly from other clients as well, and brings Data that the server has put to
the client if they satisfy a pending Interest. No one else produces Data under the prefix.
-/

namespace Verif.PingNet

/-- The two programs. -/
structure St where
  client : Ping.Prog
  server : PingServer.St := {}

/-- An event of one of them. -/
inductive Ev
  | client (e : Ping.PEv)
  | server (e : PingServer.Ev)
  deriving DecidableEq, Repr

def St.step (r : ℚ → ℚ) (c : Ping.Opts) (o : PingServer.Opts) (s : St) : Ev → St
  | .client e => { s with client := s.client.step r c e }
  | .server e => { s with server := s.server.step o e }

/-- The client's history has the Interest with number `q`, the server's history a Data that satisfies it. -/
def answers (digest : Data → Bytes) (q : Nat) : Ping.Obs → PingServer.Obs → Bool
  | .interest q' i, .reply d => decide (q' = q) && i.matchesData digest d
  | _, _ => false

def St.Answered (digest : Data → Bytes) (s : St) (q : Nat) : Prop :=
  ∃ x ∈ s.client.ping.log, ∃ y ∈ s.server.log, answers digest q x y = true

instance (digest : Data → Bytes) (s : St) (q : Nat) : Decidable (s.Answered digest q) := by
  unfold St.Answered; infer_instance

/-- The network invents no Data. It may lose, delay, duplicate and reorder packets, and answer with Nacks. -/
def St.enabled (digest : Data → Bytes) (o : PingServer.Opts) (s : St) : Ev → Prop
  | .client (.ping (.data q t)) => s.client.enabled (.ping (.data q t)) ∧ s.Answered digest q
  | .client e => s.client.enabled e
  | .server e => s.server.enabled o e

instance (digest : Data → Bytes) (o : PingServer.Opts) (s : St) (e : Ev) : Decidable (s.enabled digest o e) := by
  unfold St.enabled; split <;> infer_instance

/-- Client and server over any network. -/
def netMachine (digest : Data → Bytes) (r : ℚ → ℚ) (c : Ping.Opts) (o : PingServer.Opts) : Machine St Ev :=
  { init := { client := (Ping.progMachine r c).init }, step := St.step r c o, enabled := St.enabled digest o }

/-- The name of the Interest, if the entry of the history sends ping number `q`. -/
def pingName (q : Nat) : Ping.Obs → Option Name
  | .interest q' i => if q' = q then some i.name else none
  | _ => none

/-- The Interest `i` is one that the client sent. -/
def isPing (i : Interest) : Ping.Obs → Bool
  | .interest _ j => decide (j = i)
  | _ => false

/-- Ping number `q` has reached the server. -/
def St.Reached (s : St) (q : Nat) : Prop :=
  ∃ x ∈ s.client.ping.log, ∃ y ∈ s.server.log,
    match y with
    | .received n => pingName q x = some n
    | _ => False

instance (s : St) (q : Nat) : Decidable (s.Reached q) := by
  unfold St.Reached
  refine @List.decidableBEx _ _ (fun x => @List.decidableBEx _ _ (fun y => ?_) _) _
  cases y <;> infer_instance

/-- What happens if the network works: each ping reaches the server once while it is there, no one else
uses the server and no one stops it, and a ping fails only by a timeout, if the server has gone and the ping did not
reach it. -/
def St.works (s : St) : Ev → Prop
  | .client (.ping (.timeout q)) => s.server.registered = false ∧ ¬ s.Reached q
  | .client (.ping (.nack _ _ _)) => False
  | .client _ => True
  | .server (.interest i) =>
    (∃ x ∈ s.client.ping.log, isPing i x = true) ∧ s.server.registered = true ∧ PingServer.Obs.received i.name ∉ s.server.log
  | .server .sigint => False

instance (s : St) (e : Ev) : Decidable (s.works e) := by
  unfold St.works; split <;> infer_instance

/-- Client and server over a network that works. -/
def workingMachine (digest : Data → Bytes) (r : ℚ → ℚ) (c : Ping.Opts) (o : PingServer.Opts) : Machine St Ev :=
  { netMachine digest r c o with enabled := fun s e => s.enabled digest o e ∧ s.works e }

instance (digest : Data → Bytes) (r : ℚ → ℚ) (c : Ping.Opts) (o : PingServer.Opts) (s : St) (e : Ev) :
    Decidable ((netMachine digest r c o).enabled s e) := inferInstanceAs (Decidable (s.enabled digest o e))

instance (digest : Data → Bytes) (r : ℚ → ℚ) (c : Ping.Opts) (o : PingServer.Opts) (s : St) (e : Ev) :
    Decidable ((workingMachine digest r c o).enabled s e) :=
  inferInstanceAs (Decidable (s.enabled digest o e ∧ s.works e))

/-- The number of Interests that the server has received. -/
def nReceived (l : List PingServer.Obs) : Nat := l.countP fun x => match x with | .received _ => true | _ => false

end Verif.PingNet
