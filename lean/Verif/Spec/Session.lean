import Verif.Spec.Client
import Verif.Spec.Isolated
import Verif.Spec.Fair
/-! Specification: clients that send requests one after the other, and several such clients at the same time. -/
namespace S3.Spec

/-- a client: it sends a request, waits for the response, and decides what to do next; in the end it stops -/
inductive Client where
  | stop
  | send (e : Exchange) (next : Response → Client)

/-- every request the client may ever send satisfies `P` -/
def Client.Sends (P : Exchange → Prop) : Client → Prop
  | .stop => True
  | .send e next => P e ∧ ∀ res, (next res).Sends P

/-- the server's work for one client, with the requests and responses as result -/
def conversation (cfg : Cfg) (ext : Ext) (lib : Lib) (auth : Option Provider) : Client → Prog (List (Exchange × Response))
  | .stop => .ret []
  | .send e next => (hyperCall cfg ext lib auth e.env e.texts e.req).bind fun res =>
      (conversation cfg ext lib auth (next res)).bind fun t => .ret ((e, res) :: t)

/-- the conversation with client `n` when the system calls made for the clients interleave as in the schedule (`none`: not finished) -/
def conversationAt (cfg : Cfg) (ext : Ext) (lib : Lib) (auth : Option Provider) (sched : List Nat) (clients : List Client) (fs : FS) (n : Nat) :
    Option (Outcome (List (Exchange × Response))) :=
  (runPar cfg sched (clients.map (conversation cfg ext lib auth)) fs).1[n]?.bind Prog.outcome

/-- the file tree then -/
def afterClients (cfg : Cfg) (ext : Ext) (lib : Lib) (auth : Option Provider) (sched : List Nat) (clients : List Client) (fs : FS) : FS :=
  (runPar cfg sched (clients.map (conversation cfg ext lib auth)) fs).2

/-- `t` is the conversation of the client with a server that serves nobody else -/
inductive Alone (cfg : Cfg) (ext : Ext) (lib : Lib) (auth : Option Provider) : Client → FS → List (Exchange × Response) → Prop where
  | stop {fs} : Alone cfg ext lib auth .stop fs []
  | send {e next fs res t} : responded cfg ext lib auth e.env e.texts e.req fs = .ok res →
      Alone cfg ext lib auth (next res) (afterResponded cfg ext lib auth e.env e.texts e.req fs) t →
      Alone cfg ext lib auth (.send e next) fs ((e, res) :: t)

/-- the request asks for an operation in `P`, or is refused at once -/
def AsksIn (cfg : Cfg) (ext : Ext) (lib : Lib) (auth : Option Provider) (P : Op → Prop) (e : Exchange) : Prop :=
  (∃ o, P o ∧ Asks lib auth e o) ∨ ∃ err, handle cfg ext lib auth e.env e.req = .fail err

end S3.Spec
