import Verif.Spec.Life
import Verif.Spec.Session
/-! The life of a server, as its HTTP clients see it. -/
namespace S3.Spec

/-- One run of the server: the HTTP requests it receives, and the system calls made for them, in order: for which request, and what
goes wrong. Requests that are not finished at the end of the list are cut off there. (Whether a request is sent after another one has
been answered does not matter here: the order of the system calls says it.) -/
structure WebEpoch where
  requests : List Exchange
  steps : List (Nat × Fault)

/-- the file tree when a run of the server has come to its end -/
def WebEpoch.leaves (cfg : Cfg) (ext : Ext) (lib : Lib) (auth : Option Provider) (w : WebEpoch) (fs : FS) : FS :=
  (runParF cfg w.steps (w.requests.map fun x => hyperCall cfg ext lib auth x.env x.texts x.req) fs).2

/-- the response to the `n`-th request of a run of the server, if it has been given -/
def WebEpoch.response (cfg : Cfg) (ext : Ext) (lib : Lib) (auth : Option Provider) (w : WebEpoch) (fs : FS) (n : Nat) : Option (Outcome Response) :=
  (runParF cfg w.steps (w.requests.map fun x => hyperCall cfg ext lib auth x.env x.texts x.req) fs).1[n]?.bind Prog.outcome

/-- the file tree after several runs of the server -/
def webLife (cfg : Cfg) (ext : Ext) (lib : Lib) (auth : Option Provider) : List WebEpoch → FS → FS
  | [], fs => fs
  | w :: ws, fs => webLife cfg ext lib auth ws (w.leaves cfg ext lib auth fs)

end S3.Spec
