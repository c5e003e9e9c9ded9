import Verif.Model.Par
import Verif.Spec.Fault
/-! The life of a server: it is started, serves any number of requests at the same time on a disk that may fail, dies or is stopped
at any moment, and is started again. -/
namespace S3.Spec

/-- One run of the server: the requests it receives, and the system calls made for them, in order: for which request, and what goes
wrong. Requests that are not finished at the end of the list are cut off there. -/
structure Epoch where
  requests : List Op
  steps : List (Nat × Fault)

/-- the file tree when a run of the server has come to its end -/
def Epoch.leaves (cfg : Cfg) (ext : Ext) (e : Epoch) (fs : FS) : FS := (runParF cfg e.steps (e.requests.map (opProg cfg ext)) fs).2

/-- the answer to the `n`-th request of a run of the server, if it has been given -/
def Epoch.answered (cfg : Cfg) (ext : Ext) (e : Epoch) (fs : FS) (n : Nat) : Option (Outcome Answer) :=
  (runParF cfg e.steps (e.requests.map (opProg cfg ext)) fs).1[n]?.bind Prog.outcome

/-- the file tree after several runs of the server -/
def life (cfg : Cfg) (ext : Ext) : List Epoch → FS → FS
  | [], fs => fs
  | e :: es, fs => life cfg ext es (e.leaves cfg ext fs)

end S3.Spec
