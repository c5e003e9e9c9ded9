import Verif.Model.Clock
import Verif.Spec.Life
import Verif.Spec.Object
import Verif.Spec.Isolated
import Verif.Model.Response
/-! The life of a server, with a clock. -/
namespace S3.Spec

/-- One run of the server (see `Epoch`) with the times: the requests it receives, and the system calls made for them, in order: for which
request, what goes wrong, and what the clock shows. Nothing is assumed about the clock. -/
structure TimedEpoch where
  requests : List Op
  steps : List (Nat × Fault × Time)

/-- the run without the times -/
def TimedEpoch.epoch (e : TimedEpoch) : Epoch := ⟨e.requests, e.steps.map fun s => (s.1, s.2.1)⟩

/-- the file tree and its times when a run of the server has come to its end -/
def TimedEpoch.leaves (cfg : Cfg) (ext : Ext) (e : TimedEpoch) (s : FS × Stamps) : FS × Stamps :=
  (runParT cfg e.steps (e.requests.map (opProg cfg ext)) s).2

/-- the answer to the `n`-th request of a run of the server, if it has been given -/
def TimedEpoch.answered (cfg : Cfg) (ext : Ext) (e : TimedEpoch) (s : FS × Stamps) (n : Nat) : Option (Outcome Answer) :=
  (runParT cfg e.steps (e.requests.map (opProg cfg ext)) s).1[n]?.bind Prog.outcome

/-- the file tree and its times after several runs of the server -/
def timedLife (cfg : Cfg) (ext : Ext) : List TimedEpoch → FS × Stamps → FS × Stamps
  | [], s => s
  | e :: es, s => timedLife cfg ext es (e.leaves cfg ext s)

/-- `now` is what the clock showed at one of the moments at which the server worked on the `n`-th request -/
def TimedEpoch.During (e : TimedEpoch) (n : Nat) (now : Time) : Prop := ∃ f, (n, f, now) ∈ e.steps

/-- `now` is what the clock showed at some moment of these runs of the server -/
def InLife (es : List TimedEpoch) (now : Time) : Prop := ∃ e ∈ es, ∃ n, e.During n now

/-- when the regular file at a path was last modified -/
def modifiedAt (s : FS × Stamps) (p : Path) : Option Time :=
  match s.1.lookup p with
  | some (.file i) => some (s.2.modified i)
  | _ => none

/-- when the object at an address was last modified; `none` if there is none -/
def lastModified (cfg : Cfg) (s : FS × Stamps) (b k : Bytes) : Option Time :=
  match objectPath cfg b k with
  | some p => if p.slash then none else modifiedAt s p.comps
  | none => none

/-- when the bucket was created; `none` if it does not exist -/
def bucketCreated (cfg : Cfg) (s : FS × Stamps) (b : Bytes) : Option Time :=
  match s.1.lookup (cfg.root ++ [b]) with
  | some .dir => some (s.2.created (cfg.root ++ [b]))
  | _ => none

/-- The texts of responses (see `Texts`) show the times that are kept with the file tree. -/
structure ShowsTimes (cfg : Cfg) (s : FS × Stamps) (x : Texts) : Prop where
  modified : ∀ b k now, lastModified cfg s b k = some now → x.modified b k = now
  created : ∀ b now, bucketCreated cfg s b = some now → x.created b = now

end S3.Spec
