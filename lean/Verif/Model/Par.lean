import Verif.Model.Storage
/-! Concurrent execution: several requests share the file tree, system calls interleave arbitrarily.
Environment of `/repo/src/storages/fs.rs`: the methods are `async` and run on a thread pool, so between
any two system calls of one request others may take place. -/
namespace S3

/-- one system call of a program (a finished program does nothing). Environment of `/repo/src/storages/fs.rs`. -/
def stepProg {α : Type} (cfg : Cfg) (p : Prog α) (fs : FS) : Prog α × FS :=
  match p with
  | .sys c k => (k (exec cfg fs c).1, (exec cfg fs c).2)
  | p => (p, fs)

/-- run the threads `ps` on a common file tree under a schedule: the list of the threads that take the
next step (an entry that names no thread does nothing). Environment of `/repo/src/storages/fs.rs`. -/
def runPar {α : Type} (cfg : Cfg) : List Nat → List (Prog α) → FS → List (Prog α) × FS
  | [], ps, fs => (ps, fs)
  | i :: sched, ps, fs =>
    match ps[i]? with
    | none => runPar cfg sched ps fs
    | some p => runPar cfg sched (ps.set i (stepProg cfg p fs).1) (stepProg cfg p fs).2

/-- the outcome of a finished program. The answer of a method of `/repo/src/storages/fs.rs`. -/
def Prog.outcome {α : Type} : Prog α → Option (Outcome α)
  | .ret a => some (.ok a)
  | .fail e => some (.err e)
  | .panic => some .panic
  | .diverge => some .diverge
  | .sys _ _ => none

end S3
