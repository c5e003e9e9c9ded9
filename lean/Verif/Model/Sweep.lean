import Verif.Model.Fault
/-! Removal of a directory entry by entry: `remove_dir_all`, `/repo/src/storages/fs.rs:262`, is a loop of the standard library over the
entries; other threads run in between. -/
namespace S3

/-- One stride of a thread: a system call of `/repo/src/storages/fs.rs` that comes to its end, or, in the middle of `remove_dir_all`
(line 262), the removal of some of the entries. -/
inductive Stride where
  | call (f : Fault)
  | sweep (removed : List Path)

/-- One stride. A sweep removes entries below the directory (each with everything below it; a single file is a list of one path) and
leaves the thread where it is; it means nothing to a thread that is not in `remove_dir_all` (`/repo/src/storages/fs.rs:262`). -/
def stepProgS {α : Type} (cfg : Cfg) (p : Prog α) (s : Stride) (fs : FS) : Prog α × FS :=
  match s with
  | .call f => stepProgF cfg p f fs
  | .sweep rs =>
    match p with
    | .sys (.rmtree q) _ => (p, partialEffect fs 0 rs (.rmtree q))
    | _ => (p, fs)

/-- Run the threads on a common file tree, as `runParF`, stride by stride. Environment of `/repo/src/storages/fs.rs`. -/
def runParS {α : Type} (cfg : Cfg) : List (Nat × Stride) → List (Prog α) → FS → List (Prog α) × FS
  | [], ps, fs => (ps, fs)
  | (i, s) :: strides, ps, fs =>
    match ps[i]? with
    | none => runParS cfg strides ps fs
    | some p => runParS cfg strides (ps.set i (stepProgS cfg p s fs).1) (stepProgS cfg p s fs).2

end S3
