import Verif.Model.Pieces
/-! Directories that change while they are read: `read_dir` and the loops over its entries (`/repo/src/storages/fs.rs:475-492`, `512-542` and
`578-607`) take time, and other threads create and delete entries meanwhile. -/
namespace S3

/-- One stride of a thread: as `Stride`, or the answer to a `read_dir` of `/repo/src/storages/fs.rs:475,514,580` with these entries (name, and
whether it is a directory). Which answers are possible depends on what happens meanwhile; `Spec/Looks.lean` says which. -/
inductive Glance where
  | stride (s : Stride)
  | look (entries : List (Bytes × Bool))

/-- One stride. An answer to `read_dir` means nothing to a thread that does not wait for one (`/repo/src/storages/fs.rs:475,514,580`). -/
def stepProgL {α : Type} (cfg : Cfg) (p : Prog α) (g : Glance) (fs : FS) : Prog α × FS :=
  match g with
  | .stride s => stepProgS cfg p s fs
  | .look es =>
    match p with
    | .sys (.readDir _) k => (k (some es), fs)
    | _ => (p, fs)

/-- Run the threads on a common file tree, as `runParS`. Environment of `/repo/src/storages/fs.rs`. -/
def runParL {α : Type} (cfg : Cfg) : List (Nat × Glance) → List (Prog α) → FS → List (Prog α) × FS
  | [], ps, fs => (ps, fs)
  | (i, g) :: glances, ps, fs =>
    match ps[i]? with
    | none => runParL cfg glances ps fs
    | some p => runParL cfg glances (ps.set i (stepProgL cfg p g fs).1) (stepProgL cfg p g fs).2

end S3
