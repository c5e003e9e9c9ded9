import Verif.Model.Storage
/-! Disks that fail: system calls of `/repo/src/storages/fs.rs` that end with an error of the device (disk full, I/O error,
too many open files) although the file tree would allow them. -/
namespace S3

/-- What goes wrong with a system call of `/repo/src/storages/fs.rs`: nothing; an error instead of the effect; an error
although the effect took place; an error in the middle of the effect (how much was written, what was removed). -/
inductive Fault where
  | none
  | before
  | after
  | during (written : Nat) (removed : List Path)

/-- The answer of a call that failed, as the functions of `async_fs` and `std::fs` behind `/repo/src/storages/fs.rs` report it. Kinds of
errors are not told apart; `create_dir_all` does tell "not found" apart, which is not an error of the device. -/
def failed : (c : Call) → Resp c
  | .stat _ => none
  | .mkdir _ => .failed
  | .openRead _ => none
  | .fstat _ => none
  | .readAll _ => none
  | .readAt .. => none
  | .create _ => none
  | .writeAt .. => false
  | .unlink _ => false
  | .rmdir _ => false
  | .rmtree _ => false
  | .readDir _ => none

/-- What is left of a call that fails on the way. Two calls of `/repo/src/storages/fs.rs` have parts: a write (lines 117, 144-176,
820) may have written the first bytes, `remove_dir_all` (line 262) may have removed entries, each with everything below it. -/
def partialEffect (fs : FS) (written : Nat) (removed : List Path) : Call → FS
  | .writeAt i off b =>
    if b.take written = [] then fs else fs.setData i (splice (fs.data i) off (b.take written))
  | .rmtree p =>
    match fs.lookup p with
    | some .dir =>
      if p ≠ [] then removed.foldl (fun fs q => if p.isPrefixOf q then fs.eraseTree q else fs) fs else fs
    | _ => fs
  | _ => fs

/-- a system call on a disk that may fail. Environment of `/repo/src/storages/fs.rs`. -/
def execF (cfg : Cfg) (fs : FS) (c : Call) : Fault → Resp c × FS
  | .none => exec cfg fs c
  | .before => (failed c, fs)
  | .after => (failed c, (exec cfg fs c).2)
  | .during n rs => (failed c, partialEffect fs n rs c)

/-- run a program alone on a disk that may fail: `o n` is what goes wrong with the `n`-th system call. One request served
while no other is running, `/repo/src/storages/fs.rs`. -/
def runF {α : Type} (cfg : Cfg) : (Nat → Fault) → Prog α → FS → Outcome α × FS
  | _, .ret a, fs => (.ok a, fs)
  | _, .fail e, fs => (.err e, fs)
  | _, .panic, fs => (.panic, fs)
  | _, .diverge, fs => (.diverge, fs)
  | o, .sys c k, fs => runF cfg (fun n => o (n + 1)) (k (execF cfg fs c (o 0)).1) (execF cfg fs c (o 0)).2

/-- The same, stopped after `n` system calls: the server dies on a disk that may fail. Environment of
`/repo/src/storages/fs.rs`. -/
def runFN {α : Type} (cfg : Cfg) : (Nat → Fault) → Nat → Prog α → FS → Prog α × FS
  | o, n + 1, .sys c k, fs =>
    runFN cfg (fun n => o (n + 1)) n (k (execF cfg fs c (o 0)).1) (execF cfg fs c (o 0)).2
  | _, _, p, fs => (p, fs)

/-- one system call of a program, on a disk that may fail. Environment of `/repo/src/storages/fs.rs`. -/
def stepProgF {α : Type} (cfg : Cfg) (p : Prog α) (f : Fault) (fs : FS) : Prog α × FS :=
  match p with
  | .sys c k => (k (execF cfg fs c f).1, (execF cfg fs c f).2)
  | p => (p, fs)

/-- run the threads `ps` on a common file tree: the list says which thread takes the next step, and what goes wrong with it.
Where the list ends the server dies. Environment of `/repo/src/storages/fs.rs`. -/
def runParF {α : Type} (cfg : Cfg) : List (Nat × Fault) → List (Prog α) → FS → List (Prog α) × FS
  | [], ps, fs => (ps, fs)
  | (i, f) :: steps, ps, fs =>
    match ps[i]? with
    | none => runParF cfg steps ps fs
    | some p => runParF cfg steps (ps.set i (stepProgF cfg p f fs).1) (stepProgF cfg p f fs).2

end S3
