import Verif.Model.Resolve
import Verif.Model.Errors
/-! The file system under `/repo/src/storages/fs.rs` (Linux, regular files and directories only) and
programs over its system calls. -/
namespace S3

/-- The identity of a regular file. The numbers are never observable and no operation of
`/repo/src/storages/fs.rs` renames or links files, so a file is identified by the path it was created
at and a counter of the files created there. -/
structure Ino where
  path : Path
  gen : Nat
  deriving DecidableEq, Repr

/-- a directory entry: directory, or regular file with its inode. Environment of `/repo/src/storages/fs.rs`;
symbolic links and special files are not modelled. -/
inductive Node where
  | dir
  | file (ino : Ino)
  deriving DecidableEq, Repr

/-- A file tree: the nodes by absolute path (the root `[]` is always a directory and not listed), the
content of every inode, and the number of files created at each path so far. Environment of
`/repo/src/storages/fs.rs`. -/
structure FS where
  nodes : List (Path × Node)
  data : Ino → Bytes
  gen : Path → Nat

/-- the node at a path. Environment of `/repo/src/storages/fs.rs`. -/
def FS.lookup (fs : FS) (p : Path) : Option Node :=
  if p = [] then some .dir
  else (fs.nodes.find? fun e => e.1 == p).map (·.2)

/-- the node at an operating-system path: a trailing slash only fits a directory. Environment of
`/repo/src/storages/fs.rs`. -/
def FS.at (fs : FS) (p : OsPath) : Option Node :=
  match fs.lookup p.comps with
  | some (.file i) => if p.slash then none else some (.file i)
  | r => r

/-- set the node at a path. Effect of `mkdir` and `open` behind `/repo/src/storages/fs.rs:197,680,686`. -/
def FS.set (fs : FS) (p : Path) (n : Node) : FS :=
  { fs with nodes := (p, n) :: fs.nodes.filter fun e => e.1 != p }

/-- remove the node at a path. Effect of `unlink` and `rmdir` behind `/repo/src/storages/fs.rs:276,279,300,828`. -/
def FS.erase (fs : FS) (p : Path) : FS :=
  { fs with nodes := fs.nodes.filter fun e => e.1 != p }

/-- remove a path and everything below it. Effect of `remove_dir_all`, `/repo/src/storages/fs.rs:262`. -/
def FS.eraseTree (fs : FS) (p : Path) : FS :=
  { fs with nodes := fs.nodes.filter fun e => !p.isPrefixOf e.1 }

/-- set the content of an inode. Effect of `open` with truncation and `write` behind
`/repo/src/storages/fs.rs:117,686,752,798`. -/
def FS.setData (fs : FS) (i : Ino) (b : Bytes) : FS :=
  { fs with data := fun j => if j = i then b else fs.data j }

/-- one more file has been created at a path. Bookkeeping for `open` with create behind
`/repo/src/storages/fs.rs:117,686,752,798`. -/
def FS.bump (fs : FS) (p : Path) : FS :=
  { fs with gen := fun q => if q = p then fs.gen q + 1 else fs.gen q }

/-- name and node of `e` if it lies directly in the directory `p`. Behind `read_dir`,
`/repo/src/storages/fs.rs:273,476,513,579`. -/
def childOf (p : Path) (e : Path × Node) : Option (Bytes × Node) :=
  match e.1.getLast? with
  | some c => if e.1.dropLast = p then some (c, e.2) else none
  | none => none

/-- the entries of a directory: name and node. Behind `read_dir`, `/repo/src/storages/fs.rs:273,476,513,579`. -/
def FS.children (fs : FS) (p : Path) : List (Bytes × Node) := fs.nodes.filterMap (childOf p)

/-- A file name the file system can store: not empty, at most 255 bytes, no NUL; `/`, `.` and `..`
do not occur in resolved paths. Environment of `/repo/src/storages/fs.rs` (Linux `NAME_MAX`; `PATH_MAX` is not
modelled). -/
def nameOk (c : Bytes) : Bool :=
  c ≠ [] && c.length ≤ 255 && !c.contains 0 && !c.contains 47 && c != b!"." && c != b!".."

/-- no NUL byte anywhere: otherwise the standard library refuses the path before any system call. Behind
`mkdir` and `open` in `/repo/src/storages/fs.rs`. -/
def noNul (p : Path) : Bool := p.all fun c => !c.contains 0

/-- an open file descriptor. Behind `File::open`, `/repo/src/storages/fs.rs:123,344,816`. -/
inductive Handle where
  | dir
  | file (ino : Ino)
  deriving DecidableEq, Repr

/-- what `stat` tells. Behind `exists` and `metadata`, `/repo/src/storages/fs.rs:97,192,353,448`. -/
inductive Stat where
  | dir
  | file (len : Nat)
  deriving DecidableEq, Repr

/-- result of `mkdir`, as far as `create_dir_all` distinguishes it. Behind `/repo/src/storages/fs.rs:197,667,680`. -/
inductive MkdirRes where
  | ok | notFound | failed
  deriving DecidableEq, Repr

/-- the system calls, see `exec`. Those issued by `/repo/src/storages/fs.rs`. -/
inductive Call where
  | stat (p : OsPath)
  | mkdir (p : Path)
  | openRead (p : OsPath)
  | fstat (h : Handle)
  | readAll (h : Handle)
  | readAt (h : Handle) (off n want : Nat)
  | create (p : OsPath)
  | writeAt (ino : Ino) (off : Nat) (b : Bytes)
  | unlink (p : OsPath)
  | rmdir (p : OsPath)
  | rmtree (p : Path)
  | readDir (p : OsPath)

/-- type of the answer of a system call. As used by `/repo/src/storages/fs.rs`; an error is `none` or `false`,
its kind is not kept. -/
abbrev Resp : Call → Type
  | .stat _ => Option Stat
  | .mkdir _ => MkdirRes
  | .openRead _ => Option Handle
  | .fstat _ => Option Nat
  | .readAll _ => Option Bytes
  | .readAt .. => Option Bytes
  | .create _ => Option Ino
  | .writeAt .. => Bool
  | .unlink _ => Bool
  | .rmdir _ => Bool
  | .rmtree _ => Bool
  | .readDir _ => Option (List (Bytes × Bool))

/-- overwrite `old` with `b` at `off`, filling a hole with zeros; writing no bytes has no effect. Behind
`/repo/src/storages/fs.rs:117,144-176,820`. -/
def splice (old : Bytes) (off : Nat) (b : Bytes) : Bytes :=
  if b = [] then old else old.take off ++ List.replicate (off - old.length) 0 ++ b ++ old.drop (off + b.length)

/-- The effect of one atomic system call, as used by `async_fs`/`std::fs` in
`/repo/src/storages/fs.rs`:
`stat` (`Path::exists`, `metadata`), `mkdir`, `open` read-only, `fstat`, reading a whole file,
reading at an offset (the kernel may return fewer bytes, `want`), `open` with create and truncate,
`write` at an offset, `unlink`, `rmdir`, `remove_dir_all` (one atomic step here; entry by entry in `Model/Sweep.lean`), `readdir`. -/
def exec (cfg : Cfg) (fs : FS) : (c : Call) → Resp c × FS
  | .stat p =>
    (match fs.at p with
      | some .dir => some .dir
      | some (.file i) => some (.file (fs.data i).length)
      | none => none, fs)
  | .mkdir p =>
    if !noNul p then (.failed, fs)
    else match p.getLast? with
      | none => (.failed, fs)
      | some c =>
        match fs.lookup p.dropLast with
        | none => (.notFound, fs)
        | some (.file _) => (.failed, fs)
        | some .dir =>
          match fs.lookup p with
          | some _ => (.failed, fs)
          | none => if nameOk c then (.ok, fs.set p .dir) else (.failed, fs)
  | .openRead p =>
    (match fs.at p with
      | some .dir => some .dir
      | some (.file i) => some (.file i)
      | none => none, fs)
  | .fstat h =>
    (match h with
      | .dir => some cfg.dirLen
      | .file i => some (fs.data i).length, fs)
  | .readAll h =>
    (match h with
      | .dir => none
      | .file i => some (fs.data i), fs)
  | .readAt h off n want =>
    (match h with
      | .dir => none
      | .file i =>
        let rest := (fs.data i).drop off
        let k := if n = 0 ∨ rest = [] then 0 else max 1 (min want (min n rest.length))
        some (rest.take k), fs)
  | .create p =>
    if !noNul p.comps || p.slash then (none, fs)
    else match p.comps.getLast? with
      | none => (none, fs)
      | some c =>
        match fs.lookup p.comps with
        | some .dir => (none, fs)
        | some (.file i) => (some i, fs.setData i [])
        | none =>
          match fs.lookup p.comps.dropLast with
          | some .dir =>
            if nameOk c then
              let i : Ino := ⟨p.comps, fs.gen p.comps⟩
              (some i, ((fs.set p.comps (.file i)).setData i []).bump p.comps)
            else (none, fs)
          | _ => (none, fs)
  | .writeAt i off b => (true, fs.setData i (splice (fs.data i) off b))
  | .unlink p =>
    match fs.at p with
    | some (.file _) => (true, fs.erase p.comps)
    | _ => (false, fs)
  | .rmdir p =>
    match fs.lookup p.comps with
    | some .dir =>
      if p.comps ≠ [] ∧ fs.children p.comps = [] then (true, fs.erase p.comps) else (false, fs)
    | _ => (false, fs)
  | .rmtree p =>
    match fs.lookup p with
    | some .dir => if p ≠ [] then (true, fs.eraseTree p) else (false, fs)
    | _ => (false, fs)
  | .readDir p =>
    match fs.lookup p.comps with
    | some .dir => (some ((fs.children p.comps).map fun e => (e.1, e.2 == .dir)), fs)
    | _ => (none, fs)

/-- A storage operation: a program that issues system calls one by one and ends with a result, an S3
error, or a panic. `diverge` marks an unbounded loop that ran out of the fuel given to the model. The `async`
methods of `/repo/src/storages/fs.rs`. -/
inductive Prog (α : Type) where
  | ret (a : α)
  | fail (e : S3ErrorCode)
  | panic
  | diverge
  | sys (c : Call) (k : Resp c → Prog α)

/-- sequencing. `.await?` in `/repo/src/storages/fs.rs`. -/
def Prog.bind {α β : Type} : Prog α → (α → Prog β) → Prog β
  | .ret a, f => f a
  | .fail e, _ => .fail e
  | .panic, _ => .panic
  | .diverge, _ => .diverge
  | .sys c k, f => .sys c fun r => (k r).bind f

/-- the methods of `/repo/src/storages/fs.rs` are written as sequences -/
instance : Monad Prog where
  pure := .ret
  bind := Prog.bind

/-- issue one system call. `.await` on a function of `async_fs` in `/repo/src/storages/fs.rs`. -/
def call (c : Call) : Prog (Resp c) := .sys c .ret

/-- `trace_try!` on an `Option`/`Result`: an error becomes `InternalError`
(`/repo/src/internal_macros.rs`) -/
def orInternal {α : Type} : Option α → Prog α
  | some a => .ret a
  | none => .fail .InternalError

/-- result of running a program. Results of the methods of `/repo/src/storages/fs.rs`; a panic is the end of
the task that serves the request. -/
inductive Outcome (α : Type) where
  | ok (a : α)
  | err (e : S3ErrorCode)
  | panic
  | diverge
  deriving DecidableEq, Repr

/-- run a program alone. One request served while no other is running, `/repo/src/storages/fs.rs`. -/
def run {α : Type} (cfg : Cfg) : Prog α → FS → Outcome α × FS
  | .ret a, fs => (.ok a, fs)
  | .fail e, fs => (.err e, fs)
  | .panic, fs => (.panic, fs)
  | .diverge, fs => (.diverge, fs)
  | .sys c k, fs => run cfg (k (exec cfg fs c).1) (exec cfg fs c).2

/-- run at most `n` system calls: the remaining program and the file tree (a crash leaves exactly
this file tree). Environment of `/repo/src/storages/fs.rs`; the page cache is taken to survive, so a crash is
one of the process. -/
def runN {α : Type} (cfg : Cfg) : Nat → Prog α → FS → Prog α × FS
  | n + 1, .sys c k, fs => runN cfg n (k (exec cfg fs c).1) (exec cfg fs c).2
  | _, p, fs => (p, fs)

end S3
