import Verif.Model.Fault
import Verif.Model.Time
/-! The times that the kernel keeps with files and directories, as far as `/repo/src/storages/fs.rs` looks at them: the time of the last
modification of files (`modified()`, lines 226, 354, 454, 529, 595) and the time of the creation of directories (`created()`, line 485). -/
namespace S3

/-- the times kept with a file tree: of the last modification of each file, of the creation of the directory at each path.
`/repo/src/storages/fs.rs:226,354,454,485,529,595`. -/
structure Stamps where
  modified : Ino → Time
  created : Path → Time

/-- set the time of the last modification of a file. Effect of `open` with truncation and `write` behind
`/repo/src/storages/fs.rs:117,686,752,798`. -/
def Stamps.touch (t : Stamps) (i : Ino) (now : Time) : Stamps :=
  { t with modified := fun j => if j = i then now else t.modified j }

/-- set the time of the creation of a directory. Effect of `mkdir` behind `/repo/src/storages/fs.rs:202,667,680`. -/
def Stamps.born (t : Stamps) (p : Path) (now : Time) : Stamps :=
  { t with created := fun q => if q = p then now else t.created q }

/-- What a system call does to the times, when the clock of the kernel shows `now`: `open` with create and truncate sets the time of the
file, whether it is made or emptied (Linux sets it also if the file is empty already); `write` sets it if there is something to write;
`mkdir` sets the time of creation. Nothing in `/repo/src/storages/fs.rs` sets times explicitly; `async_fs::copy` (lines 228, 239)
does not carry them over. -/
def stamp (cfg : Cfg) (fs : FS) (c : Call) (now : Time) (t : Stamps) : Stamps :=
  match c with
  | .create p =>
    match (exec cfg fs (.create p)).1 with
    | some i => t.touch i now
    | none => t
  | .writeAt i _ b => if b = [] then t else t.touch i now
  | .mkdir p =>
    match (exec cfg fs (.mkdir p)).1 with
    | .ok => t.born p now
    | _ => t
  | _ => t

/-- the same for a call that may fail (`execF`): the times follow the effect. Environment of `/repo/src/storages/fs.rs`. -/
def stampF (cfg : Cfg) (fs : FS) (c : Call) (now : Time) (t : Stamps) : Fault → Stamps
  | .none => stamp cfg fs c now t
  | .before => t
  | .after => stamp cfg fs c now t
  | .during n _ =>
    match c with
    | .writeAt i _ b => if b.take n = [] then t else t.touch i now
    | _ => t

/-- one system call of a program, with the times. Environment of `/repo/src/storages/fs.rs`. -/
def stampProg {α : Type} (cfg : Cfg) (p : Prog α) (f : Fault) (now : Time) (fs : FS) (t : Stamps) : Stamps :=
  match p with
  | .sys c _ => stampF cfg fs c now t f
  | _ => t

/-- `runParF` with the times: the list says which thread takes the next step, what goes wrong with it, and what the clock shows.
Environment of `/repo/src/storages/fs.rs`. -/
def runParT {α : Type} (cfg : Cfg) : List (Nat × Fault × Time) → List (Prog α) → FS × Stamps → List (Prog α) × FS × Stamps
  | [], ps, s => (ps, s)
  | (i, f, now) :: steps, ps, (fs, t) =>
    match ps[i]? with
    | none => runParT cfg steps ps (fs, t)
    | some p => runParT cfg steps (ps.set i (stepProgF cfg p f fs).1) ((stepProgF cfg p f fs).2, stampProg cfg p f now fs t)

end S3
