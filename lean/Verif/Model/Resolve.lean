import Verif.Model.Encoding
/-! Path resolution: `/repo/src/storages/fs.rs:59-88` on top of `std::path` and the crates
`path-absolutize` 3 / `path-dedot` 3. -/
namespace S3

/-- an absolute path as a list of components. `PathBuf` at `/repo/src/storages/fs.rs:59-88`. -/
abbrev Path := List Bytes

/-- A path handed to the operating system: its components, and whether its text ends in `/` (or
`/.`), in which case it can only name a directory. `PathBuf` at `/repo/src/storages/fs.rs:59-88`. -/
structure OsPath where
  comps : Path
  slash : Bool
  deriving DecidableEq, Repr

/-- The configuration of the storage and of its environment.
* `root`: `/repo/src/storages/fs.rs:44-47` `FileSystem.root` (canonical, absolute)
* `cwd`: working directory of the process (only used for paths starting with a dot)
* `keepSlash`: whether `path_dedot` hands back a dot-free path unchanged (keeping a trailing `/`) or
  rebuilt from its components; this differs between releases, theorems hold for both
* `dirLen`: the length the file system reports for a directory -/
structure Cfg where
  root : Path
  cwd : Path
  keepSlash : Bool
  dirLen : Nat
  deriving DecidableEq, Repr

/-- `std::path::Path::components` without the root: empty components dropped; `.` dropped except as
first component of a relative path. Behind `/repo/src/storages/fs.rs:59-67`. -/
def pathComps (s : Bytes) : List Bytes :=
  let cs := (splitAll 47 s).filter (· ≠ [])
  if startsWith s b!"/" then cs.filter (· ≠ b!".")
  else match cs with
    | [] => []
    | c :: r => c :: r.filter (· ≠ b!".")

/-- one component of the `path_dedot` loop: `..` pops (never below the start), others are pushed.
Behind `/repo/src/storages/fs.rs:64`. -/
def dedotStep (stack : List Bytes) (c : Bytes) : List Bytes :=
  if c = b!".." then stack.dropLast else stack ++ [c]

/-- `path_dedot::ParseDot::parse_dot`: absolute? and components. Behind `/repo/src/storages/fs.rs:64`. -/
def parseDot (cfg : Cfg) (s : Bytes) : Bool × List Bytes :=
  if startsWith s b!"/" then (true, (pathComps s).foldl dedotStep [])
  else match pathComps s with
    | [] => (false, [])
    | c :: r =>
      if c = b!"." then (true, r.foldl dedotStep cfg.cwd)
      else if c = b!".." then (true, r.foldl dedotStep cfg.cwd.dropLast)
      else (false, r.foldl dedotStep [c])

/-- does `parse_dot` have to rebuild the path (it has a leading `.` or a `..`). Behind `/repo/src/storages/fs.rs:64`. -/
def hasDots (s : Bytes) : Bool :=
  (pathComps s).any fun c => c == b!".." || c == b!"."

/-- text ends with `/` or `/.`. Behind `/repo/src/storages/fs.rs:64`. -/
def endsAsDir (s : Bytes) : Bool :=
  endsWithByte s 47 || (s.reverse.take 2 == b!"./")

/-- `Absolutize::absolutize_virtually(root)`, used at `/repo/src/storages/fs.rs:62-65,72,86,747,815`.
`none` is the `InvalidInput` error: an absolute path outside the root. -/
def resolveVirtual (cfg : Cfg) (s : Bytes) : Option OsPath :=
  let (abs, comps) := parseDot cfg s
  let slash := cfg.keepSlash && !hasDots s && endsAsDir s
  if abs then
    if cfg.root.isPrefixOf comps then some ⟨comps, slash⟩ else none
  else some ⟨cfg.root ++ comps, slash || comps.isEmpty⟩

/-- `std::path::Path::join`: an absolute second path replaces the first.
`/repo/src/storages/fs.rs:62` -/
def pathJoin (a b : Bytes) : Bytes :=
  if startsWith b b!"/" then b
  else if a = [] ∨ endsWithByte a 47 then a ++ b
  else a ++ b!"/" ++ b

/-- `/repo/src/storages/fs.rs:59-67` `get_object_path` -/
def objectPath (cfg : Cfg) (bucket key : Bytes) : Option OsPath :=
  resolveVirtual cfg (pathJoin bucket key)

/-- `/repo/src/storages/fs.rs:70-74` `get_bucket_path` -/
def bucketPath (cfg : Cfg) (bucket : Bytes) : Option OsPath := resolveVirtual cfg bucket

/-- the file name made at `/repo/src/storages/fs.rs:80-84` -/
def metadataName (bucket key : Bytes) : Bytes :=
  b!".bucket-" ++ b64Encode bucket ++ b!".object-" ++ b64Encode key ++ b!".metadata.json"

/-- `/repo/src/storages/fs.rs:77-88` `get_metadata_path` -/
def metadataPath (cfg : Cfg) (bucket key : Bytes) : Option OsPath :=
  resolveVirtual cfg (metadataName bucket key)

/-- the file name made at `/repo/src/storages/fs.rs:746,814` -/
def partName (uploadId : Bytes) (n : Int) : Bytes :=
  b!".upload_id-" ++ uploadId ++ b!".part-" ++ intDigits n

/-- `/repo/src/storages/fs.rs:746-747,814-815`: the path of an uploaded part -/
def partPath (cfg : Cfg) (uploadId : Bytes) (n : Int) : Option OsPath :=
  resolveVirtual cfg (partName uploadId n)

end S3
