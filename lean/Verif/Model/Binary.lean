import Verif.Model.Auth
import Verif.Model.Service
import Verif.Model.Fs
/-! Model of the start of the server program, `/repo/src/bin/s3-server.rs`. Not modelled: tracing, `dotenv`, the listener
(host and port), and the splitting of the command line into options. -/
namespace S3

/-- `/repo/src/bin/s3-server.rs:35-51` `Args`, without host and port -/
structure Args where
  fsRoot : Bytes
  accessKey : Option Bytes
  secretKey : Option Bytes
  deriving DecidableEq, Repr

/-- the rules `requires` of `/repo/src/bin/s3-server.rs:46-50`: `clap` ends the program when one of the two keys is given without
the other (`/repo/src/bin/s3-server.rs:74`) -/
def Args.accepted (a : Args) : Bool :=
  (a.accessKey.isNone || a.secretKey.isSome) && (a.secretKey.isNone || a.accessKey.isSome)

/-- one segment of the path in `canonicalize`, `/repo/src/storages/fs.rs:54`; links are not modelled -/
def canonicalStep (fs : FS) (p : Path) (c : Bytes) : Option Path :=
  match fs.lookup p with
  | some .dir =>
    let q := if c = [] ∨ c = b!"." then p else dedotStep p c
    if (fs.lookup q).isSome then some q else none
  | _ => none

/-- `/repo/src/storages/fs.rs:53-56` `FileSystem::new`: `current_dir()?.join(root).canonicalize()?`; the working directory
exists. Of the result the storage directory is taken, everything else is the environment. -/
def fileSystemNew (env : Cfg) (fs : FS) (root : Bytes) : Option Cfg :=
  ((splitAll 47 root).foldlM (canonicalStep fs) (if startsWith root b!"/" then [] else env.cwd)).map fun q =>
    { env with root := q }

/-- `/repo/src/service.rs:32-42` `S3Service`: the storage and the authentication provider -/
structure Server where
  cfg : Cfg
  auth : Option Provider

/-- `/repo/src/bin/s3-server.rs:70-91` `main` up to `into_shared`; `none`: the program ends with an error -/
def serverMain (env : Cfg) (fs : FS) (a : Args) : Option Server :=
  if a.accepted then
    (fileSystemNew env fs a.fsRoot).map fun cfg =>
      match a.accessKey, a.secretKey with
      | some k, some s => ⟨cfg, some (SimpleAuth.new.register k s).getSecret⟩
      | _, _ => ⟨cfg, none⟩
  else none

end S3
