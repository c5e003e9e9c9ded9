import Verif.Spec.WebLife
import Verif.Spec.Place
/-! Two stores with the same content, kept at different places. -/
namespace S3.Spec

/-- what there is at an entry: a directory (`none`), or a file with its content -/
def contentOf (fs : FS) : Node → Option Bytes
  | .dir => none
  | .file i => some (fs.data i)

/-- An archive of everything at and below the directory `root`, as `tar` would make it: the names relative to `root`, directories, and the
contents of the files, in the order of the directories. -/
def archive (root : Path) (fs : FS) : List (Path × Option Bytes) :=
  (fs.nodes.filter fun e => root.isPrefixOf e.1).map fun e => (e.1.drop root.length, contentOf fs e.2)

/-- the key does not start with a slash -/
def RelativeKey (k : Bytes) : Prop := ∀ t, k ≠ b!"/" ++ t

/-- No key of the operation starts with a slash, and an upload does not go to the storage directory itself. -/
def RelativeKeys (root : List Bytes) : Op → Prop
  | .putObject i => RelativeKey i.key ∧ ¬ Place root i.bucket i.key []
  | .getObject _ k _ _ => RelativeKey k
  | .headObject _ k => RelativeKey k
  | .deleteObject _ k => RelativeKey k
  | .deleteObjects _ ks => ∀ k ∈ ks, RelativeKey k
  | .copyObject _ k source => RelativeKey k ∧ ∀ sb sk, source = sb ++ b!"/" ++ sk → LegalBucket sb → RelativeKey sk
  | .completeMultipartUpload _ k _ _ => RelativeKey k
  | _ => True

/-- The request has only keys that do not start with a slash, or it is refused at once, wherever the store is kept. -/
def RelativeRequest (root : List Bytes) (ext : Ext) (lib : Lib) (auth : Option Provider) (x : Exchange) : Prop :=
  (∃ o, RelativeKeys root o ∧ Asks lib auth x o) ∨ ∃ err, ∀ cfg, handle cfg ext lib auth x.env x.req = .fail err

/-- The numbers that no file has had yet stand for empty files. (In the model, a file is known by its path and a number; this is only
about the numbers.) -/
def Unused (fs : FS) : Prop := ∀ i : Ino, fs.gen i.path ≤ i.gen → fs.data i = []

/-- Two servers with the same store at different places: at each place there is a directory (not the root of the file system) with the same
files, whatever there is elsewhere. The two file systems handle a trailing slash the same way and report the same length for directories. -/
structure SameStore (cfg : Cfg) (fs : FS) (cfg' : Cfg) (fs' : FS) : Prop where
  trees : WF fs ∧ WF fs'
  places : cfg.root ≠ [] ∧ cfg'.root ≠ []
  dirs : IsDir fs cfg.root ∧ IsDir fs' cfg'.root
  numbers : Unused fs ∧ Unused fs'
  content : archive cfg.root fs = archive cfg'.root fs'
  slash : cfg.keepSlash = cfg'.keepSlash
  len : cfg.dirLen = cfg'.dirLen

/-- a failure of the disk; the entries that a removal has removed are given relative to the storage directory -/
def faultAt (root : Path) : Fault → Fault
  | .during n removed => .during n (removed.map (root ++ ·))
  | f => f

/-- the same run of a server whose storage directory is `root` -/
def WebEpoch.servedAt (w : WebEpoch) (root : Path) : WebEpoch := { w with steps := w.steps.map fun s => (s.1, faultAt root s.2) }

end S3.Spec
