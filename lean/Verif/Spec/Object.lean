import Verif.Model.Storage
import Verif.Model.Encoding
import Verif.Spec.Fs
import Verif.Spec.Key
/-! The content of an object and of a request body. -/
namespace S3.Spec
open S3

/-- the bytes stored for an address: the content of the regular file its path names -/
def stored (cfg : Cfg) (fs : FS) (b k : Bytes) : Option Bytes :=
  match objectPath cfg b k with
  | some p => if p.slash then none else contentAt fs p.comps
  | none => none

/-- the metadata in the file `m`: `none` when it cannot be read, `some none` when there is no file -/
def metaAt (ext : Ext) (fs : FS) (m : Path) : Option (Option Meta) :=
  match fs.lookup m with
  | none => some none
  | some .dir => none
  | some (.file i) => (ext.metaDec (fs.data i)).map some

/-- the metadata stored for an address: `none` when it cannot be read, `some none` when there is none -/
def storedMeta (cfg : Cfg) (ext : Ext) (fs : FS) (b k : Bytes) : Option (Option Meta) :=
  metaAt ext fs (cfg.root ++ [metadataName b k])

/-- the answer to a request -/
def answer (cfg : Cfg) (ext : Ext) (o : Op) (fs : FS) : Outcome Answer := (run cfg (opProg cfg ext o) fs).1
/-- the file tree after a request -/
def after (cfg : Cfg) (ext : Ext) (o : Op) (fs : FS) : FS := (run cfg (opProg cfg ext o) fs).2
/-- the file tree after a history of requests -/
def afterAll (cfg : Cfg) (ext : Ext) (os : List Op) (fs : FS) : FS := os.foldl (fun fs o => after cfg ext o fs) fs

/-- metadata that a request can give: a map (ordered by name) of texts in UTF-8 -/
structure ValidMeta (m : Meta) : Prop where
  ordered : (m.map (·.1)).Pairwise fun a b => bytesCmp a b = .lt
  utf8 : ∀ p ∈ m, utf8Valid p.1 = true ∧ utf8Valid p.2 = true

/-- metadata can be read back from its encoding; see `realExt_law` for the proof that JSON does -/
def MetaLaw (ext : Ext) : Prop := ∀ m, ValidMeta m → ext.metaDec (ext.metaEnc m) = some m

/-- the bytes of a body that arrive before it ends or breaks off -/
def received : Body → Bytes
  | [] => []
  | none :: _ => []
  | some b :: r => b ++ received r

/-- the body does not break off -/
def unbroken (b : Body) : Prop := none ∉ b

end S3.Spec
