import Verif.Spec.MachineListing
/-!
# Folder keys

Keys that end with `/` in the abstract machine of `Spec/Machine`. A PUT of such a key makes a folder, a DELETE removes the
folder when there is nothing in it.
-/
namespace S3.Spec
open S3

/-- the key `c1/../cn/` of a folder in a bucket of legal name. No address in `A` is the folder or is on the way to it. -/
structure FolderKey (A : Bytes → Bytes → Prop) (place : Bytes → Bytes → List Bytes) (b k : Bytes) (cs : List Bytes) : Prop where
  legal : LegalBucket b
  key : ∃ k', PlainKey k' cs ∧ k = k' ++ b!"/"
  fits : ∀ c ∈ b :: cs, nameOk c = true
  free : ∀ b' k', A b' k' → ¬ place b' k' <+: b :: cs

/-- a request that puts or deletes the folder `q` -/
def FolderOp (A : Bytes → Bytes → Prop) (place : Bytes → Bytes → List Bytes) (q : List Bytes) : Op → Prop
  | .putObject i => ∃ cs, FolderKey A place i.bucket i.key cs ∧ q = i.bucket :: cs
  | .deleteObject b k => ∃ cs, FolderKey A place b k cs ∧ q = b :: cs
  | _ => False

/-- nothing is inside the folder `q` -/
def Machine.Empty (s : Machine) (q : List Bytes) : Prop := ∀ r, q <+: r → r ≠ q → s.folder r = false ∧ s.bytes r = none

/-- What the machine answers when the folder `q` is put or deleted, and what it becomes. A PUT must announce an empty body;
then it makes the folder and those on the way to it, and is answered without an ETag. A DELETE of a folder in which there
is something is answered like one that removed the folder, and changes nothing. -/
inductive FolderStep (s : Machine) (q : List Bytes) : Op → Outcome Answer → Machine → Prop
  | badClass {i : PutInput} : classKnown i = false → FolderStep s q (.putObject i) (.err .InvalidStorageClass) s
  | noBody {i : PutInput} : classKnown i = true → i.body = none → FolderStep s q (.putObject i) (.err .IncompleteBody) s
  | content {i : PutInput} : classKnown i = true → i.body ≠ none → i.contentLength ≠ some 0 →
      FolderStep s q (.putObject i) (.err .UnexpectedContent) s
  | made {i : PutInput} : classKnown i = true → i.body ≠ none → i.contentLength = some 0 →
      FolderStep s q (.putObject i) (.ok (.etag none)) { s with folder := fun r => s.folder r || decide (r <+: q) }
  | missing {b k : Bytes} : s.folder q = false → FolderStep s q (.deleteObject b k) (.err .InternalError) s
  | full {b k : Bytes} : s.folder q = true → ¬ s.Empty q → FolderStep s q (.deleteObject b k) (.ok .done) s
  | removed {b k : Bytes} : s.folder q = true → s.Empty q →
      FolderStep s q (.deleteObject b k) (.ok .done) { s with folder := fun r => s.folder r && decide (r ≠ q) }

/-- a history of requests with their answers leads the machine from one state to another; the requests are about the
addresses in `A`, about folders, or only read (the answers to readings of anything else are left open) -/
inductive Leads (ext : Ext) (A : Bytes → Bytes → Prop) (place : Bytes → Bytes → List Bytes) :
    Machine → List (Op × Outcome Answer) → Machine → Prop
  | nil (s : Machine) : Leads ext A place s [] s
  | served {s t : Machine} {o : Op} {a : Outcome Answer} {l : List (Op × Outcome Answer)} : Served A o →
      s.answer ext place o = some a → Leads ext A place (s.after place o) l t → Leads ext A place s ((o, a) :: l) t
  | folder {s s' t : Machine} {q : List Bytes} {o : Op} {a : Outcome Answer} {l : List (Op × Outcome Answer)} :
      FolderOp A place q o → FolderStep s q o a s' → Leads ext A place s' l t → Leads ext A place s ((o, a) :: l) t
  | watching {s t : Machine} {o : Op} {a : Outcome Answer} {l : List (Op × Outcome Answer)} : Watching o → ¬ Served A o →
      Leads ext A place s l t → Leads ext A place s ((o, a) :: l) t

/-- the requests of a history, each with the answer it gets -/
def answered (cfg : Cfg) (ext : Ext) : List Op → FS → List (Op × Outcome Answer)
  | [], _ => []
  | o :: os, fs => (o, answer cfg ext o fs) :: answered cfg ext os (after cfg ext o fs)

/-- the file tree shows the state of the machine, with all folders of all buckets, and no bucket contains other files -/
structure Tree (cfg : Cfg) (ext : Ext) (A : Bytes → Bytes → Prop) (place : Bytes → Bytes → List Bytes) (s : Machine) (fs : FS) : Prop where
  shown : Embodies cfg ext A place s fs
  closed : Closed cfg A place s fs
  folders : ∀ b cs, LegalBucket b → (IsDir fs (cfg.root ++ b :: cs) ↔ s.folder (b :: cs) = true)

/-- what a client sees of the answer to a PUT or DELETE of a folder: an error document, or success, without an ETag -/
def FolderShows (res : Response) : Op → Outcome Answer → Prop
  | _, .err e => Reports res e.httpStatus e.asStr
  | .putObject _, .ok _ => res.status = 200 ∧ ∀ v, (b!"etag", v) ∉ res.headers
  | .deleteObject _ _, .ok _ => res.status = 204 ∧ res.body = some []
  | _, _ => False

end S3.Spec
