import Verif.Spec.Making
import Verif.Spec.FoldersAtOnce
/-!
# A folder that is being made
-/
namespace S3.Spec
open S3

/-- `(b', k')` is a legal plain address, neither the name of the folder `k` of bucket `b` nor that of a folder it is in. -/
structure OffTheWay (b k b' k' : Bytes) : Prop where
  bucket : LegalBucket b'
  key : ∃ cs, PlainKey k' cs
  other : (b', k') ≠ (b, k)
  above : b' = b → ¬ Nested k' k

/-- The request does not hinder anybody who makes the folder `k` of bucket `b`: it makes a folder, or removes one that is neither this folder
nor one it is in, or it writes and deletes objects that do not have the names of these folders. It may write and delete objects in them. -/
def Lets (b k : Bytes) (o : Op) : Prop :=
  OnOthers b (OffTheWay b k) o ∨ MakesPlainFolder o ∨ ∃ b' k', o = .deleteObject b' (k' ++ b!"/") ∧ OffTheWay b k b' k'

/-- The request does not remove the folder `k` of bucket `b` or the bucket: its keys are plain, or it makes a folder, or removes another
folder. It may try to write or delete an object of the name of the folder, or to remove a folder in which it is. -/
def LeavesFolder (b k : Bytes) (o : Op) : Prop :=
  OnOthers b PlainAddress o ∨ OnFolder o ∧ o ≠ .deleteObject b (k ++ b!"/")

/-- All names on the way to the folder are possible file names, and no file stands there. -/
structure FolderRoom (cfg : Cfg) (fs : FS) (b : Bytes) (cs : List Bytes) : Prop where
  names : ∀ c ∈ cfg.root ++ b :: cs, nameOk c = true
  free : ∀ q, q <+: cfg.root ++ b :: cs → contentAt fs q = none

end S3.Spec
