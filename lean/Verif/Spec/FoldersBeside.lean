import Verif.Spec.Elsewhere
import Verif.Spec.Life
/-!
# Folders made and removed beside uploads
-/
namespace S3.Spec
open S3

/-- a folder key: the name of a folder, and a slash -/
def FolderName (b k : Bytes) : Prop := LegalBucket b ∧ ∃ k' cs, PlainKey k' cs ∧ k = k' ++ b!"/"

/-- The request makes or removes a folder: a PUT or DELETE of a folder key. -/
def OnFolder : Op → Prop
  | .putObject i => FolderName i.bucket i.key
  | .deleteObject b k => FolderName b k
  | _ => False

/-- The request does not write or delete the object `(b, k)` or its bucket. It may make and remove folders, also the one that holds the
object, and one of the name of the object. -/
def Beside (b k : Bytes) (o : Op) : Prop := OnOthers b (Away b k) o ∨ OnFolder o

end S3.Spec
