import Verif.Spec.Isolated
import Verif.Spec.FoldersBeside
/-!
# Requests that make folders
-/
namespace S3.Spec
open S3

/-- The request makes a folder, which is not below the name `(b, k)`: neither `k/` nor a folder in it. -/
def MakesClear (b k : Bytes) : Op → Prop
  | .putObject i => FolderName i.bucket i.key ∧ (i.bucket = b → ¬ Nested k i.key)
  | _ => False

/-- The request makes a folder: a PUT of a folder key. -/
def MakesPlainFolder : Op → Prop
  | .putObject i => FolderName i.bucket i.key
  | _ => False

/-- The request `o'` is about other objects than `o`, or it makes a folder that does not take the name of an object of `o`. -/
def Alongside (o o' : Op) : Prop := Elsewhere o o' ∨ MakesPlainFolder o' ∧ ∀ b k, Uses o b k → MakesClear b k o'

/-- The request writes and deletes other objects than `(b, k)`, none above or below it, or it makes a folder that is not below `(b, k)`. -/
def Growth (b k : Bytes) (o : Op) : Prop := OnOthers b (Apart b k) o ∨ MakesClear b k o

end S3.Spec
