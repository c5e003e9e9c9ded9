import Verif.Spec.Isolated
import Verif.Spec.FoldersBeside
/-!
# Requests about objects that are there
-/
namespace S3.Spec
open S3

/-- the request deletes an object -/
def Unlinks : Op → Prop
  | .deleteObject .. | .deleteObjects .. => True
  | _ => False

/-- The directory of the store is there, and so are all objects the request is about: those it reads and those it writes. -/
structure Standing (cfg : Cfg) (o : Op) (fs : FS) : Prop where
  root : IsDir fs cfg.root
  objects : ∀ b k, Uses o b k → stored cfg fs b k ≠ none

/-- The request `o'` makes or removes a folder, anywhere, or it is about other objects than `o`. -/
def Aside (o o' : Op) : Prop := Elsewhere o o' ∨ OnFolder o'

end S3.Spec
