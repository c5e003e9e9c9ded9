import Verif.Spec.Pieces
import Verif.Spec.Isolated
/-! Uploads into folders that are not there yet. -/
namespace S3.Spec

/-- The folders of the object `c1/../cn` of bucket `b` are there or can be made: no file stands in the place of one of them, and
their names fit into file names. -/
structure FoldersFree (cfg : Cfg) (b : Bytes) (cs : List Bytes) (fs : FS) : Prop where
  root : IsDir fs cfg.root
  above : ∀ q, q <+: cs.dropLast → contentAt fs (cfg.root ++ b :: q) = none
  names : ∀ c ∈ cs.dropLast, Fits c

/-- the upload brings a body, and the storage class is none the server refuses -/
def Acceptable (i : PutInput) : Prop :=
  i.body ≠ none ∧ (i.storageClass = none ∨ i.storageClass = some b!"STANDARD" ∨ i.storageClass = some b!"REDUCED_REDUNDANCY")

end S3.Spec
