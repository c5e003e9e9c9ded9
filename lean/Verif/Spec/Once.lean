import Verif.Spec.Isolated
import Verif.Spec.Life
/-! What can happen only once: an object is deleted, a part is used. -/
namespace S3.Spec

/-- the answer to the request tells the client that this request deleted the object `(b, k)` -/
def SaysDeleted (b k : Bytes) : Op → Outcome Answer → Prop
  | .deleteObject b' k', .ok _ => (b', k') = (b, k)
  | .deleteObjects b' _, .ok (.keys l) => b' = b ∧ k ∈ l
  | _, _ => False

/-- the answer to the request tells the client that an object was assembled from parts of the upload `u`, part `n` among them -/
def SaysUsed (u : Bytes) (n : Int) : Op → Outcome Answer → Prop
  | .completeMultipartUpload _ _ u' (some l), .ok _ => u' = u ∧ some n ∈ l
  | _, _ => False

/-- the answer to the request tells the client that this request created the bucket `b` -/
def SaysCreated (b : Bytes) : Op → Outcome Answer → Prop
  | .createBucket b', .ok _ => b' = b
  | _, _ => False

/-- In the life `es` of the server, which began with the file tree `fs`, the request `r` was answered, and `C` holds of the request and
its answer. A request is named by the number of the run of the server and its number in that run. -/
def SaidAt (cfg : Cfg) (ext : Ext) (C : Op → Outcome Answer → Prop) (es : List Epoch) (fs : FS) (r : Nat × Nat) : Prop :=
  ∃ e o a, es[r.1]? = some e ∧ e.requests[r.2]? = some o ∧ e.answered cfg ext (life cfg ext (es.take r.1) fs) r.2 = some a ∧ C o a

end S3.Spec
