import Verif.Spec.Again
import Verif.Spec.WebLife
/-! Requests that a client sends again until it gets an answer. -/
namespace S3.Spec

/-- an upload of an object or of a part, the making of a folder, or a copy from one place to another -/
def Refills : Op → Prop
  | .putObject i => LegalBucket i.bucket ∧ ∃ k cs, PlainKey k cs ∧ (i.key = k ∨ i.key = k ++ b!"/")
  | .uploadPart u _ _ => (47 : UInt8) ∉ u
  | .copyObject b k s => LegalBucket b ∧ (∃ cs, PlainKey k cs) ∧
      ∃ sb sk, copySourceFromHeader s = .ok (sb, sk) ∧ LegalBucket sb ∧ (∃ cs, PlainKey sk cs) ∧ (b, k) ≠ (sb, sk)
  | _ => False

/-- a deletion of objects, or of a bucket, or the making of a bucket; several objects are deleted by different keys that name no folders -/
def Settles (cfg : Cfg) (fs : FS) : Op → Prop
  | .createBucket b => LegalBucket b
  | .deleteBucket b => LegalBucket b
  | .deleteObject _ _ => True
  | .deleteObjects b ks => LegalBucket b ∧ ks.Nodup ∧ ∀ k ∈ ks, ∃ cs, PlainKey k cs ∧ ¬ IsDir fs (cfg.root ++ b :: cs)
  | _ => False

/-- requests that only read, or begin an upload in parts -/
def JustReads : Op → Prop
  | .getObject .. | .headObject .. | .headBucket .. | .getBucketLocation .. | .listBuckets | .listObjects .. | .listObjectsV2 ..
  | .createMultipartUpload .. => True
  | _ => False

/-- runs of the server in which it is sent this request once, and otherwise only requests that read or are refused -/
def Attempts (cfg : Cfg) (ext : Ext) (lib : Lib) (auth : Option Provider) (x : Exchange) (ws : List WebEpoch) : Prop :=
  ∀ w ∈ ws, ∃ n, w.requests[n]? = some x ∧ ∀ (j : Nat) y, j ≠ n → w.requests[j]? = some y → AsksIn cfg ext lib auth JustReads y

end S3.Spec
