import Verif.Spec.Elsewhere
/-! Which objects and which parts a request is about, and when two requests are about different ones. -/
namespace S3.Spec

/-- the request reads, writes or deletes the object `(b, k)` -/
def Uses : Op → Bytes → Bytes → Prop
  | .putObject i, b, k => (b, k) = (i.bucket, i.key)
  | .getObject b' k' _ _, b, k => (b, k) = (b', k')
  | .headObject b' k', b, k => (b, k) = (b', k')
  | .deleteObject b' k', b, k => (b, k) = (b', k')
  | .deleteObjects b' ks, b, k => b = b' ∧ k ∈ ks
  | .copyObject b' k' s, b, k => (b, k) = (b', k') ∨ LegalBucket b ∧ s = b ++ 47 :: k
  | .completeMultipartUpload b' k' _ _, b, k => (b, k) = (b', k')
  | _, _, _ => False

/-- the request stores the object `(b, k)` -/
def Writes : Op → Bytes → Bytes → Prop
  | .putObject i, b, k => (b, k) = (i.bucket, i.key)
  | .copyObject b' k' _, b, k => (b, k) = (b', k')
  | .completeMultipartUpload b' k' _ _, b, k => (b, k) = (b', k')
  | _, _, _ => False

/-- the request stores part `n` of the upload `u`, or uses it up -/
def UsesPart : Op → Bytes → Int → Prop
  | .uploadPart u' n' _, u, n => (u, n) = (u', n')
  | .completeMultipartUpload _ _ u' parts, u, n => u = u' ∧ ∃ l, parts = some l ∧ some n ∈ l
  | _, _, _ => False

/-- a legal bucket and a plain key -/
def PlainAddress (b k : Bytes) : Prop := LegalBucket b ∧ ∃ cs, PlainKey k cs

/-- the request names legal buckets and plain keys wherever it writes or deletes, and upload ids without `/` -/
def Tidy : Op → Prop := OnOthers [] PlainAddress

/-- the request is about objects and parts (not about buckets or listings); all addresses in it are plain -/
def AboutObjects (o : Op) : Prop :=
  Tidy o ∧ (∀ b k, Uses o b k → PlainAddress b k) ∧
    match o with
    | .putObject _ | .getObject .. | .headObject .. | .deleteObject .. | .deleteObjects .. | .copyObject ..
    | .createMultipartUpload _ | .uploadPart .. | .completeMultipartUpload .. => True
    | _ => False

/-- the request `o'` writes and deletes none of the objects and parts that `o` is about, nor their buckets, nor objects
above or below them -/
structure Elsewhere (o o' : Op) : Prop where
  tidy : Tidy o'
  objects : ∀ b k, Uses o b k → OnOthers b (Apart b k) o'
  parts : ∀ u n, UsesPart o u n → ¬ UsesPart o' u n

/-- the folders of the objects that the request stores are there -/
def FoldersExist (cfg : Cfg) (o : Op) (fs : FS) : Prop :=
  IsDir fs cfg.root ∧ ∀ b k cs, Writes o b k → PlainKey k cs → IsDir fs (cfg.root ++ b :: cs.dropLast)

end S3.Spec
