import Verif.Spec.Object
import Verif.Spec.Path
import Verif.Spec.Key
/-!
# Requests addressed elsewhere

The vocabulary of the properties about histories and schedules: which requests are about other objects.
-/
namespace S3.Spec

/-- `k'` lies in the folder named by `k` -/
def Nested (k k' : Bytes) : Prop := ∃ t, k' = k ++ 47 :: t

/-- `(b', k')` is a legal plain address other than `(b, k)` -/
structure Away (b k b' k' : Bytes) : Prop where
  bucket : LegalBucket b'
  key : ∃ cs, PlainKey k' cs
  other : (b', k') ≠ (b, k)

/-- moreover neither key is a folder of the other -/
structure Apart (b k b' k' : Bytes) : Prop extends Away b k b' k' where
  above : b' = b → ¬ Nested k' k
  below : b' = b → ¬ Nested k k'

/-- The request writes and deletes only objects at addresses in `A`; it may delete buckets other than `b`, create
buckets, upload parts, and read whatever it likes. -/
def OnOthers (b : Bytes) (A : Bytes → Bytes → Prop) : Op → Prop
  | .putObject i => A i.bucket i.key
  | .copyObject b' k' _ => A b' k'
  | .deleteObject b' k' => A b' k'
  | .deleteObjects b' ks => ∀ k' ∈ ks, A b' k'
  | .completeMultipartUpload b' k' u _ => A b' k' ∧ (47 : UInt8) ∉ u
  | .uploadPart u _ _ => (47 : UInt8) ∉ u
  | .deleteBucket b' => LegalBucket b' ∧ b' ≠ b
  | .createBucket b' => LegalBucket b'
  | _ => True

/-- every byte is a hole or stands at the same place in one of the bodies, and the text is no longer than one of them -/
structure Mixed (bodies : List Bytes) (c : Bytes) : Prop where
  byte : ∀ (n : Nat) x, c[n]? = some x → x = 0 ∨ ∃ b ∈ bodies, b[n]? = some x
  len : c = [] ∨ ∃ b ∈ bodies, c.length ≤ b.length

end S3.Spec
