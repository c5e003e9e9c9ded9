import Verif.Model.Storage
import Verif.Spec.Fs
import Verif.Spec.Key
/-! Which part of the file tree a request is entitled to. -/
namespace S3.Spec
open S3

/-- a key whose path stays below its bucket: relative and without `..` component -/
structure StaysInside (k : Bytes) : Prop where
  relative : startsWith k b!"/" = false
  noUp : b!".." ∉ splitAll 47 k

/-- the directory of a bucket -/
def bucketDir (cfg : Cfg) (b : Bytes) : Path := cfg.root ++ [b]
/-- the hidden metadata file of an object -/
def metaFile (cfg : Cfg) (b k : Bytes) : Path := cfg.root ++ [metadataName b k]

/-- The paths a request may touch: what lies below the directory of a bucket it names, the metadata
files of the objects it names, the part files of the upload it names. -/
def entitled (cfg : Cfg) : Op → Path → Bool
  | .createBucket b | .deleteBucket b | .getBucketLocation b | .headBucket b | .listObjects b _ _ | .listObjectsV2 b _ _ =>
    below (bucketDir cfg b)
  | .deleteObject b _ | .deleteObjects b _ => below (bucketDir cfg b)
  | .getObject b k _ _ | .headObject b k => fun q => below (bucketDir cfg b) q || q == metaFile cfg b k
  | .putObject i => fun q => below (bucketDir cfg i.bucket) q || q == metaFile cfg i.bucket i.key
  | .copyObject b k s => fun q => below (bucketDir cfg b) q || q == metaFile cfg b k ||
      match copySourceFromHeader s with
      | .ok (sb, sk) => below (bucketDir cfg sb) q || q == metaFile cfg sb sk
      | .error _ => false
  | .uploadPart u n _ => fun q => q == cfg.root ++ [partName u n]
  | .completeMultipartUpload b _ u parts => fun q => below (bucketDir cfg b) q ||
      (parts.getD []).any fun n =>
        match n with
        | some n => q == cfg.root ++ [partName u n]
        | none => false
  | .createMultipartUpload _ => fun _ => false
  | .listBuckets => fun _ => true

/-- A request that names a bucket, with legal names: bucket names obey the naming rule, keys stay
inside, the upload id has no `/`. -/
def Decent : Op → Prop
  | .createBucket b | .deleteBucket b | .getBucketLocation b | .headBucket b | .listObjects b _ _ | .listObjectsV2 b _ _ =>
    checkBucketName b = true
  | .deleteObject b k | .getObject b k _ _ | .headObject b k => checkBucketName b = true ∧ StaysInside k
  | .deleteObjects b ks => checkBucketName b = true ∧ ∀ k ∈ ks, StaysInside k
  | .putObject i => checkBucketName i.bucket = true ∧ StaysInside i.key
  | .copyObject b k s => checkBucketName b = true ∧ StaysInside k ∧
      ∀ sb sk, copySourceFromHeader s = .ok (sb, sk) → checkBucketName sb = true ∧ StaysInside sk
  | .uploadPart u _ _ => (47 : UInt8) ∉ u
  | .completeMultipartUpload b k u _ => checkBucketName b = true ∧ StaysInside k ∧ (47 : UInt8) ∉ u
  | .createMultipartUpload _ => True
  | .listBuckets => False

/-- Run on `fs`, the program changes nothing outside `Z`, and what lies outside `Z` influences neither
its result nor its effect. -/
structure Confined {α : Type} (cfg : Cfg) (p : Prog α) (Z : Path → Bool) (fs : FS) : Prop where
  untouched : ∀ q, Z q = false →
    (run cfg p fs).2.lookup q = fs.lookup q ∧ contentAt (run cfg p fs).2 q = contentAt fs q
  unread : ∀ fs2, WF fs2 → IsDir fs2 cfg.root → Agree Z fs fs2 →
    (run cfg p fs2).1 = (run cfg p fs).1 ∧ Agree Z (run cfg p fs).2 (run cfg p fs2).2

end S3.Spec
