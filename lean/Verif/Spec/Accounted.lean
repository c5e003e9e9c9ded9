import Verif.Spec.WebLife
import Verif.Spec.Place
/-! What the requests account for on the disk. -/
namespace S3.Spec

/-- the place of the file of a part: its name is followed from the storage directory (an upload id may hold slashes) -/
def PartPlace (u : Bytes) (n : Int) (p : List Bytes) : Prop := ∃ segs, Segments (partName u n) segs ∧ Walk [] segs p

/-- The operation may write the file at `p` (below the storage directory): an upload, a copy or a completion writes the file its address
leads to, an upload with metadata and a copy also the metadata file of the object, the upload of a part the file of the part. -/
inductive WritesFile (root : List Bytes) : Op → List Bytes → Prop
  | put {i : PutInput} {p} : (∀ t, i.key ≠ t ++ b!"/") → Place root i.bucket i.key p → WritesFile root (.putObject i) p
  | putMeta {i : PutInput} : (∀ t, i.key ≠ t ++ b!"/") → i.metadata ≠ none → WritesFile root (.putObject i) [metadataName i.bucket i.key]
  | copy {b k s p} : Place root b k p → WritesFile root (.copyObject b k s) p
  | copyMeta {b k s} : WritesFile root (.copyObject b k s) [metadataName b k]
  | part {u n body p} : PartPlace u n p → WritesFile root (.uploadPart u n body) p
  | complete {b k u parts p} : Place root b k p → WritesFile root (.completeMultipartUpload b k u parts) p

/-- The operation may make the folder at `d` (below the storage directory): the creation of a bucket makes the folder of its name, an
upload the folders on the way to the place its address leads to - that place itself too if the key ends in a slash. -/
inductive MakesFolder (root : List Bytes) : Op → List Bytes → Prop
  | bucket {b} : MakesFolder root (.createBucket b) [b]
  | folder {i : PutInput} {t p d} : i.key = t ++ b!"/" → Place root i.bucket i.key p → Above d p → MakesFolder root (.putObject i) d
  | parent {i : PutInput} {p d} : (∀ t, i.key ≠ t ++ b!"/") → Place root i.bucket i.key p → Above d p → d ≠ p → MakesFolder root (.putObject i) d

/-- The operation reads, or it uploads without metadata to the place `p`, or it deletes the object at `p`. -/
inductive OnlyAt (root : List Bytes) (p : List Bytes) : Op → Prop
  | put {i : PutInput} : i.metadata = none → Names root i.bucket i.key p → OnlyAt root p (.putObject i)
  | delete {b k} : Names root b k p → OnlyAt root p (.deleteObject b k)
  | get {b k r w} : OnlyAt root p (.getObject b k r w)
  | head {b k} : OnlyAt root p (.headObject b k)
  | list {b pre f} : OnlyAt root p (.listObjects b pre f)
  | listV2 {b pre f} : OnlyAt root p (.listObjectsV2 b pre f)
  | buckets : OnlyAt root p .listBuckets
  | location {b} : OnlyAt root p (.getBucketLocation b)
  | headBucket {b} : OnlyAt root p (.headBucket b)
  | initiate {u} : OnlyAt root p (.createMultipartUpload u)

/-- The two disks hold the same: the same folders and the same files with the same content, at every path of the machine. -/
def SameDisk (a b : FS) : Prop := ∀ q, contentAt a q = contentAt b q ∧ (IsDir a q ↔ IsDir b q)

end S3.Spec
