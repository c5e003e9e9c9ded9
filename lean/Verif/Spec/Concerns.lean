import Verif.Spec.Session
import Verif.Spec.Accounted
/-! What any request whatever may be about. -/
namespace S3.Spec

/-- The operation may be what a request with this method and this address is about, whatever else the request says: its other headers,
parameters and its body may be malformed, repeated or contradict each other. -/
inductive Concerns (r : Req) : Op → Prop
  | createBucket {b} : r.method = b!"PUT" → At r (.bucket b) → Concerns r (.createBucket b)
  | deleteBucket {b} : r.method = b!"DELETE" → At r (.bucket b) → Concerns r (.deleteBucket b)
  | putObject {i : PutInput} : r.method = b!"PUT" → At r (.object i.bucket i.key) → Concerns r (.putObject i)
  | postObject {i : PutInput} : r.method = b!"POST" → At r (.bucket i.bucket) → Concerns r (.putObject i)
  | copyObject {b k s} : r.method = b!"PUT" → At r (.object b k) → (b!"x-amz-copy-source", s) ∈ r.headers → Concerns r (.copyObject b k s)
  | deleteObject {b k} : r.method = b!"DELETE" → At r (.object b k) → Concerns r (.deleteObject b k)
  | deleteObjects {b ks} : r.method = b!"POST" → At r (.bucket b) → Concerns r (.deleteObjects b ks)
  | uploadPart {b k u n body} : r.method = b!"PUT" → At r (.object b k) → (b!"uploadId", u) ∈ queryOf r → Concerns r (.uploadPart u n body)
  | complete {b k u parts} : r.method = b!"POST" → At r (.object b k) → (b!"uploadId", u) ∈ queryOf r →
      Concerns r (.completeMultipartUpload b k u parts)
  | initiate {u} : Concerns r (.createMultipartUpload u)
  | getObject {b k range w} : r.method = b!"GET" → At r (.object b k) → Concerns r (.getObject b k range w)
  | headObject {b k} : r.method = b!"HEAD" → At r (.object b k) → Concerns r (.headObject b k)
  | headBucket {b} : r.method = b!"HEAD" → At r (.bucket b) → Concerns r (.headBucket b)
  | location {b} : r.method = b!"GET" → At r (.bucket b) → Concerns r (.getBucketLocation b)
  | listBuckets : r.method = b!"GET" → At r .root → Concerns r .listBuckets
  | listObjects {b pre f} : r.method = b!"GET" → At r (.bucket b) → Concerns r (.listObjects b pre f)
  | listObjectsV2 {b pre f} : r.method = b!"GET" → At r (.bucket b) → Concerns r (.listObjectsV2 b pre f)

/-- The request may change the file at `p` (below the storage directory), seen from its method, its address and its upload id alone:
- a PUT or DELETE to an object, and a POST to an object (a completion), the file its address leads to,
- a PUT to an object its metadata file too, and with an upload id the file of a part of this upload,
- a POST to an object with an upload id the files of the parts of this upload,
- a POST to a bucket (a form upload, or the deletion of many objects) the files of any keys under this bucket, and their metadata files,
- a DELETE of a bucket every file in it. -/
inductive TouchesFile (root : List Bytes) (r : Req) : List Bytes → Prop
  | put {b k p} : r.method = b!"PUT" → At r (.object b k) → Place root b k p → TouchesFile root r p
  | putMeta {b k} : r.method = b!"PUT" → At r (.object b k) → TouchesFile root r [metadataName b k]
  | part {b k u n p} : r.method = b!"PUT" → At r (.object b k) → (b!"uploadId", u) ∈ queryOf r → PartPlace u n p → TouchesFile root r p
  | complete {b k p} : r.method = b!"POST" → At r (.object b k) → Place root b k p → TouchesFile root r p
  | consume {b k u n p} : r.method = b!"POST" → At r (.object b k) → (b!"uploadId", u) ∈ queryOf r → PartPlace u n p → TouchesFile root r p
  | post {b k p} : r.method = b!"POST" → At r (.bucket b) → Place root b k p → TouchesFile root r p
  | postMeta {b k} : r.method = b!"POST" → At r (.bucket b) → TouchesFile root r [metadataName b k]
  | delete {b k p} : r.method = b!"DELETE" → At r (.object b k) → Place root b k p → TouchesFile root r p
  | remove {b p} : r.method = b!"DELETE" → At r (.bucket b) → TouchesFile root r (b :: p)

/-- The request may make or remove the folder at `d` (below the storage directory):
- a PUT to a bucket the folder of its name,
- a PUT to an object, and a POST to a bucket, the folders on the way to the place of the object - with a PUT that place itself only if the
  key ends in a slash,
- a DELETE of an object whose key ends in a slash the folder its address leads to,
- a DELETE of a bucket its folder and every folder in it. -/
inductive TouchesFolder (root : List Bytes) (r : Req) : List Bytes → Prop
  | create {b} : r.method = b!"PUT" → At r (.bucket b) → TouchesFolder root r [b]
  | put {b k p d} : r.method = b!"PUT" → At r (.object b k) → Place root b k p → Above d p → (d = p → ∃ t, k = t ++ b!"/") → TouchesFolder root r d
  | post {b k p d} : r.method = b!"POST" → At r (.bucket b) → Place root b k p → Above d p → TouchesFolder root r d
  | delete {b k t d} : r.method = b!"DELETE" → At r (.object b k) → k = t ++ b!"/" → Place root b k d → TouchesFolder root r d
  | remove {b d} : r.method = b!"DELETE" → At r (.bucket b) → TouchesFolder root r (b :: d)

end S3.Spec
