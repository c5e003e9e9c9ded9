import Verif.Spec.Machine
import Verif.Spec.Client
/-! What a client sees over HTTP of the abstract machine of `Spec/Machine`. -/
namespace S3.Spec

/-- The HTTP response shows the answer to an operation: errors as error documents with their status; downloads with
content, ETag, length and metadata; the other answers with status, ETag and document. -/
def Renders (res : Response) : Op → Outcome Answer → Prop
  | _, .err e => Reports res e.httpStatus e.asStr
  | .getObject _ _ _ _, .ok (.object n m t content) =>
    res.status = 200 ∧ res.body = content ∧ HasETag res t ∧ HasLength res n ∧ HasMeta res m
  | .headObject _ _, .ok (.head n m) => res.status = 200 ∧ res.body = some [] ∧ HasLength res n ∧ HasMeta res m
  | .putObject _, .ok (.etag (some t)) => res.status = 200 ∧ HasETag res t
  | .uploadPart _ _ _, .ok (.etag (some t)) => res.status = 200 ∧ HasETag res t
  | .copyObject _ _ _, .ok (.etag (some t)) => ∃ es, Shows res 200 es ∧ textsAt [b!"CopyObjectResult", b!"ETag"] es = [t]
  | .completeMultipartUpload b k _ _, .ok (.etag (some t)) => ∃ es, Shows res 200 es ∧
      textsAt [b!"CompleteMultipartUploadResult", b!"Bucket"] es = [b] ∧ textsAt [b!"CompleteMultipartUploadResult", b!"Key"] es = [k] ∧
      textsAt [b!"CompleteMultipartUploadResult", b!"ETag"] es = [t]
  | .createMultipartUpload _, .ok (.uploadId u) => ∃ es root, Shows res 200 es ∧ textsAt [root, b!"UploadId"] es = [u]
  | .deleteObjects _ _, .ok (.keys ks) => ∃ es, Shows res 200 es ∧ textsAt [b!"DeleteResult", b!"Deleted", b!"Key"] es = ks
  | .deleteObject _ _, .ok .done => res.status = 204 ∧ res.body = some []
  | .deleteBucket _, .ok .done => res.status = 204 ∧ res.body = some []
  | .createBucket _, .ok .done => res.status = 200
  | .headBucket _, .ok .done => res.status = 200
  | .getBucketLocation _, .ok .done => ∃ es, Shows res 200 es ∧ textsAt [b!"LocationConstraint"] es = [[]]
  | _, _ => False

/-- what the document of the response repeats from the request can be written in a document -/
def Documented (r : Req) : Op → Prop
  | .deleteObjects _ ks => ∀ k ∈ ks, CleanText k
  | .completeMultipartUpload _ k _ _ => CleanText k
  | .createMultipartUpload u => CleanText u ∧ ∀ b k, At r (.object b k) → CleanText k
  | _ => True

/-- the metadata recorded for addresses in `A` can be sent in headers -/
def SendableRecords (A : Bytes → Bytes → Prop) (s : Machine) : Prop :=
  ∀ b k m, A b k → s.record b k = .is m → SendableMeta (some m)

end S3.Spec
