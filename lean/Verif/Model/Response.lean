import Verif.Model.Dispatch
import Verif.Model.Xml
import Verif.Model.Time
/-! Model of the responses: `/repo/src/utils/xml.rs`, `/repo/src/utils/response.rs`, `/repo/src/output.rs`, the functions
`try_into_response` of `/repo/src/ops/*.rs`, and `/repo/src/service.rs:127-140` `hyper_call`. -/
namespace S3

/-! ### the XML writer (xml-rs 0.8.4, a dependency), used through `/repo/src/utils/xml.rs` -/

/-- the events written by `/repo/src/utils/xml.rs:35-79`; elements have no attributes -/
inductive XmlEvent where
  | start (name : Bytes)
  | chars (text : Bytes)
  | stop
  deriving DecidableEq, Repr

/-- the state of an `EventWriter`, `/repo/src/utils/response.rs:76`: the text written, the names of the open elements, and whether
the last thing written is a start tag without its `>` -/
structure XmlWriter where
  out : Bytes
  names : List Bytes
  open_ : Bool
  deriving DecidableEq, Repr

/-- xml-rs `fix_non_empty_element`: the pending `>` of a start tag. Behind `/repo/src/utils/xml.rs:35-79`. -/
def XmlWriter.closeTag (w : XmlWriter) : Bytes := if w.open_ then w.out ++ b!">" else w.out

/-- `EventWriter::write`, `/repo/src/utils/xml.rs:36-67`, with the default configuration of xml-rs: no indentation, an element without
content is written `<name />`. The error is an end tag without a start tag. -/
def XmlWriter.write (gt : Bool) (w : XmlWriter) : XmlEvent → Option XmlWriter
  | .start n => some { out := w.closeTag ++ b!"<" ++ n, names := n :: w.names, open_ := true }
  | .chars t => some { w with out := w.closeTag ++ xmlText gt t, open_ := false }
  | .stop =>
    match w.names with
    | [] => none
    | n :: ns =>
      some { out := if w.open_ then w.out ++ b!" />" else w.out ++ b!"</" ++ n ++ b!">", names := ns, open_ := false }

/-- the events one after the other, `/repo/src/utils/response.rs:83` -/
def XmlWriter.writeAll (gt : Bool) : XmlWriter → List XmlEvent → Option XmlWriter
  | w, [] => some w
  | w, e :: r => (w.write gt e).bind fun w => w.writeAll gt r

/-- the XML declaration, `/repo/src/utils/response.rs:77-81` -/
def xmlDeclaration : Bytes := b!"<?xml version=\"1.0\" encoding=\"UTF-8\"?>"

/-- `/repo/src/utils/response.rs:70-89` `set_xml_body`: the document -/
def xmlDocument (gt : Bool) (events : List XmlEvent) : Option Bytes :=
  (XmlWriter.writeAll gt { out := xmlDeclaration, names := [], open_ := false } events).map (·.out)

/-- `/repo/src/utils/xml.rs:35-39` `stack`, and `opt_stack` on `Some`, lines 41-53 -/
def stackEvents (name : Bytes) (inner : List XmlEvent) : List XmlEvent := .start name :: inner ++ [.stop]

/-- `/repo/src/utils/xml.rs:55-59` `element` -/
def elementEvents (name text : Bytes) : List XmlEvent := [.start name, .chars text, .stop]

/-- `/repo/src/utils/xml.rs:61-68` `opt_element` -/
def optElement (name : Bytes) : Option Bytes → List XmlEvent
  | none => []
  | some t => elementEvents name t

/-! ### responses -/

/-- What responses show that the file system model does not have: the messages of errors (`/repo/src/internal_macros.rs:84-145`, one per
place in the code), the times of files and buckets (`file_metadata.modified()`, `/repo/src/storages/fs.rs:226,354,454,529,595`, and
`created()`, line 485, when the request looks at them), the offset of the local time zone at each second
(`/repo/src/utils/time.rs:18`); `gt` is the option of `xmlEscapeByte`. -/
structure Texts where
  gt : Bool
  message : Option Bytes
  zone : Nat → ZoneOffset
  modified : Bytes → Bytes → Time
  created : Bytes → Time

/-- `time::to_rfc3339(..)`, `/repo/src/storages/fs.rs:226,354,454,487,529,595` -/
def Texts.timeText (x : Texts) (t : Time) : Bytes := toRfc3339 (x.zone t.secs) t

/-- an HTTP response, `/repo/src/lib.rs:154`: status, headers in the order in which they are set, body (`none`: the body breaks off) -/
structure Response where
  status : Nat
  headers : List (Bytes × Bytes)
  body : Option Bytes
  deriving DecidableEq, Repr

/-- `/repo/src/utils/response.rs:47-57` `set_optional_header`. The values set by the storage are valid header values: ETags, numbers and
times. -/
def optHeader (name : Bytes) : Option Bytes → List (Bytes × Bytes)
  | none => []
  | some v => [(name, v)]

/-- `/repo/src/ops/list_objects.rs:72-86`, `/repo/src/ops/list_objects_v2.rs:78-92`: one object of a listing; ETag, storage class and
owner are `None` (`/repo/src/storages/fs.rs:532-539`) -/
def contentsEvents (x : Texts) (b : Bytes) (o : Bytes × Nat) : List XmlEvent :=
  stackEvents b!"Contents"
    (elementEvents b!"Key" o.1 ++ elementEvents b!"LastModified" (x.timeText (x.modified b o.1)) ++ elementEvents b!"Size" (natDigits o.2))

/-- the name of the bucket, `/repo/src/storages/fs.rs:555,622,721,850` (`input.bucket`) -/
def Ctx.bucketName (c : Ctx) : Bytes := match c.path with
  | .root => []
  | .bucket b => b
  | .object b _ => b

/-- the key, `/repo/src/storages/fs.rs:722,851` (`input.key`) -/
def Ctx.keyName (c : Ctx) : Bytes := match c.path with
  | .object _ k => k
  | _ => []

/-- bucket and key of the source of a copy, `/repo/src/storages/fs.rs:212-220` -/
def Ctx.copySource (c : Ctx) : Option (Bytes × Bytes) :=
  match c.header b!"x-amz-copy-source" with
  | none => none
  | some s => match copySourceFromHeader s with
    | .ok p => some p
    | .error _ => none

/-- the documents: `/repo/src/ops/complete_multipart_upload.rs:88-101`, `copy_object.rs:175-182`, `create_multipart_upload.rs:80-91`,
`delete_objects.rs:72-107`, `get_bucket_location.rs:57-62`, `list_buckets.rs:42-60`, `list_objects.rs:66-99`,
`list_objects_v2.rs:74-109`, with the outputs of `/repo/src/storages/fs.rs` (fields that are always `None` there are left out). The other
operations have no document. -/
def document (x : Texts) (c : Ctx) (h : Handler) (a : Answer) : Option (List XmlEvent) :=
  match h, a with
  | .completeMultipartUpload, .etag e =>
    some (stackEvents b!"CompleteMultipartUploadResult"
      (elementEvents b!"Bucket" c.bucketName ++ elementEvents b!"Key" c.keyName ++ optElement b!"ETag" e))
  | .copyObject, .etag e =>
    some (stackEvents b!"CopyObjectResult"
      (optElement b!"ETag" e ++ optElement b!"LastModified" (c.copySource.map fun s => x.timeText (x.modified s.1 s.2))))
  | .createMultipartUpload, .uploadId u =>
    some (stackEvents b!"InitialMultipartUploadResult"
      (elementEvents b!"Bucket" c.bucketName ++ elementEvents b!"Key" c.keyName ++ elementEvents b!"UploadId" u))
  | .deleteObjects, .keys l =>
    some (stackEvents b!"DeleteResult" (l.flatMap fun k => stackEvents b!"Deleted" (elementEvents b!"Key" k)))
  | .getBucketLocation, .done => some (elementEvents b!"LocationConstraint" [])
  | .listBuckets, .buckets l =>
    some (stackEvents b!"ListAllMyBucketsResult" (stackEvents b!"Buckets"
      (l.flatMap fun n => stackEvents b!"Bucket" (elementEvents b!"CreationDate" (x.timeText (x.created n)) ++ elementEvents b!"Name" n))))
  | .listObjects, .objects l =>
    some (stackEvents b!"ListBucketResult" (l.flatMap (contentsEvents x c.bucketName) ++ elementEvents b!"Name" c.bucketName ++
      optElement b!"Delimiter" (c.query b!"delimiter") ++ optElement b!"EncodingType" (c.query b!"encoding-type")))
  | .listObjectsV2, .objectsV2 n l =>
    some (stackEvents b!"ListBucketResult" (l.flatMap (contentsEvents x c.bucketName) ++ elementEvents b!"Name" c.bucketName ++
      optElement b!"Delimiter" (c.query b!"delimiter") ++ optElement b!"EncodingType" (c.query b!"encoding-type") ++
      elementEvents b!"KeyCount" (natDigits n)))
  | _, _ => none

/-- the headers other than metadata and the type of a document: `/repo/src/ops/get_object.rs:80-147`, `head_object.rs:80-145`,
`put_object.rs:207-227`, `upload_part.rs:93-109`, with the outputs of `/repo/src/storages/fs.rs:414-422,457-463,705-708,769-772`. `none`:
the time of the object cannot be converted (`/repo/src/ops/get_object.rs:92`, `head_object.rs:92`). -/
def answerHeaders (x : Texts) (c : Ctx) (h : Handler) (a : Answer) : Option (List (Bytes × Bytes)) :=
  match h, a with
  | .getObject, .object n _ e _ =>
    (rfc3339ToLastModified (x.timeText (x.modified c.bucketName c.keyName))).map fun t =>
      [(b!"last-modified", t), (b!"content-length", natDigits n), (b!"etag", e)]
  | .headObject, .head n _ =>
    (rfc3339ToLastModified (x.timeText (x.modified c.bucketName c.keyName))).map fun t =>
      [(b!"last-modified", t), (b!"content-length", natDigits n), (b!"content-type", b!"application/octet-stream")]
  | .putObject, .etag e => some (optHeader b!"etag" e)
  | .uploadPart, .etag e => some (optHeader b!"etag" e)
  | _, _ => some []

/-- the body of a response without document, `/repo/src/ops/get_object.rs:153-155` -/
def Answer.content : Answer → Option Bytes
  | .object _ _ _ body => body
  | _ => some []

/-- `try_into_response` of the outputs, `/repo/src/ops/*.rs`, after `respond` has made the metadata headers; errors are turned into
InternalError by `wrap_internal_error` (`/repo/src/ops.rs:139-148`) -/
def makeResponse (x : Texts) (c : Ctx) (h : Handler) (rep : Reply) : Prog Response :=
  match answerHeaders x c h rep.answer with
  | none => .fail .InternalError
  | some hs =>
    match document x c h rep.answer with
    | none => .ret { status := rep.status, headers := hs ++ rep.metadata, body := rep.answer.content }
    | some events =>
      match xmlDocument x.gt events with
      | none => .fail .InternalError
      | some doc =>
        .ret { status := rep.status, headers := hs ++ [(b!"content-type", b!"text/xml")] ++ rep.metadata, body := some doc }

/-- `/repo/src/output.rs:32-55`: the response to an error -/
def errorResponse (x : Texts) (e : S3ErrorCode) : Prog Response :=
  match xmlDocument x.gt (stackEvents b!"Error" (elementEvents b!"Code" e.asStr ++ optElement b!"Message" x.message)) with
  | none => .fail .InternalError
  | some doc =>
    .ret { status := e.httpStatus, headers := [(b!"content-type", b!"text/xml")], body := some doc }

/-- `match self.handle(req).await { .. Err(err) => .. }`, `/repo/src/service.rs:129-132` -/
def Prog.catch {α : Type} (p : Prog α) (k : S3ErrorCode → Prog α) : Prog α :=
  match p with
  | .ret a => .ret a
  | .fail e => k e
  | .panic => .panic
  | .diverge => .diverge
  | .sys c f => .sys c fun r => (f r).catch k

/-- `/repo/src/service.rs:165-178`, with the response -/
def dispatchResponse (cfg : Cfg) (ext : Ext) (lib : Lib) (env : Env) (x : Texts) (c : Ctx) : Prog Response :=
  if c.method = b!"POST" ∧ c.path.isObject = true ∧ c.multipart.isSome = true then .fail .MethodNotAllowed
  else match findHandler c with
    | some h => (runHandler cfg ext lib env c h).bind (makeResponse x c h)
    | none => .fail .NotSupported

/-- `/repo/src/service.rs:145-179` `handle`, with the response -/
def handleResponse (cfg : Cfg) (ext : Ext) (lib : Lib) (auth : Option Provider) (env : Env) (x : Texts) (r : Req) : Prog Response :=
  match admit lib auth r with
  | .error e => .fail e
  | .ok c => dispatchResponse cfg ext lib env x c

/-- `/repo/src/service.rs:127-140` `hyper_call` -/
def hyperCall (cfg : Cfg) (ext : Ext) (lib : Lib) (auth : Option Provider) (env : Env) (x : Texts) (r : Req) : Prog Response :=
  (handleResponse cfg ext lib auth env x r).catch (errorResponse x)

end S3
