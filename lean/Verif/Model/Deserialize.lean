import Verif.Model.Num
/-! The XML bodies of requests: `/repo/src/utils/body.rs:14-18` and the modules `xml` of `/repo/src/ops/complete_multipart_upload.rs`,
`/repo/src/ops/create_bucket.rs` and `/repo/src/ops/delete_objects.rs`. The text of a document is read by `quick_xml` 0.27 (a dependency), which is
a parameter of the model (`Lib.xml`); here is what the derived deserialisers make of the elements. Every error becomes InvalidRequest, so errors
are not distinguished. -/
namespace S3

/-- What the deserialiser sees between the tags of an element, behind `/repo/src/utils/body.rs:16`: elements, and texts (unescaped, adjacent ones
joined, without white space at the ends, never empty). Attributes are named `@..` and match no field; comments are not reported. -/
inductive XmlNode where
  | text (s : Bytes)
  | elem (name : Bytes) (inner : List XmlNode)

/-- the element of a name, behind `/repo/src/utils/body.rs:16`: what is in it -/
def XmlNode.named (n : Bytes) : XmlNode → Option (List XmlNode)
  | .text _ => none
  | .elem m inner => if m = n then some inner else none

/-- A field that is a text or a number, e.g. `/repo/src/ops/delete_objects.rs:128-130` (`quick_xml`, `read_text`): an empty element is an empty text;
an element inside is an error -/
def textOf : List XmlNode → Option Bytes
  | [] => some []
  | [.text s] => some s
  | _ => none

/-- A field that occurs at most once (derived: twice is the error "duplicate field"), e.g. `/repo/src/ops/delete_objects.rs:127-134`; the inner `none`:
it does not occur. Other elements are ignored. -/
def field (n : Bytes) (inner : List XmlNode) : Option (Option (List XmlNode)) :=
  match inner.filterMap (XmlNode.named n) with
  | [] => some none
  | [x] => some (some x)
  | _ => none

/-- A field that is a list, `/repo/src/ops/delete_objects.rs:140-141`, `/repo/src/ops/complete_multipart_upload.rs:116-117`: elements of the name one after
the other. `quick_xml` without its feature `overlapped-lists` takes a second run of them for a second list ("duplicate field"), and a text after an
element of the list for a malformed element of the list. -/
def listField (n : Bytes) (inner : List XmlNode) : Option (Option (List (List XmlNode))) :=
  let rest := inner.dropWhile fun x => (x.named n).isNone
  let after := rest.dropWhile fun x => (x.named n).isSome
  if rest.isEmpty then some none
  else if after.any fun x => (x.named n).isSome then none
  else match after with
    | .text _ :: _ => none
    | _ => some (some ((rest.takeWhile fun x => (x.named n).isSome).filterMap (XmlNode.named n)))

/-- A field of type `Option<T>`: absent, or read, e.g. `/repo/src/ops/delete_objects.rs:132-133` -/
def optField {α : Type} (n : Bytes) (read : Bytes → Option α) (inner : List XmlNode) : Option (Option α) :=
  match field n inner with
  | none => none
  | some none => some none
  | some (some x) => ((textOf x).bind read).map some

/-- the elements of a list, each read, `/repo/src/ops/delete_objects.rs:141`, `/repo/src/ops/complete_multipart_upload.rs:117` -/
def readList {α : Type} (read : List XmlNode → Option α) : List (List XmlNode) → Option (List α)
  | [] => some []
  | x :: r => (read x).bind fun a => (readList read r).map (a :: ·)

/-- the texts that `quick_xml` (`str2bool`) takes for a `bool`, `/repo/src/ops/delete_objects.rs:144` -/
def xmlBool (s : Bytes) : Option Bool :=
  if s ∈ [b!"true", b!"1", b!"True", b!"TRUE", b!"t", b!"Yes", b!"YES", b!"yes", b!"y"] then some true
  else if s ∈ [b!"false", b!"0", b!"False", b!"FALSE", b!"f", b!"No", b!"NO", b!"no", b!"n"] then some false
  else none

/-- `/repo/src/ops/delete_objects.rs:126-134` `ObjectIdentifier`: the key; the version is read and dropped by the storage
(`/repo/src/storages/fs.rs:291-296`) -/
def readObjectIdentifier (inner : List XmlNode) : Option Bytes :=
  match field b!"Key" inner with
  | some (some x) => (textOf x).bind fun k => (optField b!"VersionId" some inner).map fun _ => k
  | _ => none

/-- `/repo/src/ops/delete_objects.rs:137-145` `Delete`: the keys; `Quiet` is read and dropped by the storage (`/repo/src/storages/fs.rs:286-311`).
The name of the root is not compared; without a root there is an error. -/
def readDelete : Option XmlNode → Option (List Bytes)
  | some (.elem _ inner) =>
    match listField b!"Object" inner with
    | some (some l) => (readList readObjectIdentifier l).bind fun keys => (optField b!"Quiet" xmlBool inner).map fun _ => keys
    | _ => none
  | _ => none

/-- `/repo/src/ops/complete_multipart_upload.rs:121-129` `CompletedPart`: the number (`i64::from_str`); the ETag is read and dropped by the
storage (`/repo/src/storages/fs.rs:802-815`) -/
def readCompletedPart (inner : List XmlNode) : Option (Option Int) :=
  (optField b!"ETag" some inner).bind fun _ => optField b!"PartNumber" (parseSigned (2 ^ 63)) inner

/-- `/repo/src/ops/complete_multipart_upload.rs:111-118` `Option<CompletedMultipartUpload>`: the numbers of the parts. Without a root there is no
upload (the outer `none` of the result); without parts there are none (`parts.into_iter().flatten()`, `/repo/src/storages/fs.rs:802`). -/
def readComplete : Option XmlNode → Option (Option (List (Option Int)))
  | none => some none
  | some (.text _) => none
  | some (.elem _ inner) =>
    match listField b!"Part" inner with
    | none => none
    | some none => some (some [])
    | some (some l) => (readList readCompletedPart l).map some

/-- `/repo/src/ops/create_bucket.rs:97-103` `Option<CreateBucketConfiguration>`: is it readable -/
def readCreateBucket : Option XmlNode → Bool
  | none => true
  | some (.text _) => false
  | some (.elem _ inner) => (optField b!"LocationConstraint" some inner).isSome

end S3
