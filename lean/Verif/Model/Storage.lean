import Verif.Model.Fs
import Verif.Model.Range
import Verif.Model.CopySource
import Verif.Base.Sort
/-! Model of the operations of `/repo/src/storages/fs.rs` as programs over system calls. Timestamps
are not modelled. -/
namespace S3

/-- user metadata (`HashMap<String, String>`): association list sorted by name. `/repo/src/storages/fs.rs:91-118`. -/
abbrev Meta := List (Bytes × Bytes)

/-- Library functions used by the storage, as parameters: the MD5 hex digest (`md-5`), and
`serde_json` on a string map, `/repo/src/storages/fs.rs:98-100,115-116`. The functions themselves: `realExt` in `Model/Json`. -/
structure Ext where
  md5hex : Bytes → Bytes
  metaEnc : Meta → Bytes
  metaDec : Bytes → Option Meta

/-- a body as delivered by the connection: fragments, possibly an error. `/repo/src/storages/fs.rs:636-660`:
the `ByteStream` of a request; an error has no content. -/
abbrev Body := List (Option Bytes)

section
variable (cfg : Cfg) (ext : Ext)

/-- `path.exists()`. `/repo/src/storages/fs.rs:97,192,237,293,320,433,448`. An error of `stat` counts as
absence, as in the standard library. -/
def exists_ (p : OsPath) : Prog Bool := do
  let s ← call (.stat p)
  return s.isSome

/-- `path.is_dir()`, otherwise the error: the fallback in `std::fs::DirBuilder::create_dir_all`,
behind `/repo/src/storages/fs.rs:667,680` -/
def requireDir (p : Path) : Prog Unit := do
  match ← call (.stat ⟨p, false⟩) with
  | some .dir => return ()
  | _ => .fail .InternalError

/-- `std::fs::Metadata::len`; `/repo/src/storages/fs.rs:455,530` -/
def statLen : Stat → Nat
  | .dir => cfg.dirLen
  | .file n => n

/-- `std::fs::DirBuilder::create_dir_all` (behind `/repo/src/storages/fs.rs:667,680`), on the reversed
components: `mkdir`; when the parent is missing create it and retry; a failure is fine when the path
is a directory. -/
def createDirAllRev : List Bytes → Prog Unit
  | [] => do
    -- the path "/": mkdir fails with EEXIST and it is a directory
    match ← call (.mkdir []) with
    | .ok => return ()
    | _ => return ()
  | c :: up => do
    let p := (c :: up).reverse
    match ← call (.mkdir p) with
    | .ok => return ()
    | .failed => requireDir p
    | .notFound =>
      createDirAllRev up
      match ← call (.mkdir p) with
      | .ok => return ()
      | _ => requireDir p

/-- `async_fs::create_dir_all(p)`, `/repo/src/storages/fs.rs:667,680` -/
def createDirAll (p : Path) : Prog Unit := createDirAllRev p.reverse

/-- `/repo/src/storages/fs.rs:144-176` `copy_bytes`: write the fragments one after the other; stops at
a stream error (`none`). Returns all bytes, whose digest the caller has accumulated (`inspect_ok`,
lines 683-684, 749-750). An empty fragment issues no write. `futures::io::copy_buf` flushes the `BufWriter` at the end of
every fragment; when the kernel takes a fragment in several writes, that is the run with the finer fragmentation. -/
def copyBytes (ino : Ino) : Nat → Body → Prog Bytes
  | _, [] => return []
  | _, none :: _ => .fail .InternalError
  | off, some b :: rest => do
    if b = [] then copyBytes ino off rest
    else
      if ← call (.writeAt ino off b) then
        let r ← copyBytes ino (off + b.length) rest
        return b ++ r
      else .fail .InternalError

/-- `"\"{}\""`, `/repo/src/storages/fs.rs:246,419,706,767,848` -/
def quoted (s : Bytes) : Bytes := b!"\"" ++ s ++ b!"\""

/-- `/repo/src/storages/fs.rs:121-140` `get_md5_sum` (the file is read in one step) -/
def getMd5Sum (bucket key : Bytes) : Prog Bytes := do
  let p ← orInternal (objectPath cfg bucket key)
  let h ← orInternal (← call (.openRead p))
  let content ← orInternal (← call (.readAll h))
  return ext.md5hex content

/-- `/repo/src/storages/fs.rs:91-105` `load_metadata` (an error becomes `InternalError` at the callers,
lines 397, 457) -/
def loadMetadata (bucket key : Bytes) : Prog (Option Meta) := do
  let p ← orInternal (metadataPath cfg bucket key)
  if ← exists_ p then
    let h ← orInternal (← call (.openRead p))
    let content ← orInternal (← call (.readAll h))
    let m ← orInternal (ext.metaDec content)
    return some m
  else return none

/-- `/repo/src/storages/fs.rs:108-118` `save_metadata` -/
def saveMetadata (bucket key : Bytes) (m : Meta) : Prog Unit := do
  let p ← orInternal (metadataPath cfg bucket key)
  let i ← orInternal (← call (.create p))
  if ← call (.writeAt i 0 (ext.metaEnc m)) then return () else .fail .InternalError

/-- `async_fs::copy`, `/repo/src/storages/fs.rs:228,239`: the source must be a regular file; the
destination is truncated, then the source is read and written (one step each). -/
def copyFile (src dst : OsPath) : Prog Unit := do
  let h ← orInternal (← call (.openRead src))
  match h with
  | .dir => .fail .InternalError
  | .file _ => do
    let i ← orInternal (← call (.create dst))
    let content ← orInternal (← call (.readAll h))
    if ← call (.writeAt i 0 content) then return () else .fail .InternalError

/-- `/repo/src/storages/fs.rs:202`: `trace_try!` on the result of `create_dir` -/
def mkdirDone : MkdirRes → Prog Unit
  | .ok => .ret ()
  | _ => .fail .InternalError

/-- `/repo/src/storages/fs.rs:186-205` `create_bucket` -/
def createBucket (bucket : Bytes) : Prog Unit := do
  let p ← orInternal (bucketPath cfg bucket)
  if ← exists_ p then .fail .BucketAlreadyExists
  else
    let r ← call (.mkdir p.comps)
    mkdirDone r

/-- `/repo/src/storages/fs.rs:208-254` `copy_object`; returns the entity tag. (`AmzCopySource` never
yields an access point, `/repo/src/headers/amz_copy_source.rs:67-91`.) -/
def copyObject (bucket key source : Bytes) : Prog Bytes := do
  match copySourceFromHeader source with
  | .error _ => .fail .InvalidRequest
  | .ok (sb, sk) => do
    let src ← orInternal (objectPath cfg sb sk)
    let dst ← orInternal (objectPath cfg bucket key)
    let _ ← orInternal (← call (.stat src))
    copyFile src dst
    let sm ← orInternal (metadataPath cfg sb sk)
    if ← exists_ sm then
      let dm ← orInternal (metadataPath cfg bucket key)
      copyFile sm dm
    let sum ← getMd5Sum cfg ext sb sk
    return quoted sum

/-- `/repo/src/storages/fs.rs:257-264` `delete_bucket` -/
def deleteBucket (bucket : Bytes) : Prog Unit := do
  let p ← orInternal (bucketPath cfg bucket)
  if ← call (.rmtree p.comps) then return () else .fail .InternalError

/-- `/repo/src/storages/fs.rs:267-283` `delete_object` -/
def deleteObject (bucket key : Bytes) : Prog Unit := do
  let p ← orInternal (objectPath cfg bucket key)
  if endsWithByte key 47 then
    let entries ← orInternal (← call (.readDir p))
    if entries = [] then
      if ← call (.rmdir p) then return () else .fail .InternalError
    else return ()
  else
    if ← call (.unlink p) then return () else .fail .InternalError

/-- first loop of `/repo/src/storages/fs.rs:290-296`: the paths that exist -/
def deleteCollect (bucket : Bytes) : List Bytes → Prog (List (OsPath × Bytes))
  | [] => return []
  | k :: ks => do
    let p ← orInternal (objectPath cfg bucket k)
    let e ← exists_ p
    let r ← deleteCollect bucket ks
    return if e then (p, k) :: r else r

/-- second loop of `/repo/src/storages/fs.rs:298-305` -/
def deleteAll : List (OsPath × Bytes) → Prog (List Bytes)
  | [] => return []
  | (p, k) :: r => do
    if ← call (.unlink p) then
      let d ← deleteAll r
      return k :: d
    else .fail .InternalError

/-- `/repo/src/storages/fs.rs:286-311` `delete_objects`: the keys reported deleted -/
def deleteObjects (bucket : Bytes) (keys : List Bytes) : Prog (List Bytes) := do
  let l ← deleteCollect cfg bucket keys
  deleteAll l

/-- `/repo/src/storages/fs.rs:314-330` `get_bucket_location` -/
def getBucketLocation (bucket : Bytes) : Prog Unit := do
  let p ← orInternal (bucketPath cfg bucket)
  if ← exists_ p then return () else .fail .NoSuchBucket

/-- `/repo/src/storages/fs.rs:427-439` `head_bucket` -/
def headBucket (bucket : Bytes) : Prog Unit := do
  let p ← orInternal (bucketPath cfg bucket)
  if ← exists_ p then return () else .fail .NoSuchBucket

/-- What `get_object` answers, `/repo/src/storages/fs.rs:395,414-421`: the open file, the position and
the limit of the body stream, and the response headers. -/
structure GetOutput where
  handle : Handle
  offset : Nat
  limit : Nat
  contentLength : Nat
  metadata : Option Meta
  etag : Bytes
  deriving DecidableEq, Repr

/-- `/repo/src/storages/fs.rs:356-393`: position and length of the requested part; `none` is
`InvalidRange` -/
def rangeSlice (fileLen : Nat) : Option Range → Option (Nat × Nat)
  | none => some (0, fileLen)
  | some (.normal first last) =>
    if first ≥ fileLen then none
    else
      let endPos := match last with
        | some l => if l + 1 ≤ u64Max then l + 1 else fileLen
        | none => fileLen
      some (first, endPos - first)
  | some (.suffix last) =>
    if last ≤ fileLen ∧ last ≤ i64Max then some (fileLen - last, last) else none

/-- `/repo/src/storages/fs.rs:339-342`: the parsed Range header -/
def parseRange : Option Bytes → Prog (Option Range)
  | none => .ret none
  | some s =>
    match Range.fromHeaderStr s with
    | some r => .ret (some r)
    | none => .fail .InvalidRequest

/-- `/repo/src/storages/fs.rs:333-424` `get_object` -/
def getObject (bucket key : Bytes) (range : Option Bytes) : Prog GetOutput := do
  let p ← orInternal (objectPath cfg bucket key)
  let range ← parseRange range
  match ← call (.openRead p) with
  | none => .fail .NoSuchKey
  | some h => do
    let fileLen ← orInternal (← call (.fstat h))
    match rangeSlice fileLen range with
    | none => .fail .InvalidRange
    | some (off, len) => do
      let md ← loadMetadata cfg ext bucket key
      let sum ← getMd5Sum cfg ext bucket key
      if len ≤ i64Max then
        return { handle := h, offset := off, limit := len, contentLength := len,
                 metadata := md, etag := quoted sum }
      else .fail .InternalError

/-- The response body of GET, `/repo/src/storages/fs.rs:395` with
`/repo/src/data_structures/bytes_stream.rs:39-61`: reads of at most 4096 bytes at the current position
until the limit is used up or the file ends. `wants i` is what the kernel is willing to return at
the `i`-th read. A read error ends the response (`none`). -/
def drainBody (h : Handle) (wants : Nat → Nat) : Nat → Nat → Nat → Nat → Prog (Option Bytes)
  | 0, _, _, _ => return some []
  | fuel + 1, i, off, limit => do
    match ← call (.readAt h off (min limit 4096) (wants i)) with
    | none => return none
    | some b =>
      if b = [] then return some []
      else
        match ← drainBody h wants fuel (i + 1) (off + b.length) (limit - b.length) with
        | none => return none
        | some r => return some (b ++ r)

/-- GET from the request to the last byte of the response: the answer and the body delivered
(`none`: the transfer broke). Each read delivers at least one byte, so `limit + 1` reads suffice.
`/repo/src/storages/fs.rs:332-424` and `/repo/src/data_structures/bytes_stream.rs:36-63`. -/
def getObjectFull (bucket key : Bytes) (range : Option Bytes) (wants : Nat → Nat) :
    Prog (GetOutput × Option Bytes) := do
  let o ← getObject cfg ext bucket key range
  let b ← drainBody o.handle wants (o.limit + 1) 0 o.offset o.limit
  return (o, b)

/-- `/repo/src/storages/fs.rs:442-467` `head_object`: content length and metadata -/
def headObject (bucket key : Bytes) : Prog (Nat × Option Meta) := do
  let p ← orInternal (objectPath cfg bucket key)
  if ← exists_ p then
    let st ← orInternal (← call (.stat p))
    let md ← loadMetadata cfg ext bucket key
    if statLen cfg st ≤ i64Max then return (statLen cfg st, md) else .fail .InternalError
  else .fail .NoSuchKey

/-- the loop of `/repo/src/storages/fs.rs:477-492` over the entries of the root -/
def listBucketsLoop : List (Bytes × Bool) → Prog (List Bytes)
  | [] => return []
  | (n, isDir) :: r => do
    if isDir ∧ checkBucketName (utf8Lossy n) then
      let _ ← orInternal (← call (.stat ⟨cfg.root ++ [n], false⟩))
      let rest ← listBucketsLoop r
      return utf8Lossy n :: rest
    else listBucketsLoop r

/-- `/repo/src/storages/fs.rs:470-499` `list_buckets` -/
def listBuckets : Prog (List Bytes) := do
  let es ← orInternal (← call (.readDir ⟨cfg.root, false⟩))
  listBucketsLoop cfg es

/-- `key.to_string_lossy()` of the path below the bucket, `/repo/src/storages/fs.rs:521,534` -/
def relKey (base p : Path) : Bytes := utf8Lossy (joinWith 47 (p.drop base.length))

/-- `/repo/src/storages/fs.rs:522-526`: the key does not start with the requested prefix -/
def filteredOut (pfx : Option Bytes) (key : Bytes) : Bool :=
  match pfx with
  | some p => !startsWith key p
  | none => false

/-- the inner loop of `/repo/src/storages/fs.rs:514-541` over the entries of one directory: the
subdirectories to visit and the objects found (key, size) -/
def listEntries (base : Path) (pfx : Option Bytes) (dir : Path) :
    List (Bytes × Bool) → Prog (List Path × List (Bytes × Nat))
  | [] => return ([], [])
  | (n, isDir) :: r => do
    if isDir then
      let (ds, os) ← listEntries base pfx dir r
      return ((dir ++ [n]) :: ds, os)
    else
      let key := relKey base (dir ++ [n])
      if filteredOut pfx key then
        listEntries base pfx dir r
      else
        let st ← orInternal (← call (.stat ⟨dir ++ [n], false⟩))
        if statLen cfg st ≤ i64Max then
          let (ds, os) ← listEntries base pfx dir r
          return (ds, (key, statLen cfg st) :: os)
        else .fail .InternalError

/-- the outer loop of `/repo/src/storages/fs.rs:512-542`: a queue of directories -/
def listLoop (base : Path) (pfx : Option Bytes) : Nat → List Path → Prog (List (Bytes × Nat))
  | _, [] => return []
  | 0, _ :: _ => .diverge
  | fuel + 1, d :: queue => do
    let es ← orInternal (← call (.readDir ⟨d, false⟩))
    let (ds, os) ← listEntries cfg base pfx d es
    let rest ← listLoop base pfx fuel (queue ++ ds)
    return os ++ rest

/-- comparison of `/repo/src/storages/fs.rs:544-548` -/
def objLe (a b : Bytes × Nat) : Bool := bytesLe a.1 b.1

/-- `/repo/src/storages/fs.rs:502-565` `list_objects`: the objects, sorted by key. `fuel` bounds the
number of directories visited. -/
def listObjects (bucket : Bytes) (pfx : Option Bytes) (fuel : Nat) : Prog (List (Bytes × Nat)) := do
  let p ← orInternal (bucketPath cfg bucket)
  let os ← listLoop cfg p.comps pfx fuel [p.comps]
  return isort objLe os

/-- `/repo/src/storages/fs.rs:568-633` `list_objects_v2`: the loop of `list_objects` again (lines 573-607,
written out twice in the code), sorted the same way, and the number of objects. -/
def listObjectsV2 (bucket : Bytes) (pfx : Option Bytes) (fuel : Nat) : Prog (Nat × List (Bytes × Nat)) := do
  let p ← orInternal (bucketPath cfg bucket)
  let os ← listLoop cfg p.comps pfx fuel [p.comps]
  if os.length ≤ i64Max then return (os.length, isort objLe os) else .fail .InternalError

/-- `/repo/src/storages/fs.rs:651-658`: the parts of a PUT request the storage uses -/
structure PutInput where
  bucket : Bytes
  key : Bytes
  body : Option Body
  contentLength : Option Int
  metadata : Option Meta
  storageClass : Option Bytes

/-- the storage classes of `/repo/src/storages/fs.rs:641` -/
def storageClassOk (s : Bytes) : Bool := s == b!"STANDARD" || s == b!"REDUCED_REDUNDANCY"

/-- `/repo/src/storages/fs.rs:701-703`: save the metadata if the request has any -/
def saveOptional (bucket key : Bytes) : Option Meta → Prog Unit
  | some m => saveMetadata cfg ext bucket key m
  | none => .ret ()

/-- `/repo/src/storages/fs.rs:636-711` `put_object`: the entity tag (none for a directory object) -/
def putObject (i : PutInput) : Prog (Option Bytes) := do
  if !i.storageClass.all storageClassOk then .fail .InvalidStorageClass
  else
    match i.body with
    | none => .fail .IncompleteBody
    | some body => do
      if endsWithByte i.key 47 then
        if i.contentLength = some 0 then
          let p ← orInternal (objectPath cfg i.bucket i.key)
          createDirAll p.comps
          return none
        else .fail .UnexpectedContent
      else
        let p ← orInternal (objectPath cfg i.bucket i.key)
        if p.comps ≠ [] then createDirAll p.comps.dropLast
        let ino ← orInternal (← call (.create p))
        let content ← copyBytes ino 0 body
        saveOptional cfg ext i.bucket i.key i.metadata
        return some (quoted (ext.md5hex content))

/-- `/repo/src/storages/fs.rs:714-728` `create_multipart_upload`: no file is touched; the answer is a
fresh random id (`Uuid::new_v4`), here a parameter. -/
def createMultipartUpload (uuid : Bytes) : Prog Bytes := return uuid

/-- `/repo/src/storages/fs.rs:731-775` `upload_part`: the entity tag -/
def uploadPart (uploadId : Bytes) (n : Int) (body : Option Body) : Prog Bytes := do
  match body with
  | none => .fail .IncompleteBody
  | some body => do
    let p ← orInternal (partPath cfg uploadId n)
    let ino ← orInternal (← call (.create p))
    let content ← copyBytes ino 0 body
    return quoted (ext.md5hex content)

/-- the loop of `/repo/src/storages/fs.rs:801-829`: `cnt` parts done, `off` bytes written -/
def completeLoop (uploadId : Bytes) (ino : Ino) : Int → Nat → List (Option Int) → Prog Unit
  | _, _, [] => return ()
  | cnt, off, n :: rest => do
    let n ← orInternal n
    if n ≠ cnt + 1 then .fail .InternalError
    else
      let pp ← orInternal (partPath cfg uploadId n)
      let h ← orInternal (← call (.openRead pp))
      let content ← orInternal (← call (.readAll h))
      if ← call (.writeAt ino off content) then
        if ← call (.unlink pp) then
          completeLoop uploadId ino (cnt + 1) (off + content.length) rest
        else .fail .InternalError
      else .fail .InternalError

/-- `/repo/src/storages/fs.rs:778-856` `complete_multipart_upload`; `parts` are the part numbers of the
request body (`none`: no body; `some none` inside: a part without number). Returns the entity tag. -/
def completeMultipartUpload (bucket key uploadId : Bytes) (parts : Option (List (Option Int))) :
    Prog Bytes := do
  match parts with
  | none => .fail .InvalidPart
  | some parts => do
    let p ← orInternal (objectPath cfg bucket key)
    let ino ← orInternal (← call (.create p))
    completeLoop cfg uploadId ino 0 0 parts
    let _ ← orInternal (← call (.stat p))
    let sum ← getMd5Sum cfg ext bucket key
    return quoted sum

/-- The requests of the storage interface, `/repo/src/storage.rs:26-122` (`trait S3Storage`), with the
choices of the environment that matter (read sizes, random id). -/
inductive Op where
  | createBucket (bucket : Bytes)
  | copyObject (bucket key source : Bytes)
  | deleteBucket (bucket : Bytes)
  | deleteObject (bucket key : Bytes)
  | deleteObjects (bucket : Bytes) (keys : List Bytes)
  | getBucketLocation (bucket : Bytes)
  | getObject (bucket key : Bytes) (range : Option Bytes) (wants : Nat → Nat)
  | headBucket (bucket : Bytes)
  | headObject (bucket key : Bytes)
  | listBuckets
  | listObjects (bucket : Bytes) (pfx : Option Bytes) (fuel : Nat)
  | listObjectsV2 (bucket : Bytes) (pfx : Option Bytes) (fuel : Nat)
  | putObject (i : PutInput)
  | createMultipartUpload (uuid : Bytes)
  | uploadPart (uploadId : Bytes) (n : Int) (body : Option Body)
  | completeMultipartUpload (bucket key uploadId : Bytes) (parts : Option (List (Option Int)))

/-- the answers of the storage interface. The outputs of the methods of `/repo/src/storages/fs.rs:184-857`;
fields that are always default are left out. -/
inductive Answer where
  | done
  | etag (e : Option Bytes)
  | keys (l : List Bytes)
  | object (contentLength : Nat) (metadata : Option Meta) (etag : Bytes) (body : Option Bytes)
  | head (contentLength : Nat) (metadata : Option Meta)
  | buckets (l : List Bytes)
  | objects (l : List (Bytes × Nat))
  | objectsV2 (keyCount : Nat) (l : List (Bytes × Nat))
  | uploadId (u : Bytes)
  deriving DecidableEq, Repr

/-- the program of a request: the methods of `/repo/src/storages/fs.rs:184-857` -/
def opProg : Op → Prog Answer
  | .createBucket b => (createBucket cfg b).bind fun _ => .ret .done
  | .copyObject b k s => (copyObject cfg ext b k s).bind fun e => .ret (.etag (some e))
  | .deleteBucket b => (deleteBucket cfg b).bind fun _ => .ret .done
  | .deleteObject b k => (deleteObject cfg b k).bind fun _ => .ret .done
  | .deleteObjects b ks => (deleteObjects cfg b ks).bind fun l => .ret (.keys l)
  | .getBucketLocation b => (getBucketLocation cfg b).bind fun _ => .ret .done
  | .getObject b k r w => (getObjectFull cfg ext b k r w).bind fun o =>
      .ret (.object o.1.contentLength o.1.metadata o.1.etag o.2)
  | .headBucket b => (headBucket cfg b).bind fun _ => .ret .done
  | .headObject b k => (headObject cfg ext b k).bind fun o => .ret (.head o.1 o.2)
  | .listBuckets => (listBuckets cfg).bind fun l => .ret (.buckets l)
  | .listObjects b p f => (listObjects cfg b p f).bind fun l => .ret (.objects l)
  | .listObjectsV2 b p f => (listObjectsV2 cfg b p f).bind fun l => .ret (.objectsV2 l.1 l.2)
  | .putObject i => (putObject cfg ext i).bind fun e => .ret (.etag e)
  | .createMultipartUpload u => (createMultipartUpload u).bind fun u => .ret (.uploadId u)
  | .uploadPart u n b => (uploadPart cfg ext u n b).bind fun e => .ret (.etag (some e))
  | .completeMultipartUpload b k u p =>
      (completeMultipartUpload cfg ext b k u p).bind fun e => .ret (.etag (some e))

end
end S3
