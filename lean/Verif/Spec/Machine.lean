import Verif.Spec.Place
import Verif.Spec.Store
/-!
# The server as an abstract machine

What the server is to its users when nothing else touches the disk, without files and calls: bytes at places, folders,
records of metadata that belong to the spelling of an address, and uploaded parts. C131 compares the server with this
machine. It has all the peculiarities of the server: several spellings lead to the same place, a record outlives its
object and its bucket, a copy of an object onto itself empties it, an upload that breaks off leaves what had arrived,
uploads make the folders they need and copies and completions do not, a completion that fails has consumed some parts.
-/
namespace S3.Spec
open S3

/-- what is recorded about an address as its metadata -/
inductive Record
  | absent
  | unreadable
  | is (m : Meta)

/-- the metadata a request finds: nothing at all when the record cannot be read -/
def Record.found : Record → Option (Option Meta)
  | .absent => some none
  | .unreadable => none
  | .is m => some (some m)

structure Machine where
  /-- the bytes at a place -/
  bytes : List Bytes → Option Bytes
  /-- the folders; a bucket is a folder -/
  folder : List Bytes → Bool
  /-- the metadata of a spelling of an address -/
  record : Bytes → Bytes → Record
  /-- the parts uploaded under an upload id -/
  parts : Bytes → Int → Option Bytes

/-- a folder on the way to the place `p` -/
def onTheWay (q p : List Bytes) : Bool := decide (q <+: p ∧ q ≠ p)

/-- the storage class of an upload is none, or one of the two that are known -/
def classKnown (i : PutInput) : Bool :=
  decide (i.storageClass = none ∨ i.storageClass = some b!"STANDARD" ∨ i.storageClass = some b!"REDUCED_REDUNDANCY")

/-- the range a GET asks for; `none` when the header does not name one -/
def askedRange : Option Bytes → Option (Option Range)
  | none => some none
  | some h => (Range.fromHeaderStr h).map some

/-- where the answer to a GET begins and how long it is announced to be; `none`: refused. A closed range that ends after
the object is announced with its full length. -/
def slice (n : Nat) : Option Range → Option (Nat × Nat)
  | none => some (0, n)
  | some (.normal f none) => if f < n then some (f, n - f) else none
  | some (.normal f (some l)) => if f < n then some (f, (if l < u64Max then l + 1 else n) - f) else none
  | some (.suffix m) => if m ≤ n ∧ m ≤ i64Max then some (n - m, m) else none

/-- Parts put together in the order of the list, which must be 1, 2, … (`cnt` of them are done, and have given `acc`);
parts that were used are gone. The end comes at the first that is missing or not in order. -/
def assemble (parts : Int → Option Bytes) (cnt : Int) (acc : Bytes) : List (Option Int) → Bool × Bytes × (Int → Option Bytes)
  | [] => (true, acc, parts)
  | none :: _ => (false, acc, parts)
  | some n :: rest =>
    if n = cnt + 1 then
      match parts n with
      | none => (false, acc, parts)
      | some c => assemble (fun m => if m = n then none else parts m) n (acc ++ c) rest
    else (false, acc, parts)

section
variable (ext : Ext) (place : Bytes → Bytes → List Bytes)

/-- what a copy writes: a copy onto the same place finds the source emptied already -/
def copied (p sp : List Bytes) (c : Bytes) : Bytes := if p = sp then [] else c

/-- the bytes at one place replaced -/
def setBytes (f : List Bytes → Option Bytes) (p : List Bytes) (v : Option Bytes) : List Bytes → Option Bytes :=
  fun q => if q = p then v else f q

/-- objects deleted one after the other, until one is not there -/
def deleteEach (b : Bytes) (f : List Bytes → Option Bytes) : List Bytes → Bool × (List Bytes → Option Bytes)
  | [] => (true, f)
  | k :: ks => if (f (place b k)).isSome then deleteEach b (setBytes f (place b k) none) ks else (false, f)

/-- the keys of a list that hold an object -/
def holding (f : List Bytes → Option Bytes) (b : Bytes) (ks : List Bytes) : List Bytes := ks.filter fun k => (f (place b k)).isSome

/-- what the machine answers -/
def Machine.answer (s : Machine) : Op → Option (Outcome Answer)
  | .putObject i =>
    if classKnown i = false then some (.err .InvalidStorageClass)
    else match i.body with
      | none => some (.err .IncompleteBody)
      | some body =>
        if none ∈ body then some (.err .InternalError)
        else some (.ok (.etag (some (quoted (ext.md5hex (received body))))))
  | .getObject b k r _ =>
    match askedRange r with
    | none => some (.err .InvalidRequest)
    | some x =>
      match s.bytes (place b k) with
      | none => some (.err .NoSuchKey)
      | some c =>
        match slice c.length x, (s.record b k).found with
        | none, _ => some (.err .InvalidRange)
        | some _, none => some (.err .InternalError)
        | some (start, len), some m =>
          if len ≤ i64Max then some (.ok (.object len m (quoted (ext.md5hex c)) (some ((c.drop start).take len))))
          else some (.err .InternalError)
  | .headObject b k =>
    match s.bytes (place b k), (s.record b k).found with
    | none, _ => some (.err .NoSuchKey)
    | some _, none => some (.err .InternalError)
    | some c, some m => if c.length ≤ i64Max then some (.ok (.head c.length m)) else some (.err .InternalError)
  | .deleteObject b k =>
    match s.bytes (place b k) with
    | none => some (.err .InternalError)
    | some _ => some (.ok .done)
  | .deleteObjects b ks =>
    if (deleteEach place b s.bytes (holding place s.bytes b ks)).1 then some (.ok (.keys (holding place s.bytes b ks)))
    else some (.err .InternalError)
  | .uploadPart _ _ none => some (.err .IncompleteBody)
  | .uploadPart _ _ (some body) =>
    if none ∈ body then some (.err .InternalError)
    else some (.ok (.etag (some (quoted (ext.md5hex (received body))))))
  | .createMultipartUpload id => some (.ok (.uploadId id))
  | .completeMultipartUpload _ _ _ none => some (.err .InvalidPart)
  | .completeMultipartUpload b k u (some l) =>
    if s.folder (place b k).dropLast then
      match assemble (s.parts u) 0 [] l with
      | (true, c, _) => some (.ok (.etag (some (quoted (ext.md5hex c)))))
      | (false, _, _) => some (.err .InternalError)
    else some (.err .InternalError)
  | .copyObject b k src =>
    match copySourceFromHeader src with
    | .error _ => none
    | .ok (sb, sk) =>
      match s.bytes (place sb sk) with
      | none => some (.err .InternalError)
      | some c =>
        if s.folder (place b k).dropLast then
          some (.ok (.etag (some (quoted (ext.md5hex (copied (place b k) (place sb sk) c))))))
        else some (.err .InternalError)
  | .createBucket b => if s.folder [b] then some (.err .BucketAlreadyExists) else some (.ok .done)
  | .deleteBucket b => if s.folder [b] then some (.ok .done) else some (.err .InternalError)
  | .headBucket b => if s.folder [b] then some (.ok .done) else some (.err .NoSuchBucket)
  | .getBucketLocation b => if s.folder [b] then some (.ok .done) else some (.err .NoSuchBucket)
  | _ => none

/-- what the machine becomes; requests it does not know leave it as it is -/
def Machine.after (s : Machine) : Op → Machine
  | .putObject i =>
    match i.body with
    | none => s
    | some body =>
      if classKnown i = false then s
      else
        { s with
          bytes := setBytes s.bytes (place i.bucket i.key) (some (received body))
          folder := fun q => s.folder q || onTheWay q (place i.bucket i.key)
          record := match i.metadata with
            | none => s.record
            | some m => if none ∈ body then s.record else upd s.record i.bucket i.key (.is m) }
  | .deleteObject b k => { s with bytes := setBytes s.bytes (place b k) none }
  | .deleteObjects b ks => { s with bytes := (deleteEach place b s.bytes (holding place s.bytes b ks)).2 }
  | .uploadPart _ _ none => s
  | .uploadPart u n (some body) => { s with parts := fun u' n' => if (u', n') = (u, n) then some (received body) else s.parts u' n' }
  | .completeMultipartUpload _ _ _ none => s
  | .completeMultipartUpload b k u (some l) =>
    if s.folder (place b k).dropLast then
      { s with
        bytes := setBytes s.bytes (place b k) (some (assemble (s.parts u) 0 [] l).2.1)
        parts := fun u' => if u' = u then (assemble (s.parts u) 0 [] l).2.2 else s.parts u' }
    else s
  | .copyObject b k src =>
    match copySourceFromHeader src with
    | .error _ => s
    | .ok (sb, sk) =>
      match s.bytes (place sb sk) with
      | none => s
      | some c =>
        if s.folder (place b k).dropLast then
          { s with
            bytes := setBytes s.bytes (place b k) (some (copied (place b k) (place sb sk) c))
            record := match s.record sb sk with
              | .absent => s.record
              | r => upd s.record b k (if (sb, sk) = (b, k) then .unreadable else r) }
        else s
  | .createBucket b => { s with folder := fun q => s.folder q || decide (q = [b]) }
  | .deleteBucket b =>
    { s with
      bytes := fun q => if q.head? = some b then none else s.bytes q
      folder := fun q => s.folder q && decide (q.head? ≠ some b) }
  | _ => s

/-- what a history makes of the machine -/
def Machine.afterAll (s : Machine) (os : List Op) : Machine := os.foldl (Machine.after place) s

end

/-- A set of addresses, in any spelling, with the places they lead to inside the buckets below `root`; none of the
places is a folder on the way to another one. Several addresses may lead to the same place. The names are short enough
for the file system, and so are the names of the metadata files. -/
structure Spelled (root : List Bytes) (A : Bytes → Bytes → Prop) (place : Bytes → Bytes → List Bytes) : Prop where
  names : ∀ b k, A b k → Names root b k (place b k)
  flat : ∀ b k b' k', A b k → A b' k' → onTheWay (place b k) (place b' k') = false
  fits : ∀ b k, A b k → (∀ c ∈ place b k, nameOk c = true) ∧ nameOk (metadataName b k) = true

/-- the requests the machine knows: about the addresses in `A`, about buckets of any legal name, and about parts of uploads
whose names are no paths and fit into a file name -/
def Served (A : Bytes → Bytes → Prop) : Op → Prop
  | .putObject i => A i.bucket i.key ∧ ∀ m, i.metadata = some m → ValidMeta m
  | .getObject b k _ _ => A b k
  | .headObject b k => A b k
  | .deleteObject b k => A b k
  | .deleteObjects b ks => ∀ k ∈ ks, A b k
  | .createMultipartUpload _ => True
  | .uploadPart u n _ => (47 : UInt8) ∉ u ∧ nameOk (partName u n) = true
  | .completeMultipartUpload b k u _ => A b k ∧ (47 : UInt8) ∉ u
  | .copyObject b k src => A b k ∧ ∃ sb sk, copySourceFromHeader src = .ok (sb, sk) ∧ A sb sk
  | .createBucket b => LegalBucket b
  | .deleteBucket b => LegalBucket b
  | .headBucket b => LegalBucket b
  | .getBucketLocation b => LegalBucket b
  | _ => False

/-- the folders that matter: those on the way to an address in `A`, and the buckets -/
def Way (A : Bytes → Bytes → Prop) (place : Bytes → Bytes → List Bytes) (q : List Bytes) : Prop :=
  (∃ b k, A b k ∧ onTheWay q (place b k) = true) ∨ ∃ b, LegalBucket b ∧ q = [b]

/-- The file tree shows the state `s` of the machine, as far as the addresses in `A` and the buckets are concerned: the
bytes are the content of the files, the records are the metadata files, the folders are the directories, the parts are the
part files, and nothing of another kind is in the way. -/
structure Embodies (cfg : Cfg) (ext : Ext) (A : Bytes → Bytes → Prop) (place : Bytes → Bytes → List Bytes) (s : Machine)
    (fs : FS) : Prop where
  wf : WF fs
  root : IsDir fs cfg.root
  bytes : ∀ b k, A b k → contentAt fs (cfg.root ++ place b k) = s.bytes (place b k)
  free : ∀ b k, A b k → ¬ IsDir fs (cfg.root ++ place b k)
  record : ∀ b k, A b k → storedMeta cfg ext fs b k = (s.record b k).found
  noDir : ∀ b k, A b k → ¬ IsDir fs (cfg.root ++ [metadataName b k])
  folders : ∀ q, Way A place q → (IsDir fs (cfg.root ++ q) ↔ s.folder q = true) ∧ contentAt fs (cfg.root ++ q) = none
  parts : ∀ u n, (47 : UInt8) ∉ u → contentAt fs (cfg.root ++ [partName u n]) = s.parts u n ∧ ¬ IsDir fs (cfg.root ++ [partName u n])

/-- requests that read, in any form and about anything -/
def Watching : Op → Prop
  | .getObject _ _ _ _ | .headObject _ _ | .listBuckets | .listObjects _ _ _ | .listObjectsV2 _ _ _ => True
  | .headBucket _ | .getBucketLocation _ => True
  | _ => False

end S3.Spec
