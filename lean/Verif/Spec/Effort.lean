import Verif.Spec.Range
import Verif.Model.Fault
/-! How much work a request may be: for C117. -/
namespace S3.Spec

/-- how many slashes a text has -/
def slashes (s : Bytes) : Nat := s.count 47

/-- The length of the way from `/` to an object, at most: the folder of the server, and the components of the bucket and the key. -/
def depth (cfg : Cfg) (b k : Bytes) : Nat := max cfg.root.length cfg.cwd.length + slashes b + slashes k + 2

/-- `Effort cfg o n`: to carry out the request `o` the storage may be accessed `n` times. The number depends on the request only (and on where
the server keeps its files): constant for most; one for each fragment of an uploaded body, with a few for each folder on the way to it; one for
each byte of a range with an end, as the system may deliver byte by byte; a few for each key or part listed in the request. -/
inductive Effort (cfg : Cfg) : Op → Nat → Prop where
  | createBucket (b) : Effort cfg (.createBucket b) 2
  | headBucket (b) : Effort cfg (.headBucket b) 1
  | getBucketLocation (b) : Effort cfg (.getBucketLocation b) 1
  | deleteBucket (b) : Effort cfg (.deleteBucket b) 1
  | headObject (b k) : Effort cfg (.headObject b k) 5
  | deleteObject (b k) : Effort cfg (.deleteObject b k) 2
  | copyObject (b k s) : Effort cfg (.copyObject b k s) 12
  | deleteObjects (b ks) : Effort cfg (.deleteObjects b ks) (2 * ks.length)
  | getFromTo (b k h f l w) : RangeHeader h (.fromTo f l) → l + 1 < 2 ^ 64 → Effort cfg (.getObject b k (some h) w) (8 + (l + 1 - f))
  | getLast (b k h n w) : RangeHeader h (.lastN n) → Effort cfg (.getObject b k (some h) w) (8 + n)
  | putObject (i) : Effort cfg (.putObject i) (3 * depth cfg i.bucket i.key + 4 + (i.body.getD []).length)
  | createMultipartUpload (u) : Effort cfg (.createMultipartUpload u) 0
  | uploadPart (u n body) : Effort cfg (.uploadPart u n body) (1 + (body.getD []).length)
  | completeMultipartUpload (b k u parts) : Effort cfg (.completeMultipartUpload b k u parts) (4 + 4 * (parts.getD []).length)

/-- how many of the steps are those of request number `i` -/
def turns (i : Nat) (steps : List (Nat × Fault)) : Nat := (steps.map (·.1)).count i

/-- how many times a program accesses the storage when it runs alone -/
def accesses {α : Type} (cfg : Cfg) : Prog α → FS → Nat
  | .sys c k, fs => accesses cfg (k (exec cfg fs c).1) (exec cfg fs c).2 + 1
  | _, _ => 0

/-- the bytes a system call delivers -/
def delivers : (c : Call) → Resp c → Nat
  | .readAll _, some b => b.length
  | .readAt .., some b => b.length
  | _, _ => 0

/-- how many bytes of files a program reads when it runs alone -/
def bytesRead {α : Type} (cfg : Cfg) : Prog α → FS → Nat
  | .sys c k, fs => bytesRead cfg (k (exec cfg fs c).1) (exec cfg fs c).2 + delivers c (exec cfg fs c).1
  | _, _ => 0

end S3.Spec
