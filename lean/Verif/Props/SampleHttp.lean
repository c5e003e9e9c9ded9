import Verif.Model.Dispatch
import Verif.Spec.SigV4
import Verif.Props.Sample
import Verif.Props.SampleXml
/-! Sample requests for the examples and the witnesses. -/
namespace S3.Sample
open S3 S3.Spec

/-- a number as 32 bytes -/
def bytes32 (n : Nat) : Bytes := (List.range 32).map fun i => UInt8.ofNat (n / 256 ^ i % 256)

/-- a toy hash of 32 bytes -/
def toyHash (s : Bytes) : Bytes := bytes32 (s.foldl (fun n c => n * 257 + c.toNat + 1) 1)

/-- the digest of the empty string -/
def emptyDigest : Bytes :=
  [0xe3, 0xb0, 0xc4, 0x42, 0x98, 0xfc, 0x1c, 0x14, 0x9a, 0xfb, 0xf4, 0xc8, 0x99, 0x6f, 0xb9, 0x24,
   0x27, 0xae, 0x41, 0xe4, 0x64, 0x9b, 0x93, 0x4c, 0xa4, 0x95, 0x99, 0x1b, 0x78, 0x52, 0xb8, 0x55]

/-- a toy in the place of SHA-256 and HMAC -/
def crypto : Crypto where
  sha256 s := if s = [] then emptyDigest else toyHash s
  hmac k s := toyHash (k ++ 0 :: s)

theorem bytes32_length (n : Nat) : (bytes32 n).length = 32 := by simp [bytes32]

theorem cryptoLaw : CryptoLaw crypto where
  sha_length s := by
    simp only [crypto]
    split
    · rfl
    · exact bytes32_length _
  hmac_length k s := bytes32_length _
  sha_empty := by decide +kernel

/-- a library that knows one content type, and a simple XML reader -/
def lib : Lib where
  crypto := crypto
  mime v := if v = b!"multipart/form-data; boundary=B" then some ⟨true, some b!"B"⟩ else some ⟨false, none⟩
  xml := plainXml

/-- a DeleteObjects document -/
def delDoc : Bytes := b!"<?xml version='1.0'?>\n<Delete xmlns=\"http://s3.amazonaws.com/doc/2006-03-01/\">\n <Object><Key>k1</Key></Object>\n <Object><Key>k2</Key></Object>\n</Delete>\n"

/-- one user -/
def provider : Provider := fun k => if k = b!"AK" then .ok b!"SK" else .error .notSignedUp

def env : Env := { wants := fun _ => 10, fuel := 100, uuid := b!"00000000-0000-4000-8000-000000000000" }

def stamp : Bytes := b!"20130524T000000Z"

/-- the canonical text, computed -/
def canonical (method uri : Bytes) (query headers : List (Bytes × Bytes)) (payload : Bytes) : Bytes :=
  joinWith 10 ([method, uri, joinWith 38 ((sortPairs (query.map fun p => (awsEncode false p.1, awsEncode false p.2))).map
    fun p => p.1 ++ b!"=" ++ p.2)] ++ headers.map (fun p => p.1 ++ b!":" ++ p.2) ++ [[], joinWith 59 (headers.map (·.1)), payload])

/-- the signature of user AK -/
def signText (text : Bytes) : Bytes := sigv4 crypto b!"SK" stamp b!"us-east-1" (textToSign crypto stamp b!"us-east-1" text)

/-- a request of user AK signed in its header; `uri` is the canonical URI, `headers` more headers (sorted behind the date);
all headers are signed -/
def signedRequest (method path uri : Bytes) (query : Option Bytes) (declared : Bytes) (headers : List (Bytes × Bytes)) (body : Body) : Req :=
  let base := [(b!"host", b!"h"), (b!"x-amz-content-sha256", declared), (b!"x-amz-date", stamp)] ++ headers
  let q := match query with
    | none => []
    | some q => parseQuery q
  { method, path, query, body
    headers := (b!"authorization", b!"AWS4-HMAC-SHA256 Credential=AK/20130524/us-east-1/s3/aws4_request, SignedHeaders=" ++
      joinWith 59 (base.map (·.1)) ++ b!", Signature=" ++ signText (canonical method uri q base declared)) :: base }

/-- the body of `PUT /abc/k` -/
def hello : Bytes := b!"hello"
def helloHash : Bytes := hexText (crypto.sha256 hello)

/-- `PUT /abc/k` with the body "hello", signed -/
def signedPut : Req := signedRequest b!"PUT" b!"/abc/k" b!"/abc/k" none helloHash [] [some hello]

/-- `GET /abc/k` by a presigned URL -/
def presignedGet : Req :=
  let q := b!"X-Amz-Algorithm=AWS4-HMAC-SHA256&X-Amz-Credential=AK%2F20130524%2Fus-east-1%2Fs3%2Faws4_request&X-Amz-Date=" ++ stamp ++
    b!"&X-Amz-Expires=1&X-Amz-SignedHeaders=host"
  { method := b!"GET", path := b!"/abc/k", body := [], headers := [(b!"host", b!"h")]
    query := some (q ++ b!"&X-Amz-Signature=" ++
      signText (canonical b!"GET" b!"/abc/k" (parseQuery q) [(b!"host", b!"h")] b!"UNSIGNED-PAYLOAD")) }

/-- the signature of a policy by user AK -/
def signPolicy (policy : Bytes) : Bytes := sigv4 crypto b!"SK" stamp b!"us-east-1" policy

/-- the fields of a signed form that uploads to the key -/
def formFields (policy key : Bytes) : List (Bytes × Bytes) :=
  [(b!"key", key), (b!"policy", policy), (b!"x-amz-algorithm", b!"AWS4-HMAC-SHA256"),
   (b!"x-amz-credential", b!"AK/20130524/us-east-1/s3/aws4_request"), (b!"x-amz-date", stamp),
   (b!"x-amz-signature", signPolicy policy)]

/-- a form upload to bucket `abc` -/
def formUpload (fields : List (Bytes × Bytes)) : Req :=
  { method := b!"POST", path := b!"/abc", query := none, headers := [(b!"content-type", b!"multipart/form-data; boundary=B")]
    body := [some (formText b!"B" fields b!"file" b!"f.txt" b!"text/plain" b!"content" b!"--\r\n")] }

/-- `GET /abc/k`, not signed -/
def anonymousGet : Req := { method := b!"GET", path := b!"/abc/k", query := none, headers := [(b!"host", b!"h")], body := [] }

/-- is the request admitted? -/
def admitted (auth : Option Provider) (r : Req) : Bool := match admit lib auth r with
  | .ok _ => true
  | .error _ => false

/-- is the request answered with the error at once? -/
def failsWith (p : Prog Reply) (e : S3ErrorCode) : Bool := match p with
  | .fail e' => decide (e = e')
  | _ => false

theorem failsWith_iff {p : Prog Reply} {e : S3ErrorCode} : failsWith p e = true ↔ p = .fail e := by
  cases p <;> simp [failsWith, eq_comm]

example : admitted (some provider) signedPut = true := by decide +kernel
example : admitted (some provider) presignedGet = true := by decide +kernel
example : admitted (some provider) (formUpload (formFields b!"cG9saWN5" b!"k")) = true := by decide +kernel
example : admitted (some provider) anonymousGet = false := by decide +kernel

end S3.Sample
