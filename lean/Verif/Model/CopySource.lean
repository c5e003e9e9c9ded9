import Verif.Model.Path
/-! Models of `/repo/src/headers/amz_copy_source.rs`, `/repo/src/headers/amz_content_sha256.rs`. -/
namespace S3

/-- `/repo/src/headers/amz_copy_source.rs:32-45` `ParseAmzCopySourceError` -/
inductive CopySourceError where
  | patternMismatch | invalidBucketName | invalidKey
  deriving DecidableEq, Repr

/-- regex `^(.+?)/(.+)$` of `/repo/src/headers/amz_copy_source.rs:72` with its two captures: `.`
matches everything but `\n`; the lazy first group ends at the first `/` after at least one
character. (The regex works on `char`s; `/` and `\n` are ASCII, so bytes give the same captures.) -/
def copySourceSplit (s : Bytes) : Option (Bytes × Bytes) :=
  if s.contains 10 then none
  else match s with
    | [] => none
    | x :: xs =>
      match splitOnce 47 xs with
      | none => none
      | some (_, []) => none
      | some (b, k) => some (x :: b, k)

/-- regex `.+?/.+` (unanchored) of `/repo/src/headers/amz_copy_source.rs:53`: some `/` has a
character other than `\n` on either side. `/repo/src/headers/amz_copy_source.rs:51-61` `try_match` -/
def copySourceTryMatch : Bytes → Bool
  | a :: b :: c :: r =>
    (a != 10 && b == 47 && c != 10) || copySourceTryMatch (b :: c :: r)
  | _ => false

/-- `/repo/src/headers/amz_copy_source.rs:67-91` `AmzCopySource::from_header_str` -/
def copySourceFromHeader (s : Bytes) : Except CopySourceError (Bytes × Bytes) :=
  match copySourceSplit s with
  | none => .error .patternMismatch
  | some (bucket, key) =>
    if !checkBucketName bucket then .error .invalidBucketName
    else if !checkKey key then .error .invalidKey
    else .ok (bucket, key)

/-- `/repo/src/utils/crypto.rs:15-18` `is_sha256_checksum` -/
def isSha256Checksum (s : Bytes) : Bool :=
  s.length == 64 && s.all fun c => isDigit c || (97 ≤ c && c ≤ 102)

/-- `/repo/src/headers/amz_content_sha256.rs:10-21` -/
inductive AmzContentSha256 where
  | multipleChunks
  | singleChunk (checksum : Bytes)
  | unsignedPayload
  deriving DecidableEq, Repr

/-- `/repo/src/headers/amz_content_sha256.rs:34-46` `AmzContentSha256::from_header_str` -/
def AmzContentSha256.fromHeaderStr (s : Bytes) : Option AmzContentSha256 :=
  if s = b!"UNSIGNED-PAYLOAD" then some .unsignedPayload
  else if s = b!"STREAMING-AWS4-HMAC-SHA256-PAYLOAD" then some .multipleChunks
  else if isSha256Checksum s then some (.singleChunk s)
  else none

end S3
