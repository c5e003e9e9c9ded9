import Verif.Model.Signature
/-! The hash functions behind `/repo/src/utils/crypto.rs` and `/repo/src/storages/fs.rs`: SHA-256 (FIPS 180-4), HMAC (RFC 2104)
and MD5 (RFC 1321), as the crates `sha2`, `hmac` and `md-5` are taken to compute them. The theorems of the other files hold
for every function in their place; here the functions themselves are shown to satisfy what is assumed there. -/
namespace S3

/-- rotation to the right. FIPS 180-4 §3.2, in `Sha256::digest` behind `/repo/src/utils/crypto.rs:22` -/
def rotr (x : UInt32) (n : UInt32) : UInt32 := (x >>> n) ||| (x <<< (32 - n))

/-- the constants of FIPS 180-4 §4.2.2, in `Sha256::digest` behind `/repo/src/utils/crypto.rs:22` -/
def sha256K : List UInt32 :=
  [0x428a2f98, 0x71374491, 0xb5c0fbcf, 0xe9b5dba5, 0x3956c25b, 0x59f111f1, 0x923f82a4, 0xab1c5ed5,
   0xd807aa98, 0x12835b01, 0x243185be, 0x550c7dc3, 0x72be5d74, 0x80deb1fe, 0x9bdc06a7, 0xc19bf174,
   0xe49b69c1, 0xefbe4786, 0x0fc19dc6, 0x240ca1cc, 0x2de92c6f, 0x4a7484aa, 0x5cb0a9dc, 0x76f988da,
   0x983e5152, 0xa831c66d, 0xb00327c8, 0xbf597fc7, 0xc6e00bf3, 0xd5a79147, 0x06ca6351, 0x14292967,
   0x27b70a85, 0x2e1b2138, 0x4d2c6dfc, 0x53380d13, 0x650a7354, 0x766a0abb, 0x81c2c92e, 0x92722c85,
   0xa2bfe8a1, 0xa81a664b, 0xc24b8b70, 0xc76c51a3, 0xd192e819, 0xd6990624, 0xf40e3585, 0x106aa070,
   0x19a4c116, 0x1e376c08, 0x2748774c, 0x34b0bcb5, 0x391c0cb3, 0x4ed8aa4a, 0x5b9cca4f, 0x682e6ff3,
   0x748f82ee, 0x78a5636f, 0x84c87814, 0x8cc70208, 0x90befffa, 0xa4506ceb, 0xbef9a3f7, 0xc67178f2]

/-- the eight working variables. FIPS 180-4 §6.2.2, in `Sha256::digest` behind `/repo/src/utils/crypto.rs:22` -/
structure Sha where
  a : UInt32
  b : UInt32
  c : UInt32
  d : UInt32
  e : UInt32
  f : UInt32
  g : UInt32
  h : UInt32

/-- the initial hash value. FIPS 180-4 §5.3.3, in `Sha256::digest` behind `/repo/src/utils/crypto.rs:22` -/
def Sha.init : Sha :=
  ⟨0x6a09e667, 0xbb67ae85, 0x3c6ef372, 0xa54ff53a, 0x510e527f, 0x9b05688c, 0x1f83d9ab, 0x5be0cd19⟩

/-- sum of two hash values. FIPS 180-4 §6.2.2 step 4, in `Sha256::digest` behind `/repo/src/utils/crypto.rs:22` -/
def Sha.add (s t : Sha) : Sha :=
  ⟨s.a + t.a, s.b + t.b, s.c + t.c, s.d + t.d, s.e + t.e, s.f + t.f, s.g + t.g, s.h + t.h⟩

/-- one round with constant `k` and word `w`. FIPS 180-4 §6.2.2 step 3, in `Sha256::digest` behind
`/repo/src/utils/crypto.rs:22` -/
def Sha.round (s : Sha) (k w : UInt32) : Sha :=
  let s1 := rotr s.e 6 ^^^ rotr s.e 11 ^^^ rotr s.e 25
  let ch := (s.e &&& s.f) ^^^ (~~~s.e &&& s.g)
  let t1 := s.h + s1 + ch + k + w
  let s0 := rotr s.a 2 ^^^ rotr s.a 13 ^^^ rotr s.a 22
  let maj := (s.a &&& s.b) ^^^ (s.a &&& s.c) ^^^ (s.b &&& s.c)
  ⟨t1 + (s0 + maj), s.a, s.b, s.c, s.d + t1, s.e, s.f, s.g⟩

/-- The next sixteen words of the message schedule minus the oldest: `W_t = σ1(W_{t-2}) + W_{t-7} + σ0(W_{t-15}) + W_{t-16}`.
FIPS 180-4 §6.2.2 step 1, in `Sha256::digest` behind `/repo/src/utils/crypto.rs:22`; windows of other lengths do not occur. -/
def shaSchedule : List UInt32 → List UInt32
  | [w0, w1, w2, w3, w4, w5, w6, w7, w8, w9, w10, w11, w12, w13, w14, w15] =>
    let s0 := rotr w1 7 ^^^ rotr w1 18 ^^^ (w1 >>> 3)
    let s1 := rotr w14 17 ^^^ rotr w14 19 ^^^ (w14 >>> 10)
    [w1, w2, w3, w4, w5, w6, w7, w8, w9, w10, w11, w12, w13, w14, w15, s1 + w9 + s0 + w0]
  | w => w

/-- the rounds, on the working variables and the window of the schedule. FIPS 180-4 §6.2.2 step 3, in `Sha256::digest` behind
`/repo/src/utils/crypto.rs:22` -/
def shaRounds : List UInt32 → Sha → List UInt32 → Sha
  | k :: ks, s, w0 :: w => shaRounds ks (s.round k w0) (shaSchedule (w0 :: w))
  | _, s, _ => s

/-- the words of a text, most significant byte first. FIPS 180-4 §5.2.1, in `Sha256::digest` behind
`/repo/src/utils/crypto.rs:22` -/
def wordsBE : Bytes → List UInt32
  | a :: b :: c :: d :: r =>
    ((a.toUInt32 <<< 24) ||| (b.toUInt32 <<< 16) ||| (c.toUInt32 <<< 8) ||| d.toUInt32) :: wordsBE r
  | _ => []

/-- the bytes of a word, most significant first. FIPS 180-4 §6.2, in `Sha256::digest` behind `/repo/src/utils/crypto.rs:22` -/
def bytesBE (w : UInt32) : Bytes := [(w >>> 24).toUInt8, (w >>> 16).toUInt8, (w >>> 8).toUInt8, w.toUInt8]

/-- the bytes of a number of 64 bits, most significant first. FIPS 180-4 §5.1.1, in `Sha256::digest` behind
`/repo/src/utils/crypto.rs:22` -/
def length64BE (n : Nat) : Bytes :=
  bytesBE (UInt32.ofNat (n / 4294967296)) ++ bytesBE (UInt32.ofNat n)

/-- the message with padding. FIPS 180-4 §5.1.1, in `Sha256::digest` behind `/repo/src/utils/crypto.rs:22` -/
def shaPad (m : Bytes) : Bytes :=
  m ++ 0x80 :: List.replicate ((119 - m.length % 64) % 64) 0 ++ length64BE (8 * m.length)

/-- the hash value after the blocks of a padded message, at most `n` of them. FIPS 180-4 §6.2.2, in `Sha256::digest` behind
`/repo/src/utils/crypto.rs:22` -/
def shaBlocks : Nat → Bytes → Sha → Sha
  | 0, _, s => s
  | n + 1, m, s => shaBlocks n (m.drop 64) (s.add (shaRounds sha256K s (wordsBE (m.take 64))))

/-- SHA-256. FIPS 180-4 §6.2, `Sha256::digest` behind `/repo/src/utils/crypto.rs:22,32-37` -/
def sha256 (m : Bytes) : Bytes :=
  let p := shaPad m
  let s := shaBlocks (p.length / 64) p Sha.init
  bytesBE s.a ++ bytesBE s.b ++ bytesBE s.c ++ bytesBE s.d ++ bytesBE s.e ++ bytesBE s.f ++ bytesBE s.g ++ bytesBE s.h

/-- the key of a block's length. RFC 2104 §2, `Hmac::new_from_slice` behind `/repo/src/utils/crypto.rs:44` -/
def hmacKey (k : Bytes) : Bytes :=
  let k := if k.length ≤ 64 then k else sha256 k
  k ++ List.replicate (64 - k.length) 0

/-- HMAC with SHA-256. RFC 2104 §2, `/repo/src/utils/crypto.rs:43-48` -/
def hmacSha256 (k m : Bytes) : Bytes :=
  sha256 ((hmacKey k).map (· ^^^ 0x5c) ++ sha256 ((hmacKey k).map (· ^^^ 0x36) ++ m))

/-- the functions of `/repo/src/utils/crypto.rs:20-48` -/
def realCrypto : Crypto where
  sha256 := sha256
  hmac := hmacSha256

/-- rotation to the left. RFC 1321 §3.4, in `Md5` behind `/repo/src/storages/fs.rs:125-139,683-691,749-757` -/
def rotl (x : UInt32) (n : UInt32) : UInt32 := (x <<< n) ||| (x >>> (32 - n))

/-- The constant, the place of the message word and the rotation of each of the 64 steps. RFC 1321 §3.4, in `Md5` behind
`/repo/src/storages/fs.rs:125-139` -/
def md5Steps : List (UInt32 × Nat × UInt32) :=
  [(0xd76aa478, 0, 7), (0xe8c7b756, 1, 12), (0x242070db, 2, 17), (0xc1bdceee, 3, 22),
   (0xf57c0faf, 4, 7), (0x4787c62a, 5, 12), (0xa8304613, 6, 17), (0xfd469501, 7, 22),
   (0x698098d8, 8, 7), (0x8b44f7af, 9, 12), (0xffff5bb1, 10, 17), (0x895cd7be, 11, 22),
   (0x6b901122, 12, 7), (0xfd987193, 13, 12), (0xa679438e, 14, 17), (0x49b40821, 15, 22),
   (0xf61e2562, 1, 5), (0xc040b340, 6, 9), (0x265e5a51, 11, 14), (0xe9b6c7aa, 0, 20),
   (0xd62f105d, 5, 5), (0x02441453, 10, 9), (0xd8a1e681, 15, 14), (0xe7d3fbc8, 4, 20),
   (0x21e1cde6, 9, 5), (0xc33707d6, 14, 9), (0xf4d50d87, 3, 14), (0x455a14ed, 8, 20),
   (0xa9e3e905, 13, 5), (0xfcefa3f8, 2, 9), (0x676f02d9, 7, 14), (0x8d2a4c8a, 12, 20),
   (0xfffa3942, 5, 4), (0x8771f681, 8, 11), (0x6d9d6122, 11, 16), (0xfde5380c, 14, 23),
   (0xa4beea44, 1, 4), (0x4bdecfa9, 4, 11), (0xf6bb4b60, 7, 16), (0xbebfbc70, 10, 23),
   (0x289b7ec6, 13, 4), (0xeaa127fa, 0, 11), (0xd4ef3085, 3, 16), (0x04881d05, 6, 23),
   (0xd9d4d039, 9, 4), (0xe6db99e5, 12, 11), (0x1fa27cf8, 15, 16), (0xc4ac5665, 2, 23),
   (0xf4292244, 0, 6), (0x432aff97, 7, 10), (0xab9423a7, 14, 15), (0xfc93a039, 5, 21),
   (0x655b59c3, 12, 6), (0x8f0ccc92, 3, 10), (0xffeff47d, 10, 15), (0x85845dd1, 1, 21),
   (0x6fa87e4f, 8, 6), (0xfe2ce6e0, 15, 10), (0xa3014314, 6, 15), (0x4e0811a1, 13, 21),
   (0xf7537e82, 4, 6), (0xbd3af235, 11, 10), (0x2ad7d2bb, 2, 15), (0xeb86d391, 9, 21)]

/-- the four words of the state. RFC 1321 §3.3, in `Md5` behind `/repo/src/storages/fs.rs:125-139` -/
structure Md5 where
  a : UInt32
  b : UInt32
  c : UInt32
  d : UInt32

/-- the mixing function of step `i`. RFC 1321 §3.4, in `Md5` behind `/repo/src/storages/fs.rs:125-139` -/
def md5F (i : Nat) (b c d : UInt32) : UInt32 :=
  if i < 16 then (b &&& c) ||| (~~~b &&& d)
  else if i < 32 then (b &&& d) ||| (c &&& ~~~d)
  else if i < 48 then b ^^^ c ^^^ d
  else c ^^^ (b ||| ~~~d)

/-- The steps from number `i` on. RFC 1321 §3.4, in `Md5` behind `/repo/src/storages/fs.rs:125-139`; blocks have sixteen words, a
shorter one (which does not occur) ends the steps. -/
def md5Rounds (m : List UInt32) : Nat → List (UInt32 × Nat × UInt32) → Md5 → Md5
  | _, [], s => s
  | i, (k, g, r) :: rest, s =>
    match m[g]? with
    | some w => md5Rounds m (i + 1) rest ⟨s.d, s.b + rotl (s.a + md5F i s.b s.c s.d + k + w) r, s.b, s.c⟩
    | none => s

/-- the words of a text, least significant byte first. RFC 1321 §2, in `Md5` behind `/repo/src/storages/fs.rs:125-139` -/
def wordsLE : Bytes → List UInt32
  | a :: b :: c :: d :: r =>
    ((d.toUInt32 <<< 24) ||| (c.toUInt32 <<< 16) ||| (b.toUInt32 <<< 8) ||| a.toUInt32) :: wordsLE r
  | _ => []

/-- the bytes of a word, least significant first. RFC 1321 §2, in `Md5` behind `/repo/src/storages/fs.rs:125-139` -/
def bytesLE (w : UInt32) : Bytes := [w.toUInt8, (w >>> 8).toUInt8, (w >>> 16).toUInt8, (w >>> 24).toUInt8]

/-- the message with padding. RFC 1321 §3.1, §3.2, in `Md5` behind `/repo/src/storages/fs.rs:125-139` -/
def md5Pad (m : Bytes) : Bytes :=
  m ++ 0x80 :: List.replicate ((119 - m.length % 64) % 64) 0 ++
    (bytesLE (UInt32.ofNat (8 * m.length)) ++ bytesLE (UInt32.ofNat (8 * m.length / 4294967296)))

/-- the state after the blocks of a padded message, at most `n` of them. RFC 1321 §3.4, in `Md5` behind
`/repo/src/storages/fs.rs:125-139` -/
def md5Blocks : Nat → Bytes → Md5 → Md5
  | 0, _, s => s
  | n + 1, m, s =>
    let t := md5Rounds (wordsLE (m.take 64)) 0 md5Steps s
    md5Blocks n (m.drop 64) ⟨s.a + t.a, s.b + t.b, s.c + t.c, s.d + t.d⟩

/-- MD5. RFC 1321, `Md5` behind `/repo/src/storages/fs.rs:125-139,683-691,749-757` -/
def md5 (m : Bytes) : Bytes :=
  let p := md5Pad m
  let s := md5Blocks (p.length / 64) p ⟨0x67452301, 0xefcdab89, 0x98badcfe, 0x10325476⟩
  bytesLE s.a ++ bytesLE s.b ++ bytesLE s.c ++ bytesLE s.d

end S3
