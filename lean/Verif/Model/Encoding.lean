import Verif.Model.Num
/-! Percent encoding (`/repo/src/signature_v4.rs`), percent decoding (`urlencoding`,
`form_urlencoded`), UTF-8 checks and base64 (`base64-simd`), as used by /repo. -/
namespace S3

/-- unreserved characters, `/repo/src/signature_v4.rs:123` -/
def isUnreserved (b : UInt8) : Bool :=
  isUpper b || isLower b || isDigit b || b == 95 || b == 45 || b == 126 || b == 46

/-- `HEX_UPPERCASE_TABLE[n]`, `/repo/src/signature_v4.rs:118,136` (`n < 16`) -/
def hexUpper (n : UInt8) : UInt8 := if n < 10 then 48 + n else 55 + n

/-- one byte of `/repo/src/signature_v4.rs:122-146` -/
def uriEncodeByte (encodeSlash : Bool) (b : UInt8) : Bytes :=
  if isUnreserved b then [b]
  else if b = 47 then (if encodeSlash then [37, 50, 70] else [b])
  else [37, hexUpper (b >>> 4), hexUpper (b &&& 15)]

/-- `/repo/src/signature_v4.rs:115-152` `uri_encode` -/
def uriEncode (encodeSlash : Bool) (s : Bytes) : Bytes := s.flatMap (uriEncodeByte encodeSlash)

/-- value of a hexadecimal digit (either case), as in the percent decoders behind
`/repo/src/service.rs:183-187` and `/repo/src/data_structures/ordered_qs.rs:28` -/
def hexVal (b : UInt8) : Option UInt8 :=
  if isDigit b then some (b - 48)
  else if 97 ≤ b && b ≤ 102 then some (b - 87)
  else if 65 ≤ b && b ≤ 70 then some (b - 55)
  else none

/-- percent decoding as done by `urlencoding::decode` and `percent_encoding::percent_decode`: a `%`
not followed by two hex digits stays as it is. Used at `/repo/src/service.rs:183-187`,
`/repo/src/data_structures/ordered_qs.rs:28`. -/
def percentDecode : Bytes → Bytes
  | [] => []
  | [a] => [a]
  | [a, b] => [a, b]
  | a :: b :: c :: r =>
    if a = 37 then
      match hexVal b, hexVal c with
      | some x, some y => (x * 16 + y) :: percentDecode r
      | _, _ => a :: percentDecode (b :: c :: r)
    else a :: percentDecode (b :: c :: r)

/-- is `b` a UTF-8 continuation byte. Behind `/repo/src/service.rs:183-187`. -/
def isCont (b : UInt8) : Bool := 128 ≤ b && b ≤ 191

/-- Decoding step of Rust's UTF-8 validation (Unicode table 3-7), behind
`String::from_utf8`/`from_utf8_lossy`: `inl n` — a well-formed character of `n` bytes at the head;
`inr n` — an ill-formed sequence of `n ≥ 1` bytes (maximal subpart). Used through
`/repo/src/service.rs:183-187` and `/repo/src/data_structures/ordered_qs.rs:28`. -/
def utf8Step : Bytes → Nat ⊕ Nat
  | [] => .inr 1
  | a :: r =>
    if a < 128 then .inl 1
    else
      -- the allowed range of the second byte and the number of continuation bytes
      let info : Option (UInt8 × UInt8 × Nat) :=
        if 194 ≤ a && a ≤ 223 then some (128, 191, 1)
        else if a = 224 then some (160, 191, 2)
        else if a = 237 then some (128, 159, 2)
        else if 225 ≤ a && a ≤ 239 then some (128, 191, 2)
        else if a = 240 then some (144, 191, 3)
        else if 241 ≤ a && a ≤ 243 then some (128, 191, 3)
        else if a = 244 then some (128, 143, 3)
        else none
      match info with
      | none => .inr 1
      | some (lo, hi, n) =>
        match r with
        | [] => .inr 1
        | b :: r =>
          if !(lo ≤ b && b ≤ hi) then .inr 1
          else
            let more := (r.take (n - 1)).takeWhile isCont
            if more.length = n - 1 then .inl (n + 1) else .inr (2 + more.length)

/-- `str::from_utf8(..).is_ok()`, behind `/repo/src/service.rs:183-187` -/
def utf8Valid (s : Bytes) : Bool :=
  match s with
  | [] => true
  | a :: r =>
    match utf8Step (a :: r) with
    | .inl n => if n = 0 then false else utf8Valid ((a :: r).drop n)
    | .inr _ => false
termination_by s.length
decreasing_by simp; omega

/-- `String::from_utf8_lossy`: every ill-formed maximal subpart becomes U+FFFD; behind
`/repo/src/data_structures/ordered_qs.rs:28` -/
def utf8Lossy (s : Bytes) : Bytes :=
  match s with
  | [] => []
  | a :: r =>
    match utf8Step (a :: r) with
    | .inl n => if n = 0 then [] else (a :: r).take n ++ utf8Lossy ((a :: r).drop n)
    | .inr n => if n = 0 then [] else [239, 191, 189] ++ utf8Lossy ((a :: r).drop n)
termination_by s.length
decreasing_by all_goals (simp; omega)

/-- `urlencoding::decode`, `/repo/src/service.rs:183-187` -/
def urlDecode (s : Bytes) : Option Bytes :=
  let d := percentDecode s
  if utf8Valid d then some d else none

/-- `form_urlencoded` decoding of a name or value: `+` is a space, then percent decoding, then lossy
UTF-8. Behind `/repo/src/data_structures/ordered_qs.rs:28`. -/
def formDecode (s : Bytes) : Bytes :=
  utf8Lossy (percentDecode (s.map fun c => if c = 43 then 32 else c))

/-- `form_urlencoded::parse`: pieces between `&`, empty pieces dropped, each split at the first `=`.
Behind `/repo/src/data_structures/ordered_qs.rs:28` (`serde_urlencoded::from_str` into a vector of
string pairs, which cannot fail). -/
def parseQuery (q : Bytes) : List (Bytes × Bytes) :=
  ((splitAll 38 q).filter (· ≠ [])).map fun p =>
    match splitOnce 61 p with
    | none => (formDecode p, [])
    | some (n, v) => (formDecode n, formDecode v)

/-- the URL-safe base64 alphabet of `base64_simd::URL_SAFE_NO_PAD`, `/repo/src/storages/fs.rs:78`
(`n < 64`) -/
def b64Char (n : Nat) : UInt8 :=
  if n < 26 then UInt8.ofNat (65 + n)
  else if n < 52 then UInt8.ofNat (97 + (n - 26))
  else if n < 62 then UInt8.ofNat (48 + (n - 52))
  else if n = 62 then 45 else 95

/-- `base64_simd::URL_SAFE_NO_PAD.encode_to_string`, `/repo/src/storages/fs.rs:78` -/
def b64Encode : Bytes → Bytes
  | [] => []
  | [a] => [b64Char (a.toNat / 4), b64Char (a.toNat % 4 * 16)]
  | [a, b] =>
    [b64Char (a.toNat / 4), b64Char (a.toNat % 4 * 16 + b.toNat / 16), b64Char (b.toNat % 16 * 4)]
  | a :: b :: c :: r =>
    b64Char (a.toNat / 4) :: b64Char (a.toNat % 4 * 16 + b.toNat / 16) ::
      b64Char (b.toNat % 16 * 4 + c.toNat / 64) :: b64Char (c.toNat % 64) :: b64Encode r

/-- value of a digit of `base64_simd::STANDARD`, `/repo/src/utils/crypto.rs:61-63` -/
def b64StdVal (c : UInt8) : Option Nat :=
  if isUpper c then some (c.toNat - 65)
  else if isLower c then some (c.toNat - 71)
  else if isDigit c then some (c.toNat + 4)
  else if c = 43 then some 62
  else if c = 47 then some 63
  else none

/-- the last group of four of `base64_simd::STANDARD.check`, `/repo/src/utils/crypto.rs:62`: up to two `=`, the bits that carry
nothing must be zero -/
def isBase64Last (a b c d : UInt8) : Bool :=
  match b64StdVal a, b64StdVal b with
  | some _, some y =>
    if c = 61 then d == 61 && y % 16 == 0
    else match b64StdVal c with
      | some z => if d = 61 then z % 4 == 0 else (b64StdVal d).isSome
      | none => false
  | _, _ => false

/-- `/repo/src/utils/crypto.rs:60-63` `is_base64_encoded`: `base64_simd::STANDARD.check`, which asks for padding -/
def isBase64 : Bytes → Bool
  | [] => true
  | a :: b :: c :: d :: r =>
    if r = [] then isBase64Last a b c d
    else (b64StdVal a).isSome && (b64StdVal b).isSome && (b64StdVal c).isSome && (b64StdVal d).isSome && isBase64 r
  | _ => false

end S3
