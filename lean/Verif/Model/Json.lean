import Verif.Model.Dispatch
import Verif.Model.Hash
/-! Model of `serde_json` 1.0 on string maps, as used for the metadata files, and of the library functions of the storage. -/
namespace S3

/-- one byte of a string in `serde_json`'s compact writer: quotes, backslashes and control characters are escaped.
Behind `serde_json::to_vec`, `/repo/src/storages/fs.rs:115-116`. -/
def jsonByte (b : UInt8) : Bytes :=
  if b = 34 then [92, 34]
  else if b = 92 then [92, 92]
  else if b = 8 then [92, 98]
  else if b = 9 then [92, 116]
  else if b = 10 then [92, 110]
  else if b = 12 then [92, 102]
  else if b = 13 then [92, 114]
  else if b < 32 then [92, 117, 48, 48, hexLower (b >>> 4), hexLower (b &&& 15)]
  else [b]

/-- a string in the compact writer, behind `/repo/src/storages/fs.rs:115-116` -/
def jsonString (s : Bytes) : Bytes := 34 :: (s.flatMap jsonByte ++ [34])

/-- a member of an object in the compact writer, behind `/repo/src/storages/fs.rs:115-116` -/
def jsonMember (p : Bytes × Bytes) : Bytes := jsonString p.1 ++ 58 :: jsonString p.2

/-- the members after the first one, behind `/repo/src/storages/fs.rs:115-116` -/
def jsonMore (l : List (Bytes × Bytes)) : Bytes := l.flatMap fun p => 44 :: jsonMember p

/-- `serde_json::to_vec` on a `HashMap<String, String>`, `/repo/src/storages/fs.rs:115-116`. The list gives the entries in
the order of the iteration, which is arbitrary. -/
def jsonWrite : List (Bytes × Bytes) → Bytes
  | [] => [123, 125]
  | p :: r => 123 :: (jsonMember p ++ jsonMore r ++ [125])

/-- white space between tokens, behind `serde_json::from_slice`, `/repo/src/storages/fs.rs:99-100` -/
def isJsonSpace (b : UInt8) : Bool := b = 32 || b = 9 || b = 10 || b = 13

/-- skip white space, behind `/repo/src/storages/fs.rs:99-100` -/
def skipSpace (s : Bytes) : Bytes := s.dropWhile isJsonSpace

/-- `decode_hex_escape`: four hex digits in either case, behind `/repo/src/storages/fs.rs:99-100` -/
def jsonHex : Bytes → Option (Nat × Bytes)
  | a :: b :: c :: d :: r =>
    match hexVal a, hexVal b, hexVal c, hexVal d with
    | some w, some x, some y, some z => some (((w.toNat * 16 + x.toNat) * 16 + y.toNat) * 16 + z.toNat, r)
    | _, _, _, _ => none
  | _ => none

/-- the second half of a pair of surrogates, the first half being `hi`; behind `/repo/src/storages/fs.rs:99-100` -/
def jsonLow (hi : Nat) : Bytes → Option (Bytes × Bytes)
  | 92 :: 117 :: r =>
    match jsonHex r with
    | some (lo, r) =>
      if 0xDC00 ≤ lo ∧ lo ≤ 0xDFFF then
        some (String.utf8EncodeChar (Char.ofNat ((hi - 0xD800) * 0x400 + (lo - 0xDC00) + 0x10000)), r)
      else none
    | none => none
  | _ => none

/-- the code of an escape `\uXXXX`; behind `/repo/src/storages/fs.rs:99-100` -/
def jsonCode (n : Nat) (r : Bytes) : Option (Bytes × Bytes) :=
  if 0xDC00 ≤ n ∧ n ≤ 0xDFFF then none
  else if 0xD800 ≤ n ∧ n ≤ 0xDBFF then jsonLow n r
  else some (String.utf8EncodeChar (Char.ofNat n), r)

/-- an escape after `\u`; behind `/repo/src/storages/fs.rs:99-100` -/
def jsonUnicode (r : Bytes) : Option (Bytes × Bytes) :=
  match jsonHex r with
  | some (n, r) => jsonCode n r
  | none => none

/-- `parse_escape`: what follows a backslash; behind `/repo/src/storages/fs.rs:99-100` -/
def jsonEscape : Bytes → Option (Bytes × Bytes)
  | [] => none
  | c :: r =>
    if c = 34 then some ([34], r)
    else if c = 92 then some ([92], r)
    else if c = 47 then some ([47], r)
    else if c = 98 then some ([8], r)
    else if c = 102 then some ([12], r)
    else if c = 110 then some ([10], r)
    else if c = 114 then some ([13], r)
    else if c = 116 then some ([9], r)
    else if c = 117 then jsonUnicode r
    else none

/-- `SliceRead::parse_str_bytes`: the rest of a string up to its closing quote; behind `/repo/src/storages/fs.rs:99-100`.
The first argument is fuel, at least the length of the text. -/
def jsonChars : Nat → Bytes → Option (Bytes × Bytes)
  | 0, _ => none
  | _ + 1, [] => none
  | n + 1, c :: r =>
    if c = 34 then some ([], r)
    else if c = 92 then
      match jsonEscape r with
      | some (x, r) => (jsonChars n r).map fun q => (x ++ q.1, q.2)
      | none => none
    else if c < 32 then none
    else (jsonChars n r).map fun q => (c :: q.1, q.2)

/-- a string token; the text must be UTF-8. Behind `/repo/src/storages/fs.rs:99-100`. -/
def jsonToken : Bytes → Option (Bytes × Bytes)
  | [] => none
  | c :: r =>
    if c = 34 then
      match jsonChars (r.length + 1) r with
      | some (v, r) => if utf8Valid v then some (v, r) else none
      | none => none
    else none

/-- the given byte, after white space; behind `/repo/src/storages/fs.rs:99-100` -/
def jsonExpect (c : UInt8) (s : Bytes) : Option Bytes :=
  match skipSpace s with
  | [] => none
  | d :: r => if d = c then some r else none

/-- a member of an object whose values are strings; behind `/repo/src/storages/fs.rs:99-100` -/
def jsonEntry (s : Bytes) : Option ((Bytes × Bytes) × Bytes) := do
  let (k, r) ← jsonToken (skipSpace s)
  let r ← jsonExpect 58 r
  let (v, r) ← jsonToken (skipSpace r)
  return ((k, v), r)

/-- what follows a member: the end of the object, or a comma and the next member. Entries go into a `HashMap`: of entries
with the same name the last one stays. Behind `/repo/src/storages/fs.rs:99-100`. The first argument is fuel. -/
def jsonEntries : Nat → Meta → Bytes → Option (Meta × Bytes)
  | 0, _, _ => none
  | n + 1, m, s =>
    match skipSpace s with
    | [] => none
    | c :: r =>
      if c = 125 then some (m, r)
      else if c = 44 then
        match jsonEntry r with
        | some (p, r) => jsonEntries n (metaInsert m p.1 p.2) r
        | none => none
      else none

/-- an object after its opening brace; behind `/repo/src/storages/fs.rs:99-100` -/
def jsonBody (s : Bytes) : Option (Meta × Bytes) :=
  match jsonExpect 125 s with
  | some r => some ([], r)
  | none =>
    match jsonEntry s with
    | some (p, r) => jsonEntries (r.length + 1) (metaInsert [] p.1 p.2) r
    | none => none

/-- `serde_json::from_slice` into a `HashMap<String, String>`, `/repo/src/storages/fs.rs:99-100` -/
def jsonRead (s : Bytes) : Option Meta :=
  match jsonExpect 123 s with
  | some r =>
    match jsonBody r with
    | some (m, r) => if skipSpace r = [] then some m else none
    | none => none
  | none => none

/-- The library functions of the storage: MD5 in hexadecimal (`/repo/src/storages/fs.rs:120-140,683-691`) and JSON
(`/repo/src/storages/fs.rs:98-100,115-116`). `order` is the order in which the hash map is iterated when it is written. -/
def realExt (order : Meta → Meta) : Ext where
  md5hex s := toHex (md5 s)
  metaEnc m := jsonWrite (order m)
  metaDec := jsonRead

end S3
