import Verif.Model.Signature
import Verif.Model.Storage
/-! Model of `/repo/src/streams/aws_chunked_stream.rs`. The body is a list of fragments; `none` is an I/O
error. -/
namespace S3

/-- `/repo/src/streams/aws_chunked_stream.rs:51-65` `AwsChunkedStreamError` -/
inductive ChunkError where
  | io
  | signatureMismatch
  | formatError
  | incomplete
  deriving DecidableEq, Repr

/-- a hexadecimal digit: the alphabet of nom `hex_u32`, `/repo/src/streams/aws_chunked_stream.rs:98` -/
def isHexDigit (c : UInt8) : Bool := isDigit c || (97 ≤ c && c ≤ 102) || (65 ≤ c && c ≤ 70)

/-- value of hexadecimal digits, `/repo/src/streams/aws_chunked_stream.rs:98`; `none` on another character -/
def hexNat : Nat → Bytes → Option Nat
  | acc, [] => some acc
  | acc, c :: r =>
    match hexVal c with
    | none => none
    | some v => hexNat (acc * 16 + v.toNat) r

/-- nom `hex_u32` (complete, 7.1): `is_a` of hex digits, of which at most eight are read; what follows is
left over. `/repo/src/streams/aws_chunked_stream.rs:98` (the rest is dropped there; `u32` to `usize` never
fails on 64 bit). -/
def hexU32 (s : Bytes) : Option Nat :=
  let d := s.takeWhile isHexDigit
  if d = [] then none else hexNat 0 (d.take 8)

/-- `/repo/src/streams/aws_chunked_stream.rs:68-101` `parse_chunk_meta`: size and signature -/
def parseChunkMeta (line : Bytes) : Option (Nat × Bytes) := do
  let (sizeStr, s) ← takeTill1 (· == 59) line
  let s ← tag b!";chunk-signature=" s
  let (signature, s) ← takeN 64 s
  let s ← tag b!"\r\n" s
  if s ≠ [] then none
  else
    let size ← hexU32 sizeStr
    pure (size, signature)

/-- `memchr(b'\n')` and `split_to(idx + 1)`, `/repo/src/streams/aws_chunked_stream.rs:210-214` -/
def splitLine : Bytes → Option (Bytes × Bytes)
  | [] => none
  | c :: r =>
    if c = 10 then some ([c], r)
    else match splitLine r with
      | none => none
      | some (l, r) => some (c :: l, r)

/-- result of reading from the body: a value with the rest of the current fragment and the later fragments,
the end of the body (`None`), or an error. The results of `/repo/src/streams/aws_chunked_stream.rs:198-303`. -/
inductive ReadRes (α : Type) where
  | got (a : α) (prev : Bytes) (body : Body)
  | eof
  | err (e : ChunkError)

/-- `/repo/src/streams/aws_chunked_stream.rs:198-234` `read_meta_bytes`: the bytes up to the next line feed -/
def readMeta (buf prev : Bytes) (body : Body) : ReadRes Bytes :=
  match splitLine prev with
  | some (l, r) => .got (buf ++ l) r body
  | none =>
    match body with
    | [] => .eof
    | none :: _ => .err .io
    | some b :: rest => readMeta (buf ++ prev) b rest

/-- `/repo/src/streams/aws_chunked_stream.rs:246-277` first loop of `read_data`: the pieces of `size` bytes -/
def readSized (acc : List Bytes) (size : Nat) (prev : Bytes) (body : Body) : ReadRes (List Bytes) :=
  if size = 0 then .got acc prev body
  else if size ≤ prev.length then .got (acc ++ [prev.take size]) (prev.drop size) body
  else
    match body with
    | [] => .eof
    | none :: _ => .err .io
    | some b :: rest => readSized (acc ++ [prev]) (size - prev.length) b rest

/-- `/repo/src/streams/aws_chunked_stream.rs:282-297` one expected byte -/
def readByte (c : UInt8) (prev : Bytes) (body : Body) : ReadRes Unit :=
  match prev with
  | x :: r => if x = c then .got () r body else .err .formatError
  | [] =>
    match body with
    | [] => .eof
    | none :: _ => .err .io
    | some b :: rest => readByte c b rest

/-- `/repo/src/streams/aws_chunked_stream.rs:278-298` the line end after the data -/
def readCrlf (prev : Bytes) (body : Body) : ReadRes Unit :=
  if startsWith prev b!"\r\n" then .got () (prev.drop 2) body
  else
    match readByte 13 prev body with
    | .got _ prev body => readByte 10 prev body
    | .eof => .eof
    | .err e => .err e

/-- `/repo/src/streams/aws_chunked_stream.rs:237-301` `read_data` -/
def readData (size : Nat) (prev : Bytes) (body : Body) : ReadRes (List Bytes) :=
  match readSized [] size prev body with
  | .got data prev body =>
    match readCrlf prev body with
    | .got _ prev body => .got data prev body
    | .eof => .eof
    | .err e => .err e
  | .eof => .eof
  | .err e => .err e

/-- what the stream delivers: the pieces, and the error it ends with.
`/repo/src/streams/aws_chunked_stream.rs:138-195`. -/
structure Decoded where
  pieces : List Bytes
  error : Option ChunkError
  deriving DecidableEq, Repr

/-- an error after the pieces delivered so far. `/repo/src/streams/aws_chunked_stream.rs:138-195`. -/
def Decoded.stop (e : Option ChunkError) : Decoded := ⟨[], e⟩

/-- pieces delivered before the rest. `/repo/src/streams/aws_chunked_stream.rs:138-195`. -/
def Decoded.after (ps : List Bytes) (d : Decoded) : Decoded := ⟨ps ++ d.pieces, d.error⟩

/-- `/repo/src/streams/aws_chunked_stream.rs:138-195` the loop. `sign prev data` is the signature
`check_signature` computes (lines 104-124) with the previous signature `prev`. Every round reads at least one
byte; `fuel` bounds the number of rounds. -/
def decodeLoop (sign : Bytes → Bytes → Bytes) : Nat → Bytes → Bytes → Body → Decoded
  | 0, _, _, _ => .stop none
  | fuel + 1, prevSig, prev, body =>
    match readMeta [] prev body with
    | .eof => .stop none
    | .err e => .stop (some e)
    | .got line prev body =>
      match parseChunkMeta line with
      | none => .stop (some .formatError)
      | some (size, signature) =>
        match readData size prev body with
        | .eof => .stop (some .incomplete)
        | .err e => .stop (some e)
        | .got data prev body =>
          if sign prevSig data.flatten = signature then
            (decodeLoop sign fuel (sign prevSig data.flatten) prev body).after data
          else .stop (some .signatureMismatch)

/-- number of bytes in a body. Only bounds the rounds of the loop `/repo/src/streams/aws_chunked_stream.rs:138-195`. -/
def bodyLength : Body → Nat
  | [] => 0
  | none :: r => bodyLength r
  | some b :: r => b.length + bodyLength r

/-- `/repo/src/streams/aws_chunked_stream.rs:104-124` `check_signature`: the signature expected -/
def chunkSignature (cr : Crypto) (secret : Bytes) (date : AmzDate) (region prevSig data : Bytes) : Bytes :=
  calculateSignature cr (chunkStringToSign cr date region prevSig data) secret date region

/-- `/repo/src/streams/aws_chunked_stream.rs:126-195` `AwsChunkedStream::new`, read to the end -/
def decodeChunked (sign : Bytes → Bytes → Bytes) (seed : Bytes) (body : Body) : Decoded :=
  decodeLoop sign (bodyLength body + 1) seed [] body

/-- the decoded stream as the body handed to the storage, `/repo/src/service.rs:543` (`Body::wrap_stream`) -/
def Decoded.toBody (d : Decoded) : Body :=
  d.pieces.map some ++ (match d.error with | some _ => [none] | none => [])

end S3
