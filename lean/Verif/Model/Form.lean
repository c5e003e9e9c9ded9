import Verif.Model.Nom
import Verif.Model.Encoding
import Verif.Model.Storage
/-! Model of `/repo/src/streams/multipart.rs` (multipart/form-data bodies of POST uploads). The body is a list of fragments;
`none` is an I/O error. -/
namespace S3

/-! ### `httparse::parse_headers` (httparse 1.7, a dependency), called at `/repo/src/streams/multipart.rs:159` -/

/-- result of `httparse::parse_headers`, `/repo/src/streams/multipart.rs:159-163`: the headers and the text behind them, `Partial`, or an
error -/
inductive HeadRes where
  | complete (headers : List (Bytes × Bytes)) (rest : Bytes)
  | more
  | bad
  deriving DecidableEq, Repr

/-- characters of a header name (`is_header_name_token` of httparse): RFC 7230 `tchar`; behind `/repo/src/streams/multipart.rs:159` -/
def isTchar (c : UInt8) : Bool :=
  isDigit c || isLower c || isUpper c || b!"!#$%&'*+-.^_`|~".contains c

/-- characters of a header value (`is_header_value_token` of httparse): tab, and everything from space on except DEL; behind
`/repo/src/streams/multipart.rs:159` -/
def isValueChar (c : UInt8) : Bool := c == 9 || (32 ≤ c && c != 127)

/-- space or tab. Behind `/repo/src/streams/multipart.rs:159`. -/
def isBlank (c : UInt8) : Bool := c == 32 || c == 9

/-- a value without trailing blanks (httparse 1.7 strips them); behind `/repo/src/streams/multipart.rs:159` -/
def trimEnd (s : Bytes) : Bytes := (s.reverse.dropWhile isBlank).reverse

/-- one header line: `Sum.inl` the header and what follows; `Sum.inr true` more input is needed, `Sum.inr false` an error. Behind
`/repo/src/streams/multipart.rs:159` (httparse 1.7 `parse_headers_iter`, default configuration). -/
def parseHeaderLine (s : Bytes) : (Bytes × Bytes) × Bytes ⊕ Bool :=
  let name := s.takeWhile isTchar
  match s.drop name.length with
  | [] => .inr true
  | c :: r =>
    if c ≠ 58 then .inr false
    else
      let r := r.dropWhile isBlank
      let value := r.takeWhile isValueChar
      match r.drop value.length with
      | [] => .inr true
      | c :: r =>
        if c = 10 then .inl ((name, trimEnd value), r)
        else if c ≠ 13 then .inr false
        else match r with
          | [] => .inr true
          | c :: r => if c = 10 then .inl ((name, trimEnd value), r) else .inr false

/-- `httparse::parse_headers(slice, &mut headers)` with room for `slots` headers, `/repo/src/streams/multipart.rs:157-163` -/
def parseHeaders : Nat → Bytes → HeadRes
  | slots, s =>
    match s with
    | [] => .more
    | c :: r =>
      if c = 10 then .complete [] r
      else if c = 13 then
        match r with
        | [] => .more
        | c :: r => if c = 10 then .complete [] r else .bad
      else if !isTchar c then .bad
      else
        match slots with
        | 0 => .bad
        | slots + 1 =>
          match parseHeaderLine (c :: r) with
          | .inr true => .more
          | .inr false => .bad
          | .inl (h, r) =>
            match parseHeaders slots r with
            | .complete hs r => .complete (h :: hs) r
            | .more => .more
            | .bad => .bad

/-! ### lines -/

/-- the text before and behind the first CRLF; `/repo/src/streams/multipart.rs:373-391` -/
def splitCrlf : Bytes → Option (Bytes × Bytes)
  | [] => none
  | c :: r =>
    if startsWith (c :: r) b!"\r\n" then some ([], r.drop 1)
    else match splitCrlf r with
      | none => none
      | some (l, r) => some (c :: l, r)

/-- `/repo/src/streams/multipart.rs:372-397` `CrlfLines::next_line`: the next line and the text behind it. Text without a CRLF is taken
as a line, too. -/
def nextLine (s : Bytes) : Option (Bytes × Bytes) :=
  match splitCrlf s with
  | some p => some p
  | none => if s = [] then none else some (s, [])

/-- `/repo/src/streams/multipart.rs:400-416` the loop of `CrlfLines::split_to`. `fuel` bounds the number of lines. -/
def splitToLoop (pat slice : Bytes) : Nat → Nat → Bytes → Option (Bytes × Bytes)
  | 0, _, _ => none
  | fuel + 1, len, rest =>
    match nextLine rest with
    | none => none
    | some (line, rest) =>
      if line = pat then some (slice.take len, rest) else splitToLoop pat slice fuel (len + line.length + 2) rest

/-- `/repo/src/streams/multipart.rs:400-416` `CrlfLines::split_to`: the text before the first line equal to `pat`, and the text
behind that line -/
def splitTo (pat slice : Bytes) : Option (Bytes × Bytes) := splitToLoop pat slice (slice.length + 1) 0 slice

/-! ### Content-Disposition -/

/-- `delimited(tag(..), map_res(take_till1(|c| c == '"'), from_utf8), take(1))`, `/repo/src/streams/multipart.rs:436-446` -/
def quotedParam (t s : Bytes) : Option (Bytes × Bytes) := do
  let s ← tag t s
  let (v, s) ← takeTill1 (· == 34) s
  if !utf8Valid v then none
  else
    let (_, s) ← takeN 1 s
    pure (v, s)

/-- `opt(preceded(tag("; "), filename_parser))`, `/repo/src/streams/multipart.rs:450` -/
def optFilename (s : Bytes) : Option Bytes × Bytes :=
  match (tag b!"; " s).bind (quotedParam b!"filename=\"") with
  | some (f, s) => (some f, s)
  | none => (none, s)

/-- `/repo/src/streams/multipart.rs:429-456` `parse_content_disposition`: name and file name -/
def parseContentDisposition (s : Bytes) : Option (Bytes × Option Bytes) := do
  let s ← tag b!"form-data; " s
  let (name, s) ← quotedParam b!"name=\"" s
  let (file, s) := optFilename s
  if s ≠ [] then none else pure (name, file)

/-! ### the file stream -/

/-- `/repo/src/streams/multipart.rs:225-234` `FileStreamError` -/
inductive FileError where
  | incomplete
  | io
  deriving DecidableEq, Repr

/-- what the file stream delivers: pieces, and the error it ends with (`/repo/src/streams/multipart.rs:240-357`) -/
structure FileData where
  pieces : List Bytes
  error : Option FileError
  deriving DecidableEq, Repr

/-- outcome of the search in one buffer, `/repo/src/streams/multipart.rs:296-325`: the delimiter is at an index; the buffer ends with the
beginning of a delimiter at an index; neither -/
inductive Scan where
  | found (idx : Nat)
  | maybe (idx : Nat)
  | clear
  deriving DecidableEq, Repr

/-- `/repo/src/streams/multipart.rs:296-318` the loop over the carriage returns of the buffer, from index `idx` on; `pat` is `\r\n--boundary` -/
def scanFile (pat : Bytes) : Nat → Bytes → Scan
  | _, [] => .clear
  | idx, c :: r =>
    if c ≠ 13 then scanFile pat (idx + 1) r
    else if pat.length ≤ (c :: r).length then
      if startsWith (c :: r) pat then .found idx else scanFile pat (idx + 1) r
    else if startsWith pat (c :: r) then .maybe idx
    else scanFile pat (idx + 1) r

/-- pieces delivered before the rest, `/repo/src/streams/multipart.rs:303,310,322` (`yield_ok`) -/
def FileData.after (p : Bytes) (d : FileData) : FileData := ⟨p :: d.pieces, d.error⟩

/-- `/repo/src/streams/multipart.rs:281-340` the state machine, in state 2 with the buffer `bytes` -/
def fileLoop (pat bytes : Bytes) (body : Body) : FileData :=
  match scanFile pat 0 bytes with
  | .found idx => ⟨[bytes.take idx], none⟩
  | .maybe idx =>
    match body with
    | [] => ⟨[bytes.take idx], some .incomplete⟩
    | none :: _ => ⟨[bytes.take idx], some .io⟩
    | some b :: rest => (fileLoop pat (bytes.drop idx ++ b) rest).after (bytes.take idx)
  | .clear =>
    match body with
    | [] => ⟨[bytes], some .incomplete⟩
    | none :: _ => ⟨[bytes], some .io⟩
    | some b :: rest => (fileLoop pat b rest).after bytes

/-- `\r\n--{boundary}`, `/repo/src/streams/multipart.rs:343-347` -/
def crlfPat (boundary : Bytes) : Bytes := b!"\r\n--" ++ boundary

/-- `/repo/src/streams/multipart.rs:244-357` `FileStream::new(body, boundary, prev_bytes)`, read to the end; `prev` is empty for
`prev_bytes = None` (line 201) -/
def fileStream (boundary prev : Bytes) (body : Body) : FileData :=
  if prev ≠ [] then fileLoop (crlfPat boundary) prev body
  else
    match body with
    | [] => ⟨[], some .incomplete⟩
    | none :: _ => ⟨[], some .io⟩
    | some b :: rest => fileLoop (crlfPat boundary) b rest

/-- the file as the body handed to the storage, `/repo/src/ops/put_object.rs:83-85` -/
def FileData.toBody (d : FileData) : Body :=
  d.pieces.map some ++ (match d.error with | some _ => [none] | none => [])

/-! ### the form -/

/-- `/repo/src/streams/multipart.rs:19-37` `Multipart` and `File`; the file stream is read to the end -/
structure Form where
  fields : List (Bytes × Bytes)
  fileName : Bytes
  contentType : Bytes
  file : FileData
  deriving DecidableEq, Repr

/-- `/repo/src/streams/multipart.rs:40-47` `find_field_value` -/
def findField (fields : List (Bytes × Bytes)) (name : Bytes) : Option Bytes :=
  fields.reverse.findSome? fun p => if eqIgnoreCase p.1 name then some p.2 else none

/-- result of `try_parse`, `/repo/src/streams/multipart.rs:117-223`: more input is needed, format error, or the fields, file name,
content type and the text behind the header of the file -/
inductive TryRes where
  | more
  | bad
  | form (fields : List (Bytes × Bytes)) (fileName contentType rest : Bytes)
  deriving DecidableEq, Repr

/-- the value of the last header of that name, `/repo/src/streams/multipart.rs:166-176` -/
def lastHeader (hs : List (Bytes × Bytes)) (name : Bytes) : Option Bytes :=
  hs.foldl (fun a p => if eqIgnoreCase p.1 name then some p.2 else a) none

/-- `/repo/src/streams/multipart.rs:158-222` the loop over the parts. Every round consumes a header; `fuel` bounds the number of rounds. -/
def partsLoop (pat : Bytes) : Nat → List (Bytes × Bytes) → Bytes → TryRes
  | 0, _, _ => .more
  | fuel + 1, fields, s =>
    match parseHeaders 2 s with
    | .more => .more
    | .bad => .bad
    | .complete hs s =>
      match lastHeader hs b!"Content-Disposition" with
      | none => .more
      | some cd =>
        match parseContentDisposition cd with
        | none => .bad
        | some (name, none) =>
          match splitTo pat s with
          | none => .more
          | some (b, s) =>
            let v := b.take (b.length - 2)
            if !utf8Valid v then .bad else partsLoop pat fuel (fields ++ [(name, v)]) s
        | some (_, some file) =>
          match lastHeader hs b!"Content-Type" with
          | none => .more
          | some ct => if !utf8Valid ct then .bad else .form fields file ct s

/-- `/repo/src/streams/multipart.rs:117-223` `try_parse` -/
def tryParse (boundary buf : Bytes) : TryRes :=
  let pat := b!"--" ++ boundary
  match nextLine buf with
  | none => .more
  | some ([], s) =>
    match nextLine s with
    | none => .more
    | some (line, s) => if line ≠ pat then .bad else partsLoop pat (buf.length + 1) [] s
  | some (line, s) => if line ≠ pat then .bad else partsLoop pat (buf.length + 1) [] s

/-- the two kinds of errors of `transform_multipart`, `/repo/src/streams/multipart.rs:98-99,108` -/
inductive FormError where
  | format
  | io
  deriving DecidableEq, Repr

/-- `/repo/src/streams/multipart.rs:95-112` the loop of `transform_multipart` -/
def transformLoop (boundary : Bytes) : Bytes → Body → Except FormError Form
  | _, [] => .error .format
  | _, none :: _ => .error .io
  | buf, some b :: rest =>
    match tryParse boundary (buf ++ b) with
    | .more => transformLoop boundary (buf ++ b) rest
    | .bad => .error .format
    | .form fields fileName contentType s => .ok { fields, fileName, contentType, file := fileStream boundary s rest }

/-- `/repo/src/streams/multipart.rs:80-113` `transform_multipart` -/
def transformMultipart (boundary : Bytes) (body : Body) : Except FormError Form := transformLoop boundary [] body

end S3
