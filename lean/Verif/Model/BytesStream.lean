import Verif.Base.Bytes
/-! Model of `/repo/src/data_structures/bytes_stream.rs`. -/
namespace S3

/-- `/repo/src/data_structures/bytes_stream.rs:12-22` `BytesStream`; the reader is the list of bytes
from its current position to the end of the file. -/
structure BytesStream where
  rest : Bytes
  bufSize : Nat
  limit : Option Nat
  deriving DecidableEq, Repr

/-- One `poll_read` on a buffer of `m` bytes: the file system may return fewer bytes than asked;
`want` is its choice. At least one byte is returned unless the buffer is empty or the file ends.
Environment of `/repo/src/data_structures/bytes_stream.rs:45`. -/
def readCount (rest : Bytes) (m want : Nat) : Nat :=
  if m = 0 ∨ rest = [] then 0 else max 1 (min want (min m rest.length))

/-- `/repo/src/data_structures/bytes_stream.rs:39-61` `poll_next` (no I/O error): `none` at the end
of the stream. -/
def BytesStream.poll (s : BytesStream) (want : Nat) : Option (Bytes × BytesStream) :=
  let bufLen := match s.limit with
    | some lim => min lim s.bufSize
    | none => s.bufSize
  let n := readCount s.rest bufLen want
  if n = 0 then none
  else
    let nread := min n bufLen
    some (s.rest.take nread,
      { s with rest := s.rest.drop n, limit := s.limit.map fun lim => lim - nread })

/-- Collect the stream: `wants i` is the file system's choice at the `i`-th read. The number of
pieces is bounded by the number of bytes, `fuel`. `/repo/src/data_structures/bytes_stream.rs:36-63`. -/
def BytesStream.collect (s : BytesStream) (wants : Nat → Nat) : Nat → Nat → List Bytes
  | 0, _ => []
  | fuel + 1, i =>
    match s.poll (wants i) with
    | none => []
    | some (piece, s') => piece :: s'.collect wants fuel (i + 1)

/-- all pieces of a stream (`/repo/src/data_structures/bytes_stream.rs:36-63` driven to the end) -/
def BytesStream.pieces (s : BytesStream) (wants : Nat → Nat) : List Bytes :=
  s.collect wants (s.rest.length + 1) 0

end S3
