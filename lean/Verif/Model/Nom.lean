import Verif.Model.Num
/-! The nom (complete, `&str`) combinators used by the header parsers of /repo. A parser maps the
input to the parsed value and the remaining input. -/
namespace S3

/-- nom `tag`, as used e.g. at `/repo/src/headers/range.rs:51` -/
def tag (t s : Bytes) : Option Bytes :=
  if startsWith s t then some (s.drop t.length) else none

/-- nom `digit1`, as used at `/repo/src/headers/range.rs:50,52,70`: longest non-empty digit prefix -/
def digit1 (s : Bytes) : Option (Bytes × Bytes) :=
  let d := s.takeWhile isDigit
  if d = [] then none else some (d, s.drop d.length)

/-- nom `take(n)`, as used at `/repo/src/headers/amz_date.rs:43`. Counts bytes instead of `char`s:
all users afterwards require the taken text to consist of ASCII characters, or take a single
character that is known to be ASCII. -/
def takeN (n : Nat) (s : Bytes) : Option (Bytes × Bytes) :=
  if s.length < n then none else some (s.take n, s.drop n)

/-- nom `take_till`, as used at `/repo/src/headers/authorization_v4.rs:69` -/
def takeTill (p : UInt8 → Bool) (s : Bytes) : Bytes × Bytes :=
  let d := s.takeWhile fun c => !p c
  (d, s.drop d.length)

/-- nom `take_till1`, as used at `/repo/src/headers/authorization_v4.rs:68`: like `take_till`, but
at least one character -/
def takeTill1 (p : UInt8 → Bool) (s : Bytes) : Option (Bytes × Bytes) :=
  let (d, r) := takeTill p s
  if d = [] then none else some (d, r)

/-- `char::is_ascii_whitespace`, `/repo/src/headers/authorization_v4.rs:140` -/
def isAsciiWs (c : UInt8) : Bool := c == 32 || c == 9 || c == 10 || c == 12 || c == 13
/-- the characters of nom `multispace0` / `multispace1`, `/repo/src/headers/authorization_v4.rs:144` -/
def isMultispace (c : UInt8) : Bool := c == 32 || c == 9 || c == 10 || c == 13

/-- nom `multispace0`, `/repo/src/headers/authorization_v4.rs:148` -/
def multispace0 (s : Bytes) : Bytes := s.drop (s.takeWhile isMultispace).length
/-- nom `multispace1`, `/repo/src/headers/authorization_v4.rs:144` -/
def multispace1 (s : Bytes) : Option Bytes :=
  if s.takeWhile isMultispace = [] then none else some (multispace0 s)

end S3
