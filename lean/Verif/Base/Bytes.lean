/-
Bytes, byte classes, byte-lexicographic order and splitting: the vocabulary shared by the model and
the specifications.  Nothing here models a particular function of /repo; it renders the Rust
standard library operations on `&str` / `&[u8]` that /repo uses everywhere.
-/

deriving instance DecidableEq for Except

namespace S3

/-- A Rust `&[u8]`, or the UTF-8 bytes of a `&str`. -/
abbrev Bytes := List UInt8

open Lean in
/-- `b!"abc"` is the list of the UTF-8 bytes of the literal (expanded at elaboration time). -/
macro:max "b!" s:str : term => do
  let bs := s.getString.toUTF8.toList
  let elems ← bs.mapM fun b => `(($(Syntax.mkNumLit (toString b.toNat)) : UInt8))
  `(([$(elems.toArray),*] : List UInt8))

/-- `u8::is_ascii_digit` -/
def isDigit (b : UInt8) : Bool := 48 ≤ b && b ≤ 57
/-- `u8::is_ascii_lowercase` -/
def isLower (b : UInt8) : Bool := 97 ≤ b && b ≤ 122
/-- `u8::is_ascii_uppercase` -/
def isUpper (b : UInt8) : Bool := 65 ≤ b && b ≤ 90
/-- `u8::to_ascii_lowercase` -/
def toLower (b : UInt8) : UInt8 := if isUpper b then b + 32 else b
/-- `str::eq_ignore_ascii_case` -/
def eqIgnoreCase (a b : Bytes) : Bool := a.map toLower == b.map toLower

/-- `str::cmp` / `[u8]::cmp`: lexicographic comparison of bytes. -/
def bytesCmp : Bytes → Bytes → Ordering
  | [], [] => .eq
  | [], _ :: _ => .lt
  | _ :: _, [] => .gt
  | a :: as, b :: bs => if a < b then .lt else if b < a then .gt else bytesCmp as bs

/-- `a <= b` for `str`. -/
def bytesLe (a b : Bytes) : Bool := bytesCmp a b != .gt

/-- `str::split_once(c)`: split at the first occurrence of the byte `c`. -/
def splitOnce (c : UInt8) : Bytes → Option (Bytes × Bytes)
  | [] => none
  | x :: xs =>
    if x = c then some ([], xs)
    else match splitOnce c xs with
      | none => none
      | some (a, b) => some (x :: a, b)

/-- `str::split(c).collect()`: all pieces between occurrences of `c` (always at least one). -/
def splitAll (c : UInt8) : Bytes → List Bytes
  | [] => [[]]
  | x :: xs =>
    if x = c then [] :: splitAll c xs
    else match splitAll c xs with
      | [] => [[x]]
      | h :: t => (x :: h) :: t

/-- join pieces with the byte `c`. -/
def joinWith (c : UInt8) : List Bytes → Bytes
  | [] => []
  | [x] => x
  | x :: y :: r => x ++ c :: joinWith c (y :: r)

/-- `starts_with` -/
def startsWith (s p : Bytes) : Bool := p.isPrefixOf s
/-- `ends_with` for a single byte -/
def endsWithByte (s : Bytes) (c : UInt8) : Bool := s.getLast? == some c

end S3
