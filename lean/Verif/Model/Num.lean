import Verif.Base.Bytes
/-! Rust integer parsing (`str::parse::<u64>()` etc.), as used by
`/repo/src/headers/range.rs:48-66`, `/repo/src/headers/amz_date.rs:69-73`,
`/repo/src/headers/authorization_v4.rs:99-110`, `/repo/src/ops/upload_part.rs:52-55`,
`/repo/src/signature_v4.rs:87-90`. -/
namespace S3

/-- The digit loop of `core::num::from_str_radix`: `result = result * 10 + digit`, `none` on a
non-digit or when the result exceeds `max`.
Models the standard library behind `/repo/src/headers/range.rs:50` (`str::parse::<u64>`). -/
def accDigits (max : Nat) : Nat → Bytes → Option Nat
  | acc, [] => some acc
  | acc, d :: ds =>
    if isDigit d then
      let v := acc * 10 + (d.toNat - 48)
      if v ≤ max then accDigits max v ds else none
    else none

/-- `str::parse::<uN>()` with `max = 2^N - 1`: an optional `+`, then at least one digit.
Models the standard library behind `/repo/src/headers/range.rs:50`, `/repo/src/signature_v4.rs:87`. -/
def parseUnsigned (max : Nat) : Bytes → Option Nat
  | [] => none
  | c :: cs =>
    if c = 43 then (if cs = [] then none else accDigits max 0 cs)
    else accDigits max 0 (c :: cs)

/-- `str::parse::<iN>()` with bound `2^(N-1) = lim`: an optional sign, then at least one digit.
Models the standard library behind `/repo/src/ops/upload_part.rs:52-55`. -/
def parseSigned (lim : Nat) : Bytes → Option Int
  | [] => none
  | c :: cs =>
    if c = 43 then (if cs = [] then none else (accDigits (lim - 1) 0 cs).map Int.ofNat)
    else if c = 45 then (if cs = [] then none else (accDigits lim 0 cs).map fun n => -(Int.ofNat n))
    else (accDigits (lim - 1) 0 (c :: cs)).map Int.ofNat

/-- `u64::MAX`. Bound of the numbers at `/repo/src/headers/range.rs:33-60`. -/
def u64Max : Nat := 2 ^ 64 - 1
/-- `u32::MAX`. Bound of `X-Amz-Expires`, `/repo/src/signature_v4.rs:87-91`. -/
def u32Max : Nat := 2 ^ 32 - 1
/-- `i64::MAX`. Bound of `Content-Length` in the answers, `/repo/src/storages/fs.rs:353-400`. -/
def i64Max : Nat := 2 ^ 63 - 1

/-- decimal digits of a natural number (`{}` formatting), least significant appended last. Behind
`/repo/src/storages/fs.rs:746`. -/
def natDigits (n : Nat) : Bytes :=
  if _h : n < 10 then [UInt8.ofNat (48 + n)]
  else natDigits (n / 10) ++ [UInt8.ofNat (48 + n % 10)]
termination_by n
decreasing_by omega

/-- `{}` formatting of an `i64` (`/repo/src/storages/fs.rs:746`). -/
def intDigits (i : Int) : Bytes :=
  match i with
  | .ofNat n => natDigits n
  | .negSucc n => 45 :: natDigits (n + 1)

end S3
