import Verif.Model.Nom
/-! Model of `/repo/src/headers/amz_date.rs`. -/
namespace S3

/-- `/repo/src/headers/amz_date.rs:6-20` `struct AmzDate` (`u32` fields as `Nat`) -/
structure AmzDate where
  year : Nat
  month : Nat
  day : Nat
  hour : Nat
  minute : Nat
  second : Nat
  deriving DecidableEq, Repr

/-- `/repo/src/headers/amz_date.rs:35-70` the nom parser `parse`: the six digit groups -/
def AmzDate.groups (s : Bytes) : Option (Bytes × Bytes × Bytes × Bytes × Bytes × Bytes) := do
  let (y, s) ← takeN 4 s
  let (mo, s) ← takeN 2 s
  let (d, s) ← takeN 2 s
  let s ← tag b!"T" s
  let (h, s) ← takeN 2 s
  let (mi, s) ← takeN 2 s
  let (se, s) ← takeN 2 s
  let s ← tag b!"Z" s
  if s ≠ [] then none
  else if [y, mo, d, h, mi, se].all (fun g => g.all isDigit) then some (y, mo, d, h, mi, se)
  else none

/-- `/repo/src/headers/amz_date.rs:33-92` `AmzDate::from_header_str` -/
def AmzDate.fromHeaderStr (s : Bytes) : Option AmzDate := do
  let (y, mo, d, h, mi, se) ← AmzDate.groups s
  let year ← parseUnsigned u32Max y
  let month ← parseUnsigned u32Max mo
  let day ← parseUnsigned u32Max d
  let hour ← parseUnsigned u32Max h
  let minute ← parseUnsigned u32Max mi
  let second ← parseUnsigned u32Max se
  pure { year, month, day, hour, minute, second }

/-- `{:0w}` formatting of an unsigned integer, `/repo/src/headers/amz_date.rs:96-99` -/
def padDigits (w n : Nat) : Bytes :=
  let d := natDigits n
  List.replicate (w - d.length) 48 ++ d

/-- `/repo/src/headers/amz_date.rs:94-100` `to_iso8601` -/
def AmzDate.toIso8601 (a : AmzDate) : Bytes :=
  padDigits 4 a.year ++ padDigits 2 a.month ++ padDigits 2 a.day ++ b!"T" ++
    padDigits 2 a.hour ++ padDigits 2 a.minute ++ padDigits 2 a.second ++ b!"Z"

/-- `/repo/src/headers/amz_date.rs:102-106` `to_date` -/
def AmzDate.toDate (a : AmzDate) : Bytes :=
  padDigits 4 a.year ++ padDigits 2 a.month ++ padDigits 2 a.day

end S3
