import Verif.Model.AmzDate
/-! Model of `/repo/src/utils/time.rs` and of the parts of chrono 0.4.19 (a dependency) that it calls. -/
namespace S3

/-- the time of a file as a `std::time::SystemTime`, `/repo/src/utils/time.rs:17`: seconds since 1970-01-01T00:00:00Z and nanoseconds.
Earlier times and times from 9999-12-31T00:00:00Z on are not modelled (the file systems of Linux do not have the latter). -/
structure Time where
  secs : Nat
  nanos : Nat
  early : secs < 253402214400
  fraction : nanos < 1000000000
  deriving DecidableEq, Repr

/-- the offset of the local time from UTC, `Local` in `/repo/src/utils/time.rs:18`, in minutes, less than a day (chrono `FixedOffset`).
Offsets with seconds are not modelled. -/
structure ZoneOffset where
  minutes : Int
  bound : minutes.natAbs < 1440
  deriving DecidableEq, Repr

/-- the fields of chrono's `NaiveDateTime`, `/repo/src/utils/time.rs:18,24` -/
structure Civil where
  year : Nat
  month : Nat
  day : Nat
  hour : Nat
  minute : Nat
  second : Nat
  deriving DecidableEq, Repr

/-- chrono `YearFlags`: leap years. Behind `/repo/src/utils/time.rs:18`. -/
def isLeapYear (y : Nat) : Bool := y % 4 == 0 && (y % 100 != 0 || y % 400 == 0)

/-- chrono `YEAR_DELTAS`: the number of leap years before the year `y`. Behind `/repo/src/utils/time.rs:18`. -/
def yearDelta (y : Nat) : Nat := (y + 3) / 4 - (y + 99) / 100 + (y + 399) / 400

/-- chrono `cycle_to_yo` after `div_mod_floor(days, 146_097)`, in `NaiveDate::from_num_days_from_ce_opt`: the year and the day of the
year (from 0) of a number of days since 0000-01-01. Behind `/repo/src/utils/time.rs:18`. -/
def yearOrdinal (days : Nat) : Nat × Nat :=
  let cycle := days % 146097
  let y := cycle / 365
  let o := cycle % 365
  if o < yearDelta y then (days / 146097 * 400 + (y - 1), o + 365 - yearDelta (y - 1))
  else (days / 146097 * 400 + y, o - yearDelta y)

/-- lengths of the months. chrono has tables for `Of` and `Mdf`. Behind `/repo/src/utils/time.rs:18`. -/
def monthLengths (leap : Bool) : List Nat := [31, if leap then 29 else 28, 31, 30, 31, 30, 31, 31, 30, 31, 30, 31]

/-- chrono `Of::to_mdf`: month and day of a day of the year, from month `m` on. Behind `/repo/src/utils/time.rs:18`. -/
def monthDay : List Nat → Nat → Nat → Nat × Nat
  | [], m, o => (m, o + 1)
  | l :: ls, m, o => if o < l then (m, o + 1) else monthDay ls (m + 1) (o - l)

/-- chrono `NaiveDateTime` of a number of seconds since 0000-01-01T00:00:00. Behind `/repo/src/utils/time.rs:18,24`. -/
def civilOf (s : Nat) : Civil :=
  let (y, o) := yearOrdinal (s / 86400)
  let (m, d) := monthDay (monthLengths (isLeapYear y)) 1 o
  { year := y, month := m, day := d, hour := s % 86400 / 3600, minute := s % 3600 / 60, second := s % 60 }

/-- seconds from 0000-01-01T00:00:00 to 1970-01-01T00:00:00 (719 528 days), the constant of chrono `NaiveDateTime::from_timestamp`.
Behind `/repo/src/utils/time.rs:18`. -/
def epochSeconds : Nat := 719528 * 86400

/-- chrono's `{:04}` for the years 0 to 9999 and `{:+05}` for later ones. Behind `/repo/src/utils/time.rs:19,25`. -/
def yearText (y : Nat) : Bytes := if y ≤ 9999 then padDigits 4 y else b!"+" ++ natDigits y

/-- chrono `Debug for NaiveTime`: the fraction of the second with 0, 3, 6 or 9 digits. Behind `/repo/src/utils/time.rs:19`. -/
def fractionText (n : Nat) : Bytes :=
  if n = 0 then []
  else if n % 1000000 = 0 then b!"." ++ padDigits 3 (n / 1000000)
  else if n % 1000 = 0 then b!"." ++ padDigits 6 (n / 1000)
  else b!"." ++ padDigits 9 n

/-- chrono `%:z` of an offset in minutes. Behind `/repo/src/utils/time.rs:19`. -/
def offsetText (off : Int) : Bytes :=
  (if off < 0 then b!"-" else b!"+") ++ padDigits 2 (off.natAbs / 60) ++ b!":" ++ padDigits 2 (off.natAbs % 60)

/-- `/repo/src/utils/time.rs:17-20` `to_rfc3339`. `off` is the offset of the local time zone at that time. -/
def toRfc3339 (off : ZoneOffset) (t : Time) : Bytes :=
  let c := civilOf ((t.secs + epochSeconds : Int) + off.minutes * 60).toNat
  yearText c.year ++ b!"-" ++ padDigits 2 c.month ++ b!"-" ++ padDigits 2 c.day ++ b!"T" ++
    padDigits 2 c.hour ++ b!":" ++ padDigits 2 c.minute ++ b!":" ++ padDigits 2 c.second ++
    fractionText t.nanos ++ offsetText off.minutes

/-- the value of a digit string, chrono `scan::number`. Behind `/repo/src/utils/time.rs:24`. -/
def digitsValue (s : Bytes) : Nat := s.foldl (fun n c => n * 10 + (c.toNat - 48)) 0

/-- chrono `scan::number(s, w, w)`. Behind `/repo/src/utils/time.rs:24`. -/
def scanNumber (w : Nat) (s : Bytes) : Option (Nat × Bytes) :=
  if s.length < w then none
  else if (s.take w).all isDigit then some (digitsValue (s.take w), s.drop w) else none

/-- chrono `scan::nanosecond` after a `.`: up to nine digits count, the others are dropped. Behind `/repo/src/utils/time.rs:24`. -/
def scanNanos (s : Bytes) : Option (Nat × Bytes) :=
  match s with
  | 46 :: r =>
    let ds := r.takeWhile isDigit
    if ds = [] then none
    else some (digitsValue (ds.take 9) * 10 ^ (9 - (ds.take 9).length), r.dropWhile isDigit)
  | _ => some (0, s)

/-- chrono `scan::timezone_offset_zulu` to the end of the text: `Z` or an offset, in minutes. Small letters and `UTC`, which some versions
of chrono accept, are refused here. Behind `/repo/src/utils/time.rs:24`. -/
def scanOffset (s : Bytes) : Option Int :=
  match s with
  | [90] => some 0
  | sign :: r => do
    let (h, r) ← scanNumber 2 r
    let r ← tag b!":" r
    let (m, r) ← scanNumber 2 r
    if r = [] ∧ h < 24 ∧ m < 60 then
      if sign = 43 then some (h * 60 + m : Nat) else if sign = 45 then some (-((h * 60 + m : Nat) : Int)) else none
    else none
  | [] => none

/-- chrono `NaiveDate::from_ymd_opt` and `num_days_from_ce`: the number of days since 0000-01-01 of a date, if there is such a date.
Behind `/repo/src/utils/time.rs:24`. -/
def daysOf (y m d : Nat) : Option Nat :=
  match m with
  | 0 => none
  | m + 1 =>
    match (monthLengths (isLeapYear y))[m]? with
    | none => none
    | some l =>
      if 1 ≤ d ∧ d ≤ l then some (365 * y + yearDelta y + ((monthLengths (isLeapYear y)).take m).sum + (d - 1)) else none

/-- `DateTime::parse_from_rfc3339(s)` turned into UTC, `/repo/src/utils/time.rs:24`: seconds since 0000-01-01T00:00:00Z and nanoseconds.
Not modelled: the leap second `60` and UTC times before the year 0 (refused here); a `t` or a blank instead of `T`, which some versions of
chrono accept, is refused here. -/
def parseRfc3339 (s : Bytes) : Option (Nat × Nat) := do
  let (y, s) ← scanNumber 4 s
  let s ← tag b!"-" s
  let (mo, s) ← scanNumber 2 s
  let s ← tag b!"-" s
  let (d, s) ← scanNumber 2 s
  let s ← tag b!"T" s
  let (h, s) ← scanNumber 2 s
  let s ← tag b!":" s
  let (mi, s) ← scanNumber 2 s
  let s ← tag b!":" s
  let (se, s) ← scanNumber 2 s
  let (ns, s) ← scanNanos s
  let off ← scanOffset s
  let days ← daysOf y mo d
  if h < 24 ∧ mi < 60 ∧ se < 60 then
    let u : Int := (days * 86400 + h * 3600 + mi * 60 + se : Nat) - off * 60
    if 0 ≤ u then some (u.toNat, ns) else none
  else none

/-- chrono `%a`. Behind `/repo/src/utils/time.rs:14`. -/
def weekdayText (days : Nat) : Bytes :=
  match (days + 6) % 7 with
  | 0 => b!"Sun"
  | 1 => b!"Mon"
  | 2 => b!"Tue"
  | 3 => b!"Wed"
  | 4 => b!"Thu"
  | 5 => b!"Fri"
  | _ => b!"Sat"

/-- chrono `%b`. Behind `/repo/src/utils/time.rs:14`. -/
def monthText (m : Nat) : Bytes :=
  match m with
  | 1 => b!"Jan"
  | 2 => b!"Feb"
  | 3 => b!"Mar"
  | 4 => b!"Apr"
  | 5 => b!"May"
  | 6 => b!"Jun"
  | 7 => b!"Jul"
  | 8 => b!"Aug"
  | 9 => b!"Sep"
  | 10 => b!"Oct"
  | 11 => b!"Nov"
  | _ => b!"Dec"

/-- `time.format(LAST_MODIFIED_TIME_FORMAT)`, `/repo/src/utils/time.rs:14,25` -/
def lastModifiedText (s : Nat) : Bytes :=
  let c := civilOf s
  weekdayText (s / 86400) ++ b!", " ++ padDigits 2 c.day ++ b!" " ++ monthText c.month ++ b!" " ++ yearText c.year ++ b!" " ++
    padDigits 2 c.hour ++ b!":" ++ padDigits 2 c.minute ++ b!":" ++ padDigits 2 c.second ++ b!" GMT"

/-- `/repo/src/utils/time.rs:22-26` `rfc3339_to_last_modified` -/
def rfc3339ToLastModified (s : Bytes) : Option Bytes := (parseRfc3339 s).map fun p => lastModifiedText p.1

end S3
