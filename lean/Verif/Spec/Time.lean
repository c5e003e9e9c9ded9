import Verif.Spec.Date
/-! Specification of the calendar and of the two notations for times: RFC 3339, and the `IMF-fixdate` of RFC 7231 that HTTP headers
carry. -/
namespace S3.Spec

instance (y : Nat) : Decidable (Leap y) := inferInstanceAs (Decidable (_ ∧ _))

/-- the number of days of a year -/
def yearDays (y : Nat) : Nat := if Leap y then 366 else 365

/-- the number of days of a month -/
def monthDays (y m : Nat) : Nat :=
  if m = 2 then (if Leap y then 29 else 28) else if m ∈ [4, 6, 9, 11] then 30 else 31

/-- the number of days from 0000-01-01 to a date: the days of the years before, of the months before, and the days before -/
def dayNumber (y m d : Nat) : Nat :=
  ((List.range y).map yearDays).sum + ((List.range' 1 (m - 1)).map (monthDays y)).sum + (d - 1)

/-- seconds from 1970-01-01T00:00:00Z to a time of a day, read as UTC -/
def secondsUtc (y m d h mi s : Nat) : Int :=
  ((dayNumber y m d : Int) - dayNumber 1970 1 1) * 86400 + h * 3600 + mi * 60 + s

/-- the decimal fraction `f` of a second, if any, is `n` whole nanoseconds -/
def Fraction (f : Bytes) (n : Nat) : Prop :=
  (f = [] ∧ n = 0) ∨
  ∃ ds, f = b!"." ++ ds ∧ ds ≠ [] ∧ (∀ c ∈ ds, isDigit c = true) ∧ n = decVal ds * 10 ^ 9 / 10 ^ ds.length

/-- `z` is the notation of an offset from UTC in minutes -/
def Offset (z : Bytes) (off : Int) : Prop :=
  (z = b!"Z" ∧ off = 0) ∨
  ∃ hs ms h m, Fixed 2 h hs ∧ Fixed 2 m ms ∧ h < 24 ∧ m < 60 ∧
    ((z = b!"+" ++ hs ++ b!":" ++ ms ∧ off = h * 60 + m) ∨ (z = b!"-" ++ hs ++ b!":" ++ ms ∧ off = -(h * 60 + m)))

/-- `s` denotes, in the notation of RFC 3339, the time `t` seconds and `n` nanoseconds after 1970-01-01T00:00:00Z (no leap second) -/
def Rfc3339 (s : Bytes) (t : Int) (n : Nat) : Prop :=
  ∃ y mo d h mi se ys mos ds hs mis ses f z off,
    CalendarDate y mo d ∧ h < 24 ∧ mi < 60 ∧ se < 60 ∧
    Fixed 4 y ys ∧ Fixed 2 mo mos ∧ Fixed 2 d ds ∧ Fixed 2 h hs ∧ Fixed 2 mi mis ∧ Fixed 2 se ses ∧ Fraction f n ∧ Offset z off ∧
    s = ys ++ b!"-" ++ mos ++ b!"-" ++ ds ++ b!"T" ++ hs ++ b!":" ++ mis ++ b!":" ++ ses ++ f ++ z ∧
    t = secondsUtc y mo d h mi se - off * 60

/-- the names of the months -/
def monthNames : List Bytes :=
  [b!"Jan", b!"Feb", b!"Mar", b!"Apr", b!"May", b!"Jun", b!"Jul", b!"Aug", b!"Sep", b!"Oct", b!"Nov", b!"Dec"]

/-- the names of the days of the week, from the day of 1970-01-01 on -/
def dayNames : List Bytes := [b!"Thu", b!"Fri", b!"Sat", b!"Sun", b!"Mon", b!"Tue", b!"Wed"]

/-- `s` denotes, in the notation of HTTP headers (`Sun, 06 Nov 1994 08:49:37 GMT`), the time `t` seconds after 1970-01-01T00:00:00Z -/
def HttpDate (s : Bytes) (t : Int) : Prop :=
  ∃ y mo d h mi se name month ys ds hs mis ses,
    CalendarDate y mo d ∧ h < 24 ∧ mi < 60 ∧ se < 60 ∧
    Fixed 4 y ys ∧ Fixed 2 d ds ∧ Fixed 2 h hs ∧ Fixed 2 mi mis ∧ Fixed 2 se ses ∧
    monthNames[mo - 1]? = some month ∧
    dayNames[(((dayNumber y mo d : Int) - dayNumber 1970 1 1) % 7).toNat]? = some name ∧
    s = name ++ b!", " ++ ds ++ b!" " ++ month ++ b!" " ++ ys ++ b!" " ++ hs ++ b!":" ++ mis ++ b!":" ++ ses ++ b!" GMT" ∧
    t = secondsUtc y mo d h mi se

end S3.Spec
