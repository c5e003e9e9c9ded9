import Verif.Spec.Num
/-! Specification of the basic ISO 8601 date formats and of the Gregorian calendar. -/
namespace S3.Spec

/-- `Fixed w n s`: `s` is the decimal numeral of `n` written with exactly `w` ASCII digits. -/
def Fixed (w n : Nat) (s : Bytes) : Prop :=
  s.length = w ∧ (∀ c ∈ s, isDigit c = true) ∧ decVal s = n

/-- `s` is `YYYYMMDD'T'HHMMSS'Z'` with the given field values (not necessarily a calendar date). -/
def Iso8601Basic (s : Bytes) (y mo d h mi se : Nat) : Prop :=
  ∃ ys mos ds hs mis ses, Fixed 4 y ys ∧ Fixed 2 mo mos ∧ Fixed 2 d ds ∧ Fixed 2 h hs ∧
    Fixed 2 mi mis ∧ Fixed 2 se ses ∧
    s = ys ++ mos ++ ds ++ b!"T" ++ hs ++ mis ++ ses ++ b!"Z"

/-- Gregorian leap years -/
def Leap (y : Nat) : Prop := y % 4 = 0 ∧ (y % 100 ≠ 0 ∨ y % 400 = 0)

/-- Gregorian calendar dates -/
def CalendarDate (y m d : Nat) : Prop :=
  1 ≤ d ∧
  ((m ∈ [1, 3, 5, 7, 8, 10, 12] ∧ d ≤ 31) ∨ (m ∈ [4, 6, 9, 11] ∧ d ≤ 30) ∨
   (m = 2 ∧ (d ≤ 28 ∨ (d = 29 ∧ Leap y))))

end S3.Spec
