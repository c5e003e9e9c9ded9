import Verif.Spec.Date
/-! Specification of the `Authorization` header of Signature Version 4. -/
namespace S3.Spec

def Blank (c : UInt8) : Prop := c = 32 ∨ c = 9 ∨ c = 10 ∨ c = 13
/-- only blanks -/
def Blanks (s : Bytes) : Prop := ∀ c ∈ s, Blank c
/-- no ASCII white space (blanks and form feed) -/
def NoWs (s : Bytes) : Prop := ∀ c ∈ s, ¬ Blank c ∧ c ≠ 12

/-- `h1;h2;...;hn` -/
def semicolons : List Bytes → Bytes
  | [] => []
  | [h] => h
  | h :: t => h ++ b!";" ++ semicolons t

/-- the scope `key/date/region/service/aws4_request` -/
def scopeText (key date region service : Bytes) : Bytes :=
  key ++ b!"/" ++ date ++ b!"/" ++ region ++ b!"/" ++ service ++ b!"/" ++ b!"aws4_request"

/-- the parts are admissible; `DateOk` is the rule for the date part -/
structure AdmissibleAuth (DateOk : Bytes → Prop) (alg key date region service : Bytes)
    (hs : List Bytes) (sig : Bytes) : Prop where
  alg : alg ≠ [] ∧ NoWs alg
  key : key ≠ [] ∧ 47 ∉ key
  date : DateOk date ∧ 47 ∉ date
  region : 47 ∉ region
  service : service ≠ [] ∧ 47 ∉ service
  names : hs ≠ [] ∧ ∀ h ∈ hs, h ≠ [] ∧ 59 ∉ h ∧ 44 ∉ h
  sig : NoWs sig

/-- `s` is an `Authorization` header with these parts, with free white space between the fields. -/
def AuthText (s alg key date region service : Bytes) (hs : List Bytes) (sig : Bytes) : Prop :=
  ∃ w1 w2 w3 w4, w1 ≠ [] ∧ Blanks w1 ∧ Blanks w2 ∧ Blanks w3 ∧ Blanks w4 ∧
    s = alg ++ w1 ++ b!"Credential=" ++ scopeText key date region service ++ b!"," ++ w2 ++
      b!"SignedHeaders=" ++ semicolons hs ++ b!"," ++ w3 ++ b!"Signature=" ++ sig ++ w4

/-- an eight digit calendar date -/
def EightDigitDate (s : Bytes) : Prop :=
  ∃ y m d ys ms ds, s = ys ++ ms ++ ds ∧ Fixed 4 y ys ∧ Fixed 2 m ms ∧ Fixed 2 d ds ∧
    CalendarDate y m d

end S3.Spec
