import Verif.Spec.Object
import Verif.Model.Encoding
/-!
# multipart/form-data uploads
-/
namespace S3.Spec

/-- `before` is the text in front of the first occurrence of `d` in `s` -/
def BeforeFirst (d s before : Bytes) : Prop :=
  (∃ rest, s = before ++ d ++ rest) ∧ ∀ a rest, s = a ++ d ++ rest → before.length ≤ a.length

/-- `d` occurs in `s` -/
def Occurs (d s : Bytes) : Prop := ∃ a rest, s = a ++ d ++ rest

/-- the line end and delimiter that end the file of a form -/
def fileDelimiter (boundary : Bytes) : Bytes := b!"\r\n--" ++ boundary

/-- two names that differ at most in the case of ASCII letters -/
def SameName (a b : Bytes) : Prop := a.map toLower = b.map toLower

/-- a text that holds the whole first line of a form: there is a line end in it which is not its very beginning (the line end of an
empty line before the first delimiter) -/
def FirstLineWhole (s : Bytes) : Prop := ∃ l rest, s = l ++ b!"\r\n" ++ rest ∧ l ≠ []

/-- the first fragment that is not empty holds the whole first line -/
def FirstLineUnsplit : Body → Prop
  | [] => True
  | none :: _ => True
  | some b :: r => if b = [] then FirstLineUnsplit r else FirstLineWhole b

/-! ### how a browser writes a form -/

/-- printable text: no control characters (as RFC 7230 wants it in a header value) -/
def Printable (s : Bytes) : Prop := ∀ c ∈ s, c = 9 ∨ (32 ≤ c.toNat ∧ c ≠ 127)

/-- a text that may stand between double quotes: printable UTF-8, not empty, without a double quote -/
def QuotedText (s : Bytes) : Prop := s ≠ [] ∧ Printable s ∧ (34 : UInt8) ∉ s ∧ utf8Valid s = true

/-- no blank at either end -/
def Trimmed (s : Bytes) : Prop := (∀ c r, s = c :: r → c ≠ 32 ∧ c ≠ 9) ∧ (∀ c r, s = r ++ [c] → c ≠ 32 ∧ c ≠ 9)

/-- a field: `value` is UTF-8 and has no line that is the delimiter -/
structure FieldText (boundary name value : Bytes) : Prop where
  name : QuotedText name
  utf8 : utf8Valid value = true
  free : ¬ Occurs (b!"\r\n--" ++ boundary ++ b!"\r\n") (b!"\r\n" ++ value ++ b!"\r\n")

/-- one field of a form, behind its delimiter line -/
def fieldPart (boundary : Bytes) (f : Bytes × Bytes) : Bytes :=
  b!"Content-Disposition: form-data; name=\"" ++ f.1 ++ b!"\"\r\n\r\n" ++ f.2 ++ b!"\r\n--" ++ boundary ++ b!"\r\n"

/-- the file of a form, behind its delimiter line -/
def filePart (boundary field fileName contentType content : Bytes) : Bytes :=
  b!"Content-Disposition: form-data; name=\"" ++ field ++ b!"\"; filename=\"" ++ fileName ++ b!"\"\r\nContent-Type: " ++ contentType ++
    b!"\r\n\r\n" ++ content ++ b!"\r\n--" ++ boundary

/-- a form: fields, then the file, then the closing -/
def formText (boundary : Bytes) (fields : List (Bytes × Bytes)) (field fileName contentType content closing : Bytes) : Bytes :=
  b!"--" ++ boundary ++ b!"\r\n" ++ fields.flatMap (fieldPart boundary) ++ filePart boundary field fileName contentType content ++ closing

end S3.Spec
