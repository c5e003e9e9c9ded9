import Verif.Spec.Object
import Verif.Model.Encoding
/-! The grammar of JSON objects whose values are strings (RFC 8259), apart from the reader and the writer of the model. -/
namespace S3.Spec
open S3

/-- a hexadecimal digit and its value -/
inductive JsonHexDigit : UInt8 → Nat → Prop where
  | digit (n : Nat) : n < 10 → JsonHexDigit (UInt8.ofNat (48 + n)) n
  | lower (n : Nat) : n < 6 → JsonHexDigit (UInt8.ofNat (97 + n)) (10 + n)
  | upper (n : Nat) : n < 6 → JsonHexDigit (UInt8.ofNat (65 + n)) (10 + n)

/-- four hexadecimal digits and the number they stand for -/
inductive JsonHex4 : Bytes → Nat → Prop where
  | mk {a b c d : UInt8} {w x y z : Nat} : JsonHexDigit a w → JsonHexDigit b x → JsonHexDigit c y → JsonHexDigit d z →
      JsonHex4 [a, b, c, d] (w * 4096 + x * 256 + y * 16 + z)

/-- a piece of the text of a string, and the bytes it stands for -/
inductive JsonChar : Bytes → Bytes → Prop where
  | plain {c : UInt8} : 32 ≤ c → c ≠ 34 → c ≠ 92 → JsonChar [c] [c]
  | quote : JsonChar b!"\\\"" b!"\""
  | backslash : JsonChar b!"\\\\" b!"\\"
  | slash : JsonChar b!"\\/" b!"/"
  | backspace : JsonChar b!"\\b" [8]
  | formFeed : JsonChar b!"\\f" [12]
  | lineFeed : JsonChar b!"\\n" [10]
  | return_ : JsonChar b!"\\r" [13]
  | tab : JsonChar b!"\\t" [9]
  /-- the code of a character -/
  | code {t : Bytes} {c : Char} : JsonHex4 t c.toNat → JsonChar (b!"\\u" ++ t) (String.utf8EncodeChar c)
  /-- a pair of surrogates, for the characters beyond 16 bits -/
  | pair {t u : Bytes} {hi lo : Nat} {c : Char} : JsonHex4 t (0xD800 + hi) → hi < 0x400 → JsonHex4 u (0xDC00 + lo) → lo < 0x400 →
      c.toNat = 0x10000 + hi * 0x400 + lo → JsonChar (b!"\\u" ++ t ++ b!"\\u" ++ u) (String.utf8EncodeChar c)

/-- the text between the quotes of a string, and the bytes it stands for -/
inductive JsonChars : Bytes → Bytes → Prop where
  | nil : JsonChars [] []
  | cons {t x u v : Bytes} : JsonChar t x → JsonChars u v → JsonChars (t ++ u) (x ++ v)

/-- a string: UTF-8 -/
inductive JsonString : Bytes → Bytes → Prop where
  | mk {t v : Bytes} : JsonChars t v → utf8Valid v = true → JsonString (b!"\"" ++ t ++ b!"\"") v

/-- white space -/
def JsonSpace (s : Bytes) : Prop := ∀ b ∈ s, b = 32 ∨ b = 9 ∨ b = 10 ∨ b = 13

/-- a member of an object, with white space around it -/
inductive JsonMember : Bytes → Bytes × Bytes → Prop where
  | mk {s₁ s₂ s₃ s₄ t u n v : Bytes} : JsonSpace s₁ → JsonSpace s₂ → JsonSpace s₃ → JsonSpace s₄ → JsonString t n → JsonString u v →
      JsonMember (s₁ ++ t ++ s₂ ++ b!":" ++ s₃ ++ u ++ s₄) (n, v)

/-- members separated by commas -/
inductive JsonMembers : Bytes → List (Bytes × Bytes) → Prop where
  | one {t : Bytes} {p : Bytes × Bytes} : JsonMember t p → JsonMembers t [p]
  | more {t u : Bytes} {p : Bytes × Bytes} {l : List (Bytes × Bytes)} : JsonMember t p → JsonMembers u l →
      JsonMembers (t ++ b!"," ++ u) (p :: l)

/-- a document that is an object with these members -/
inductive JsonObject : Bytes → List (Bytes × Bytes) → Prop where
  | empty {s₁ s₂ s₃ : Bytes} : JsonSpace s₁ → JsonSpace s₂ → JsonSpace s₃ → JsonObject (s₁ ++ b!"{" ++ s₂ ++ b!"}" ++ s₃) []
  | members {s₁ s₂ t : Bytes} {l : List (Bytes × Bytes)} : JsonSpace s₁ → JsonSpace s₂ → JsonMembers t l →
      JsonObject (s₁ ++ b!"{" ++ t ++ b!"}" ++ s₂) l

/-- the map (ordered by name) that a list of entries stands for: the last value of every name -/
def MapOf (l : List (Bytes × Bytes)) (m : Meta) : Prop :=
  (m.map (·.1)).Pairwise (fun a b => bytesCmp a b = .lt) ∧
  ∀ n v, (n, v) ∈ m ↔ ∃ a b, l = a ++ (n, v) :: b ∧ ∀ p ∈ b, p.1 ≠ n

end S3.Spec
