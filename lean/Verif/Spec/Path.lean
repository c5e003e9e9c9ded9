import Verif.Spec.Num
/-! Specification of S3 addresses, after the S3 documentation (from memory) on bucket naming and path-style
requests.  Independent of the model. -/
namespace S3.Spec

/-- letters and digits allowed at the ends of a bucket name -/
def LowerOrDigit (b : UInt8) : Prop := (97 ≤ b ∧ b ≤ 122) ∨ (48 ≤ b ∧ b ≤ 57)

/-- an IPv4 octet in decimal notation without leading zeros -/
def IsOctet (s : Bytes) : Prop :=
  ∃ n, n ≤ 255 ∧ IsNumeral s n ∧ (s.head? = some 48 → s.length = 1)

/-- four octets separated by dots -/
def IsIPv4 (s : Bytes) : Prop :=
  ∃ a b c d, IsOctet a ∧ IsOctet b ∧ IsOctet c ∧ IsOctet d ∧
    s = a ++ b!"." ++ b ++ b!"." ++ c ++ b!"." ++ d

/-- the bucket naming rule -/
structure LegalBucket (s : Bytes) : Prop where
  len : 3 ≤ s.length ∧ s.length ≤ 63
  chars : ∀ b ∈ s, LowerOrDigit b ∨ b = 46 ∨ b = 45
  first : ∀ b t, s = b :: t → LowerOrDigit b
  last : ∀ b t, s = t ++ [b] → LowerOrDigit b
  notIp : ¬ IsIPv4 s
  notXn : ¬ ∃ t, s = b!"xn--" ++ t

/-- what a request path may address -/
inductive Address where
  | root
  | bucket (b : Bytes)
  | object (b k : Bytes)

/-- `Addresses p a`: the decoded request path `p` is a spelling of the address `a`. -/
inductive Addresses : Bytes → Address → Prop where
  | root : Addresses b!"/" .root
  | bucket (b) : LegalBucket b → Addresses (b!"/" ++ b) (.bucket b)
  | bucketSlash (b) : LegalBucket b → Addresses (b!"/" ++ b ++ b!"/") (.bucket b)
  | object (b k) : LegalBucket b → k ≠ [] → k.length ≤ 1024 →
      Addresses (b!"/" ++ b ++ b!"/" ++ k) (.object b k)

end S3.Spec
