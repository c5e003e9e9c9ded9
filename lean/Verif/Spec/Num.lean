import Verif.Base.Bytes
/-! Specification of decimal numerals, independent of the model's digit loop. -/
namespace S3.Spec

/-- positional value of a digit string: `Σ digit_i * 10^(len-1-i)` -/
def decVal : Bytes → Nat
  | [] => 0
  | d :: ds => (d.toNat - 48) * 10 ^ ds.length + decVal ds

/-- `s` is a decimal numeral (leading zeros allowed) denoting `n`. -/
def IsNumeral (s : Bytes) (n : Nat) : Prop :=
  s ≠ [] ∧ (∀ c ∈ s, isDigit c = true) ∧ decVal s = n

end S3.Spec
