import Verif.Spec.Num
/-! RFC 7233 byte ranges as the service accepts them (single range, numbers below 2^64). -/
namespace S3.Spec

/-- what a `Range` header asks for -/
inductive ByteRange where
  /-- from byte `first` to the end -/
  | fromTo (first : Nat) (last : Nat)
  | from_ (first : Nat)
  /-- the last `n` bytes -/
  | lastN (n : Nat)

/-- a numeral below `2^64` -/
def IsNum64 (s : Bytes) (n : Nat) : Prop := IsNumeral s n ∧ n < 2 ^ 64

/-- `RangeHeader h r`: the header value `h` is a spelling of the range `r`. -/
inductive RangeHeader : Bytes → ByteRange → Prop where
  | closed (f l fs ls) : IsNum64 fs f → IsNum64 ls l → f ≤ l →
      RangeHeader (b!"bytes=" ++ fs ++ b!"-" ++ ls) (.fromTo f l)
  | from_ (f fs) : IsNum64 fs f → RangeHeader (b!"bytes=" ++ fs ++ b!"-") (.from_ f)
  | lastN (n ns) : IsNum64 ns n → RangeHeader (b!"bytes=-" ++ ns) (.lastN n)

/-- RFC 7233: the part of `content` a range selects. -/
def ByteRange.select (content : Bytes) : ByteRange → Bytes
  | .fromTo f l => (content.drop f).take (l + 1 - f)
  | .from_ f => content.drop f
  | .lastN n => content.drop (content.length - n)

/-- RFC 7233 §2.1: a range is satisfiable when it selects at least one byte. -/
def ByteRange.satisfiable (len : Nat) : ByteRange → Prop
  | .fromTo f _ => f < len
  | .from_ f => f < len
  | .lastN n => 0 < n ∧ 0 < len

end S3.Spec
