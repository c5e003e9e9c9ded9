import Verif.Spec.Object
import Verif.Spec.Num
/-!
# The aws-chunked transfer format

`size;chunk-signature=<signature>\r\n<data>\r\n`, repeated; the signature of a chunk is computed from the signature before it
and from the data (`sign`).
-/
namespace S3.Spec

/-- value of one hexadecimal digit -/
def HexDigit (c : UInt8) (v : Nat) : Prop :=
  (48 ≤ c.toNat ∧ c.toNat ≤ 57 ∧ v = c.toNat - 48) ∨ (97 ≤ c.toNat ∧ c.toNat ≤ 102 ∧ v = c.toNat - 87) ∨
    (65 ≤ c.toNat ∧ c.toNat ≤ 70 ∧ v = c.toNat - 55)

/-- `HexNumber t n`: the hexadecimal digits `t` denote `n` -/
inductive HexNumber : Bytes → Nat → Prop
  | nil : HexNumber [] 0
  | snoc {t n c v} : HexNumber t n → HexDigit c v → HexNumber (t ++ [c]) (n * 16 + v)

/-- a chunk size as clients write it: one to eight hexadecimal digits -/
def SizeText (t : Bytes) (n : Nat) : Prop := t ≠ [] ∧ t.length ≤ 8 ∧ HexNumber t n

/-- the header line of a chunk -/
def chunkHeader (size signature : Bytes) : Bytes := size ++ b!";chunk-signature=" ++ signature ++ b!"\r\n"

/-- one chunk on the wire -/
def chunkFrame (size signature data : Bytes) : Bytes := chunkHeader size signature ++ data ++ b!"\r\n"

/-- chunks on the wire, `(size text, data)`, signed one after the other from the signature `seed` -/
def signedFrames (sign : Bytes → Bytes → Bytes) : Bytes → List (Bytes × Bytes) → Bytes
  | _, [] => []
  | seed, (t, c) :: r => chunkFrame t (sign seed c) c ++ signedFrames sign (sign seed c) r

/-- the signature after the chunks -/
def lastSignature (sign : Bytes → Bytes → Bytes) : Bytes → List (Bytes × Bytes) → Bytes
  | seed, [] => seed
  | seed, (_, c) :: r => lastSignature sign (sign seed c) r

/-- the data of the chunks -/
def chunkData (cs : List (Bytes × Bytes)) : Bytes := cs.flatMap (·.2)

/-- signatures look like hexadecimal SHA-256 values: 64 bytes, none of them a line feed -/
def SignatureShape (sign : Bytes → Bytes → Bytes) : Prop := ∀ p c, (sign p c).length = 64 ∧ (10 : UInt8) ∉ sign p c

end S3.Spec
