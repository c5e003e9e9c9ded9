import Verif.Base.Bytes
/-! Plain object keys: those whose text is the path of the file that stores them. -/
namespace S3.Spec

/-- a path component that stands for itself -/
structure PlainComp (c : Bytes) : Prop where
  nonempty : c ≠ []
  noSlash : (47 : UInt8) ∉ c
  notDot : c ≠ b!"."
  notDotDot : c ≠ b!".."

/-- `k` is `c1/c2/../cn` with plain components -/
structure PlainKey (k : Bytes) (cs : List Bytes) : Prop where
  text : k = joinWith 47 cs
  nonempty : cs ≠ []
  comps : ∀ c ∈ cs, PlainComp c

/-- a component that fits into a file name -/
def Fits (c : Bytes) : Prop := c.length ≤ 255 ∧ (0 : UInt8) ∉ c

end S3.Spec
