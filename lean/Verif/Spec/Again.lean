import Verif.Spec.Fs
/-! Requests that are sent again. -/
namespace S3.Spec

/-- the same directories, and the same files with the same contents -/
def Alike (a b : FS) : Prop := ∀ p, contentAt a p = contentAt b p ∧ (IsDir a p ↔ IsDir b p)

end S3.Spec
