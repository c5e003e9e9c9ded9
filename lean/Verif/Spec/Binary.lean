import Verif.Model.Binary
import Verif.Spec.Place
import Verif.Spec.Fs
/-! A path of the operating system. -/
namespace S3.Spec
open S3

/-- The text `path` names the existing entry `q` of the file tree for a process working in the directory `cwd`: its
segments lead from `cwd` (a path that starts with a slash: from the top) to `q`, and everything passed on the way is a
directory. -/
def OsNames (fs : FS) (cwd : List Bytes) (path : Bytes) (q : List Bytes) : Prop :=
  ∃ start segs, Segments path segs ∧
    ((∀ t, path ≠ b!"/" ++ t) ∧ start = cwd ∨ (∃ t, path = b!"/" ++ t) ∧ start = []) ∧
    Walk start segs q ∧ fs.lookup q ≠ none ∧
    ∀ s1 x s2 d, segs = s1 ++ x :: s2 → Walk start s1 d → IsDir fs d

end S3.Spec
