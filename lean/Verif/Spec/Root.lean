import Verif.Spec.WebLife
import Verif.Spec.Place
/-! What may happen to the storage directory itself. -/
namespace S3.Spec

/-- there is something in the directory -/
def HasEntry (fs : FS) (d : Path) : Prop := ∃ n, fs.lookup (d ++ [n]) ≠ none

/-- the run of the server, cut off after `n` system calls -/
def WebEpoch.cut (w : WebEpoch) (n : Nat) : WebEpoch := { w with steps := w.steps.take n }

/-- `fs'` is the file tree at some moment of the life of a server that starts on `fs` -/
def AtSomeTime (cfg : Cfg) (ext : Ext) (lib : Lib) (auth : Option Provider) (ws : List WebEpoch) (fs fs' : FS) : Prop :=
  ∃ before w later n, ws = before ++ w :: later ∧
    fs' = (w.cut n).leaves cfg ext lib auth (webLife cfg ext lib auth before fs)

end S3.Spec
