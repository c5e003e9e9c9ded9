import Verif.Model.Fs
/-! Vocabulary for statements about a file tree. -/
namespace S3.Spec
open S3

/-- A file tree as an operating system keeps it: every path once, only storable names, every entry
sits in a directory, a regular file is identified by where it was created. -/
structure WF (fs : FS) : Prop where
  nodup : (fs.nodes.map (·.1)).Nodup
  names : ∀ e ∈ fs.nodes, e.1 ≠ [] ∧ ∀ c ∈ e.1, nameOk c = true
  parent : ∀ e ∈ fs.nodes, fs.lookup e.1.dropLast = some .dir
  ino : ∀ p i, fs.lookup p = some (.file i) → i.path = p ∧ i.gen < fs.gen p

/-- content of the regular file at a path -/
def contentAt (fs : FS) (p : Path) : Option Bytes :=
  match fs.lookup p with
  | some (.file i) => some (fs.data i)
  | _ => none

/-- there is a directory at the path -/
def IsDir (fs : FS) (p : Path) : Prop := fs.lookup p = some .dir

/-- `p` is `q` or an ancestor directory of `q` -/
def Above (p q : Path) : Prop := ∃ r, q = p ++ r

/-- Two file trees agree on a set of paths: same nodes there (in the same directory order), same file
contents. -/
structure Agree (Z : Path → Bool) (a b : FS) : Prop where
  nodes : a.nodes.filter (fun e => Z e.1) = b.nodes.filter (fun e => Z e.1)
  data : ∀ i : Ino, Z i.path = true → a.data i = b.data i
  gen : ∀ q, Z q = true → a.gen q = b.gen q

/-- the paths at or below a directory -/
def below (d : Path) : Path → Bool := fun q => d.isPrefixOf q

end S3.Spec
