import Verif.Spec.Life
import Verif.Spec.Fs
/-! Failures of the power. The server never asks for its files and directories to be forced to the disk: `/repo/src/storages/fs.rs` has no
`sync_all`, `sync_data` or `fsync`. -/
namespace S3.Spec

/-- the file tree after the first `n` system calls of a run of the server -/
def Epoch.upTo (cfg : Cfg) (ext : Ext) (e : Epoch) (fs : FS) (n : Nat) : FS := (Epoch.mk e.requests (e.steps.take n)).leaves cfg ext fs

/-- What the disk may hold when the power fails at the end of a run of the server (which began when everything was on the disk), after the
repair of the file system: a tree; each name leads to something that it led to at some time during the run; a file that was not written is
as it was; a file that was written has at each place a byte it had there at some time since it had a name, or a zero, and is no longer
than it was at some time. Which of these the disk holds is open, for each name, file and place by itself. -/
structure PowerLoss (cfg : Cfg) (ext : Ext) (e : Epoch) (fs fs' : FS) : Prop where
  tree : WF fs'
  name : ∀ p, ∃ n, fs'.lookup p = (e.upTo cfg ext fs n).lookup p
  kept : ∀ i, (∀ n, (e.upTo cfg ext fs n).data i = fs.data i) → fs'.data i = fs.data i
  byte : ∀ (i : Ino) (j : Nat) x, fs'.lookup i.path = some (.file i) → (fs'.data i)[j]? = some x →
    x = 0 ∨ ∃ n m, n ≤ m ∧ (e.upTo cfg ext fs n).lookup i.path = some (.file i) ∧ ((e.upTo cfg ext fs m).data i)[j]? = some x
  length : ∀ i : Ino, fs'.lookup i.path = some (.file i) →
    ∃ n m, n ≤ m ∧ (e.upTo cfg ext fs n).lookup i.path = some (.file i) ∧ (fs'.data i).length ≤ ((e.upTo cfg ext fs m).data i).length

/-- runs of the server, each of which ends with the death of the server or with a failure of the power -/
inductive Outages (cfg : Cfg) (ext : Ext) : List Epoch → FS → FS → Prop
  | done {fs} : Outages cfg ext [] fs fs
  | stopped {e es fs fs'} : Outages cfg ext es (e.leaves cfg ext fs) fs' → Outages cfg ext (e :: es) fs fs'
  | power {e es fs fs₁ fs'} : PowerLoss cfg ext e fs fs₁ → Outages cfg ext es fs₁ fs' → Outages cfg ext (e :: es) fs fs'

end S3.Spec
