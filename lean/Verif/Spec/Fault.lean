import Verif.Model.Fault
import Verif.Spec.Object
/-! Requests on a disk that may fail. -/
namespace S3.Spec

/-- what goes wrong with the first, the second, … system call of a request -/
abbrev Disk := Nat → Fault

/-- the answer to a request on a disk that may fail -/
def answerF (cfg : Cfg) (ext : Ext) (d : Disk) (o : Op) (fs : FS) : Outcome Answer := (runF cfg d (opProg cfg ext o) fs).1
/-- the file tree after a request on a disk that may fail -/
def afterF (cfg : Cfg) (ext : Ext) (d : Disk) (o : Op) (fs : FS) : FS := (runF cfg d (opProg cfg ext o) fs).2
/-- the file tree after the first `n` system calls of a request on a disk that may fail -/
def duringF (cfg : Cfg) (ext : Ext) (d : Disk) (n : Nat) (o : Op) (fs : FS) : FS := (runFN cfg d n (opProg cfg ext o) fs).2

/-- `fs'` is the file tree at some moment of the request, or after it -/
def Moment (cfg : Cfg) (ext : Ext) (d : Disk) (o : Op) (fs fs' : FS) : Prop :=
  (∃ n, fs' = duringF cfg ext d n o fs) ∨ fs' = afterF cfg ext d o fs

/-- only one system call fails, the one with this number -/
def oneFault (n : Nat) (f : Fault) : Disk := fun m => if m = n then f else .none

/-- the requests that look whether a file is there and take an error for "no" -/
def Looks : Op → Prop
  | .getObject .. | .headObject .. | .copyObject .. | .deleteObjects .. => True
  | _ => False

end S3.Spec
