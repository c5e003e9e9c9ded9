import Verif.Spec.Response
/-! Specification: requests that are served concurrently for ever. -/
namespace S3.Spec

/-- in an unending schedule (which request makes the next system call) request `i` comes up again and again -/
def KeepsRunning (σ : Nat → Nat) (i : Nat) : Prop := ∀ t, ∃ s, t ≤ s ∧ σ s = i

/-- the first `t` entries of an unending schedule -/
def firstSteps (σ : Nat → Nat) (t : Nat) : List Nat := (List.range t).map σ

/-- the model with the bound `n` on the number of directories a listing visits (the code has no such bound: a statement about the
code is one that holds for every large enough bound) -/
def atMost (env : Env) (n : Nat) : Env := { env with fuel := n }

end S3.Spec
