import Verif.Lemmas.Fs
import Verif.Spec.Object
/-! A small concrete installation, used in the examples that show that hypotheses can be met. -/
namespace S3.Sample
open S3 Spec

/-- storage root `/srv` -/
def cfg : Cfg := { root := [b!"srv"], cwd := [], keepSlash := true, dirLen := 4096 }

/-- an encoder for a string map: every byte is preceded by 1, every string ended by 0 -/
def encStr (s : Bytes) : Bytes := s.flatMap (fun b => [1, b]) ++ [0]
/-- inverse of `encStr` -/
def decStr : Bytes → Option (Bytes × Bytes)
  | 0 :: r => some ([], r)
  | 1 :: b :: r =>
    match decStr r with
    | some (s, t) => some (b :: s, t)
    | none => none
  | _ => none
/-- encoder of a list of pairs -/
def encMeta (m : Meta) : Bytes := m.flatMap fun e => encStr e.1 ++ encStr e.2
/-- decoder of a list of pairs, bounded by the number of bytes -/
def decMetaN : Nat → Bytes → Option Meta
  | _, [] => some []
  | 0, _ => none
  | n + 1, s =>
    match decStr s with
    | none => none
    | some (k, r) =>
      match decStr r with
      | none => none
      | some (v, r) => (decMetaN n r).map fun m => (k, v) :: m
/-- a concrete choice of the library functions: a toy digest and a simple map format -/
def ext : Ext :=
  { md5hex := fun b => b!"md5:" ++ natDigits b.length
    metaEnc := encMeta
    metaDec := fun s => decMetaN s.length s }

theorem decStr_enc (s t : Bytes) : decStr (encStr s ++ t) = some (s, t) := by
  induction s with
  | nil => rfl
  | cons b s ih =>
    have : encStr (b :: s) ++ t = 1 :: b :: (encStr s ++ t) := by simp [encStr]
    rw [this, decStr, ih]

theorem decMetaN_enc (m : Meta) (n : Nat) (h : m.length ≤ n) : decMetaN n (encMeta m) = some m := by
  induction m generalizing n with
  | nil => cases n <;> rfl
  | cons e m ih =>
    cases n with
    | zero => simp at h
    | succ n =>
      have he : encMeta (e :: m) = encStr e.1 ++ (encStr e.2 ++ encMeta m) := by simp [encMeta]
      have hne : encMeta (e :: m) ≠ [] := by rw [he]; simp [encStr]
      have h1 := ih n (by simpa using h)
      have hd : decMetaN (n + 1) (encMeta (e :: m)) =
          (match decStr (encMeta (e :: m)) with
          | none => none
          | some (k, r) =>
            match decStr r with
            | none => none
            | some (v, r) => (decMetaN n r).map fun m => (k, v) :: m) := by
        cases hx : encMeta (e :: m) with
        | nil => exact absurd hx hne
        | cons => rfl
      rw [hd, he, decStr_enc]
      simp only [decStr_enc, h1]
      rfl

theorem encMeta_length (m : Meta) : m.length ≤ (encMeta m).length := by
  induction m with
  | nil => simp
  | cons e m ih => simp [encMeta, encStr] at ih ⊢; omega

/-- the sample metadata format can be read back -/
theorem ext_roundtrip : MetaLaw ext := fun m _ =>
  decMetaN_enc m _ (encMeta_length m)

/-- the empty file tree -/
def empty : FS := { nodes := [], data := fun _ => [], gen := fun _ => 0 }

theorem empty_wf : WF empty := by
  refine ⟨List.nodup_nil, ?_, ?_, ?_⟩
  · intro e he; cases he
  · intro e he; cases he
  · intro p i h
    simp only [FS.lookup, empty] at h
    split at h <;> simp at h

/-- write a whole file -/
def writeFile (p : Path) (b : Bytes) : Prog Unit := do
  let i ← orInternal (← call (.create ⟨p, false⟩))
  let _ ← call (.writeAt i 0 b)
  return ()

/-- `/srv` with the buckets `aaa`, `bbb` and two objects, and a file `/etc/passwd` outside -/
def setup : Prog Unit := do
  let _ ← call (.mkdir [b!"srv"])
  let _ ← call (.mkdir [b!"etc"])
  writeFile [b!"etc", b!"passwd"] b!"secret"
  let _ ← call (.mkdir [b!"srv", b!"aaa"])
  let _ ← call (.mkdir [b!"srv", b!"bbb"])
  writeFile [b!"srv", b!"aaa", b!"x"] b!"hello"
  writeFile [b!"srv", b!"bbb", b!"y"] b!"world!"

/-- the file tree after `setup` -/
def fs : FS := (run cfg setup empty).2

theorem fs_wf : WF fs := run_wf cfg setup empty_wf

end S3.Sample
