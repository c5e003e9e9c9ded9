import Verif.Lemmas.Run
/-! Which errors a program can end with. -/
namespace S3
open Spec

variable {cfg : Cfg} {ext : Ext} {α β : Type} {D : Prop} {E : S3ErrorCode → Prop}

/-- the program can only fail with errors in `E`, never panics, and runs out of fuel only if `D` -/
def Ends (D : Prop) (E : S3ErrorCode → Prop) : Prog α → Prop
  | .ret _ => True
  | .fail e => E e
  | .panic => False
  | .diverge => D
  | .sys _ k => ∀ r, Ends D E (k r)

/-- the program can only fail with errors in `E`, and never panics -/
abbrev Fails (E : S3ErrorCode → Prop) : Prog α → Prop := Ends True E

theorem Ends.bind {p : Prog α} {f : α → Prog β} (h : Ends D E p) (hf : ∀ a, Ends D E (f a)) : Ends D E (p.bind f) := by
  induction p with
  | ret a => exact hf a
  | fail e => exact h
  | panic => exact h
  | diverge => exact h
  | sys c k ih => exact fun r => ih r (h r)

theorem Ends.mono {E' : S3ErrorCode → Prop} (he : ∀ e, E e → E' e) {p : Prog α} (h : Ends D E p) : Ends D E' p := by
  induction p with
  | fail e => exact he e h
  | sys c k ih => exact fun r => ih r (h r)
  | panic => exact h
  | diverge => exact h
  | _ => trivial

theorem Ends.weaken {D' : Prop} (hd : D → D') {p : Prog α} (h : Ends D E p) : Ends D' E p := by
  induction p with
  | fail e => exact h
  | sys c k ih => exact fun r => ih r (h r)
  | panic => exact h
  | diverge => exact hd h
  | _ => trivial

theorem Ends.run {p : Prog α} (h : Ends D E p) (fs : FS) :
    (∀ e, (run cfg p fs).1 = .err e → E e) ∧ (run cfg p fs).1 ≠ .panic := by
  induction p generalizing fs with
  | ret a => exact ⟨fun e he => (by cases he), fun he => by cases he⟩
  | fail e => exact ⟨fun e he => (by cases he; exact h), fun he => by cases he⟩
  | panic => exact h.elim
  | diverge => exact ⟨fun e he => (by cases he), fun he => by cases he⟩
  | sys c k ih => exact ih _ (h _) _

theorem Ends.call {c : Call} {f : Resp c → Prog β} (h : ∀ r, Ends D E (f r)) : Ends D E ((call c).bind f) := h

theorem Ends.orInternal (hE : E .InternalError) {o : Option α} {f : α → Prog β} (h : ∀ a, Ends D E (f a)) :
    Ends D E ((S3.orInternal o).bind f) := by
  cases o with
  | none => exact hE
  | some a => exact h a

theorem Ends.exists_ {p : OsPath} {f : Bool → Prog β} (h : ∀ r, Ends D E (f r)) : Ends D E ((exists_ p).bind f) :=
  fun r => h r.isSome

def IsInternal (e : S3ErrorCode) : Prop := e = .InternalError

variable (hE : E .InternalError)
include hE

theorem fails_requireDir (p : Path) : Ends D E (requireDir p) := by
  intro r
  match r with
  | some .dir => trivial
  | some (.file _) => exact hE
  | none => exact hE

theorem fails_createDirAllRev (l : List Bytes) : Ends D E (createDirAllRev l) := by
  induction l with
  | nil => intro r; cases r <;> trivial
  | cons c up ih =>
    intro r
    match r with
    | .ok => trivial
    | .failed => exact fails_requireDir hE _
    | .notFound =>
      refine Ends.bind (p := createDirAllRev up) ih fun _ => ?_
      refine Ends.call fun r => ?_
      match r with
      | .ok => trivial
      | .failed => exact fails_requireDir hE _
      | .notFound => exact fails_requireDir hE _

theorem fails_copyBytes (i : Ino) (off : Nat) (body : Body) : Ends D E (copyBytes i off body) := by
  induction body generalizing off with
  | nil => trivial
  | cons x rest ih =>
    cases x with
    | none => exact hE
    | some b =>
      simp only [copyBytes]
      split
      · exact ih _
      · refine Ends.call (c := .writeAt ..) fun r => ?_
        cases r with
        | false => exact hE
        | true => exact Ends.bind (ih _) fun _ => trivial

theorem fails_saveMetadata (b k : Bytes) (m : Meta) : Ends D E (saveMetadata cfg ext b k m) :=
  Ends.orInternal hE fun _ => Ends.call fun _ => Ends.orInternal hE fun _ => Ends.call (c := .writeAt ..) fun r => by
    cases r with
    | false => exact hE
    | true => trivial

theorem fails_saveOptional (b k : Bytes) (m : Option Meta) : Ends D E (saveOptional cfg ext b k m) := by
  cases m with
  | none => trivial
  | some m => exact fails_saveMetadata hE b k m

theorem fails_getMd5Sum (b k : Bytes) : Ends D E (getMd5Sum cfg ext b k) :=
  Ends.orInternal hE fun _ => Ends.call fun _ => Ends.orInternal hE fun _ => Ends.call fun _ =>
    Ends.orInternal hE fun _ => trivial

theorem fails_loadMetadata (b k : Bytes) : Ends D E (loadMetadata cfg ext b k) := by
  refine Ends.orInternal hE fun _ => Ends.exists_ fun r => ?_
  cases r with
  | false => trivial
  | true =>
    exact Ends.call fun _ => Ends.orInternal hE fun _ => Ends.call fun _ => Ends.orInternal hE fun _ =>
      Ends.orInternal hE fun _ => trivial

theorem fails_copyFile (s d : OsPath) : Ends D E (copyFile s d) := by
  refine Ends.call fun _ => Ends.orInternal hE fun h => ?_
  cases h with
  | dir => exact hE
  | file i => exact Ends.call fun _ => Ends.orInternal hE fun _ => Ends.call fun _ => Ends.orInternal hE fun _ =>
      Ends.call (c := .writeAt ..) fun r => by cases r <;> first | exact hE | trivial

end S3
