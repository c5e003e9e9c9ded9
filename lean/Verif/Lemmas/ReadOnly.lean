import Verif.Lemmas.OpSafe
/-! Programs that only read some files do not depend on the rest. -/
namespace S3
open Spec

/-- two trees look the same at a path -/
structure SameAt (a b : FS) (p : Path) : Prop where
  look : a.lookup p = b.lookup p
  data : ∀ i : Ino, i.path = p → a.data i = b.data i

/-- calls that only read files out of a set -/
def readOk (rd : Path → Prop) : Call → Prop
  | .stat p => rd p.comps
  | .openRead p => rd p.comps
  | .fstat (.file i) => rd i.path
  | .readAll (.file i) => rd i.path
  | .readAt (.file i) .. => rd i.path
  | .fstat .dir => True
  | .readAll .dir => True
  | .readAt .dir .. => True
  | _ => False

theorem exec_readOk (cfg : Cfg) {rd : Path → Prop} {a b : FS} (_hwa : WF a) (hwb : WF b)
    (h : ∀ q, rd q → SameAt a b q)
    {c : Call} (hc : readOk rd c) : (exec cfg a c).1 = (exec cfg b c).1 ∧ (exec cfg a c).2 = a ∧
      (exec cfg b c).2 = b := by
  have hat : ∀ p : OsPath, rd p.comps → a.at p = b.at p := by
    intro p hp; simp only [FS.at, (h _ hp).look]
  cases c with
  | stat p =>
    refine ⟨?_, rfl, rfl⟩
    simp only [exec, hat p hc]
    split <;> try rfl
    rename_i i hi
    have := (hwb.ino _ _ (at_file hi).1).1
    rw [(h _ hc).data i this]
  | openRead p => refine ⟨?_, rfl, rfl⟩; simp only [exec, hat p hc]
  | fstat x =>
    cases x with
    | dir => exact ⟨rfl, rfl, rfl⟩
    | file i => refine ⟨?_, rfl, rfl⟩; simp only [exec, (h _ hc).data i rfl]
  | readAll x =>
    cases x with
    | dir => exact ⟨rfl, rfl, rfl⟩
    | file i => refine ⟨?_, rfl, rfl⟩; simp only [exec, (h _ hc).data i rfl]
  | readAt x =>
    cases x with
    | dir => exact ⟨rfl, rfl, rfl⟩
    | file i => refine ⟨?_, rfl, rfl⟩; simp only [exec, (h _ hc).data i rfl]
  | _ => exact hc.elim

theorem Safe.readOnly {α : Type} (cfg : Cfg) {rd : Path → Prop} {Q : α → Prop} {p : Prog α}
    (hs : Safe (readOk rd) Q p) {a b : FS} (hwa : WF a) (hwb : WF b) (h : ∀ q, rd q → SameAt a b q) :
    (run cfg p a).1 = (run cfg p b).1 := by
  induction p with
  | sys c k ih =>
    obtain ⟨e1, e2, e3⟩ := exec_readOk cfg hwa hwb h hs.1
    simp only [run]
    rw [e2, e3, e1]
    exact ih _ (hs.2 _ (exec_respOk cfg hwb c))
  | _ => rfl

theorem perm_read {π : Perm} (h1 : ∀ q, ¬ π.st q) (h2 : ∀ q, ¬ π.up q) (h3 : ∀ q, ¬ π.wr q)
    (h4 : ∀ q, ¬ π.del q) (h5 : ∀ q, ¬ π.rmd q) (h6 : ∀ q, ¬ π.tree q) (h7 : ∀ q, ¬ π.rdir q)
    (c : Call) (h : π.ok c) : readOk π.rd c := by
  cases c with
  | stat p => exact h.elim (fun h => (h1 _ h).elim) id
  | openRead p => exact h
  | fstat x => cases x <;> exact h
  | readAll x => cases x <;> exact h
  | readAt x => cases x <;> exact h
  | mkdir p => exact h2 _ h
  | create p => exact h3 _ h
  | writeAt i => exact h3 _ h
  | unlink p => exact h4 _ h
  | rmdir p => exact h5 _ h
  | rmtree p => exact h6 _ h
  | readDir p => exact h7 _ h

/-- GET and HEAD depend on the object file and the metadata file only -/
theorem get_local (cfg : Cfg) (ext : Ext) {b k : Bytes} (r : Option Bytes) (w : Nat → Nat) {x y : FS}
    (hx : WF x) (hy : WF y) (h : ∀ q, objP cfg b k q ∨ metaP cfg b k q → SameAt x y q) :
    (run cfg (opProg cfg ext (.getObject b k r w)) x).1 = (run cfg (opProg cfg ext (.getObject b k r w)) y).1 ∧
    (run cfg (opProg cfg ext (.headObject b k)) x).1 = (run cfg (opProg cfg ext (.headObject b k)) y).1 := by
  constructor
  · refine Safe.readOnly cfg ((op_safe cfg ext (.getObject b k r w)).mono (perm_read ?_ ?_ ?_ ?_ ?_ ?_ ?_)
      (fun _ h => h)) hx hy h <;> exact fun _ h => h
  · refine Safe.readOnly cfg ((op_safe cfg ext (.headObject b k)).mono (perm_read ?_ ?_ ?_ ?_ ?_ ?_ ?_)
      (fun _ h => h)) hx hy h <;> exact fun _ h => h

/-- the paths an operation may create, write or remove -/
def opOwn (cfg : Cfg) (o : Op) (q : Path) : Prop :=
  (opPerm cfg o).wr q ∨ (opPerm cfg o).del q ∨ (opPerm cfg o).rmd q

theorem op_frame (cfg : Cfg) (ext : Ext) (o : Op) (ht : ∀ q, ¬ (opPerm cfg o).tree q) {fs : FS} (hw : WF fs) :
    Frame (opOwn cfg o) (opPerm cfg o).up fs (run cfg (opProg cfg ext o) fs).2 := by
  refine Safe.frame cfg ((op_safe cfg ext o).mono (fun c h => ?_) (fun _ h => h)) hw
  cases c with
  | mkdir p => exact Or.inl h
  | create p => exact Or.inl h
  | writeAt i => exact Or.inl h
  | unlink p => exact Or.inr (Or.inl h)
  | rmdir p => exact Or.inr (Or.inr h)
  | rmtree p => exact (ht _ h).elim
  | _ => trivial

theorem frame_content {own up : Path → Prop} {a b : FS} (hw : WF a) (h : Frame own up a b) {q : Path}
    (hq : ¬ own q) : contentAt b q = contentAt a q := by
  rcases h.node q hq with e | ⟨_, h1, h2⟩
  · simp only [contentAt, e]
    split
    · rename_i i hi
      rw [h.data i (by rw [(hw.ino _ _ hi).1]; exact hq)]
    · rfl
  · simp [contentAt, h1, h2]

theorem frame_same {own up : Path → Prop} {a b : FS} (h : Frame own up a b) {q : Path}
    (hq : ¬ own q) (hu : ¬ up q ∨ a.lookup q ≠ none) : SameAt b a q := by
  refine ⟨?_, fun i hi => h.data i (by rw [hi]; exact hq)⟩
  rcases h.node q hq with e | ⟨hup, h1, _⟩
  · exact e
  · rcases hu with hu | hu
    · exact (hu hup).elim
    · exact (hu h1).elim

end S3
