import Verif.Lemmas.Wp
import Verif.Lemmas.ReadOnly
/-! A program that uses only a region of the file tree which nobody else changes does what it does alone. -/
namespace S3
open Spec

/-- two trees are the same on a region: nodes, contents, and the identity of files created next -/
structure Match (Z : Path → Prop) (a b : FS) : Prop where
  look : ∀ q, Z q → a.lookup q = b.lookup q
  data : ∀ i : Ino, Z i.path → a.data i = b.data i
  gen : ∀ q, Z q → a.gen q = b.gen q

theorem Match.refl (Z : Path → Prop) (a : FS) : Match Z a a := ⟨fun _ _ => rfl, fun _ _ => rfl, fun _ _ => rfl⟩

theorem Match.symm {Z : Path → Prop} {a b : FS} (h : Match Z a b) : Match Z b a :=
  ⟨fun q hq => (h.look q hq).symm, fun i hi => (h.data i hi).symm, fun q hq => (h.gen q hq).symm⟩

theorem Match.trans {Z : Path → Prop} {a b c : FS} (h : Match Z a b) (h' : Match Z b c) : Match Z a c :=
  ⟨fun q hq => (h.look q hq).trans (h'.look q hq), fun i hi => (h.data i hi).trans (h'.data i hi),
   fun q hq => (h.gen q hq).trans (h'.gen q hq)⟩

theorem Match.content {Z : Path → Prop} {a b : FS} (hw : WF a) (h : Match Z a b) {q : Path} (hq : Z q) : contentAt a q = contentAt b q := by
  simp only [contentAt, ← h.look q hq]
  split
  · rename_i i hi
    rw [h.data i (by rw [(hw.ino _ _ hi).1]; exact hq)]
  · rfl

/-- calls whose answer and effect lie in the region -/
def localCall (Z : Path → Prop) : Call → Prop
  | .stat p => Z p.comps
  | .openRead p => Z p.comps
  | .fstat (.file i) => Z i.path
  | .readAll (.file i) => Z i.path
  | .readAt (.file i) .. => Z i.path
  | .fstat .dir => True
  | .readAll .dir => True
  | .readAt .dir .. => True
  | .mkdir p => Z p ∧ Z p.dropLast
  | .create p => Z p.comps ∧ Z p.comps.dropLast
  | .writeAt i _ _ => Z i.path
  | .unlink p => Z p.comps
  | _ => False

theorem Match.set {Z : Path → Prop} {a b : FS} (h : Match Z a b) (p : Path) (n : Node) : Match Z (a.set p n) (b.set p n) := by
  refine ⟨fun q hq => ?_, h.data, h.gen⟩
  rw [lookup_set, lookup_set, h.look q hq]

theorem Match.erase {Z : Path → Prop} {a b : FS} (h : Match Z a b) (p : Path) : Match Z (a.erase p) (b.erase p) := by
  refine ⟨fun q hq => ?_, h.data, h.gen⟩
  rw [lookup_erase, lookup_erase, h.look q hq]

theorem Match.setData {Z : Path → Prop} {a b : FS} (h : Match Z a b) (i : Ino) (x : Bytes) : Match Z (a.setData i x) (b.setData i x) := by
  refine ⟨h.look, fun j hj => ?_, h.gen⟩
  simp only [FS.setData]
  split
  · rfl
  · exact h.data j hj

theorem Match.bump {Z : Path → Prop} {a b : FS} (h : Match Z a b) (p : Path) : Match Z (a.bump p) (b.bump p) := by
  refine ⟨h.look, h.data, fun q hq => ?_⟩
  simp only [FS.bump]
  split
  · rw [h.gen q hq]
  · exact h.gen q hq

theorem exec_match (cfg : Cfg) {Z : Path → Prop} {a b : FS} (hw : WF b) (h : Match Z a b) {c : Call} (hc : localCall Z c) :
    (exec cfg a c).1 = (exec cfg b c).1 ∧ Match Z (exec cfg a c).2 (exec cfg b c).2 := by
  have hat : ∀ p : OsPath, Z p.comps → a.at p = b.at p := by
    intro p hp; simp only [FS.at, h.look _ hp]
  cases c with
  | stat p =>
    refine ⟨?_, h⟩
    simp only [exec, hat p hc]
    split <;> try rfl
    rename_i i hi
    have := (hw.ino _ _ (at_file hi).1).1
    rw [h.data i (by rw [this]; exact hc)]
  | openRead p => refine ⟨?_, h⟩; simp only [exec, hat p hc]
  | fstat x =>
    cases x with
    | dir => exact ⟨rfl, h⟩
    | file i => refine ⟨?_, h⟩; simp only [exec, h.data i hc]
  | readAll x =>
    cases x with
    | dir => exact ⟨rfl, h⟩
    | file i => refine ⟨?_, h⟩; simp only [exec, h.data i hc]
  | readAt x =>
    cases x with
    | dir => exact ⟨rfl, h⟩
    | file i => refine ⟨?_, h⟩; simp only [exec, h.data i hc]
  | mkdir p =>
    simp only [exec, h.look _ hc.1, h.look _ hc.2]
    split; · exact ⟨rfl, h⟩
    split; · exact ⟨rfl, h⟩
    split; · exact ⟨rfl, h⟩
    · exact ⟨rfl, h⟩
    split; · exact ⟨rfl, h⟩
    split
    · exact ⟨rfl, h.set _ _⟩
    · exact ⟨rfl, h⟩
  | create p =>
    simp only [exec, h.look _ hc.1, h.look _ hc.2, h.gen _ hc.1]
    split; · exact ⟨rfl, h⟩
    split; · exact ⟨rfl, h⟩
    split
    · exact ⟨rfl, h⟩
    · exact ⟨rfl, h.setData _ _⟩
    split
    · split
      · exact ⟨rfl, ((h.set _ _).setData _ _).bump _⟩
      · exact ⟨rfl, h⟩
    · exact ⟨rfl, h⟩
  | writeAt i off x =>
    refine ⟨rfl, ?_⟩
    simp only [exec, h.data i hc]
    exact h.setData _ _
  | unlink p =>
    simp only [exec, hat p hc]
    split
    · exact ⟨rfl, h.erase _⟩
    · exact ⟨rfl, h⟩
  | _ => exact hc.elim

theorem run_match (cfg : Cfg) {Z : Path → Prop} {α : Type} {Q : α → Prop} {p : Prog α} (hs : Safe (localCall Z) Q p) :
    ∀ {a b : FS}, WF b → Match Z a b → (run cfg p a).1 = (run cfg p b).1 ∧ Match Z (run cfg p a).2 (run cfg p b).2 := by
  induction p with
  | sys c k ih =>
    intro a b hw h
    obtain ⟨e, h'⟩ := exec_match cfg hw h hs.1
    simp only [run]
    rw [e]
    exact ih _ (hs.2 _ (exec_respOk cfg hw c)) (exec_wf cfg hw c) h'
  | _ => exact fun _ h => ⟨rfl, h⟩

/-- the directories of a set are there -/
def Dirs (U : Path → Prop) (fs : FS) : Prop := ∀ q, U q → fs.lookup q = some .dir

theorem exec_dirs (cfg : Cfg) {U Z : Path → Prop} {fs : FS} {c : Call} (hc : localCall Z c) (h : Dirs U fs) : Dirs U (exec cfg fs c).2 := by
  have hset : ∀ p n, (fs.lookup p = none) → Dirs U (fs.set p n) := by
    intro p n hp q hq
    rw [lookup_set]
    split; · rfl
    split
    · rename_i e; subst e; rw [h q hq] at hp; cases hp
    · exact h q hq
  cases c with
  | mkdir p =>
    simp only [exec]
    split; · exact h
    split; · exact h
    split; · exact h
    · exact h
    split
    · exact h
    · rename_i e
      split
      · exact hset _ _ e
      · exact h
  | create p =>
    simp only [exec]
    split; · exact h
    split; · exact h
    split
    · exact h
    · exact h
    rename_i e
    split
    · split
      · exact hset _ _ e
      · exact h
    · exact h
  | unlink p =>
    simp only [exec]
    split
    · rename_i i hi
      intro q hq
      rw [lookup_erase]
      split; · rfl
      split
      · rename_i e; subst e
        have := (at_file hi).1
        rw [h _ hq] at this; cases this
      · exact h q hq
    · exact h
  | rmdir p => exact hc.elim
  | rmtree p => exact hc.elim
  | readDir p => exact hc.elim
  | _ => exact h

/-- others keep the region as it is, as long as the directories of `U` are there, and keep these -/
def RegionRely (U Z : Path → Prop) (a b : FS) : Prop := Dirs U a → Dirs U b ∧ Match Z a b

theorem rely_region (U Z : Path → Prop) : Rely (RegionRely U Z) :=
  ⟨fun _ h => ⟨h, .refl _ _⟩, fun _ _ _ h1 h2 h => ⟨(h2 (h1 h).1).1, (h1 h).2.trans (h2 (h1 h).1).2⟩⟩

/-- **isolation** -/
theorem wp_isolated {cfg : Cfg} {U Z : Path → Prop} {α : Type} {Q0 : α → Prop} {p : Prog α} (hs : Safe (localCall Z) Q0 p) :
    ∀ {fs : FS}, WF fs → Dirs U fs →
      wp cfg (RegionRely U Z) (fun o fs' => o = (run cfg p fs).1 ∧ Match Z fs' (run cfg p fs).2) p fs := by
  induction p with
  | ret a => intro fs _ hd fs' hr _; exact ⟨rfl, (hr hd).2.symm⟩
  | fail e => intro fs _ hd fs' hr _; exact ⟨rfl, (hr hd).2.symm⟩
  | panic => intro fs _ hd fs' hr _; exact ⟨rfl, (hr hd).2.symm⟩
  | diverge => intro fs _ hd fs' hr _; exact ⟨rfl, (hr hd).2.symm⟩
  | sys c k ih =>
    intro fs hw hd fs' hr hw'
    obtain ⟨hd', hm⟩ := hr hd
    obtain ⟨e, h'⟩ := exec_match cfg hw' hm hs.1
    have hs' := hs.2 _ (exec_respOk cfg hw' c)
    refine wp_mono ?_ (ih _ hs' (exec_wf cfg hw' c) (exec_dirs cfg hs.1 hd'))
    rintro o fs2 _ ⟨h1, h2⟩
    have := run_match cfg hs' (exec_wf cfg hw' c) h'
    simp only [run]
    rw [e]
    exact ⟨h1.trans this.1.symm, h2.trans this.2.symm⟩

end S3
