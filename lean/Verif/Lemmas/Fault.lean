import Verif.Model.Fault
import Verif.Lemmas.OpFails
import Verif.Lemmas.OpSafe
import Verif.Lemmas.Run
import Verif.Lemmas.Crash
import Verif.Lemmas.DelCopy
/-! Reasoning about runs on a disk that may fail. -/
namespace S3
open Spec

variable {cfg : Cfg} {ext : Ext} {α β α' β' : Type}

theorem wf_foldl_eraseTree (p : Path) (rs : List Path) :
    ∀ {fs : FS}, WF fs → WF (rs.foldl (fun fs q => if p.isPrefixOf q then fs.eraseTree q else fs) fs) := by
  induction rs with
  | nil => exact fun h => h
  | cons q rs ih =>
    intro fs h
    refine ih ?_
    show WF (if p.isPrefixOf q then _ else _)
    split
    · exact h.eraseTree
    · exact h

theorem partial_wf {fs : FS} (h : WF fs) (n : Nat) (rs : List Path) (c : Call) : WF (partialEffect fs n rs c) := by
  cases c with
  | writeAt i off b =>
    simp only [partialEffect]
    split
    · exact h
    · exact h.data _
  | rmtree p =>
    simp only [partialEffect]
    split
    · split
      · exact wf_foldl_eraseTree _ _ h
      · exact h
    · exact h
  | _ => exact h

theorem execF_wf {fs : FS} (h : WF fs) (c : Call) (f : Fault) : WF (execF cfg fs c f).2 := by
  cases f with
  | none => exact exec_wf cfg h c
  | before => exact h
  | after => exact exec_wf cfg h c
  | during n rs => exact partial_wf h n rs c

theorem runF_wf (p : Prog α) : ∀ {o : Nat → Fault} {fs : FS}, WF fs → WF (runF cfg o p fs).2 := by
  induction p with
  | sys c k ih => intro o fs h; exact ih _ (execF_wf h c _)
  | _ => intro o fs h; exact h

theorem failed_respOk (c : Call) : respOk c (failed c) := by
  cases c <;> first | trivial | (intro i h; cases h)

theorem execF_respOk {fs : FS} (h : WF fs) (c : Call) (f : Fault) : respOk c (execF cfg fs c f).1 := by
  cases f with
  | none => exact exec_respOk cfg h c
  | _ => exact failed_respOk c

theorem foldl_frame {own up : Path → Prop} {p : Path} (h : ∀ q, p <+: q → own q) (_hne : p ≠ []) (rs : List Path) :
    ∀ fs : FS, Frame own up fs (rs.foldl (fun fs q => if p.isPrefixOf q then fs.eraseTree q else fs) fs) := by
  induction rs with
  | nil => exact fun fs => .refl ..
  | cons r rs ih =>
    intro fs
    refine Frame.trans ?_ (ih _)
    show Frame own up fs (if p.isPrefixOf r then _ else _)
    split
    · rename_i hr
      refine ⟨?_, fun _ _ => rfl, fun _ _ => rfl⟩
      intro q hq
      left
      rw [lookup_eraseTree]
      split
      · rename_i e; rw [e, lookup_nil]
      · split
        · rename_i e; exact absurd (h q ((isPrefixOf_iff.mp hr).trans (isPrefixOf_iff.mp e))) hq
        · rfl
    · exact .refl ..

theorem partial_frame {own up : Path → Prop} {fs : FS} {c : Call} (h : writeOk own up c) (n : Nat) (rs : List Path) :
    Frame own up fs (partialEffect fs n rs c) := by
  cases c with
  | writeAt i off b =>
    simp only [partialEffect]
    split
    · exact .refl ..
    · refine ⟨fun _ _ => Or.inl rfl, ?_, fun _ _ => rfl⟩
      intro j hj
      rw [data_setData]
      split
      · rename_i e; subst e; exact absurd h hj
      · rfl
  | rmtree p =>
    simp only [partialEffect]
    split
    · split
      · rename_i hne; exact foldl_frame h hne rs fs
      · exact .refl ..
    · exact .refl ..
  | _ => exact .refl ..

theorem execF_frame {own up : Path → Prop} {fs : FS} {c : Call} (hw : WF fs) (h : writeOk own up c) (f : Fault) :
    Frame own up fs (execF cfg fs c f).2 := by
  cases f with
  | none => exact exec_frame cfg hw h
  | before => exact .refl ..
  | after => exact exec_frame cfg hw h
  | during n rs => exact partial_frame h n rs

/-- an invariant of all allowed calls, failing or not, holds at every moment of the run -/
theorem Safe.invF {ok : Call → Prop} {Q : α → Prop} {p : Prog α} (h : Safe ok Q p) {J : FS → Prop}
    (hJ : ∀ fs c f, WF fs → J fs → ok c → J (execF cfg fs c f).2) {fs : FS} (hw : WF fs) (h0 : J fs) (o : Nat → Fault) (n : Nat) :
    J (runFN cfg o n p fs).2 := by
  induction n generalizing p fs o with
  | zero => cases p <;> exact h0
  | succ n ih =>
    cases p with
    | sys c k => exact ih (h.2 _ (execF_respOk hw c _)) (execF_wf hw c _) (hJ _ _ _ hw h0 h.1) _
    | _ => exact h0

theorem runF_end (p : Prog α) : ∀ (o : Nat → Fault) (fs : FS), ∃ n, (runFN cfg o n p fs).2 = (runF cfg o p fs).2 := by
  induction p with
  | sys c k ih =>
    intro o fs
    obtain ⟨n, h⟩ := ih (execF cfg fs c (o 0)).1 (fun n => o (n + 1)) (execF cfg fs c (o 0)).2
    exact ⟨n + 1, h⟩
  | _ => intro o fs; exact ⟨0, rfl⟩

theorem Ends.runF {D : Prop} {E : S3ErrorCode → Prop} {p : Prog α} (h : Ends D E p) : ∀ (o : Nat → Fault) (fs : FS),
    (∀ e, (S3.runF cfg o p fs).1 = .err e → E e) ∧ (S3.runF cfg o p fs).1 ≠ .panic ∧ ((S3.runF cfg o p fs).1 = .diverge → D) := by
  induction p with
  | ret a => intro o fs; exact ⟨(fun _ h => nomatch h), (fun h => nomatch h), (fun h => nomatch h)⟩
  | fail e => intro o fs; exact ⟨(fun _ h' => by cases h'; exact h), (fun h => nomatch h), (fun h => nomatch h)⟩
  | panic => exact h.elim
  | diverge => intro o fs; exact ⟨(fun _ h => nomatch h), (fun h => nomatch h), (fun _ => h)⟩
  | sys c k ih => intro o fs; exact ih _ (h _) _ _

/-! ### what holds when a run ends well -/

/-- if the run ends well whatever fails on the way, `Q` holds -/
def OkF (cfg : Cfg) (Q : α → FS → Prop) (p : Prog α) (fs : FS) : Prop :=
  ∀ o a fs', runF cfg o p fs = (.ok a, fs') → Q a fs'

/-- the program does not end well whatever the calls answer -/
def Never : Prog α → Prop
  | .ret _ => False
  | .sys _ k => ∀ r, Never (k r)
  | _ => True

theorem Never.okF {Q : α → FS → Prop} {p : Prog α} (h : Never p) {fs : FS} : OkF cfg Q p fs := by
  induction p generalizing fs with
  | ret a => exact h.elim
  | sys c k ih => intro o a fs' hr; exact ih _ (h _) _ _ _ hr
  | _ => intro o a fs' hr; cases hr

theorem Never.bind {p : Prog α} (h : Never p) {f : α → Prog β} : Never (p.bind f) := by
  induction p with
  | ret a => exact h.elim
  | sys c k ih => intro r; exact ih _ (h _)
  | _ => trivial

theorem OkF.ret {Q : α → FS → Prop} {a : α} {fs : FS} (h : Q a fs) : OkF cfg Q (.ret a) fs := by
  intro o b fs' hr; cases hr; exact h

theorem OkF.fail {Q : α → FS → Prop} {e : S3ErrorCode} {fs : FS} : OkF cfg Q (.fail e : Prog α) fs := by
  intro o b fs' hr; cases hr

theorem OkF.bind {Q : α → FS → Prop} {R : β → FS → Prop} {p : Prog α} {f : α → Prog β} {fs : FS} (h : OkF cfg Q p fs)
    (hf : ∀ a fs1, Q a fs1 → OkF cfg R (f a) fs1) : OkF cfg R (p.bind f) fs := by
  induction p generalizing fs with
  | ret a => exact hf a fs (h (fun _ => .none) a fs rfl)
  | sys c k ih =>
    intro o b fs' hr
    refine ih _ (fs := (execF cfg fs c (o 0)).2) ?_ _ _ _ hr
    intro o' a fs1 h1
    exact h (fun n => match n with | 0 => o 0 | n + 1 => o' n) a fs1 h1
  | _ => intro o b fs' hr; cases hr

theorem OkF.mono {Q Q' : α → FS → Prop} (hq : ∀ a fs, Q a fs → Q' a fs) {p : Prog α} {fs : FS} (h : OkF cfg Q p fs) : OkF cfg Q' p fs :=
  fun o a fs' hr => hq _ _ (h o a fs' hr)

theorem OkF.sys {Q : α → FS → Prop} {c : Call} {k : Resp c → Prog α} {fs : FS}
    (h : ∀ f, OkF cfg Q (k (execF cfg fs c f).1) (execF cfg fs c f).2) : OkF cfg Q (.sys c k) fs :=
  fun o a fs' hr => h (o 0) _ a fs' hr

/-- a call whose failure is not ignored -/
theorem OkF.call {Q : β → FS → Prop} {c : Call} {k : Resp c → Prog β} {fs : FS} (hn : Never (k (failed c)))
    (h : OkF cfg Q (k (exec cfg fs c).1) (exec cfg fs c).2) : OkF cfg Q ((call c).bind k) fs := by
  refine OkF.sys fun f => ?_
  cases f with
  | none => exact h
  | _ => exact hn.okF

theorem OkF.orInternal {Q : β → FS → Prop} {o : Option α} {f : α → Prog β} {fs : FS} (h : ∀ a, o = some a → OkF cfg Q (f a) fs) :
    OkF cfg Q ((orInternal o).bind f) fs := by
  cases o with
  | none => exact OkF.fail
  | some a => exact h a rfl

/-- Whenever `q` ends well on a failing disk, `p` ends well on a sound one, with the same file tree and a related result. -/
def Hon (cfg : Cfg) (R : α → α' → Prop) (p : Prog α) (q : Prog α') : Prop :=
  ∀ fs, WF fs → OkF cfg (fun a' fs' => ∃ a, run cfg p fs = (.ok a, fs') ∧ R a a') q fs

theorem Hon.ret {R : α → α' → Prop} {a : α} {a' : α'} (h : R a a') : Hon cfg R (.ret a) (.ret a') :=
  fun _ _ => OkF.ret ⟨a, rfl, h⟩

theorem Hon.never {R : α → α' → Prop} {p : Prog α} {q : Prog α'} (h : Never q) : Hon cfg R p q := fun _ _ => h.okF

theorem Hon.bind {R : α → α' → Prop} {S : β → β' → Prop} {p : Prog α} {q : Prog α'} {f : α → Prog β} {g : α' → Prog β'}
    (h : Hon cfg R p q) (hf : ∀ a a', R a a' → Hon cfg S (f a) (g a')) : Hon cfg S (p.bind f) (q.bind g) := by
  intro fs hw
  refine OkF.bind (h fs hw) ?_
  rintro a' fs1 ⟨a, hr, hR⟩
  have hw1 : WF fs1 := run_wf_of hr hw
  refine (hf a a' hR fs1 hw1).mono ?_
  rintro b' fs' ⟨b, hb, hS⟩
  refine ⟨b, ?_, hS⟩
  rw [run_bind, hr]
  exact hb

theorem Hon.call {R : β → β' → Prop} {c : Call} {k : Resp c → Prog β} {k' : Resp c → Prog β'} (hn : Never (k' (failed c)))
    (h : ∀ r, Hon cfg R (k r) (k' r)) : Hon cfg R ((call c).bind k) ((call c).bind k') := by
  intro fs hw
  exact OkF.call hn ((h _ _ (exec_wf cfg hw c)).mono fun b' fs' ⟨b, hb, hR⟩ => ⟨b, hb, hR⟩)

theorem Hon.orInternal {R : β → β' → Prop} {o : Option α} {f : α → Prog β} {g : α → Prog β'} (h : ∀ a, Hon cfg R (f a) (g a)) :
    Hon cfg R ((orInternal o).bind f) ((orInternal o).bind g) := by
  cases o with
  | none => exact Hon.never trivial
  | some a => exact h a

end S3
