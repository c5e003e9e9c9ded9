import Verif.Model.Par
import Verif.Lemmas.Safe
/-! Rely/guarantee reasoning: `wp cfg R Q p fs` says that `p`, started on `fs` while other threads may
change the tree between its system calls as allowed by `R`, satisfies `Q` when it ends. -/
namespace S3
open Spec

def wp {α : Type} (cfg : Cfg) (R : FS → FS → Prop) (Q : Outcome α → FS → Prop) : Prog α → FS → Prop
  | .ret a, fs => ∀ fs', R fs fs' → WF fs' → Q (.ok a) fs'
  | .fail e, fs => ∀ fs', R fs fs' → WF fs' → Q (.err e) fs'
  | .panic, fs => ∀ fs', R fs fs' → WF fs' → Q .panic fs'
  | .diverge, fs => ∀ fs', R fs fs' → WF fs' → Q .diverge fs'
  | .sys c k, fs => ∀ fs', R fs fs' → WF fs' → wp cfg R Q (k (exec cfg fs' c).1) (exec cfg fs' c).2

/-- a relation that allows any number of steps of the others -/
structure Rely (R : FS → FS → Prop) : Prop where
  refl : ∀ fs, R fs fs
  trans : ∀ a b c, R a b → R b c → R a c

theorem rely_eq : Rely (fun a b : FS => a = b) := ⟨fun _ => rfl, fun _ _ _ => Eq.trans⟩

variable {α β : Type} {cfg : Cfg} {R : FS → FS → Prop}

theorem wp_rely (hR : Rely R) {Q : Outcome α → FS → Prop} {p : Prog α} {a b : FS} (h : wp cfg R Q p a)
    (hab : R a b) : wp cfg R Q p b := by
  cases p <;> exact fun fs' h' hw => h fs' (hR.trans _ _ _ hab h') hw

theorem wp_mono {Q Q' : Outcome α → FS → Prop} (hq : ∀ o fs, WF fs → Q o fs → Q' o fs) {p : Prog α}
    {fs : FS} (h : wp cfg R Q p fs) : wp cfg R Q' p fs := by
  induction p generalizing fs with
  | sys c k ih => exact fun fs' h' hw => ih _ (h fs' h' hw)
  | _ => exact fun fs' h' hw => hq _ _ hw (h fs' h' hw)

/-- postcondition that continues with `f` after a result -/
def wpThen (cfg : Cfg) (R : FS → FS → Prop) (Q : Outcome β → FS → Prop) (f : α → Prog β) :
    Outcome α → FS → Prop
  | .ok a, fs => wp cfg R Q (f a) fs
  | .err e, fs => Q (.err e) fs
  | .panic, fs => Q .panic fs
  | .diverge, fs => Q .diverge fs

theorem wp_bind (hR : Rely R) {Q : Outcome β → FS → Prop} {p : Prog α} {f : α → Prog β} {fs : FS}
    (hw : WF fs) (h : wp cfg R (wpThen cfg R Q f) p fs) : wp cfg R Q (p.bind f) fs := by
  induction p generalizing fs with
  | ret a => exact h fs (hR.refl _) hw
  | sys c k ih => exact fun fs' h' hw' => ih _ (exec_wf cfg hw' c) (h fs' h' hw')
  | _ => exact h

theorem wp_call {c : Call} {f : Resp c → Prog β} {Q : Outcome β → FS → Prop} {fs : FS}
    (h : ∀ fs', R fs fs' → WF fs' → wp cfg R Q (f (exec cfg fs' c).1) (exec cfg fs' c).2) :
    wp cfg R Q ((call c).bind f) fs := h

theorem wp_orInternal (_hR : Rely R) {o : Option α} {f : α → Prog β} {Q : Outcome β → FS → Prop} {fs : FS}
    (h1 : ∀ a, o = some a → wp cfg R Q (f a) fs)
    (h2 : o = none → ∀ fs', R fs fs' → WF fs' → Q (.err .InternalError) fs') :
    wp cfg R Q ((orInternal o).bind f) fs := by
  cases o with
  | none => exact h2 rfl
  | some a => exact h1 a rfl

theorem wp_ret (_hR : Rely R) {a : α} {Q : Outcome α → FS → Prop} {fs : FS}
    (h : ∀ fs', R fs fs' → WF fs' → Q (.ok a) fs') : wp cfg R Q (.ret a) fs := h

/-- the trivial postcondition always holds -/
theorem wp_true (p : Prog α) (fs : FS) {Q : Outcome α → FS → Prop} (h : ∀ o fs, WF fs → Q o fs) :
    wp cfg R Q p fs := by
  induction p generalizing fs with
  | sys c k ih => exact fun fs' _ _ => ih _ _
  | _ => exact fun fs' _ hw => h _ _ hw

/-- two postconditions -/
theorem wp_and {Q Q' : Outcome α → FS → Prop} {p : Prog α} {fs : FS} (h : wp cfg R Q p fs)
    (h' : wp cfg R Q' p fs) : wp cfg R (fun o fs => Q o fs ∧ Q' o fs) p fs := by
  induction p generalizing fs with
  | sys c k ih => exact fun fs' hr hw => ih _ (h fs' hr hw) (h' fs' hr hw)
  | _ => exact fun fs' hr hw => ⟨h fs' hr hw, h' fs' hr hw⟩

/-- less interference -/
theorem wp_anti {R' : FS → FS → Prop} (hR : ∀ a b, WF a → WF b → R' a b → R a b) {Q : Outcome α → FS → Prop} {p : Prog α}
    {fs : FS} (hw : WF fs) (h : wp cfg R Q p fs) : wp cfg R' Q p fs := by
  induction p generalizing fs with
  | sys c k ih => exact fun fs' hr hw' => ih _ (exec_wf cfg hw' c) (h fs' (hR _ _ hw hw' hr) hw')
  | _ => exact fun fs' hr hw' => h fs' (hR _ _ hw hw' hr) hw'

/-- an invariant of the environment and of the calls of the program holds at the end -/
theorem wp_inv {ok : Call → Prop} {Q0 : α → Prop} {p : Prog α} (hs : Safe ok Q0 p) {J : FS → Prop}
    (hJ : ∀ fs c, WF fs → J fs → ok c → J (exec cfg fs c).2) (hRJ : ∀ a b, R a b → J a → J b) {fs : FS}
    (h : J fs) {Q : Outcome α → FS → Prop} (hQ : ∀ o fs, J fs → (∀ a, o = .ok a → Q0 a) → Q o fs) :
    wp cfg R Q p fs := by
  induction p generalizing fs with
  | sys c k ih =>
    exact fun fs' h' hw => ih _ (hs.2 _ (exec_respOk cfg hw c)) (hJ _ _ hw (hRJ _ _ h' h) hs.1)
  | ret a => exact fun fs' h' hw => hQ _ _ (hRJ _ _ h' h) (fun b hb => by cases hb; exact hs)
  | _ => exact fun fs' h' hw => hQ _ _ (hRJ _ _ h' h) (fun b hb => by cases hb)

/-- alone -/
theorem wp_run {Q : Outcome α → FS → Prop} {p : Prog α} {fs : FS} (hw : WF fs)
    (h : wp cfg (fun a b => a = b) Q p fs) : Q (run cfg p fs).1 (run cfg p fs).2 := by
  induction p generalizing fs with
  | sys c k ih => exact ih _ (exec_wf cfg hw c) (h fs rfl hw)
  | _ => exact h fs rfl hw

/-- everything a schedule preserves -/
structure ParInv (cfg : Cfg) (α : Type) where
  R : Nat → FS → FS → Prop
  ok : Nat → Call → Prop
  Q : Nat → Outcome α → FS → Prop
  rely : ∀ i, Rely (R i)
  guar : ∀ i j fs c, i ≠ j → WF fs → ok j c → R i fs (exec cfg fs c).2

theorem stepProg_wf {p : Prog α} {fs : FS} (h : WF fs) : WF (stepProg cfg p fs).2 := by
  cases p with
  | sys c k => exact exec_wf cfg h c
  | _ => exact h

theorem runPar_wf {sched : List Nat} {ps : List (Prog α)} {fs : FS} (h : WF fs) :
    WF (runPar cfg sched ps fs).2 := by
  induction sched generalizing ps fs with
  | nil => exact h
  | cons i s ih =>
    simp only [runPar]
    split
    · exact ih h
    · exact ih (stepProg_wf h)

/-- Under every schedule, each thread keeps its `wp`. -/
theorem runPar_wp (I : ParInv cfg α) {sched : List Nat} {ps : List (Prog α)} {fs : FS} (hw : WF fs)
    (hs : ∀ i p, ps[i]? = some p → Safe (I.ok i) (fun _ => True) p)
    (hp : ∀ i p, ps[i]? = some p → wp cfg (I.R i) (I.Q i) p fs) :
    (∀ i p, (runPar cfg sched ps fs).1[i]? = some p →
      wp cfg (I.R i) (I.Q i) p (runPar cfg sched ps fs).2) := by
  induction sched generalizing ps fs with
  | nil => exact hp
  | cons i s ih =>
    simp only [runPar]
    split
    · exact ih hw hs hp
    · rename_i p hi
      have hlt : i < ps.length := (List.getElem?_eq_some_iff.mp hi).1
      have hstep : ∀ j, j ≠ i → I.R j fs (stepProg cfg p fs).2 := by
        intro j hj
        have := hs i p hi
        cases p with
        | sys c k => exact I.guar j i fs c hj hw this.1
        | _ => exact (I.rely j).refl _
      refine ih (stepProg_wf hw) ?_ ?_
      · intro j q hq
        by_cases hj : j = i
        · subst hj
          rw [List.getElem?_set_self hlt] at hq
          cases hq
          have := hs j p hi
          cases p with
          | sys c k => exact this.2 _ (exec_respOk cfg hw c)
          | _ => exact this
        · rw [List.getElem?_set_ne (fun e => hj e.symm)] at hq
          exact hs j q hq
      · intro j q hq
        by_cases hj : j = i
        · subst hj
          rw [List.getElem?_set_self hlt] at hq
          cases hq
          have := hp j p hi
          cases p with
          | sys c k => exact this fs ((I.rely j).refl _) hw
          | _ => exact this
        · rw [List.getElem?_set_ne (fun e => hj e.symm)] at hq
          exact wp_rely (I.rely j) (hp j q hq) (hstep j hj)

/-- a thread that has ended satisfies its postcondition, now and later -/
theorem wp_done {Q : Outcome α → FS → Prop} (hR : Rely R) {p : Prog α} {fs : FS} (hw : WF fs) (h : wp cfg R Q p fs)
    {o : Outcome α} (ho : p.outcome = some o) : Q o fs := by
  cases p <;> simp [Prog.outcome] at ho <;> subst ho <;> exact h fs (hR.refl _) hw

end S3
