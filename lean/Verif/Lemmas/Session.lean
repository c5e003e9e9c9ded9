import Verif.Spec.Session
import Verif.Props.Isolated
import Verif.Props.Client
import Verif.Lemmas.Fair
/-! Conversations: which calls they make, and how they end. -/
namespace S3
open Spec

variable {cfg : Cfg} {ext : Ext} {lib : Lib} {auth : Option Provider}

theorem Safe.catch {α : Type} {ok : Call → Prop} {Q : α → Prop} {p : Prog α} {k : S3ErrorCode → Prog α} (h : Safe ok Q p)
    (hk : ∀ e, Safe ok Q (k e)) : Safe ok Q (p.catch k) := by
  induction p with
  | sys c f ih => exact ⟨h.1, fun r hr => ih r (h.2 r hr)⟩
  | fail e => exact hk e
  | ret a => exact h
  | panic => trivial
  | diverge => trivial

theorem Safe.finish {α β : Type} {ok : Call → Prop} {p : Prog α} {K : α → Prog β} {k : S3ErrorCode → Prog β} (h : Safe ok (fun _ => True) p)
    (hK : ∀ a, ∃ b, K a = .ret b) (hk : ∀ e, ∃ b, k e = .ret b) : Safe ok (fun _ => True) (S3.finish K k p) :=
  Safe.catch (h.bind fun a _ => by obtain ⟨b, e⟩ := hK a; rw [e]; trivial) fun e => by obtain ⟨b, h⟩ := hk e; rw [h]; trivial

theorem respond_safe {ok : Call → Prop} (h : Handler) (a : Answer) : Safe ok (fun _ => True) (respond h a) := by
  unfold respond
  split <;> trivial

/-- the calls made for a request -/
theorem request_safe {P : Op → Prop} {e : Exchange} (h : AsksIn cfg ext lib auth P e) :
    Safe (fun c => ∃ o, P o ∧ (opPerm cfg o).ok c) (fun _ => True) (hyperCall cfg ext lib auth e.env e.texts e.req) := by
  obtain ⟨K, hK, hc⟩ := hyperCall_eq cfg ext lib auth e.env e.texts e.req
  rw [hc]
  refine Safe.finish ?_ (fun a => (hK a).imp fun _ h => h.1) (errorResponse_ret e.texts)
  rcases h with ⟨o, ho, c, hc, hr⟩ | ⟨err, he⟩
  · rw [handle_ok hc, dispatch_requests (ready_of_admit hc) hr]
    exact Safe.bind ((op_safe cfg ext o).mono (fun c hc => ⟨o, ho, hc⟩) fun _ h => h) fun a _ => respond_safe _ a
  · rw [he]; trivial

/-- the calls made for a client -/
theorem conversation_safe {P : Op → Prop} {c : Client} (h : c.Sends (AsksIn cfg ext lib auth P)) :
    Safe (fun c => ∃ o, P o ∧ (opPerm cfg o).ok c) (fun _ => True) (conversation cfg ext lib auth c) := by
  induction c with
  | stop => trivial
  | send e next ih =>
    exact Safe.bind (request_safe h.1) fun res _ => Safe.bind (ih res (h.2 res)) fun _ _ => trivial

theorem ends_terminates {α : Type} {E : S3ErrorCode → Prop} {p : Prog α} (h : Ends False E p) (fs : FS) : (run cfg p fs).1 ≠ .diverge := by
  induction p generalizing fs with
  | sys c k ih => exact ih _ (h _) _
  | diverge => exact h.elim
  | _ => nofun

/-- a request about objects has a response -/
theorem request_responds {P : Op → Prop} (hP : ∀ o, P o → AboutObjects o) {e : Exchange} (h : AsksIn cfg ext lib auth P e) (fs : FS) :
    ∃ res, responded cfg ext lib auth e.env e.texts e.req fs = .ok res := by
  obtain ⟨K, hK, hc⟩ := hyperCall_eq cfg ext lib auth e.env e.texts e.req
  rw [responded, hc]
  obtain ⟨_, f1, f2⟩ := finish_run (cfg := cfg) (fun a => (hK a).imp fun _ h => h.1) (errorResponse_ret e.texts) (handle cfg ext lib auth e.env e.req) fs
  have done : ∀ p, p = handle cfg ext lib auth e.env e.req → Ends False (fun _ => True) p → ∃ res, (run cfg (finish K (errorResponse e.texts)
      (handle cfg ext lib auth e.env e.req)) fs).1 = .ok res := by
    rintro p rfl hp
    have hr := hp.run (cfg := cfg) fs
    have hd := ends_terminates (cfg := cfg) hp fs
    cases ho : (run cfg (handle cfg ext lib auth e.env e.req) fs).1 with
    | ok a => obtain ⟨b, hb, _⟩ := hK a; exact ⟨b, f1 a b ho hb⟩
    | err x => obtain ⟨b, hb⟩ := errorResponse_ret e.texts x; exact ⟨b, f2 x b ho hb⟩
    | panic => exact absurd ho hr.2
    | diverge => exact absurd ho hd
  rcases h with ⟨o, ho, c, hc, hr⟩ | ⟨err, he⟩
  · have hl : o.lists = false := by
      have := (hP o ho).2.2
      cases o <;> simp only at this <;> rfl
    refine done _ (by rw [handle_ok hc, dispatch_requests (ready_of_admit hc) hr]) (Ends.bind (E := fun _ => True) (D := False) ?_ fun a => ?_)
    · exact ((ends_op cfg ext o).weaken (by simp [hl])).mono fun _ _ => trivial
    · unfold respond; split <;> trivial
  · exact done _ he.symm trivial

/-- a client alone: the conversation, and the tree after it -/
theorem conversation_alone {P : Op → Prop} (hP : ∀ o, P o → AboutObjects o) {c : Client} (h : c.Sends (AsksIn cfg ext lib auth P)) (fs : FS) :
    ∃ t, run cfg (conversation cfg ext lib auth c) fs = (.ok t, afterExchanges cfg ext lib auth (t.map (·.1)) fs) ∧
      Alone cfg ext lib auth c fs t := by
  induction c generalizing fs with
  | stop => exact ⟨[], rfl, .stop⟩
  | send e next ih =>
    obtain ⟨res, hres⟩ := request_responds hP h.1 fs
    obtain ⟨t, h1, h2⟩ := ih res (h.2 res) (afterResponded cfg ext lib auth e.env e.texts e.req fs)
    refine ⟨(e, res) :: t, ?_, .send hres h2⟩
    have hr : run cfg (hyperCall cfg ext lib auth e.env e.texts e.req) fs = (.ok res, afterResponded cfg ext lib auth e.env e.texts e.req fs) :=
      Prod.ext hres rfl
    rw [conversation, run_bind, hr]
    show run cfg ((conversation cfg ext lib auth (next res)).bind fun t => .ret ((e, res) :: t)) _ = _
    rw [run_bind, h1]
    rfl

theorem alone_split {c : Client} {fs : FS} {t t1 t2 : List (Exchange × Response)} {e : Exchange} {res : Response}
    (h : Alone cfg ext lib auth c fs t) (ht : t = t1 ++ (e, res) :: t2) :
    responded cfg ext lib auth e.env e.texts e.req (afterExchanges cfg ext lib auth (t1.map (·.1)) fs) = .ok res := by
  induction h generalizing t1 with
  | stop => cases t1 <;> cases ht
  | @send e' next fs res' t h1 h2 ih =>
    cases t1 with
    | nil => cases ht; exact h1
    | cons x t1 =>
      simp only [List.cons_append, List.cons.injEq] at ht
      obtain ⟨rfl, rfl⟩ := ht
      exact ih rfl

/-- a thread among threads whose calls keep `R` -/
theorem crowd_progs {α : Type} {R : FS → FS → Prop} (hR : Rely R) {Q : Outcome α → FS → Prop} {ps : List (Prog α)} {i : Nat} {p : Prog α}
    (hi : ps[i]? = some p)
    (hg : ∀ (j : Nat) p', j ≠ i → ps[j]? = some p' → Safe (fun c => ∀ fs, WF fs → R fs (exec cfg fs c).2) (fun _ => True) p')
    {ok : Call → Prop} (hs : Safe ok (fun _ => True) p)
    {fs : FS} (hw : WF fs) (hp : wp cfg R Q p fs) (sched : List Nat) {r : Outcome α}
    (h : (runPar cfg sched ps fs).1[i]?.bind Prog.outcome = some r) :
    Q r (runPar cfg sched ps fs).2 := by
  let I : ParInv cfg α :=
    { R := fun j => if j = i then R else fun _ _ => True
      ok := fun j c => if j = i then ok c else ∀ fs, WF fs → R fs (exec cfg fs c).2
      Q := fun j => if j = i then Q else fun _ _ => True
      rely := by
        intro j
        by_cases e : j = i
        · simpa [e] using hR
        · simp only [e, if_false]; exact ⟨fun _ => trivial, fun _ _ _ _ _ => trivial⟩
      guar := by
        intro j j' fs c hne hwf hok
        by_cases e : j = i
        · subst e
          simp only [if_true]
          rw [if_neg (fun e => hne e.symm)] at hok
          exact hok fs hwf
        · simp only [e, if_false] }
  have key := runPar_wp I (sched := sched) (ps := ps) hw
    (by
      intro j p' hj
      by_cases e : j = i
      · subst e
        rw [hi] at hj
        cases hj
        exact hs.mono (fun c hc => by show if _ then _ else _; rwa [if_pos rfl]) fun _ h => h
      · exact (hg j p' e hj).mono (fun c hc => by show if _ then _ else _; rwa [if_neg e]) fun _ h => h)
    (by
      intro j p' hj
      show wp cfg (if j = i then R else fun _ _ => True) (if j = i then Q else fun _ _ => True) p' fs
      by_cases e : j = i
      · subst e
        rw [hi] at hj
        cases hj
        simpa using hp
      · simp only [e, if_false]
        exact wp_true p' fs fun _ _ _ => trivial)
  obtain ⟨p', hpp, ho⟩ := Option.bind_eq_some_iff.mp h
  have hq := key i p' hpp
  simp only [I, if_true] at hq
  have hwf : WF (runPar cfg sched ps fs).2 := runPar_wf hw
  cases p' <;> simp only [Prog.outcome, Option.some.injEq, reduceCtorEq] at ho <;> subst ho <;> exact hq _ (hR.refl _) hwf

/-- the paths of several requests -/
def regions (cfg : Cfg) (P : Op → Prop) (q : Path) : Prop := ∃ o, P o ∧ region cfg o q
def upRegions (cfg : Cfg) (P : Op → Prop) (q : Path) : Prop := ∃ o, P o ∧ upRegion cfg o q

theorem localCall_mono {Z Z' : Path → Prop} (h : ∀ q, Z q → Z' q) {c : Call} (hc : localCall Z c) : localCall Z' c := by
  cases c with
  | fstat x => cases x with
    | dir => trivial
    | file i => exact h _ hc
  | readAll x => cases x with
    | dir => trivial
    | file i => exact h _ hc
  | readAt x => cases x with
    | dir => trivial
    | file i => exact h _ hc
  | mkdir p => exact ⟨h _ hc.1, h _ hc.2⟩
  | create p => exact ⟨h _ hc.1, h _ hc.2⟩
  | stat p => exact h _ hc
  | openRead p => exact h _ hc
  | writeAt i _ _ => exact h _ hc
  | unlink p => exact h _ hc
  | _ => exact hc

theorem elsewhere_keeps_all {P : Op → Prop} (hP : ∀ o, P o → AboutObjects o) {o' : Op} (h : ∀ o, P o → Elsewhere o o') {fs : FS} (hw : WF fs)
    {c : Call} (hc : (opPerm cfg o').ok c) : RegionRely (upRegions cfg P) (regions cfg P) fs (exec cfg fs c).2 := by
  intro hd
  have key := fun o ho => elsewhere_keeps (hP o ho) (h o ho) hw hc (fun q hq => hd q ⟨o, ho, hq⟩)
  exact ⟨fun q ⟨o, ho, hq⟩ => (key o ho).1 q hq, fun q ⟨o, ho, hq⟩ => (key o ho).2.look q hq, fun i ⟨o, ho, hq⟩ => (key o ho).2.data i hq,
    fun q ⟨o, ho, hq⟩ => (key o ho).2.gen q hq⟩

end S3
