import Verif.Lemmas.Pieces
import Verif.Lemmas.PutOk
import Verif.Lemmas.Concerns
import Verif.Props.Pieces
/-! A request that first makes its folders, and then stays in a region nobody else changes. -/
namespace S3
open Spec

variable {cfg : Cfg} {ext : Ext} {lib : Lib} {auth : Option Provider} {α β : Type}

/-- calls that are not taken apart -/
def solid : Call → Prop
  | .mkdir _ => True
  | .stat _ => True
  | _ => False

/-- a program that begins with a solid call is not taken apart there -/
theorem pieces_solid {c : Call} (hc : solid c) {k : Resp c → Prog β} {q : Prog β} (h : InPieces (.sys c k) q) :
    ∃ k', q = .sys c k' ∧ ∀ r, InPieces (k r) (k' r) := by
  cases c <;> first | exact hc.elim | skip
  all_goals
    unfold InPieces at h
    cases h
    exact ⟨_, rfl, by assumption⟩

/-- The thread `n` first does `s`, which consists of solid calls and ends well whatever the others do meanwhile; so whenever it is
finished, there was a moment at which it had just done `s`. -/
theorem phase {R : FS → FS → Prop} (hR : Rely R) {n : Nat} {ok : Nat → Call → Prop}
    (hg : ∀ j fs c f, j ≠ n → WF fs → ok j c → R fs (execF cfg fs c f).2) {F : Prog α → Prog β}
    (hF : ∀ c k, F (.sys c k) = .sys c fun r => F (k r)) {g : Unit → Prog α} {Q : Outcome Unit → FS → Prop}
    (hQ : ∀ o fs, Q o fs → o = .ok ()) {r : Outcome β} (steps : List (Nat × Fault)) :
    ∀ {ps : List (Prog β)} {q : Prog β} {s : Prog Unit} {a : FS}, WF a →
      (∀ (j : Nat) p, j ≠ n → ps[j]? = some p → Safe (ok j) (fun _ => True) p) → ps[n]? = some q → InPieces (F (s.bind g)) q →
      Safe solid (fun _ => True) s → wp cfg R Q s a → (∀ f, (n, f) ∈ steps → f = .none) →
      ((runParF cfg steps ps a).1[n]?).bind Prog.outcome = some r →
      ∃ steps' ps' q' a', runParF cfg steps ps a = runParF cfg steps' ps' a' ∧ (∀ x ∈ steps', x ∈ steps) ∧ WF a' ∧ Q (.ok ()) a' ∧
        (∀ (j : Nat) p, j ≠ n → ps'[j]? = some p → Safe (ok j) (fun _ => True) p) ∧ ps'[n]? = some q' ∧ InPieces (F (g ())) q' := by
  induction steps with
  | nil =>
    intro ps q s a hw hs hq hp hsol hwp _ hr
    cases s with
    | ret u => exact ⟨[], ps, q, a, rfl, fun _ h => h, hw, hwp a (hR.refl _) hw, hs, hq, hp⟩
    | sys c k =>
      rw [show F ((Prog.sys c k).bind g) = .sys c fun r => F ((k r).bind g) from hF _ _] at hp
      obtain ⟨k', rfl, _⟩ := pieces_solid hsol.1 hp
      simp [runParF, hq, Prog.outcome] at hr
    | fail e => cases hQ _ _ (hwp a (hR.refl _) hw)
    | panic => cases hQ _ _ (hwp a (hR.refl _) hw)
    | diverge => cases hQ _ _ (hwp a (hR.refl _) hw)
  | cons x steps ih =>
    obtain ⟨j, f⟩ := x
    intro ps q s a hw hs hq hp hsol hwp hok hr
    cases s with
    | ret u => exact ⟨_, ps, q, a, rfl, fun _ h => h, hw, hwp a (hR.refl _) hw, hs, hq, hp⟩
    | fail e => cases hQ _ _ (hwp a (hR.refl _) hw)
    | panic => cases hQ _ _ (hwp a (hR.refl _) hw)
    | diverge => cases hQ _ _ (hwp a (hR.refl _) hw)
    | sys c k =>
      have hok' : ∀ f, (n, f) ∈ steps → f = .none := fun f h => hok f (List.mem_cons_of_mem _ h)
      have more : ∀ {st : List (Nat × Fault)}, (∀ x ∈ st, x ∈ steps) → ∀ x ∈ st, x ∈ (j, f) :: steps :=
        fun h x hx => List.mem_cons_of_mem _ (h x hx)
      rw [show F ((Prog.sys c k).bind g) = .sys c fun r => F ((k r).bind g) from hF _ _] at hp
      obtain ⟨k', rfl, hk'⟩ := pieces_solid hsol.1 hp
      simp only [runParF] at hr ⊢
      cases hj : ps[j]? with
      | none =>
        simp only [hj] at hr ⊢
        obtain ⟨st, ps', q', a', h1, h2, h3⟩ := ih (s := .sys c k) hw hs hq (by
          rw [show F ((Prog.sys c k).bind g) = .sys c fun r => F ((k r).bind g) from hF _ _]; exact hp) hsol hwp hok' hr
        exact ⟨st, ps', q', a', h1, more h2, h3⟩
      | some p =>
        simp only [hj] at hr ⊢
        have hlt : j < ps.length := (List.getElem?_eq_some_iff.mp hj).1
        by_cases e : j = n
        · subst e
          rw [hq] at hj
          cases hj
          obtain rfl := hok f (List.mem_cons_self ..)
          obtain ⟨st, ps', q', a', h1, h2, h3⟩ := ih (s := k (exec cfg a c).1) (exec_wf cfg hw c) (fun i p hi hp => by
              rw [List.getElem?_set_ne (fun e => hi e.symm)] at hp
              exact hs i p hi hp) (List.getElem?_set_self hlt) (hk' _) (hsol.2 _ (exec_respOk cfg hw c))
            (hwp a (hR.refl _) hw) hok' hr
          exact ⟨st, ps', q', a', h1, more h2, h3⟩
        · have hpj := hs j p e hj
          have hstep : R a (stepProgF cfg p f a).2 := by
            cases p with
            | sys c k => exact hg j a c f e hw hpj.1
            | _ => exact hR.refl _
          obtain ⟨st, ps', q', a', h1, h2, h3⟩ := ih (s := .sys c k) (stepProgF_wf hw) (fun i r hi hr => by
              by_cases hij : i = j
              · subst hij
                rw [List.getElem?_set_self hlt] at hr
                cases hr
                cases p with
                | sys c k => exact hpj.2 _ (execF_respOk hw c f)
                | _ => exact hpj
              · rw [List.getElem?_set_ne (fun e => hij e.symm)] at hr
                exact hs i r hi hr) (by rw [List.getElem?_set_ne e]; exact hq) (by
              rw [show F ((Prog.sys c k).bind g) = .sys c fun r => F ((k r).bind g) from hF _ _]; exact hp) hsol (wp_rely hR hwp hstep) hok' hr
          exact ⟨st, ps', q', a', h1, more h2, h3⟩

/-- the same alone -/
theorem run_phase {F : Prog α → Prog β} (hF : ∀ c k, F (.sys c k) = .sys c fun r => F (k r)) {g : Unit → Prog α} (s : Prog Unit) :
    ∀ {fs : FS}, (run cfg s fs).1 = .ok () → run cfg (F (s.bind g)) fs = run cfg (F (g ())) (run cfg s fs).2 := by
  induction s with
  | ret u => exact fun _ => rfl
  | sys c k ih =>
    intro fs h
    rw [show F ((Prog.sys c k).bind g) = .sys c fun r => F ((k r).bind g) from hF _ _]
    exact ih _ h
  | _ => intro fs h; cases h

theorem solid_requireDir (p : Path) : Safe solid (fun _ => True) (requireDir p) := by
  refine Safe.callBind trivial fun r _ => ?_
  split <;> trivial

theorem solid_createDirAllRev (l : List Bytes) : Safe solid (fun _ => True) (createDirAllRev l) := by
  induction l with
  | nil =>
    refine Safe.callBind trivial fun r _ => ?_
    cases r <;> trivial
  | cons c up ih =>
    refine Safe.callBind trivial fun r _ => ?_
    cases r with
    | ok => trivial
    | failed => exact solid_requireDir _
    | notFound =>
      refine ih.bind fun _ _ => Safe.callBind trivial fun r _ => ?_
      cases r <;> first | trivial | exact solid_requireDir _

/-- what comes after the first part of a safe program is safe -/
theorem safe_rest {ok : Call → Prop} {Q : α → Prop} {g : Unit → Prog α} {s : Prog Unit} (h : Safe ok Q (s.bind g)) :
    ∀ {fs : FS}, WF fs → (run cfg s fs).1 = .ok () → Safe ok Q (g ()) := by
  induction s with
  | ret u => exact fun _ _ => h
  | sys c k ih => exact fun hw hr => ih _ (h.2 _ (exec_respOk cfg hw c)) (exec_wf cfg hw c) hr
  | _ => intro fs _ hr; cases hr

theorem run_dirs {U Z : Path → Prop} {p : Prog α} (hs : Safe (localCall Z) (fun _ => True) p) : ∀ {fs : FS}, WF fs → Dirs U fs → Dirs U (run cfg p fs).2 := by
  induction p with
  | sys c k ih => exact fun hw h => ih _ (hs.2 _ (exec_respOk cfg hw c)) (exec_wf cfg hw c) (exec_dirs cfg hs.1 h)
  | _ => exact fun _ h => h

/-- a program that stays in a region others keep, and whose calls do not fail: when it is finished, it is where it would be alone -/
theorem rest_alone {o : Op} (ho : AboutObjects o) {n : Nat} {steps : List (Nat × Fault)} {ps : List (Prog β)} {q p : Prog β} {a : FS} (hw : WF a)
    (hd : Dirs (upRegion cfg o) a) (hok : ∀ f, (n, f) ∈ steps → f = .none)
    (hs : ∀ (j : Nat) g, j ≠ n → ps[j]? = some g → Safe (fun c => ∃ o', Elsewhere o o' ∧ (opPerm cfg o').ok c) (fun _ => True) g)
    (hq : ps[n]? = some q) (hsafe : Safe (localCall (region cfg o)) (fun _ => True) p) (hp : InPieces p q) {r : Outcome β}
    (hr : ((runParF cfg steps ps a).1[n]?).bind Prog.outcome = some r) :
    r = (run cfg p a).1 ∧ Match (region cfg o) (runParF cfg steps ps a).2 (run cfg p a).2 ∧ Dirs (upRegion cfg o) (runParF cfg steps ps a).2 := by
  obtain ⟨d, m, h3, h4, h5⟩ := isolatedF (cfg := cfg) (U := upRegion cfg o) (Z := region cfg o) (n := n)
    (ok := fun _ c => ∃ o', Elsewhere o o' ∧ (opPerm cfg o').ok c)
    (fun j fs c f _ hwf hc => by
      obtain ⟨o', ho', hc⟩ := hc
      exact elsewhere_frame ho ho' hc fun hx => execF_frame hwf hx f)
    steps (ps := ps) hw hw hd (.refl _ _) hs hq (pieces_safe (closed_local _) hp hsafe)
  rw [h4] at hr
  obtain ⟨d', m', h6, h7⟩ := pieces_gets (cfg := cfg) hp d m (fs0 := a) rfl
  obtain ⟨h8, h9⟩ := h7 r hr
  have h6 : (runFN cfg d' m' p a).2 = (runFN cfg d m q a).2 := h6
  have h10 := runFN_done p d' m' a h8
  rw [runF_sound p (h9 fun i => (h3 i).elim id fun h => hok _ h)] at h10
  have hfin := run_dirs (cfg := cfg) hsafe hw hd
  rw [h10] at hfin ⊢
  refine ⟨rfl, ?_, fun t ht => ?_⟩
  · show Match _ _ (runFN cfg d' m' p a).2
    rw [h6]; exact h5
  · rw [h5.look t (.inl ht), ← h6]; exact hfin t ht

end S3
