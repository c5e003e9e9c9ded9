import Verif.Spec.Sweep
import Verif.Lemmas.Concerns
import Verif.Lemmas.Power
/-! A deletion that takes many strides is many deletions, all but one of which fail half way. -/
namespace S3
open Spec

variable {cfg : Cfg} {ext : Ext} {lib : Lib} {auth : Option Provider} {α β : Type}

/-- the call is not `remove_dir_all` -/
def notTree : Call → Prop
  | .rmtree _ => False
  | _ => True

/-- the program is in `remove_dir_all`, for the first and last time -/
def InTree (p : Prog α) : Prop := ∃ q k, p = .sys (.rmtree q) k ∧ ∀ r, Safe notTree (fun _ => True) (k r)

theorem through_inTree {F : Prog α → Prog β} (hF : Through F) {p : Prog α} (h : InTree p) : InTree (F p) := by
  obtain ⟨q, k, rfl, h⟩ := h
  exact ⟨q, _, hF.1 _ _, fun r => hF.2 _ _ (h r)⟩

/-- only deletions of buckets use it, and they begin with it -/
theorem op_tree (o : Op) : Safe notTree (fun _ => True) (opProg cfg ext o) ∨ InTree (opProg cfg ext o) ∧ ∃ b, o = .deleteBucket b := by
  by_cases ho : ∃ b, o = .deleteBucket b
  · obtain ⟨b, rfl⟩ := ho
    simp only [opProg, deleteBucket]
    cases bucketPath cfg b with
    | none => exact .inl trivial
    | some p =>
      refine .inr ⟨⟨_, _, rfl, fun r => ?_⟩, _, rfl⟩
      cases r <;> exact trivial
  · refine .inl ((op_safe cfg ext o).mono (fun c hc => ?_) fun _ h => h)
    cases c with
    | rmtree p => cases o <;> first | exact hc.elim | exact absurd ⟨_, rfl⟩ ho
    | _ => trivial

theorem request_tree (x : Exchange) : Safe notTree (fun _ => True) (hyperCall cfg ext lib auth x.env x.texts x.req) ∨
    InTree (hyperCall cfg ext lib auth x.env x.texts x.req) ∧ x.req.method = b!"DELETE" ∧ ∃ b, At x.req (.bucket b) := by
  obtain ⟨o, F, h1, _, h2, h3⟩ := any_through (cfg := cfg) (ext := ext) (lib := lib) (auth := auth) x
  rw [h2]
  rcases op_tree (cfg := cfg) (ext := ext) o with h | ⟨h, b, rfl⟩
  · exact .inl (h3.2 _ _ h)
  · refine .inr ⟨through_inTree h3 h, ?_⟩
    cases h1 with
    | deleteBucket hm hb => exact ⟨hm, b, hb⟩

/-- threads that take no step -/
theorem runParF_idle {steps : List (Nat × Fault)} {l e : List (Prog α)} (h : ∀ s ∈ steps, s.1 < l.length ∨ l.length + e.length ≤ s.1) (fs : FS) :
    runParF cfg steps (l ++ e) fs = ((runParF cfg steps l fs).1 ++ e, (runParF cfg steps l fs).2) := by
  induction steps generalizing l fs with
  | nil => rfl
  | cons s steps ih =>
    obtain ⟨i, f⟩ := s
    rcases h _ (List.mem_cons_self ..) with hi | hi
    · dsimp only at hi
      simp only [runParF, List.getElem?_append_left hi, List.getElem?_eq_getElem hi]
      rw [List.set_append_left _ _ hi]
      exact ih (fun s hs => by rw [List.length_set]; exact h s (List.mem_cons_of_mem _ hs)) _
    · dsimp only at hi
      have h1 : (l ++ e)[i]? = none := List.getElem?_eq_none (by rw [List.length_append]; exact hi)
      have h2 : l[i]? = none := List.getElem?_eq_none (by omega)
      simp only [runParF, h1, h2]
      exact ih (fun s hs => h s (List.mem_cons_of_mem _ hs)) _

theorem stepProgF_safe {ok : Call → Prop} {Q : α → Prop} {p : Prog α} (h : Safe ok Q p) {f : Fault} {fs : FS} (hw : WF fs) :
    Safe ok Q (stepProgF cfg p f fs).1 := by
  cases p with
  | sys c k => exact h.2 _ (execF_respOk hw c f)
  | _ => exact h

/-- A run `steps` of the threads `ps` and some more, the failing deletions, that is stride by stride as the run `strides` of `ps`. -/
structure Simulates (cfg : Cfg) (strides : List (Nat × Stride)) (ps gs : List (Prog α)) (fs : FS) (steps : List (Nat × Fault)) (N : Nat) : Prop where
  length : steps.length = strides.length
  range : ∀ s ∈ steps, s.1 < ps.length + gs.length ∨ s.1 = N
  own : ∀ (s i : Nat) f, i < ps.length → (steps[s]? = some (i, f) ↔ strides[s]? = some (i, .call f))
  tree : ∀ m, (runParF cfg (steps.take m) (ps ++ gs) fs).2 = (runParS cfg (strides.take m) ps fs).2
  thread : ∀ m n, n < ps.length → (runParF cfg (steps.take m) (ps ++ gs) fs).1[n]? = (runParS cfg (strides.take m) ps fs).1[n]?

/-- the first stride -/
theorem Simulates.cons {strides : List (Nat × Stride)} {ps ps' gs gs' : List (Prog α)} {fs fs' : FS} {steps : List (Nat × Fault)} {N : Nat}
    (h : Simulates cfg strides ps' gs' fs' steps N) {a : Nat × Stride} {b : Nat × Fault} (hl : ps'.length = ps.length) (hg : gs'.length ≤ gs.length)
    (h1 : b.1 < ps.length + gs.length ∨ b.1 = N) (h2 : ∀ (i : Nat) f, i < ps.length → (b = (i, f) ↔ a = (i, .call f)))
    (h3 : ∀ m, ∃ e, runParF cfg (b :: steps.take m) (ps ++ gs) fs =
      ((runParF cfg (steps.take m) (ps' ++ gs') fs').1 ++ e, (runParF cfg (steps.take m) (ps' ++ gs') fs').2))
    (h4 : ∀ m, runParS cfg (a :: strides.take m) ps fs = runParS cfg (strides.take m) ps' fs') : Simulates cfg (a :: strides) ps gs fs (b :: steps) N where
  length := by simp [h.length]
  range s hs := by
    rcases List.mem_cons.mp hs with rfl | hs
    · exact h1
    · have := h.range s hs; omega
  own s i f hi := by
    cases s with
    | zero => simpa using h2 i f hi
    | succ s => simpa using h.own s i f (by omega)
  tree m := by
    cases m with
    | zero => rfl
    | succ m =>
      obtain ⟨e, he⟩ := h3 m
      rw [List.take_succ_cons, List.take_succ_cons, he, h4]
      exact h.tree m
  thread m n hn := by
    cases m with
    | zero => simp [runParF, runParS, List.getElem?_append_left hn]
    | succ m =>
      obtain ⟨e, he⟩ := h3 m
      rw [List.take_succ_cons, List.take_succ_cons, he, h4]
      dsimp only
      rw [List.getElem?_append_left (by rw [runParF_length]; simp; omega)]
      exact h.thread m n (by omega)

/-- many strides are many failing deletions -/
theorem sweep_sim {init : List (Prog α)} (strides : List (Nat × Stride)) {ps : List (Prog α)}
    (hp : ∀ p ∈ ps, Safe notTree (fun _ => True) p ∨ InTree p ∧ p ∈ init) {fs : FS} (hw : WF fs) :
    ∃ gs : List (Prog α), (∀ g ∈ gs, InTree g ∧ g ∈ init) ∧ ∀ N, ps.length + gs.length ≤ N →
      ∃ steps, Simulates cfg strides ps gs fs steps N := by
  induction strides generalizing ps fs with
  | nil =>
    refine ⟨[], (fun _ h => nomatch h), fun N _ => ⟨[], rfl, (fun _ h => nomatch h), by simp, by simp [runParF, runParS], by simp [runParF, runParS]⟩⟩
  | cons s strides ih =>
    obtain ⟨i, s⟩ := s
    have skip : (∀ m, runParS cfg ((i, s) :: strides.take m) ps fs = runParS cfg (strides.take m) ps fs) → (i < ps.length → ∀ f, s ≠ .call f) →
        ∃ gs : List (Prog α), (∀ g ∈ gs, InTree g ∧ g ∈ init) ∧ ∀ N, ps.length + gs.length ≤ N →
          ∃ steps, Simulates cfg ((i, s) :: strides) ps gs fs steps N := by
      intro h4 h2
      obtain ⟨gs, h1, h⟩ := ih hp hw
      refine ⟨gs, h1, fun N hN => ?_⟩
      obtain ⟨steps, h⟩ := h N hN
      refine ⟨(N, .none) :: steps, h.cons rfl (Nat.le_refl _) (.inr rfl) (fun j f hj => ⟨fun e => ?_, fun e => ?_⟩) (fun m => ⟨[], ?_⟩) h4⟩
      · cases e; omega
      · cases e; exact absurd rfl (h2 hj f)
      · have hnone : (ps ++ gs)[N]? = none := List.getElem?_eq_none (by rw [List.length_append]; exact hN)
        simp only [runParF, hnone, List.append_nil]
    cases hi : ps[i]? with
    | none =>
      refine skip (fun m => by simp only [runParS, hi]) fun h => ?_
      have := List.getElem?_eq_none_iff.mp hi
      omega
    | some p =>
      have hlen := (List.getElem?_eq_some_iff.mp hi).1
      have hmem := List.mem_of_getElem? hi
      have idle : ps.set i p = ps := by
        rw [← (List.getElem?_eq_some_iff.mp hi).2]; exact List.set_getElem_self hlen
      cases s with
      | call f =>
        obtain ⟨gs, h1, h⟩ := ih (ps := ps.set i (stepProgF cfg p f fs).1) (fs := (stepProgF cfg p f fs).2) (by
          intro q hq
          rcases List.mem_or_eq_of_mem_set hq with hq | rfl
          · exact hp q hq
          · rcases hp p hmem with h | ⟨⟨_, k, rfl, h⟩, _⟩
            · exact .inl (stepProgF_safe h hw)
            · exact .inl (h _)) (stepProgF_wf hw)
        refine ⟨gs, h1, fun N hN => ?_⟩
        obtain ⟨steps, h⟩ := h N (by rwa [List.length_set])
        refine ⟨(i, f) :: steps, h.cons (by rw [List.length_set]) (Nat.le_refl _) (.inl (Nat.lt_of_lt_of_le hlen (Nat.le_add_right ..)))
          (fun j f' _ => ⟨fun e => by cases e; rfl, fun e => by cases e; rfl⟩) (fun m => ⟨[], ?_⟩) (fun m => by simp only [runParS, hi, stepProgS])⟩
        simp only [runParF, List.getElem?_append_left hlen, hi, List.set_append_left _ _ hlen, List.append_nil]
      | sweep rs =>
        rcases Classical.em (∃ q k, p = .sys (.rmtree q) k) with ⟨q, k, rfl⟩ | hno
        · have htree : InTree (.sys (.rmtree q) k : Prog α) ∧ (.sys (.rmtree q) k : Prog α) ∈ init := by
            rcases hp _ hmem with h | h
            · exact h.1.elim
            · exact h
          have hwf : WF (partialEffect fs 0 rs (.rmtree q)) := execF_wf (cfg := cfg) hw (.rmtree q) (.during 0 rs)
          obtain ⟨gs, h1, h⟩ := ih (ps := ps) (fs := partialEffect fs 0 rs (.rmtree q)) hp hwf
          refine ⟨gs ++ [.sys (.rmtree q) k], fun g hg => ?_, fun N hN => ?_⟩
          · rcases List.mem_append.mp hg with hg | hg
            · exact h1 g hg
            · rw [List.mem_singleton.mp hg]; exact htree
          rw [List.length_append, List.length_singleton] at hN
          obtain ⟨steps, h⟩ := h N (by omega)
          refine ⟨(ps.length + gs.length, .during 0 rs) :: steps, h.cons rfl (by simp) (.inl (by simp))
            (fun j f' _ => ⟨fun e => by cases e; omega, fun e => by cases e⟩) (fun m => ⟨[k false], ?_⟩) (fun m => by simp only [runParS, hi, stepProgS, idle])⟩
          have hget : (ps ++ (gs ++ [.sys (.rmtree q) k]))[ps.length + gs.length]? = some (.sys (.rmtree q) k) := by
            rw [← List.append_assoc, List.getElem?_append_right (by simp)]; simp
          rw [← runParF_idle (l := ps ++ gs) (steps := steps.take m) (fun s hs => by
            have := h.range s (List.mem_of_mem_take hs)
            simp only [List.length_append, List.length_singleton]; omega)]
          simp only [runParF, hget, stepProgF, execF, failed]
          congr 1
          rw [← List.append_assoc, List.set_append_right _ _ (by simp)]; simp
        · refine skip (fun m => ?_) fun _ f e => nomatch e
          have hst : stepProgS cfg p (.sweep rs) fs = (p, fs) := by
            unfold stepProgS
            split
            · rename_i h; cases h
            · split
              · exact absurd ⟨_, _, rfl⟩ hno
              · rfl
          simp only [runParS, hi, hst, idle]

/-- the same for runs of the server -/
theorem slow_sim (w : SlowEpoch) {fs : FS} (hw : WF fs) :
    ∃ again : List Exchange, (∀ x ∈ again, x ∈ w.requests ∧ x.req.method = b!"DELETE" ∧ ∃ b, At x.req (.bucket b)) ∧
      ∃ steps, Simulates cfg w.strides (w.requests.map fun x => hyperCall cfg ext lib auth x.env x.texts x.req)
        (again.map fun x => hyperCall cfg ext lib auth x.env x.texts x.req) fs steps (w.requests.length + again.length) := by
  obtain ⟨gs, h1, h2⟩ := sweep_sim (cfg := cfg) (init := w.requests.map fun x => hyperCall cfg ext lib auth x.env x.texts x.req) w.strides
    (ps := w.requests.map fun x => hyperCall cfg ext lib auth x.env x.texts x.req) (fun p hp => by
      obtain ⟨x, hx, rfl⟩ := List.mem_map.mp hp
      rcases request_tree (cfg := cfg) (ext := ext) (lib := lib) (auth := auth) x with h | ⟨h, _⟩
      · exact .inl h
      · exact .inr ⟨h, hp⟩) hw
  have : ∃ again : List Exchange, (again.map fun x => hyperCall cfg ext lib auth x.env x.texts x.req) = gs ∧
      ∀ x ∈ again, x ∈ w.requests ∧ x.req.method = b!"DELETE" ∧ ∃ b, At x.req (.bucket b) := by
    clear h2
    induction gs with
    | nil => exact ⟨[], rfl, fun _ h => nomatch h⟩
    | cons g gs ih =>
      obtain ⟨again, rfl, h⟩ := ih fun g hg => h1 g (List.mem_cons_of_mem _ hg)
      obtain ⟨hg, hin⟩ := h1 g (List.mem_cons_self ..)
      obtain ⟨x, hx, rfl⟩ := List.mem_map.mp hin
      refine ⟨x :: again, rfl, fun y hy => ?_⟩
      rcases List.mem_cons.mp hy with rfl | hy
      · rcases request_tree (cfg := cfg) (ext := ext) (lib := lib) (auth := auth) y with h | ⟨_, h⟩
        · obtain ⟨q, k, he, _⟩ := hg
          rw [he] at h
          exact h.1.elim
        · exact ⟨hx, h⟩
      · exact h y hy
  obtain ⟨again, rfl, h⟩ := this
  exact ⟨again, h, h2 _ (by simp)⟩

end S3
