import Verif.Lemmas.Served
import Verif.Lemmas.XmlDoc
import Verif.Lemmas.Num
import Verif.Lemmas.Time
import Verif.Spec.Response
/-! Responses and the outcomes of `handle`. -/
namespace S3
open Spec

/-! ### the documents are well nested -/

/-- the writer accepts the events and ends in the element in which it started -/
structure Balanced (gt : Bool) (evs : List XmlEvent) : Prop where
  run : ∀ w : XmlWriter, ∃ w', w.writeAll gt evs = some w' ∧ w'.names = w.names

theorem Balanced.nil (gt : Bool) : Balanced gt [] := ⟨fun w => ⟨w, rfl, rfl⟩⟩

theorem Balanced.append {gt : Bool} {a b : List XmlEvent} (ha : Balanced gt a) (hb : Balanced gt b) : Balanced gt (a ++ b) := ⟨fun w => by
  obtain ⟨w1, h1, e1⟩ := ha.run w
  obtain ⟨w2, h2, e2⟩ := hb.run w1
  exact ⟨w2, by rw [writeAll_append, h1]; exact h2, e2.trans e1⟩⟩

theorem Balanced.element {gt : Bool} {n t : Bytes} : Balanced gt (elementEvents n t) := ⟨fun w => by
  simp only [elementEvents, XmlWriter.writeAll, XmlWriter.write, Option.bind_some]
  exact ⟨_, rfl, rfl⟩⟩

theorem Balanced.opt {gt : Bool} {n : Bytes} {t : Option Bytes} : Balanced gt (optElement n t) := by
  cases t with
  | none => exact Balanced.nil gt
  | some t => exact Balanced.element

theorem Balanced.stack {gt : Bool} (n : Bytes) {evs : List XmlEvent} (h : Balanced gt evs) : Balanced gt (stackEvents n evs) := ⟨fun w => by
  obtain ⟨w1, h1, e1⟩ := h.run { out := w.closeTag ++ b!"<" ++ n, names := n :: w.names, open_ := true }
  have : ∃ w', w.writeAll gt (stackEvents n evs) = some w' ∧ w'.names = w.names := by
    simp only [stackEvents, List.cons_append, XmlWriter.writeAll, XmlWriter.write, Option.bind_some, writeAll_append, h1, e1]
    exact ⟨_, rfl, rfl⟩
  exact this⟩

theorem Balanced.flatMap {gt : Bool} {α : Type} {f : α → List XmlEvent} (h : ∀ a, Balanced gt (f a)) (l : List α) : Balanced gt (l.flatMap f) := by
  induction l with
  | nil => exact Balanced.nil gt
  | cons a l ih => exact (h a).append ih

theorem Balanced.document {gt : Bool} {evs : List XmlEvent} (h : Balanced gt evs) : ∃ doc, xmlDocument gt evs = some doc := by
  obtain ⟨w, h, _⟩ := h.run { out := xmlDeclaration, names := [], open_ := false }
  exact ⟨w.out, by rw [xmlDocument, h]; rfl⟩

theorem balanced_contents (gt : Bool) (x : Texts) (b : Bytes) (o : Bytes × Nat) : Balanced gt (contentsEvents x b o) :=
  Balanced.stack _ ((Balanced.element.append .element).append .element)

theorem balanced_document {gt : Bool} {x : Texts} {c : Ctx} {h : Handler} {a : Answer} {evs : List XmlEvent} (he : document x c h a = some evs) :
    Balanced gt evs := by
  unfold document at he
  split at he <;> cases he
  · exact .stack _ ((Balanced.element.append .element).append .opt)
  · exact .stack _ (Balanced.opt.append .opt)
  · exact .stack _ ((Balanced.element.append .element).append .element)
  · exact .stack _ (.flatMap (fun k => .stack _ .element) _)
  · exact .element
  · exact .stack _ (.stack _ (.flatMap (fun k => .stack _ (Balanced.element.append .element)) _))
  · exact .stack _ ((((Balanced.flatMap (balanced_contents gt x _) _).append .element).append .opt).append .opt)
  · exact .stack _ (((((Balanced.flatMap (balanced_contents gt x _) _).append .element).append .opt).append
      .opt).append .element)

theorem answerHeaders_some (x : Texts) (c : Ctx) (h : Handler) (a : Answer) : ∃ hs, answerHeaders x c h a = some hs := by
  unfold answerHeaders
  split
  · rw [Texts.timeText, (lastModified_text _ _).1]; exact ⟨_, rfl⟩
  · rw [Texts.timeText, (lastModified_text _ _).1]; exact ⟨_, rfl⟩
  · exact ⟨_, rfl⟩
  · exact ⟨_, rfl⟩
  · exact ⟨_, rfl⟩

/-- making a response never fails -/
theorem makeResponse_ret (x : Texts) (c : Ctx) (h : Handler) (rep : Reply) : ∃ res, makeResponse x c h rep = .ret res ∧ res.status = rep.status := by
  unfold makeResponse
  obtain ⟨hs, hh⟩ := answerHeaders_some x c h rep.answer
  rw [hh]
  dsimp only
  cases hd : document x c h rep.answer with
  | none => exact ⟨_, rfl, rfl⟩
  | some evs =>
    obtain ⟨doc, h⟩ := (balanced_document (gt := x.gt) hd).document
    exact ⟨_, by simp only [h]; rfl, rfl⟩

/-- the response to an error -/
theorem errorResponse_shows (x : Texts) (hm : ∀ m, x.message = some m → CleanText m) (e : S3ErrorCode) (he : CleanText e.asStr) :
    ∃ res, errorResponse x e = .ret res ∧
      Shows res e.httpStatus (([([b!"Code"], e.asStr)] ++ optEntry b!"Message" x.message).map (fun e => (b!"Error" :: e.1, e.2)) ++ [([b!"Error"], [])]) := by
  obtain ⟨out, h⟩ := Part.opt (gt := x.gt) (n := b!"Message") (by decide) hm
  obtain ⟨doc, h1, h2⟩ := ((Part.element (gt := x.gt) (n := b!"Code") (by decide) he).append h).rooted (n := b!"Error") (by decide)
  refine ⟨_, by simp only [errorResponse, h1]; rfl, rfl, List.mem_singleton.mpr rfl, doc, rfl, h2⟩

theorem errorResponse_ret (x : Texts) (e : S3ErrorCode) : ∃ res, errorResponse x e = .ret res := by
  have : Balanced x.gt (stackEvents b!"Error" (elementEvents b!"Code" e.asStr ++ optElement b!"Message" x.message)) :=
    .stack _ (Balanced.element.append .opt)
  obtain ⟨doc, h⟩ := this.document
  exact ⟨_, by simp only [errorResponse, h]; rfl⟩

/-! ### from `handle` to `hyperCall` -/

theorem dispatchResponse_eq (cfg : Cfg) (ext : Ext) (lib : Lib) (x : Texts) (c : Ctx) :
    (∃ h, findHandler c = some h ∧ ∀ env, dispatchResponse cfg ext lib env x c = (dispatch cfg ext lib env c).bind (makeResponse x c h)) ∨
    ∃ e, ∀ env, dispatch cfg ext lib env c = .fail e ∧ dispatchResponse cfg ext lib env x c = .fail e := by
  unfold dispatch dispatchResponse
  split
  · exact .inr ⟨_, fun _ => ⟨rfl, rfl⟩⟩
  · cases findHandler c with
    | none => exact .inr ⟨_, fun _ => ⟨rfl, rfl⟩⟩
    | some h => exact .inl ⟨h, rfl, fun _ => rfl⟩

theorem handleResponse_eq (cfg : Cfg) (ext : Ext) (lib : Lib) (auth : Option Provider) (x : Texts) (r : Req) :
    ∃ K : Reply → Prog Response, (∀ rep, ∃ res, K rep = .ret res ∧ res.status = rep.status) ∧
      ∀ env, handleResponse cfg ext lib auth env x r = (handle cfg ext lib auth env r).bind K := by
  unfold handle handleResponse
  cases admit lib auth r with
  | error e => exact ⟨fun rep => .ret ⟨rep.status, [], none⟩, fun rep => ⟨_, rfl, rfl⟩, fun _ => rfl⟩
  | ok c =>
    rcases dispatchResponse_eq cfg ext lib x c with ⟨h, _, e⟩ | ⟨e, he⟩
    · exact ⟨makeResponse x c h, makeResponse_ret x c h, e⟩
    · exact ⟨fun rep => .ret ⟨rep.status, [], none⟩, fun rep => ⟨_, rfl, rfl⟩, fun env => by simp only [orElseFail, (he env).1, (he env).2]; rfl⟩

/-- a program whose answers and errors are turned into responses -/
def finish {α β : Type} (K : α → Prog β) (k : S3ErrorCode → Prog β) (p : Prog α) : Prog β := (p.bind K).catch k

theorem finish_step {α β : Type} {cfg : Cfg} {K : α → Prog β} {k : S3ErrorCode → Prog β} (hK : ∀ a, ∃ b, K a = .ret b) (hk : ∀ e, ∃ b, k e = .ret b)
    (p : Prog α) (fs : FS) : stepProg cfg (finish K k p) fs = (finish K k (stepProg cfg p fs).1, (stepProg cfg p fs).2) := by
  cases p with
  | ret a => obtain ⟨b, hb⟩ := hK a; simp only [finish, Prog.bind, hb, Prog.catch, stepProg]
  | fail e => obtain ⟨b, hb⟩ := hk e; simp only [finish, Prog.bind, hb, Prog.catch, stepProg]
  | panic => rfl
  | diverge => rfl
  | sys c f => rfl

theorem finish_run {α β : Type} {cfg : Cfg} {K : α → Prog β} {k : S3ErrorCode → Prog β} (hK : ∀ a, ∃ b, K a = .ret b) (hk : ∀ e, ∃ b, k e = .ret b)
    (p : Prog α) (fs : FS) :
    (run cfg (finish K k p) fs).2 = (run cfg p fs).2 ∧
    (∀ a b, (run cfg p fs).1 = .ok a → K a = .ret b → (run cfg (finish K k p) fs).1 = .ok b) ∧
    (∀ e b, (run cfg p fs).1 = .err e → k e = .ret b → (run cfg (finish K k p) fs).1 = .ok b) := by
  induction p generalizing fs with
  | sys c f ih => exact ih _ _
  | ret a =>
    obtain ⟨b, hb⟩ := hK a
    simp only [finish, Prog.bind, hb, Prog.catch, run]
    refine ⟨trivial, ?_, fun e b h => by cases h⟩
    rintro a' b' ⟨⟩ h
    rw [hb] at h; cases h; rfl
  | fail e =>
    obtain ⟨b, hb⟩ := hk e
    simp only [finish, Prog.bind, hb, Prog.catch, run]
    refine ⟨trivial, fun a b h => (by cases h), ?_⟩
    rintro e' b' ⟨⟩ h
    rw [hb] at h; cases h; rfl
  | panic => exact ⟨rfl, fun a b h => (by cases h), fun a b h => (by cases h)⟩
  | diverge => exact ⟨rfl, fun a b h => (by cases h), fun a b h => (by cases h)⟩

theorem finish_inv {α β : Type} {cfg : Cfg} {K : α → Prog β} {k : S3ErrorCode → Prog β} (hK : ∀ a, ∃ b, K a = .ret b) (hk : ∀ e, ∃ b, k e = .ret b)
    {p : Prog α} {fs : FS} {b : β} (h : (run cfg (finish K k p) fs).1 = .ok b) :
    (∃ a, (run cfg p fs).1 = .ok a ∧ K a = .ret b) ∨ ∃ e, (run cfg p fs).1 = .err e ∧ k e = .ret b := by
  induction p generalizing fs with
  | sys c f ih => exact ih _ h
  | ret a =>
    obtain ⟨b', hb⟩ := hK a
    simp only [finish, Prog.bind, hb, Prog.catch, run] at h
    cases h
    exact .inl ⟨a, rfl, hb⟩
  | fail e =>
    obtain ⟨b', hb⟩ := hk e
    simp only [finish, Prog.bind, hb, Prog.catch, run] at h
    cases h
    exact .inr ⟨e, rfl, hb⟩
  | panic => cases h
  | diverge => cases h

theorem errorResponse_status {x : Texts} {e : S3ErrorCode} {res : Response} (h : errorResponse x e = .ret res) : res.status = e.httpStatus := by
  unfold errorResponse at h
  split at h
  · cases h
  · cases h; rfl

theorem hyperCall_env (cfg : Cfg) (ext : Ext) (lib : Lib) (auth : Option Provider) (x : Texts) (r : Req) :
    ∃ K : Reply → Prog Response, (∀ rep, ∃ res, K rep = .ret res ∧ res.status = rep.status) ∧
      ∀ env, hyperCall cfg ext lib auth env x r = finish K (errorResponse x) (handle cfg ext lib auth env r) := by
  obtain ⟨K, hK, h⟩ := handleResponse_eq cfg ext lib auth x r
  exact ⟨K, hK, fun env => by rw [hyperCall, h]; rfl⟩

theorem hyperCall_eq (cfg : Cfg) (ext : Ext) (lib : Lib) (auth : Option Provider) (env : Env) (x : Texts) (r : Req) :
    ∃ K : Reply → Prog Response, (∀ rep, ∃ res, K rep = .ret res ∧ res.status = rep.status) ∧
      hyperCall cfg ext lib auth env x r = finish K (errorResponse x) (handle cfg ext lib auth env r) := by
  obtain ⟨K, hK, h⟩ := hyperCall_env cfg ext lib auth x r
  exact ⟨K, hK, h env⟩

theorem runPar_mapIdx {α β : Type} {cfg : Cfg} {F : Nat → Prog α → Prog β}
    (hF : ∀ i p fs, stepProg cfg (F i p) fs = (F i (stepProg cfg p fs).1, (stepProg cfg p fs).2)) (sched : List Nat) (ps : List (Prog α)) (fs : FS) :
    runPar cfg sched (ps.mapIdx F) fs = ((runPar cfg sched ps fs).1.mapIdx F, (runPar cfg sched ps fs).2) := by
  induction sched generalizing ps fs with
  | nil => rfl
  | cons i sched ih =>
    simp only [runPar, List.getElem?_mapIdx]
    cases h : ps[i]? with
    | none => exact ih ps fs
    | some p =>
      simp only [Option.map_some, hF]
      rw [← ih]
      congr 1
      apply List.ext_getElem?
      intro j
      simp only [List.getElem?_set, List.getElem?_mapIdx, List.length_mapIdx]
      by_cases hij : i = j
      · subst hij
        have : i < ps.length := by
          rcases Nat.lt_or_ge i ps.length with h' | h'
          · exact h'
          · rw [List.getElem?_eq_none h'] at h; cases h
        simp [this]
      · simp [hij]

theorem hyperCall_pars (cfg : Cfg) (ext : Ext) (lib : Lib) (auth : Option Provider) (js : List (Texts × Req)) :
    ∃ K : Nat → Reply → Prog Response, (∀ i rep, ∃ res, K i rep = .ret res ∧ res.status = rep.status) ∧
      ∀ env sched fs i x r, js[i]? = some (x, r) →
        (runPar cfg sched (js.map fun j => hyperCall cfg ext lib auth env j.1 j.2) fs).1[i]?
          = ((runPar cfg sched ((js.map (·.2)).map (handle cfg ext lib auth env)) fs).1[i]?).map (finish (K i) (errorResponse x)) := by
  have hc := fun j : Texts × Req => hyperCall_env cfg ext lib auth j.1 j.2
  let K : Nat → Reply → Prog Response := fun i => match js[i]? with
    | some j => (hc j).choose
    | none => fun rep => .ret ⟨rep.status, [], none⟩
  let X : Nat → S3ErrorCode → Prog Response := fun i => match js[i]? with
    | some j => errorResponse j.1
    | none => fun _ => .ret ⟨500, [], none⟩
  have hK : ∀ i rep, ∃ res, K i rep = .ret res ∧ res.status = rep.status := by
    intro i rep
    show ∃ res, (match js[i]? with | some j => (hc j).choose | none => fun rep => Prog.ret (⟨rep.status, [], none⟩ : Response)) rep = .ret res ∧ _
    cases js[i]? with
    | none => exact ⟨_, rfl, rfl⟩
    | some j => exact (hc j).choose_spec.1 rep
  have hX : ∀ i e, ∃ res, X i e = .ret res := by
    intro i e
    show ∃ res, (match js[i]? with | some j => errorResponse j.1 | none => fun _ => Prog.ret (⟨500, [], none⟩ : Response)) e = .ret res
    cases js[i]? with
    | none => exact ⟨_, rfl⟩
    | some j => exact errorResponse_ret j.1 e
  have he : ∀ env, (js.map fun j => hyperCall cfg ext lib auth env j.1 j.2)
      = ((js.map (·.2)).map (handle cfg ext lib auth env)).mapIdx fun i => finish (K i) (X i) := by
    intro env
    apply List.ext_getElem?
    intro i
    simp only [List.getElem?_map, List.getElem?_mapIdx, K, X]
    cases js[i]? with
    | none => rfl
    | some j => exact congrArg some ((hc j).choose_spec.2 env)
  refine ⟨K, hK, fun env sched fs i x r hi => ?_⟩
  have hF : ∀ i p fs, stepProg cfg (finish (K i) (X i) p) fs = (finish (K i) (X i) (stepProg cfg p fs).1, (stepProg cfg p fs).2) :=
    fun i p fs => finish_step (fun a => (hK i a).imp fun _ h => h.1) (hX i) p fs
  rw [he, runPar_mapIdx hF]
  simp only [List.getElem?_mapIdx, X, hi]

theorem hyperCall_par (cfg : Cfg) (ext : Ext) (lib : Lib) (auth : Option Provider) (env : Env) (js : List (Texts × Req)) (sched : List Nat) (fs : FS) :
    ∃ K : Nat → Reply → Prog Response, (∀ i rep, ∃ res, K i rep = .ret res ∧ res.status = rep.status) ∧
      ∀ i x r, js[i]? = some (x, r) →
        (runPar cfg sched (js.map fun j => hyperCall cfg ext lib auth env j.1 j.2) fs).1[i]?
          = ((runPar cfg sched ((js.map (·.2)).map (handle cfg ext lib auth env)) fs).1[i]?).map (finish (K i) (errorResponse x)) := by
  obtain ⟨K, hK, h⟩ := hyperCall_pars cfg ext lib auth js
  exact ⟨K, hK, h env sched fs⟩

end S3
