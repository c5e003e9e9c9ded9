import Verif.Spec.WebLife
import Verif.Lemmas.Session
import Verif.Lemmas.Life
/-! Runs of the server with HTTP requests are runs with the operations they ask for. -/
namespace S3
open Spec

variable {cfg : Cfg} {ext : Ext} {lib : Lib} {auth : Option Provider} {α β : Type}

/-- the program goes on as the one inside it -/
def Wraps (cfg : Cfg) (F : Prog α → Prog β) : Prop :=
  ∀ p f fs, stepProgF cfg (F p) f fs = (F (stepProgF cfg p f fs).1, (stepProgF cfg p f fs).2)

theorem wraps_of {g : α → Prog β} {k : S3ErrorCode → Prog β} (hg : ∀ a, ∃ b, (g a).catch k = .ret b) (hk : ∀ e, ∃ b, k e = .ret b) :
    Wraps cfg fun p => (p.bind g).catch k := by
  intro p f fs
  cases p with
  | ret a => obtain ⟨b, hb⟩ := hg a; simp only [Prog.bind, hb, stepProgF]
  | fail e => obtain ⟨b, hb⟩ := hk e; simp only [Prog.bind, Prog.catch, hb, stepProgF]
  | panic => rfl
  | diverge => rfl
  | sys c k => rfl

theorem runParF_mapIdx {F : Nat → Prog α → Prog β} (hF : ∀ i, Wraps cfg (F i)) (steps : List (Nat × Fault)) (ps : List (Prog α)) (fs : FS) :
    runParF cfg steps (ps.mapIdx F) fs = ((runParF cfg steps ps fs).1.mapIdx F, (runParF cfg steps ps fs).2) := by
  induction steps generalizing ps fs with
  | nil => rfl
  | cons s steps ih =>
    obtain ⟨i, f⟩ := s
    simp only [runParF, List.getElem?_mapIdx]
    cases h : ps[i]? with
    | none => exact ih ps fs
    | some p =>
      simp only [Option.map_some, hF i p f fs]
      rw [← ih]
      congr 1
      apply List.ext_getElem?
      intro j
      simp only [List.getElem?_set, List.getElem?_mapIdx, List.length_mapIdx]
      by_cases hij : i = j
      · subst hij
        have : i < ps.length := by
          rcases Nat.lt_or_ge i ps.length with h' | h'
          · exact h'
          · rw [List.getElem?_eq_none h'] at h; cases h
        simp [this]
      · simp [hij]

theorem runParF_ends {D : Nat → Prop} {E : Nat → S3ErrorCode → Prop} (steps : List (Nat × Fault)) {ps : List (Prog α)} {fs : FS}
    (h : ∀ (i : Nat) p, ps[i]? = some p → Ends (D i) (E i) p) :
    ∀ (i : Nat) p, (runParF cfg steps ps fs).1[i]? = some p → Ends (D i) (E i) p := by
  induction steps generalizing ps fs with
  | nil => exact h
  | cons s steps ih =>
    obtain ⟨i, f⟩ := s
    simp only [runParF]
    cases hi : ps[i]? with
    | none => exact ih h
    | some p =>
      refine ih fun j q hq => ?_
      rw [List.getElem?_set] at hq
      split at hq
      · rename_i e
        subst e
        split at hq
        · cases hq
          have := h i p hi
          cases p with
          | sys c k => exact this _
          | _ => exact this
        · cases hq
      · exact h j q hq

/-- from the program of an operation to that of a request that asks for it -/
def wrap (x : Texts) (c : Ctx) (h : Handler) (p : Prog Answer) : Prog Response :=
  (p.bind fun a => (respond h a).bind (makeResponse x c h)).catch (errorResponse x)

theorem bind_assoc {γ : Type} (p : Prog α) (f : α → Prog β) (g : β → Prog γ) : (p.bind f).bind g = p.bind fun a => (f a).bind g := by
  induction p with
  | sys c k ih => simp only [Prog.bind, ih]
  | _ => rfl

theorem respond_caught (x : Texts) (c : Ctx) (h : Handler) (a : Answer) :
    ∃ res, ((respond h a).bind (makeResponse x c h)).catch (errorResponse x) = .ret res := by
  unfold respond
  split
  · rename_i m _
    obtain ⟨res, hr, _⟩ := makeResponse_ret x c h ⟨h.status, m, a⟩
    exact ⟨res, by simp only [Prog.bind, hr, Prog.catch]⟩
  · exact errorResponse_ret x _

theorem wraps_wrap (x : Texts) (c : Ctx) (h : Handler) : Wraps cfg (wrap x c h) :=
  wraps_of (respond_caught x c h) (errorResponse_ret x)

theorem hyperCall_asks {x : Exchange} {c : Ctx} (hc : admit lib auth x.req = .ok c) {o : Op} (ho : Requests lib x.env x.req c.body o) :
    hyperCall cfg ext lib auth x.env x.texts x.req = wrap x.texts c o.handler (opProg cfg ext o) := by
  have R := ready_of_admit hc
  have d := requests_dispatched R ho
  have e := dispatch_requests (cfg := cfg) (ext := ext) R ho
  rw [dispatch, if_neg d.form, d.find] at e
  rw [hyperCall, handleResponse, hc]
  simp only
  rw [dispatchResponse, if_neg d.form, d.find]
  simp only at e ⊢
  rw [e, bind_assoc]
  rfl

/-- a request that changes nothing -/
def silent : Op := .createMultipartUpload []

/-- `o` is what the request asks for, or it is refused at once -/
def Means (cfg : Cfg) (ext : Ext) (lib : Lib) (auth : Option Provider) (x : Exchange) (o : Op) : Prop :=
  Asks lib auth x o ∨ (∃ err, handle cfg ext lib auth x.env x.req = .fail err) ∧ o = silent

theorem means_wrap {x : Exchange} {o : Op} (h : Means cfg ext lib auth x o) :
    ∃ F, Wraps cfg F ∧ hyperCall cfg ext lib auth x.env x.texts x.req = F (opProg cfg ext o) ∧
      (Asks lib auth x o → ∃ c, admit lib auth x.req = .ok c ∧ Requests lib x.env x.req c.body o ∧ F = wrap x.texts c o.handler) := by
  by_cases ha : Asks lib auth x o
  · obtain ⟨c, hc, ho⟩ := ha
    exact ⟨_, wraps_wrap x.texts c o.handler, hyperCall_asks hc ho, fun _ => ⟨c, hc, ho, rfl⟩⟩
  · obtain ⟨⟨err, he⟩, rfl⟩ := h.resolve_left ha
    obtain ⟨K, _, hK⟩ := hyperCall_eq cfg ext lib auth x.env x.texts x.req
    obtain ⟨res, hr⟩ := errorResponse_ret x.texts err
    rw [he] at hK
    refine ⟨fun p => (p.bind fun _ => .ret res).catch fun _ => .ret res, wraps_of (fun _ => ⟨res, rfl⟩) (fun _ => ⟨res, rfl⟩), ?_,
      fun h => absurd h ha⟩
    rw [hK]
    exact hr

/-- the run with the operations -/
theorem web_ops {w : WebEpoch} {os : List Op} (hlen : os.length = w.requests.length)
    (hm : ∀ (j : Nat) x o, w.requests[j]? = some x → os[j]? = some o → Means cfg ext lib auth x o) :
    ∃ F : Nat → Prog Answer → Prog Response, (∀ i, Wraps cfg (F i)) ∧
      (∀ (j : Nat) x o, w.requests[j]? = some x → os[j]? = some o → Asks lib auth x o →
        ∃ c, admit lib auth x.req = .ok c ∧ Requests lib x.env x.req c.body o ∧ F j = wrap x.texts c o.handler) ∧
      ∀ fs, (⟨os, w.steps⟩ : Epoch).leaves cfg ext fs = w.leaves cfg ext lib auth fs ∧
        ∀ n, w.response cfg ext lib auth fs n =
          ((runParF cfg w.steps (os.map (opProg cfg ext)) fs).1[n]?).bind fun p => (F n p).outcome := by
  have : ∀ j : Nat, ∃ F : Prog Answer → Prog Response, Wraps cfg F ∧ ∀ x o, w.requests[j]? = some x → os[j]? = some o →
      hyperCall cfg ext lib auth x.env x.texts x.req = F (opProg cfg ext o) ∧
      (Asks lib auth x o → ∃ c, admit lib auth x.req = .ok c ∧ Requests lib x.env x.req c.body o ∧ F = wrap x.texts c o.handler) := by
    intro j
    cases hx : w.requests[j]? with
    | none => exact ⟨fun p => (p.bind fun _ => .ret ⟨200, [], none⟩).catch fun _ => .ret ⟨200, [], none⟩,
        wraps_of (fun _ => ⟨_, rfl⟩) (fun _ => ⟨_, rfl⟩), fun _ _ h => nomatch h⟩
    | some x =>
      cases ho : os[j]? with
      | none =>
        rw [List.getElem?_eq_none_iff] at ho
        have := (List.getElem?_eq_some_iff.mp hx).1
        omega
      | some o =>
        obtain ⟨F, h1, h2, h3⟩ := means_wrap (hm j x o hx ho)
        exact ⟨F, h1, fun x' o' hx' ho' => by cases hx'; cases ho'; exact ⟨h2, h3⟩⟩
  obtain ⟨F, hF⟩ := Classical.axiomOfChoice this
  have hprogs : (w.requests.map fun x => hyperCall cfg ext lib auth x.env x.texts x.req) = (os.map (opProg cfg ext)).mapIdx F := by
    apply List.ext_getElem?
    intro j
    simp only [List.getElem?_map, List.getElem?_mapIdx]
    cases hx : w.requests[j]? with
    | none =>
      rw [List.getElem?_eq_none_iff] at hx
      have : os[j]? = none := List.getElem?_eq_none_iff.mpr (by omega)
      rw [this]; rfl
    | some x =>
      cases ho : os[j]? with
      | none =>
        rw [List.getElem?_eq_none_iff] at ho
        have := (List.getElem?_eq_some_iff.mp hx).1
        omega
      | some o => exact congrArg some ((hF j).2 x o hx ho).1
  refine ⟨F, fun i => (hF i).1, fun j x o hx ho ha => ((hF j).2 x o hx ho).2 ha, fun fs => ⟨?_, fun n => ?_⟩⟩
  · simp only [Epoch.leaves, WebEpoch.leaves, hprogs, runParF_mapIdx fun i => (hF i).1]
  · simp only [WebEpoch.response, hprogs, runParF_mapIdx fun i => (hF i).1, List.getElem?_mapIdx]
    cases (runParF cfg w.steps (os.map (opProg cfg ext)) fs).1[n]? <;> rfl

/-- the operations of a run -/
theorem web_epoch {P : Op → Prop} (hP : P silent) {w : WebEpoch} (h : ∀ x ∈ w.requests, AsksIn cfg ext lib auth P x) :
    ∃ e : Epoch, (∀ o ∈ e.requests, P o) ∧ ∀ fs, e.leaves cfg ext fs = w.leaves cfg ext lib auth fs := by
  have : ∀ x : Exchange, ∃ o, x ∈ w.requests → P o ∧ Means cfg ext lib auth x o := by
    intro x
    by_cases hx : x ∈ w.requests
    · rcases h x hx with ⟨o, ho, ha⟩ | he
      · exact ⟨o, fun _ => ⟨ho, .inl ha⟩⟩
      · exact ⟨silent, fun _ => ⟨hP, .inr ⟨he, rfl⟩⟩⟩
    · exact ⟨silent, fun h => absurd h hx⟩
  obtain ⟨G, hG⟩ := Classical.axiomOfChoice this
  obtain ⟨F, _, _, h3⟩ := web_ops (cfg := cfg) (ext := ext) (lib := lib) (auth := auth) (w := w) (os := w.requests.map G) (by simp) (by
    intro j x o hx ho
    rw [List.getElem?_map, hx] at ho
    cases ho
    exact (hG x (List.mem_of_getElem? hx)).2)
  refine ⟨⟨w.requests.map G, w.steps⟩, ?_, fun fs => (h3 fs).1⟩
  intro o ho
  obtain ⟨x, hx, rfl⟩ := List.mem_map.mp ho
  exact (hG x hx).1

/-- the operations of a run, with one request in view -/
theorem web_epoch_at {P : Op → Prop} (hP : P silent) {w : WebEpoch} {n : Nat} {x : Exchange} {o : Op} (hn : w.requests[n]? = some x)
    (hx : Asks lib auth x o) (h : ∀ (j : Nat) y, j ≠ n → w.requests[j]? = some y → AsksIn cfg ext lib auth P y) :
    ∃ e : Epoch, e.steps = w.steps ∧ e.requests[n]? = some o ∧ (∀ (j : Nat) o', j ≠ n → e.requests[j]? = some o' → P o') ∧
      ∀ fs, e.leaves cfg ext fs = w.leaves cfg ext lib auth fs ∧
        ∃ c, admit lib auth x.req = .ok c ∧ Requests lib x.env x.req c.body o ∧
          ∀ r, w.response cfg ext lib auth fs n = some r →
            (∃ a, e.answered cfg ext fs n = some (.ok a) ∧ (wrap x.texts c o.handler (.ret a)).outcome = some r) ∨
            (∃ err ∈ operationErrors o, e.answered cfg ext fs n = some (.err err) ∧ (errorResponse x.texts err).outcome = some r) ∨
            e.answered cfg ext fs n = some .diverge ∧ r = .diverge := by
  have : ∀ j : Nat, ∃ o', (j = n → o' = o) ∧ ∀ y, w.requests[j]? = some y → Means cfg ext lib auth y o' ∧ (j ≠ n → P o') := by
    intro j
    by_cases hj : j = n
    · refine ⟨o, fun _ => rfl, fun y hy => ?_⟩
      rw [hj, hn] at hy
      cases hy
      exact ⟨.inl hx, fun h => absurd hj h⟩
    · cases hy : w.requests[j]? with
      | none => exact ⟨silent, fun h => absurd h hj, fun _ h => nomatch h⟩
      | some y =>
        rcases h j y hj hy with ⟨o', ho, ha⟩ | he
        · exact ⟨o', fun h => absurd h hj, fun y' h' => by cases h'; exact ⟨.inl ha, fun _ => ho⟩⟩
        · exact ⟨silent, fun h => absurd h hj, fun y' h' => by cases h'; exact ⟨.inr ⟨he, rfl⟩, fun _ => hP⟩⟩
  obtain ⟨G, hG⟩ := Classical.axiomOfChoice this
  have hget : ∀ j : Nat, (w.requests.mapIdx fun j _ => G j)[j]? = (w.requests[j]?).map fun _ => G j := fun j => List.getElem?_mapIdx ..
  have hno : (w.requests.mapIdx fun j _ => G j)[n]? = some o := by
    rw [hget, hn, Option.map_some, (hG n).1 rfl]
  obtain ⟨F, _, h2, h3⟩ := web_ops (cfg := cfg) (ext := ext) (lib := lib) (auth := auth) (w := w) (os := w.requests.mapIdx fun j _ => G j)
    (by simp) (by
      intro j y o' hy ho'
      rw [hget, hy] at ho'
      cases ho'
      exact ((hG j).2 y hy).1)
  refine ⟨⟨w.requests.mapIdx fun j _ => G j, w.steps⟩, rfl, hno, ?_, fun fs => ⟨(h3 fs).1, ?_⟩⟩
  · intro j o' hj ho'
    rw [hget, Option.map_eq_some_iff] at ho'
    obtain ⟨y, hy, rfl⟩ := ho'
    exact ((hG j).2 y hy).2 hj
  · obtain ⟨c, hc, hr, hF⟩ := h2 n x o hn hno hx
    refine ⟨c, hc, hr, fun r hres => ?_⟩
    rw [(h3 fs).2 n, hF] at hres
    have hends := runParF_ends (cfg := cfg) (D := fun _ => True)
      (E := fun i e => ∀ o, (w.requests.mapIdx fun j _ => G j)[i]? = some o → e ∈ operationErrors o) w.steps
      (ps := (w.requests.mapIdx fun j _ => G j).map (opProg cfg ext)) (fs := fs) (by
        intro i p hp
        rw [List.getElem?_map, Option.map_eq_some_iff] at hp
        obtain ⟨o', ho', rfl⟩ := hp
        exact (fails_op cfg ext o').mono fun e he o2 ho2 => by rw [ho'] at ho2; cases ho2; exact he) n
    simp only [Epoch.answered]
    cases hp : (runParF cfg w.steps ((w.requests.mapIdx fun j _ => G j).map (opProg cfg ext)) fs).1[n]? with
    | none => rw [hp] at hres; cases hres
    | some p =>
      rw [hp] at hres
      have he := hends p hp
      cases p with
      | ret a => exact .inl ⟨a, rfl, hres⟩
      | fail err => exact .inr (.inl ⟨err, he o hno, rfl, hres⟩)
      | panic => exact he.elim
      | diverge => exact .inr (.inr ⟨rfl, by cases hres; rfl⟩)
      | sys _ _ => cases hres

theorem webLife_life {P : Op → Prop} (hP : P silent) {ws : List WebEpoch} (h : ∀ w ∈ ws, ∀ x ∈ w.requests, AsksIn cfg ext lib auth P x) :
    ∃ es : List Epoch, (∀ e ∈ es, ∀ o ∈ e.requests, P o) ∧ ∀ fs, life cfg ext es fs = webLife cfg ext lib auth ws fs := by
  induction ws with
  | nil => exact ⟨[], (fun _ h => nomatch h), fun _ => rfl⟩
  | cons w ws ih =>
    obtain ⟨es, h1, h2⟩ := ih fun w' hw' => h w' (List.mem_cons_of_mem _ hw')
    obtain ⟨e, h3, h4⟩ := web_epoch hP (h w (by simp))
    refine ⟨e :: es, fun e' he' => ?_, fun fs => ?_⟩
    · rcases List.mem_cons.mp he' with rfl | he'
      · exact h3
      · exact h1 e' he'
    · simp only [life, webLife, h4, h2]

end S3
