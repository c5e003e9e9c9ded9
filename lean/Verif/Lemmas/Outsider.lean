import Verif.Spec.Outsider
import Verif.Spec.Concerns
import Verif.Props.Access
import Verif.Lemmas.Sweep
/-! Requests that are refused make no step. -/
namespace S3
open Spec

variable {cfg : Cfg} {ext : Ext} {lib : Lib}

/-- the errors of a computation are client or server errors -/
def Fails4xx {α : Type} (r : Except S3ErrorCode α) : Prop := ∀ e, r = .error e → 400 ≤ e.httpStatus

theorem Fails4xx.bind {α β : Type} {r : Except S3ErrorCode α} {f : α → Except S3ErrorCode β} (h : Fails4xx r) (hf : ∀ a, Fails4xx (f a)) :
    Fails4xx (r >>= f) := by
  cases r with
  | error e => intro e' he; cases he; exact h e rfl
  | ok a => exact hf a

/-- the same, where the value that is there is known -/
theorem Fails4xx.given {α β : Type} {e : S3ErrorCode} {a : α} {f : α → Except S3ErrorCode β} (hf : Fails4xx (f a)) : Fails4xx (S3.orErr e (some a) >>= f) := hf

theorem Fails4xx.ok {α : Type} (a : α) : Fails4xx (.ok a) := fun _ h => nomatch h
theorem Fails4xx.orErr {α : Type} {e : S3ErrorCode} (he : 400 ≤ e.httpStatus) (o : Option α) : Fails4xx (orErr e o) := by
  intro e' h; cases o <;> cases h; exact he
theorem Fails4xx.ensure {e : S3ErrorCode} (he : 400 ≤ e.httpStatus) (b : Bool) : Fails4xx (ensure e b) := by
  intro e' h; cases b <;> cases h; exact he
theorem Fails4xx.extractOpt {α : Type} {e : S3ErrorCode} (he : 400 ≤ e.httpStatus) (parse : Bytes → Option α) (v : Option Bytes) :
    Fails4xx (extractOpt e parse v) := by
  intro e' h
  cases v with
  | none => cases h
  | some v =>
    simp only [S3.extractOpt] at h
    split at h <;> cases h
    exact he

theorem Fails4xx.path (u : Bytes) : Fails4xx (extractS3Path u) := by
  intro e h
  unfold extractS3Path at h
  split at h
  · cases h
  · rename_i k _
    cases h
    cases k <;> decide

theorem Fails4xx.form (r : Except FormError Form) : Fails4xx (formOr r) := by
  intro e h
  unfold formOr at h
  split at h <;> cases h
  decide

theorem Fails4xx.payload (sha : AmzContentSha256) (b : Body) : Fails4xx (headerPayload sha b) := by
  intro e h
  unfold headerPayload at h
  split at h
  · cases h
  · split at h <;> cases h
    decide

theorem Fails4xx.secret {p : Provider} (hp : ∀ key e, p key = .error (.other e) → 400 ≤ e.httpStatus) (k : Bytes) : Fails4xx (fetchSecretKey p k) := by
  intro e h
  unfold fetchSecretKey at h
  split at h
  · cases h
  · cases h; decide
  · rename_i e' he
    cases h
    exact hp _ _ he

theorem refused_4xx {p : Provider} (hp : ∀ key e, p key = .error (.other e) → 400 ≤ e.httpStatus) (r : Req) : Fails4xx (admit lib (some p) r) := by
  have opt : ∀ {α : Type} {e : S3ErrorCode} {parse : Bytes → Option α} {v : Option Bytes}, 400 ≤ e.httpStatus → Fails4xx (extractOpt e parse v) :=
    fun h => .extractOpt h _ _
  unfold admit
  refine .bind ?_ fun c => ?_
  · unfold makeCtx
    exact .bind (.orErr (by decide) _) fun _ => .bind (.path _) fun _ => .bind (.orErr (by decide) _) fun _ =>
      .bind (opt (by decide)) fun _ => .ok _
  · unfold checkSignature
    split
    · unfold checkPostSignature
      refine .given <| .bind (.orErr (by decide) _) fun _ => .bind (.form _) fun f => .bind ?_ fun _ => .ok _
      unfold checkPostForm
      exact .bind (.orErr (by decide) _) fun _ => .bind (.ensure (by decide) _) fun _ => .bind (.ensure (by decide) _) fun _ =>
        .bind (.orErr (by decide) _) fun _ => .bind (.orErr (by decide) _) fun _ => .bind (.secret hp _) fun _ => .ensure (by decide) _
    · split
      · unfold checkPresignedUrl
        exact .bind (.orErr (by decide) _) fun _ => .bind (opt (by decide)) fun _ => .given <|
          .bind (.secret hp _) fun _ => .bind (.ensure (by decide) _) fun _ => .ok _
      · unfold checkHeaderAuth
        split
        · rename_i e he
          intro e' h
          cases h
          exact opt (by decide) _ he
        · intro e h; cases h; decide
        · unfold checkAuthorization
          exact .given <| .bind (opt (by decide)) fun _ => .bind (.orErr (by decide) _) fun _ =>
            .bind (.secret hp _) fun _ => .bind (opt (by decide)) fun _ => .bind (.orErr (by decide) _) fun _ => .bind (.payload _ _) fun _ =>
            .bind (.ensure (by decide) _) fun _ => .ok _

theorem outsider_admit (hc : CryptoLaw lib.crypto) {p : Provider} {r : Req} (h : Outsider lib p r) : ∃ e, admit lib (some p) r = .error e := by
  cases ha : admit lib (some p) r with
  | error e => exact ⟨e, rfl⟩
  | ok c =>
    refine absurd ?_ h
    obtain ⟨key, secret, hk, hs⟩ := admit_signed hc ha
    refine ⟨key, secret, hk, ?_, ?_⟩
    · rcases hs with hs | hs | ⟨b, f, hf, ht, hs⟩
      · obtain ⟨v, a, _, _, _, _, _, h1, h2, h3, _⟩ := hs
        exact .inl ⟨v, a, h1, h2, h3⟩
      · obtain ⟨cred, cr, _, _, _, _, _, _, h1, h3⟩ := hs
        exact .inr (.inl ⟨cred, cr, h1.hasCred, h1.parsed, h3⟩)
      · obtain ⟨_, cred, cr, rest, _, _, _, h1, h2, h3, _⟩ := hs
        exact .inr (.inr ⟨f, cred, cr, rest, ⟨b, hf, ht⟩, h1, h2, h3⟩)
    · rcases hs with hs | hs | ⟨b, f, hf, ht, hs⟩
      · exact .inl hs
      · exact .inr (.inl hs)
      · exact .inr (.inr ⟨f, ⟨b, hf, ht⟩, hs⟩)

theorem outsider_ret (hc : CryptoLaw lib.crypto) {p : Provider} (hp : ∀ key e, p key = .error (.other e) → 400 ≤ e.httpStatus) {r : Req}
    (h : Outsider lib p r) (x : Texts) :
    ∃ res : Response, 400 ≤ res.status ∧ ∀ cfg ext env, hyperCall cfg ext lib (some p) env x r = .ret res := by
  obtain ⟨e, he⟩ := outsider_admit hc h
  obtain ⟨res, hr⟩ := errorResponse_ret x e
  refine ⟨res, (errorResponse_status hr).symm ▸ refused_4xx hp r e he, fun cfg ext env => ?_⟩
  simp only [hyperCall, handleResponse, he]
  exact hr

/-! ### programs that are through make no steps -/

/-- a program that is there is through -/
def Idle {α : Type} (o : Option (Prog α)) : Prop := ∀ p, o = some p → ∃ a, p = .ret a

theorem idle_sim {α : Type} (steps : List (Nat × Fault)) : ∀ (ps ps' : List (Prog α)) (fs : FS),
    (∀ n : Nat, ps'[n]? = ps[n]? ∨ Idle ps[n]? ∧ Idle ps'[n]?) →
    (runParF cfg steps ps' fs).2 = (runParF cfg steps ps fs).2 ∧
    ∀ n : Nat, ps'[n]? = ps[n]? → (runParF cfg steps ps' fs).1[n]? = (runParF cfg steps ps fs).1[n]? := by
  induction steps with
  | nil => intro ps ps' fs h; exact ⟨rfl, fun _ h => h⟩
  | cons s steps ih =>
    intro ps ps' fs h
    obtain ⟨i, f⟩ := s
    have skip : ∀ qs : List (Prog α), Idle qs[i]? → runParF cfg ((i, f) :: steps) qs fs = runParF cfg steps qs fs := by
      intro qs hq
      simp only [runParF]
      split
      · rfl
      · rename_i q hs
        obtain ⟨a, rfl⟩ := hq q hs
        have : qs.set i (.ret a) = qs := by
          apply List.ext_getElem?
          intro n
          rw [List.getElem?_set]
          split
          · rename_i e; subst e
            split
            · exact hs.symm
            · rename_i hlt; rw [List.getElem?_eq_none (by omega)]
          · rfl
        simp only [stepProgF, this]
    rcases h i with hi | ⟨hi, hi'⟩
    · simp only [runParF, hi]
      split
      · exact ih ps ps' fs h
      · rename_i q hs
        have here : (ps'.set i (stepProgF cfg q f fs).1)[i]? = (ps.set i (stepProgF cfg q f fs).1)[i]? := by
          rw [List.getElem?_set, List.getElem?_set, if_pos rfl, if_pos rfl, if_pos (List.getElem?_eq_some_iff.mp hs).1,
            if_pos (List.getElem?_eq_some_iff.mp (hi.trans hs)).1]
        have := ih (ps.set i (stepProgF cfg q f fs).1) (ps'.set i (stepProgF cfg q f fs).1) (stepProgF cfg q f fs).2 (by
          intro n
          by_cases e : i = n
          · subst e; exact .inl here
          · rw [List.getElem?_set_ne e, List.getElem?_set_ne e]
            exact h n)
        refine ⟨this.1, fun n hn => this.2 n ?_⟩
        by_cases e : i = n
        · subst e; exact here
        · rw [List.getElem?_set_ne e, List.getElem?_set_ne e]
          exact hn
    · rw [skip ps hi, skip ps' hi']
      exact ih ps ps' fs h

theorem idle_step {α : Type} (steps : List (Nat × Fault)) {ps : List (Prog α)} {fs : FS} {n : Nat} {a : α} (h : ps[n]? = some (.ret a)) :
    (runParF cfg steps ps fs).1[n]? = some (.ret a) := by
  induction steps generalizing ps fs with
  | nil => exact h
  | cons s steps ih =>
    obtain ⟨i, f⟩ := s
    simp only [runParF]
    split
    · exact ih h
    · rename_i q hs
      apply ih
      by_cases e : i = n
      · subst e
        cases hs.symm.trans h
        rw [List.getElem?_set, if_pos rfl, if_pos (List.getElem?_eq_some_iff.mp h).1]
        rfl
      · rw [List.getElem?_set_ne e]; exact h

theorem same_progs (hc : CryptoLaw lib.crypto) {p : Provider} (hp : ∀ key e, p key = .error (.other e) → 400 ≤ e.httpStatus)
    {w w' : WebEpoch} (h : SameInsiders lib p w w') (n : Nat) :
    (w'.requests.map fun x => hyperCall cfg ext lib (some p) x.env x.texts x.req)[n]? =
        (w.requests.map fun x => hyperCall cfg ext lib (some p) x.env x.texts x.req)[n]? ∨
      Idle (w.requests.map fun x => hyperCall cfg ext lib (some p) x.env x.texts x.req)[n]? ∧
      Idle (w'.requests.map fun x => hyperCall cfg ext lib (some p) x.env x.texts x.req)[n]? := by
  have idle : ∀ l : List Exchange, (∀ x, l[n]? = some x → Outsider lib p x.req) →
      Idle (l.map fun x => hyperCall cfg ext lib (some p) x.env x.texts x.req)[n]? := by
    intro l hl q hq
    rw [List.getElem?_map, Option.map_eq_some_iff] at hq
    obtain ⟨x, hx, rfl⟩ := hq
    obtain ⟨res, _, hr⟩ := outsider_ret hc hp (hl x hx) x.texts
    exact ⟨res, hr _ _ _⟩
  rcases h.requests n with e | ⟨h1, h2⟩
  · exact .inl (by rw [List.getElem?_map, List.getElem?_map, e])
  · exact .inr ⟨idle _ h1, idle _ h2⟩

end S3
