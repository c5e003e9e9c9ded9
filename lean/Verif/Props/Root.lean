import Verif.Lemmas.Concerns
import Verif.Props.WebLife
/-! C120: the storage directory survives. -/
namespace S3
open Spec

variable {cfg : Cfg} {ext : Ext} {lib : Lib} {auth : Option Provider}

/-- **C120** (partial) In every life of the server - any requests at the same time, well-formed or not, any failing system calls, cut off and
started again at any moment - the storage directory stays a directory, as long as no DELETE is addressed to a key that leads to the storage
directory itself. Missing from the full property: those keys, for which it is false, see `C120_root_removed_fails`. -/
theorem C120_root_partial {ws : List WebEpoch}
    (h : ∀ w ∈ ws, ∀ x ∈ w.requests, x.req.method = b!"DELETE" → ∀ b k, At x.req (.object b k) → ¬ Place cfg.root b k [])
    {fs : FS} (hw : WF fs) (hr : IsDir fs cfg.root) : IsDir (webLife cfg ext lib auth ws fs) cfg.root := by
  obtain ⟨es, h1, h2⟩ := any_life (cfg := cfg) (ext := ext) (lib := lib) (auth := auth) ws
  rw [← h2]
  refine (life_inv (J := fun fs => IsDir fs cfg.root) (fun o ho fs c f _ hj hc => ?_) h1 hw hr).1
  obtain ⟨w, hw, x, hx, ho⟩ := ho
  refine execF_sparesDir (ok_spares (concerns_legal ho) ?_ hc) f hj
  cases ho <;> first | trivial | skip
  case deleteObject h1 h2 => exact h w hw x hx h1 _ _ h2

/-- **C120** Whatever the requests and their keys, well-formed or not: the storage directory can only be removed at a moment when there is nothing in it. If
there is something in it at every moment of a life of the server, it is there at the end. -/
theorem C120_only_empty {ws : List WebEpoch} {fs : FS} (hw : WF fs) (hr : IsDir fs cfg.root)
    (he : ∀ fs', AtSomeTime cfg ext lib auth ws fs fs' → HasEntry fs' cfg.root) : IsDir (webLife cfg ext lib auth ws fs) cfg.root := by
  induction ws generalizing fs with
  | nil => exact hr
  | cons w ws ih =>
    obtain ⟨os, h1, h2⟩ := any_cut (cfg := cfg) (ext := ext) (lib := lib) (auth := auth) w
    have hw' : WF (w.leaves cfg ext lib auth fs) := runParF_wf hw
    refine ih hw' ?_ ?_
    · rw [show w.leaves cfg ext lib auth fs = (⟨os, w.steps⟩ : Epoch).leaves cfg ext fs from (h2 w.steps fs).symm]
      refine runParF_guarded (ok := fun c => ∃ o, LegalDelete o ∧ (opPerm cfg o).ok c) (J := fun fs => IsDir fs cfg.root)
        (E := fun fs => HasEntry fs cfg.root) (fun fs c f _ hj he hc => ?_) ?_ hw hr ?_
      · obtain ⟨o, ho, hc⟩ := hc
        exact ok_entry ho hc f hj he
      · intro p hp
        obtain ⟨o, ho, rfl⟩ := List.mem_map.mp hp
        obtain ⟨x, _, hx⟩ := h1 o ho
        exact (op_safe cfg ext o).mono (fun c hc => ⟨o, concerns_legal hx, hc⟩) (fun _ h => h)
      · intro n
        exact he _ ⟨[], w, ws, n, rfl, h2 (w.steps.take n) fs⟩
    · rintro fs' ⟨before, w', later, n, rfl, rfl⟩
      exact he _ ⟨w :: before, w', later, n, rfl, rfl⟩

/-- an empty storage directory -/
def Sample.emptyStore : FS := (run Sample.cfg (call (.mkdir [b!"srv"])) Sample.empty).2

/-- a DELETE of the folder object `../` -/
def Sample.deleteUp : Req := Sample.plain b!"DELETE" b!"/aaa/%2E%2E/" none [] []

theorem Sample.deleteUp_asks : Asks Sample.lib none (Sample.exchange Sample.deleteUp) (.deleteObject b!"aaa" b!"../") :=
  Sample.asks (by decide +kernel) (.deleteObject rfl
    ⟨b!"/aaa/../", by decide +kernel, .object b!"aaa" b!"../" (Sample.legal (by decide +kernel)) (by decide) (by decide)⟩ (Sample.selects_none rfl)
    ⟨none, Sample.no_header (by decide +kernel), .inl rfl⟩)

theorem Sample.at_unique {r : Req} {a a' : Address} (h : At r a) (h' : At r a') : a = a' := by
  obtain ⟨p, h1, h2⟩ := h
  obtain ⟨p', h3, h4⟩ := h'
  rw [h1] at h3; cases h3
  exact C01_address_unique _ _ _ h2 h4

/-- a life in which an object is deleted, and one in which the key `../` is deleted while there are buckets: the storage directory is
there at the end of both, and in the second there is something in it at every moment -/
example : WF Sample.fs ∧ IsDir Sample.fs Sample.cfg.root ∧
    (∀ w ∈ [Sample.webRun4, Sample.webRun2], ∀ x ∈ w.requests, x.req.method = b!"DELETE" → ∀ b k, At x.req (.object b k) →
      ¬ Place Sample.cfg.root b k []) ∧ Sample.webDelete.req.method = b!"DELETE" ∧
    Asks Sample.lib none (Sample.exchange Sample.deleteUp) (.deleteObject b!"aaa" b!"../") ∧
    ∀ fs', AtSomeTime Sample.cfg Sample.ext Sample.lib none [⟨[Sample.exchange Sample.deleteUp], List.replicate 4 (0, .none)⟩] Sample.fs fs' →
      HasEntry fs' Sample.cfg.root := by
  refine ⟨Sample.fs_wf, by unfold IsDir; decide +kernel, ?_, rfl, Sample.deleteUp_asks, ?_⟩
  · intro w hw x hx hm b k ha
    have hd : x = Sample.webDelete := by
      simp only [List.mem_cons, List.not_mem_nil, or_false] at hw
      rcases hw with rfl | rfl
      · simp only [Sample.webRun4, List.mem_cons, List.not_mem_nil, or_false] at hx
        rcases hx with rfl | rfl
        · exact absurd hm (by decide +kernel)
        · rfl
      · simp only [Sample.webRun2, List.mem_cons, List.not_mem_nil, or_false] at hx
        rcases hx with rfl | rfl
        · exact absurd hm (by decide +kernel)
        · exact absurd hm (by decide +kernel)
    subst hd
    have hat : At Sample.webDelete.req (.object b!"aaa" b!"x") :=
      Sample.at_object rfl (by decide +kernel) (by decide +kernel) (by decide) (by decide)
    cases Sample.at_unique hat ha
    rw [place_iff]; decide +kernel
  · rintro fs' ⟨before, w, later, n, h1, rfl⟩
    cases before with
    | cons a r => simp at h1
    | nil =>
      obtain ⟨rfl, rfl⟩ := List.cons.inj h1
      refine ⟨b!"aaa", ?_⟩
      rcases n with _ | _ | _ | _ | n
      · decide +kernel
      · decide +kernel
      · decide +kernel
      · decide +kernel
      · rw [WebEpoch.cut, List.take_of_length_le (by simp)]
        decide +kernel

/-- **C120** (negation) A store that is empty is destroyed by the DELETE of the object with key `../`: it is answered 204, and then there is no
storage directory any more; neither the buckets can be listed nor can one be created. -/
theorem C120_root_removed_fails :
    ∃ (cfg : Cfg) (ext : Ext) (lib : Lib) (env : Env) (x : Texts) (fs fs' : FS) (delete list create : Req), WF fs ∧ IsDir fs cfg.root ∧
      delete.method = b!"DELETE" ∧ At delete (.object b!"aaa" b!"../") ∧ list.method = b!"GET" ∧ At list .root ∧
      create.method = b!"PUT" ∧ At create (.bucket b!"aaa") ∧
      Sample.code (responded cfg ext lib none env x list fs) = some 200 ∧ Sample.code (responded cfg ext lib none env x create fs) = some 200 ∧
      Sample.code (responded cfg ext lib none env x delete fs) = some 204 ∧ afterResponded cfg ext lib none env x delete fs = fs' ∧
      fs'.lookup cfg.root = none ∧
      Sample.code (responded cfg ext lib none env x list fs') = some 500 ∧ Sample.code (responded cfg ext lib none env x create fs') = some 500 :=
  ⟨Sample.cfg, Sample.ext, Sample.lib, Sample.env, Sample.texts, Sample.emptyStore, _, Sample.deleteUp, Sample.plain b!"GET" b!"/" none [] [],
    Sample.plain b!"PUT" b!"/aaa" none [] [], run_wf _ _ Sample.empty_wf, by unfold IsDir; decide +kernel, rfl,
    ⟨b!"/aaa/../", by decide +kernel, .object b!"aaa" b!"../" (Sample.legal (by decide +kernel)) (by decide) (by decide)⟩, rfl, ⟨b!"/", by decide +kernel, .root⟩, rfl,
    Sample.at_bucket rfl (by decide +kernel) (by decide +kernel), by decide +kernel, by decide +kernel, by decide +kernel, rfl, by decide +kernel,
    by decide +kernel, by decide +kernel⟩

end S3
