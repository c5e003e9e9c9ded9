import Verif.Lemmas.Concerns
import Verif.Props.Accounted
/-! C124: whatever is sent. -/
namespace S3
open Spec

variable {cfg : Cfg} {ext : Ext} {lib : Lib} {auth : Option Provider}

/-- **C124** Whatever is sent - well-formed or not, with parameters or headers that are repeated, unknown or contradict each other, signed or
not, answered, refused or ending in a panic: when none of the requests in a life of the server is a PUT, a POST or a DELETE, the disk is at the
end exactly as it was, at any number of requests at the same time, any failing system calls and any crashes. -/
theorem C124_other_methods {ws : List WebEpoch}
    (h : ∀ w ∈ ws, ∀ x ∈ w.requests, x.req.method ≠ b!"PUT" ∧ x.req.method ≠ b!"POST" ∧ x.req.method ≠ b!"DELETE") {fs : FS} (hw : WF fs) :
    webLife cfg ext lib auth ws fs = fs := by
  obtain ⟨es, h1, h2⟩ := any_life (cfg := cfg) (ext := ext) (lib := lib) (auth := auth) ws
  rw [← h2]
  refine (life_inv (J := fun x => x = fs) (fun o ho x c f _ hj hc => ?_) h1 hw rfl).1
  obtain ⟨w, hw, y, hy, ho⟩ := ho
  obtain ⟨m1, m2, m3⟩ := h w hw y hy
  rw [execF_reading (concerns_reading ho m1 m2 m3 hc), hj]

/-- **C124** Whatever is sent, a file below the storage directory keeps its content, and none appears, unless the method, the address and the
upload id of one of the requests say that this file is concerned. No header, no other parameter, no body and no failure makes a request
change any other file. -/
theorem C124_files {ws : List WebEpoch} {fs : FS} (hw : WF fs) {p : List Bytes}
    (h : ∀ w ∈ ws, ∀ x ∈ w.requests, ¬ TouchesFile cfg.root x.req p) :
    contentAt (webLife cfg ext lib auth ws fs) (cfg.root ++ p) = contentAt fs (cfg.root ++ p) := by
  obtain ⟨es, h1, h2⟩ := any_life (cfg := cfg) (ext := ext) (lib := lib) (auth := auth) ws
  rw [← h2]
  have hF := (life_inv (cfg := cfg) (ext := ext) (J := fun x => Frame (· ≠ cfg.root ++ p) (fun _ => True) fs x) (fun o ho x c f hx hj hc => by
    obtain ⟨w, hw, y, hy, ho⟩ := ho
    exact hj.trans (execF_frame hx (concerns_file ho (h w hw y hy) hc) f)) h1 hw (.refl ..)).1
  rcases hF.node (cfg.root ++ p) (fun h => h rfl) with e | ⟨_, e1, e2⟩
  · simp only [contentAt, e]
    split
    · rename_i i hi
      rw [hF.data i (fun h => h (hw.ino _ _ hi).1)]
    · rfl
  · simp only [contentAt, e1, e2]

/-- **C124** Whatever is sent, a folder below the storage directory neither appears nor disappears, unless the method and the address of one of
the requests say so. -/
theorem C124_folders {ws : List WebEpoch} {fs : FS} (hw : WF fs) {d : List Bytes}
    (h : ∀ w ∈ ws, ∀ x ∈ w.requests, ¬ TouchesFolder cfg.root x.req d) :
    IsDir (webLife cfg ext lib auth ws fs) (cfg.root ++ d) ↔ IsDir fs (cfg.root ++ d) := by
  obtain ⟨es, h1, h2⟩ := any_life (cfg := cfg) (ext := ext) (lib := lib) (auth := auth) ws
  rw [← h2]
  refine (life_inv (cfg := cfg) (ext := ext) (J := fun x => IsDir x (cfg.root ++ d) ↔ IsDir fs (cfg.root ++ d)) (fun o ho x c f hx hj hc => ?_)
    h1 hw .rfl).1
  obtain ⟨w, hw, y, hy, ho⟩ := ho
  obtain ⟨k1, k2⟩ := concerns_folder ho (h w hw y hy) hc
  exact ⟨fun hd => hj.mp ((execF_noNew hx f).2 k2 hd), fun hd => execF_sparesDir k1 f (hj.mpr hd)⟩

/-- an upload with its length given twice, a GET with the same parameter twice, and a request with an unknown method -/
def Sample.webTwice : Exchange :=
  Sample.exchange (Sample.plain b!"PUT" b!"/aaa/x" none [(b!"content-length", b!"3"), (b!"content-length", b!"5")] [some b!"new"])
def Sample.webRepeated : Exchange := Sample.exchange (Sample.plain b!"GET" b!"/aaa" (some b!"prefix=a&prefix=b") [] [])
def Sample.webUnknown : Exchange := Sample.exchange (Sample.plain b!"PATCH" b!"/aaa/x" none [] [some b!"new"])
def Sample.webTwiceRun : WebEpoch := ⟨[Sample.webTwice, Sample.webRepeated, Sample.webUnknown], (List.replicate 12 [(0, .none), (1, .none), (2, .none)]).flatten⟩
def Sample.webReadRun : WebEpoch := ⟨[Sample.webRepeated, Sample.webUnknown], (List.replicate 12 [(0, .none), (1, .after)]).flatten⟩

/-- The three requests are answered 200, 200 and 500; after them `aaa/x` has changed, and `bbb/y`, which none of them names, has not. -/
example : WF Sample.fs ∧
    (∀ w ∈ [Sample.webReadRun], ∀ x ∈ w.requests, x.req.method ≠ b!"PUT" ∧ x.req.method ≠ b!"POST" ∧ x.req.method ≠ b!"DELETE") ∧
    contentAt (webLife Sample.cfg Sample.ext Sample.lib none [Sample.webTwiceRun] Sample.fs) (Sample.cfg.root ++ [b!"aaa", b!"x"]) ≠
      contentAt Sample.fs (Sample.cfg.root ++ [b!"aaa", b!"x"]) ∧
    (contentAt Sample.fs (Sample.cfg.root ++ [b!"bbb", b!"y"])).isSome = true ∧
    (∀ w ∈ [Sample.webTwiceRun], ∀ x ∈ w.requests, ¬ TouchesFile Sample.cfg.root x.req [b!"bbb", b!"y"]) ∧
    IsDir Sample.fs (Sample.cfg.root ++ [b!"bbb"]) ∧
    ∀ w ∈ [Sample.webTwiceRun], ∀ x ∈ w.requests, ¬ TouchesFolder Sample.cfg.root x.req [b!"bbb"] := by
  have hat : At Sample.webTwice.req (.object b!"aaa" b!"x") :=
    Sample.at_object rfl (by decide +kernel) (by decide +kernel) (by decide) (by decide)
  refine ⟨Sample.fs_wf, ?_, by decide +kernel, by decide +kernel, ?_, by unfold IsDir; decide +kernel, ?_⟩
  · intro w hw x hx
    cases List.mem_singleton.mp hw
    simp only [Sample.webReadRun, List.mem_cons, List.not_mem_nil, or_false] at hx
    rcases hx with rfl | rfl <;> decide +kernel
  · intro w hw x hx
    cases List.mem_singleton.mp hw
    simp only [Sample.webTwiceRun, List.mem_cons, List.not_mem_nil, or_false] at hx
    rcases hx with rfl | rfl | rfl
    · intro h
      cases h with
      | put _ h hp =>
        cases Sample.at_unique hat h
        exact absurd (place_iff.mp hp) (by decide +kernel)
      | part _ _ hq => exact absurd hq (by simp [queryOf, Sample.webTwice, Sample.exchange, Sample.plain])
      | complete hm => exact absurd hm (by decide +kernel)
      | consume hm => exact absurd hm (by decide +kernel)
      | post hm => exact absurd hm (by decide +kernel)
      | delete hm => exact absurd hm (by decide +kernel)
      | remove hm => exact absurd hm (by decide +kernel)
    · intro h; cases h <;> exact absurd (by assumption) (show Sample.webRepeated.req.method ≠ _ by decide +kernel)
    · intro h; cases h <;> exact absurd (by assumption) (show Sample.webUnknown.req.method ≠ _ by decide +kernel)
  · intro w hw x hx
    cases List.mem_singleton.mp hw
    simp only [Sample.webTwiceRun, List.mem_cons, List.not_mem_nil, or_false] at hx
    rcases hx with rfl | rfl | rfl
    · intro h
      cases h with
      | create _ h => cases Sample.at_unique hat h
      | put _ h hp ha =>
        cases Sample.at_unique hat h
        obtain ⟨t, rfl⟩ := ha
        have := place_iff.mp hp
        rw [if_neg (by decide +kernel)] at this
        have hh := congrArg List.head? this
        rw [show ((keyComps b!"x").foldl dedotStep [b!"aaa"]).head? = some b!"aaa" from by decide +kernel] at hh
        exact absurd (Option.some.inj hh) (by decide)
      | post hm => exact absurd hm (by decide +kernel)
      | delete hm => exact absurd hm (by decide +kernel)
      | remove hm => exact absurd hm (by decide +kernel)
    · intro h; cases h <;> exact absurd (by assumption) (show Sample.webRepeated.req.method ≠ _ by decide +kernel)
    · intro h; cases h <;> exact absurd (by assumption) (show Sample.webUnknown.req.method ≠ _ by decide +kernel)

end S3
