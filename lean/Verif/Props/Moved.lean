import Verif.Lemmas.MovedStart
import Verif.Props.Root
/-! C121: where the store is kept makes no difference. -/
namespace S3
open Spec

variable {cfg cfg' : Cfg} {ext : Ext} {lib : Lib} {auth : Option Provider}

/-- **C121** (partial) A store is moved to another place (another directory, with other files around it, another working directory of the
server). It is served at both places: the same requests, at the same time in the same order of system calls, with the same failures of the
disk, cut off at the same moments, over any number of starts. Then all requests get the same responses, to the byte; and at
the end the two stores have the same content again. The requests may be any that ask for operations, or that are refused. Missing from the
full property: keys that start with a slash, for which it is false, see `C121_absolute_key_fails`; and uploads to keys that
lead to the storage directory itself. -/
theorem C121_moved_partial {fs fs' : FS} (h : SameStore cfg fs cfg' fs') {ws : List WebEpoch}
    (hr : ∀ w ∈ ws, ∀ x ∈ w.requests, RelativeRequest cfg.root ext lib auth x) :
    (∀ before w later, ws = before ++ w :: later → ∀ n,
      (w.servedAt cfg.root).response cfg ext lib auth (webLife cfg ext lib auth (before.map (·.servedAt cfg.root)) fs) n =
      (w.servedAt cfg'.root).response cfg' ext lib auth (webLife cfg' ext lib auth (before.map (·.servedAt cfg'.root)) fs') n) ∧
    archive cfg.root (webLife cfg ext lib auth (ws.map (·.servedAt cfg.root)) fs) =
      archive cfg'.root (webLife cfg' ext lib auth (ws.map (·.servedAt cfg'.root)) fs') := by
  refine ⟨?_, (life_moved h.twins h.agree hr).archives⟩
  rintro before w later rfl n
  exact (epoch_moved h.twins (life_moved h.twins h.agree fun e he => hr e (by simp [he])) (hr w (by simp))).2 n

/-- **C121** (partial) The same for requests that come one after the other on a sound disk: each gets the same response at both places, and
leaves the same content. Missing from the full property: the same as for `C121_moved_partial`. -/
theorem C121_one_partial {fs fs' : FS} (h : SameStore cfg fs cfg' fs') {x : Exchange} (hr : RelativeRequest cfg.root ext lib auth x) :
    responded cfg ext lib auth x.env x.texts x.req fs = responded cfg' ext lib auth x.env x.texts x.req fs' ∧
    archive cfg.root (afterResponded cfg ext lib auth x.env x.texts x.req fs) =
      archive cfg'.root (afterResponded cfg' ext lib auth x.env x.texts x.req fs') := by
  obtain ⟨h1, h2⟩ := Sim.run h.len _ h.agree (request_sim h.twins hr)
  exact ⟨h1, h2.archives⟩

/-- a store at `root`, with one object; beside it there is another file -/
def Sample.kept (root : Path) : FS :=
  (run Sample.cfg (do
    let _ ← call (.mkdir [b!"mnt"])
    let _ ← call (.mkdir root)
    let _ ← call (.mkdir (root ++ [b!"aaa"]))
    match ← call (.create ⟨root ++ [b!"aaa", b!"x"], false⟩) with
    | some i => let _ ← call (.writeAt i 0 b!"hello")
    | none => return ()) Sample.empty).2

theorem Sample.kept_unused {r : Path} (h : r = [b!"srv"] ∨ r = [b!"mnt", b!"data"]) : Unused (Sample.kept r) := by
  intro i hg
  by_cases hi : i = ⟨r ++ [b!"aaa", b!"x"], 0⟩
  · subst hi
    rcases h with rfl | rfl <;> exact absurd hg (by decide +kernel)
  · have : (Sample.kept r).data i =
        if i = ⟨r ++ [b!"aaa", b!"x"], 0⟩ then b!"hello" else if i = ⟨r ++ [b!"aaa", b!"x"], 0⟩ then [] else [] := by
      rcases h with rfl | rfl <;> rfl
    rw [this, if_neg hi, if_neg hi]

/-- a server at `/mnt/data`, started in another directory -/
def Sample.cfg2 : Cfg := { Sample.cfg with root := [b!"mnt", b!"data"], cwd := [b!"mnt"] }

theorem Sample.sameStore : SameStore Sample.cfg (Sample.kept [b!"srv"]) Sample.cfg2 (Sample.kept [b!"mnt", b!"data"]) where
  trees := ⟨run_wf _ _ Sample.empty_wf, run_wf _ _ Sample.empty_wf⟩
  places := by decide
  dirs := by unfold IsDir; decide +kernel
  numbers := ⟨Sample.kept_unused (.inl rfl), Sample.kept_unused (.inr rfl)⟩
  content := by decide +kernel
  slash := rfl
  len := rfl

theorem Sample.relative {k : Bytes} (h : startsWith k b!"/" = false) : RelativeKey k := by
  intro t ht
  rw [startsWith_iff.mpr ⟨t, ht⟩] at h
  cases h

theorem Sample.moved_requests {x : Exchange} (hx : x ∈ [Sample.webPut, Sample.webCopy, Sample.webDelete2, Sample.webBad, Sample.webDelete]) :
    RelativeRequest Sample.cfg.root Sample.ext Sample.lib none x := by
  have hc : RelativeKeys Sample.cfg.root (.copyObject b!"aaa" b!"z" b!"aaa/x") := by
    refine ⟨Sample.relative rfl, fun sb sk h hl => ?_⟩
    obtain ⟨_, rfl⟩ := C62_copy_source_unique b!"aaa" b!"x" sb sk (Sample.legal (by decide +kernel)) hl h
    exact Sample.relative rfl
  simp only [List.mem_cons, List.not_mem_nil, or_false] at hx
  rcases hx with rfl | rfl | rfl | rfl | rfl
  · refine .inl ⟨.putObject Sample.webInput, ⟨Sample.relative rfl, ?_⟩, Sample.webPut_asks⟩
    rw [place_iff]
    decide +kernel
  · exact .inl ⟨_, hc, Sample.asks (by decide +kernel) (.copyObject (sb := b!"aaa") (sk := b!"x") rfl
      (Sample.at_object rfl (by decide +kernel) (by decide +kernel) (by decide) (by decide))
      (Sample.selects_none rfl) (Sample.value_header (by decide +kernel)) (Sample.legal (by decide +kernel)) (by decide) (by decide) (by decide))⟩
  · exact .inl ⟨.deleteObject b!"bbb" b!"y", Sample.relative rfl, Sample.asks (by decide +kernel) (.deleteObject rfl
      (Sample.at_object rfl (by decide +kernel) (by decide +kernel) (by decide) (by decide)) (Sample.selects_none rfl)
      ⟨none, Sample.no_header (by decide +kernel), .inl rfl⟩)⟩
  · refine .inr ⟨.InvalidBucketName, fun cfg => ?_⟩
    have h : (match admit Sample.lib none Sample.webBad.req with | .ok _ => false | .error e => e == .InvalidBucketName) = true := by
      decide +kernel
    cases hc : admit Sample.lib none Sample.webBad.req with
    | error e =>
      rw [hc] at h
      simp only [beq_iff_eq] at h
      simp only [handle, hc, h]
      rfl
    | ok c =>
      rw [hc] at h
      cases h
  · exact .inl ⟨.deleteObject b!"aaa" b!"x", Sample.relative rfl, Sample.webDelete_asks⟩

/-- the upload beside a copy that meets errors, then a start after which an object is deleted; at `/srv` and at `/mnt/data` -/
example : SameStore Sample.cfg (Sample.kept [b!"srv"]) Sample.cfg2 (Sample.kept [b!"mnt", b!"data"]) ∧
    (∀ w ∈ [Sample.webRun, Sample.webRun4], ∀ x ∈ w.requests, RelativeRequest Sample.cfg.root Sample.ext Sample.lib none x) ∧
    Sample.webStatus (Sample.webRun.response Sample.cfg2 Sample.ext Sample.lib none (Sample.kept [b!"mnt", b!"data"]) 0) = some (200, some []) := by
  refine ⟨Sample.sameStore, fun w hw x hx => Sample.moved_requests ?_, by decide +kernel⟩
  simp only [List.mem_cons, List.not_mem_nil, or_false] at hw ⊢
  rcases hw with rfl | rfl
  · simp only [Sample.webRun, List.mem_cons, List.not_mem_nil, or_false] at hx
    rcases hx with h | h | h | h <;> simp [h]
  · simp only [Sample.webRun4, List.mem_cons, List.not_mem_nil, or_false] at hx
    rcases hx with h | h <;> simp [h]

/-- one upload, at `/srv` and at `/mnt/data` -/
example : SameStore Sample.cfg (Sample.kept [b!"srv"]) Sample.cfg2 (Sample.kept [b!"mnt", b!"data"]) ∧
    RelativeRequest Sample.cfg.root Sample.ext Sample.lib none Sample.webPut ∧
    Sample.code (responded Sample.cfg Sample.ext Sample.lib none Sample.webPut.env Sample.webPut.texts Sample.webPut.req (Sample.kept [b!"srv"])) = some 200 :=
  ⟨Sample.sameStore, Sample.moved_requests (by simp), by decide +kernel⟩

/-- **C121** (negation) A key that starts with a slash is a path of the machine: the object that is read as `/srv/aaa/x` when the store is kept
in `/srv` is not found any more when the store has been moved to `/mnt/data`: the response is 500. -/
theorem C121_absolute_key_fails :
    ∃ (cfg cfg' : Cfg) (ext : Ext) (lib : Lib) (env : Env) (x : Texts) (fs fs' : FS) (get : Req), SameStore cfg fs cfg' fs' ∧
      get.method = b!"GET" ∧ At get (.object b!"aaa" b!"/srv/aaa/x") ∧
      Sample.code (responded cfg ext lib none env x get fs) = some 200 ∧ Sample.code (responded cfg' ext lib none env x get fs') = some 500 :=
  ⟨Sample.cfg, Sample.cfg2, Sample.ext, Sample.lib, Sample.env, Sample.texts, _, _, Sample.plain b!"GET" b!"/aaa//srv/aaa/x" none [] [],
    Sample.sameStore, rfl, Sample.at_object rfl (by decide +kernel) (by decide +kernel) (by decide) (by decide), by decide +kernel, by decide +kernel⟩

end S3
