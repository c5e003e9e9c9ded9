import Verif.Spec.Parts
import Verif.Props.WebLife
import Verif.Props.XmlBody
/-! C128: multipart uploads that outlive the server. -/
namespace S3
open Spec

variable {cfg : Cfg} {ext : Ext} {lib : Lib} {auth : Option Provider}

theorem webLife_append (ws ws' : List WebEpoch) (fs : FS) :
    webLife cfg ext lib auth (ws ++ ws') fs = webLife cfg ext lib auth ws' (webLife cfg ext lib auth ws fs) := by
  induction ws generalizing fs with
  | nil => rfl
  | cons w ws ih => exact ih _

/-! ### C128 -/

/-- **C128** (a part) A part that has been acknowledged is there, complete, after any number of crashes. -/
theorem C128_part {ws : List WebEpoch} {u : Bytes} {m : Int} {body : Body} (hu : (47 : UInt8) ∉ u) {fs : FS} (hw : WF fs)
    (h : Acknowledged cfg ext lib auth ws fs u m body) :
    unbroken body ∧ contentAt (webLife cfg ext lib auth ws fs) (partFile cfg u m) = some (received body) := by
  obtain ⟨before, w, later, n, x, res, rfl, hn, hx, hr, hs, ho, hos⟩ := h
  obtain ⟨h1, _, h2⟩ := C107_part (cfg := cfg) (ext := ext) hn hx hu ho hos (webLife_wf hw) hr hs
  exact ⟨h1, by rw [webLife_append]; exact h2⟩

/-- **C128** An upload in parts outlives the server: each part is sent in some run of it, maybe again after a crash, and acknowledged; in a
later run the upload is completed and this is answered 200. From then on, through crashes and restarts, the object is the parts in order,
until a request writes or deletes it or its bucket. -/
theorem C128_multipart {ws0 : List WebEpoch} {w : WebEpoch} {n : Nat} {x : Exchange} {u b k : Bytes} {cs : List Bytes} {bodies : List Body}
    (hu : (47 : UInt8) ∉ u) (hb : LegalBucket b) (hk : PlainKey k cs) {fs : FS} (hw : WF fs)
    (hparts : ∀ (j : Nat) body, bodies[j]? = some body → Acknowledged cfg ext lib auth ws0 fs u (j + 1) body)
    (hn : w.requests[n]? = some x) (hx : Asks lib auth x (.completeMultipartUpload b k u (some (numbers 0 bodies.length))))
    (ho : ∀ (j : Nat) y, j ≠ n → w.requests[j]? = some y →
      AsksIn cfg ext lib auth (Elsewhere (.completeMultipartUpload b k u (some (numbers 0 bodies.length)))) y)
    (hroot : IsDir (webLife cfg ext lib auth ws0 fs) cfg.root) (hfold : IsDir (webLife cfg ext lib auth ws0 fs) (cfg.root ++ b :: cs.dropLast))
    {res : Response} (h : w.response cfg ext lib auth (webLife cfg ext lib auth ws0 fs) n = some (.ok res)) (hs : res.status = 200)
    {ws : List WebEpoch} (hos : ∀ w' ∈ ws, ∀ y ∈ w'.requests, AsksIn cfg ext lib auth (OnOthers b (Away b k)) y) :
    stored cfg (webLife cfg ext lib auth (ws0 ++ w :: ws) fs) b k = some (bodies.map received).flatten := by
  rw [webLife_append]
  refine C107_complete (cfg := cfg) (ext := ext) (contents := bodies.map received) hn (by rw [List.length_map]; exact hx) hu hb hk
    (by rw [List.length_map]; exact ho) hos (webLife_wf hw) hroot hfold ?_ h hs
  intro j c hj
  rw [List.getElem?_map, Option.map_eq_some_iff] at hj
  obtain ⟨body, hj, rfl⟩ := hj
  exact (C128_part hu hw (hparts j body hj)).2

/-- **C128** (read back) A response 200 to a later GET of the object has the parts in order as its body (or a body that breaks off), and
their length and ETag. -/
theorem C128_read {ws0 : List WebEpoch} {w : WebEpoch} {n : Nat} {x : Exchange} {u b k : Bytes} {cs : List Bytes} {bodies : List Body}
    (hu : (47 : UInt8) ∉ u) (hb : LegalBucket b) (hk : PlainKey k cs) {fs : FS} (hw : WF fs)
    (hparts : ∀ (j : Nat) body, bodies[j]? = some body → Acknowledged cfg ext lib auth ws0 fs u (j + 1) body)
    (hn : w.requests[n]? = some x) (hx : Asks lib auth x (.completeMultipartUpload b k u (some (numbers 0 bodies.length))))
    (ho : ∀ (j : Nat) y, j ≠ n → w.requests[j]? = some y →
      AsksIn cfg ext lib auth (Elsewhere (.completeMultipartUpload b k u (some (numbers 0 bodies.length)))) y)
    (hroot : IsDir (webLife cfg ext lib auth ws0 fs) cfg.root) (hfold : IsDir (webLife cfg ext lib auth ws0 fs) (cfg.root ++ b :: cs.dropLast))
    {res : Response} (h : w.response cfg ext lib auth (webLife cfg ext lib auth ws0 fs) n = some (.ok res)) (hs : res.status = 200)
    {ws : List WebEpoch} (hos : ∀ w' ∈ ws, ∀ y ∈ w'.requests, AsksIn cfg ext lib auth (OnOthers b (Away b k)) y)
    {w' : WebEpoch} {n' : Nat} {y : Exchange} {wants : Nat → Nat} (hn' : w'.requests[n']? = some y) (hy : Asks lib auth y (.getObject b k none wants))
    (ho' : ∀ (j : Nat) z, j ≠ n' → w'.requests[j]? = some z → AsksIn cfg ext lib auth (Elsewhere (.getObject b k none wants)) z)
    {res' : Response} (h' : w'.response cfg ext lib auth (webLife cfg ext lib auth (ws0 ++ w :: ws) fs) n' = some (.ok res'))
    (hs' : res'.status = 200) :
    (res'.body = some (bodies.map received).flatten ∨ res'.body = none) ∧ HasETag res' (quoted (ext.md5hex (bodies.map received).flatten)) ∧
      HasLength res' (bodies.map received).flatten.length := by
  have hst := C128_multipart hu hb hk hw hparts hn hx ho hroot hfold h hs hos
  have hwl : WF (webLife cfg ext lib auth (ws0 ++ w :: ws) fs) := webLife_wf hw
  have hroot' : IsDir (webLife cfg ext lib auth (ws0 ++ w :: ws) fs) cfg.root := by
    have hst := hst
    rw [stored_plain (cfg := cfg) ((C02_bucket_name_rule _).mpr hb) hk, contentAt] at hst
    split at hst
    · rename_i j hj
      exact hwl.above hj (List.prefix_append _ _) (by simp)
    · cases hst
  obtain ⟨c, hc, hrest⟩ := C107_get hn' hy hb hk ho' hwl hroot' h' hs'
  rw [hst] at hc
  cases hc
  exact hrest

/-! ### the hypotheses are met -/

/-- the second part -/
def Sample.part2Req : Req := Sample.plain b!"PUT" b!"/aaa/y" (some b!"partNumber=2&uploadId=id1") [] [some b!"tw", some b!"o"]

theorem Sample.asks_part2 : Asks Sample.lib none (Sample.exchange Sample.part2Req) (.uploadPart b!"id1" 2 (some [some b!"tw", some b!"o"])) :=
  Sample.asks (by decide +kernel) (.uploadPart (b := b!"aaa") (k := b!"y") (ns := b!"2") (l := none) rfl
    (Sample.at_object rfl (by decide +kernel) (by decide +kernel) (by decide) (by decide)) (Sample.selects_of (by decide +kernel))
    (Sample.no_header (by decide +kernel)) (Sample.only_query (by decide +kernel) (by decide +kernel)) (parseI64_iff.mp (by decide +kernel))
    (Sample.only_query (by decide +kernel) (by decide +kernel)) ⟨none, Sample.no_header (by decide +kernel), trivial⟩)

/-- the list of both -/
def Sample.complete2Doc : Bytes :=
  b!"<CompleteMultipartUpload><Part><PartNumber>1</PartNumber></Part><Part><PartNumber>2</PartNumber></Part></CompleteMultipartUpload>"

def Sample.complete2Req : Req := Sample.post b!"/aaa/y" b!"uploadId=id1" Sample.complete2Doc

theorem Sample.asks_complete2 : Asks Sample.lib none (Sample.exchange Sample.complete2Req)
    (.completeMultipartUpload b!"aaa" b!"y" b!"id1" (some [some 1, some 2])) :=
  Sample.asks (by decide +kernel) (.completeMultipartUpload (s := Sample.complete2Doc) rfl
    (Sample.at_object rfl (by decide +kernel) (by decide +kernel) (by decide) (by decide)) (Sample.selects_of (by decide +kernel))
    (Sample.not_form (by decide)) ⟨show none ∉ _ by decide +kernel, by decide +kernel⟩
    (by decide +kernel)
    (Sample.only_query (by decide +kernel) (by decide +kernel)))

/-- part 2 is cut off in the middle while part 1 goes through; after the crash part 2 is sent again, an upload to another object beside it -/
def Sample.partRuns : List WebEpoch :=
  [⟨[Sample.exchange Sample.partReq, Sample.exchange Sample.part2Req], List.replicate 2 (1, .none) ++ [(1, .during 1 [])] ++ List.replicate 9 (0, .none)⟩,
   ⟨[Sample.webPut, Sample.exchange Sample.part2Req], List.replicate 9 (1, .none) ++ List.replicate 3 (0, .none)⟩]

def Sample.completeRun : WebEpoch := ⟨[Sample.exchange Sample.complete2Req, Sample.webBad], List.replicate 20 (0, .none)⟩

theorem Sample.answered {w : WebEpoch} {fs : FS} {n : Nat} (h : (Sample.webStatus (w.response Sample.cfg Sample.ext Sample.lib none fs n)).map Prod.fst = some 200) :
    ∃ res, w.response Sample.cfg Sample.ext Sample.lib none fs n = some (.ok res) ∧ res.status = 200 := by
  unfold Sample.webStatus at h
  split at h
  · rename_i r hr
    exact ⟨r, hr, by simpa using h⟩
  · cases h

theorem Sample.acknowledged (j : Nat) (body : Body) (h : [[some b!"one"], [some b!"tw", some b!"o"]][j]? = some body) :
    Acknowledged Sample.cfg Sample.ext Sample.lib none Sample.partRuns Sample.fs b!"id1" (j + 1) body := by
  have hput : PlainAddress b!"aaa" b!"x" := ⟨Sample.legal (by decide +kernel), _, plain1 (k := b!"x") (by decide)⟩
  rcases j with _ | _ | j
  · cases h
    obtain ⟨res, hr, hs⟩ := Sample.answered (w := Sample.partRuns[0]) (fs := Sample.fs) (n := 0) (by decide +kernel)
    refine ⟨[], Sample.partRuns[0], [Sample.partRuns[1]], 0, _, res, rfl, rfl, Sample.asks_part, hr, hs, ?_, ?_⟩
    · intro j y hj hy
      rcases j with _ | _ | j
      · exact absurd rfl hj
      · cases hy; exact .inl ⟨_, ⟨by simp [Tidy, OnOthers], by simp [UsesPart]⟩, Sample.asks_part2⟩
      · cases hy
    · intro w' hw' y hy
      cases List.mem_singleton.mp hw'
      simp only [Sample.partRuns, List.getElem_cons_succ, List.getElem_cons_zero, List.mem_cons, List.not_mem_nil, or_false] at hy
      rcases hy with rfl | rfl
      · exact .inl ⟨.putObject Sample.webInput, ⟨hput, fun h => h⟩, Sample.webPut_asks⟩
      · exact .inl ⟨_, ⟨by simp [Tidy, OnOthers], by simp [UsesPart]⟩, Sample.asks_part2⟩
  · cases h
    obtain ⟨res, hr, hs⟩ := Sample.answered (w := Sample.partRuns[1])
      (fs := webLife Sample.cfg Sample.ext Sample.lib none [Sample.partRuns[0]] Sample.fs) (n := 1) (by decide +kernel)
    refine ⟨[Sample.partRuns[0]], Sample.partRuns[1], [], 1, _, res, rfl, rfl, Sample.asks_part2, hr, hs, ?_, fun _ h => nomatch h⟩
    intro j y hj hy
    rcases j with _ | _ | j
    · cases hy; exact .inl ⟨.putObject Sample.webInput, ⟨hput, fun h => h⟩, Sample.webPut_asks⟩
    · exact absurd rfl hj
    · cases hy
  · cases h

/-- The completion is answered 200; after one more run that breaks off, the object `aaa/y` is `onetwo`. -/
example : (47 : UInt8) ∉ b!"id1" ∧ LegalBucket b!"aaa" ∧ PlainKey b!"y" [b!"y"] ∧ WF Sample.fs ∧
    (∀ (j : Nat) body, [[some b!"one"], [some b!"tw", some b!"o"]][j]? = some body →
      Acknowledged Sample.cfg Sample.ext Sample.lib none Sample.partRuns Sample.fs b!"id1" (j + 1) body) ∧
    Sample.completeRun.requests[0]? = some (Sample.exchange Sample.complete2Req) ∧
    Asks Sample.lib none (Sample.exchange Sample.complete2Req) (.completeMultipartUpload b!"aaa" b!"y" b!"id1" (some (numbers 0 2))) ∧
    (∀ (j : Nat) y, j ≠ 0 → Sample.completeRun.requests[j]? = some y →
      AsksIn Sample.cfg Sample.ext Sample.lib none (Elsewhere (.completeMultipartUpload b!"aaa" b!"y" b!"id1" (some (numbers 0 2)))) y) ∧
    IsDir (webLife Sample.cfg Sample.ext Sample.lib none Sample.partRuns Sample.fs) Sample.cfg.root ∧
    IsDir (webLife Sample.cfg Sample.ext Sample.lib none Sample.partRuns Sample.fs) (Sample.cfg.root ++ b!"aaa" :: [b!"y"].dropLast) ∧
    (Sample.webStatus (Sample.completeRun.response Sample.cfg Sample.ext Sample.lib none
      (webLife Sample.cfg Sample.ext Sample.lib none Sample.partRuns Sample.fs) 0)).map Prod.fst = some 200 ∧
    (∀ w' ∈ [Sample.webRun2], ∀ y ∈ w'.requests, AsksIn Sample.cfg Sample.ext Sample.lib none (OnOthers b!"aaa" (Away b!"aaa" b!"y")) y) ∧
    stored Sample.cfg (webLife Sample.cfg Sample.ext Sample.lib none (Sample.partRuns ++ Sample.completeRun :: [Sample.webRun2]) Sample.fs) b!"aaa" b!"y"
      = some b!"onetwo" := by
  refine ⟨by decide, Sample.legal (by decide +kernel), plain1 (by decide), Sample.fs_wf, Sample.acknowledged, rfl, Sample.asks_complete2, ?_,
    by unfold IsDir; decide +kernel, by unfold IsDir; decide +kernel, by decide +kernel, ?_, by decide +kernel⟩
  · intro j y hj hy
    rcases j with _ | _ | j
    · exact absurd rfl hj
    · cases hy
      exact .inr ⟨_, Sample.refused (err := .InvalidBucketName) (by decide +kernel)⟩
    · cases hy
  · intro w' hw' y hy
    cases List.mem_singleton.mp hw'
    refine Sample.web_others ⟨Sample.legal (by decide +kernel), ⟨_, plain1 (k := b!"z") (by decide)⟩, by decide⟩
      ⟨Sample.legal (by decide +kernel), ⟨_, plain1 (k := b!"y") (by decide)⟩, by decide⟩ ?_
    simp only [Sample.webRun2, List.mem_cons, List.not_mem_nil, or_false] at hy ⊢
    exact hy.imp id fun h => .inr h

end S3
