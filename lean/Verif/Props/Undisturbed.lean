import Verif.Lemmas.Undisturbed
import Verif.Props.FoldersBeside
import Verif.Props.Parts
/-! C142: who works on objects that are there does not notice folders. -/
namespace S3
open Spec
variable {cfg : Cfg} {ext : Ext} {lib : Lib} {auth : Option Provider}

/-- **C142** In a run of the server - any requests at the same time, any failing system calls, cut off anywhere - let a request read or
overwrite objects that are there, or upload parts. The others make and remove any folders they like, or are about other objects. Then the
request is where it would be alone: with the faults its own calls have met, at some moment of a run of its own. The objects and parts it is
about are as they would be then. If it is answered, the answer is the one it would get alone. -/
theorem C142_isolation {e : Epoch} {n : Nat} {o : Op} (hn : e.requests[n]? = some o) (ho : AboutObjects o) (hd : ¬ Unlinks o)
    (hothers : ∀ (j : Nat) o', j ≠ n → e.requests[j]? = some o' → Aside o o') {fs : FS} (hw : WF fs) (hst : Standing cfg o fs) :
    ∃ (d : Disk) (fs' : FS), (∀ i, d i = .none ∨ (n, d i) ∈ e.steps) ∧ Moment cfg ext d o fs fs' ∧
      (∀ r, e.answered cfg ext fs n = some r → r = answerF cfg ext d o fs ∧ fs' = afterF cfg ext d o fs) ∧
      (∀ b k, Uses o b k → stored cfg (e.leaves cfg ext fs) b k = stored cfg fs' b k ∧
        storedMeta cfg ext (e.leaves cfg ext fs) b k = storedMeta cfg ext fs' b k) ∧
      ∀ u m, UsesPart o u m → contentAt (e.leaves cfg ext fs) (partFile cfg u m) = contentAt fs' (partFile cfg u m) := by
  have hget : ∀ j : Nat, (e.requests.map (opProg cfg ext))[j]? = (e.requests[j]?).map (opProg cfg ext) := fun j => List.getElem?_map
  obtain ⟨d, m, h0, h1, h2⟩ := isolatedJ (cfg := cfg) (J := Stands cfg o) (Z := region cfg o) (n := n) (own := (opPerm cfg o).ok)
    (ok := fun j c => ∃ o', e.requests[j]? = some o' ∧ (opPerm cfg o').ok c)
    (fun j fs c f hj hwf hc hs => by
      obtain ⟨o', ho', hc⟩ := hc
      have hm : Match (region cfg o) fs (execF cfg fs c f).2 := by
        rcases hothers j o' hj ho' with he | hf
        · exact (elsewhere_frame ho he hc (fun hx => execF_frame hwf hx f) (hs.dirs hwf)).2
        · exact folder_match ho hf hwf hs hc f
      exact ⟨hs.of_match hm, hm⟩)
    (fun fs c f _ hc hs => own_stands ho hd hs hc f) (fun c hc => op_local ho hc)
    e.steps hw hw (standing_stands ho hst) (.refl _ _)
    (fun j q hj hq => by
      rw [hget, Option.map_eq_some_iff] at hq
      obtain ⟨o', ho', rfl⟩ := hq
      exact (op_safe cfg ext o').mono (fun c hc => ⟨o', ho', hc⟩) (fun _ h => h))
    (p := opProg cfg ext o) (by rw [hget, hn]; rfl) (op_safe cfg ext o)
  refine ⟨d, _, h0, runFN_moment d m o fs, ?_, region_match ho (runParF_wf hw) h2⟩
  intro r hr
  simp only [Epoch.answered, h1, Option.bind_some] at hr
  have := runFN_done _ d m fs hr
  exact ⟨by simp only [answerF, this], by simp only [afterF, this]⟩

/-- **C142** If its own calls do not fail, the request gets exactly the answer it would get alone on a sound disk, and has the same effect. -/
theorem C142_sound {e : Epoch} {n : Nat} {o : Op} (hn : e.requests[n]? = some o) (ho : AboutObjects o) (hd : ¬ Unlinks o)
    (hothers : ∀ (j : Nat) o', j ≠ n → e.requests[j]? = some o' → Aside o o')
    (hok : ∀ f, (n, f) ∈ e.steps → f = .none) {fs : FS} (hw : WF fs) (hst : Standing cfg o fs) {r : Outcome Answer}
    (h : e.answered cfg ext fs n = some r) :
    r = answer cfg ext o fs ∧
    (∀ b k, Uses o b k → stored cfg (e.leaves cfg ext fs) b k = stored cfg (after cfg ext o fs) b k ∧
      storedMeta cfg ext (e.leaves cfg ext fs) b k = storedMeta cfg ext (after cfg ext o fs) b k) ∧
    ∀ u m, UsesPart o u m → contentAt (e.leaves cfg ext fs) (partFile cfg u m) = contentAt (after cfg ext o fs) (partFile cfg u m) := by
  obtain ⟨d, fs', h0, _, h1, h2, h3⟩ := C142_isolation (cfg := cfg) (ext := ext) hn ho hd hothers hw hst
  obtain ⟨h4, rfl⟩ := h1 r h
  have hd : ∀ i, d i = .none := fun i => (h0 i).elim id (hok _)
  have hrun := runF_sound (cfg := cfg) (opProg cfg ext o) hd fs
  refine ⟨?_, ?_, ?_⟩
  · rw [h4]; simp only [answerF, answer, hrun]
  · intro b k hu
    have := h2 b k hu
    simpa only [afterF, after, hrun] using this
  · intro u m hu
    have := h3 u m hu
    simpa only [afterF, after, hrun] using this

/-- **C142** (over HTTP) So it is for HTTP requests: among others, which make and remove folders, are about other objects, or are refused, a
request about objects that are there, whose own calls do not fail, is answered, if at all, as if it were alone, and has the same effect. -/
theorem C142_web {w : WebEpoch} {n : Nat} {x : Exchange} {o : Op} (hn : w.requests[n]? = some x) (hx : Asks lib auth x o)
    (ho : AboutObjects o) (hd : ¬ Unlinks o)
    (hothers : ∀ (j : Nat) y, j ≠ n → w.requests[j]? = some y → AsksIn cfg ext lib auth (Aside o) y)
    (hok : ∀ f, (n, f) ∈ w.steps → f = .none) {fs : FS} (hw : WF fs) (hst : Standing cfg o fs) {r : Outcome Response}
    (h : w.response cfg ext lib auth fs n = some r) :
    r = responded cfg ext lib auth x.env x.texts x.req fs ∧
    (∀ b k, Uses o b k →
      stored cfg (w.leaves cfg ext lib auth fs) b k = stored cfg (afterResponded cfg ext lib auth x.env x.texts x.req fs) b k ∧
      storedMeta cfg ext (w.leaves cfg ext lib auth fs) b k = storedMeta cfg ext (afterResponded cfg ext lib auth x.env x.texts x.req fs) b k) ∧
    ∀ u m, UsesPart o u m → contentAt (w.leaves cfg ext lib auth fs) (partFile cfg u m)
      = contentAt (afterResponded cfg ext lib auth x.env x.texts x.req fs) (partFile cfg u m) := by
  obtain ⟨e, he, hen, hes, hfs⟩ := web_epoch_at (cfg := cfg) (ext := ext) (P := Aside o)
    (.inl ⟨trivial, fun _ _ _ => trivial, fun _ _ _ h => h⟩) hn hx hothers
  obtain ⟨hlv, c, hc, hr, hcase⟩ := hfs fs
  have hall : hyperCall cfg ext lib auth x.env x.texts x.req = wrap x.texts c o.handler (opProg cfg ext o) := hyperCall_asks hc hr
  obtain ⟨g1, g2, g3⟩ := catch_run (cfg := cfg) (g := fun a => (respond o.handler a).bind (makeResponse x.texts c o.handler))
    (k := errorResponse x.texts) (opProg cfg ext o) fs
  suffices hrun : ∃ r', e.answered cfg ext fs n = some r' ∧
      run cfg (hyperCall cfg ext lib auth x.env x.texts x.req) fs = (r, (run cfg (opProg cfg ext o) fs).2) by
    obtain ⟨r', hr', hrun⟩ := hrun
    obtain ⟨_, k2, k3⟩ := C142_sound (cfg := cfg) (ext := ext) hen ho hd hes (by rw [he]; exact hok) hw hst hr'
    rw [hlv] at k2 k3
    have h2 : afterResponded cfg ext lib auth x.env x.texts x.req fs = after cfg ext o fs := by simp only [afterResponded, hrun, after]
    have h1 : r = responded cfg ext lib auth x.env x.texts x.req fs := by simp only [responded, hrun]
    rw [h2]
    exact ⟨h1, k2, k3⟩
  have key : ∀ {r'}, e.answered cfg ext fs n = some r' → (run cfg (opProg cfg ext o) fs).1 = r' := fun {r'} hr' =>
    (C142_sound (cfg := cfg) (ext := ext) hen ho hd hes (by rw [he]; exact hok) hw hst hr').1.symm
  rcases hcase r h with ⟨a, ha, hra⟩ | ⟨err, _, ha, hra⟩ | ⟨ha, rfl⟩
  · obtain ⟨res, hres⟩ := respond_caught x.texts c o.handler a
    obtain rfl := ret_outcome (p := wrap x.texts c o.handler (.ret a)) hres hra
    exact ⟨_, ha, by rw [hall]; exact g1 a res (key ha) hres⟩
  · obtain ⟨res, hres⟩ := errorResponse_ret x.texts err
    obtain rfl := ret_outcome hres hra
    exact ⟨_, ha, by rw [hall]; exact g2 err res (key ha) hres⟩
  · exact ⟨_, ha, by rw [hall]; exact g3 (key ha)⟩

/-- **C142** (over HTTP, uploads) An upload that has been answered 200 is there, with the ETag that was announced and the metadata of the
request, also when folders on its way were made and removed meanwhile, and afterwards. The object need not have been there. -/
theorem C142_put (hl : MetaLaw ext) {w : WebEpoch} {n : Nat} {x : Exchange} {i : PutInput} {cs : List Bytes} (hn : w.requests[n]? = some x)
    (hx : Asks lib auth x (.putObject i)) (hb : LegalBucket i.bucket) (hk : PlainKey i.key cs)
    (hv : ∀ m, i.metadata = some m → ValidMeta m)
    (ho : ∀ (j : Nat) y, j ≠ n → w.requests[j]? = some y → AsksIn cfg ext lib auth (Beside i.bucket i.key) y)
    {ws : List WebEpoch} (hos : ∀ w' ∈ ws, ∀ y ∈ w'.requests, AsksIn cfg ext lib auth (Beside i.bucket i.key) y)
    {fs : FS} (hw : WF fs) {res : Response} (h : w.response cfg ext lib auth fs n = some (.ok res)) (hs : res.status = 200) :
    ∃ body, i.body = some body ∧ unbroken body ∧ HasETag res (quoted (ext.md5hex (received body))) ∧
      stored cfg (webLife cfg ext lib auth (w :: ws) fs) i.bucket i.key = some (received body) ∧
      storedMeta cfg ext (webLife cfg ext lib auth (w :: ws) fs) i.bucket i.key =
        (match i.metadata with
          | some m => some (some m)
          | none => storedMeta cfg ext fs i.bucket i.key) := by
  obtain ⟨e, he, hen, hes, hfs⟩ := web_epoch_at (cfg := cfg) (ext := ext) (P := Beside _ _) (.inl trivial) hn hx ho
  obtain ⟨es, hes', hlife⟩ := webLife_life (cfg := cfg) (ext := ext) (lib := lib) (auth := auth) (P := Beside _ _) (.inl trivial) hos
  obtain ⟨hlv, c, hc, hr, hcase⟩ := hfs fs
  obtain ⟨a, m, ha, hm, hra⟩ := web_success (hcase _ h) (by omega)
  obtain ⟨body, h1, h2, rfl, h4, h5⟩ := C141_put (cfg := cfg) (ext := ext) hl hen hb hk hv hes hes' hw ha
  simp only [life, hlv, hlife] at h4 h5
  refine ⟨body, h1, h2, ?_, h4, h5⟩
  cases hm
  simp only [makeResponse, Op.handler, answerHeaders, document] at hra
  injection hra with hra
  rw [← hra]
  intro v
  simp [optHeader]

/-- **C142** (over HTTP, copies) A copy that has been answered 200 has the content of its source. -/
theorem C142_copy {w : WebEpoch} {n : Nat} {x : Exchange} {b k s sb sk : Bytes} {cs scs : List Bytes} (hn : w.requests[n]? = some x)
    (hx : Asks lib auth x (.copyObject b k s)) (hb : LegalBucket b) (hk : PlainKey k cs) (hsrc : copySourceFromHeader s = .ok (sb, sk))
    (hsk : PlainKey sk scs) (hne : (b, k) ≠ (sb, sk))
    (ho : ∀ (j : Nat) y, j ≠ n → w.requests[j]? = some y → AsksIn cfg ext lib auth (fun o => Beside b k o ∧ Beside sb sk o) y)
    {ws : List WebEpoch} (hos : ∀ w' ∈ ws, ∀ y ∈ w'.requests, AsksIn cfg ext lib auth (Beside b k) y)
    {fs : FS} (hw : WF fs) {res : Response} (h : w.response cfg ext lib auth fs n = some (.ok res)) (hs : res.status = 200) :
    ∃ c, stored cfg fs sb sk = some c ∧ stored cfg (webLife cfg ext lib auth (w :: ws) fs) b k = some c := by
  obtain ⟨e, he, hen, hes, hfs⟩ := web_epoch_at (cfg := cfg) (ext := ext) (P := fun o => Beside b k o ∧ Beside sb sk o)
    ⟨.inl trivial, .inl trivial⟩ hn hx ho
  obtain ⟨es, hes', hlife⟩ := webLife_life (cfg := cfg) (ext := ext) (lib := lib) (auth := auth) (P := Beside _ _) (.inl trivial) hos
  obtain ⟨hlv, c, hc, hr, hcase⟩ := hfs fs
  obtain ⟨a, l, ha, hm, hra⟩ := web_success (hcase _ h) (by omega)
  obtain ⟨c', h1, h2, _⟩ := C141_copy (cfg := cfg) (ext := ext) hen hb hk hsrc hsk hne hes hes' hw ha
  simp only [life, hlv, hlife] at h2
  exact ⟨c', h1, h2⟩

/-- **C142** (over HTTP, uploads in parts) A completion that has been answered 200 has made the object out of the parts, in order. -/
theorem C142_complete {w : WebEpoch} {n : Nat} {x : Exchange} {u b k : Bytes} {cs : List Bytes} {contents : List Bytes}
    (hn : w.requests[n]? = some x) (hx : Asks lib auth x (.completeMultipartUpload b k u (some (numbers 0 contents.length))))
    (hu : (47 : UInt8) ∉ u) (hb : LegalBucket b) (hk : PlainKey k cs)
    (ho : ∀ (j : Nat) y, j ≠ n → w.requests[j]? = some y → AsksIn cfg ext lib auth (fun o => Beside b k o ∧ ∀ m, ¬ UsesPart o u m) y)
    {ws : List WebEpoch} (hos : ∀ w' ∈ ws, ∀ y ∈ w'.requests, AsksIn cfg ext lib auth (Beside b k) y) {fs : FS} (hw : WF fs)
    (hparts : ∀ (j : Nat) c, contents[j]? = some c → contentAt fs (partFile cfg u (j + 1)) = some c)
    {res : Response} (h : w.response cfg ext lib auth fs n = some (.ok res)) (hs : res.status = 200) :
    stored cfg (webLife cfg ext lib auth (w :: ws) fs) b k = some contents.flatten := by
  obtain ⟨e, he, hen, hes, hfs⟩ := web_epoch_at (cfg := cfg) (ext := ext) (P := fun o => Beside b k o ∧ ∀ m, ¬ UsesPart o u m)
    ⟨.inl trivial, fun _ h => h⟩ hn hx ho
  obtain ⟨es, hes', hlife⟩ := webLife_life (cfg := cfg) (ext := ext) (lib := lib) (auth := auth) (P := Beside _ _) (.inl trivial) hos
  obtain ⟨hlv, c, hc, hr, hcase⟩ := hfs fs
  obtain ⟨a, l, ha, hm, hra⟩ := web_success (hcase _ h) (by omega)
  have h2 := (C141_complete (cfg := cfg) (ext := ext) hen hu hb hk hes hes' hw hparts ha).1
  simp only [life, hlv, hlife] at h2
  exact h2

/-! ### the hypotheses are met -/

/-- an overwrite of `aaa/d/e` -/
def Sample.put4 : PutInput := { Sample.put3 with body := some [some b!"new"], contentLength := some 3 }

/-- it runs while the folder `d` is deleted, a folder of its own name is asked for and deleted, and `aaa/x` is deleted -/
def Sample.overFolders : Epoch :=
  ⟨[.putObject Sample.put4, .deleteObject b!"aaa" b!"d/", .putObject { Sample.folderPut with bucket := b!"aaa", key := b!"d/e/" },
      .deleteObject b!"aaa" b!"d/e/", .deleteObject b!"aaa" b!"x"],
    (List.replicate 12 [(0, .none), (1, .none), (2, .none), (3, .none), (4, .before)]).flatten⟩

/-- `C142_isolation`, `C142_sound`: the overwrite is answered as if it were alone -/
example : Sample.overFolders.answered Sample.cfg Sample.ext Sample.fs3 0 = some (answer Sample.cfg Sample.ext (.putObject Sample.put4) Sample.fs3) ∧
    Sample.overFolders.answered Sample.cfg Sample.ext Sample.fs3 1 = some (.ok .done) ∧
    Sample.overFolders.answered Sample.cfg Sample.ext Sample.fs3 2 = some (.err .InternalError) ∧
    stored Sample.cfg (Sample.overFolders.leaves Sample.cfg Sample.ext Sample.fs3) b!"aaa" b!"d/e" = some b!"new" := by
  have hx : PlainAddress b!"aaa" b!"x" := ⟨Sample.legal (by decide +kernel), _, plain1 (k := b!"x") (by decide)⟩
  have hde : PlainAddress b!"aaa" b!"d/e" := ⟨Sample.legal (by decide +kernel), _, Sample.plain_de⟩
  have ha : ∃ r, Sample.overFolders.answered Sample.cfg Sample.ext Sample.fs3 0 = some r := ⟨.ok (.etag (some b!"\"md5:3\"")), by decide +kernel⟩
  obtain ⟨r, hr⟩ := ha
  obtain ⟨h1, h2, -⟩ := C142_sound (cfg := Sample.cfg) (ext := Sample.ext) (e := Sample.overFolders) (n := 0) (o := .putObject Sample.put4) rfl
    ⟨hde, fun b k h => by cases h; exact hde, trivial⟩ (fun h => h) (by
      intro j o' hj h
      match j, hj with
      | 1, _ => cases h; exact .inr Sample.folder_d
      | 2, _ => cases h; exact .inr Sample.folder_de
      | 3, _ => cases h; exact .inr Sample.folder_de
      | 4, _ =>
        cases h
        refine .inl ⟨hx, fun b k h => ?_, fun _ _ h => h.elim⟩
        cases h
        exact ⟨⟨hx.1, hx.2, by decide⟩, fun _ => Sample.not_nested (by decide), fun _ => Sample.not_nested (by decide)⟩
      | j + 5, _ => simp [Sample.overFolders] at h) (by
      intro f hf
      simp only [Sample.overFolders, List.replicate, List.flatten, List.append_eq, List.cons_append, List.nil_append, List.mem_cons, Prod.mk.injEq,
        List.not_mem_nil, or_false] at hf
      simpa using hf) (run_wf _ _ Sample.fs_wf)
    ⟨by unfold IsDir; decide +kernel, fun b k h => by cases h; decide +kernel⟩ hr
  refine ⟨hr.trans (congrArg some h1), by decide +kernel, by decide +kernel, ?_⟩
  exact (h2 b!"aaa" b!"d/e" rfl).1.trans (by decide +kernel)

def Sample.webFolderDelete : Exchange := Sample.exchange (Sample.plain b!"DELETE" b!"/aaa/d/" none [] [])

theorem Sample.webFolder_in {P : Op → Prop} (h : P (.deleteObject b!"aaa" b!"d/")) {y : Exchange} (hy : y ∈ [Sample.webFolderDelete, Sample.webBad]) :
    AsksIn Sample.cfg Sample.ext Sample.lib none P y := by
  simp only [List.mem_cons, List.not_mem_nil, or_false] at hy
  rcases hy with rfl | rfl
  · exact .inl ⟨_, h, Sample.asks (by decide +kernel) (.deleteObject rfl
      (Sample.at_object rfl (by decide +kernel) (by decide +kernel) (by decide) (by decide)) (Sample.selects_none rfl)
      ⟨none, Sample.no_header (by decide +kernel), .inl rfl⟩)⟩
  · exact .inr ⟨_, Sample.refused (err := .InvalidBucketName) (by decide +kernel)⟩

/-- the request `x` beside the deletion of the folder `d`, which meets errors, and a request that is refused -/
def Sample.withFolder (x : Exchange) : WebEpoch :=
  ⟨[x, Sample.webFolderDelete, Sample.webBad], (List.replicate 20 [(0, .none), (1, .after)]).flatten⟩

theorem Sample.withFolder_in {P : Op → Prop} (h : P (.deleteObject b!"aaa" b!"d/")) (x : Exchange) (j : Nat) (y : Exchange) (hj : j ≠ 0)
    (hy : (Sample.withFolder x).requests[j]? = some y) : AsksIn Sample.cfg Sample.ext Sample.lib none P y := by
  match j, hj with
  | 1, _ => cases hy; exact Sample.webFolder_in h (by simp)
  | 2, _ => cases hy; exact Sample.webFolder_in h (by simp)
  | j + 3, _ => simp [Sample.withFolder] at hy

theorem Sample.later_in {P : Op → Prop} (h : P (.deleteObject b!"aaa" b!"d/")) :
    ∀ w' ∈ [Sample.withFolder Sample.webFolderDelete], ∀ y ∈ w'.requests, AsksIn Sample.cfg Sample.ext Sample.lib none P y := by
  intro w' hw' y hy
  cases List.mem_singleton.mp hw'
  refine Sample.webFolder_in h ?_
  simp only [Sample.withFolder, List.mem_cons, List.not_mem_nil, or_false] at hy ⊢
  rcases hy with h | h | h
  · exact .inl h
  · exact .inl h
  · exact .inr h

/-- `C142_web`: the read of `aaa/x` is answered as if it were alone -/
example : ∃ r, (Sample.withFolder Sample.webGet).response Sample.cfg Sample.ext Sample.lib none Sample.fs 0 = some r ∧
    r = responded Sample.cfg Sample.ext Sample.lib none Sample.webGet.env Sample.webGet.texts Sample.webGet.req Sample.fs := by
  have hx : PlainAddress b!"aaa" b!"x" := ⟨Sample.legal (by decide +kernel), _, plain1 (k := b!"x") (by decide)⟩
  obtain ⟨res, h, _⟩ := Sample.answered (w := Sample.withFolder Sample.webGet) (fs := Sample.fs) (n := 0) (by decide +kernel)
  refine ⟨_, h, (C142_web (cfg := Sample.cfg) (ext := Sample.ext) (w := Sample.withFolder Sample.webGet) (n := 0) rfl Sample.webGet_asks
    ⟨trivial, fun b k h => by cases h; exact hx, trivial⟩ (fun h => h)
    (fun j y hj hy => Sample.withFolder_in (P := Aside _) (.inr Sample.folder_d) _ j y hj hy) (by
      intro f hf
      simp only [Sample.withFolder, List.replicate, List.flatten, List.append_eq, List.cons_append, List.nil_append, List.mem_cons, Prod.mk.injEq,
        List.not_mem_nil, or_false] at hf
      simpa using hf) Sample.fs_wf ⟨by unfold IsDir; decide +kernel, fun b k h => by cases h; decide +kernel⟩ h).1⟩

/-- `C142_put`: the upload of `aaa/x` -/
example : stored Sample.cfg (webLife Sample.cfg Sample.ext Sample.lib none
    [Sample.withFolder Sample.webPut, Sample.withFolder Sample.webFolderDelete] Sample.fs) b!"aaa" b!"x" = some b!"new" := by
  obtain ⟨res, h, hs⟩ := Sample.answered (w := Sample.withFolder Sample.webPut) (fs := Sample.fs) (n := 0) (by decide +kernel)
  obtain ⟨body, h1, _, _, h2, _⟩ := C142_put (cfg := Sample.cfg) (ext := Sample.ext) (w := Sample.withFolder Sample.webPut) (n := 0) Sample.ext_roundtrip rfl
    Sample.webPut_asks (Sample.legal (by decide +kernel)) (plain1 (k := b!"x") (by decide)) (fun m h => by cases h; exact ⟨by decide, by decide +kernel⟩)
    (fun j y hj hy => Sample.withFolder_in (P := Beside _ _) (.inr Sample.folder_d) _ j y hj hy)
    (Sample.later_in (P := Beside _ _) (.inr Sample.folder_d)) Sample.fs_wf h hs
  cases h1
  exact h2

/-- `C142_copy`: the copy of `aaa/x` to `aaa/z` -/
example : ∃ c, stored Sample.cfg Sample.fs b!"aaa" b!"x" = some c ∧ stored Sample.cfg (webLife Sample.cfg Sample.ext Sample.lib none
    [Sample.withFolder Sample.webCopy, Sample.withFolder Sample.webFolderDelete] Sample.fs) b!"aaa" b!"z" = some c := by
  obtain ⟨res, h, hs⟩ := Sample.answered (w := Sample.withFolder Sample.webCopy) (fs := Sample.fs) (n := 0) (by decide +kernel)
  exact C142_copy (cfg := Sample.cfg) (ext := Sample.ext) (w := Sample.withFolder Sample.webCopy) (n := 0) (s := b!"aaa/x") rfl
    (Sample.asks (by decide +kernel) (.copyObject (sb := b!"aaa") (sk := b!"x") rfl
      (Sample.at_object rfl (by decide +kernel) (by decide +kernel) (by decide) (by decide))
      (Sample.selects_none rfl) (Sample.value_header (by decide +kernel)) (Sample.legal (by decide +kernel)) (by decide) (by decide) (by decide)))
    (Sample.legal (by decide +kernel)) (plain1 (k := b!"z") (by decide)) (by decide +kernel) (plain1 (k := b!"x") (by decide)) (by decide)
    (fun j y hj hy => Sample.withFolder_in (P := fun o => Beside _ _ o ∧ Beside _ _ o) ⟨.inr Sample.folder_d, .inr Sample.folder_d⟩ _ j y hj hy)
    (Sample.later_in (P := Beside _ _) (.inr Sample.folder_d)) Sample.fs_wf h hs

/-- `C142_complete`: the completion of the upload `id1` as `aaa/y` -/
example : stored Sample.cfg (webLife Sample.cfg Sample.ext Sample.lib none
    [Sample.withFolder (Sample.exchange Sample.complete2Req), Sample.withFolder Sample.webFolderDelete] Sample.twoParts) b!"aaa" b!"y" = some b!"onetwo" := by
  obtain ⟨res, h, hs⟩ := Sample.answered (w := Sample.withFolder (Sample.exchange Sample.complete2Req)) (fs := Sample.twoParts) (n := 0) (by decide +kernel)
  exact C142_complete (cfg := Sample.cfg) (ext := Sample.ext) (w := Sample.withFolder (Sample.exchange Sample.complete2Req)) (n := 0)
    (contents := [b!"one", b!"two"]) rfl Sample.asks_complete2 (by decide) (Sample.legal (by decide +kernel)) (plain1 (k := b!"y") (by decide))
    (fun j y hj hy => Sample.withFolder_in (P := fun o => Beside _ _ o ∧ ∀ m, ¬ UsesPart o _ m) ⟨.inr Sample.folder_d, fun _ h => h⟩ _ j y hj hy)
    (Sample.later_in (P := Beside _ _) (.inr Sample.folder_d)) (run_wf _ _ (run_wf _ _ Sample.fs_wf)) Sample.twoParts_content h hs

end S3
