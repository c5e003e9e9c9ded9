import Verif.Lemmas.Sweep
import Verif.Props.Moment
/-! C126: buckets are deleted entry by entry. -/
namespace S3
open Spec

variable {cfg : Cfg} {ext : Ext} {lib : Lib} {auth : Option Provider}

/-- **C126** While buckets are deleted entry by entry, with other requests in between, nothing happens to the others that could not happen
anyway: every run of the server has the same disk at every stride, and the same responses, as a run in which every system call is one
step and some of the DELETE requests to buckets are sent several times and fail half way. -/
theorem C126_same (w : SlowEpoch) {fs : FS} (hw : WF fs) : ∃ w', Again w w' ∧ w'.steps.length = w.strides.length ∧
    (∀ (s n : Nat) f, n < w.requests.length → (w'.steps[s]? = some (n, f) ↔ w.strides[s]? = some (n, .call f))) ∧
    (∀ m, (w'.cut m).leaves cfg ext lib auth fs = (w.cut m).leaves cfg ext lib auth fs) ∧
    ∀ n, n < w.requests.length → w'.response cfg ext lib auth fs n = w.response cfg ext lib auth fs n := by
  obtain ⟨again, h1, steps, h⟩ := slow_sim (cfg := cfg) (ext := ext) (lib := lib) (auth := auth) w hw
  refine ⟨⟨w.requests ++ again, steps⟩, ⟨again, rfl, h1⟩, h.length, fun s n f hn => h.own s n f (by simpa using hn), fun m => ?_, fun n hn => ?_⟩
  · have := h.tree m
    rw [← List.map_append] at this
    exact this
  · have := h.thread w.strides.length n (by simpa using hn)
    rw [← h.length, List.take_length, h.length, List.take_length, ← List.map_append] at this
    simp only [WebEpoch.response, SlowEpoch.response, this]

theorem leaves_of_cuts {w : SlowEpoch} {w' : WebEpoch} {fs : FS} (h : w'.steps.length = w.strides.length)
    (hc : ∀ m, (w'.cut m).leaves cfg ext lib auth fs = (w.cut m).leaves cfg ext lib auth fs) :
    w'.leaves cfg ext lib auth fs = w.leaves cfg ext lib auth fs := by
  have := hc w.strides.length
  simp only [WebEpoch.cut, SlowEpoch.cut, List.take_length] at this
  rw [← h, List.take_length] at this
  exact this

theorem slow_leaves (w : SlowEpoch) {fs : FS} (hw : WF fs) : ∃ w', Again w w' ∧ w'.leaves cfg ext lib auth fs = w.leaves cfg ext lib auth fs := by
  obtain ⟨w', h1, h2, _, h3, _⟩ := C126_same (cfg := cfg) (ext := ext) (lib := lib) (auth := auth) w hw
  exact ⟨w', h1, leaves_of_cuts h2 h3⟩

/-- **C126** The same for lives of the server. -/
theorem C126_life (ws : List SlowEpoch) {fs : FS} (hw : WF fs) : ∃ ws' : List WebEpoch, ws'.length = ws.length ∧
    (∀ (j : Nat) w', ws'[j]? = some w' → ∃ w, ws[j]? = some w ∧ Again w w') ∧ webLife cfg ext lib auth ws' fs = slowLife cfg ext lib auth ws fs := by
  induction ws generalizing fs with
  | nil => exact ⟨[], rfl, by simp, rfl⟩
  | cons w ws ih =>
    obtain ⟨w', h1, h2⟩ := slow_leaves (cfg := cfg) (ext := ext) (lib := lib) (auth := auth) w hw
    have hw' : WF (w'.leaves cfg ext lib auth fs) := runParF_wf hw
    rw [h2] at hw'
    obtain ⟨ws', h3, h4, h5⟩ := ih hw'
    refine ⟨w' :: ws', by simp [h3], fun j v hv => ?_, by simp only [webLife, slowLife, h2, h5]⟩
    cases j with
    | zero => simp only [List.getElem?_cons_zero, Option.some.injEq] at hv; subst hv; exact ⟨w, rfl, h1⟩
    | succ j => simpa using h4 j v (by simpa using hv)

theorem Spec.Again.mem {w : SlowEpoch} {w' : WebEpoch} (h : Again w w') {x : Exchange} (hx : x ∈ w'.requests) : x ∈ w.requests := by
  obtain ⟨again, h1, h2⟩ := h
  rw [h1] at hx
  rcases List.mem_append.mp hx with hx | hx
  · exact hx
  · exact (h2 x hx).1

theorem slow_life (ws : List SlowEpoch) {fs : FS} (hw : WF fs) : ∃ ws' : List WebEpoch,
    (∀ w' ∈ ws', ∀ x ∈ w'.requests, ∃ w ∈ ws, x ∈ w.requests) ∧ webLife cfg ext lib auth ws' fs = slowLife cfg ext lib auth ws fs := by
  obtain ⟨ws', _, h1, h2⟩ := C126_life (cfg := cfg) (ext := ext) (lib := lib) (auth := auth) ws hw
  refine ⟨ws', fun w' hw' x hx => ?_, h2⟩
  obtain ⟨j, hj⟩ := List.getElem?_of_mem hw'
  obtain ⟨w, h3, h4⟩ := h1 j w' hj
  exact ⟨w, List.mem_of_getElem? h3, h4.mem hx⟩

/-- **C126** Whatever is sent, while buckets are deleted entry by entry, a file keeps its content, and none appears, unless one of the requests
is about it. -/
theorem C126_files {ws : List SlowEpoch} {fs : FS} (hw : WF fs) {p : List Bytes}
    (h : ∀ w ∈ ws, ∀ x ∈ w.requests, ¬ TouchesFile cfg.root x.req p) :
    contentAt (slowLife cfg ext lib auth ws fs) (cfg.root ++ p) = contentAt fs (cfg.root ++ p) := by
  obtain ⟨ws', h1, h2⟩ := slow_life (cfg := cfg) (ext := ext) (lib := lib) (auth := auth) ws hw
  rw [← h2]
  refine C124_files hw fun w' hw' x hx => ?_
  obtain ⟨w, h3, h4⟩ := h1 w' hw' x hx
  exact h w h3 x h4

/-- **C126** Nor does a folder appear or disappear. -/
theorem C126_folders {ws : List SlowEpoch} {fs : FS} (hw : WF fs) {d : List Bytes}
    (h : ∀ w ∈ ws, ∀ x ∈ w.requests, ¬ TouchesFolder cfg.root x.req d) :
    IsDir (slowLife cfg ext lib auth ws fs) (cfg.root ++ d) ↔ IsDir fs (cfg.root ++ d) := by
  obtain ⟨ws', h1, h2⟩ := slow_life (cfg := cfg) (ext := ext) (lib := lib) (auth := auth) ws hw
  rw [← h2]
  refine C124_folders hw fun w' hw' x hx => ?_
  obtain ⟨w, h3, h4⟩ := h1 w' hw' x hx
  exact h w h3 x h4

/-- a DELETE to a bucket asks for nothing but its deletion -/
theorem asks_deleteBucket {x : Exchange} {o : Op} (hx : Asks lib auth x o) {b : Bytes} (hm : x.req.method = b!"DELETE") (hb : At x.req (.bucket b)) :
    o = .deleteBucket b := by
  obtain ⟨c, _, hr⟩ := hx
  cases hr
  case deleteBucket h1 h2 _ => cases Sample.at_unique h2 hb; rfl
  case deleteObject h1 h2 _ _ => cases Sample.at_unique h2 hb
  all_goals
    rename_i h1 _ _ <;> first | exact absurd (h1.symm.trans hm) (by decide) | skip
  all_goals exact absurd ((by assumption : x.req.method = _).symm.trans hm) (by decide)

/-- the requests beside one that is no deletion of a bucket -/
theorem again_others {w : SlowEpoch} {w' : WebEpoch} (h : Again w w') {n : Nat} {x : Exchange} {o : Op} (hn : w.requests[n]? = some x)
    (hx : Asks lib auth x o) (ho : ∀ b, o ≠ .deleteBucket b) {P : Exchange → Prop} (hP : ∀ (j : Nat) y, j ≠ n → w.requests[j]? = some y → P y) :
    w'.requests[n]? = some x ∧ ∀ (j : Nat) y, j ≠ n → w'.requests[j]? = some y → P y := by
  obtain ⟨again, h1, h2⟩ := h
  have hlen := (List.getElem?_eq_some_iff.mp hn).1
  refine ⟨by rw [h1, List.getElem?_append_left hlen, hn], fun j y hj hy => ?_⟩
  rw [h1] at hy
  by_cases hl : j < w.requests.length
  · rw [List.getElem?_append_left hl] at hy
    exact hP j y hj hy
  · rw [List.getElem?_append_right (by omega)] at hy
    obtain ⟨h3, h4, b, h5⟩ := h2 y (List.mem_of_getElem? hy)
    obtain ⟨i, hi⟩ := List.getElem?_of_mem h3
    refine hP i y (fun e => ?_) hi
    rw [e, hn] at hi
    cases hi
    exact ho b (asks_deleteBucket hx h4 h5)

/-- **C126** An upload that is answered 200 is there, complete, also while other buckets are deleted entry by entry, and stays. -/
theorem C126_put (hl : MetaLaw ext) {w : SlowEpoch} {n : Nat} {x : Exchange} {i : PutInput} {cs : List Bytes} (hn : w.requests[n]? = some x)
    (hx : Asks lib auth x (.putObject i)) (hb : LegalBucket i.bucket) (hk : PlainKey i.key cs)
    (hv : ∀ m, i.metadata = some m → ValidMeta m)
    (ho : ∀ (j : Nat) y, j ≠ n → w.requests[j]? = some y → AsksIn cfg ext lib auth (OnOthers i.bucket (Away i.bucket i.key)) y)
    {ws : List SlowEpoch} (hos : ∀ w' ∈ ws, ∀ y ∈ w'.requests, AsksIn cfg ext lib auth (OnOthers i.bucket (Away i.bucket i.key)) y)
    {fs : FS} (hw : WF fs) {res : Response} (h : w.response cfg ext lib auth fs n = some (.ok res)) (hs : res.status = 200) :
    ∃ body, i.body = some body ∧ unbroken body ∧ HasETag res (quoted (ext.md5hex (received body))) ∧
      stored cfg (slowLife cfg ext lib auth (w :: ws) fs) i.bucket i.key = some (received body) ∧
      storedMeta cfg ext (slowLife cfg ext lib auth (w :: ws) fs) i.bucket i.key =
        (match i.metadata with
          | some m => some (some m)
          | none => storedMeta cfg ext fs i.bucket i.key) := by
  obtain ⟨w', h1, h2, _, h3, h4⟩ := C126_same (cfg := cfg) (ext := ext) (lib := lib) (auth := auth) w hw
  have hlv : w'.leaves cfg ext lib auth fs = w.leaves cfg ext lib auth fs := leaves_of_cuts h2 h3
  have hw' : WF (w'.leaves cfg ext lib auth fs) := runParF_wf hw
  rw [hlv] at hw'
  obtain ⟨ws', h5, h6⟩ := slow_life (cfg := cfg) (ext := ext) (lib := lib) (auth := auth) ws hw'
  obtain ⟨h7, h8⟩ := again_others h1 hn hx (fun _ e => nomatch e) ho
  rw [← h4 n (List.getElem?_eq_some_iff.mp hn).1] at h
  obtain ⟨body, a1, a2, a3, a4, a5⟩ := C107_put (ws := ws') hl h7 hx hb hk hv h8 (fun v hv y hy => by
    obtain ⟨u, h9, h10⟩ := h5 v hv y hy
    exact hos u h9 y h10) hw h hs
  simp only [webLife, hlv, h6] at a4 a5
  exact ⟨body, a1, a2, a3, a4, a5.trans (by cases i.metadata <;> rfl)⟩

/-- **C126** A request about objects is answered and does as if it were alone, also while other buckets are deleted entry by entry. -/
theorem C126_isolation {w : SlowEpoch} {n : Nat} {x : Exchange} {o : Op} (hn : w.requests[n]? = some x) (hx : Asks lib auth x o)
    (ho : AboutObjects o) (hothers : ∀ (j : Nat) y, j ≠ n → w.requests[j]? = some y → AsksIn cfg ext lib auth (Elsewhere o) y)
    (hok : ∀ f, (n, .call f) ∈ w.strides → f = .none) {fs : FS} (hw : WF fs) (hfold : FoldersExist cfg o fs) {r : Outcome Response}
    (h : w.response cfg ext lib auth fs n = some r) :
    r = responded cfg ext lib auth x.env x.texts x.req fs ∧
    (∀ b k, Uses o b k →
      stored cfg (w.leaves cfg ext lib auth fs) b k = stored cfg (afterResponded cfg ext lib auth x.env x.texts x.req fs) b k ∧
      storedMeta cfg ext (w.leaves cfg ext lib auth fs) b k = storedMeta cfg ext (afterResponded cfg ext lib auth x.env x.texts x.req fs) b k) ∧
    ∀ u m, UsesPart o u m → contentAt (w.leaves cfg ext lib auth fs) (partFile cfg u m)
      = contentAt (afterResponded cfg ext lib auth x.env x.texts x.req fs) (partFile cfg u m) := by
  obtain ⟨w', h1, h2, hst, h3, h4⟩ := C126_same (cfg := cfg) (ext := ext) (lib := lib) (auth := auth) w hw
  have hlen := (List.getElem?_eq_some_iff.mp hn).1
  have hlv : w'.leaves cfg ext lib auth fs = w.leaves cfg ext lib auth fs := leaves_of_cuts h2 h3
  obtain ⟨h7, h8⟩ := again_others h1 hn hx (fun b e => by rw [e] at ho; exact ho.2.2.elim) hothers
  rw [← h4 n hlen] at h
  rw [← hlv]
  refine C107_isolation h7 hx ho h8 (fun f hf => ?_) hw hfold h
  obtain ⟨s, hs⟩ := List.getElem?_of_mem hf
  exact hok f (List.mem_of_getElem? ((hst s n f hlen).mp hs))

/-- **C126** A creation of a bucket, a deletion of an object, a list of the buckets and a question whether a bucket is there take effect at
one moment, also while buckets are deleted entry by entry. -/
theorem C126_one_moment {w : SlowEpoch} {n : Nat} {x : Exchange} {o : Op} (hn : w.requests[n]? = some x) (hx : Asks lib auth x o)
    (ho : OneChange o) (hf : ∀ s ∈ w.strides, s.1 = n → s.2 = .call .none) {fs : FS} (hw : WF fs) :
    ∃ t, TakesEffectAmid cfg ext lib auth w fs n x t := by
  obtain ⟨w', h1, h2, hst, h3, h4⟩ := C126_same (cfg := cfg) (ext := ext) (lib := lib) (auth := auth) w hw
  have hlen := (List.getElem?_eq_some_iff.mp hn).1
  obtain ⟨h7, _⟩ := again_others (P := fun _ => True) h1 hn hx (fun b e => by rw [e] at ho; cases ho) fun _ _ _ _ => trivial
  obtain ⟨t, ht⟩ := C125_one_moment (cfg := cfg) (ext := ext) (w := w') h7 hx ho (fun s hs e => by
    obtain ⟨i, f⟩ := s
    dsimp only at e ⊢
    subst e
    obtain ⟨j, hj⟩ := List.getElem?_of_mem hs
    have := hf _ (List.mem_of_getElem? ((hst j i f hlen).mp hj)) rfl
    cases this; rfl) hw
  refine ⟨t, fun s f hts hs => ?_, fun s hts => ?_, fun res hr hres => ?_⟩
  · have := hf _ (List.mem_of_getElem? hs) rfl
    dsimp only at this
    subst this
    rw [← h3, ← h3]
    exact ht.still s .none hts ((hst s n .none hlen).mpr hs)
  · obtain ⟨k1, k2⟩ := ht.change s hts
    rw [← h3, ← h3]
    exact ⟨(hst s n .none hlen).mp k1, k2⟩
  · rw [← h4 n hlen] at hr
    obtain ⟨s, k1, k2⟩ := ht.success res hr hres
    rw [h3] at k2
    exact ⟨s, k1, k2⟩

/-! ### the hypotheses are met -/

def Sample.webDrop : Exchange := Sample.exchange (Sample.plain b!"DELETE" b!"/bbb" none [] [])

theorem Sample.webDrop_asks : Asks Sample.lib none Sample.webDrop (.deleteBucket b!"bbb") :=
  Sample.asks (by decide +kernel) (.deleteBucket rfl (Sample.at_bucket rfl (by decide +kernel) (by decide +kernel)) (Sample.selects_none rfl))

/-- the sample store with one more object in `bbb` -/
def Sample.fuller : FS := (run Sample.cfg (Sample.writeFile [b!"srv", b!"bbb", b!"z"] b!"again") Sample.fs).2

/-- an upload to `aaa/x` and the creation of a bucket, while the bucket `bbb` is deleted, one object at a time -/
def Sample.slowRun : SlowEpoch :=
  ⟨[Sample.webPut, Sample.webDrop, Sample.webMake],
    List.replicate 2 (0, .call .none) ++ [(2, .call .none), (1, .sweep [[b!"srv", b!"bbb", b!"y"]])] ++ List.replicate 2 (0, .call .none) ++
      [(1, .sweep [[b!"srv", b!"bbb", b!"z"]]), (2, .call .none), (1, .call .none)] ++ List.replicate 8 (0, .call .none)⟩

theorem Sample.slow_asks {P : Op → Prop} (h1 : P (.deleteBucket b!"bbb")) (h2 : P (.createBucket b!"ccc")) :
    ∀ (j : Nat) y, j ≠ 0 → Sample.slowRun.requests[j]? = some y → AsksIn Sample.cfg Sample.ext Sample.lib none P y := by
  intro j y hj hy
  rcases j with _ | _ | _ | j
  · exact absurd rfl hj
  all_goals cases hy
  · exact .inl ⟨_, h1, Sample.webDrop_asks⟩
  · exact .inl ⟨_, h2, Sample.webMake_asks⟩

theorem Sample.fuller_wf : WF Sample.fuller := run_wf _ _ Sample.fs_wf

/-- The three requests are answered 200, 204 and 200. -/
example : Sample.slowRun.requests[0]? = some Sample.webPut ∧ Asks Sample.lib none Sample.webPut (.putObject Sample.webInput) ∧
    (∀ (j : Nat) y, j ≠ 0 → Sample.slowRun.requests[j]? = some y →
      AsksIn Sample.cfg Sample.ext Sample.lib none (OnOthers b!"aaa" (Away b!"aaa" b!"x")) y) ∧
    AboutObjects (.putObject Sample.webInput) ∧
    (∀ (j : Nat) y, j ≠ 0 → Sample.slowRun.requests[j]? = some y →
      AsksIn Sample.cfg Sample.ext Sample.lib none (Elsewhere (.putObject Sample.webInput)) y) ∧
    (∀ f, (0, .call f) ∈ Sample.slowRun.strides → f = .none) ∧ WF Sample.fuller ∧ FoldersExist Sample.cfg (.putObject Sample.webInput) Sample.fuller ∧
    Sample.slowRun.requests[2]? = some Sample.webMake ∧ Asks Sample.lib none Sample.webMake (.createBucket b!"ccc") ∧
    OneChange (.createBucket b!"ccc") ∧ (∀ s ∈ Sample.slowRun.strides, s.1 = 2 → s.2 = .call .none) ∧
    (∀ n ∈ [0, 1, 2], (Sample.webStatus (Sample.slowRun.response Sample.cfg Sample.ext Sample.lib none Sample.fuller n)).map Prod.fst =
      some (if n = 1 then 204 else 200)) ∧
    contentAt ((Sample.slowRun.cut 5).leaves Sample.cfg Sample.ext Sample.lib none Sample.fuller) [b!"srv", b!"bbb", b!"y"] = none ∧
    contentAt ((Sample.slowRun.cut 5).leaves Sample.cfg Sample.ext Sample.lib none Sample.fuller) [b!"srv", b!"bbb", b!"z"] = some b!"again" := by
  have hl : ∀ b ∈ [b!"aaa", b!"bbb", b!"ccc"], LegalBucket b := fun b hb => by
    simp only [List.mem_cons, List.not_mem_nil, or_false] at hb
    rcases hb with rfl | rfl | rfl <;> exact Sample.legal (by decide +kernel)
  refine ⟨rfl, Sample.webPut_asks, Sample.slow_asks ⟨hl _ (by simp), by decide⟩ (hl _ (by simp)), ?_, Sample.slow_asks ?_ ?_, ?_, Sample.fuller_wf, ?_, rfl,
    Sample.webMake_asks, .createBucket, by simp [Sample.slowRun], by decide +kernel, by decide +kernel, by decide +kernel⟩
  · have ha : PlainAddress b!"aaa" b!"x" := ⟨hl _ (by simp), _, plain1 (k := b!"x") (by decide)⟩
    exact ⟨ha, fun b k h => by cases h; exact ha, trivial⟩
  · exact ⟨⟨hl _ (by simp), by decide⟩, fun b k h => by cases h; exact ⟨hl _ (by simp), by decide⟩, fun _ _ h => h.elim⟩
  · exact ⟨hl _ (by simp), fun b k h => by cases h; exact hl _ (by simp), fun _ _ h => h.elim⟩
  · simp [Sample.slowRun]
  · refine ⟨by unfold IsDir; decide +kernel, fun b k cs h hk => ?_⟩
    cases h
    cases plainKey_unique hk (plain1 (k := b!"x") (by decide))
    unfold IsDir; decide +kernel

/-- While `bbb` is deleted, `aaa/x` and `aaa` are no concern of anybody. -/
example : WF Sample.fuller ∧ (contentAt Sample.fuller (Sample.cfg.root ++ [b!"aaa", b!"x"])).isSome = true ∧
    ∀ w ∈ [(⟨[Sample.webDrop], [(0, .sweep [[b!"srv", b!"bbb", b!"y"]])]⟩ : SlowEpoch)], ∀ x ∈ w.requests,
      ¬ TouchesFile Sample.cfg.root x.req [b!"aaa", b!"x"] ∧ ¬ TouchesFolder Sample.cfg.root x.req [b!"aaa"] := by
  refine ⟨Sample.fuller_wf, by decide +kernel, fun w hw x hx => ?_⟩
  cases List.mem_singleton.mp hw
  cases List.mem_singleton.mp hx
  have hat : At Sample.webDrop.req (.bucket b!"bbb") := Sample.at_bucket rfl (by decide +kernel) (by decide +kernel)
  refine ⟨fun h => ?_, fun h => ?_⟩
  · cases h
    case delete _ h _ => cases Sample.at_unique hat h
    case remove h => cases Sample.at_unique hat h
    all_goals exact absurd (by assumption) (show Sample.webDrop.req.method ≠ _ by decide +kernel)
  · cases h
    case delete _ h _ _ => cases Sample.at_unique hat h
    case remove h => cases Sample.at_unique hat h
    all_goals exact absurd (by assumption) (show Sample.webDrop.req.method ≠ _ by decide +kernel)

/-- **C126** (negation) The deletion of a bucket does not happen at one moment: it is answered 204, nothing fails, but in between one of the two
objects is there and the other is not. -/
theorem C126_delete_bucket_fails :
    ∃ (cfg : Cfg) (ext : Ext) (lib : Lib) (w : SlowEpoch) (x : Exchange) (b k k' : Bytes) (fs : FS) (res : Response) (m : Nat), WF fs ∧
      w.requests = [x] ∧ Asks lib none x (.deleteBucket b) ∧ (∀ s ∈ w.strides, ∀ f, s.2 = .call f → f = .none) ∧
      w.response cfg ext lib none fs 0 = some (.ok res) ∧ res.status = 204 ∧
      stored cfg fs b k ≠ none ∧ stored cfg fs b k' ≠ none ∧
      stored cfg ((w.cut m).leaves cfg ext lib none fs) b k = none ∧ stored cfg ((w.cut m).leaves cfg ext lib none fs) b k' ≠ none ∧
      stored cfg (w.leaves cfg ext lib none fs) b k' = none ∧ ¬ ∃ t, TakesEffectAmid cfg ext lib none w fs 0 x t := by
  let w : SlowEpoch := ⟨[Sample.webDrop], [(0, .sweep [[b!"srv", b!"bbb", b!"y"]]), (0, .call .none)]⟩
  obtain ⟨res, h1, h2⟩ : ∃ res, w.response Sample.cfg Sample.ext Sample.lib none Sample.fuller 0 = some (.ok res) ∧ res.status = 204 := by
    have : Sample.webStatus (w.response Sample.cfg Sample.ext Sample.lib none Sample.fuller 0) = some (204, some []) := by decide +kernel
    unfold Sample.webStatus at this
    split at this
    · rename_i r hr
      exact ⟨r, hr, (Prod.mk.inj (Option.some.inj this)).1⟩
    · cases this
  refine ⟨Sample.cfg, Sample.ext, Sample.lib, w, Sample.webDrop, b!"bbb", b!"y", b!"z", Sample.fuller, res, 1, Sample.fuller_wf, rfl, Sample.webDrop_asks,
    ?_, h1, h2, by decide +kernel, by decide +kernel, by decide +kernel, by decide +kernel, by decide +kernel, ?_⟩
  · intro s hs f he
    simp only [w, List.mem_cons, List.not_mem_nil, or_false] at hs
    rcases hs with rfl | rfl <;> cases he
    rfl
  · rintro ⟨t, ht⟩
    have hno : t ≠ some 0 := fun e => by have := (ht.change 0 e).1; cases this
    have := congrArg (fun fs => contentAt fs [b!"srv", b!"bbb", b!"y"]) (ht.still 0 _ hno rfl)
    exact absurd this (by decide +kernel)

end S3
