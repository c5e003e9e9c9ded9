import Verif.Lemmas.Making
/-! C144: making folders disturbs nobody. -/
namespace S3
open Spec
variable {cfg : Cfg} {ext : Ext} {lib : Lib} {auth : Option Provider}

theorem growth_beside {b k : Bytes} {o : Op} (h : Growth b k o) : Beside b k o := by
  rcases h with h | h
  · refine .inl ?_
    cases o with
    | putObject i => exact h.toAway
    | copyObject => exact h.toAway
    | deleteObject => exact h.toAway
    | deleteObjects b' ks => exact fun k' hk' => (h k' hk').toAway
    | completeMultipartUpload => exact ⟨h.1.toAway, h.2⟩
    | _ => exact h
  · cases o with
    | putObject i => exact .inr h.1
    | _ => exact h.elim

/-- **C144** (uploads) While others make folders, those on the way to the object too, and write and delete other objects, an upload for which
there is room succeeds, if its own calls do not fail. The object is there then, with exactly the body, and stays so whatever is done with
folders and other objects afterwards. The folders on its way need not have been there. -/
theorem C144_put (hl : MetaLaw ext) {e : Epoch} {n : Nat} {i : PutInput} {cs : List Bytes} {body : Body}
    (hn : e.requests[n]? = some (.putObject i)) (hb : LegalBucket i.bucket) (hk : PlainKey i.key cs)
    (hv : ∀ m, i.metadata = some m → ValidMeta m)
    (ho : ∀ (j : Nat) o, j ≠ n → e.requests[j]? = some o → Growth i.bucket i.key o)
    {es : List Epoch} (hos : ∀ e' ∈ es, ∀ o ∈ e'.requests, Beside i.bucket i.key o)
    (hok : ∀ f, (n, f) ∈ e.steps → f = .none) (hbody : i.body = some body) (hu : unbroken body)
    (hsc : i.storageClass = none ∨ i.storageClass = some b!"STANDARD" ∨ i.storageClass = some b!"REDUCED_REDUNDANCY")
    {fs : FS} (hw : WF fs)
    (hroom : Room cfg fs i.bucket cs (if i.metadata.isSome then some (metadataName i.bucket i.key) else none))
    {r : Outcome Answer} (h : e.answered cfg ext fs n = some r) :
    r = .ok (.etag (some (quoted (ext.md5hex (received body))))) ∧
      stored cfg (life cfg ext (e :: es) fs) i.bucket i.key = some (received body) ∧
      storedMeta cfg ext (life cfg ext (e :: es) fs) i.bucket i.key =
        (match i.metadata with
          | some m => some (some m)
          | none => storedMeta cfg ext fs i.bucket i.key) := by
  have hR := rely_put (cfg.root ++ i.bucket :: cs) (metaFile cfg i.bucket i.key)
  have hsucc : ∃ a, r = .ok a := epoch_wp_quiet (cfg := cfg) (ext := ext) hR hn (Q := fun o _ => ∃ a, o = .ok a)
    (fun j o hj hoj fs c f hwf hc => growth_put hb hk (ho j o hj hoj) hwf hc f) hok hw
    (wp_opPut hR hw (put_room hb hk hbody hu hsc hw hroom) (fun e _ _ _ _ _ _ => ⟨_, rfl⟩)
      (fun e fs h => by obtain ⟨_, h⟩ := h; cases h)
      (fun fs h => by obtain ⟨_, h⟩ := h; cases h) (fun fs h => by obtain ⟨_, h⟩ := h; cases h)) h
  obtain ⟨a, rfl⟩ := hsucc
  obtain ⟨body', h1, _, rfl, h4, h5⟩ := C141_put (cfg := cfg) (ext := ext) hl hn hb hk hv
    (fun j o hj hoj => growth_beside (ho j o hj hoj)) hos hw h
  rw [hbody] at h1
  cases h1
  exact ⟨rfl, h4, h5⟩

/-- **C144** In a run of the server - any requests at the same time, any failing system calls, cut off anywhere - let a request read, write
or delete objects whose folders are there. The others make folders wherever they like, except where an object of the request has or gets its
place, or are about other objects. Then the request is where it would be alone, and is answered as it would be alone. -/
theorem C144_isolation {e : Epoch} {n : Nat} {o : Op} (hn : e.requests[n]? = some o) (ho : AboutObjects o)
    (hothers : ∀ (j : Nat) o', j ≠ n → e.requests[j]? = some o' → Alongside o o')
    {fs : FS} (hw : WF fs) (hfold : FoldersExist cfg o fs) :
    ∃ (d : Disk) (fs' : FS), (∀ i, d i = .none ∨ (n, d i) ∈ e.steps) ∧ Moment cfg ext d o fs fs' ∧
      (∀ r, e.answered cfg ext fs n = some r → r = answerF cfg ext d o fs ∧ fs' = afterF cfg ext d o fs) ∧
      (∀ b k, Uses o b k → stored cfg (e.leaves cfg ext fs) b k = stored cfg fs' b k ∧
        storedMeta cfg ext (e.leaves cfg ext fs) b k = storedMeta cfg ext fs' b k) ∧
      ∀ u m, UsesPart o u m → contentAt (e.leaves cfg ext fs) (partFile cfg u m) = contentAt fs' (partFile cfg u m) := by
  have hget : ∀ j : Nat, (e.requests.map (opProg cfg ext))[j]? = (e.requests[j]?).map (opProg cfg ext) := fun j => List.getElem?_map
  obtain ⟨d, m, h0, h1, h2⟩ := isolatedF (cfg := cfg) (U := upRegion cfg o) (Z := region cfg o) (n := n)
    (ok := fun j c => ∃ o', e.requests[j]? = some o' ∧ (opPerm cfg o').ok c)
    (fun j fs c f hj hwf hc => by
      obtain ⟨o', ho', hc⟩ := hc
      exact alongside_keeps ho (hothers j o' hj ho') hwf hc f)
    e.steps hw hw (folders_dirs hw hfold) (.refl _ _)
    (fun j q hj hq => by
      rw [hget, Option.map_eq_some_iff] at hq
      obtain ⟨o', ho', rfl⟩ := hq
      exact (op_safe cfg ext o').mono (fun c hc => ⟨o', ho', hc⟩) (fun _ h => h))
    (p := opProg cfg ext o) (by rw [hget, hn]; rfl) ((op_safe cfg ext o).mono (fun c hc => op_local ho hc) fun _ h => h)
  refine ⟨d, _, h0, runFN_moment d m o fs, ?_, region_match ho (runParF_wf hw) h2⟩
  intro r hr
  simp only [Epoch.answered, h1, Option.bind_some] at hr
  have := runFN_done _ d m fs hr
  exact ⟨by simp only [answerF, this], by simp only [afterF, this]⟩

/-- **C144** If its own calls do not fail, the request gets exactly the answer it would get alone on a sound disk, and has the same effect. -/
theorem C144_sound {e : Epoch} {n : Nat} {o : Op} (hn : e.requests[n]? = some o) (ho : AboutObjects o)
    (hothers : ∀ (j : Nat) o', j ≠ n → e.requests[j]? = some o' → Alongside o o')
    (hok : ∀ f, (n, f) ∈ e.steps → f = .none) {fs : FS} (hw : WF fs) (hfold : FoldersExist cfg o fs) {r : Outcome Answer}
    (h : e.answered cfg ext fs n = some r) :
    r = answer cfg ext o fs ∧
    (∀ b k, Uses o b k → stored cfg (e.leaves cfg ext fs) b k = stored cfg (after cfg ext o fs) b k ∧
      storedMeta cfg ext (e.leaves cfg ext fs) b k = storedMeta cfg ext (after cfg ext o fs) b k) ∧
    ∀ u m, UsesPart o u m → contentAt (e.leaves cfg ext fs) (partFile cfg u m) = contentAt (after cfg ext o fs) (partFile cfg u m) := by
  obtain ⟨d, fs', h0, _, h1, h2, h3⟩ := C144_isolation (cfg := cfg) (ext := ext) hn ho hothers hw hfold
  obtain ⟨h4, rfl⟩ := h1 r h
  have hd : ∀ i, d i = .none := fun i => (h0 i).elim id (hok _)
  have hrun := runF_sound (cfg := cfg) (opProg cfg ext o) hd fs
  refine ⟨?_, ?_, ?_⟩
  · rw [h4]; simp only [answerF, answer, hrun]
  · intro b k hu
    have := h2 b k hu
    simpa only [afterF, after, hrun] using this
  · intro u m hu
    have := h3 u m hu
    simpa only [afterF, after, hrun] using this

/-- **C144** (over HTTP) So it is for HTTP requests: among others, which make folders elsewhere, are about other objects, or are refused, a
request about objects whose folders are there, whose own calls do not fail, is answered, if at all, as if it were alone, and has the same
effect. -/
theorem C144_web {w : WebEpoch} {n : Nat} {x : Exchange} {o : Op} (hn : w.requests[n]? = some x) (hx : Asks lib auth x o)
    (ho : AboutObjects o) (hothers : ∀ (j : Nat) y, j ≠ n → w.requests[j]? = some y → AsksIn cfg ext lib auth (Alongside o) y)
    (hok : ∀ f, (n, f) ∈ w.steps → f = .none) {fs : FS} (hw : WF fs) (hfold : FoldersExist cfg o fs) {r : Outcome Response}
    (h : w.response cfg ext lib auth fs n = some r) :
    r = responded cfg ext lib auth x.env x.texts x.req fs ∧
    (∀ b k, Uses o b k →
      stored cfg (w.leaves cfg ext lib auth fs) b k = stored cfg (afterResponded cfg ext lib auth x.env x.texts x.req fs) b k ∧
      storedMeta cfg ext (w.leaves cfg ext lib auth fs) b k = storedMeta cfg ext (afterResponded cfg ext lib auth x.env x.texts x.req fs) b k) ∧
    ∀ u m, UsesPart o u m → contentAt (w.leaves cfg ext lib auth fs) (partFile cfg u m)
      = contentAt (afterResponded cfg ext lib auth x.env x.texts x.req fs) (partFile cfg u m) := by
  obtain ⟨e, he, hen, hes, hfs⟩ := web_epoch_at (cfg := cfg) (ext := ext) (P := Alongside o)
    (.inl ⟨trivial, fun _ _ _ => trivial, fun _ _ _ h => h⟩) hn hx hothers
  obtain ⟨hlv, c, hc, hr, hcase⟩ := hfs fs
  have hall : hyperCall cfg ext lib auth x.env x.texts x.req = wrap x.texts c o.handler (opProg cfg ext o) := hyperCall_asks hc hr
  obtain ⟨g1, g2, g3⟩ := catch_run (cfg := cfg) (g := fun a => (respond o.handler a).bind (makeResponse x.texts c o.handler))
    (k := errorResponse x.texts) (opProg cfg ext o) fs
  suffices hrun : ∃ r', e.answered cfg ext fs n = some r' ∧
      run cfg (hyperCall cfg ext lib auth x.env x.texts x.req) fs = (r, (run cfg (opProg cfg ext o) fs).2) by
    obtain ⟨r', hr', hrun⟩ := hrun
    obtain ⟨_, k2, k3⟩ := C144_sound (cfg := cfg) (ext := ext) hen ho hes (by rw [he]; exact hok) hw hfold hr'
    rw [hlv] at k2 k3
    have h2 : afterResponded cfg ext lib auth x.env x.texts x.req fs = after cfg ext o fs := by simp only [afterResponded, hrun, after]
    have h1 : r = responded cfg ext lib auth x.env x.texts x.req fs := by simp only [responded, hrun]
    rw [h2]
    exact ⟨h1, k2, k3⟩
  have key : ∀ {r'}, e.answered cfg ext fs n = some r' → (run cfg (opProg cfg ext o) fs).1 = r' := fun {r'} hr' =>
    (C144_sound (cfg := cfg) (ext := ext) hen ho hes (by rw [he]; exact hok) hw hfold hr').1.symm
  rcases hcase r h with ⟨a, ha, hra⟩ | ⟨err, _, ha, hra⟩ | ⟨ha, rfl⟩
  · obtain ⟨res, hres⟩ := respond_caught x.texts c o.handler a
    obtain rfl := ret_outcome (p := wrap x.texts c o.handler (.ret a)) hres hra
    exact ⟨_, ha, by rw [hall]; exact g1 a res (key ha) hres⟩
  · obtain ⟨res, hres⟩ := errorResponse_ret x.texts err
    obtain rfl := ret_outcome hres hra
    exact ⟨_, ha, by rw [hall]; exact g2 err res (key ha) hres⟩
  · exact ⟨_, ha, by rw [hall]; exact g3 (key ha)⟩

/-- **C144** (over HTTP, uploads) An upload for which there is room is answered 200, with the ETag of its body, and the object is there. -/
theorem C144_web_put (hl : MetaLaw ext) {w : WebEpoch} {n : Nat} {x : Exchange} {i : PutInput} {cs : List Bytes} {body : Body}
    (hn : w.requests[n]? = some x) (hx : Asks lib auth x (.putObject i)) (hb : LegalBucket i.bucket) (hk : PlainKey i.key cs)
    (hv : ∀ m, i.metadata = some m → ValidMeta m)
    (ho : ∀ (j : Nat) y, j ≠ n → w.requests[j]? = some y → AsksIn cfg ext lib auth (Growth i.bucket i.key) y)
    {ws : List WebEpoch} (hos : ∀ w' ∈ ws, ∀ y ∈ w'.requests, AsksIn cfg ext lib auth (Beside i.bucket i.key) y)
    (hok : ∀ f, (n, f) ∈ w.steps → f = .none) (hbody : i.body = some body) (hu : unbroken body)
    (hsc : i.storageClass = none ∨ i.storageClass = some b!"STANDARD" ∨ i.storageClass = some b!"REDUCED_REDUNDANCY")
    {fs : FS} (hw : WF fs)
    (hroom : Room cfg fs i.bucket cs (if i.metadata.isSome then some (metadataName i.bucket i.key) else none))
    {r : Outcome Response} (h : w.response cfg ext lib auth fs n = some r) :
    (∃ res, r = .ok res ∧ res.status = 200 ∧ HasETag res (quoted (ext.md5hex (received body)))) ∧
      stored cfg (webLife cfg ext lib auth (w :: ws) fs) i.bucket i.key = some (received body) ∧
      storedMeta cfg ext (webLife cfg ext lib auth (w :: ws) fs) i.bucket i.key =
        (match i.metadata with
          | some m => some (some m)
          | none => storedMeta cfg ext fs i.bucket i.key) := by
  obtain ⟨e, he, hen, hes, hfs⟩ := web_epoch_at (cfg := cfg) (ext := ext) (P := Growth _ _) (.inl trivial) hn hx ho
  obtain ⟨es, hes', hlife⟩ := webLife_life (cfg := cfg) (ext := ext) (lib := lib) (auth := auth) (P := Beside _ _) (.inl trivial) hos
  obtain ⟨hlv, c, hc, hr, hcase⟩ := hfs fs
  have key := fun r hr => C144_put (cfg := cfg) (ext := ext) (r := r) hl hen hb hk hv hes hes' (by rw [he]; exact hok) hbody hu hsc hw hroom hr
  simp only [life, hlv, hlife] at key
  rcases hcase _ h with ⟨a, ha, hra⟩ | ⟨err, _, ha, hra⟩ | ⟨ha, hra⟩
  · obtain ⟨k1, k2⟩ := key _ ha
    cases k1
    refine ⟨?_, k2⟩
    obtain ⟨res', hres, hst, het⟩ : ∃ res', (wrap x.texts c (Op.putObject i).handler (.ret (.etag (some (quoted (ext.md5hex (received body))))))).outcome
        = some (.ok res') ∧ res'.status = 200 ∧ HasETag res' (quoted (ext.md5hex (received body))) :=
      ⟨_, rfl, rfl, by intro v; simp [optHeader]⟩
    rw [hres] at hra
    cases hra
    exact ⟨_, rfl, hst, het⟩
  · cases (key _ ha).1
  · cases (key _ ha).1

/-! ### the hypotheses are met -/

theorem Sample.folder_df : FolderName b!"aaa" b!"d/f/" := ⟨Sample.legal (by decide +kernel), b!"d/f", _, Sample.plain_df, rfl⟩

/-- `o` runs while the folders `d` and `d/f` are made and `aaa/x` is deleted; all calls of the second fail after they have had their effect -/
def Sample.amongMakers (o : Op) : Epoch :=
  ⟨[o, .putObject { Sample.folderPut with bucket := b!"aaa", key := b!"d/" }, .putObject { Sample.folderPut with bucket := b!"aaa", key := b!"d/f/" },
      .deleteObject b!"aaa" b!"x"],
    (List.replicate 16 [(0, .none), (1, .after), (2, .none), (3, .none)]).flatten⟩

theorem Sample.amongMakers_quiet {o : Op} (f : Fault) (h : (0, f) ∈ (Sample.amongMakers o).steps) : f = .none := by
  simp only [Sample.amongMakers, List.replicate, List.flatten, List.append_eq, List.cons_append, List.nil_append, List.mem_cons, Prod.mk.injEq,
    List.not_mem_nil, or_false] at h
  simpa using h

theorem Sample.x_apart : Apart b!"aaa" b!"d/e" b!"aaa" b!"x" :=
  ⟨⟨Sample.legal (by decide +kernel), ⟨_, plain1 (k := b!"x") (by decide)⟩, by decide⟩, fun _ => Sample.not_nested (by decide),
    fun _ => Sample.not_nested (by decide)⟩

theorem Sample.room_de : Room Sample.cfg Sample.fs b!"aaa" [b!"d", b!"e"] (some (metadataName b!"aaa" b!"d/e")) := by
  refine ⟨by decide +kernel, by unfold IsDir; decide +kernel, ?_, by unfold IsDir; decide +kernel, ?_⟩
  · intro q hq hne
    have : q ∈ [[], [b!"srv"], [b!"srv", b!"aaa"], [b!"srv", b!"aaa", b!"d"]] := by
      obtain ⟨t, ht⟩ := hq
      simp only [Sample.cfg, List.cons_append, List.nil_append] at ht hne
      rcases q with _ | ⟨a, _ | ⟨b, _ | ⟨c, _ | ⟨d, q⟩⟩⟩⟩ <;> simp_all
    simp only [List.mem_cons, List.not_mem_nil, or_false] at this
    rcases this with rfl | rfl | rfl | rfl <;> decide +kernel
  · intro n hn
    cases hn
    exact ⟨by decide +kernel, by unfold IsDir; decide +kernel⟩

/-- `C144_put`: the upload of `aaa/d/e` into a folder that is not there before -/
example : ∃ r, (Sample.amongMakers (.putObject Sample.put3)).answered Sample.cfg Sample.ext Sample.fs 0 = some r ∧
    r = .ok (.etag (some b!"\"md5:7\"")) ∧ Sample.fs.lookup (Sample.cfg.root ++ [b!"aaa", b!"d"]) = none ∧
    (Sample.amongMakers (.putObject Sample.put3)).answered Sample.cfg Sample.ext Sample.fs 2 = some (.ok (.etag none)) ∧
    stored Sample.cfg (life Sample.cfg Sample.ext [Sample.amongMakers (.putObject Sample.put3), Sample.afterwards] Sample.fs) b!"aaa" b!"d/e"
      = some b!"one two" := by
  have h : ∃ r, (Sample.amongMakers (.putObject Sample.put3)).answered Sample.cfg Sample.ext Sample.fs 0 = some r := Option.isSome_iff_exists.mp (by decide +kernel)
  obtain ⟨r, h⟩ := h
  obtain ⟨h1, h2, _⟩ := C144_put (cfg := Sample.cfg) (ext := Sample.ext) (e := Sample.amongMakers (.putObject Sample.put3)) (n := 0) (es := [Sample.afterwards])
    (i := Sample.put3) Sample.ext_roundtrip rfl (Sample.legal (by decide +kernel)) Sample.plain_de Sample.validMeta (by
      intro j o hj h
      match j, hj with
      | 1, _ => cases h; exact .inr ⟨Sample.folder_d, fun _ => Sample.not_nested (by decide)⟩
      | 2, _ => cases h; exact .inr ⟨Sample.folder_df, fun _ => Sample.not_nested (by decide)⟩
      | 3, _ => cases h; exact .inl Sample.x_apart
      | j + 4, _ => simp [Sample.amongMakers] at h)
    (fun e' he' o ho => .inr (Sample.afterwards_folders e' he' o ho)) Sample.amongMakers_quiet rfl (by unfold unbroken; decide) (.inl rfl) Sample.fs_wf Sample.room_de h
  exact ⟨r, h, h1.trans (by decide +kernel), by decide +kernel, by decide +kernel, h2⟩

/-- without the exception it is not so: once the folder `d/e/` has been made, `aaa/d/e` cannot be uploaded -/
example : ∃ e : Epoch, e.requests = [.putObject Sample.put3, .putObject { Sample.folderPut with bucket := b!"aaa", key := b!"d/e/" }] ∧
    (∀ s ∈ e.steps, s.2 = .none) ∧ e.answered Sample.cfg Sample.ext Sample.fs 0 = some (.err .InternalError) ∧
    answer Sample.cfg Sample.ext (.putObject Sample.put3) Sample.fs = .ok (.etag (some b!"\"md5:7\"")) :=
  ⟨⟨_, List.replicate 8 (1, .none) ++ List.replicate 12 (0, .none)⟩, rfl, by simp, by decide +kernel, by decide +kernel⟩

/-- `C144_isolation`, `C144_sound`: a deletion of `aaa/d/e` -/
example : (Sample.amongMakers (.deleteObject b!"aaa" b!"d/e")).answered Sample.cfg Sample.ext Sample.fs3 0
      = some (answer Sample.cfg Sample.ext (.deleteObject b!"aaa" b!"d/e") Sample.fs3) ∧
    stored Sample.cfg ((Sample.amongMakers (.deleteObject b!"aaa" b!"d/e")).leaves Sample.cfg Sample.ext Sample.fs3) b!"aaa" b!"d/e" = none := by
  have hde : PlainAddress b!"aaa" b!"d/e" := ⟨Sample.legal (by decide +kernel), _, Sample.plain_de⟩
  have h : ∃ r, (Sample.amongMakers (.deleteObject b!"aaa" b!"d/e")).answered Sample.cfg Sample.ext Sample.fs3 0 = some r := ⟨.ok .done, by decide +kernel⟩
  obtain ⟨r, h⟩ := h
  obtain ⟨h1, h2, -⟩ := C144_sound (cfg := Sample.cfg) (ext := Sample.ext) (e := Sample.amongMakers (.deleteObject b!"aaa" b!"d/e")) (n := 0)
    (o := .deleteObject b!"aaa" b!"d/e") rfl ⟨hde, fun b k h => by cases h; exact hde, trivial⟩ (by
      intro j o hj h
      match j, hj with
      | 1, _ => cases h; exact .inr ⟨Sample.folder_d, fun b k h => by cases h; exact ⟨Sample.folder_d, fun _ => Sample.not_nested (by decide)⟩⟩
      | 2, _ => cases h; exact .inr ⟨Sample.folder_df, fun b k h => by cases h; exact ⟨Sample.folder_df, fun _ => Sample.not_nested (by decide)⟩⟩
      | 3, _ => cases h; exact .inl ⟨⟨Sample.legal (by decide +kernel), _, plain1 (k := b!"x") (by decide)⟩,
          fun b k h => by cases h; exact Sample.x_apart, fun _ _ h => h.elim⟩
      | j + 4, _ => simp [Sample.amongMakers] at h) Sample.amongMakers_quiet (run_wf _ _ Sample.fs_wf)
    ⟨by unfold IsDir; decide +kernel, fun _ _ _ h => h.elim⟩ h
  exact ⟨h.trans (congrArg some h1), (h2 b!"aaa" b!"d/e" rfl).1.trans (by decide +kernel)⟩

def Sample.webFolderMake : Exchange := Sample.exchange (Sample.plain b!"PUT" b!"/aaa/d/" none [(b!"content-length", b!"0")] [])

theorem Sample.webMake_in {P : Op → Prop} (h : P (.putObject ⟨b!"aaa", b!"d/", some [], some 0, none, none⟩)) (x : Exchange) (j : Nat) (y : Exchange) (hj : j ≠ 0)
    (hy : ([x, Sample.webFolderMake, Sample.webBad] : List Exchange)[j]? = some y) : AsksIn Sample.cfg Sample.ext Sample.lib none P y := by
  match j, hj with
  | 1, _ =>
    cases hy
    exact .inl ⟨_, h, Sample.asks (by decide +kernel) (.putObject rfl
      (Sample.at_object rfl (by decide +kernel) (by decide +kernel) (by decide) (by decide)) (Sample.selects_none rfl)
      (Sample.no_header (by decide +kernel)) ⟨some b!"0", Sample.value_header (by decide +kernel), parseI64_iff.mp (by decide +kernel)⟩
      (by intro n v _ h; simp [headerMeta, Sample.plain] at h) (Sample.no_header (by decide +kernel)))⟩
  | 2, _ => cases hy; exact .inr ⟨_, Sample.refused (err := .InvalidBucketName) (by decide +kernel)⟩
  | j + 3, _ => simp at hy

/-- `x` is served while the folder `d` is made and a request is refused -/
def Sample.whileMaking (x : Exchange) : WebEpoch :=
  ⟨[x, Sample.webFolderMake, Sample.webBad], (List.replicate 20 [(0, .none), (1, .none)]).flatten⟩

/-- the folder is made -/
example : ((Sample.whileMaking Sample.webGet).leaves Sample.cfg Sample.ext Sample.lib none Sample.fs).lookup (Sample.cfg.root ++ [b!"aaa", b!"d"])
    = some .dir := by decide +kernel

theorem Sample.whileMaking_quiet {x : Exchange} (f : Fault) (hf : (0, f) ∈ (Sample.whileMaking x).steps) : f = .none := by
  simp only [Sample.whileMaking, List.replicate, List.flatten, List.append_eq, List.cons_append, List.nil_append, List.mem_cons, Prod.mk.injEq,
    List.not_mem_nil, or_false] at hf
  simpa using hf

theorem Sample.clear_x : MakesClear b!"aaa" b!"x" (.putObject ⟨b!"aaa", b!"d/", some [], some 0, none, none⟩) :=
  ⟨Sample.folder_d, fun _ => Sample.not_nested (by decide)⟩

/-- `C144_web`: the read of `aaa/x` is answered as if it were alone -/
example : ∃ r, (Sample.whileMaking Sample.webGet).response Sample.cfg Sample.ext Sample.lib none Sample.fs 0 = some r ∧
    r = responded Sample.cfg Sample.ext Sample.lib none Sample.webGet.env Sample.webGet.texts Sample.webGet.req Sample.fs := by
  have hx : PlainAddress b!"aaa" b!"x" := ⟨Sample.legal (by decide +kernel), _, plain1 (k := b!"x") (by decide)⟩
  obtain ⟨res, h, _⟩ := Sample.answered (w := Sample.whileMaking Sample.webGet) (fs := Sample.fs) (n := 0) (by decide +kernel)
  exact ⟨_, h, (C144_web (cfg := Sample.cfg) (ext := Sample.ext) (w := Sample.whileMaking Sample.webGet) (n := 0) rfl Sample.webGet_asks
    ⟨trivial, fun b k h => by cases h; exact hx, trivial⟩
    (fun j y hj hy => Sample.webMake_in (P := Alongside _) (.inr ⟨Sample.folder_d, fun b k h => by cases h; exact Sample.clear_x⟩) _ j y hj hy)
    Sample.whileMaking_quiet Sample.fs_wf ⟨by unfold IsDir; decide +kernel, fun _ _ _ h => h.elim⟩ h).1⟩

theorem Sample.room_x : Room Sample.cfg Sample.fs b!"aaa" [b!"x"] (some (metadataName b!"aaa" b!"x")) := by
  refine ⟨by decide +kernel, by unfold IsDir; decide +kernel, ?_, by unfold IsDir; decide +kernel, ?_⟩
  · intro q hq hne
    have : q ∈ [[], [b!"srv"], [b!"srv", b!"aaa"]] := by
      obtain ⟨t, ht⟩ := hq
      simp only [Sample.cfg, List.cons_append, List.nil_append] at ht hne
      rcases q with _ | ⟨a, _ | ⟨b, _ | ⟨c, q⟩⟩⟩ <;> simp_all
    simp only [List.mem_cons, List.not_mem_nil, or_false] at this
    rcases this with rfl | rfl | rfl <;> decide +kernel
  · intro n hn
    cases hn
    exact ⟨by decide +kernel, by unfold IsDir; decide +kernel⟩

/-- `C144_web_put`: the upload of `aaa/x` -/
example : ∃ res, (Sample.whileMaking Sample.webPut).response Sample.cfg Sample.ext Sample.lib none Sample.fs 0 = some (.ok res) ∧ res.status = 200 ∧
    stored Sample.cfg (webLife Sample.cfg Sample.ext Sample.lib none
      [Sample.whileMaking Sample.webPut, Sample.withFolder Sample.webFolderDelete] Sample.fs) b!"aaa" b!"x" = some b!"new" := by
  have hsome : ((Sample.whileMaking Sample.webPut).response Sample.cfg Sample.ext Sample.lib none Sample.fs 0).isSome := by decide +kernel
  obtain ⟨r, h⟩ := Option.isSome_iff_exists.mp hsome
  obtain ⟨⟨res, rfl, hs, _⟩, h2, _⟩ := C144_web_put (cfg := Sample.cfg) (ext := Sample.ext) (w := Sample.whileMaking Sample.webPut) (n := 0)
    (i := Sample.webInput) (body := [some b!"new"]) Sample.ext_roundtrip rfl
    Sample.webPut_asks (Sample.legal (by decide +kernel)) (plain1 (k := b!"x") (by decide)) (fun m h => by cases h; exact ⟨by decide, by decide +kernel⟩)
    (fun j y hj hy => Sample.webMake_in (P := Growth _ _) (.inr Sample.clear_x) _ j y hj hy)
    (Sample.later_in (P := Beside _ _) (.inr Sample.folder_d)) Sample.whileMaking_quiet rfl (by unfold unbroken; decide) (.inl rfl) Sample.fs_wf Sample.room_x h
  exact ⟨res, h, hs, h2⟩

end S3
