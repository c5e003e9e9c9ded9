import Verif.Lemmas.FolderMade
import Verif.Props.Making
/-! C145: a folder that is made is there. -/
namespace S3
open Spec
variable {cfg : Cfg} {ext : Ext} {lib : Lib} {auth : Option Provider}

/-- **C145** (stays) A folder that is there stays through any runs of the server - any requests at the same time, any failing system calls,
cut off anywhere - in which nobody deletes exactly this folder or its bucket. Uploads and deletions of an object of its name, deletions of
the objects in it and of the folders it is in leave it where it is. -/
theorem C145_stays {b k : Bytes} {cs : List Bytes} (hk : PlainKey k cs) {es : List Epoch}
    (hos : ∀ e ∈ es, ∀ o ∈ e.requests, LeavesFolder b k o) {fs : FS} (hw : WF fs) (h : IsDir fs (cfg.root ++ b :: cs)) :
    IsDir (life cfg ext es fs) (cfg.root ++ b :: cs) :=
  (life_inv (cfg := cfg) (ext := ext) (J := fun fs => fs.lookup (cfg.root ++ b :: cs) = some .dir) (P := LeavesFolder b k)
    (fun _ ho _ _ f _ hj hc => execF_sparesDir (spares_ok hk ho hc) f hj) hos hw h).1

/-- **C145** (made) A PUT of a folder key succeeds if its own calls do not fail, its names are possible, no file stands in the way, and the
others do not put one there or remove the folders: they may make folders, the same too, and write and delete objects in them. The folder is
there then, and stays there until it or its bucket is deleted. -/
theorem C145_made {e : Epoch} {n : Nat} {i : PutInput} {k : Bytes} {cs : List Bytes} (hn : e.requests[n]? = some (.putObject i))
    (hp : ProperPut (.putObject i)) (hb : LegalBucket i.bucket) (hk : PlainKey k cs) (ek : i.key = k ++ b!"/")
    (ho : ∀ (j : Nat) o, j ≠ n → e.requests[j]? = some o → Lets i.bucket k o)
    {es : List Epoch} (hos : ∀ e' ∈ es, ∀ o ∈ e'.requests, LeavesFolder i.bucket k o)
    (hok : ∀ f, (n, f) ∈ e.steps → f = .none) {fs : FS} (hw : WF fs) (hroom : FolderRoom cfg fs i.bucket cs) {r : Outcome Answer}
    (h : e.answered cfg ext fs n = some r) :
    r = .ok (.etag none) ∧ IsDir (life cfg ext (e :: es) fs) (cfg.root ++ i.bucket :: cs) := by
  rcases folder_prog (cfg := cfg) (ext := ext) hb hk ek with ⟨_, hnp⟩ | hprog
  · exact absurd hp hnp
  have hclear : Clear (cfg.root ++ i.bucket :: cs) fs := by
    intro q hq
    have := hroom.free q hq
    simp only [contentAt] at this
    cases hl : fs.lookup q with
    | none => exact .inl rfl
    | some d =>
      cases d with
      | dir => exact .inr rfl
      | file j => rw [hl] at this; cases this
  have hR := rely_grow (cfg.root ++ i.bucket :: cs)
  have hpre : (cfg.root ++ i.bucket :: cs).reverse.reverse <+: cfg.root ++ i.bucket :: cs := by rw [List.reverse_reverse]; exact List.prefix_refl _
  have hwp : wp cfg (Grow (cfg.root ++ i.bucket :: cs)) (fun o fs' => o = .ok (.etag none) ∧ IsDir fs' (cfg.root ++ i.bucket :: cs))
      (opProg cfg ext (.putObject i)) fs := by
    rw [hprog]
    refine wp_bind hR hw (wp_mono ?_ (createDirAllRev_wp hR (fun _ _ h => h) hroom.names _ hpre hw hclear))
    rintro o fs2 hw2 ⟨rfl, hd, _⟩
    rw [List.reverse_reverse] at hd
    exact fun fs3 hr3 _ => ⟨rfl, hr3.dir (List.prefix_refl _) hd⟩
  have hg : ∀ (j : Nat) o, j ≠ n → e.requests[j]? = some o → ∀ fs c f, WF fs → (opPerm cfg o).ok c →
      Grow (cfg.root ++ i.bucket :: cs) fs (execF cfg fs c f).2 := fun j o hj hoj fs c f hwf hc =>
    grow_frame (execF_frame hwf (lets_ok ((C02_bucket_name_rule _).mpr hb) hk (ho j o hj hoj) hc) f)
  obtain ⟨h1, h2⟩ := epoch_wp_quiet (cfg := cfg) (ext := ext) hR hn hg hok hw hwp h
  exact ⟨h1, C145_stays (ext := ext) hk hos (runParF_wf hw) h2⟩

/-- **C145** (there) Even if its own calls fail, whatever stands in the way: when a PUT of a folder key is answered with success and nobody
deletes the folder or the bucket, the folder is there, and stays there. -/
theorem C145_there {e : Epoch} {n : Nat} {i : PutInput} {k : Bytes} {cs : List Bytes} (hn : e.requests[n]? = some (.putObject i))
    (hb : LegalBucket i.bucket) (hk : PlainKey k cs) (ek : i.key = k ++ b!"/")
    (ho : ∀ (j : Nat) o, j ≠ n → e.requests[j]? = some o → LeavesFolder i.bucket k o)
    {es : List Epoch} (hos : ∀ e' ∈ es, ∀ o ∈ e'.requests, LeavesFolder i.bucket k o)
    {fs : FS} (hw : WF fs) {a : Answer} (h : e.answered cfg ext fs n = some (.ok a)) :
    a = .etag none ∧ IsDir (life cfg ext (e :: es) fs) (cfg.root ++ i.bucket :: cs) := by
  have hR := rely_keepsDir (cfg.root ++ i.bucket :: cs)
  have hwp : wpF cfg (KeepsDir (cfg.root ++ i.bucket :: cs)) (fun a fs' => a = .etag none ∧ IsDir fs' (cfg.root ++ i.bucket :: cs))
      (opProg cfg ext (.putObject i)) fs := by
    rcases folder_prog (cfg := cfg) (ext := ext) hb hk ek with ⟨⟨e, he⟩, _⟩ | hprog
    · rw [he]; trivial
    · rw [hprog]
      have := createDirAllRev_there (cfg := cfg) (cfg.root ++ i.bucket :: cs).reverse hw
      rw [List.reverse_reverse] at this
      exact wpF_bind hR hw (wpF_mono (fun _ fs2 _ hd fs3 hr3 _ => ⟨rfl, hr3 hd⟩) this)
  obtain ⟨h1, h2⟩ := epoch_wp (cfg := cfg) (ext := ext) hR hn
    (fun j o hj hoj fs c f hwf hc hd => execF_sparesDir (spares_ok hk (ho j o hj hoj) hc) f hd) hw hwp h
  exact ⟨h1, C145_stays (ext := ext) hk hos (runParF_wf hw) h2⟩

/-- **C145** (over HTTP, stays) -/
theorem C145_web_stays {b k : Bytes} {cs : List Bytes} (hk : PlainKey k cs) {ws : List WebEpoch}
    (hos : ∀ w ∈ ws, ∀ y ∈ w.requests, AsksIn cfg ext lib auth (LeavesFolder b k) y) {fs : FS} (hw : WF fs) (h : IsDir fs (cfg.root ++ b :: cs)) :
    IsDir (webLife cfg ext lib auth ws fs) (cfg.root ++ b :: cs) := by
  obtain ⟨es, hes', hlife⟩ := webLife_life (cfg := cfg) (ext := ext) (lib := lib) (auth := auth) (P := LeavesFolder b k) (.inl trivial) hos
  rw [← hlife]
  exact C145_stays hk hes' hw h

/-- **C145** (over HTTP, made) The PUT of a folder key is answered 200, and the folder is there. -/
theorem C145_web_made {w : WebEpoch} {n : Nat} {x : Exchange} {i : PutInput} {k : Bytes} {cs : List Bytes} (hn : w.requests[n]? = some x)
    (hx : Asks lib auth x (.putObject i)) (hp : ProperPut (.putObject i)) (hb : LegalBucket i.bucket) (hk : PlainKey k cs)
    (ek : i.key = k ++ b!"/") (ho : ∀ (j : Nat) y, j ≠ n → w.requests[j]? = some y → AsksIn cfg ext lib auth (Lets i.bucket k) y)
    {ws : List WebEpoch} (hos : ∀ w' ∈ ws, ∀ y ∈ w'.requests, AsksIn cfg ext lib auth (LeavesFolder i.bucket k) y)
    (hok : ∀ f, (n, f) ∈ w.steps → f = .none) {fs : FS} (hw : WF fs) (hroom : FolderRoom cfg fs i.bucket cs)
    {r : Outcome Response} (h : w.response cfg ext lib auth fs n = some r) :
    (∃ res, r = .ok res ∧ res.status = 200) ∧ IsDir (webLife cfg ext lib auth (w :: ws) fs) (cfg.root ++ i.bucket :: cs) := by
  obtain ⟨e, he, hen, hes, hfs⟩ := web_epoch_at (cfg := cfg) (ext := ext) (P := Lets _ _) (.inl trivial) hn hx ho
  obtain ⟨es, hes', hlife⟩ := webLife_life (cfg := cfg) (ext := ext) (lib := lib) (auth := auth) (P := LeavesFolder _ _) (.inl trivial) hos
  obtain ⟨hlv, c, hc, hr, hcase⟩ := hfs fs
  have key := fun r hr => C145_made (cfg := cfg) (ext := ext) (r := r) hen hp hb hk ek hes hes' (by rw [he]; exact hok) hw hroom hr
  simp only [life, hlv, hlife] at key
  rcases hcase _ h with ⟨a, ha, hra⟩ | ⟨err, _, ha, hra⟩ | ⟨ha, hra⟩
  · obtain ⟨k1, k2⟩ := key _ ha
    cases k1
    refine ⟨?_, k2⟩
    obtain ⟨res', hres, hst⟩ : ∃ res', (wrap x.texts c (Op.putObject i).handler (.ret (.etag none))).outcome = some (.ok res') ∧ res'.status = 200 :=
      ⟨_, rfl, rfl⟩
    rw [hres] at hra
    cases hra
    exact ⟨_, rfl, hst⟩
  · cases (key _ ha).1
  · cases (key _ ha).1

/-- **C145** (over HTTP, there) On a failing disk too: when the PUT of a folder key is answered 200, the folder is there. -/
theorem C145_web_there {w : WebEpoch} {n : Nat} {x : Exchange} {i : PutInput} {k : Bytes} {cs : List Bytes} (hn : w.requests[n]? = some x)
    (hx : Asks lib auth x (.putObject i)) (hb : LegalBucket i.bucket) (hk : PlainKey k cs) (ek : i.key = k ++ b!"/")
    (ho : ∀ (j : Nat) y, j ≠ n → w.requests[j]? = some y → AsksIn cfg ext lib auth (LeavesFolder i.bucket k) y)
    {ws : List WebEpoch} (hos : ∀ w' ∈ ws, ∀ y ∈ w'.requests, AsksIn cfg ext lib auth (LeavesFolder i.bucket k) y)
    {fs : FS} (hw : WF fs) {res : Response} (h : w.response cfg ext lib auth fs n = some (.ok res)) (hs : res.status = 200) :
    IsDir (webLife cfg ext lib auth (w :: ws) fs) (cfg.root ++ i.bucket :: cs) := by
  obtain ⟨e, he, hen, hes, hfs⟩ := web_epoch_at (cfg := cfg) (ext := ext) (P := LeavesFolder _ _) (.inl trivial) hn hx ho
  obtain ⟨es, hes', hlife⟩ := webLife_life (cfg := cfg) (ext := ext) (lib := lib) (auth := auth) (P := LeavesFolder _ _) (.inl trivial) hos
  obtain ⟨hlv, c, hc, hr, hcase⟩ := hfs fs
  obtain ⟨a, m, ha, -⟩ := web_success (hcase _ h) (by omega)
  have := (C145_there (cfg := cfg) (ext := ext) hen hb hk ek hes hes' hw ha).2
  simp only [life, hlv, hlife] at this
  exact this

/-! ### the hypotheses are met -/

def Sample.dfPut : PutInput := { Sample.folderPut with bucket := b!"aaa", key := b!"d/f/" }

theorem Sample.dfPut_proper : ProperPut (.putObject Sample.dfPut) := ⟨_, rfl, by decide, by decide, rfl⟩

/-- the folder `d/f` is made while `aaa/d/e` is uploaded beside it, the folder `d` is made, and the folder `d/e` is deleted -/
def Sample.manyMake (steps : List (Nat × Fault)) : Epoch :=
  ⟨[.putObject Sample.dfPut, .putObject Sample.put3, .putObject { Sample.folderPut with bucket := b!"aaa", key := b!"d/" }, .deleteObject b!"aaa" b!"d/e/"],
    steps⟩

theorem Sample.manyMake_lets {steps : List (Nat × Fault)} (j : Nat) (o : Op) (hj : j ≠ 0) (h : (Sample.manyMake steps).requests[j]? = some o) :
    Lets b!"aaa" b!"d/f" o := by
  have hde : OffTheWay b!"aaa" b!"d/f" b!"aaa" b!"d/e" :=
    ⟨Sample.legal (by decide +kernel), ⟨_, Sample.plain_de⟩, by decide, fun _ => Sample.not_nested (by decide)⟩
  match j, hj with
  | 1, _ => cases h; exact .inl hde
  | 2, _ => cases h; exact .inr (.inl Sample.folder_d)
  | 3, _ => cases h; exact .inr (.inr ⟨_, b!"d/e", rfl, hde⟩)
  | j + 4, _ => simp [Sample.manyMake] at h

theorem Sample.manyMake_leaves {steps : List (Nat × Fault)} (j : Nat) (o : Op) (hj : j ≠ 0) (h : (Sample.manyMake steps).requests[j]? = some o) :
    LeavesFolder b!"aaa" b!"d/f" o := by
  match j, hj with
  | 1, _ => cases h; exact .inl ⟨Sample.legal (by decide +kernel), _, Sample.plain_de⟩
  | 2, _ => cases h; exact .inr ⟨Sample.folder_d, by simp⟩
  | 3, _ => cases h; exact .inr ⟨⟨Sample.legal (by decide +kernel), b!"d/e", _, Sample.plain_de, rfl⟩, by simp⟩
  | j + 4, _ => simp [Sample.manyMake] at h

/-- later somebody tries to delete the folder `d`, an object of the name `d/f`, and to upload one -/
def Sample.afterMake : Epoch :=
  ⟨[.deleteObject b!"aaa" b!"d/", .deleteObject b!"aaa" b!"d/f", .putObject { Sample.put3 with key := b!"d/f" }],
    (List.replicate 12 [(0, .none), (1, .none), (2, .after)]).flatten⟩

theorem Sample.afterMake_leaves (e : Epoch) (he : e ∈ [Sample.afterMake]) (o : Op) (ho : o ∈ e.requests) : LeavesFolder b!"aaa" b!"d/f" o := by
  have hdf : PlainAddress b!"aaa" b!"d/f" := ⟨Sample.legal (by decide +kernel), _, Sample.plain_df⟩
  cases List.mem_singleton.mp he
  simp only [Sample.afterMake, List.mem_cons, List.not_mem_nil, or_false] at ho
  rcases ho with rfl | rfl | rfl
  · exact .inr ⟨Sample.folder_d, by simp⟩
  · exact .inl hdf
  · exact .inl hdf

theorem Sample.folderRoom : FolderRoom Sample.cfg Sample.fs b!"aaa" [b!"d", b!"f"] := by
  refine ⟨by decide +kernel, fun q hq => ?_⟩
  have h : ∀ n ∈ List.range 5, contentAt Sample.fs ((Sample.cfg.root ++ [b!"aaa", b!"d", b!"f"]).take n) = none := by decide +kernel
  rw [List.prefix_iff_eq_take.mp hq]
  exact h _ (List.mem_range.mpr (Nat.lt_succ_of_le hq.length_le))

/-- `C145_made`, `C145_stays`: neither `d` nor `d/f` is there before -/
example : ∃ steps r, (Sample.manyMake steps).answered Sample.cfg Sample.ext Sample.fs 0 = some r ∧ r = .ok (.etag none) ∧
    Sample.fs.lookup (Sample.cfg.root ++ [b!"aaa", b!"d"]) = none ∧
    stored Sample.cfg ((Sample.manyMake steps).leaves Sample.cfg Sample.ext Sample.fs) b!"aaa" b!"d/e" = some b!"one two" ∧
    IsDir (life Sample.cfg Sample.ext [Sample.manyMake steps, Sample.afterMake] Sample.fs) (Sample.cfg.root ++ [b!"aaa", b!"d", b!"f"]) := by
  let steps : List (Nat × Fault) := (List.replicate 16 [(0, .none), (1, .none), (2, .after), (3, .none)]).flatten
  have h : ∃ r, (Sample.manyMake steps).answered Sample.cfg Sample.ext Sample.fs 0 = some r := Option.isSome_iff_exists.mp (by decide +kernel)
  obtain ⟨r, h⟩ := h
  obtain ⟨h1, h2⟩ := C145_made (cfg := Sample.cfg) (ext := Sample.ext) (es := [Sample.afterMake]) (e := Sample.manyMake steps) (n := 0)
    (i := Sample.dfPut) (k := b!"d/f") rfl Sample.dfPut_proper
    (Sample.legal (by decide +kernel)) Sample.plain_df rfl Sample.manyMake_lets Sample.afterMake_leaves (by
      intro f hf
      simp only [Sample.manyMake, steps, List.replicate, List.flatten, List.append_eq, List.cons_append, List.nil_append, List.mem_cons,
        Prod.mk.injEq, List.not_mem_nil, or_false] at hf
      simpa using hf) Sample.fs_wf Sample.folderRoom h
  exact ⟨steps, r, h, h1, by decide +kernel, by decide +kernel, h2⟩

/-- `C145_there`: the last `mkdir` is reported to have failed although it has had its effect -/
example : ∃ steps a, (Sample.manyMake steps).answered Sample.cfg Sample.ext Sample.fs 0 = some (.ok a) ∧ (0, .after) ∈ steps ∧
    IsDir (life Sample.cfg Sample.ext [Sample.manyMake steps, Sample.afterMake] Sample.fs) (Sample.cfg.root ++ [b!"aaa", b!"d", b!"f"]) := by
  let steps : List (Nat × Fault) := [(0, .none), (0, .none), (0, .after)] ++ (List.replicate 16 [(0, .none), (1, .none), (2, .after), (3, .none)]).flatten
  have h : (Sample.manyMake steps).answered Sample.cfg Sample.ext Sample.fs 0 = some (.ok (.etag none)) := by decide +kernel
  exact ⟨steps, _, h, by simp [steps], (C145_there (cfg := Sample.cfg) (ext := Sample.ext) (es := [Sample.afterMake]) (e := Sample.manyMake steps)
    (n := 0) (i := Sample.dfPut) (k := b!"d/f") rfl (Sample.legal (by decide +kernel)) Sample.plain_df rfl Sample.manyMake_leaves
    Sample.afterMake_leaves Sample.fs_wf h).2⟩

/-- without the condition it is not so: the folder is removed by whoever deletes it between -/
example : ∃ e : Epoch, e.requests = [.putObject Sample.dfPut, .deleteObject b!"aaa" b!"d/f/"] ∧ (∀ s ∈ e.steps, s.2 = .none) ∧
    e.answered Sample.cfg Sample.ext Sample.fs 0 = some (.ok (.etag none)) ∧
    (e.leaves Sample.cfg Sample.ext Sample.fs).lookup (Sample.cfg.root ++ [b!"aaa", b!"d", b!"f"]) = none :=
  ⟨⟨_, List.replicate 8 (0, .none) ++ List.replicate 8 (1, .none)⟩, rfl, by simp, by decide +kernel, by decide +kernel⟩

/-- the folder `d` is made by two clients -/
theorem Sample.webFolderMake_asks : Asks Sample.lib none Sample.webFolderMake (.putObject ⟨b!"aaa", b!"d/", some [], some 0, none, none⟩) :=
  Sample.asks (by decide +kernel) (.putObject rfl
    (Sample.at_object rfl (by decide +kernel) (by decide +kernel) (by decide) (by decide)) (Sample.selects_none rfl)
    (Sample.no_header (by decide +kernel)) ⟨some b!"0", Sample.value_header (by decide +kernel), parseI64_iff.mp (by decide +kernel)⟩
    (by intro n v _ h; simp [headerMeta, Sample.plain] at h) (Sample.no_header (by decide +kernel)))

theorem Sample.folderRoom_d : FolderRoom Sample.cfg Sample.fs b!"aaa" [b!"d"] := by
  refine ⟨by decide +kernel, fun q hq => ?_⟩
  have h : ∀ n ∈ List.range 4, contentAt Sample.fs ((Sample.cfg.root ++ [b!"aaa", b!"d"]).take n) = none := by decide +kernel
  rw [List.prefix_iff_eq_take.mp hq]
  exact h _ (List.mem_range.mpr (Nat.lt_succ_of_le hq.length_le))

theorem Sample.again_in (w : WebEpoch) (hw : w ∈ [Sample.whileMaking Sample.webFolderMake]) (y : Exchange) (hy : y ∈ w.requests) :
    AsksIn Sample.cfg Sample.ext Sample.lib none (LeavesFolder b!"aaa" b!"d") y := by
  cases List.mem_singleton.mp hw
  have h : LeavesFolder b!"aaa" b!"d" (.putObject ⟨b!"aaa", b!"d/", some [], some 0, none, none⟩) := .inr ⟨Sample.folder_d, by simp⟩
  obtain ⟨j, hj⟩ := List.getElem?_of_mem hy
  by_cases h0 : j = 0
  · subst h0; cases hj; exact .inl ⟨_, h, Sample.webFolderMake_asks⟩
  · exact Sample.webMake_in h _ j y h0 hj

/-- `C145_web_made`, `C145_web_there`, `C145_web_stays` -/
example : ∃ res, (Sample.whileMaking Sample.webFolderMake).response Sample.cfg Sample.ext Sample.lib none Sample.fs 0 = some (.ok res) ∧ res.status = 200 ∧
    IsDir (webLife Sample.cfg Sample.ext Sample.lib none [Sample.whileMaking Sample.webFolderMake, Sample.whileMaking Sample.webFolderMake] Sample.fs)
      (Sample.cfg.root ++ [b!"aaa", b!"d"]) := by
  have hsome : ((Sample.whileMaking Sample.webFolderMake).response Sample.cfg Sample.ext Sample.lib none Sample.fs 0).isSome := by decide +kernel
  obtain ⟨r, h⟩ := Option.isSome_iff_exists.mp hsome
  have hd : PlainKey b!"d" [b!"d"] := plain1 (k := b!"d") (by decide)
  obtain ⟨⟨res, rfl, hs⟩, h2⟩ := C145_web_made (cfg := Sample.cfg) (ext := Sample.ext) (w := Sample.whileMaking Sample.webFolderMake) (n := 0)
    (k := b!"d") rfl Sample.webFolderMake_asks ⟨_, rfl, by decide, by decide, rfl⟩ (Sample.legal (by decide +kernel)) hd rfl
    (fun j y hj hy => Sample.webMake_in (P := Lets _ _) (.inr (.inl Sample.folder_d)) _ j y hj hy) Sample.again_in Sample.whileMaking_quiet
    Sample.fs_wf Sample.folderRoom_d h
  exact ⟨res, h, hs, C145_web_there (cfg := Sample.cfg) (ext := Sample.ext) (w := Sample.whileMaking Sample.webFolderMake) (n := 0)
    (k := b!"d") rfl Sample.webFolderMake_asks (Sample.legal (by decide +kernel)) hd rfl
    (fun j y hj hy => Sample.again_in _ (List.mem_singleton_self _) y (List.mem_of_getElem? hy)) Sample.again_in Sample.fs_wf h hs⟩

end S3
