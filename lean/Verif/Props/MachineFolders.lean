import Verif.Lemmas.MachineFolders
/-! C138: folder keys in the abstract machine. -/
namespace S3
open Spec

variable {cfg : Cfg} {ext : Ext} {lib : Lib} {auth : Option Provider} {A : Bytes → Bytes → Prop}
  {place : Bytes → Bytes → List Bytes} {s t : Machine} {fs : FS}

/-- **C138** (one request) When the file tree shows a state of the machine, a PUT or DELETE of a folder key is answered as the
machine answers it, and leaves a file tree that shows the next state. -/
theorem C138_step (hS : Spelled cfg.root A place) (h : Tree cfg ext A place s fs) {q : List Bytes} {o : Op} (ho : FolderOp A place q o) :
    ∃ t, FolderStep s q o (answer cfg ext o fs) t ∧ Tree cfg ext A place t (after cfg ext o fs) := by
  cases o with
  | putObject i =>
    obtain ⟨cs, hk, rfl⟩ := ho
    exact folder_put hS h hk
  | deleteObject b k =>
    obtain ⟨cs, hk, rfl⟩ := ho
    exact folder_delete hS h hk
  | _ => exact ho.elim

/-- **C138** (no choice) The machine has one answer to a PUT or DELETE of a folder, and one next state. -/
theorem C138_determined {q : List Bytes} {o : Op} {a a' : Outcome Answer} {t' : Machine} (h : FolderStep s q o a t)
    (h' : FolderStep s q o a' t') : a = a' ∧ t = t' := by
  cases h <;> cases h' <;> first
    | exact ⟨rfl, rfl⟩
    | contradiction
    | (simp_all; done)

theorem leads_all (hl : MetaLaw ext) (he : ext.metaDec [] = none) (hS : Spelled cfg.root A place) (os : List Op)
    (hos : ∀ o ∈ os, Served A o ∨ Watching o ∨ ∃ q, FolderOp A place q o) : ∀ {s : Machine} {fs : FS}, Tree cfg ext A place s fs →
      ∃ t, Leads ext A place s (answered cfg ext os fs) t ∧ Tree cfg ext A place t (afterAll cfg ext os fs) := by
  induction os with
  | nil => exact fun h => ⟨_, .nil _, h⟩
  | cons o os ih =>
    intro s fs h
    have hos' : ∀ o ∈ os, Served A o ∨ Watching o ∨ ∃ q, FolderOp A place q o := fun o' ho' => hos o' (List.mem_cons_of_mem _ ho')
    have hcases : Served A o ∨ (Watching o ∧ ¬ Served A o) ∨ ∃ q, FolderOp A place q o := by
      by_cases hx : Served A o
      · exact .inl hx
      · exact (hos o (by simp)).imp_right fun h => h.imp_left fun h => ⟨h, hx⟩
    rcases hcases with ho | ⟨ho, hno⟩ | ⟨q, ho⟩
    · obtain ⟨t, h1, h2⟩ := ih hos' (tree_step hl he hS h (.inl ho))
      exact ⟨t, .served ho (C131_answer hS he h.shown ho) h1, h2⟩
    · have hst := tree_step hl he hS h (.inr ho)
      rw [show s.after place o = s by cases o <;> first | rfl | exact ho.elim] at hst
      obtain ⟨t, h1, h2⟩ := ih hos' hst
      exact ⟨t, .watching ho hno h1, h2⟩
    · obtain ⟨s', h1, h2⟩ := C138_step hS h ho
      obtain ⟨t, h3, h4⟩ := ih hos' h2
      exact ⟨t, .folder ho h1 h3, h4⟩

/-- **C138** (histories) Folder keys belong to the machine. On a server started on an empty directory, every history that mixes
requests about the addresses in `A`, PUTs and DELETEs of folder keys, and readings of any kind, is a history of the machine:
each request gets the answer the machine gives. A folder made by a PUT serves later copies and completions; a DELETE removes
a folder when nothing is in it, changes nothing (and is answered in the same way) when something is, and fails when there is
no such folder. At the end the directories of every bucket are exactly the folders of the machine. -/
theorem C138_history (hl : MetaLaw ext) (he : ext.metaDec [] = none) (hS : Spelled cfg.root A place) (hw : WF fs)
    (hroot : IsDir fs cfg.root) (hempty : ∀ q, q ≠ [] → fs.lookup (cfg.root ++ q) = none) (os : List Op)
    (hos : ∀ o ∈ os, Served A o ∨ Watching o ∨ ∃ q, FolderOp A place q o) :
    ∃ t, Leads ext A place Machine.fresh (answered cfg ext os fs) t ∧ Tree cfg ext A place t (afterAll cfg ext os fs) :=
  leads_all hl he hS os hos (tree_fresh hS hw hroot hempty)

/-- **C138** (listings) ... and afterwards the listings and the list of buckets show what the machine holds: folders, even
empty ones, never appear in a listing. -/
theorem C138_listing (hl : MetaLaw ext) (he : ext.metaDec [] = none) (hS : Spelled cfg.root A place) (hw : WF fs)
    (hroot : IsDir fs cfg.root) (hempty : ∀ q, q ≠ [] → fs.lookup (cfg.root ++ q) = none) (os : List Op)
    (hos : ∀ o ∈ os, Served A o ∨ Watching o ∨ ∃ q, FolderOp A place q o)
    (hn : (afterAll cfg ext os fs).nodes.length ≤ i64Max) {b : Bytes} (hb : LegalBucket b) (pfx : Option Bytes) {fuel : Nat}
    (hfuel : (afterAll cfg ext os fs).nodes.length < fuel) :
    ∃ t, Leads ext A place Machine.fresh (answered cfg ext os fs) t ∧
      (Listed A place t → t.folder [b] = true → ∃ l, t.Lists b pfx l ∧
        answer cfg ext (.listObjects b pfx fuel) (afterAll cfg ext os fs) = .ok (.objects l) ∧
        answer cfg ext (.listObjectsV2 b pfx fuel) (afterAll cfg ext os fs) = .ok (.objectsV2 l.length l)) ∧
      (t.folder [b] = false →
        answer cfg ext (.listObjects b pfx fuel) (afterAll cfg ext os fs) = .err .InternalError ∧
        answer cfg ext (.listObjectsV2 b pfx fuel) (afterAll cfg ext os fs) = .err .InternalError) ∧
      ∃ l, answer cfg ext .listBuckets (afterAll cfg ext os fs) = .ok (.buckets l) ∧ l.Nodup ∧
        ∀ b, b ∈ l ↔ LegalBucket b ∧ t.folder [b] = true := by
  obtain ⟨t, h1, h2⟩ := C138_history hl he hS hw hroot hempty os hos
  refine ⟨t, h1, fun hL => (machine_listing h2.shown h2.closed hL hn hb pfx hfuel).1, fun hf => ?_, machine_buckets h2.shown⟩
  obtain ⟨n, rfl⟩ : ∃ n, fuel = n + 1 := ⟨fuel - 1, by omega⟩
  exact list_missing hb (by rw [bucket_shown h2.shown hb, hf]; rfl) pfx n

/-- **C138** (over HTTP) What a client sees when it puts or deletes a folder key after such a history of exchanges. -/
theorem C138_client (hl : MetaLaw ext) (he0 : ext.metaDec [] = none) (hS : Spelled cfg.root A place) (hw : WF fs)
    (hroot : IsDir fs cfg.root) (hempty : ∀ q, q ≠ [] → fs.lookup (cfg.root ++ q) = none)
    {hist : List Exchange} {os : List Op} (hist_os : Meaning cfg ext lib auth hist os)
    (hos : ∀ o ∈ os, Served A o ∨ Watching o ∨ ∃ q, FolderOp A place q o) {e : Exchange} {o : Op} (he : Asks lib auth e o)
    {q : List Bytes} (ho : FolderOp A place q o) (hm : CleanMessage e.texts) :
    ∃ s t a res, Leads ext A place Machine.fresh (answered cfg ext os fs) s ∧ FolderStep s q o a t ∧
      responded cfg ext lib auth e.env e.texts e.req (afterExchanges cfg ext lib auth hist fs) = .ok res ∧ FolderShows res o a := by
  rw [afterExchanges_meaning hist_os]
  obtain ⟨s, h1, h2⟩ := C138_history hl he0 hS hw hroot hempty os hos
  obtain ⟨t, h3, h4⟩ := C138_step hS h2 ho
  obtain ⟨c, hc, hr⟩ := he
  have err : ∀ code, answer cfg ext o (afterAll cfg ext os fs) = .err code →
      ∃ res, responded cfg ext lib auth e.env e.texts e.req (afterAll cfg ext os fs) = .ok res ∧ FolderShows res o (.err code) := by
    intro code hcode
    obtain ⟨res, r1, r2⟩ := reports (cfg := cfg) (ext := ext) hm hc hr hcode
    exact ⟨res, r1, by unfold FolderShows; exact r2⟩
  have ok : ∀ a, answer cfg ext o (afterAll cfg ext os fs) = .ok a → a.meta = [] → ∀ res,
      makeResponse e.texts c o.handler ⟨successStatus o, metaHeaders none, a⟩ = .ret res → FolderShows res o (.ok a) →
      ∃ res, responded cfg ext lib auth e.env e.texts e.req (afterAll cfg ext os fs) = .ok res ∧ FolderShows res o (.ok a) := by
    intro a hok hmeta res h5 h6
    exact ⟨res, (responded_of (cfg := cfg) (ext := ext) hc hr e.texts _).2.2 a hok none (by rw [hmeta]; rfl) (fun l hl => nomatch hl) res h5, h6⟩
  suffices hx : ∃ res, responded cfg ext lib auth e.env e.texts e.req (afterAll cfg ext os fs) = .ok res ∧
      FolderShows res o (answer cfg ext o (afterAll cfg ext os fs)) by
    obtain ⟨res, r1, r2⟩ := hx
    exact ⟨s, t, _, res, h1, h3, r1, r2⟩
  generalize ha : answer cfg ext o (afterAll cfg ext os fs) = a at h3 err ok
  cases h3 with
  | made _ _ _ =>
    refine ok _ rfl rfl _ (by simp only [makeResponse, Op.handler, answerHeaders, document]; rfl) ⟨rfl, fun v => ?_⟩
    simp [optHeader, metaHeaders]
  | full _ _ => exact ok _ rfl rfl _ (by simp only [makeResponse, Op.handler, answerHeaders, document]; rfl) ⟨rfl, rfl⟩
  | removed _ _ => exact ok _ rfl rfl _ (by simp only [makeResponse, Op.handler, answerHeaders, document]; rfl) ⟨rfl, rfl⟩
  | _ => exact err _ rfl

/-! #### a sample -/

def Sample.folderPut : PutInput :=
  { bucket := b!"bbb", key := b!"d/", body := some [], contentLength := some 0, metadata := none, storageClass := none }

/-- a folder is made, a completion uses it, the folder cannot be removed while the object is in it, then it can -/
def Sample.folderHist : List Op :=
  [.createBucket b!"bbb", .uploadPart b!"u1" 1 (some [some b!"ab"]), .putObject Sample.folderPut,
    .completeMultipartUpload b!"bbb" b!"d/e" b!"u1" (some [some 1]), .deleteObject b!"bbb" b!"d/",
    .getObject b!"bbb" b!"d/e" none (fun _ => 7), .deleteObject b!"bbb" b!"d/e", .deleteObject b!"bbb" b!"d/", .deleteObject b!"bbb" b!"d/"]

theorem Sample.folderKey : FolderKey Sample.spellings Sample.placeOf b!"bbb" b!"d/" [b!"d"] where
  legal := (C02_bucket_name_rule _).mp (by decide +kernel)
  key := ⟨b!"d", plain1 (by decide), by decide⟩
  fits := by decide +kernel
  free b k h := by
    rcases Sample.spellings_cases h with ⟨rfl, rfl⟩ | ⟨rfl, rfl⟩ | ⟨rfl, rfl⟩ <;> decide +kernel

theorem Sample.folderHist_known : ∀ o ∈ Sample.folderHist,
    Served Sample.spellings o ∨ Watching o ∨ ∃ q, FolderOp Sample.spellings Sample.placeOf q o := by
  have mem : ∀ {b k : Bytes}, (b, k) ∈ [(b!"aaa", b!"x"), (b!"aaa", b!"d/../x"), (b!"bbb", b!"d/e")] → Sample.spellings b k := id
  have del : ∃ q, FolderOp Sample.spellings Sample.placeOf q (.deleteObject b!"bbb" b!"d/") := ⟨_, _, Sample.folderKey, rfl⟩
  intro o ho
  simp only [Sample.folderHist, List.mem_cons, List.not_mem_nil, or_false] at ho
  rcases ho with rfl | rfl | rfl | rfl | rfl | rfl | rfl | rfl | rfl
  · exact .inl ((C02_bucket_name_rule _).mp (by decide +kernel))
  · exact .inl ⟨by decide, by decide +kernel⟩
  · exact .inr (.inr ⟨_, _, Sample.folderKey, rfl⟩)
  · exact .inl ⟨mem (by decide), by decide⟩
  · exact .inr (.inr del)
  · exact .inr (.inl trivial)
  · exact .inl (mem (by decide))
  · exact .inr (.inr del)
  · exact .inr (.inr del)

/-- The hypotheses are met. The completion succeeds because of the folder; deleting the folder is answered with success both
when it stays and when it goes, and with an error when it is gone. -/
example : Spelled Sample.cfg.root Sample.spellings Sample.placeOf ∧ WF Sample.emptyStore ∧ IsDir Sample.emptyStore Sample.cfg.root ∧
    (∀ q, q ≠ [] → Sample.emptyStore.lookup (Sample.cfg.root ++ q) = none) ∧
    (∀ o ∈ Sample.folderHist, Served Sample.spellings o ∨ Watching o ∨ ∃ q, FolderOp Sample.spellings Sample.placeOf q o) ∧
    (answered Sample.cfg (realExt id) Sample.folderHist Sample.emptyStore).map (·.2) =
      [.ok .done, .ok (.etag (some (quoted ((realExt id).md5hex b!"ab")))), .ok (.etag none),
        .ok (.etag (some (quoted ((realExt id).md5hex b!"ab")))), .ok .done,
        .ok (.object 2 none (quoted ((realExt id).md5hex b!"ab")) (some b!"ab")), .ok .done, .ok .done, .err .InternalError] ∧
    IsDir (afterAll Sample.cfg (realExt id) (Sample.folderHist.take 5) Sample.emptyStore) (Sample.cfg.root ++ [b!"bbb", b!"d"]) ∧
    ¬ IsDir (afterAll Sample.cfg (realExt id) Sample.folderHist Sample.emptyStore) (Sample.cfg.root ++ [b!"bbb", b!"d"]) ∧
    answer Sample.cfg (realExt id) (.listObjects b!"bbb" none 30) (afterAll Sample.cfg (realExt id) (Sample.folderHist.take 3) Sample.emptyStore)
      = .ok (.objects []) ∧
    (afterAll Sample.cfg (realExt id) Sample.folderHist Sample.emptyStore).nodes.length < 30 ∧ 30 ≤ i64Max := by
  refine ⟨Sample.spelled, Sample.emptyStore_wf, Sample.emptyStore_root, Sample.emptyStore_bare, Sample.folderHist_known, by decide +kernel,
    ?_, ?_, by decide +kernel, by decide +kernel, by decide⟩
  · unfold IsDir; decide +kernel
  · unfold IsDir; decide +kernel

def Sample.folderReq : Req := Sample.plain b!"PUT" b!"/bbb/d/" none [(b!"content-length", b!"0")] []
def Sample.folderGone : Req := Sample.plain b!"DELETE" b!"/bbb/d/" none [] []

/-- the hypotheses of `C138_client` are met: a folder is put (with the bucket) and then deleted -/
example : Meaning Sample.cfg (realExt id) Sample.lib none [Sample.exchange Sample.folderReq] [.putObject Sample.folderPut] ∧
    (∀ o ∈ [Op.putObject Sample.folderPut], Served Sample.spellings o ∨ Watching o ∨ ∃ q, FolderOp Sample.spellings Sample.placeOf q o) ∧
    Asks Sample.lib none (Sample.exchange Sample.folderGone) (.deleteObject b!"bbb" b!"d/") ∧
    FolderOp Sample.spellings Sample.placeOf [b!"bbb", b!"d"] (.deleteObject b!"bbb" b!"d/") ∧
    answer Sample.cfg (realExt id) (.deleteObject b!"bbb" b!"d/")
      (afterAll Sample.cfg (realExt id) [.putObject Sample.folderPut] Sample.emptyStore) = .ok .done := by
  refine ⟨.asks ?_ .nil, ?_, ?_, ⟨_, Sample.folderKey, rfl⟩, by decide +kernel⟩
  · refine Sample.asks (by decide +kernel) (.putObject rfl
      (Sample.at_object rfl (by decide +kernel) (by decide +kernel) (by decide) (by decide)) (Sample.selects_none rfl)
      (Sample.no_header (by decide +kernel)) ⟨some b!"0", Sample.value_header (by decide +kernel), parseI64_iff.mp (by decide +kernel)⟩ ?_
      (Sample.no_header (by decide +kernel)))
    intro n v _ hh
    simp [headerMeta, Sample.folderReq, Sample.plain] at hh
  · intro o ho
    simp only [List.mem_cons, List.not_mem_nil, or_false] at ho
    subst ho
    exact .inr (.inr ⟨_, _, Sample.folderKey, rfl⟩)
  · exact Sample.asks (by decide +kernel) (.deleteObject rfl
      (Sample.at_object rfl (by decide +kernel) (by decide +kernel) (by decide) (by decide)) (Sample.selects_none rfl)
      ⟨none, Sample.no_header (by decide +kernel), .inl rfl⟩)

end S3
