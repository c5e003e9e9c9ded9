import Verif.Lemmas.FoldersBeside
import Verif.Props.MachineFolders
/-! C141: folders made and removed beside uploads. -/
namespace S3
open Spec
variable {cfg : Cfg} {ext : Ext}

/-- the place of the object, and that of its metadata -/
def ownFiles (cfg : Cfg) (b k : Bytes) (cs : List Bytes) (q : Path) : Prop := q = cfg.root ++ b :: cs ∨ q = metaFile cfg b k

theorem beside_stays {b k : Bytes} {cs : List Bytes} (hb : LegalBucket b) (hk : PlainKey k cs) {o : Op} (ho : Beside b k o)
    {fs : FS} (hw : WF fs) {c : Call} (hc : (opPerm cfg o).ok c) (f : Fault) :
    FilesStay (ownFiles cfg b k cs) (metaFile cfg b k) fs (execF cfg fs c f).2 := by
  rcases ho with ho | ho
  · exact filesStay_frame (keep_object hb hk ho hw hc f) (fun _ h h' => h' h) (fun h => h (.inr rfl)) (fun h => h rfl)
  · exact folder_stays ho hw hc f

theorem object_stays {b k : Bytes} {cs : List Bytes} (hb : LegalBucket b) (hk : PlainKey k cs) {fs fs' : FS} (hw : WF fs)
    (h : FilesStay (ownFiles cfg b k cs) (metaFile cfg b k) fs fs') :
    stored cfg fs' b k = stored cfg fs b k ∧ storedMeta cfg ext fs' b k = storedMeta cfg ext fs b k := by
  refine ⟨?_, metaAt_same (h.same (.inr rfl)) hw⟩
  simp only [stored, objectPath_plain cfg ((C02_bucket_name_rule b).mpr hb) hk]
  exact h.content hw (.inl rfl)

/-- **C141** (objects stay) Whatever folders are made and removed, in any number of runs of the server, with requests at the same time, on a
disk that may fail, cut off at any moment: an object, or the absence of one, and its metadata stay, if no request writes or deletes
this object or its bucket. -/
theorem C141_kept {b k : Bytes} {cs : List Bytes} (hb : LegalBucket b) (hk : PlainKey k cs) {es : List Epoch}
    (ho : ∀ e ∈ es, ∀ o ∈ e.requests, Beside b k o) {fs : FS} (hw : WF fs) :
    stored cfg (life cfg ext es fs) b k = stored cfg fs b k ∧ storedMeta cfg ext (life cfg ext es fs) b k = storedMeta cfg ext fs b k :=
  object_stays hb hk hw (life_inv (P := Beside b k) (J := FilesStay _ _ fs)
    (fun _ ho _ _ f hwx hj hc => hj.trans (beside_stays hb hk ho hwx hc f)) ho hw (.refl _)).1

/-- **C141** (uploads) An upload that has been answered with success is there, with exactly its body and its metadata, also when the folders
on its way, or a folder of its name, were made and removed meanwhile, and whatever happens afterwards. -/
theorem C141_put (hl : MetaLaw ext) {e : Epoch} {n : Nat} {i : PutInput} {cs : List Bytes} (hn : e.requests[n]? = some (.putObject i))
    (hb : LegalBucket i.bucket) (hk : PlainKey i.key cs) (hv : ∀ m, i.metadata = some m → ValidMeta m)
    (ho : ∀ (j : Nat) o, j ≠ n → e.requests[j]? = some o → Beside i.bucket i.key o)
    {es : List Epoch} (hos : ∀ e' ∈ es, ∀ o ∈ e'.requests, Beside i.bucket i.key o)
    {fs : FS} (hw : WF fs) {a : Answer} (h : e.answered cfg ext fs n = some (.ok a)) :
    ∃ body, i.body = some body ∧ unbroken body ∧ a = .etag (some (quoted (ext.md5hex (received body)))) ∧
      stored cfg (life cfg ext (e :: es) fs) i.bucket i.key = some (received body) ∧
      storedMeta cfg ext (life cfg ext (e :: es) fs) i.bucket i.key =
        (match i.metadata with
          | some m => some (some m)
          | none => storedMeta cfg ext fs i.bucket i.key) := by
  have hb' := (C02_bucket_name_rule _).mpr hb
  have hwe : WF (e.leaves cfg ext fs) := runParF_wf hw
  obtain ⟨hk1, hk2⟩ := C141_kept (cfg := cfg) (ext := ext) hb hk hos hwe
  have hR : Rely (FilesStay (ownFiles cfg i.bucket i.key cs) (metaFile cfg i.bucket i.key)) := rely_filesStay
  have hwp := wpF_putObject (cfg := cfg) (ext := ext) hR (fun _ _ hwa _ h => h.keep hwa) i (plain_no_slash hk) hb'
    (fun q hq => .inl ((objP_plain hb' hk).mp hq)) (.inr rfl) hw
  have hst : ∀ fs', stored cfg fs' i.bucket i.key = contentAt fs' (cfg.root ++ i.bucket :: cs) := by
    intro fs'; simp [stored, objectPath_plain cfg hb' hk]
  obtain ⟨et, rfl, ⟨body, h1, h2, h3, h4⟩, h5⟩ := epoch_wp (cfg := cfg) (ext := ext) hR hn
    (Q := fun a fs' => ∃ et, a = .etag et ∧ PutDone cfg ext i et fs')
    (fun j o hj hoj fs c f hwf hc => beside_stays hb hk (ho j o hj hoj) hwf hc f) hw
    (wpF_bind hR hw (wpF_mono (fun et x hwx hq y hr hwy => by
      refine ⟨et, rfl, ?_⟩
      obtain ⟨⟨body, h1, h2, h3, h4⟩, h5⟩ := hq
      refine ⟨⟨body, h1, h2, ?_, h4⟩, fun m hm => (hr.content hwx (.inr rfl)).trans (h5 m hm)⟩
      rw [hst] at h3 ⊢
      exact (hr.content hwx (.inl rfl)).trans h3) hwp)) h
  refine ⟨body, h1, h2, by rw [h4], hk1.trans h3, hk2.trans ?_⟩
  cases hm : i.metadata with
  | some m =>
    have h6 := h5 m hm
    simp only [contentAt] at h6
    split at h6
    · rename_i j hj
      have hj' : (e.leaves cfg ext fs).lookup (cfg.root ++ [metadataName i.bucket i.key]) = some (.file j) := hj
      simp only [storedMeta, metaAt, hj']
      rw [Option.some.inj h6, hl m (hv m hm)]; rfl
    · cases h6
  | none =>
    have hf : FilesStay (fun q => q = metaFile cfg i.bucket i.key) (metaFile cfg i.bucket i.key) fs (e.leaves cfg ext fs) := by
      have one : ∀ x c f, WF x → (∃ o, (o = .putObject i ∨ Beside i.bucket i.key o) ∧ (opPerm cfg o).ok c) →
          FilesStay (fun q => q = metaFile cfg i.bucket i.key) (metaFile cfg i.bucket i.key) x (execF cfg x c f).2 := by
        rintro x c f hwx ⟨o, rfl | ho', hc⟩
        · exact filesStay_frame (execF_frame hwx (put_meta_ok hb' hm (plain_no_slash hk) hc) f) (fun _ h h' => h' h) (fun h => h rfl)
            (fun h => h rfl)
        · exact (beside_stays hb hk ho' hwx hc f).mono fun _ h => .inr h
      refine runParF_inv (J := FilesStay _ _ fs) (ok := fun c => ∃ o, (o = .putObject i ∨ Beside i.bucket i.key o) ∧ (opPerm cfg o).ok c)
        (fun x c f hwx hj hc => hj.trans (one x c f hwx hc)) ?_ hw (.refl _)
      · intro p hp
        obtain ⟨o, hm', rfl⟩ := List.mem_map.mp hp
        obtain ⟨j, hj⟩ := List.getElem?_of_mem hm'
        refine (op_safe cfg ext o).mono (fun c hc => ⟨o, ?_, hc⟩) (fun _ h => h)
        by_cases e' : j = n
        · subst e'
          rw [hn] at hj
          cases hj
          exact .inl rfl
        · exact .inr (ho j o e' hj)
    exact metaAt_same (hf.same rfl) hw

/-- **C141** (reading) Such an upload is what GET and HEAD answer afterwards. -/
theorem C141_read (hl : MetaLaw ext) {e : Epoch} {n : Nat} {i : PutInput} {cs : List Bytes} (hn : e.requests[n]? = some (.putObject i))
    (hb : LegalBucket i.bucket) (hk : PlainKey i.key cs) {m : Meta} (hm : i.metadata = some m) (hv : ValidMeta m)
    (ho : ∀ (j : Nat) o, j ≠ n → e.requests[j]? = some o → Beside i.bucket i.key o)
    {es : List Epoch} (hos : ∀ e' ∈ es, ∀ o ∈ e'.requests, Beside i.bucket i.key o)
    {fs : FS} (hw : WF fs) {a : Answer} (h : e.answered cfg ext fs n = some (.ok a)) {body : Body} (hbody : i.body = some body)
    (hlen : (received body).length ≤ i64Max) (w : Nat → Nat) :
    answer cfg ext (.getObject i.bucket i.key none w) (life cfg ext (e :: es) fs)
      = .ok (.object (received body).length (some m) (quoted (ext.md5hex (received body))) (some (received body))) ∧
    answer cfg ext (.headObject i.bucket i.key) (life cfg ext (e :: es) fs) = .ok (.head (received body).length (some m)) := by
  obtain ⟨body', h1, _, _, h2, h3⟩ := C141_put hl hn hb hk (fun m' h' => by rw [hm] at h'; cases h'; exact hv) ho hos hw h
  rw [hbody] at h1
  cases h1
  rw [hm] at h3
  exact get_stored h2 h3 hlen w

/-- **C141** (copies) A copy that has been answered with success has the content of its source, also when folders were made and removed
meanwhile, and keeps it whatever happens afterwards. The folder of the copy need not have been there at the beginning. -/
theorem C141_copy {e : Epoch} {n : Nat} {b k s sb sk : Bytes} {cs scs : List Bytes} (hn : e.requests[n]? = some (.copyObject b k s))
    (hb : LegalBucket b) (hk : PlainKey k cs) (hs : copySourceFromHeader s = .ok (sb, sk)) (hsk : PlainKey sk scs) (hne : (b, k) ≠ (sb, sk))
    (ho : ∀ (j : Nat) o, j ≠ n → e.requests[j]? = some o → Beside b k o ∧ Beside sb sk o)
    {es : List Epoch} (hos : ∀ e' ∈ es, ∀ o ∈ e'.requests, Beside b k o) {fs : FS} (hw : WF fs) {a : Answer}
    (h : e.answered cfg ext fs n = some (.ok a)) :
    ∃ c, stored cfg fs sb sk = some c ∧ stored cfg (life cfg ext (e :: es) fs) b k = some c ∧ a = .etag (some (quoted (ext.md5hex c))) := by
  obtain ⟨-, hsb, -⟩ := (C62_copy_source s sb sk).mp hs
  have hb' := (C02_bucket_name_rule _).mpr hb
  have hsb' := (C02_bucket_name_rule _).mpr hsb
  have hwe : WF (e.leaves cfg ext fs) := runParF_wf hw
  obtain ⟨hk1, -⟩ := C141_kept (cfg := cfg) (ext := ext) hb hk hos hwe
  let R : FS → FS → Prop := fun x y => FilesStay (ownFiles cfg b k cs) (metaFile cfg b k) x y ∧
    FilesStay (ownFiles cfg sb sk scs) (metaFile cfg sb sk) x y
  have hR : Rely R := ⟨fun _ => ⟨.refl _, .refl _⟩, fun _ _ _ h1 h2 => ⟨h1.1.trans h2.1, h1.2.trans h2.2⟩⟩
  let own : Path → Prop := fun q => q = cfg.root ++ b :: cs ∨ q = cfg.root ++ sb :: scs
  have hkeep : ∀ x y, WF x → WF y → R x y → KeepFiles own x y := by
    rintro x y hwx _ hr p i c (rfl | rfl) hh
    · exact hr.1.keep hwx _ _ _ (.inl rfl) hh
    · exact hr.2.keep hwx _ _ _ (.inl rfl) hh
  have hPQ : cfg.root ++ sb :: scs ≠ cfg.root ++ b :: cs := by
    intro e'
    have := List.append_cancel_left e'
    simp only [List.cons.injEq] at this
    obtain ⟨rfl, rfl⟩ := this
    exact hne (by rw [hk.text, hsk.text])
  have away : ∀ {b' : Bytes} {cs' : List Bytes}, LegalBucket b' → cfg.root ++ b' :: cs' ≠ metaFile cfg b k := by
    intro b' cs' hl e'
    exact meta_not_above (cfg := cfg) (b := b) (k := k) (cs := cs') hl (by rw [e']; exact List.prefix_refl _)
  have hst : ∀ {b' k' : Bytes} {cs' : List Bytes}, checkBucketName b' = true → PlainKey k' cs' → ∀ fs',
      stored cfg fs' b' k' = contentAt fs' (cfg.root ++ b' :: cs') := by
    intro b' k' cs' h1 h2 fs'; simp [stored, objectPath_plain cfg h1 h2]
  have hwp := wpF_copyObject (cfg := cfg) (ext := ext) (own := own) hR hkeep hs (objectPath_plain cfg hsb' hsk) (objectPath_plain cfg hb' hk)
    (.inr rfl) (.inl rfl) hPQ (away hsb) (away hb) hw
  obtain ⟨c, h1, h2, h3⟩ := epoch_wp (cfg := cfg) (ext := ext) hR hn
    (Q := fun a fs' => ∃ c, stored cfg fs sb sk = some c ∧ stored cfg fs' b k = some c ∧ a = .etag (some (quoted (ext.md5hex c))))
    (fun j o hj hoj fs c f hwf hc => ⟨beside_stays hb hk (ho j o hj hoj).1 hwf hc f, beside_stays hsb hsk (ho j o hj hoj).2 hwf hc f⟩) hw
    (wpF_bind hR hw (wpF_mono (fun et x hwx hq y hr hwy => by
      obtain ⟨fs1, i, j, c, hr1, hw1, h1, _, h3, rfl⟩ := hq
      refine ⟨c, ?_, ?_, rfl⟩
      · rw [hst hsb' hsk, ← hr1.2.content hw (.inl rfl)]
        exact h1.content
      · rw [hst hb' hk]
        exact (hkeep _ _ hwx hwy hr _ _ _ (.inl rfl) h3).content) hwp)) h
  exact ⟨c, h1, hk1.trans h2, h3⟩

/-- **C141** (uploads in parts) A completion that has been answered with success has made the object out of the parts, in order, also when
folders were made and removed meanwhile, if no other request is about the same upload; and the object stays, whatever happens afterwards.
The folder of the object need not have been there at the beginning. -/
theorem C141_complete {e : Epoch} {n : Nat} {b k u : Bytes} {cs : List Bytes} {contents : List Bytes}
    (hn : e.requests[n]? = some (.completeMultipartUpload b k u (some (numbers 0 contents.length)))) (hu : (47 : UInt8) ∉ u)
    (hb : LegalBucket b) (hk : PlainKey k cs)
    (ho : ∀ (j : Nat) o, j ≠ n → e.requests[j]? = some o → Beside b k o ∧ ∀ m, ¬ UsesPart o u m)
    {es : List Epoch} (hos : ∀ e' ∈ es, ∀ o ∈ e'.requests, Beside b k o) {fs : FS} (hw : WF fs)
    (hp : ∀ (j : Nat) x, contents[j]? = some x → contentAt fs (partFile cfg u (j + 1)) = some x) {a : Answer}
    (h : e.answered cfg ext fs n = some (.ok a)) :
    stored cfg (life cfg ext (e :: es) fs) b k = some contents.flatten ∧ a = .etag (some (quoted (ext.md5hex contents.flatten))) := by
  have hb' := (C02_bucket_name_rule _).mpr hb
  have hwe : WF (e.leaves cfg ext fs) := runParF_wf hw
  obtain ⟨hk1, -⟩ := C141_kept (cfg := cfg) (ext := ext) hb hk hos hwe
  let own : Path → Prop := fun q => q = cfg.root ++ b :: cs ∨ ∃ m, q = partFile cfg u m
  have hO : ∀ m, cfg.root ++ b :: cs ≠ partFile cfg u m := fun m => plain_not_part hb' hk ((objP_plain hb' hk).mpr rfl)
  let R : FS → FS → Prop := fun x y => WF x → KeepFiles own x y ∧ WF y
  have one : ∀ {o}, Beside b k o → (∀ m, ¬ UsesPart o u m) → ∀ {x c} f, WF x → (opPerm cfg o).ok c → KeepFiles own x (execF cfg x c f).2 := by
    intro o hbo hno x c f hwx hc p i d hpo hh
    rcases hbo with hbo | hbo
    · rcases hpo with rfl | ⟨m, rfl⟩
      · exact (keep_object hb hk hbo hwx hc f).keep hwx (fun h => h (.inl rfl)) hh
      · have ht : Tidy o := by
          revert hbo
          cases o <;> simp only [OnOthers, Tidy] <;> try exact fun h => h
          · exact fun h => ⟨h.bucket, h.key⟩
          · exact fun h => ⟨h.1, fun e => by
              have := h.1.len.1
              rw [e] at this
              simp at this⟩
          · exact fun h => ⟨h.bucket, h.key⟩
          · exact fun h k hk => ⟨(h k hk).bucket, (h k hk).key⟩
          · exact fun h => ⟨h.bucket, h.key⟩
          · exact fun h => ⟨⟨h.1.bucket, h.1.key⟩, h.2⟩
        exact (execF_frame hwx (tidy_ok ht hc) f).keep hwx (fun h => h (.inr ⟨u, m, hno m, rfl⟩)) hh
    · exact (folder_stays (b := b) (k := k) (own := own) hbo hwx hc f).keep hwx p i d hpo hh
  have hR : Rely R := by
    refine ⟨fun x hwx => ⟨fun _ _ _ _ h => h, hwx⟩, fun x y z h1 h2 hwx => ?_⟩
    obtain ⟨k1, w1⟩ := h1 hwx
    obtain ⟨k2, w2⟩ := h2 w1
    exact ⟨fun p i c hp hh => k2 p i c hp (k1 p i c hp hh), w2⟩
  have hst : ∀ fs', stored cfg fs' b k = contentAt fs' (cfg.root ++ b :: cs) := by
    intro fs'; simp [stored, objectPath_plain cfg hb' hk]
  obtain ⟨h1, h2⟩ := epoch_wp (cfg := cfg) (ext := ext) hR hn
    (Q := fun a fs' => stored cfg fs' b k = some contents.flatten ∧ a = .etag (some (quoted (ext.md5hex contents.flatten))))
    (fun j o hj hoj fs c f hwf hc _ => ⟨one (ho j o hj hoj).1 (ho j o hj hoj).2 f hwf hc, execF_wf hwf c f⟩) hw
    (wpF_bind hR hw (wpF_mono (fun et x hwx hq y hr hwy => by
      obtain ⟨i, hi, rfl⟩ := hq
      refine ⟨?_, rfl⟩
      rw [hst]
      exact ((hr hwx).1 _ _ _ (.inl rfl) hi).content) (wpF_complete hR hu (objectPath_plain cfg hb' hk) hO (fun x y hwx _ hr => (hr hwx).1) hw
        (fun j x hj => by
          have := hp j x hj
          simp only [contentAt] at this
          split at this
          · rename_i i hi
            exact ⟨i, hi, Option.some.inj this⟩
          · cases this)))) h
  exact ⟨hk1.trans h1, h2⟩

theorem Sample.folder_d : FolderName b!"aaa" b!"d/" := ⟨Sample.legal (by decide +kernel), b!"d", _, plain1 (k := b!"d") (by decide), rfl⟩

theorem Sample.folder_de : FolderName b!"aaa" b!"d/e/" := ⟨Sample.legal (by decide +kernel), b!"d/e", _, Sample.plain_de, rfl⟩

/-- **C141** (negation) That an upload beside the removal of a folder is answered as alone is false: the upload of `d/e` has made the folder
`d`, finds nothing where it wants to create the file, and answers InternalError, although it has success when it is served before or
after the removal, and nothing has failed. -/
theorem C141_upload_fails :
    ∃ (cfg : Cfg) (ext : Ext) (fs : FS) (i : PutInput) (b k : Bytes) (steps : List (Nat × Fault)), WF fs ∧ OnFolder (.deleteObject b k) ∧
      (∀ x ∈ steps, x.2 = .none) ∧ (∃ t, answer cfg ext (.putObject i) fs = .ok t) ∧
      (∃ t, answer cfg ext (.putObject i) (after cfg ext (.deleteObject b k) fs) = .ok t) ∧
      (⟨[.putObject i, .deleteObject b k], steps⟩ : Epoch).answered cfg ext fs 0 = some (.err .InternalError) ∧
      (⟨[.putObject i, .deleteObject b k], steps⟩ : Epoch).answered cfg ext fs 1 = some (.ok .done) ∧
      stored cfg ((⟨[.putObject i, .deleteObject b k], steps⟩ : Epoch).leaves cfg ext fs) i.bucket i.key = none :=
  ⟨Sample.cfg, Sample.ext, after Sample.cfg Sample.ext (.createBucket b!"aaa") Sample.emptyStore, Sample.put3, b!"aaa", b!"d/",
    [(0, .none), (1, .none), (1, .none), (0, .none)], run_wf _ _ Sample.emptyStore_wf, Sample.folder_d, by
      intro x hx
      simp only [List.mem_cons, List.not_mem_nil, or_false] at hx
      rcases hx with rfl | rfl | rfl | rfl <;> rfl,
    ⟨.etag (some b!"\"md5:7\""), by decide +kernel⟩, ⟨.etag (some b!"\"md5:7\""), by decide +kernel⟩, by decide +kernel, by decide +kernel,
    by decide +kernel⟩

/-- an upload of `d/e` beside a removal of `d`, and a removal of `d/e/`: the folder `d` is made, removed, and made again -/
def Sample.removals : Epoch :=
  ⟨[.putObject Sample.put3, .deleteObject b!"aaa" b!"d/", .deleteObject b!"aaa" b!"d/e/", .putObject { Sample.folderPut with bucket := b!"aaa" }],
    [(0, .none), (1, .none), (1, .none), (3, .none), (0, .none), (2, .none), (0, .none), (0, .none), (0, .none), (0, .none), (0, .none), (0, .none), (0, .none)]⟩

theorem Sample.removals_beside (j : Nat) (o : Op) (hj : j ≠ 0) (h : Sample.removals.requests[j]? = some o) :
    Beside Sample.put3.bucket Sample.put3.key o := by
  match j, hj with
  | 1, _ => cases h; exact .inr Sample.folder_d
  | 2, _ => cases h; exact .inr Sample.folder_de
  | 3, _ => cases h; exact .inr Sample.folder_d
  | j + 4, _ => simp [Sample.removals] at h

/-- `C141_put`, `C141_read`: the upload has success; another run of the server in which `d/` is deleted (again with a success) leaves it there -/
example (w : Nat → Nat) : let fs := after Sample.cfg Sample.ext (.createBucket b!"aaa") Sample.emptyStore
    let e2 : Epoch := ⟨[.deleteObject b!"aaa" b!"d/"], [(0, .none), (0, .none)]⟩
    Sample.removals.answered Sample.cfg Sample.ext fs 1 = some (.ok .done) ∧
    Sample.removals.answered Sample.cfg Sample.ext fs 2 = some (.err .InternalError) ∧
    e2.answered Sample.cfg Sample.ext (Sample.removals.leaves Sample.cfg Sample.ext fs) 0 = some (.ok .done) ∧
    answer Sample.cfg Sample.ext (.getObject b!"aaa" b!"d/e" none w) (life Sample.cfg Sample.ext [Sample.removals, e2] fs)
      = .ok (.object 7 (some [(b!"k", b!"v")]) b!"\"md5:7\"" (some b!"one two")) := by
  refine ⟨by decide +kernel, by decide +kernel, by decide +kernel, ?_⟩
  refine (C141_read (cfg := Sample.cfg) (e := Sample.removals) (i := Sample.put3) (n := 0) (a := .etag (some b!"\"md5:7\"")) Sample.ext_roundtrip
    rfl (Sample.legal (by decide +kernel)) Sample.plain_de rfl (Sample.validMeta _ rfl) Sample.removals_beside ?_
    (run_wf _ _ Sample.emptyStore_wf) (by decide +kernel) rfl (by decide) w).1.trans (by decide +kernel)
  intro e' he' o ho
  cases List.mem_singleton.mp he'
  cases List.mem_singleton.mp ho
  exact .inr Sample.folder_d

/-- a copy of `bbb/y` to `aaa/n/z`; the folder `n` is made while it runs, and a removal of the folder comes too late -/
def Sample.copyBeside : Epoch :=
  ⟨[.copyObject b!"aaa" b!"n/z" b!"bbb/y", .putObject { Sample.folderPut with bucket := b!"aaa", key := b!"n/" }, .deleteObject b!"aaa" b!"n/"],
    [(0, .none), (2, .none), (0, .none), (1, .none), (0, .none), (2, .none), (0, .none), (0, .none), (2, .before), (0, .none), (0, .none), (0, .none),
      (0, .none)]⟩

/-- `C141_copy` -/
example : ∃ c, stored Sample.cfg Sample.fs b!"bbb" b!"y" = some c ∧
    stored Sample.cfg (life Sample.cfg Sample.ext [Sample.copyBeside, ⟨[.deleteObject b!"aaa" b!"n/"], [(0, .none), (0, .none)]⟩] Sample.fs) b!"aaa" b!"n/z"
      = some c := by
  have hz : PlainKey b!"n/z" [b!"n", b!"z"] :=
    plain2 (a := b!"n") (c := b!"z") ⟨by decide, by decide, by decide, by decide⟩ ⟨by decide, by decide, by decide, by decide⟩
  have hn : FolderName b!"aaa" b!"n/" := ⟨Sample.legal (by decide +kernel), b!"n", _, plain1 (k := b!"n") (by decide), rfl⟩
  have ho : ∀ (j : Nat) o, j ≠ 0 → Sample.copyBeside.requests[j]? = some o → Beside b!"aaa" b!"n/z" o ∧ Beside b!"bbb" b!"y" o := by
    intro j o hj h
    match j, hj with
    | 1, _ => cases h; exact ⟨.inr hn, .inr hn⟩
    | 2, _ => cases h; exact ⟨.inr hn, .inr hn⟩
    | j + 3, _ => simp [Sample.copyBeside] at h
  have hos : ∀ e' ∈ ([⟨[.deleteObject b!"aaa" b!"n/"], [(0, .none), (0, .none)]⟩] : List Epoch), ∀ o ∈ e'.requests, Beside b!"aaa" b!"n/z" o := by
    intro e' he' o ho
    cases List.mem_singleton.mp he'
    cases List.mem_singleton.mp ho
    exact .inr hn
  obtain ⟨c, h1, h2, -⟩ := C141_copy (cfg := Sample.cfg) (ext := Sample.ext) (e := Sample.copyBeside) (n := 0) (b := b!"aaa") (k := b!"n/z")
    (sb := b!"bbb") (sk := b!"y") (a := .etag (some b!"\"md5:6\""))
    rfl (Sample.legal (by decide +kernel)) hz (by decide +kernel) (plain1 (k := b!"y") (by decide)) (by decide) ho hos Sample.fs_wf (by decide +kernel)
  exact ⟨c, h1, h2⟩

/-- `C141_complete`: the upload `id1` is completed as `aaa/n/z`; the folder `n` is made while the request waits, and a removal of the folder
comes too late -/
def Sample.completeBeside : Epoch :=
  ⟨[.completeMultipartUpload b!"aaa" b!"n/z" b!"id1" (some [some 1, some 2]), .putObject { Sample.folderPut with bucket := b!"aaa", key := b!"n/" },
      .deleteObject b!"aaa" b!"n/"],
    [(2, .none), (1, .none), (1, .none), (2, .none), (0, .none), (2, .none), (0, .none)] ++ List.replicate 14 (0, .none)⟩

/-- the parts `one` and `two` of the upload `id1` -/
def Sample.twoParts : FS :=
  after Sample.cfg Sample.ext (.uploadPart b!"id1" 2 (some [some b!"two"])) (after Sample.cfg Sample.ext (.uploadPart b!"id1" 1 (some [some b!"one"])) Sample.fs)

theorem Sample.twoParts_content : ∀ (j : Nat) x, [b!"one", b!"two"][j]? = some x →
    contentAt Sample.twoParts (partFile Sample.cfg b!"id1" (j + 1)) = some x := by
  intro j x h
  match j with
  | 0 => cases h; decide +kernel
  | 1 => cases h; decide +kernel
  | j + 2 => simp at h

example : stored Sample.cfg (life Sample.cfg Sample.ext [Sample.completeBeside, ⟨[.deleteObject b!"aaa" b!"n/"], [(0, .none), (0, .none)]⟩] Sample.twoParts)
    b!"aaa" b!"n/z" = some b!"onetwo" := by
  have hz : PlainKey b!"n/z" [b!"n", b!"z"] :=
    plain2 (a := b!"n") (c := b!"z") ⟨by decide, by decide, by decide, by decide⟩ ⟨by decide, by decide, by decide, by decide⟩
  have hn : FolderName b!"aaa" b!"n/" := ⟨Sample.legal (by decide +kernel), b!"n", _, plain1 (k := b!"n") (by decide), rfl⟩
  have ho : ∀ (j : Nat) o, j ≠ 0 → Sample.completeBeside.requests[j]? = some o → Beside b!"aaa" b!"n/z" o ∧ ∀ m, ¬ UsesPart o b!"id1" m := by
    intro j o hj h
    match j, hj with
    | 1, _ => cases h; exact ⟨.inr hn, fun _ h => h⟩
    | 2, _ => cases h; exact ⟨.inr hn, fun _ h => h⟩
    | j + 3, _ => simp [Sample.completeBeside] at h
  have hos : ∀ e' ∈ ([⟨[.deleteObject b!"aaa" b!"n/"], [(0, .none), (0, .none)]⟩] : List Epoch), ∀ o ∈ e'.requests, Beside b!"aaa" b!"n/z" o := by
    intro e' he' o ho
    cases List.mem_singleton.mp he'
    cases List.mem_singleton.mp ho
    exact .inr hn
  exact (C141_complete (cfg := Sample.cfg) (ext := Sample.ext) (e := Sample.completeBeside) (n := 0) (u := b!"id1") (contents := [b!"one", b!"two"])
    (a := .etag (some b!"\"md5:6\"")) rfl (by decide) (Sample.legal (by decide +kernel)) hz ho hos (run_wf _ _ (run_wf _ _ Sample.fs_wf)) Sample.twoParts_content
    (by decide +kernel)).1

end S3
