import Verif.Lemmas.Life
import Verif.Props.Fault
/-! C105, C106: requests at the same time, on a disk that fails, by a server that dies and is started again. -/
namespace S3
open Spec

variable {cfg : Cfg} {ext : Ext}

/-! ### C105: what has been acknowledged stays -/

theorem keep_object {b k : Bytes} {cs : List Bytes} (hb : LegalBucket b) (hk : PlainKey k cs) {o : Op} (ho : OnOthers b (Away b k) o)
    {fs : FS} (hw : WF fs) {c : Call} (hc : (opPerm cfg o).ok c) (f : Fault) :
    Frame (fun q => ¬ (q = cfg.root ++ b :: cs ∨ q = metaFile cfg b k)) (fun q => q ≠ metaFile cfg b k) fs (execF cfg fs c f).2 :=
  execF_frame hw (away_ok (cfg := cfg) ((C02_bucket_name_rule b).mpr hb) hk ho hc) f

theorem object_frame {b k : Bytes} {cs : List Bytes} (hb : LegalBucket b) (hk : PlainKey k cs) {fs fs' : FS} (hw : WF fs)
    (hf : Frame (fun q => ¬ (q = cfg.root ++ b :: cs ∨ q = metaFile cfg b k)) (fun q => q ≠ metaFile cfg b k) fs fs') :
    stored cfg fs' b k = stored cfg fs b k ∧ storedMeta cfg ext fs' b k = storedMeta cfg ext fs b k := by
  constructor
  · simp only [stored, objectPath_plain cfg ((C02_bucket_name_rule b).mpr hb) hk]
    exact content_frame hw hf (fun h => h (.inl rfl))
  · exact metaAt_same (frame_same hf (fun h => h (.inr rfl)) (.inl fun h => h rfl)) hw

/-- **C105** An object (or the absence of one), and its metadata, outlive every life of the server: any number of runs, each with any
number of requests at the same time, on a disk that may fail at any call, each cut off at any moment - if no request writes or deletes
this object or its bucket. -/
theorem C105_kept {b k : Bytes} {cs : List Bytes} (hb : LegalBucket b) (hk : PlainKey k cs) {es : List Epoch}
    (ho : ∀ e ∈ es, ∀ o ∈ e.requests, OnOthers b (Away b k) o) {fs : FS} (hw : WF fs) :
    stored cfg (life cfg ext es fs) b k = stored cfg fs b k ∧ storedMeta cfg ext (life cfg ext es fs) b k = storedMeta cfg ext fs b k :=
  object_frame hb hk hw (life_inv (P := OnOthers b (Away b k)) (J := Frame _ _ fs)
    (fun _ ho _ _ f hwx hj hc => hj.trans (keep_object hb hk ho hwx hc f)) ho hw (.refl ..)).1

theorem Sample.crowd_away (j : Nat) (o : Op) (hj : j ≠ 0) (h : Sample.crowd[j]? = some o) : OnOthers b!"aaa" (Away b!"aaa" b!"d/e") o := by
  have := Sample.crowd_apart j o hj h
  revert this
  cases o <;> simp only [OnOthers] <;> try exact fun h => h
  all_goals first | exact fun h => h.toAway | exact fun h => ⟨h.1.toAway, h.2⟩ | exact fun h k hk => (h k hk).toAway

/-- a run of the server in which the disk fails whenever it is asked to delete `bbb/y` or to store `aaa/d/f` -/
def Sample.epoch1 : Epoch := ⟨Sample.crowd, Sample.sched.map fun j => (j, if j = 1 ∨ j = 3 then .during 2 [] else .none)⟩

/-- a run in which the removal of a bucket breaks off half way, a listing fails, and a copy is cut off by the death of the server -/
def Sample.epoch2 : Epoch :=
  ⟨[.deleteBucket b!"bbb", .listObjects b!"aaa" none 20, .copyObject b!"ccc" b!"z" b!"aaa/d/e"],
    [(2, .none), (2, .none), (2, .none), (0, .during 0 [[b!"srv", b!"bbb", b!"y"]]), (1, .before), (2, .none), (2, .during 3 [])]⟩

theorem Sample.epoch2_away {k : Bytes} : ∀ e' ∈ [Sample.epoch2], ∀ o ∈ e'.requests, OnOthers b!"aaa" (Away b!"aaa" k) o := by
  intro e' he' o ho
  cases List.mem_singleton.mp he'
  rcases List.mem_cons.mp ho with rfl | ho
  · exact ⟨Sample.legal (by decide +kernel), by decide⟩
  rcases List.mem_cons.mp ho with rfl | ho
  · trivial
  · cases List.mem_singleton.mp ho
    exact ⟨Sample.legal (by decide +kernel), ⟨_, plain1 (k := b!"z") (by decide)⟩, fun e => absurd (show (b!"ccc" : Bytes) = b!"aaa" from congrArg Prod.fst e) (by decide)⟩

/-- the upload of `aaa/d/e` is acknowledged in the first run; much is lost in both, this object is not -/
example : Sample.epoch1.requests[0]? = some (.putObject Sample.put3) ∧
    Sample.epoch1.answered Sample.cfg Sample.ext Sample.fs 0 = some (.ok (.etag (some b!"\"md5:7\""))) ∧
    Sample.epoch1.answered Sample.cfg Sample.ext Sample.fs 1 = some (.err .InternalError) ∧
    Sample.epoch1.answered Sample.cfg Sample.ext Sample.fs 3 = some (.err .InternalError) ∧
    Sample.epoch2.answered Sample.cfg Sample.ext (Sample.epoch1.leaves Sample.cfg Sample.ext Sample.fs) 0 = some (.err .InternalError) ∧
    stored Sample.cfg Sample.fs b!"bbb" b!"y" = some b!"world!" ∧
    stored Sample.cfg (life Sample.cfg Sample.ext [Sample.epoch1, Sample.epoch2] Sample.fs) b!"bbb" b!"y" = none ∧
    stored Sample.cfg (life Sample.cfg Sample.ext [Sample.epoch1, Sample.epoch2] Sample.fs) b!"ccc" b!"z" = some b!"one" ∧
    stored Sample.cfg (life Sample.cfg Sample.ext [Sample.epoch1, Sample.epoch2] Sample.fs) b!"aaa" b!"d/e" = some b!"one two" :=
  ⟨rfl, by decide +kernel, by decide +kernel, by decide +kernel, by decide +kernel, by decide +kernel, by decide +kernel, by decide +kernel,
    by decide +kernel⟩

/-- a PutObject without metadata leaves the metadata file alone -/
theorem put_meta_ok {i : PutInput} (hb : checkBucketName i.bucket = true) (hm : i.metadata = none) {c : Call}
    (hkey : endsWithByte i.key 47 = false) (hc : (opPerm cfg (.putObject i)).ok c) :
    writeOk (fun q => ¬ q = metaFile cfg i.bucket i.key) (fun q => q ≠ metaFile cfg i.bucket i.key) c := by
  have hwr : ∀ {q}, (opPerm cfg (.putObject i)).wr q → q ≠ metaFile cfg i.bucket i.key := by
    rintro q ⟨_, ⟨p, hp, rfl⟩ | ⟨h, _⟩⟩
    · exact objectPath_ne_meta hb hp
    · rw [hm] at h; cases h
  cases c with
  | mkdir p =>
    obtain ⟨_, ⟨p', hp', rfl⟩, hd⟩ := hc
    refine .inl ?_
    rintro rfl
    rw [if_neg (by simp [hkey])] at hd
    exact objectPath_no_meta hb hp' (hd.trans (List.dropLast_prefix _))
  | create p => exact hwr hc
  | writeAt i _ _ => exact hwr hc
  | unlink p => exact hc.elim
  | rmdir p => exact hc.elim
  | rmtree p => exact hc.elim
  | _ => trivial

/-- **C105** An upload that has been answered with success is there, whatever happens afterwards and whatever happened meanwhile: other
requests at the same time, failing system calls, the death of the server, further runs of it - if no other request writes or deletes
the object or its bucket. It holds exactly the body, with the metadata of the request (or, if it has none, those that were there). -/
theorem C105_put (hl : MetaLaw ext) {e : Epoch} {n : Nat} {i : PutInput} {cs : List Bytes} (hn : e.requests[n]? = some (.putObject i))
    (hb : LegalBucket i.bucket) (hk : PlainKey i.key cs) (hv : ∀ m, i.metadata = some m → ValidMeta m)
    (ho : ∀ (j : Nat) o, j ≠ n → e.requests[j]? = some o → OnOthers i.bucket (Away i.bucket i.key) o)
    {es : List Epoch} (hos : ∀ e' ∈ es, ∀ o ∈ e'.requests, OnOthers i.bucket (Away i.bucket i.key) o)
    {fs : FS} (hw : WF fs) {a : Answer} (h : e.answered cfg ext fs n = some (.ok a)) :
    ∃ body, i.body = some body ∧ unbroken body ∧ a = .etag (some (quoted (ext.md5hex (received body)))) ∧
      stored cfg (life cfg ext (e :: es) fs) i.bucket i.key = some (received body) ∧
      storedMeta cfg ext (life cfg ext (e :: es) fs) i.bucket i.key =
        (match i.metadata with
          | some m => some (some m)
          | none => storedMeta cfg ext fs i.bucket i.key) := by
  have hb' := (C02_bucket_name_rule _).mpr hb
  have hwe : WF (e.leaves cfg ext fs) := runParF_wf hw
  obtain ⟨hk1, hk2⟩ := C105_kept (cfg := cfg) (ext := ext) hb hk hos hwe
  let own : Path → Prop := fun q => q = cfg.root ++ i.bucket :: cs ∨ q = metaFile cfg i.bucket i.key
  let R : FS → FS → Prop := Frame (fun q => ¬ own q) (fun q => q ≠ metaFile cfg i.bucket i.key)
  have hR : Rely R := ⟨fun _ => Frame.refl .., fun _ _ _ => Frame.trans⟩
  have hkeep : ∀ a b, WF a → WF b → R a b → KeepFiles own a b := by
    intro a b hwa _ hr p ino c hp hh
    exact hr.keep hwa (fun h => h hp) hh
  have hwp := wpF_putObject (cfg := cfg) (ext := ext) hR hkeep i (plain_no_slash hk) hb'
    (fun q hq => .inl ((objP_plain hb' hk).mp hq)) (.inr rfl) hw
  have hst : ∀ fs', stored cfg fs' i.bucket i.key = contentAt fs' (cfg.root ++ i.bucket :: cs) := by
    intro fs'; simp [stored, objectPath_plain cfg hb' hk]
  have hcont : ∀ {x y : FS} {q c}, WF x → R x y → own q → contentAt x q = some c → contentAt y q = some c := by
    intro x y q c hwx hr hq hc
    rw [content_frame hwx hr (fun h => h hq)]; exact hc
  obtain ⟨et, rfl, ⟨body, h1, h2, h3, h4⟩, h5⟩ := epoch_wp (cfg := cfg) (ext := ext) hR hn
    (Q := fun a fs' => ∃ et, a = .etag et ∧ PutDone cfg ext i et fs')
    (fun j o hj hoj fs c f hwf hc => keep_object hb hk (ho j o hj hoj) hwf hc f) hw
    (wpF_bind hR hw (wpF_mono (fun et x hwx hq y hr hwy => by
      refine ⟨et, rfl, ?_⟩
      obtain ⟨⟨body, h1, h2, h3, h4⟩, h5⟩ := hq
      refine ⟨⟨body, h1, h2, ?_, h4⟩, fun m hm => hcont hwx hr (.inr rfl) (h5 m hm)⟩
      rw [hst] at h3 ⊢
      exact hcont hwx hr (.inl rfl) h3) hwp)) h
  refine ⟨body, h1, h2, by rw [h4], hk1.trans h3, hk2.trans ?_⟩
  cases hm : i.metadata with
  | some m =>
    have h6 := h5 m hm
    simp only [contentAt] at h6
    split at h6
    · rename_i j hj
      have hj' : (e.leaves cfg ext fs).lookup (cfg.root ++ [metadataName i.bucket i.key]) = some (.file j) := hj
      simp only [storedMeta, metaAt, hj']
      rw [Option.some.inj h6, hl m (hv m hm)]; rfl
    · cases h6
  | none =>
    have hf : Frame (fun q => ¬ q = metaFile cfg i.bucket i.key) (fun q => q ≠ metaFile cfg i.bucket i.key) fs (e.leaves cfg ext fs) := by
      refine runParF_inv (ok := writeOk (fun q => ¬ q = metaFile cfg i.bucket i.key) (fun q => q ≠ metaFile cfg i.bucket i.key))
        (fun x c f hwx hj hc => hj.trans (execF_frame hwx hc f)) ?_ hw (.refl ..)
      intro p hp
      obtain ⟨o, hm', rfl⟩ := List.mem_map.mp hp
      obtain ⟨j, hj⟩ := List.getElem?_of_mem hm'
      refine (op_safe cfg ext o).mono (fun c hc => ?_) (fun _ h => h)
      by_cases e' : j = n
      · subst e'
        rw [hn] at hj
        cases hj
        exact put_meta_ok hb' hm (plain_no_slash hk) hc
      · have := away_ok (cfg := cfg) hb' hk (ho j o e' hj) hc
        have weak : ∀ {q}, ¬ (q = cfg.root ++ i.bucket :: cs ∨ q = metaFile cfg i.bucket i.key) → ¬ q = metaFile cfg i.bucket i.key :=
          fun h e => h (.inr e)
        cases c <;> first | exact this.imp id weak | exact weak this | exact fun q hq => weak (this q hq) | trivial
    exact metaAt_same (frame_same hf (fun h => h rfl) (.inl fun h => h rfl)) hw

/-- **C105** Such an upload is what GetObject and HeadObject answer after that life of the server (on a disk that works). -/
theorem C105_read (hl : MetaLaw ext) {e : Epoch} {n : Nat} {i : PutInput} {cs : List Bytes} (hn : e.requests[n]? = some (.putObject i))
    (hb : LegalBucket i.bucket) (hk : PlainKey i.key cs) {m : Meta} (hm : i.metadata = some m) (hv : ValidMeta m)
    (ho : ∀ (j : Nat) o, j ≠ n → e.requests[j]? = some o → OnOthers i.bucket (Away i.bucket i.key) o)
    {es : List Epoch} (hos : ∀ e' ∈ es, ∀ o ∈ e'.requests, OnOthers i.bucket (Away i.bucket i.key) o)
    {fs : FS} (hw : WF fs) {a : Answer} (h : e.answered cfg ext fs n = some (.ok a)) {body : Body} (hbody : i.body = some body)
    (hlen : (received body).length ≤ i64Max) (w : Nat → Nat) :
    answer cfg ext (.getObject i.bucket i.key none w) (life cfg ext (e :: es) fs)
      = .ok (.object (received body).length (some m) (quoted (ext.md5hex (received body))) (some (received body))) ∧
    answer cfg ext (.headObject i.bucket i.key) (life cfg ext (e :: es) fs) = .ok (.head (received body).length (some m)) := by
  obtain ⟨body', h1, _, _, h2, h3⟩ := C105_put hl hn hb hk (fun m' h' => by rw [hm] at h'; cases h'; exact hv) ho hos hw h
  rw [hbody] at h1
  cases h1
  rw [hm] at h3
  exact get_stored h2 h3 hlen w

/-- the answers of GetObject and HeadObject after the two runs above -/
example (w : Nat → Nat) :
    answer Sample.cfg Sample.ext (.getObject b!"aaa" b!"d/e" none w) (life Sample.cfg Sample.ext [Sample.epoch1, Sample.epoch2] Sample.fs)
      = .ok (.object 7 (some [(b!"k", b!"v")]) b!"\"md5:7\"" (some b!"one two")) ∧
    answer Sample.cfg Sample.ext (.headObject b!"aaa" b!"d/e") (life Sample.cfg Sample.ext [Sample.epoch1, Sample.epoch2] Sample.fs)
      = .ok (.head 7 (some [(b!"k", b!"v")])) :=
  (C105_read (cfg := Sample.cfg) (e := Sample.epoch1) (i := Sample.put3) (n := 0) (a := .etag (some b!"\"md5:7\"")) Sample.ext_roundtrip rfl (Sample.legal (by decide +kernel))
    Sample.plain_de rfl (Sample.validMeta _ rfl) Sample.crowd_away Sample.epoch2_away Sample.fs_wf (by decide +kernel) rfl (by decide) w).imp
    (fun h => h.trans (by decide +kernel)) (fun h => h.trans (by decide +kernel))

/-- **C105** An object whose deletion has been answered with success stays deleted. -/
theorem C105_delete {e : Epoch} {n : Nat} {b k : Bytes} {cs : List Bytes} (hn : e.requests[n]? = some (.deleteObject b k))
    (hb : LegalBucket b) (hk : PlainKey k cs)
    (ho : ∀ (j : Nat) o, j ≠ n → e.requests[j]? = some o → OnOthers b (Away b k) o)
    {es : List Epoch} (hos : ∀ e' ∈ es, ∀ o ∈ e'.requests, OnOthers b (Away b k) o)
    {fs : FS} (hw : WF fs) {a : Answer} (h : e.answered cfg ext fs n = some (.ok a)) :
    stored cfg (life cfg ext (e :: es) fs) b k = none := by
  have hwe : WF (e.leaves cfg ext fs) := runParF_wf hw
  refine (C105_kept (cfg := cfg) (ext := ext) hb hk hos hwe).1.trans ?_
  let R : FS → FS → Prop := fun a b' => stored cfg b' b k = stored cfg a b k
  have hR : Rely R := ⟨fun _ => rfl, fun _ _ _ h1 h2 => h2.trans h1⟩
  refine epoch_wp (cfg := cfg) (ext := ext) hR hn (Q := fun _ fs' => stored cfg fs' b k = none)
    (fun j o hj hoj fs c f hwf hc => (object_frame (ext := ext) hb hk hwf (keep_object hb hk (ho j o hj hoj) hwf hc f)).1) hw ?_ h
  have hkey := plain_no_slash hk
  refine wpF_bind hR hw ?_
  simp only [deleteObject, hkey, bind_eq, pure_eq]
  refine wpF_orInternal fun p hp => wpF_call trivial fun fs1 _ hw1 => ?_
  cases ha : (exec cfg fs1 (.unlink p)).1 with
  | false => trivial
  | true =>
    intro fs2 hr2 hw2 fs3 hr3 hw3
    rw [hr3, hr2]
    cases hx : fs1.at p with
    | none => simp only [exec, hx] at ha; cases ha
    | some x =>
      cases x with
      | dir => simp only [exec, hx] at ha; cases ha
      | file i =>
        simp only [exec, hx]
        rw [stored_none hp]
        intro j hj
        rw [at_none (erase_gone hx)] at hj
        cases hj

/-- the deletion of `bbb/y` is acknowledged while the uploads beside it fail -/
example : stored Sample.cfg Sample.fs b!"bbb" b!"y" = some b!"world!" ∧
    stored Sample.cfg (life Sample.cfg Sample.ext
      [⟨[.deleteObject b!"bbb" b!"y", .putObject Sample.put3], [(1, .none), (1, .before), (0, .none), (1, .before)]⟩,
        ⟨[.putObject Sample.put3], [(0, .none), (0, .none)]⟩] Sample.fs) b!"bbb" b!"y" = none := by
  have hput : OnOthers b!"bbb" (Away b!"bbb" b!"y") (.putObject Sample.put3) :=
    ⟨Sample.legal (by decide +kernel), ⟨_, Sample.plain_de⟩, fun e => absurd (congrArg Prod.fst e) (by decide)⟩
  refine ⟨by decide +kernel, C105_delete (n := 0) (cs := [b!"y"]) (a := .done) rfl (Sample.legal (by decide +kernel))
    (plain1 (k := b!"y") (by decide)) ?_ ?_ Sample.fs_wf (by decide +kernel)⟩
  · intro j o hj h
    rcases j with _ | _ | j
    · exact absurd rfl hj
    · cases h; exact hput
    · cases h
  · intro e' he' o ho
    cases List.mem_singleton.mp he'
    cases List.mem_singleton.mp ho
    exact hput

/-- **C105** A part whose upload has been answered with success is there, until a request uses it. -/
theorem C105_part {e : Epoch} {n : Nat} {u : Bytes} {m : Int} {body : Body} (hn : e.requests[n]? = some (.uploadPart u m (some body)))
    (hu : (47 : UInt8) ∉ u) (ho : ∀ (j : Nat) o, j ≠ n → e.requests[j]? = some o → Tidy o ∧ ¬ UsesPart o u m)
    {es : List Epoch} (hos : ∀ e' ∈ es, ∀ o ∈ e'.requests, Tidy o ∧ ¬ UsesPart o u m)
    {fs : FS} (hw : WF fs) {a : Answer} (h : e.answered cfg ext fs n = some (.ok a)) :
    unbroken body ∧ a = .etag (some (quoted (ext.md5hex (received body)))) ∧
      contentAt (life cfg ext (e :: es) fs) (partFile cfg u m) = some (received body) := by
  have hwe : WF (e.leaves cfg ext fs) := runParF_wf hw
  have frame : ∀ {o : Op}, Tidy o ∧ ¬ UsesPart o u m → ∀ {x : FS}, WF x → ∀ {c}, (opPerm cfg o).ok c → ∀ f,
      Frame (fun q => ¬ q = partFile cfg u m) (fun q => q <+: cfg.root) x (execF cfg x c f).2 := by
    rintro o ⟨ht, hnp⟩ x hwx c hc f
    have := tidy_ok (cfg := cfg) ht hc
    have weak : ∀ {q}, ¬ (q <+: cfg.root ∨ ∃ u n, ¬ UsesPart o u n ∧ q = partFile cfg u n) → ¬ q = partFile cfg u m :=
      fun h e => h (.inr ⟨u, m, hnp, e⟩)
    refine execF_frame hwx ?_ f
    cases c <;> first | exact this.imp id weak | exact weak this | exact fun q hq => weak (this q hq) | trivial
  have hcont : ∀ {x y : FS} {c}, WF x → Frame (fun q => ¬ q = partFile cfg u m) (fun q => q <+: cfg.root) x y →
      contentAt x (partFile cfg u m) = some c → contentAt y (partFile cfg u m) = some c := by
    intro x y c hwx hr hc
    rw [content_frame hwx hr (fun h => h rfl)]; exact hc
  let R : FS → FS → Prop := Frame (fun q => ¬ q = partFile cfg u m) (fun q => q <+: cfg.root)
  have hR : Rely R := ⟨fun _ => Frame.refl .., fun _ _ _ => Frame.trans⟩
  have hkeep : ∀ a b, WF a → WF b → R a b → KeepFiles (· = partFile cfg u m) a b := by
    intro a b hwa _ hr p ino c hp hh
    exact hr.keep hwa (fun h => h hp) hh
  have key := epoch_wp (cfg := cfg) (ext := ext) hR hn
    (Q := fun a fs' => unbroken body ∧ a = .etag (some (quoted (ext.md5hex (received body)))) ∧
      contentAt fs' (partFile cfg u m) = some (received body))
    (fun j o hj hoj fs c f hwf hc => frame (ho j o hj hoj) hwf hc f) hw (by
      refine wpF_bind hR hw ?_
      simp only [uploadPart, bind_eq, pure_eq]
      refine wpF_orInternal fun p hp => wpF_call trivial fun fs1 _ hw1 => wpF_orInternal fun ino hc => ?_
      rw [partPath_eq cfg hu] at hp
      cases hp
      have hw2 := exec_wf cfg hw1 (.create ⟨partFile cfg u m, false⟩)
      refine wpF_bind hR hw2 ?_
      refine wpF_mono ?_ (wpF_copyBytes hR hkeep rfl body hw2 (exec_create_snd hc).1)
      rintro _ x hwx ⟨h3, h4, rfl⟩ y hr hwy z hr' hwz
      rw [List.nil_append] at h3
      exact ⟨h4, rfl, hcont hwx (hr.trans hr') h3.content⟩) h
  refine ⟨key.1, key.2.1, hcont hwe ?_ key.2.2⟩
  exact (life_inv (P := fun o => Tidy o ∧ ¬ UsesPart o u m) (J := Frame _ _ (e.leaves cfg ext fs))
    (fun _ ho _ _ f hwx hj hc => hj.trans (frame ho hwx hc f)) hos hwe (.refl ..)).1

/-- the part is acknowledged while the copy beside it breaks off -/
example : (⟨Sample.mixed, [(0, .none), (3, .none), (0, .before), (3, .none), (3, .none)]⟩ : Epoch).answered Sample.cfg Sample.ext Sample.fs3 3
      = some (.ok (.etag (some b!"\"md5:3\""))) ∧
    ∀ (j : Nat) o', j ≠ 3 → Sample.mixed[j]? = some o' → Tidy o' ∧ ¬ UsesPart o' b!"id1" 1 := by
  refine ⟨by decide +kernel, fun j o' hj h => ⟨Sample.mixed_tidy j o' h, ?_⟩⟩
  rcases j with _ | _ | _ | _ | _ | _ | _ | j
  case succ.succ.succ.zero => exact absurd rfl hj
  all_goals first | (cases h; exact fun h => h) | cases h

/-! ### C106: isolation on a disk that fails -/

/-- **C106** In every run of the server - any number of requests at the same time, any failing system calls, cut off at any
moment - a request about objects and parts does what it does alone, on a disk on which only its own calls fail, if the others write and
delete only elsewhere: the objects, metadata and parts it is about are as at some moment of that lonely run, and when it has been
answered, as after it, with the same answer. -/
theorem C106_isolation {e : Epoch} {n : Nat} {o : Op} (hn : e.requests[n]? = some o) (ho : AboutObjects o)
    (hothers : ∀ (j : Nat) o', j ≠ n → e.requests[j]? = some o' → Elsewhere o o')
    {fs : FS} (hw : WF fs) (hfold : FoldersExist cfg o fs) :
    ∃ (d : Disk) (fs' : FS), (∀ i, d i = .none ∨ (n, d i) ∈ e.steps) ∧ Moment cfg ext d o fs fs' ∧
      (∀ r, e.answered cfg ext fs n = some r → r = answerF cfg ext d o fs ∧ fs' = afterF cfg ext d o fs) ∧
      (∀ b k, Uses o b k → stored cfg (e.leaves cfg ext fs) b k = stored cfg fs' b k ∧
        storedMeta cfg ext (e.leaves cfg ext fs) b k = storedMeta cfg ext fs' b k) ∧
      ∀ u m, UsesPart o u m → contentAt (e.leaves cfg ext fs) (partFile cfg u m) = contentAt fs' (partFile cfg u m) := by
  have hget : ∀ j : Nat, (e.requests.map (opProg cfg ext))[j]? = (e.requests[j]?).map (opProg cfg ext) := fun j => List.getElem?_map
  obtain ⟨d, m, h0, h1, h2⟩ := isolatedF (cfg := cfg) (U := upRegion cfg o) (Z := region cfg o) (n := n)
    (ok := fun j c => ∃ o', e.requests[j]? = some o' ∧ (opPerm cfg o').ok c)
    (fun j fs c f hj hwf hc => by
      obtain ⟨o', ho', hc⟩ := hc
      exact elsewhere_frame ho (hothers j o' hj ho') hc fun hx => execF_frame hwf hx f)
    e.steps hw hw (folders_dirs hw hfold) (.refl _ _)
    (fun j q hj hq => by
      rw [hget, Option.map_eq_some_iff] at hq
      obtain ⟨o', ho', rfl⟩ := hq
      exact (op_safe cfg ext o').mono (fun c hc => ⟨o', ho', hc⟩) (fun _ h => h))
    (p := opProg cfg ext o) (by rw [hget, hn]; rfl) ((op_safe cfg ext o).mono (fun c hc => op_local ho hc) fun _ h => h)
  refine ⟨d, _, h0, runFN_moment d m o fs, ?_, region_match ho (runParF_wf hw) h2⟩
  intro r hr
  simp only [Epoch.answered, h1, Option.bind_some] at hr
  have := runFN_done _ d m fs hr
  exact ⟨by simp only [answerF, this], by simp only [afterF, this]⟩

/-- a copy of `aaa/x` to `aaa/d/z` that fails at its fifth call, and the same copy among requests that fail all the time -/
example : Sample.mixed[0]? = some (.copyObject b!"aaa" b!"d/z" b!"aaa/x") ∧
    AboutObjects (.copyObject b!"aaa" b!"d/z" b!"aaa/x") ∧
    (∀ (j : Nat) o', j ≠ 0 → Sample.mixed[j]? = some o' → Elsewhere (.copyObject b!"aaa" b!"d/z" b!"aaa/x") o') ∧
    WF Sample.fs3 ∧ FoldersExist Sample.cfg (.copyObject b!"aaa" b!"d/z" b!"aaa/x") Sample.fs3 ∧
    (⟨Sample.mixed, Sample.mixedSched.map fun j => (j, if j = 0 then .none else .during 1 [])⟩ : Epoch).answered Sample.cfg Sample.ext Sample.fs3 0
      = some (.ok (.etag (some b!"\"md5:5\""))) ∧
    (⟨Sample.mixed, Sample.mixedSched.map fun j => (j, .during 1 [])⟩ : Epoch).answered Sample.cfg Sample.ext Sample.fs3 0
      = some (.err .InternalError) := by
  refine ⟨rfl, ⟨Sample.mixed_tidy 0 _ rfl, ?_, trivial⟩, ?_, wf_after Sample.fs_wf, ⟨by unfold IsDir; decide +kernel, ?_⟩,
    by decide +kernel, by decide +kernel⟩
  · intro b k h
    obtain ⟨rfl, rfl | rfl⟩ := Sample.mixed_uses h
    · exact ⟨Sample.legal (by decide +kernel), _, Sample.plain_dz⟩
    · exact ⟨Sample.legal (by decide +kernel), _, plain1 (k := b!"x") (by decide)⟩
  · intro j o' hj h
    refine ⟨Sample.mixed_tidy j o' h, ?_, fun u n hu => hu.elim⟩
    intro b k hu
    obtain ⟨rfl, hk⟩ := Sample.mixed_uses hu
    exact Sample.mixed_apart k hk j o' hj h
  · intro b k cs h hk
    cases h
    rw [show cs = [b!"d", b!"z"] from plainKey_unique hk Sample.plain_dz]
    unfold IsDir; decide +kernel

/-- **C106** If its own calls do not fail, such a request is not concerned by the errors that others meet. -/
theorem C106_sound {e : Epoch} {n : Nat} {o : Op} (hn : e.requests[n]? = some o) (ho : AboutObjects o)
    (hothers : ∀ (j : Nat) o', j ≠ n → e.requests[j]? = some o' → Elsewhere o o')
    (hok : ∀ f, (n, f) ∈ e.steps → f = .none) {fs : FS} (hw : WF fs) (hfold : FoldersExist cfg o fs) {r : Outcome Answer}
    (h : e.answered cfg ext fs n = some r) :
    r = answer cfg ext o fs ∧
    (∀ b k, Uses o b k → stored cfg (e.leaves cfg ext fs) b k = stored cfg (after cfg ext o fs) b k ∧
      storedMeta cfg ext (e.leaves cfg ext fs) b k = storedMeta cfg ext (after cfg ext o fs) b k) ∧
    ∀ u m, UsesPart o u m → contentAt (e.leaves cfg ext fs) (partFile cfg u m) = contentAt (after cfg ext o fs) (partFile cfg u m) := by
  obtain ⟨d, fs', h0, _, h1, h2, h3⟩ := C106_isolation (cfg := cfg) (ext := ext) hn ho hothers hw hfold
  obtain ⟨h4, rfl⟩ := h1 r h
  have hd : ∀ i, d i = .none := fun i => (h0 i).elim id (hok _)
  have hrun := runF_sound (cfg := cfg) (opProg cfg ext o) hd fs
  refine ⟨?_, ?_, ?_⟩
  · rw [h4]; simp only [answerF, answer, hrun]
  · intro b k hu
    have := h2 b k hu
    simpa only [afterF, after, hrun] using this
  · intro u m hu
    have := h3 u m hu
    simpa only [afterF, after, hrun] using this

/-- **C105** An object whose assembly from parts has been answered with success is the concatenation of the parts, and stays so. -/
theorem C105_complete {e : Epoch} {n : Nat} {u b k : Bytes} {cs : List Bytes} {contents : List Bytes}
    (hn : e.requests[n]? = some (.completeMultipartUpload b k u (some (numbers 0 contents.length))))
    (hu : (47 : UInt8) ∉ u) (hb : LegalBucket b) (hk : PlainKey k cs)
    (ho : ∀ (j : Nat) o, j ≠ n → e.requests[j]? = some o → Elsewhere (.completeMultipartUpload b k u (some (numbers 0 contents.length))) o)
    {es : List Epoch} (hos : ∀ e' ∈ es, ∀ o ∈ e'.requests, OnOthers b (Away b k) o)
    {fs : FS} (hw : WF fs) (hroot : IsDir fs cfg.root) (hfold : IsDir fs (cfg.root ++ b :: cs.dropLast))
    (hparts : ∀ (j : Nat) c, contents[j]? = some c → contentAt fs (partFile cfg u (j + 1)) = some c) {a : Answer}
    (h : e.answered cfg ext fs n = some (.ok a)) :
    stored cfg (life cfg ext (e :: es) fs) b k = some contents.flatten ∧ a = .etag (some (quoted (ext.md5hex contents.flatten))) := by
  have hab : AboutObjects (.completeMultipartUpload b k u (some (numbers 0 contents.length))) :=
    ⟨⟨⟨hb, cs, hk⟩, hu⟩, fun b' k' h => by cases h; exact ⟨hb, cs, hk⟩, trivial⟩
  obtain ⟨d, fs', _, _, h1, h2, _⟩ := C106_isolation (cfg := cfg) (ext := ext) hn hab ho hw
    ⟨hroot, fun b' k' cs' h hk' => by cases h; rw [plainKey_unique hk' hk]; exact hfold⟩
  obtain ⟨h3, rfl⟩ := h1 _ h
  obtain ⟨h4, h5⟩ := C100_complete d hu hb hk hw contents hparts h3.symm
  exact ⟨(C105_kept (cfg := cfg) (ext := ext) hb hk hos (runParF_wf hw)).1.trans ((h2 b k rfl).1.trans h4), h5⟩

/-- `aaa/x` is assembled while the removal of another bucket breaks off and an upload next to it fails; then the run of above -/
example : (⟨[.completeMultipartUpload b!"aaa" b!"x" b!"id1" (some (numbers 0 3)), .deleteBucket b!"bbb",
        .uploadPart b!"id1" 4 (some [some b!"f"])],
      (List.replicate 24 [(0, .none), (1, .during 0 [[b!"srv", b!"bbb", b!"y"]]), (2, .before)]).flatten⟩ : Epoch).answered Sample.cfg Sample.ext
        (afterAll Sample.cfg Sample.ext Sample.ups Sample.fs) 0 = some (.ok (.etag (some b!"\"md5:5\""))) ∧
    (∀ (j : Nat) o, j ≠ 0 → ([.completeMultipartUpload b!"aaa" b!"x" b!"id1" (some (numbers 0 3)), .deleteBucket b!"bbb",
        .uploadPart b!"id1" 4 (some [some b!"f"])] : List Op)[j]? = some o →
      Elsewhere (.completeMultipartUpload b!"aaa" b!"x" b!"id1" (some (numbers 0 3))) o) ∧
    (∀ e' ∈ [Sample.epoch2], ∀ o ∈ e'.requests, OnOthers b!"aaa" (Away b!"aaa" b!"x") o) ∧
    IsDir (afterAll Sample.cfg Sample.ext Sample.ups Sample.fs) (Sample.cfg.root ++ [b!"aaa"]) ∧
    ∀ (j : Nat) c, ([b!"ab", b!"cde", b!""] : List Bytes)[j]? = some c →
      contentAt (afterAll Sample.cfg Sample.ext Sample.ups Sample.fs) (partFile Sample.cfg b!"id1" (j + 1)) = some c := by
  refine ⟨by decide +kernel, ?_, Sample.epoch2_away, by unfold IsDir; decide +kernel, ?_⟩
  · intro j o hj h
    rcases j with _ | _ | _ | j
    · exact absurd rfl hj
    · cases h
      refine ⟨⟨Sample.legal (by decide +kernel), by decide⟩, ?_, fun _ _ _ h => h⟩
      intro b k h
      cases h
      exact ⟨Sample.legal (by decide +kernel), by decide⟩
    · cases h
      refine ⟨by show (47 : UInt8) ∉ _; decide, fun _ _ _ => by show (47 : UInt8) ∉ _; decide, ?_⟩
      rintro u n ⟨rfl, l, h1, h2⟩ h3
      cases h1
      cases h3
      exact absurd h2 (by decide)
    · cases h
  · intro j c h
    rcases j with _ | _ | _ | j
    · simp at h; subst h; decide +kernel
    · simp at h; subst h; decide +kernel
    · simp at h; subst h; decide +kernel
    · simp at h

/-- **C105** A copy that has been answered with success has the content of its source, and stays so. -/
theorem C105_copy {e : Epoch} {n : Nat} {b k s sb sk : Bytes} {cs scs : List Bytes} (hn : e.requests[n]? = some (.copyObject b k s))
    (hb : LegalBucket b) (hk : PlainKey k cs) (hs : copySourceFromHeader s = .ok (sb, sk)) (hsk : PlainKey sk scs) (hne : (b, k) ≠ (sb, sk))
    (ho : ∀ (j : Nat) o, j ≠ n → e.requests[j]? = some o → Elsewhere (.copyObject b k s) o)
    {es : List Epoch} (hos : ∀ e' ∈ es, ∀ o ∈ e'.requests, OnOthers b (Away b k) o)
    {fs : FS} (hw : WF fs) (hroot : IsDir fs cfg.root) (hfold : IsDir fs (cfg.root ++ b :: cs.dropLast)) {a : Answer}
    (h : e.answered cfg ext fs n = some (.ok a)) :
    ∃ c, stored cfg fs sb sk = some c ∧ stored cfg (life cfg ext (e :: es) fs) b k = some c ∧ a = .etag (some (quoted (ext.md5hex c))) := by
  obtain ⟨hs', hsb, -⟩ := (C62_copy_source s sb sk).mp hs
  have hab : AboutObjects (.copyObject b k s) := by
    refine ⟨⟨hb, cs, hk⟩, ?_, trivial⟩
    rintro b' k' (h | ⟨hb', e'⟩)
    · cases h; exact ⟨hb, cs, hk⟩
    · have h1 : splitOnce 47 s = some (b', k') := splitOnce_some.mpr ⟨e', legal_no_slash hb'⟩
      have h2 : splitOnce 47 s = some (sb, sk) := splitOnce_some.mpr ⟨by rw [hs']; simp, legal_no_slash hsb⟩
      rw [h1] at h2
      cases h2
      exact ⟨hsb, scs, hsk⟩
  obtain ⟨d, fs', _, _, h1, h2, _⟩ := C106_isolation (cfg := cfg) (ext := ext) hn hab ho hw
    ⟨hroot, fun b' k' cs' h hk' => by cases h; rw [plainKey_unique hk' hk]; exact hfold⟩
  obtain ⟨h3, rfl⟩ := h1 _ h
  obtain ⟨c, h4, h5, _, h6, _⟩ := C102_copy_partial d hb hk hs hsb hsk hne hw h3.symm
  exact ⟨c, h4, (C105_kept (cfg := cfg) (ext := ext) hb hk hos (runParF_wf hw)).1.trans ((h2 b k (.inl rfl)).1.trans h5), h6⟩

/-- the copy of `aaa/x` to `aaa/d/z` among requests that fail (the other hypotheses: the example after `C106_isolation`) -/
example : (⟨Sample.mixed, Sample.mixedSched.map fun j => (j, if j = 0 then .none else .during 1 [])⟩ : Epoch).answered Sample.cfg Sample.ext
      Sample.fs3 0 = some (.ok (.etag (some b!"\"md5:5\""))) ∧
    copySourceFromHeader b!"aaa/x" = .ok (b!"aaa", b!"x") ∧ PlainKey b!"x" [b!"x"] ∧
    (∀ e' ∈ [Sample.epoch2], ∀ o ∈ e'.requests, OnOthers b!"aaa" (Away b!"aaa" b!"d/z") o) ∧
    stored Sample.cfg Sample.fs3 b!"aaa" b!"x" = some b!"hello" ∧ stored Sample.cfg Sample.fs3 b!"aaa" b!"d/z" = none :=
  ⟨by decide +kernel, by decide +kernel, plain1 (k := b!"x") (by decide), Sample.epoch2_away, by decide +kernel, by decide +kernel⟩

end S3
