import Verif.Spec.Store
import Verif.Props.Concurrent
import Verif.Props.Listing
/-!
# C14: histories
-/
namespace S3
open Spec

variable {cfg : Cfg} {ext : Ext}

/-! ### Copies that succeed -/

theorem copyFile_run {src : OsPath} {d : Path} {n : Bytes} {i : Ino} {fs : FS} (hs : fs.at src = some (.file i))
    (hd : Writable d n fs) : ∃ fs', run cfg (copyFile src ⟨d ++ [n], false⟩) fs = (.ok (), fs') := by
  simp only [copyFile, bind_eq, pure_eq]
  rw [run_open_bind, hs]
  simp only [Option.map_some, Node.handle, run_orInternal_some]
  obtain ⟨j, hj⟩ := exec_create_ok (cfg := cfg) hd
  rw [run_call1, hj, run_orInternal_some, run_readAll_bind, run_orInternal_some, run_call1]
  exact ⟨_, rfl⟩

theorem Writable.of_frame {d : Path} {n : Bytes} {a b : FS} {x : Path} (h : Writable d n a)
    (hf : Frame (· = x) (fun _ => False) a b) (h1 : d ≠ x) (h2 : d ++ [n] ≠ x) : Writable d n b :=
  Writable.frame h hf h1 h2 (fun h => h)

/-- a copy between two plain addresses, whose destination can be written, ends with success -/
theorem copyObject_ok {b k s sb sk : Bytes} {cs scs : List Bytes} (hb : checkBucketName b = true) (hk : PlainKey k cs)
    (hs : copySourceFromHeader s = .ok (sb, sk)) (hsb : checkBucketName sb = true) (hsk : PlainKey sk scs)
    (hne : (b, k) ≠ (sb, sk)) {fs : FS} (hw : WF fs) {c : Bytes} (hc : stored cfg fs sb sk = some c)
    (hmd : storedMeta cfg ext fs sb sk ≠ none) {d : Path} {n : Bytes} (hd : cfg.root ++ b :: cs = d ++ [n])
    (hwr : Writable d n fs) (hmw : Writable cfg.root (metadataName b k) fs) :
    ∃ e fs', run cfg (copyObject cfg ext b k s) fs = (.ok e, fs') ∧
      storedMeta cfg ext fs' b k =
        (if storedMeta cfg ext fs sb sk = some none then storedMeta cfg ext fs b k else storedMeta cfg ext fs sb sk) := by
  obtain ⟨p, i, hp, ha, hi⟩ := stored_some.mp hc
  have hsp := objectPath_plain cfg hsb hsk
  have hdp := objectPath_plain cfg hb hk
  rw [hsp] at hp
  cases hp
  have hPS : cfg.root ++ sb :: scs ≠ cfg.root ++ b :: cs := by
    intro e
    have := plain_path_inj hsk hk e
    exact hne (by rw [this.1, this.2])
  have hMM : metaFile cfg sb sk ≠ metaFile cfg b k := by
    intro e
    have := metaFile_inj e
    exact hne (by rw [this.1, this.2])
  have hPM : ∀ b1 k1, metaFile cfg b1 k1 ≠ cfg.root ++ b :: cs := fun b1 k1 e => meta_not_prefix hb (pfx_of_eq e)
  have hSM : cfg.root ++ sb :: scs ≠ metaFile cfg b k := fun e => meta_not_prefix hsb (pfx_of_eq e.symm)
  simp only [copyObject, hs, hsp, hdp, bind_eq, pure_eq]
  rw [run_orInternal_some, run_orInternal_some, run_stat_bind, ha]
  simp only [Option.map_some, run_orInternal_some]
  rw [hd]
  obtain ⟨fs1, h1⟩ := copyFile_run (cfg := cfg) ha hwr
  have hw1 : WF fs1 := run_wf_of h1 hw
  obtain ⟨_, _, _, ⟨j, hj⟩, hfr⟩ := copyFile_ok hw h1
  simp only at hfr hj
  rw [← hd] at hfr hj
  rw [run_bind, h1]
  simp only [Outcome.andThen]
  rw [metadataPath_eq, run_orInternal_some, run_exists_bind]
  have hms : ∀ b1 k1, metaAt ext fs1 (metaFile cfg b1 k1) = metaAt ext fs (metaFile cfg b1 k1) := fun b1 k1 =>
    metaAt_same (frame_same hfr (hPM b1 k1) (.inl fun h => h)) hw
  have hlm : fs1.lookup (metaFile cfg sb sk) = fs.lookup (metaFile cfg sb sk) := by
    rcases hfr.node _ (hPM sb sk) with h | h
    · exact h
    · exact h.1.elim
  have hsrc1 : Has fs1 (cfg.root ++ sb :: scs) i (fs.data i) := by
    have hx := (at_file ha).1
    exact hfr.keep hw hPS ⟨hx, rfl⟩
  have hmd5 : ∀ fs2, Has fs2 (cfg.root ++ sb :: scs) i (fs.data i) →
      run cfg ((getMd5Sum cfg ext sb sk).bind fun sum => .ret (quoted sum)) fs2 = (.ok (quoted (ext.md5hex (fs.data i))), fs2) := by
    intro fs2 h2
    rw [run_bind, getMd5Sum_run, hsp]
    simp only [Option.bind_some, at_false, h2.node, h2.data, Outcome.andThen, run]
  have hat : (fs1.at ⟨cfg.root ++ [metadataName sb sk], false⟩) = fs.lookup (metaFile cfg sb sk) := by
    rw [at_false]; exact hlm
  rw [hat]
  have hsm : storedMeta cfg ext fs sb sk = metaAt ext fs (metaFile cfg sb sk) := rfl
  have hdm : storedMeta cfg ext fs b k = metaAt ext fs (metaFile cfg b k) := rfl
  cases hl : fs.lookup (metaFile cfg sb sk) with
  | none =>
    refine ⟨_, fs1, hmd5 fs1 hsrc1, ?_⟩
    have : storedMeta cfg ext fs sb sk = some none := by rw [hsm, metaAt, hl]
    rw [if_pos this]
    exact hms b k
  | some x =>
    cases x with
    | dir => exact absurd (by rw [hsm, metaAt, hl]) hmd
    | file m =>
      simp only [Option.isSome_some, if_true]
      rw [metadataPath_eq, run_orInternal_some]
      have hmw1 : Writable cfg.root (metadataName b k) fs1 :=
        hmw.of_frame hfr (fun e => by
          have := congrArg List.length e
          simp at this) (hPM b k)
      have ha1 : fs1.at ⟨metaFile cfg sb sk, false⟩ = some (.file m) := by
        rw [at_false, hlm, hl]
      obtain ⟨fs2, h2⟩ := copyFile_run (cfg := cfg) ha1 hmw1
      have hw2 : WF fs2 := run_wf_of h2 hw1
      obtain ⟨m', hm', _, ⟨j2, hj2⟩, hfr2⟩ := copyFile_ok hw1 h2
      rw [ha1] at hm'
      cases hm'
      rw [run_bind]
      rw [show (⟨cfg.root ++ [metadataName sb sk], false⟩ : OsPath) = ⟨metaFile cfg sb sk, false⟩ from rfl, h2]
      simp only [Outcome.andThen]
      refine ⟨_, fs2, hmd5 fs2 (hfr2.keep hw1 hSM hsrc1), ?_⟩
      have hdat : fs1.data m = fs.data m := hfr.data m (by
        rw [hw.of_file hl]; exact hPM sb sk)
      have h3 : storedMeta cfg ext fs2 b k = (ext.metaDec (fs.data m)).map some := by
        have hj2 : Has fs2 (metaFile cfg b k) j2 (fs1.data m) := by
          refine Eq.mp ?_ hj2
          rw [if_neg]
          · rfl
          · exact hMM
        show metaAt ext fs2 (metaFile cfg b k) = _
        rw [metaAt, show fs2.lookup (metaFile cfg b k) = some (.file j2) from hj2.node]
        simp only [hj2.data, hdat]
      have h4 : storedMeta cfg ext fs sb sk = (ext.metaDec (fs.data m)).map some := by
        rw [hsm, metaAt, hl]
      rw [h3, ← h4, if_neg]
      rw [h4]
      cases ext.metaDec (fs.data m) <;> simp


/-! ### The relation between the file tree and the abstract store -/

/-- what the file tree holds for the address `(b, k)`: the object `o`, the metadata `m`, and room to write -/
structure Holds (cfg : Cfg) (ext : Ext) (fs : FS) (b : Bytes) (cs : List Bytes) (k : Bytes) (D : Prop) (o : Option Bytes)
    (m : Option Meta) : Prop where
  names : ∀ c ∈ cfg.root ++ b :: cs, nameOk c = true
  metaName : nameOk (metadataName b k) = true
  obj : contentAt fs (cfg.root ++ b :: cs) = o
  md : storedMeta cfg ext fs b k = some m
  root : IsDir fs cfg.root
  above : ∀ q, q <+: cfg.root ++ b :: cs → q ≠ cfg.root ++ b :: cs → contentAt fs q = none
  free : ¬ IsDir fs (cfg.root ++ b :: cs)
  folder : D → IsDir fs (cfg.root ++ b :: cs).dropLast

theorem root_above {b : Bytes} {cs : List Bytes} : cfg.root <+: cfg.root ++ b :: cs ∧ cfg.root ≠ cfg.root ++ b :: cs :=
  ⟨List.prefix_append _ _, fun e => by have := congrArg List.length e; simp at this⟩

theorem folder_above {b : Bytes} {cs : List Bytes} :
    (cfg.root ++ b :: cs).dropLast <+: cfg.root ++ b :: cs ∧ (cfg.root ++ b :: cs).dropLast ≠ cfg.root ++ b :: cs :=
  ⟨List.dropLast_prefix _, fun e => by
    have := congrArg List.length e
    simp at this⟩

/-- what happens above an address when directories are created: everything else stays -/
def Above (P : Path) (a b : FS) : Prop :=
  ∀ q, q <+: P → q ≠ P → b.lookup q = a.lookup q ∨ a.lookup q = none ∧ b.lookup q = some .dir

theorem above_dir {P q : Path} {a b : FS} (h : Above P a b) (h1 : q <+: P) (h2 : q ≠ P) (hd : IsDir a q) : IsDir b q := by
  rcases h q h1 h2 with e | e
  · rw [IsDir, e]; exact hd
  · rw [IsDir, e.1] at hd; cases hd

theorem above_clear {P q : Path} {a b : FS} (h : Above P a b)
    (h1 : q <+: P) (h2 : q ≠ P) (hc : contentAt a q = none) : contentAt b q = none := by
  rcases h q h1 h2 with e | e
  · rw [contentAt, e]
    rw [contentAt] at hc
    cases hl : a.lookup q with
    | none => rfl
    | some x => cases x with
      | dir => rfl
      | file i => rw [hl] at hc; cases hc
  · rw [contentAt, e.2]

/-- the parts of `Holds` that every request on the address itself keeps -/
theorem Holds.own {b k : Bytes} {cs : List Bytes} {D : Prop} {o o' : Option Bytes} {m m' : Option Meta} {x y : FS}
    (h : Holds cfg ext x b cs k D o m) (hab : Above (cfg.root ++ b :: cs) x y)
    (ho : contentAt y (cfg.root ++ b :: cs) = o') (hm : storedMeta cfg ext y b k = some m')
    (hf : ¬ IsDir y (cfg.root ++ b :: cs)) : Holds cfg ext y b cs k D o' m' where
  names := h.names
  metaName := h.metaName
  obj := ho
  md := hm
  root := above_dir hab root_above.1 root_above.2 h.root
  above := fun q h1 h2 => above_clear hab h1 h2 (h.above q h1 h2)
  free := hf
  folder := fun d => above_dir hab folder_above.1 folder_above.2 (h.folder d)

/-- steps elsewhere keep what the tree holds for an address -/
theorem Holds.elsewhere {b k : Bytes} {cs : List Bytes} {D : Prop} {o : Option Bytes} {m : Option Meta} {x y : FS}
    (hb : checkBucketName b = true) (hw : WF x) (h : Holds cfg ext x b cs k D o m)
    (hf : PutRely (cfg.root ++ b :: cs) (metaFile cfg b k) x y) : Holds cfg ext y b cs k D o m := by
  have hown : ∀ q, q <+: cfg.root ++ b :: cs ∨ q = metaFile cfg b k → ¬ ¬ (q <+: cfg.root ++ b :: cs ∨ q = metaFile cfg b k) :=
    fun q h h' => h' h
  have hP := hown _ (.inl (List.prefix_refl (cfg.root ++ b :: cs)))
  refine h.own ?_ ?_ ?_ ?_
  · intro q h1 _
    rcases hf.node q (hown q (.inl h1)) with e | e
    · exact .inl e
    · exact .inr e.2
  · rw [content_frame hw hf hP]; exact h.obj
  · rw [← h.md]
    exact metaAt_same (frame_same hf (hown _ (.inr rfl)) (.inl fun hu => meta_not_prefix hb hu.1)) hw
  · rcases hf.node _ hP with e | e
    · rw [IsDir, e]; exact h.free
    · exact absurd rfl e.1.2

/-- the file tree represents the abstract store, on the addresses in `A` -/
structure Spec.Represents (cfg : Cfg) (ext : Ext) (A D : Bytes → Bytes → Prop) (s : Store) (fs : FS) : Prop where
  wf : WF fs
  holds : ∀ b k cs, A b k → PlainKey k cs → Holds cfg ext fs b cs k (D b k) (s.obj b k) (s.md b k)
  len : ∀ b k c, A b k → s.obj b k = some c → c.length ≤ i64Max


theorem unrelated_frame {b k : Bytes} {cs : List Bytes} (hb : checkBucketName b = true) (hk : PlainKey k cs) {o : Op}
    (ho : OnOthers b (Apart b k) o) {fs : FS} (hw : WF fs) :
    PutRely (cfg.root ++ b :: cs) (metaFile cfg b k) fs (after cfg ext o fs) :=
  ((op_safe cfg ext o).mono (fun _ hc => apart_ok hb hk ho hc) (fun _ h => h)).frame cfg hw

theorem upd_other {α : Type} {f : Bytes → Bytes → α} {b k b' k' : Bytes} {v : α} (h : (b', k') ≠ (b, k)) :
    upd f b' k' v b k = f b k := by
  rw [upd, if_neg]
  rintro ⟨rfl, rfl⟩
  exact h rfl

theorem upd_self {α : Type} {f : Bytes → Bytes → α} {b k : Bytes} {v : α} : upd f b k v b k = v := by
  rw [upd, if_pos ⟨rfl, rfl⟩]

/-- a request elsewhere does not change the entry of the abstract store -/
theorem after_other {b k : Bytes} {o : Op} (ho : OnOthers b (Apart b k) o) (s : Store) :
    (s.after o).obj b k = s.obj b k ∧ (s.after o).md b k = s.md b k := by
  cases o <;> simp only [OnOthers] at ho <;> simp only [Store.after, and_self]
  case putObject i =>
    refine ⟨upd_other ho.other, ?_⟩
    cases i.metadata
    · rfl
    · exact upd_other ho.other
  case deleteObject b' k' => exact ⟨upd_other ho.other, trivial⟩
  case copyObject b' k' src =>
    cases copySourceFromHeader src with
    | error _ => exact ⟨rfl, rfl⟩
    | ok x =>
      obtain ⟨sb, sk⟩ := x
      simp only
      cases s.obj sb sk with
      | none => exact ⟨rfl, rfl⟩
      | some c =>
        refine ⟨upd_other ho.other, ?_⟩
        simp only
        cases s.md sb sk
        · rfl
        · exact upd_other ho.other

/-- the address a known request writes -/
def target : Op → Option (Bytes × Bytes)
  | .putObject i => some (i.bucket, i.key)
  | .deleteObject b k => some (b, k)
  | .copyObject b k _ => some (b, k)
  | _ => none

theorem known_others {A D : Bytes → Bytes → Prop} (hA : PrefixFree A) {o : Op} (ho : Known A D o) {b k : Bytes} (ha : A b k)
    (hne : target o ≠ some (b, k)) : OnOthers b (Apart b k) o := by
  cases o <;> simp only [Known] at ho <;> simp only [OnOthers]
  case putObject i => exact hA.apart b k _ _ ha ho.1 fun e => hne (by rw [target, e])
  case deleteObject b' k' => exact hA.apart b k _ _ ha ho fun e => hne (by rw [target, e])
  case copyObject b' k' s => exact hA.apart b k _ _ ha ho.1 fun e => hne (by rw [target, e])

theorem content_not_dir {fs : FS} {p : Path} {c : Bytes} (h : contentAt fs p = some c) : ¬ IsDir fs p := by
  intro hd
  rw [contentAt, hd] at h
  cases h

theorem lookup_absent {fs : FS} {p : Path} (h : contentAt fs p = none) (hd : ¬ IsDir fs p) : fs.lookup p = none := by
  rw [contentAt] at h
  cases hl : fs.lookup p with
  | none => rfl
  | some n => cases n with
    | dir => exact absurd hl hd
    | file i => rw [hl] at h; cases h

/-- the directories above the address a request writes -/
theorem own_above {b k : Bytes} {cs : List Bytes} (hb : checkBucketName b = true) (hk : PlainKey k cs) {o : Op}
    (ho : WritesTo b k o) {fs : FS} (hw : WF fs) : Above (cfg.root ++ b :: cs) fs (after cfg ext o fs) := by
  have ht : ∀ q, ¬ (opPerm cfg o).tree q := by
    intro q h
    cases o <;> first | exact h.elim | exact ho.elim
  intro q h1 h2
  have hf := op_frame cfg ext o ht hw
  have : ¬ opOwn cfg o q := by
    intro h
    rcases own_cases hb hk ho h with h | h | ⟨u, n, _, h⟩
    · exact h2 h
    · exact meta_not_prefix hb (h ▸ h1)
    · exact part_not_prefix (u := u) (n := n) hb (h ▸ h1)
  rcases hf.node q this with e | e
  · exact .inl e
  · exact .inr e.2

section step
variable {A D : Bytes → Bytes → Prop} {s : Store} {fs : FS} {b k : Bytes} {cs : List Bytes}

theorem held_room {md : Option Meta} {d : Prop} {o : Option Bytes} {m : Option Meta} (h : Holds cfg ext fs b cs k d o m) :
    Room cfg fs b cs (if md.isSome then some (metadataName b k) else none) := by
  refine ⟨h.names, h.root, h.above, h.free, ?_⟩
  intro n hn
  split at hn
  · cases hn
    refine ⟨h.metaName, fun hd => ?_⟩
    have := h.md
    rw [storedMeta, metaAt, hd] at this
    cases this
  · cases hn

theorem held_writable {dd : Prop} {o : Option Bytes} {m : Option Meta} (hh : Holds cfg ext fs b cs k dd o m) (hd : dd)
    {d : Path} {x : Bytes} (hdx : cfg.root ++ b :: cs = d ++ [x]) : Writable d x fs := by
  have hdir := hh.folder hd
  rw [hdx, List.dropLast_concat] at hdir
  exact ⟨hdir, fun c hc => hh.names c (by rw [hdx]; exact hc), by rw [← hdx]; exact hh.free⟩

theorem held_meta_writable {dd : Prop} {o : Option Bytes} {m : Option Meta} (hh : Holds cfg ext fs b cs k dd o m) :
    Writable cfg.root (metadataName b k) fs := by
  obtain ⟨h1, h2⟩ := (held_room (md := some []) hh).metaName _ rfl
  refine ⟨hh.root, ?_, h2⟩
  intro c hc
  rcases List.mem_append.mp hc with hc | hc
  · exact hh.names c (List.mem_append.mpr (.inl hc))
  · simp only [List.mem_cons, List.not_mem_nil, or_false] at hc; rw [hc]; exact h1

theorem put_succeeds {i : PutInput} (hb : LegalBucket i.bucket) (hk : PlainKey i.key cs) {body : Body}
    (hbody : i.body = some body) (hu : unbroken body)
    (hsc : i.storageClass = none ∨ i.storageClass = some b!"STANDARD" ∨ i.storageClass = some b!"REDUCED_REDUNDANCY")
    (hw : WF fs) {d : Prop} {o : Option Bytes} {m : Option Meta} (h : Holds cfg ext fs i.bucket cs i.key d o m) :
    answer cfg ext (.putObject i) fs = .ok (.etag (some (quoted (ext.md5hex (received body))))) := by
  have hwp := put_room (cfg := cfg) (ext := ext) hb hk hbody hu hsc hw (held_room h)
  obtain ⟨e, he⟩ := wp_run hw (wp_anti (R' := fun a b => a = b) (fun a b _ _ e => e ▸ Frame.refl ..) hw hwp)
  have ha : answer cfg ext (.putObject i) fs = .ok (.etag e) := by
    rw [answer, opProg]
    exact run_map_fst.mpr ⟨e, he, rfl⟩
  obtain ⟨e', h1, h2⟩ := put_done ⟨(C02_bucket_name_rule _).mpr hb, plain_no_slash hk⟩ hw ha
  cases h1
  obtain ⟨body', h3, _, _, h4⟩ := h2.body
  rw [hbody] at h3
  cases h3
  rw [ha, h4]

/-- **the answers** of a known request are those of the abstract store -/
theorem known_answer (hA : PrefixFree A) (h : Represents cfg ext A D s fs) {o : Op} (ho : Known A D o) :
    s.answer ext o = some (answer cfg ext o fs) := by
  have hw := h.wf
  have legal : ∀ {b k}, A b k → checkBucketName b = true := fun ha => (C02_bucket_name_rule _).mpr (hA.bucket _ _ ha)
  cases o <;> simp only [Known] at ho <;> simp only [Store.answer]
  case putObject i =>
    obtain ⟨ha, ⟨body, hbody, hu, _⟩, hsc, _⟩ := ho
    obtain ⟨cs, hk⟩ := hA.key _ _ ha
    rw [put_succeeds (hA.bucket _ _ ha) hk hbody hu hsc hw (h.holds _ _ cs ha hk), hbody]
    rfl
  case getObject b k r w =>
    obtain ⟨ha, rfl⟩ := ho
    simp only
    obtain ⟨cs, hk⟩ := hA.key _ _ ha
    have hh := h.holds _ _ cs ha hk
    have hp := objectPath_plain cfg (legal ha) hk
    cases hs : s.obj b k with
    | none =>
      rw [hs] at hh
      have := (get_absent (cfg := cfg) (ext := ext) hp (by rw [at_false]; exact lookup_absent hh.obj hh.free) none w).1
      rw [this]
      rfl
    | some c =>
      have hlen := h.len _ _ _ ha hs
      rw [hs] at hh
      obtain ⟨p, i, hp', hat, hc⟩ := stored_some.mp (show stored cfg fs b k = some c by rw [stored_plain (legal ha) hk]; exact hh.obj)
      have hm := hh.md
      rw [storedMeta] at hm
      have hrun := get_run_file (cfg := cfg) (ext := ext) (r := none) (wants := w) hp' hat rfl
      simp only [rangeSlice, hm, hc, hlen, if_true] at hrun
      rw [answer, opProg, run_bind, hrun]
      simp [Outcome.andThen, run]
  case headObject b k =>
    obtain ⟨cs, hk⟩ := hA.key _ _ ho
    have hh := h.holds _ _ cs ho hk
    have hp := objectPath_plain cfg (legal ho) hk
    cases hs : s.obj b k with
    | none =>
      rw [hs] at hh
      have := (get_absent (cfg := cfg) (ext := ext) hp (by rw [at_false]; exact lookup_absent hh.obj hh.free) none fun _ => 0).2
      rw [this]
    | some c =>
      have hlen := h.len _ _ _ ho hs
      rw [hs] at hh
      obtain ⟨p, i, hp', hat, hc⟩ := stored_some.mp (show stored cfg fs b k = some c by rw [stored_plain (legal ho) hk]; exact hh.obj)
      have hm := hh.md
      rw [storedMeta] at hm
      have hrun := head_run (cfg := cfg) (ext := ext) (fs := fs) hp'
      simp only [hat, hm, hc, hlen, if_true] at hrun
      rw [answer, opProg, run_bind, hrun]
      rfl
  case deleteObject b k =>
    obtain ⟨cs, hk⟩ := hA.key _ _ ho
    have hh := h.holds _ _ cs ho hk
    rw [(delete_answer (cfg := cfg) (ext := ext) (plain_no_slash hk) fs).1, stored_plain (legal ho) hk, hh.obj]
    cases s.obj b k <;> rfl
  case copyObject b k src =>
    obtain ⟨ha, hd, sb, sk, hsrc, has, hne⟩ := ho
    obtain ⟨cs, hk⟩ := hA.key _ _ ha
    obtain ⟨scs, hsk⟩ := hA.key _ _ has
    have hh := h.holds _ _ cs ha hk
    have hhs := h.holds _ _ scs has hsk
    simp only [hsrc]
    cases hs : s.obj sb sk with
    | none =>
      rw [hs] at hhs
      have hl := lookup_absent hhs.obj hhs.free
      have : run cfg (copyObject cfg ext b k src) fs = (.err .InternalError, fs) := by
        simp only [copyObject, hsrc, objectPath_plain cfg (legal has) hsk, objectPath_plain cfg (legal ha) hk, bind_eq, pure_eq]
        rw [run_orInternal_some, run_orInternal_some, run_stat_bind, at_false, hl]
        rfl
      rw [answer, opProg, run_bind, this]
      rfl
    | some c =>
      rw [hs] at hhs
      have hst : stored cfg fs sb sk = some c := by rw [stored_plain (legal has) hsk]; exact hhs.obj
      obtain ⟨d, x, hdx⟩ : ∃ d x, cfg.root ++ b :: cs = d ++ [x] := ⟨_, _, (List.dropLast_concat_getLast (by simp)).symm⟩
      obtain ⟨e, fs', hrun, _⟩ := copyObject_ok (ext := ext) (legal ha) hk hsrc (legal has) hsk (fun e => hne e.symm) hw hst
        (by rw [hhs.md]; simp) hdx (held_writable hh hd hdx) (held_meta_writable hh)
      have hans : answer cfg ext (.copyObject b k src) fs = .ok (.etag (some e)) := by
        rw [answer, opProg, run_bind, hrun]; rfl
      obtain ⟨c', h1, _, _, h4⟩ := C18_copy_partial (legal ha) hk hsrc (legal has) hsk (fun e => hne e.symm) hw hans
      rw [hst] at h1
      cases h1
      rw [hans, h4]

/-- a request keeps the representation, the abstract store following it -/
theorem represents_step (hl : MetaLaw ext) (hA : PrefixFree A) (h : Represents cfg ext A D s fs) {o : Op}
    (ho : Known A D o ∨ Unrelated A o) : Represents cfg ext A D (s.after o) (after cfg ext o fs) := by
  have hw := h.wf
  have hw' : WF (after cfg ext o fs) := run_wf cfg _ hw
  have legal : ∀ {b k}, A b k → checkBucketName b = true := fun ha => (C02_bucket_name_rule _).mpr (hA.bucket _ _ ha)
  have other : ∀ b k cs, A b k → PlainKey k cs → OnOthers b (Apart b k) o →
      Holds cfg ext (after cfg ext o fs) b cs k (D b k) ((s.after o).obj b k) ((s.after o).md b k) := by
    intro b k cs ha hk hoth
    rw [(after_other hoth s).1, (after_other hoth s).2]
    exact (h.holds b k cs ha hk).elsewhere (legal ha) hw (unrelated_frame (legal ha) hk hoth hw)
  have olen : ∀ b k c, A b k → OnOthers b (Apart b k) o → (s.after o).obj b k = some c → c.length ≤ i64Max := by
    intro b k c ha hoth hc
    rw [(after_other hoth s).1] at hc
    exact h.len b k c ha hc
  rcases ho with ho | ho
  case inr => exact ⟨hw', fun b k cs ha hk => other b k cs ha hk (ho b k ha), fun b k c ha => olen b k c ha (ho b k ha)⟩
  suffices hown : ∀ b k cs, A b k → PlainKey k cs → target o = some (b, k) →
      Holds cfg ext (after cfg ext o fs) b cs k (D b k) ((s.after o).obj b k) ((s.after o).md b k) ∧
      ∀ c, (s.after o).obj b k = some c → c.length ≤ i64Max by
    refine ⟨hw', fun b k cs ha hk => ?_, fun b k c ha hc => ?_⟩
    · by_cases ht : target o = some (b, k)
      · exact (hown b k cs ha hk ht).1
      · exact other b k cs ha hk (known_others hA ho ha ht)
    · by_cases ht : target o = some (b, k)
      · obtain ⟨cs, hk⟩ := hA.key _ _ ha
        exact (hown b k cs ha hk ht).2 c hc
      · exact olen b k c ha (known_others hA ho ha ht) hc
  intro b k cs ha hk ht
  have hh := h.holds b k cs ha hk
  have hans := known_answer hA h ho
  cases o <;> simp only [target, Option.some.injEq, Prod.mk.injEq, reduceCtorEq] at ht <;> simp only [Known] at ho <;>
    obtain ⟨rfl, rfl⟩ := ht
  case putObject i =>
    obtain ⟨_, ⟨body, hbody, hu, hlen⟩, hsc, hv⟩ := ho
    simp only [Store.after, upd_self, hbody, Option.map_some]
    have hput := put_succeeds (hA.bucket _ _ ha) hk hbody hu hsc hw hh
    have hop : ObjectPut i := ⟨legal ha, plain_no_slash hk⟩
    obtain ⟨e, _, hd⟩ := put_done hop hw hput
    obtain ⟨body', hb1, _, hb2, _⟩ := hd.body
    rw [hbody] at hb1
    cases hb1
    rw [stored_plain (legal ha) hk] at hb2
    refine ⟨hh.own (own_above (o := .putObject i) (legal ha) hk ⟨rfl, rfl⟩ hw) hb2 ?_ (content_not_dir hb2), ?_⟩
    · rw [put_meta hl hop hv hw hput]
      cases hm : i.metadata with
      | none => exact hh.md
      | some m => simp only [upd_self]
    · intro c hc
      cases hc
      exact hlen
  case deleteObject b k =>
    simp only [Store.after, upd_self]
    have hd := delete_answer (cfg := cfg) (ext := ext) (plain_no_slash hk) fs (b := b)
    rw [stored_plain (legal ha) hk, hh.obj] at hd
    refine ⟨?_, fun c hc => by cases hc⟩
    cases hs : s.obj b k with
    | none =>
      rw [hd.2 hs]
      rw [hs] at hh
      exact hh
    | some c =>
      rw [hs, if_neg (by simp)] at hd
      obtain ⟨p, i, hp, hat, he⟩ := delete_erases (plain_no_slash hk) hd.1
      rw [objectPath_plain cfg (legal ha) hk] at hp
      cases hp
      have hg := erase_gone hat
      simp only at hg he
      rw [← he] at hg
      refine hh.own (own_above (o := .deleteObject b k) (legal ha) hk ⟨rfl, rfl⟩ hw) (by rw [contentAt, hg]) ?_ (by rw [IsDir, hg]; simp)
      rw [← hh.md]
      have hf := op_frame cfg ext (.deleteObject b k) (fun _ h => h) hw
      refine metaAt_same (frame_same hf ?_ (.inl fun h => h)) hw
      rintro (h | h | h)
      · exact h
      · exact plain_not_meta (legal ha) hk h.2 rfl
      · exact plain_not_meta (legal ha) hk h.2 rfl
  case copyObject b k src =>
    obtain ⟨_, hd, sb, sk, hsrc, has, hne⟩ := ho
    obtain ⟨scs, hsk⟩ := hA.key _ _ has
    have hhs := h.holds _ _ scs has hsk
    simp only [Store.after, hsrc]
    simp only [Store.answer, hsrc] at hans
    cases hs : s.obj sb sk with
    | none =>
      rw [hs] at hhs
      have hl := lookup_absent hhs.obj hhs.free
      have : run cfg (copyObject cfg ext b k src) fs = (.err .InternalError, fs) := by
        simp only [copyObject, hsrc, objectPath_plain cfg (legal has) hsk, objectPath_plain cfg (legal ha) hk, bind_eq, pure_eq]
        rw [run_orInternal_some, run_orInternal_some, run_stat_bind, at_false, hl]
        rfl
      rw [after_copy, this]
      exact ⟨hh, fun c hc => h.len _ _ _ ha hc⟩
    | some c =>
      simp only [hs, Option.some.injEq] at hans
      simp only [upd_self]
      refine ⟨?_, fun c' hc' => by cases hc'; exact h.len _ _ _ has hs⟩
      rw [hs] at hhs
      have hst : stored cfg fs sb sk = some c := by rw [stored_plain (legal has) hsk]; exact hhs.obj
      obtain ⟨c', h1, h2, _, _⟩ := C18_copy_partial (legal ha) hk hsrc (legal has) hsk (fun e => hne e.symm) hw hans.symm
      rw [hst] at h1
      cases h1
      rw [stored_plain (legal ha) hk] at h2
      refine hh.own (own_above (o := .copyObject b k src) (legal ha) hk ⟨rfl, rfl⟩ hw) h2 ?_ (content_not_dir h2)
      obtain ⟨d, x, hdx⟩ : ∃ d x, cfg.root ++ b :: cs = d ++ [x] := ⟨_, _, (List.dropLast_concat_getLast (by simp)).symm⟩
      obtain ⟨e, fs', hrun, hmd⟩ := copyObject_ok (ext := ext) (legal ha) hk hsrc (legal has) hsk (fun e => hne e.symm) hw hst
        (by rw [hhs.md]; simp) hdx (held_writable hh hd hdx) (held_meta_writable hh)
      rw [after_copy, hrun]
      rw [hmd, hhs.md, hh.md]
      cases s.md sb sk with
      | none => simp
      | some m => simp [upd_self]

end step

/-! ### C14 -/

/-- **C14** (partial) For every history of requests, each of which is either about an object in the prefix-free set `A` of
addresses, or writes and deletes elsewhere only: the file tree keeps representing the abstract store, so that the
next request about an object in `A` gets exactly the answer of the abstract store.
Missing from the full property: copying an object onto itself and copying into a folder that does not exist, for which
it is false, see `C14_map_refinement_fails`; bodies that break off (see C29). -/
theorem C14_map_refinement_partial {A D : Bytes → Bytes → Prop} (hl : MetaLaw ext) (hA : PrefixFree A) {s : Store} {fs : FS}
    (h : Represents cfg ext A D s fs) (os : List Op) (hos : ∀ o ∈ os, Known A D o ∨ Unrelated A o) :
    Represents cfg ext A D (s.afterAll os) (afterAll cfg ext os fs) ∧
    ∀ o, Known A D o → (s.afterAll os).answer ext o = some (answer cfg ext o (afterAll cfg ext os fs)) := by
  have key : Represents cfg ext A D (s.afterAll os) (afterAll cfg ext os fs) := by
    induction os generalizing s fs with
    | nil => exact h
    | cons o os ih =>
      exact ih (represents_step hl hA h (hos o (by simp))) fun o' ho' => hos o' (List.mem_cons_of_mem _ ho')
  exact ⟨key, fun o ho => known_answer hA key ho⟩

/-- a file tree without files below the root represents the empty store -/
theorem represents_fresh {A D : Bytes → Bytes → Prop} {fs : FS} (hw : WF fs) (hroot : IsDir fs cfg.root)
    (hfiles : ∀ q, cfg.root <+: q → contentAt fs q = none)
    (hnames : ∀ b k cs, A b k → PlainKey k cs → ∀ c ∈ b :: metadataName b k :: cs, nameOk c = true)
    (hfree : ∀ b k cs, A b k → PlainKey k cs → ¬ IsDir fs (cfg.root ++ b :: cs) ∧ ¬ IsDir fs (cfg.root ++ [metadataName b k]))
    (hD : ∀ b k cs, A b k → PlainKey k cs → D b k → IsDir fs (cfg.root ++ b :: cs).dropLast) :
    Represents cfg ext A D ⟨fun _ _ => none, fun _ _ => none⟩ fs := by
  refine ⟨hw, fun b k cs ha hk => ?_, fun b k c _ hc => by cases hc⟩
  have hn := hnames b k cs ha hk
  refine ⟨?_, hn _ (by simp), hfiles _ (List.prefix_append _ _), ?_, hroot, ?_, (hfree b k cs ha hk).1, hD b k cs ha hk⟩
  · intro c hc
    rcases List.mem_append.mp hc with hc | hc
    · by_cases e : cfg.root = []
      · rw [e] at hc; cases hc
      · exact (hw.names _ (mem_of_lookup e hroot)).2 c hc
    · rcases List.mem_cons.mp hc with rfl | hc
      · exact hn _ (by simp)
      · exact hn _ (by simp [hc])
  · have h1 := hfiles (cfg.root ++ [metadataName b k]) (List.prefix_append _ _)
    have h2 := (hfree b k cs ha hk).2
    simp only [storedMeta, metaAt]
    cases hl : fs.lookup (cfg.root ++ [metadataName b k]) with
    | none => rfl
    | some n => cases n with
      | dir => exact absurd hl h2
      | file i => simp [contentAt, hl] at h1
  · intro q hq _
    rcases List.prefix_or_prefix_of_prefix hq (List.prefix_append cfg.root (b :: cs)) with h | h
    · by_cases e : q = cfg.root
      · exact hfiles q (e ▸ List.prefix_refl _)
      · simp only [contentAt, hw.above hroot h e]
    · exact hfiles q h

/-- **C14** (partial, from the start) The same for a server started on a directory without files: from then on, whatever
the history, it answers like a store that started empty. -/
theorem C14_from_empty_partial {A D : Bytes → Bytes → Prop} (hl : MetaLaw ext) (hA : PrefixFree A) {fs : FS} (hw : WF fs)
    (hroot : IsDir fs cfg.root) (hfiles : ∀ q, cfg.root <+: q → contentAt fs q = none)
    (hnames : ∀ b k cs, A b k → PlainKey k cs → ∀ c ∈ b :: metadataName b k :: cs, nameOk c = true)
    (hfree : ∀ b k cs, A b k → PlainKey k cs → ¬ IsDir fs (cfg.root ++ b :: cs) ∧ ¬ IsDir fs (cfg.root ++ [metadataName b k]))
    (hD : ∀ b k cs, A b k → PlainKey k cs → D b k → IsDir fs (cfg.root ++ b :: cs).dropLast)
    (os : List Op) (hos : ∀ o ∈ os, Known A D o ∨ Unrelated A o) (o : Op) (ho : Known A D o) :
    (Store.afterAll ⟨fun _ _ => none, fun _ _ => none⟩ os).answer ext o = some (answer cfg ext o (afterAll cfg ext os fs)) :=
  (C14_map_refinement_partial hl hA (represents_fresh hw hroot hfiles hnames hfree hD) os hos).2 o ho

/-! #### a sample -/

/-- three addresses: two in the bucket `aaa`, one in a folder of `bbb` -/
def Sample.addr (b k : Bytes) : Prop := (b, k) ∈ [(b!"aaa", b!"x"), (b!"aaa", b!"z"), (b!"bbb", b!"d/e")]

def Sample.store : Store := ⟨fun b k => if b = b!"aaa" ∧ k = b!"x" then some b!"hello" else none, fun _ _ => none⟩

theorem Sample.addr_cases {b k : Bytes} (h : Sample.addr b k) :
    b = b!"aaa" ∧ k = b!"x" ∨ b = b!"aaa" ∧ k = b!"z" ∨ b = b!"bbb" ∧ k = b!"d/e" := by
  simpa [Sample.addr] using h

theorem Sample.prefixFree : PrefixFree Sample.addr := by
  refine ⟨?_, ?_, ?_⟩
  · intro b k h
    rcases Sample.addr_cases h with ⟨rfl, rfl⟩ | ⟨rfl, rfl⟩ | ⟨rfl, rfl⟩ <;> exact Sample.legal (by decide +kernel)
  · intro b k h
    rcases Sample.addr_cases h with ⟨rfl, rfl⟩ | ⟨rfl, rfl⟩ | ⟨rfl, rfl⟩
    · exact ⟨_, plain1 (by decide)⟩
    · exact ⟨_, plain1 (by decide)⟩
    · exact ⟨_, Sample.plain_de⟩
  · intro b k b' k' h h' hne
    have hb : LegalBucket b' := by
      rcases Sample.addr_cases h' with ⟨rfl, rfl⟩ | ⟨rfl, rfl⟩ | ⟨rfl, rfl⟩ <;> exact Sample.legal (by decide +kernel)
    have hk : ∃ cs, PlainKey k' cs := by
      rcases Sample.addr_cases h' with ⟨rfl, rfl⟩ | ⟨rfl, rfl⟩ | ⟨rfl, rfl⟩
      · exact ⟨_, plain1 (by decide)⟩
      · exact ⟨_, plain1 (by decide)⟩
      · exact ⟨_, Sample.plain_de⟩
    refine ⟨⟨hb, hk, hne⟩, ?_, ?_⟩ <;> intro e <;> apply Sample.not_nested
    all_goals
      rcases Sample.addr_cases h with ⟨rfl, rfl⟩ | ⟨rfl, rfl⟩ | ⟨rfl, rfl⟩ <;>
      rcases Sample.addr_cases h' with ⟨rfl, rfl⟩ | ⟨rfl, rfl⟩ | ⟨rfl, rfl⟩ <;> decide +kernel

theorem Sample.comps_of {k : Bytes} {cs ds : List Bytes} (h : PlainKey k cs) (h' : PlainKey k ds) : cs = ds :=
  plainKey_unique h h'

theorem Sample.represents : Represents Sample.cfg Sample.ext Sample.addr (fun b _ => b = b!"aaa") Sample.store Sample.fs := by
  refine ⟨Sample.fs_wf, ?_, ?_⟩
  · intro b k cs h hk
    rcases Sample.addr_cases h with ⟨rfl, rfl⟩ | ⟨rfl, rfl⟩ | ⟨rfl, rfl⟩
    · obtain rfl := Sample.comps_of hk (plain1 (by decide))
      refine ⟨by decide +kernel, by decide +kernel, by decide +kernel, by decide +kernel, by unfold IsDir; decide +kernel, ?_,
        by unfold IsDir; decide +kernel, fun _ => by unfold IsDir; decide +kernel⟩
      intro q hq hne
      have : q ∈ [[], [b!"srv"], [b!"srv", b!"aaa"]] := by
        obtain ⟨t, ht⟩ := hq
        simp only [Sample.cfg, List.cons_append, List.nil_append] at ht hne
        rcases q with _ | ⟨a, _ | ⟨b, _ | ⟨c, q⟩⟩⟩ <;> simp_all
      simp only [List.mem_cons, List.not_mem_nil, or_false] at this
      rcases this with rfl | rfl | rfl <;> decide +kernel
    · obtain rfl := Sample.comps_of hk (plain1 (by decide))
      refine ⟨by decide +kernel, by decide +kernel, by decide +kernel, by decide +kernel, by unfold IsDir; decide +kernel, ?_,
        by unfold IsDir; decide +kernel, fun _ => by unfold IsDir; decide +kernel⟩
      intro q hq hne
      have : q ∈ [[], [b!"srv"], [b!"srv", b!"aaa"]] := by
        obtain ⟨t, ht⟩ := hq
        simp only [Sample.cfg, List.cons_append, List.nil_append] at ht hne
        rcases q with _ | ⟨a, _ | ⟨b, _ | ⟨c, q⟩⟩⟩ <;> simp_all
      simp only [List.mem_cons, List.not_mem_nil, or_false] at this
      rcases this with rfl | rfl | rfl <;> decide +kernel
    · obtain rfl := Sample.comps_of hk Sample.plain_de
      refine ⟨by decide +kernel, by decide +kernel, by decide +kernel, by decide +kernel, by unfold IsDir; decide +kernel, ?_,
        by unfold IsDir; decide +kernel, fun h => absurd h (by decide)⟩
      intro q hq hne
      have : q ∈ [[], [b!"srv"], [b!"srv", b!"bbb"], [b!"srv", b!"bbb", b!"d"]] := by
        obtain ⟨t, ht⟩ := hq
        simp only [Sample.cfg, List.cons_append, List.nil_append] at ht hne
        rcases q with _ | ⟨a, _ | ⟨b, _ | ⟨c, _ | ⟨d, q⟩⟩⟩⟩ <;> simp_all
      simp only [List.mem_cons, List.not_mem_nil, or_false] at this
      rcases this with rfl | rfl | rfl | rfl <;> decide +kernel
  · intro b k c _ hc
    simp only [Sample.store] at hc
    split at hc
    · cases hc; decide
    · cases hc

/-- overwrite `x`, copy it to `z`, delete it, put an object in a folder, and a request on an object outside of the set -/
def Sample.history : List Op :=
  [.putObject { Sample.put3 with bucket := b!"aaa", key := b!"x" }, .copyObject b!"aaa" b!"z" b!"aaa/x", .deleteObject b!"aaa" b!"x",
   .putObject { Sample.put3 with bucket := b!"bbb", key := b!"d/e" }, .deleteObject b!"bbb" b!"y"]

/-- the hypotheses are met, the history ends with the copy in place -/
example : MetaLaw Sample.ext ∧ PrefixFree Sample.addr ∧
    Represents Sample.cfg Sample.ext Sample.addr (fun b _ => b = b!"aaa") Sample.store Sample.fs ∧
    (∀ o ∈ Sample.history, Known Sample.addr (fun b _ => b = b!"aaa") o ∨ Unrelated Sample.addr o) ∧
    answer Sample.cfg Sample.ext (.getObject b!"aaa" b!"z" none fun _ => 3) (afterAll Sample.cfg Sample.ext Sample.history Sample.fs) =
      .ok (.object 7 Sample.put3.metadata b!"\"md5:7\"" (some (received (Sample.put3.body.getD [])))) := by
  refine ⟨Sample.ext_roundtrip, Sample.prefixFree, Sample.represents, ?_, by decide +kernel⟩
  intro o ho
  have hput : ∃ body, Sample.put3.body = some body ∧ unbroken body ∧ (received body).length ≤ i64Max :=
    ⟨_, rfl, by unfold unbroken; decide +kernel, by decide +kernel⟩
  simp only [Sample.history, List.mem_cons, List.not_mem_nil, or_false] at ho
  rcases ho with rfl | rfl | rfl | rfl | rfl
  · exact .inl ⟨by simp [Sample.addr], hput, .inl rfl, Sample.validMeta⟩
  · exact .inl ⟨by simp [Sample.addr], rfl, b!"aaa", b!"x", by decide +kernel, by simp [Sample.addr], by decide⟩
  · exact .inl (show Sample.addr _ _ by simp [Sample.addr])
  · exact .inl ⟨by simp [Sample.addr], hput, .inl rfl, Sample.validMeta⟩
  · refine .inr fun b k h => ⟨⟨Sample.legal (by decide +kernel), ⟨_, plain1 (k := b!"y") (by decide)⟩, ?_⟩, ?_, ?_⟩
    · rcases Sample.addr_cases h with ⟨rfl, rfl⟩ | ⟨rfl, rfl⟩ | ⟨rfl, rfl⟩ <;> decide
    · intro _; apply Sample.not_nested
      rcases Sample.addr_cases h with ⟨rfl, rfl⟩ | ⟨rfl, rfl⟩ | ⟨rfl, rfl⟩ <;> decide +kernel
    · intro _; apply Sample.not_nested
      rcases Sample.addr_cases h with ⟨rfl, rfl⟩ | ⟨rfl, rfl⟩ | ⟨rfl, rfl⟩ <;> decide +kernel

/-- C14 fails: after copying an object onto itself a GET returns no bytes. -/
theorem C14_map_refinement_fails :
    ∃ (cfg : Cfg) (ext : Ext) (A D : Bytes → Bytes → Prop) (s : Store) (fs : FS) (os : List Op) (o : Op),
      MetaLaw ext ∧ PrefixFree A ∧ Represents cfg ext A D s fs ∧ (∀ o ∈ os, About A o) ∧ About A o ∧
      (s.afterAll os).answer ext o ≠ some (answer cfg ext o (afterAll cfg ext os fs)) := by
  refine ⟨Sample.cfg, Sample.ext, Sample.addr, _, Sample.store, Sample.fs, [.copyObject b!"aaa" b!"x" b!"aaa/x"],
    .getObject b!"aaa" b!"x" none fun _ => 9, Sample.ext_roundtrip, Sample.prefixFree, Sample.represents, ?_, ?_, by decide +kernel⟩
  · intro o ho
    simp only [List.mem_cons, List.not_mem_nil, or_false] at ho
    subst ho
    exact ⟨by simp [Sample.addr], b!"aaa", b!"x", by decide +kernel, by simp [Sample.addr]⟩
  · exact ⟨by simp [Sample.addr], rfl⟩

/-- C14 fails also without such copies: a copy into a folder that does not exist is refused, although a put would create it. -/
theorem C14_copy_into_new_folder_fails :
    ∃ (cfg : Cfg) (ext : Ext) (A D : Bytes → Bytes → Prop) (s : Store) (fs : FS) (o : Op),
      MetaLaw ext ∧ PrefixFree A ∧ Represents cfg ext A D s fs ∧ About A o ∧
      s.answer ext o = some (.ok (.etag (some b!"\"md5:5\""))) ∧ answer cfg ext o fs = .err .InternalError := by
  refine ⟨Sample.cfg, Sample.ext, Sample.addr, _, Sample.store, Sample.fs, .copyObject b!"bbb" b!"d/e" b!"aaa/x",
    Sample.ext_roundtrip, Sample.prefixFree, Sample.represents, ?_, by decide +kernel, by decide +kernel⟩
  exact ⟨by simp [Sample.addr], b!"aaa", b!"x", by decide +kernel, by simp [Sample.addr]⟩

end S3
