import Verif.Spec.FoldersBeside
import Verif.Props.Life
import Verif.Props.Folder
/-! Lemmas for C141: what the calls for folder keys do to files. -/
namespace S3
open Spec
variable {cfg : Cfg} {ext : Ext}

/-- The files at the paths in `own` stay as they are, and none appear there; what is at `m` stays. -/
structure FilesStay (own : Path → Prop) (m : Path) (a b : FS) : Prop where
  file : ∀ p i, own p → (b.lookup p = some (.file i) ↔ a.lookup p = some (.file i))
  data : ∀ i : Ino, own i.path → b.data i = a.data i
  look : b.lookup m = a.lookup m

variable {own : Path → Prop} {m : Path}

theorem FilesStay.refl (fs : FS) : FilesStay own m fs fs := ⟨fun _ _ _ => .rfl, fun _ _ => rfl, rfl⟩

theorem FilesStay.trans {a b c : FS} (h1 : FilesStay own m a b) (h2 : FilesStay own m b c) : FilesStay own m a c :=
  ⟨fun p i h => (h2.file p i h).trans (h1.file p i h), fun i h => (h2.data i h).trans (h1.data i h), h2.look.trans h1.look⟩

theorem rely_filesStay : Rely (FilesStay own m) := ⟨fun _ => .refl _, fun _ _ _ => .trans⟩

theorem FilesStay.mono {own' : Path → Prop} {a b : FS} (h : FilesStay own m a b) (ho : ∀ q, own' q → own q) : FilesStay own' m a b :=
  ⟨fun p i hp => h.file p i (ho p hp), fun i hi => h.data i (ho _ hi), h.look⟩

theorem FilesStay.keep {a b : FS} (h : FilesStay own m a b) (hw : WF a) : KeepFiles own a b := by
  intro p i c hp hh
  exact ⟨(h.file p i hp).mpr hh.node, (h.data i (by rw [(hw.ino _ _ hh.node).1]; exact hp)).trans hh.data⟩

theorem FilesStay.content {a b : FS} (h : FilesStay own m a b) (hw : WF a) {p : Path} (hp : own p) : contentAt b p = contentAt a p := by
  simp only [contentAt]
  cases ha : a.lookup p with
  | some x =>
    cases x with
    | file i => rw [(h.file p i hp).mpr ha]; simp only [h.data i (by rw [(hw.ino _ _ ha).1]; exact hp)]
    | dir =>
      split
      · rename_i i hi
        have := (h.file p i hp).mp hi
        rw [ha] at this; cases this
      · rfl
  | none =>
    split
    · rename_i i hi
      have := (h.file p i hp).mp hi
      rw [ha] at this; cases this
    · rfl

theorem FilesStay.same {a b : FS} (h : FilesStay own m a b) (hm : own m) : SameAt b a m :=
  ⟨h.look, fun i hi => h.data i (by rw [hi]; exact hm)⟩

theorem filesStay_frame {own' up : Path → Prop} {a b : FS} (h : Frame own' up a b) (ho : ∀ q, own q → ¬ own' q) (hm : ¬ own' m)
    (hu : ¬ up m) : FilesStay own m a b := by
  refine ⟨fun p i hp => ?_, fun i hi => h.data i (ho _ hi), ?_⟩
  · rcases h.node p (ho p hp) with e | ⟨_, e1, e2⟩
    · rw [e]
    · rw [e1, e2]; simp
  · rcases h.node m hm with e | ⟨e, _⟩
    · exact e
    · exact (hu e).elim

theorem filesStay_rmdir {fs : FS} {p : OsPath} (hm : p.comps ≠ m) (f : Fault) : FilesStay own m fs (execF cfg fs (.rmdir p) f).2 := by
  have off : ∀ {q}, q ≠ p.comps → (fs.erase p.comps).lookup q = fs.lookup q := by
    intro q e
    rw [lookup_erase]
    split
    · rename_i e'; subst e'; simp [FS.lookup]
    · rfl
  have key : FilesStay own m fs (exec cfg fs (.rmdir p)).2 := by
    simp only [exec]
    split
    · rename_i hd
      split
      · refine ⟨fun q i _ => ?_, fun _ _ => rfl, ?_⟩
        · by_cases e : q = p.comps
          · subst e
            rename_i hne _
            rw [lookup_erase, if_neg hne.1, if_pos rfl, hd]; simp
          · rw [off e]
        · exact off (Ne.symm hm)
      · exact .refl _
    · exact .refl _
  cases f with
  | none => exact key
  | before => exact .refl _
  | after => exact key
  | during n rs => exact .refl _

theorem meta_not_legal {b k b' : Bytes} (hb : LegalBucket b') : metadataName b k ≠ b' := by
  rintro rfl
  have := hb.first 46 _ rfl
  revert this
  simp [LowerOrDigit]

theorem meta_not_above {b k b' : Bytes} {cs : List Bytes} (hb : LegalBucket b') : ¬ metaFile cfg b k <+: cfg.root ++ b' :: cs := by
  intro h
  rw [metaFile, List.prefix_append_right_inj] at h
  exact meta_not_legal (b := b) (k := k) hb (List.cons_prefix_cons.mp h).1

/-- a request for a folder key leaves all files alone -/
theorem folder_stays {b k : Bytes} {o : Op} (ho : OnFolder o) {fs : FS} (hw : WF fs) {c : Call} (hc : (opPerm cfg o).ok c) (f : Fault) :
    FilesStay own (metaFile cfg b k) fs (execF cfg fs c f).2 := by
  have slash : ∀ {b' k'}, FolderName b' k' → endsWithByte k' 47 = true := by
    rintro b' k' ⟨_, k'', _, _, rfl⟩
    exact endsWithByte_iff.mpr ⟨k'', rfl⟩
  have quiet : writeOk (fun _ => False) (fun q => q ≠ metaFile cfg b k) c → FilesStay own (metaFile cfg b k) fs (execF cfg fs c f).2 :=
    fun h => filesStay_frame (execF_frame hw h f) (fun _ _ h => h) (fun h => h) (fun h => h rfl)
  cases o with
  | putObject i =>
    have he := slash ho
    obtain ⟨hl, k', cs, hk, ek⟩ := ho
    obtain ⟨x, hp⟩ := objectPath_folder (cfg := cfg) ((C02_bucket_name_rule _).mpr hl) hk
    rw [← ek] at hp
    have hwr : ∀ p, ¬ (opPerm cfg (.putObject i)).wr p := by
      intro p h
      have := h.1
      rw [he] at this; cases this
    refine quiet ?_
    cases c with
    | mkdir p =>
      obtain ⟨p', ⟨y, hy, hyp⟩, hq⟩ := hc
      rw [hp] at hy
      cases hy
      rw [he, if_pos rfl, hyp] at hq
      refine .inl ?_
      rintro rfl
      exact meta_not_above hl hq
    | create p => exact hwr _ hc
    | writeAt i => exact hwr _ hc
    | unlink p => exact (hc : False).elim
    | rmdir p => exact (hc : False).elim
    | rmtree p => exact (hc : False).elim
    | _ => trivial
  | deleteObject b' k' =>
    have he := slash ho
    obtain ⟨hl, k'', cs, hk, ek⟩ := ho
    obtain ⟨x, hp⟩ := objectPath_folder (cfg := cfg) ((C02_bucket_name_rule _).mpr hl) hk
    rw [← ek] at hp
    cases c with
    | rmdir p =>
      obtain ⟨_, y, hy, hyp⟩ := hc
      rw [hp] at hy
      cases hy
      refine filesStay_rmdir ?_ f
      rw [hyp]
      intro e
      exact meta_not_above (cfg := cfg) (b := b) (k := k) (cs := cs) hl (by rw [← e]; exact List.prefix_refl _)
    | mkdir p => exact (hc : False).elim
    | create p => exact (hc : False).elim
    | writeAt i => exact (hc : False).elim
    | unlink p =>
      have := (show endsWithByte k' 47 = false from hc.1)
      rw [he] at this; cases this
    | rmtree p => exact (hc : False).elim
    | _ => exact quiet trivial
  | _ => exact ho.elim

/-! ### copies -/

section
variable {R : FS → FS → Prop}

/-- what other requests and the own calls leave alone -/
theorem wpF_inv {α : Type} (hR : Rely R) {J : FS → Prop} (hJR : ∀ a b, WF a → WF b → R a b → J a → J b) {ok : Call → Prop}
    (hJ : ∀ fs c f, WF fs → J fs → ok c → J (execF cfg fs c f).2) {p : Prog α} (hs : Safe ok (fun _ => True) p) :
    ∀ {fs : FS}, WF fs → J fs → wpF cfg R (fun _ fs' => J fs') p fs := by
  induction p with
  | ret a => exact fun hw h fs' hr hw' => hJR _ _ hw hw' hr h
  | sys c k ih =>
    intro fs hw h fs' f hr hw'
    exact ih _ (hs.2 _ (execF_respOk hw' c f)) (execF_wf hw' c f) (hJ _ _ _ hw' (hJR _ _ hw hw' hr h) hs.1)
  | _ => exact fun _ _ => trivial

theorem openRead_file {fs : FS} {p : OsPath} {i : Ino} (h : (exec cfg fs (.openRead p)).1 = some (.file i)) :
    Has fs p.comps i (fs.data i) ∧ p.slash = false := by
  simp only [exec, FS.at] at h
  cases hl : fs.lookup p.comps with
  | none => rw [hl] at h; simp at h
  | some x =>
    rw [hl] at h
    cases x with
    | dir => simp at h
    | file j =>
      by_cases hs : p.slash = true
      · simp [hs] at h
      · simp only [hs, Bool.false_eq_true, if_false, Option.some.injEq, Handle.file.injEq] at h
        subst h
        exact ⟨⟨hl, rfl⟩, by simpa using hs⟩

theorem wpF_copyFile (hk : ∀ a b, WF a → WF b → R a b → KeepFiles own a b) {src dst : OsPath} (hs : own src.comps)
    (hd : own dst.comps) (hne : src.comps ≠ dst.comps) {fs : FS} :
    wpF cfg R (fun _ fs' => ∃ fs1 i j c, R fs fs1 ∧ WF fs1 ∧ Has fs1 src.comps i c ∧ Has fs' src.comps i c ∧ Has fs' dst.comps j c)
      (copyFile src dst) fs := by
  simp only [copyFile, bind_eq, pure_eq]
  refine wpF_call trivial fun fs1 hr1 hw1 => ?_
  cases hc : (exec cfg fs1 (.openRead src)).1 with
  | none => trivial
  | some h =>
    cases h with
    | dir => trivial
    | file i =>
      obtain ⟨h1, hsl⟩ := openRead_file hc
      show wpF _ _ _ ((call _).bind _) fs1
      refine wpF_call trivial fun fs2 hr2 hw2 => ?_
      have h2 := hk _ _ hw1 hw2 hr2 _ _ _ hs h1
      cases hc2 : (exec cfg fs2 (.create dst)).1 with
      | none => trivial
      | some j =>
        have hj := (exec_create_snd hc2).1
        have h3 : Has (exec cfg fs2 (.create dst)).2 src.comps i (fs1.data i) := exec_write_keep hw2 hne (c := .create _) rfl h2
        have hw3 := exec_wf cfg hw2 (.create dst)
        show wpF _ _ _ ((call _).bind _) _
        refine wpF_call trivial fun fs4 hr4 hw4 => ?_
        have h4 := hk _ _ hw3 hw4 hr4 _ _ _ hs h3
        have hj4 := hk _ _ hw3 hw4 hr4 _ _ _ hd hj
        show wpF _ _ _ ((call (.writeAt j 0 (fs4.data i))).bind _) fs4
        refine wpF_call trivial fun fs5 hr5 hw5 => ?_
        have h5 := hk _ _ hw4 hw5 hr5 _ _ _ hs h4
        have hj5 := hk _ _ hw4 hw5 hr5 _ _ _ hd hj4
        have hjp := (hw5.ino _ _ hj5.node).1
        have h6 : Has (exec cfg fs5 (.writeAt j 0 (fs4.data i))).2 src.comps i (fs1.data i) :=
          exec_write_keep hw5 hne (c := .writeAt j 0 _) hjp h5
        have hj6 := hj5.write (cfg := cfg) 0 (fs4.data i)
        rw [splice_nil, h4.data] at hj6
        have hw6 := exec_wf cfg hw5 (.writeAt j 0 (fs4.data i))
        intro fs7 hr7 hw7
        refine ⟨fs1, i, j, fs1.data i, hr1, hw1, h1, hk _ _ hw6 hw7 hr7 _ _ _ hs h6, hk _ _ hw6 hw7 hr7 _ _ _ hd ?_⟩
        rw [← h4.data] at hj6 ⊢
        exact hj6

/-- a copy from `P` to `Q` beside requests that keep the files there -/
theorem wpF_copyObject (hR : Rely R) (hk : ∀ a b, WF a → WF b → R a b → KeepFiles own a b) {b k s sb sk : Bytes} {P Q : Path}
    (hs : copySourceFromHeader s = .ok (sb, sk)) (hp : objectPath cfg sb sk = some ⟨P, false⟩) (hq : objectPath cfg b k = some ⟨Q, false⟩)
    (hP : own P) (hQ : own Q) (hne : P ≠ Q) (hPm : P ≠ metaFile cfg b k) (hQm : Q ≠ metaFile cfg b k) {fs : FS} (hw : WF fs) :
    wpF cfg R (fun e fs' => ∃ fs1 i j c, R fs fs1 ∧ WF fs1 ∧ Has fs1 P i c ∧ Has fs' P i c ∧ Has fs' Q j c ∧ e = quoted (ext.md5hex c))
      (copyObject cfg ext b k s) fs := by
  simp only [copyObject, bind_eq, pure_eq, hs, hp, hq]
  show wpF _ _ _ ((call _).bind _) _
  refine wpF_call trivial fun fs1 hr1 hw1 => ?_
  cases hc : (exec cfg fs1 (.stat ⟨P, false⟩)).1 with
  | none => trivial
  | some st =>
    show wpF _ _ _ ((copyFile _ _).bind _) fs1
    refine wpF_bind hR hw1 (wpF_mono ?_ (wpF_copyFile hk (src := ⟨P, false⟩) (dst := ⟨Q, false⟩) hP hQ hne))
    rintro _ fs2 hw2 ⟨fs0, i, j, c, hr0, hw0, h0, hi, hj⟩
    have keep : ∀ a b, WF a → WF b → R a b → (Has a P i c ∧ Has a Q j c) → (Has b P i c ∧ Has b Q j c) :=
      fun a b hwa hwb hr h => ⟨hk _ _ hwa hwb hr _ _ _ hP h.1, hk _ _ hwa hwb hr _ _ _ hQ h.2⟩
    have sum : ∀ fs3, WF fs3 → (Has fs3 P i c ∧ Has fs3 Q j c) →
        wpF cfg R (fun e fs' => ∃ fs1 i j c, R fs fs1 ∧ WF fs1 ∧ Has fs1 P i c ∧ Has fs' P i c ∧ Has fs' Q j c ∧ e = quoted (ext.md5hex c))
          ((getMd5Sum cfg ext sb sk).bind fun sum => .ret (quoted sum)) fs3 := by
      intro fs3 hw3 h3
      simp only [getMd5Sum, bind_eq, pure_eq, hp]
      show wpF _ _ _ ((call _).bind _) _
      refine wpF_call trivial fun fs4 hr4 hw4 => ?_
      have h4 := keep _ _ hw3 hw4 hr4 h3
      have ho : (exec cfg fs4 (.openRead ⟨P, false⟩)).1 = some (.file i) := by
        simp [exec, FS.at, h4.1.node]
      rw [ho]
      show wpF _ _ _ ((call (.readAll (.file i))).bind _) fs4
      refine wpF_call trivial fun fs5 hr5 hw5 => ?_
      have h5 := keep _ _ hw4 hw5 hr5 h4
      intro fs6 hr6 hw6
      have h6 := keep _ _ hw5 hw6 hr6 h5
      exact ⟨fs0, i, j, c, hR.trans _ _ _ hr1 hr0, hw0, h0, h6.1, h6.2, by rw [h5.1.data]⟩
    simp only [metadataPath_eq]
    show wpF _ _ _ ((exists_ _).bind _) _
    intro fs3 f hr3 hw3
    have h3 := keep _ _ hw2 hw3 hr3 ⟨hi, hj⟩
    have hq3 : (execF cfg fs3 (.stat ⟨cfg.root ++ [metadataName sb sk], false⟩) f).2 = fs3 := by
      cases f <;> rfl
    rw [hq3]
    generalize (execF cfg fs3 (.stat ⟨cfg.root ++ [metadataName sb sk], false⟩) f).1 = r
    cases r with
    | none => exact sum fs3 hw3 h3
    | some x =>
      show wpF _ _ _ ((copyFile ⟨cfg.root ++ [metadataName sb sk], false⟩ ⟨cfg.root ++ [metadataName b k], false⟩).bind _) fs3
      refine wpF_bind hR hw3 (wpF_mono (fun _ fs4 hw4 h4 => sum fs4 hw4 h4) ?_)
      refine wpF_inv hR keep (ok := ({ rd := fun _ => True, wr := fun q => q = metaFile cfg b k } : Perm).ok) ?_ (safe_copyFile trivial rfl) hw3 h3
      intro fs4 c' f' hw4 h4 hc'
      have hf : Frame (fun q => q = metaFile cfg b k) (fun _ => False) fs4 (execF cfg fs4 c' f').2 := by
        refine execF_frame hw4 ?_ f'
        cases c' with
        | mkdir p => exact (hc' : False).elim
        | create p => exact hc'
        | writeAt i => exact hc'
        | unlink p => exact (hc' : False).elim
        | rmdir p => exact (hc' : False).elim
        | rmtree p => exact (hc' : False).elim
        | _ => trivial
      exact ⟨hf.keep hw4 hPm h4.1, hf.keep hw4 hQm h4.2⟩

/-! ### completions -/

/-- the loop of a completion beside requests that keep the object and the parts -/
theorem wpF_completeLoop {u : Bytes} (hu : (47 : UInt8) ∉ u) {ino : Ino} {O : Path} (hO : ∀ m, O ≠ partFile cfg u m)
    (hk : ∀ a b, WF a → WF b → R a b → KeepFiles (fun q => q = O ∨ ∃ m, q = partFile cfg u m) a b) (contents : List Bytes) :
    ∀ {cnt : Int} {fs : FS} {c : Bytes}, WF fs → Has fs O ino c →
      (∀ (j : Nat) x, contents[j]? = some x → ∃ i, Has fs (partFile cfg u (cnt + (j + 1))) i x) →
      wpF cfg R (fun _ fs' => Has fs' O ino (c ++ contents.flatten)) (completeLoop cfg u ino cnt c.length (numbers cnt contents.length)) fs := by
  induction contents with
  | nil =>
    intro cnt fs c hw h _ fs' hr hw'
    simpa using hk _ _ hw hw' hr _ _ _ (.inl rfl) h
  | cons x contents ih =>
    intro cnt fs c hw h hp
    simp only [List.length_cons, numbers, completeLoop, bind_eq]
    refine wpF_orInternal fun n hn => ?_
    cases hn
    rw [if_neg (by simp)]
    refine wpF_orInternal fun pp hpp => ?_
    rw [partPath_eq cfg hu] at hpp
    cases hpp
    obtain ⟨i, hi⟩ := hp 0 x rfl
    rw [show cnt + ((0 : Nat) + 1 : Int) = cnt + 1 by omega] at hi
    refine wpF_call trivial fun fs1 hr1 hw1 => ?_
    have keep1 : ∀ {q j d}, (q = O ∨ ∃ m, q = partFile cfg u m) → Has fs q j d → Has fs1 q j d := fun hq => hk _ _ hw hw1 hr1 _ _ _ hq
    have ho : exec cfg fs1 (.openRead ⟨cfg.root ++ [partName u (cnt + 1)], false⟩) = (some (.file i), fs1) := by
      have : fs1.lookup (cfg.root ++ [partName u (cnt + 1)]) = some (.file i) := (keep1 (.inr ⟨_, rfl⟩) hi).node
      simp [exec, FS.at, this]
    rw [ho]
    refine wpF_orInternal fun hd hhd => ?_
    cases hhd
    refine wpF_call trivial fun fs2 hr2 hw2 => ?_
    have keep2 : ∀ {q j d}, (q = O ∨ ∃ m, q = partFile cfg u m) → Has fs q j d → Has fs2 q j d := fun hq hh =>
      hk _ _ hw1 hw2 hr2 _ _ _ hq (keep1 hq hh)
    show wpF cfg R _ ((orInternal (some (fs2.data i))).bind _) fs2
    refine wpF_orInternal fun content hcontent => ?_
    cases hcontent
    rw [(keep2 (.inr ⟨_, rfl⟩) hi).data]
    refine wpF_call trivial fun fs3 hr3 hw3 => ?_
    have keep3 : ∀ {q j d}, (q = O ∨ ∃ m, q = partFile cfg u m) → Has fs q j d → Has fs3 q j d := fun hq hh =>
      hk _ _ hw2 hw3 hr3 _ _ _ hq (keep2 hq hh)
    have hino : ino.path = O := hw.of_file h.node
    have h4 := (keep3 (.inl rfl) h).write (cfg := cfg) c.length x
    rw [splice_end] at h4
    have hw4 := exec_wf cfg hw3 (.writeAt ino c.length x)
    have keep4 : ∀ {m j d}, Has fs (partFile cfg u m) j d → Has (exec cfg fs3 (.writeAt ino c.length x)).2 (partFile cfg u m) j d :=
      fun {m _ _} hh => exec_write_keep hw3 (fun e => hO m e.symm) (c := .writeAt ino _ _) hino (keep3 (.inr ⟨_, rfl⟩) hh)
    show wpF cfg R _ ((call (.unlink ⟨cfg.root ++ [partName u (cnt + 1)], false⟩)).bind _) (exec cfg fs3 (.writeAt ino c.length x)).2
    refine wpF_call trivial fun fs5 hr5 hw5 => ?_
    have h5 := hk _ _ hw4 hw5 hr5 _ _ _ (.inl rfl) h4
    have h6 : Has (exec cfg fs5 (.unlink ⟨cfg.root ++ [partName u (cnt + 1)], false⟩)).2 O ino (c ++ x) :=
      exec_write_keep hw5 (hO (cnt + 1)) (c := .unlink _) rfl h5
    have hw6 := exec_wf cfg hw5 (.unlink ⟨cfg.root ++ [partName u (cnt + 1)], false⟩)
    split
    · rw [show c.length + x.length = (c ++ x).length by simp]
      refine wpF_mono (fun _ fs' _ h' => ?_) (ih (c := c ++ x) hw6 h6 ?_)
      · simpa using h'
      · intro j y hj
        obtain ⟨i', hi'⟩ := hp (j + 1) y (by simpa using hj)
        rw [show cnt + ((j + 1 : Nat) + 1 : Int) = cnt + 1 + (j + 1) by omega] at hi'
        refine ⟨i', exec_write_keep (M := partFile cfg u (cnt + 1)) hw5 ?_ (c := .unlink _) rfl
          (hk _ _ hw4 hw5 hr5 _ _ _ (.inr ⟨_, rfl⟩) (keep4 hi'))⟩
        intro e
        have := (partFile_inj e).2
        omega
    · trivial

/-- a completion beside requests that keep the object and the parts -/
theorem wpF_complete (hR : Rely R) {b k u : Bytes} (hu : (47 : UInt8) ∉ u) {O : Path} (ho : objectPath cfg b k = some ⟨O, false⟩)
    (hO : ∀ m, O ≠ partFile cfg u m) (hk : ∀ a b, WF a → WF b → R a b → KeepFiles (fun q => q = O ∨ ∃ m, q = partFile cfg u m) a b)
    {contents : List Bytes} {fs : FS} (hw : WF fs)
    (hp : ∀ (j : Nat) x, contents[j]? = some x → ∃ i, Has fs (partFile cfg u (j + 1)) i x) :
    wpF cfg R (fun e fs' => ∃ i, Has fs' O i contents.flatten ∧ e = quoted (ext.md5hex contents.flatten))
      (completeMultipartUpload cfg ext b k u (some (numbers 0 contents.length))) fs := by
  simp only [completeMultipartUpload, bind_eq, pure_eq, ho]
  show wpF _ _ _ ((call _).bind _) _
  refine wpF_call trivial fun fs1 hr1 hw1 => wpF_orInternal fun ino hc => ?_
  have hw2 := exec_wf cfg hw1 (.create ⟨O, false⟩)
  refine wpF_bind hR hw2 (wpF_mono ?_ (wpF_completeLoop hu hO hk contents (c := []) hw2 (exec_create_snd hc).1 ?_))
  · intro _ fs3 hw3 h3
    rw [List.nil_append] at h3
    refine wpF_call trivial fun fs4 hr4 hw4 => wpF_orInternal fun _ _ => ?_
    have h4 := hk _ _ hw3 hw4 hr4 _ _ _ (.inl rfl) h3
    show wpF _ _ _ ((getMd5Sum cfg ext b k).bind _) fs4
    simp only [getMd5Sum, bind_eq, pure_eq, ho]
    show wpF _ _ _ ((call _).bind _) _
    refine wpF_call trivial fun fs5 hr5 hw5 => ?_
    have h5 := hk _ _ hw4 hw5 hr5 _ _ _ (.inl rfl) h4
    have hx : exec cfg fs5 (.openRead ⟨O, false⟩) = (some (.file ino), fs5) := by
      simp [exec, FS.at, h5.node]
    rw [hx]
    show wpF _ _ _ ((call (.readAll (.file ino))).bind _) fs5
    refine wpF_call trivial fun fs6 hr6 hw6 => ?_
    have h6 := hk _ _ hw5 hw6 hr6 _ _ _ (.inl rfl) h5
    intro fs7 hr7 hw7
    exact ⟨ino, hk _ _ hw6 hw7 hr7 _ _ _ (.inl rfl) h6, by rw [h6.data]⟩
  · intro j x hj
    obtain ⟨i, hi⟩ := hp j x hj
    rw [show (0 : Int) + (j + 1) = j + 1 by omega]
    exact ⟨i, exec_write_keep (M := O) hw1 (fun e => hO _ e.symm) (c := .create _) rfl (hk _ _ hw hw1 hr1 _ _ _ (.inr ⟨_, rfl⟩) hi)⟩
end

end S3
