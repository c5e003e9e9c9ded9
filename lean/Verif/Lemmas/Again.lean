import Verif.Props.Folder
import Verif.Props.Etag
import Verif.Props.Fault
/-! Running an operation again in a file tree where its work has been done already. -/
namespace S3
open Spec

variable {cfg : Cfg} {ext : Ext}

theorem setData_self {fs : FS} {i : Ino} {c : Bytes} (h : fs.data i = c) : fs.setData i c = fs := by
  cases fs with
  | mk nodes data gen =>
    simp only [FS.setData, FS.mk.injEq, true_and, and_true]
    funext j
    split
    · rename_i e; rw [e]; exact h.symm
    · rfl

theorem setData_twice (fs : FS) (i : Ino) (a b : Bytes) : (fs.setData i a).setData i b = fs.setData i b := by
  simp only [FS.setData, FS.mk.injEq, true_and, and_true]
  funext j
  split <;> rfl

theorem data_set_self (fs : FS) (i : Ino) (a : Bytes) : (fs.setData i a).data i = a := by simp [FS.setData]

theorem node_names {fs : FS} (hw : WF fs) {P : Path} {n : Node} (h : fs.lookup P = some n) :
    ∀ c ∈ P, nameOk c = true := by
  by_cases hP : P = []
  · subst hP; intro c hc; cases hc
  · simp only [FS.lookup, if_neg hP] at h
    cases hf : fs.nodes.find? (fun e => e.1 == P) with
    | none => rw [hf] at h; cases h
    | some e =>
      have h1 := List.find?_some hf
      have h2 := (hw.names e (List.mem_of_find?_eq_some hf)).2
      rw [eq_of_beq h1] at h2
      exact h2

theorem node_parent {fs : FS} (hw : WF fs) {P : Path} {n : Node} (h : fs.lookup P = some n) :
    fs.lookup P.dropLast = some .dir := by
  by_cases hP : P = []
  · subst hP; exact lookup_nil _
  · simp only [FS.lookup, if_neg hP] at h
    cases hf : fs.nodes.find? (fun e => e.1 == P) with
    | none => rw [hf] at h; cases h
    | some e =>
      have h1 := List.find?_some hf
      have h2 := hw.parent e (List.mem_of_find?_eq_some hf)
      rw [eq_of_beq h1] at h2
      exact h2

/-- opening a file that exists for writing empties it -/
theorem create_again {fs : FS} (hw : WF fs) {p : OsPath} {i : Ino} (h : fs.lookup p.comps = some (.file i))
    (hs : p.slash = false) : exec cfg fs (.create p) = (some i, fs.setData i []) := by
  have hn := noNul_of (node_names hw h)
  simp only [exec, hn, hs, h]
  cases hl : p.comps.getLast? with
  | none =>
    rw [List.getLast?_eq_none_iff.mp hl, lookup_nil] at h
    cases h
  | some c => rfl

theorem requireDir_again {fs : FS} {p : Path} (h : fs.lookup p = some .dir) :
    run cfg (requireDir p) fs = (.ok (), fs) := by
  simp only [requireDir, bind_eq, pure_eq]
  rw [run_call1]
  simp [exec, FS.at, h]

theorem createDirAll_again {fs : FS} (hw : WF fs) {p : Path} (h : fs.lookup p = some .dir) :
    run cfg (createDirAll p) fs = (.ok (), fs) := by
  unfold createDirAll
  cases hr : p.reverse with
  | nil => rfl
  | cons c up =>
    have hp : (c :: up).reverse = p := by rw [← hr, List.reverse_reverse]
    have hne : p.getLast? = some c := by rw [← hp]; simp
    simp only [createDirAllRev, hp, bind_eq, pure_eq]
    rw [run_call1]
    have : exec cfg fs (.mkdir (c :: up).reverse) = (.failed, fs) := by
      rw [hp]
      simp only [exec, noNul_of (node_names hw h), hne, node_parent hw h, h]
      rfl
    rw [this]
    exact requireDir_again h

theorem copyBytes_again {i : Ino} (body : Body) (hu : unbroken body) :
    ∀ (c : Bytes) (fs : FS), fs.data i = c →
      run cfg (copyBytes i c.length body) fs = (.ok (received body), fs.setData i (c ++ received body)) := by
  induction body with
  | nil =>
    intro c fs h
    simp only [received, copyBytes, List.append_nil, setData_self h]
    rfl
  | cons x rest ih =>
    intro c fs h
    cases x with
    | none => exact absurd hu (by simp [unbroken])
    | some b =>
      have hu' : unbroken rest := by
        simp only [unbroken] at hu ⊢
        exact fun hn => hu (List.mem_cons_of_mem _ hn)
      simp only [copyBytes, bind_eq, pure_eq]
      by_cases hb : b = []
      · subst hb
        rw [if_pos rfl, ih hu' c fs h]
        simp [received]
      · rw [if_neg hb, run_call1]
        have he : exec cfg fs (.writeAt i c.length b) = (true, fs.setData i (c ++ b)) := by
          simp only [exec, h, splice_end]
        rw [he]
        simp only [if_true]
        rw [run_bind]
        have := ih hu' (c ++ b) (fs.setData i (c ++ b)) (data_set_self ..)
        rw [List.length_append] at this
        rw [this, setData_twice]
        simp [Outcome.andThen, run, received]

/-- writing a file again that holds these bytes -/
theorem rewrite_again {fs : FS} {i : Ino} {body : Body} (hu : unbroken body) (h : fs.data i = received body) :
    run cfg (copyBytes i 0 body) (fs.setData i []) = (.ok (received body), fs) := by
  have := copyBytes_again (cfg := cfg) body hu [] (fs.setData i []) (data_set_self ..)
  rw [setData_twice, List.nil_append, setData_self h] at this
  exact this

theorem saveMetadata_again {fs : FS} (hw : WF fs) {b k : Bytes} {m : Meta}
    (h : contentAt fs (metaFile cfg b k) = some (ext.metaEnc m)) :
    run cfg (saveMetadata cfg ext b k m) fs = (.ok (), fs) := by
  simp only [saveMetadata, bind_eq, pure_eq, metadataPath_eq, run_orInternal_some]
  rw [run_call1]
  simp only [contentAt] at h
  split at h
  · rename_i j hj
    rw [create_again hw (p := ⟨cfg.root ++ [metadataName b k], false⟩) hj rfl]
    simp only [run_orInternal_some]
    rw [run_call1]
    have he : exec cfg (fs.setData j []) (.writeAt j 0 (ext.metaEnc m)) = (true, fs) := by
      simp only [exec, data_set_self, setData_twice]
      have : splice [] 0 (ext.metaEnc m) = ext.metaEnc m := splice_end [] _
      rw [this, setData_self (Option.some.inj h)]
    rw [he]
    rfl
  · cases h

/-- what a PUT does in a file tree in which the object is stored already as the request asks -/
theorem put_again {i : PutInput} (hi : ObjectPut i) {fs fs' : FS} (hw : WF fs) {e : Option Bytes}
    (h : run cfg (putObject cfg ext i) fs = (.ok e, fs')) :
    run cfg (putObject cfg ext i) fs' = (.ok e, fs') := by
  have hw' : WF fs' := run_wf_of h hw
  have hd : PutDone cfg ext i e fs' := by
    have := wp_run hw (putObject_wp (cfg := cfg) (ext := ext) rely_eq (own := fun _ => True)
      (fun a b _ _ h => by subst h; exact fun _ _ _ _ h => h) i hi.key hi.bucket (fun _ _ => trivial) trivial hw)
    rw [h] at this
    exact this e rfl
  obtain ⟨body, hb, hu, hst, rfl⟩ := hd.body
  obtain ⟨p, j, hp, ha, hdat⟩ := stored_some.mp hst
  obtain ⟨hl, hs⟩ := at_file ha
  simp only [putObject, hb, hi.key, hp, bind_eq, pure_eq] at h ⊢
  by_cases hsc : i.storageClass.all storageClassOk = true
  · simp only [hsc, Bool.not_true, Bool.false_eq_true, if_false, run_orInternal_some] at h ⊢
    have hne : p.comps ≠ [] := by
      intro e
      rw [e, lookup_nil] at hl
      cases hl
    rw [if_pos hne, run_bind, createDirAll_again hw' (node_parent hw' hl)]
    simp only [Outcome.andThen]
    rw [run_call1, create_again hw' hl hs]
    simp only [run_orInternal_some]
    rw [run_bind, rewrite_again hu hdat]
    simp only [Outcome.andThen]
    rw [run_bind]
    have : run cfg (saveOptional cfg ext i.bucket i.key i.metadata) fs' = (.ok (), fs') := by
      cases hm : i.metadata with
      | none => rfl
      | some m => exact saveMetadata_again hw' (hd.md m hm)
    rw [this]
    rfl
  · simp only [Bool.not_eq_true] at hsc
    rw [hsc] at h
    cases h

/-- creating a directory object again -/
theorem put_folder_again {i : PutInput} (hk : endsWithByte i.key 47 = true) {fs fs' : FS} (hw : WF fs) {e : Option Bytes}
    (h : run cfg (putObject cfg ext i) fs = (.ok e, fs')) :
    run cfg (putObject cfg ext i) fs' = (.ok e, fs') := by
  have hw' : WF fs' := run_wf_of h hw
  simp only [putObject, bind_eq, pure_eq] at h ⊢
  split at h
  · cases h
  rename_i hsc
  rw [if_neg hsc]
  cases hbody : i.body with
  | none => rw [hbody] at h; cases h
  | some body =>
  rw [hbody] at h
  simp only [hk, if_true] at h ⊢
  split at h
  · rename_i hl
    rw [if_pos hl]
    cases hp : objectPath cfg i.bucket i.key with
    | none => rw [hp] at h; cases h
    | some p =>
      rw [hp] at h
      simp only [run_orInternal_some] at h ⊢
      obtain ⟨_, fs1, h1, h2⟩ := run_bind_ok h
      have hd := createDirAllRev_done _ h1
      rw [List.reverse_reverse] at hd
      simp only [run, Prod.mk.injEq, Outcome.ok.injEq] at h2
      obtain ⟨rfl, rfl⟩ := h2
      rw [run_bind, createDirAll_again hw' hd]
      rfl
  · cases h

/-- uploading a part again -/
theorem part_again {u : Bytes} {n : Int} {body : Option Body} {fs fs' : FS} (hw : WF fs) {e : Bytes}
    (h : run cfg (uploadPart cfg ext u n body) fs = (.ok e, fs')) :
    run cfg (uploadPart cfg ext u n body) fs' = (.ok e, fs') := by
  have hw' : WF fs' := run_wf_of h hw
  cases body with
  | none => cases h
  | some body =>
    simp only [uploadPart, bind_eq, pure_eq] at h ⊢
    cases hp : partPath cfg u n with
    | none => rw [hp] at h; cases h
    | some p =>
      rw [hp] at h
      simp only [run_orInternal_some] at h ⊢
      rw [run_call1] at h ⊢
      cases hc : (exec cfg fs (.create p)).1 with
      | none => rw [hc] at h; cases h
      | some j =>
        obtain ⟨h0, hs⟩ := exec_create_snd hc
        rw [hc] at h
        simp only [run_orInternal_some] at h
        obtain ⟨content, fs1, h1, h2⟩ := run_bind_ok h
        simp only [run, Prod.mk.injEq, Outcome.ok.injEq] at h2
        obtain ⟨rfl, rfl⟩ := h2
        have hw1 := exec_wf cfg hw (.create p)
        have := wp_run hw1 (copyBytes_wp (cfg := cfg) rely_eq (own := fun _ => True)
          (fun a b _ _ h => by subst h; exact fun _ _ _ _ h => h) (P := p.comps) trivial body hw1 h0)
        rw [List.length_nil, h1, List.nil_append] at this
        obtain ⟨h3, h4⟩ := this
        rcases h4 with ⟨hu, ho⟩ | ⟨_, ho⟩
        · have ho' : content = received body := Outcome.ok.inj ho
          subst ho'
          rw [create_again hw' h3.node hs]
          simp only [run_orInternal_some]
          rw [run_bind, rewrite_again hu h3.data]
          rfl
        · cases ho

/-- copying a file again -/
theorem copyFile_again {src dst : OsPath} {fs : FS} (hw : WF fs) {i j : Ino} (ha : fs.at src = some (.file i))
    (hd : fs.lookup dst.comps = some (.file j)) (hs : dst.slash = false)
    (hij : fs.data j = if i = j then [] else fs.data i) :
    run cfg (copyFile src dst) fs = (.ok (), fs) := by
  simp only [copyFile, bind_eq, pure_eq]
  rw [run_call1]
  have h1 : exec cfg fs (.openRead src) = (some (.file i), fs) := by simp [exec, ha]
  rw [h1]
  simp only [run_orInternal_some]
  rw [run_call1, create_again hw hd hs]
  simp only [run_orInternal_some]
  rw [run_call1]
  have h2 : exec cfg (fs.setData j []) (.readAll (.file i)) = (some (fs.data j), fs.setData j []) := by
    simp only [exec, hij]
    simp only [FS.setData]
  rw [h2]
  simp only [run_orInternal_some]
  rw [run_call1]
  have h3 : exec cfg (fs.setData j []) (.writeAt j 0 (fs.data j)) = (true, fs) := by
    simp only [exec, data_set_self, setData_twice]
    have : splice [] 0 (fs.data j) = fs.data j := splice_end [] _
    rw [this, setData_self rfl]
  rw [h3]
  rfl

theorem same_ino {fs : FS} (hw : WF fs) {p q : Path} {i : Ino} (h : fs.lookup p = some (.file i))
    (h' : fs.lookup q = some (.file i)) : p = q := by
  rw [← (hw.ino _ _ h).1, ← (hw.ino _ _ h').1]

/-- the files of a copy that has been made -/
theorem copied_files {src dst : OsPath} {fs fs' : FS} (hw : WF fs) (h : run cfg (copyFile src dst) fs = (.ok (), fs')) :
    ∃ i j c, src.slash = false ∧ dst.slash = false ∧ Has fs' src.comps i c ∧ Has fs' dst.comps j c ∧
      (src.comps = dst.comps → c = []) := by
  obtain ⟨i, hi, hds, ⟨j, hj⟩, hfr⟩ := copyFile_ok hw h
  by_cases hsd : src.comps = dst.comps
  · rw [if_pos hsd] at hj
    exact ⟨j, j, [], (at_file hi).2, hds, by rw [hsd]; exact hj, hj, fun _ => rfl⟩
  · rw [if_neg hsd] at hj
    exact ⟨i, j, _, (at_file hi).2, hds, hfr.keep hw hsd ⟨(at_file hi).1, rfl⟩, hj, fun h => absurd h hsd⟩

theorem copied_again {src dst : OsPath} {fs : FS} (hw : WF fs) {i j : Ino} {c : Bytes} (hss : src.slash = false)
    (hds : dst.slash = false) (hi : Has fs src.comps i c) (hj : Has fs dst.comps j c)
    (hc : src.comps = dst.comps → c = []) : run cfg (copyFile src dst) fs = (.ok (), fs) := by
  refine copyFile_again hw (i := i) (by simp [FS.at, hi.node, hss]) hj.node hds ?_
  split
  · rename_i e
    subst e
    rw [hj.data, hc (same_ino hw hi.node hj.node)]
  · rw [hj.data, hi.data]

/-- copying an object again -/
theorem copy_again {b k s sb sk : Bytes} (hb : checkBucketName b = true)
    (hs : copySourceFromHeader s = .ok (sb, sk)) (hsm : ∀ q, objP cfg sb sk q → q ≠ metaFile cfg b k)
    {fs fs' : FS} (hw : WF fs) {e : Bytes} (h : run cfg (copyObject cfg ext b k s) fs = (.ok e, fs')) :
    run cfg (copyObject cfg ext b k s) fs' = (.ok e, fs') := by
  have hw' : WF fs' := run_wf_of h hw
  simp only [copyObject, hs, bind_eq, pure_eq] at h ⊢
  cases hsp : objectPath cfg sb sk with
  | none => rw [hsp] at h; cases h
  | some src =>
    cases hdp : objectPath cfg b k with
    | none => rw [hsp, hdp] at h; cases h
    | some dst =>
      rw [hsp, hdp] at h
      simp only [run_orInternal_some] at h ⊢
      rw [run_stat_bind] at h ⊢
      cases ha : fs.at src with
      | none => rw [ha] at h; cases h
      | some n =>
        rw [ha] at h
        simp only [Option.map_some, run_orInternal_some] at h
        obtain ⟨_, fs1, h1, h⟩ := run_bind_ok h
        obtain ⟨i, j, c, hss, hds, hi, hj, hc⟩ := copied_files hw h1
        have hw1 : WF fs1 := run_wf_of h1 hw
        rw [metadataPath_eq] at h
        simp only [run_orInternal_some] at h
        rw [run_exists_bind] at h
        have hd2 : dst.comps ≠ metaFile cfg b k := objectPath_ne_meta hb hdp
        have hs2 : src.comps ≠ metaFile cfg b k := hsm _ ⟨_, hsp, rfl⟩
        -- the second half, in the final file tree
        have key : ∃ fs2, Has fs2 src.comps i c ∧ Has fs2 dst.comps j c ∧ WF fs2 ∧
            run cfg ((getMd5Sum cfg ext sb sk).bind fun sum => .ret (quoted sum)) fs2 = (.ok e, fs') ∧
            ((fs2.at ⟨cfg.root ++ [metadataName sb sk], false⟩).isSome = true →
              run cfg (copyFile ⟨cfg.root ++ [metadataName sb sk], false⟩ ⟨cfg.root ++ [metadataName b k], false⟩) fs2
                = (.ok (), fs2)) := by
          by_cases hm : (fs1.at ⟨cfg.root ++ [metadataName sb sk], false⟩).isSome = true
          · rw [hm] at h
            simp only [if_true] at h
            rw [metadataPath_eq] at h
            simp only [run_orInternal_some] at h
            obtain ⟨_, fs2, h2, h⟩ := run_bind_ok h
            obtain ⟨_, _, _, _, hfr2⟩ := copyFile_ok hw1 h2
            obtain ⟨i', j', c', g1, g2, g3, g4, g5⟩ := copied_files hw1 h2
            have hw2 : WF fs2 := run_wf_of h2 hw1
            exact ⟨fs2, hfr2.keep hw1 hs2 hi, hfr2.keep hw1 hd2 hj, hw2, h, fun _ => copied_again hw2 g1 g2 g3 g4 g5⟩
          · rw [if_neg hm] at h
            exact ⟨fs1, hi, hj, hw1, h, fun h => absurd h hm⟩
        obtain ⟨fs2, hi2, hj2, hw2, h, hmeta⟩ := key
        have hat : fs2.at src = some (.file i) := by simp [FS.at, hi2.node, hss]
        have hsum : run cfg ((getMd5Sum cfg ext sb sk).bind fun sum => .ret (quoted sum)) fs2
            = (.ok (quoted (ext.md5hex (fs2.data i))), fs2) := by
          rw [run_bind, getMd5Sum_run, hsp]
          simp only [Option.bind_some, hat]
          rfl
        have h' := h
        rw [hsum] at h'
        obtain ⟨_, rfl⟩ := Prod.mk.inj h'
        rw [hat]
        simp only [Option.map_some, run_orInternal_some]
        rw [run_bind, copied_again hw2 hss hds hi2 hj2 hc]
        simp only [Outcome.andThen]
        rw [metadataPath_eq]
        simp only [run_orInternal_some]
        rw [run_exists_bind]
        by_cases hm : (fs2.at ⟨cfg.root ++ [metadataName sb sk], false⟩).isSome = true
        · rw [hm]
          simp only [if_true]
          rw [metadataPath_eq]
          simp only [run_orInternal_some]
          rw [run_bind, hmeta hm]
          exact h
        · rw [if_neg hm]
          exact h

/-! ### what an interrupted attempt leaves -/

theorem node_prefix {fs : FS} (hw : WF fs) {q : Path} (r : List Bytes) : ∀ {n : Node}, r ≠ [] → fs.lookup (q ++ r) = some n →
    fs.lookup q = some .dir := by
  generalize hl : r.length = l
  induction l generalizing r with
  | zero => intro n hr; exact absurd (List.length_eq_zero_iff.mp hl) hr
  | succ l ih =>
    intro n hr h
    have hp := node_parent hw h
    rw [List.dropLast_append_of_ne_nil hr] at hp
    by_cases hr' : r.dropLast = []
    · rw [hr', List.append_nil] at hp; exact hp
    · exact ih r.dropLast (by rw [List.length_dropLast, hl]; rfl) hr' hp

theorem node_above {fs : FS} (hw : WF fs) {P q : Path} {n : Node} (h : fs.lookup P = some n) (hq : q <+: P) (hne : q ≠ P) :
    fs.lookup q = some .dir := by
  obtain ⟨r, rfl⟩ := hq
  exact node_prefix hw r (fun e => hne (by rw [e, List.append_nil])) h

theorem exec_new_dir {fs : FS} {c : Call} {q : Path} (h : (exec cfg fs c).2.lookup q = some .dir) :
    fs.lookup q = some .dir ∨ c = .mkdir q := by
  by_cases hq : q = []
  · subst hq; exact .inl (lookup_nil _)
  cases c with
  | mkdir p =>
    simp only [exec] at h
    split at h; · exact .inl h
    split at h; · exact .inl h
    split at h
    · exact .inl h
    · exact .inl h
    · split at h
      · exact .inl h
      · split at h
        · rw [lookup_set, if_neg hq] at h
          split at h
          · rename_i e; rw [e]; exact .inr rfl
          · exact .inl h
        · exact .inl h
  | create p =>
    simp only [exec] at h
    split at h; · exact .inl h
    split at h; · exact .inl h
    split at h
    · exact .inl h
    · exact .inl h
    · split at h
      · split at h
        · rw [lookup_bump, lookup_setData, lookup_set, if_neg hq] at h
          split at h
          · cases h
          · exact .inl h
        · exact .inl h
      · exact .inl h
  | unlink p =>
    simp only [exec] at h
    split at h
    · rw [lookup_erase, if_neg hq] at h
      split at h
      · cases h
      · exact .inl h
    · exact .inl h
  | rmdir p =>
    simp only [exec] at h
    split at h
    · split at h
      · rw [lookup_erase, if_neg hq] at h
        split at h
        · cases h
        · exact .inl h
      · exact .inl h
    · exact .inl h
  | rmtree p =>
    simp only [exec] at h
    split at h
    · split at h
      · rw [lookup_eraseTree, if_neg hq] at h
        split at h
        · cases h
        · exact .inl h
      · exact .inl h
    · exact .inl h
  | readDir p =>
    simp only [exec] at h
    split at h <;> exact .inl h
  | writeAt i off b => exact .inl h
  | _ => exact .inl h

theorem foldl_no_dir {p q : Path} (hq : q ≠ []) (rs : List Path) : ∀ {fs : FS},
    (rs.foldl (fun fs r => if p.isPrefixOf r then fs.eraseTree r else fs) fs).lookup q = some .dir →
      fs.lookup q = some .dir := by
  induction rs with
  | nil => exact fun h => h
  | cons r rs ih =>
    intro fs h
    have := ih (fs := if p.isPrefixOf r then fs.eraseTree r else fs) h
    split at this
    · rw [lookup_eraseTree, if_neg hq] at this
      split at this
      · cases this
      · exact this
    · exact this

theorem execF_new_dir {fs : FS} {c : Call} {f : Fault} {q : Path} (h : (execF cfg fs c f).2.lookup q = some .dir) :
    fs.lookup q = some .dir ∨ c = .mkdir q := by
  by_cases hq : q = []
  · subst hq; exact .inl (lookup_nil _)
  cases f with
  | none => exact exec_new_dir h
  | before => exact .inl h
  | after => exact exec_new_dir h
  | during n rs =>
    left
    cases c with
    | writeAt i off b =>
      simp only [execF, partialEffect] at h
      split at h <;> exact h
    | rmtree p =>
      simp only [execF, partialEffect] at h
      split at h
      · split at h
        · exact foldl_no_dir hq rs h
        · exact h
      · exact h
    | _ => exact h

/-- the calls that remove nothing -/
def builds : Call → Prop
  | .unlink _ | .rmdir _ | .rmtree _ => False
  | _ => True

theorem exec_dir_stays {fs : FS} {c : Call} (hc : builds c) {q : Path} (h : fs.lookup q = some .dir) :
    (exec cfg fs c).2.lookup q = some .dir := by
  cases c with
  | mkdir p =>
    simp only [exec]
    split; · exact h
    split; · exact h
    split
    · exact h
    · exact h
    · split
      · exact h
      · split
        · rw [lookup_set]; split; · rfl
          split; · rfl
          exact h
        · exact h
  | create p =>
    simp only [exec]
    split; · exact h
    split; · exact h
    split
    · exact h
    · exact h
    · rename_i hn
      split
      · split
        · rw [lookup_bump, lookup_setData, lookup_set]
          split; · rfl
          split
          · rename_i e; rw [e, hn] at h; cases h
          · exact h
        · exact h
      · exact h
  | unlink p => exact hc.elim
  | rmdir p => exact hc.elim
  | rmtree p => exact hc.elim
  | readDir p =>
    simp only [exec]
    split <;> exact h
  | _ => exact h

end S3
