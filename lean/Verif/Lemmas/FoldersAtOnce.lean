import Verif.Spec.FoldersAtOnce
import Verif.Props.MachineFolders
import Verif.Lemmas.Life
/-! Lemmas for C140. -/
namespace S3
open Spec

variable {cfg : Cfg} {ext : Ext} {A : Bytes → Bytes → Prop} {place : Bytes → Bytes → List Bytes} {s t : Machine} {fs fs' : FS}

/-- steps that only make directories where folders are asked for or on the way -/
theorem tree_grow {up : Path → Prop} (hS : Spelled cfg.root A place) (h : Tree cfg ext A place s fs) (hw' : WF fs')
    (hf : Frame (fun _ => False) up fs fs')
    (hup : ∀ q, up q → ∃ b k cs, FolderKey A place b k cs ∧ q <+: cfg.root ++ b :: cs)
    {f : List Bytes → Bool} (hf0 : s.folder [] = true → f [] = true)
    (hd : ∀ b' cs', LegalBucket b' → (IsDir fs' (cfg.root ++ b' :: cs') ↔ f (b' :: cs') = true)) :
    Tree cfg ext A place { s with folder := f } fs' := by
  have hE := h.shown
  have hcont : ∀ q, contentAt fs' q = contentAt fs q := fun q => frame_content hE.wf hf (fun h => h)
  have away : ∀ q, (∀ b k cs, FolderKey A place b k cs → ¬ cfg.root ++ q <+: cfg.root ++ b :: cs) →
      fs'.lookup (cfg.root ++ q) = fs.lookup (cfg.root ++ q) := by
    intro q hq
    rcases hf.node _ (fun h => h) with e | ⟨hu, _⟩
    · exact e
    · obtain ⟨b, k, cs, hk, hx⟩ := hup _ hu
      exact absurd hx (hq b k cs hk)
  have hplace : ∀ b' k', A b' k' → ∀ b k cs, FolderKey A place b k cs → ¬ cfg.root ++ place b' k' <+: cfg.root ++ b :: cs :=
    fun b' k' ha b k cs hk hx => hk.free b' k' ha ((List.prefix_append_right_inj _).mp hx)
  have hin : ∀ b k cs, FolderKey A place b k cs → InBucket (b :: cs) := by
    intro b k cs hk
    cases hcs : cs with
    | nil => exact absurd hcs (folder_ne hk)
    | cons d r => exact ⟨b, d, r, rfl, hk.legal⟩
  have hmeta : ∀ b' k' b k cs, FolderKey A place b k cs → ¬ cfg.root ++ [metadataName b' k'] <+: cfg.root ++ b :: cs :=
    fun b' k' b k cs hk => place_not_meta (hin b k cs hk) b' k'
  have hpart : ∀ u n b k cs, FolderKey A place b k cs → ¬ cfg.root ++ [partName u n] <+: cfg.root ++ b :: cs :=
    fun u n b k cs hk => part_not_prefix ((C02_bucket_name_rule b).mpr hk.legal)
  have hroot : IsDir fs' cfg.root := by
    rcases hf.node cfg.root (fun h => h) with e | ⟨_, _, e⟩
    · exact e.trans hE.root
    · exact e
  refine ⟨⟨hw', hroot, ?_, ?_, ?_, ?_, ?_, ?_⟩, ⟨?_, h.closed.2⟩, hd⟩
  · intro b' k' ha
    rw [hcont]; exact hE.bytes b' k' ha
  · intro b' k' ha
    rw [IsDir, away _ (hplace b' k' ha)]; exact hE.free b' k' ha
  · intro b' k' ha
    rw [← hE.record b' k' ha]
    refine metaAt_same (frame_same hf (fun h => h) (.inl fun hu => ?_)) hE.wf
    obtain ⟨b, k, cs, hk, hx⟩ := hup _ hu
    exact hmeta b' k' b k cs hk hx
  · intro b' k' ha
    rw [IsDir, away _ (hmeta b' k')]; exact hE.noDir b' k' ha
  · intro q hq
    refine ⟨?_, by rw [hcont]; exact (hE.folders q hq).2⟩
    rcases way_head hS hq with rfl | ⟨c, r, rfl, hc'⟩
    · rw [List.append_nil]
      refine ⟨fun _ => ?_, fun _ => hroot⟩
      refine hf0 ?_
      exact (hE.folders [] hq).1.mp (by rw [List.append_nil]; exact hE.root)
    · exact hd c r ((C02_bucket_name_rule c).mp hc')
  · intro u n hu
    rw [hcont, IsDir, away _ (hpart u n)]; exact hE.parts u n hu
  · intro b' cs' hb' hcs' hcc
    rw [hcont] at hcc
    exact h.closed.1 b' cs' hb' hcs' hcc

/-- the calls of a PUT of a folder key make directories on the way, and nothing else -/
theorem folderPut_ok {q : List Bytes} {o : Op} (ho : FolderPut A place q o) {c : Call} (hc : (opPerm cfg o).ok c) :
    writeOk (fun _ => False) (fun p => p <+: cfg.root ++ q) c := by
  obtain ⟨i, cs, rfl, hk, rfl⟩ := ho
  have he := folderSlash hk
  obtain ⟨x, hp⟩ := folderPath (cfg := cfg) hk
  have hwr : ∀ p, ¬ (opPerm cfg (.putObject i)).wr p := by
    intro p h
    have := h.1
    rw [he] at this; cases this
  cases c with
  | mkdir p =>
    obtain ⟨p', ⟨y, hy, hyp⟩, hq⟩ := hc
    rw [hp] at hy
    cases hy
    rw [he, if_pos rfl, hyp] at hq
    exact .inl hq
  | create p => exact hwr _ hc
  | writeAt i => exact hwr _ hc
  | unlink p => exact (hc : False).elim
  | rmdir p => exact (hc : False).elim
  | rmtree p => exact (hc : False).elim
  | _ => trivial

/-- directories are never lost on the way of such calls -/
def KeepsDirs (a b : FS) : Prop := ∀ p, a.lookup p = some .dir → b.lookup p = some .dir

theorem rely_keepsDirs : Rely KeepsDirs := ⟨fun _ _ h => h, fun _ _ _ h1 h2 p h => h2 p (h1 p h)⟩

theorem keepsDirs_frame {up : Path → Prop} {a b : FS} (h : Frame (fun _ => False) up a b) : KeepsDirs a b := by
  intro p hp
  rcases h.node p (fun h => h) with e | ⟨_, _, e⟩
  · exact e.trans hp
  · exact e

/-- `create_dir_all` reports success only when the directory is there, on a failing disk too -/
theorem createDirAllRev_wpF (l : List Bytes) : ∀ {fs : FS}, WF fs →
    wpF cfg KeepsDirs (fun _ fs' => fs'.lookup l.reverse = some .dir) (createDirAllRev l) fs := by
  have req : ∀ (p : Path) (fs : FS), wpF cfg KeepsDirs (fun _ fs' => fs'.lookup p = some .dir) (requireDir p) fs := by
    intro p fs
    simp only [requireDir, bind_eq]
    refine wpF_call trivial fun a hr hw => ?_
    simp only [exec, FS.at]
    cases hl : a.lookup p with
    | none => trivial
    | some n =>
      cases n with
      | dir => exact fun b hb _ => hb _ hl
      | file i => trivial
  have mk : ∀ (p : Path) (a : FS) (f : Fault), (execF cfg a (.mkdir p) f).1 = .ok → (execF cfg a (.mkdir p) f).2.lookup p = some .dir := by
    intro p a f h
    cases f with
    | none =>
      revert h
      simp only [execF, exec]
      repeat' split
      all_goals first
        | (intro h; cases h; done)
        | (intro _; rw [lookup_set]; split <;> simp)
    | _ => cases h
  induction l with
  | nil => exact fun _ => wpF_true _ _ fun _ fs hw => lookup_nil fs
  | cons c up ih =>
    intro fs hw
    simp only [createDirAllRev, bind_eq, pure_eq]
    intro a f hr hwa
    have hm := mk (c :: up).reverse a f
    have hwb := execF_wf (cfg := cfg) hwa (.mkdir (c :: up).reverse) f
    generalize execF cfg a (.mkdir (c :: up).reverse) f = z at hm hwb
    obtain ⟨r, b⟩ := z
    cases r with
    | ok => exact fun b' hb _ => hb _ (hm rfl)
    | failed => exact req _ _
    | notFound =>
      show wpF cfg KeepsDirs _ ((createDirAllRev up).bind _) b
      refine wpF_bind rely_keepsDirs hwb (wpF_mono ?_ (ih hwb))
      intro _ d hwd _ a' f' hr' hwa'
      have hm' := mk (c :: up).reverse a' f'
      generalize execF cfg a' (.mkdir (c :: up).reverse) f' = z at hm'
      obtain ⟨r', b'⟩ := z
      cases r' with
      | ok => exact fun b'' hb _ => hb _ (hm' rfl)
      | failed => exact req _ _
      | notFound => exact req _ _

/-- one request among others, when none of its own calls fails -/
theorem runParF_wp_clean {R : FS → FS → Prop} (hR : Rely R) {α : Type} {Q : Outcome α → FS → Prop} {ok : Nat → Call → Prop} {i : Nat}
    (hg : ∀ j fs c f, j ≠ i → WF fs → ok j c → R fs (execF cfg fs c f).2)
    {steps : List (Nat × Fault)} (hc : ∀ f, (i, f) ∈ steps → f = .none) {ps : List (Prog α)} {fs : FS} (hw : WF fs)
    (hs : ∀ (j : Nat) p, ps[j]? = some p → Safe (ok j) (fun _ => True) p)
    (hp : ∀ p, ps[i]? = some p → wp cfg R Q p fs) {p : Prog α} (h : (runParF cfg steps ps fs).1[i]? = some p) :
    wp cfg R Q p (runParF cfg steps ps fs).2 := by
  induction steps generalizing ps fs with
  | nil => exact hp p h
  | cons x s ih =>
    obtain ⟨j, f⟩ := x
    have hc' : ∀ f, (i, f) ∈ s → f = .none := fun f hf => hc f (List.mem_cons_of_mem _ hf)
    revert h
    simp only [runParF]
    split
    · exact fun h => ih hc' hw hs hp h
    · rename_i q hj
      have hlt : j < ps.length := (List.getElem?_eq_some_iff.mp hj).1
      refine fun h => ih hc' (stepProgF_wf hw) ?_ ?_ h
      · intro m r hr
        by_cases hm : m = j
        · subst hm
          rw [List.getElem?_set_self hlt] at hr
          cases hr
          have := hs m q hj
          cases q with
          | sys c k => exact this.2 _ (execF_respOk hw c f)
          | _ => exact this
        · rw [List.getElem?_set_ne (fun e => hm e.symm)] at hr
          exact hs m r hr
      · intro r hr
        by_cases hm : i = j
        · subst hm
          rw [List.getElem?_set_self hlt] at hr
          cases hr
          have := hp q hj
          obtain rfl := hc f (by simp)
          cases q with
          | sys c k => exact this fs (hR.refl _) hw
          | _ => exact this
        · rw [List.getElem?_set_ne (fun e => hm e.symm)] at hr
          refine wp_rely hR (hp r hr) ?_
          have := hs j q hj
          cases q with
          | sys c k => exact hg j fs c f (fun e => hm e.symm) hw this.1
          | _ => exact hR.refl _

/-- the file tree at any moment while folder keys are put -/
theorem putting_frame {os : List Op} (hos : ∀ o ∈ os, ∃ q, FolderPut A place q o) {steps : List (Nat × Fault)} (hw : WF fs) :
    Frame (fun _ => False) (fun p => ∃ o ∈ os, ∃ q, FolderPut A place q o ∧ p <+: cfg.root ++ q) fs
      (runParF cfg steps (os.map (opProg cfg ext)) fs).2 := by
  refine runParF_inv (cfg := cfg) (ok := writeOk (fun _ => False) (fun p => ∃ o ∈ os, ∃ q, FolderPut A place q o ∧ p <+: cfg.root ++ q))
    (J := fun fs' => Frame (fun _ => False) (fun p => ∃ o ∈ os, ∃ q, FolderPut A place q o ∧ p <+: cfg.root ++ q) fs fs')
    (fun a c f hwa hJ hc => hJ.trans (execF_frame hwa hc f)) ?_ hw (.refl ..)
  intro p hp
  obtain ⟨o, ho, rfl⟩ := List.mem_map.mp hp
  obtain ⟨q, hq⟩ := hos o ho
  refine (op_safe cfg ext o).mono (fun c hc => ?_) (fun _ h => h)
  have := folderPut_ok hq hc
  cases c with
  | mkdir p => exact .inl ⟨o, ho, q, hq, this.resolve_right (fun h => h)⟩
  | _ => exact this

/-- the program of a PUT of a folder key -/
theorem folderPut_prog {i : PutInput} {cs : List Bytes} (hk : FolderKey A place i.bucket i.key cs) :
    (¬ ProperPut (.putObject i) ∧ ∃ e, opProg cfg ext (.putObject i) = .fail e) ∨ (ProperPut (.putObject i) ∧
      opProg cfg ext (.putObject i) = (createDirAllRev (cfg.root ++ i.bucket :: cs).reverse).bind fun _ => .ret (.etag none)) := by
  have he := folderSlash hk
  obtain ⟨x, hp⟩ := folderPath (cfg := cfg) hk
  have np : (classKnown i = true → i.body ≠ none → i.contentLength = some 0 → False) → ¬ ProperPut (.putObject i) := by
    rintro hn ⟨j, hj, h1, h2, h3⟩
    cases hj
    exact hn h1 h2 h3
  cases hc : classKnown i with
  | false =>
    refine .inl ⟨np (fun h => by rw [hc] at h; cases h), .InvalidStorageClass, ?_⟩
    rw [classKnown_iff] at hc
    simp only [opProg, putObject, hc, Bool.not_false, if_true]; rfl
  | true =>
    have hc' := hc
    rw [classKnown_iff] at hc'
    cases hb : i.body with
    | none =>
      refine .inl ⟨np (fun _ h => absurd hb h), .IncompleteBody, ?_⟩
      simp only [opProg, putObject, hc', hb, Bool.not_true, Bool.false_eq_true, if_false]; rfl
    | some body =>
      by_cases hl : i.contentLength = some 0
      · refine .inr ⟨⟨i, rfl, hc, by rw [hb]; simp, hl⟩, ?_⟩
        simp only [opProg, putObject, hc', hb, he, hl, hp, Bool.not_true, Bool.false_eq_true, if_false, if_true, bind_eq, pure_eq,
          createDirAll, orInternal, Prog.bind, bind_assoc]
      · refine .inl ⟨np (fun _ _ h => hl h), .UnexpectedContent, ?_⟩
        simp only [opProg, putObject, hc', hb, he, hl, Bool.not_true, Bool.false_eq_true, if_false, if_true]; rfl

theorem folderPut_wpF {i : PutInput} {cs : List Bytes} (hk : FolderKey A place i.bucket i.key cs) (hw : WF fs) :
    wpF cfg KeepsDirs (fun a fs' => a = .etag none ∧ fs'.lookup (cfg.root ++ i.bucket :: cs) = some .dir) (opProg cfg ext (.putObject i)) fs := by
  rcases folderPut_prog (cfg := cfg) (ext := ext) hk with ⟨_, e, h⟩ | ⟨_, h⟩
  · rw [h]; trivial
  · rw [h]
    refine wpF_bind rely_keepsDirs hw (wpF_mono ?_ (createDirAllRev_wpF _ hw))
    intro _ a _ hd b hb _
    rw [List.reverse_reverse] at hd
    exact ⟨rfl, hb _ hd⟩

/-- directories may appear, nothing else changes -/
def Growing (a b : FS) : Prop := Frame (fun _ => False) (fun _ => True) a b

theorem rely_growing : Rely Growing := ⟨fun _ => .refl .., fun _ _ _ h1 h2 => h1.trans h2⟩

theorem folderPut_wp (h : Tree cfg ext A place s fs) {i : PutInput} {cs : List Bytes} (hk : FolderKey A place i.bucket i.key cs) :
    wp cfg Growing (fun o _ => o = (run cfg (opProg cfg ext (.putObject i)) fs).1) (opProg cfg ext (.putObject i)) fs := by
  rcases folderPut_prog (cfg := cfg) (ext := ext) hk with ⟨_, e, hp⟩ | ⟨_, hp⟩
  · rw [hp]; exact fun _ _ _ => rfl
  · have hn : ∀ c ∈ cfg.root ++ i.bucket :: cs, nameOk c = true := fun c hc => by
      rcases List.mem_append.mp hc with hc | hc
      · exact dir_names h.shown.wf h.shown.root c hc
      · exact hk.fits c hc
    have key : ∀ {R : FS → FS → Prop}, Rely R → (∀ a b, R a b → Grow (cfg.root ++ i.bucket :: cs) a b) →
        wp cfg R (fun o _ => o = .ok (.etag none)) (opProg cfg ext (.putObject i)) fs := by
      intro R hR hg
      rw [hp]
      refine wp_bind hR h.shown.wf (wp_mono ?_ (createDirAllRev_wp (cfg := cfg) hR hg hn _ (by simp) h.shown.wf (folder_clear h hk)))
      rintro o a _ ⟨rfl, _⟩
      exact fun _ _ _ => rfl
    rw [wp_run h.shown.wf (key rely_eq fun a b e q _ => .inl (by rw [e]))]
    refine key rely_growing fun a b hf q _ => ?_
    rcases hf.node q (fun h => h) with e | ⟨_, e1, e2⟩
    · exact .inl e
    · exact .inr ⟨e1, e2⟩

/-- what is left of a DELETE of a folder key that is cut off or meets a failing disk -/
theorem folderDelete_cut {b k : Bytes} {cs : List Bytes} (hk : FolderKey A place b k cs) (g : Nat → Fault) (n : Nat) :
    ((runFN cfg g n (opProg cfg ext (.deleteObject b k)) fs).2 = fs ∧
      ∀ a, (runFN cfg g n (opProg cfg ext (.deleteObject b k)) fs).1 = .ret a →
        a = .done ∧ fs.lookup (cfg.root ++ b :: cs) = some .dir ∧ fs.children (cfg.root ++ b :: cs) ≠ []) ∨
    (fs.lookup (cfg.root ++ b :: cs) = some .dir ∧ fs.children (cfg.root ++ b :: cs) = [] ∧
      (runFN cfg g n (opProg cfg ext (.deleteObject b k)) fs).2 = fs.erase (cfg.root ++ b :: cs) ∧
      ∀ a, (runFN cfg g n (opProg cfg ext (.deleteObject b k)) fs).1 = .ret a → a = .done) := by
  have he := folderSlash hk
  obtain ⟨x, hp⟩ := folderPath (cfg := cfg) hk
  have hprog : opProg cfg ext (.deleteObject b k) = .sys (.readDir ⟨cfg.root ++ b :: cs, x⟩) fun r =>
      ((orInternal r).bind fun entries => if entries = [] then
        (call (.rmdir ⟨cfg.root ++ b :: cs, x⟩)).bind fun ok => if ok then .ret () else .fail .InternalError
        else .ret ()).bind fun _ => .ret .done := by
    simp only [opProg, deleteObject, he, hp, if_true, bind_eq, pure_eq, orInternal, Prog.bind]
    rfl
  rw [hprog]
  cases n with
  | zero => exact .inl ⟨rfl, fun a h => nomatch h⟩
  | succ n =>
    simp only [runFN]
    have fails : ∀ (m : Nat) (g' : Nat → Fault) (fs' : FS), runFN cfg g' m (.fail .InternalError : Prog Answer) fs' = (.fail .InternalError, fs') := by
      intro m g' fs'; cases m <;> rfl
    have rets : ∀ (m : Nat) (g' : Nat → Fault) (fs' : FS), runFN cfg g' m (.ret .done : Prog Answer) fs' = (.ret .done, fs') := by
      intro m g' fs'; cases m <;> rfl
    have hrd : ∀ f, execF cfg fs (.readDir ⟨cfg.root ++ b :: cs, x⟩) f = (none, fs) ∨ (fs.lookup (cfg.root ++ b :: cs) = some .dir ∧
        execF cfg fs (.readDir ⟨cfg.root ++ b :: cs, x⟩) f = (some ((fs.children (cfg.root ++ b :: cs)).map fun e => (e.1, e.2 == .dir)), fs)) := by
      have h0 : exec cfg fs (.readDir ⟨cfg.root ++ b :: cs, x⟩) = (none, fs) ∨ (fs.lookup (cfg.root ++ b :: cs) = some .dir ∧
          exec cfg fs (.readDir ⟨cfg.root ++ b :: cs, x⟩) = (some ((fs.children (cfg.root ++ b :: cs)).map fun e => (e.1, e.2 == .dir)), fs)) := by
        cases hl : fs.lookup (cfg.root ++ b :: cs) with
        | none => exact .inl (by simp only [exec, hl])
        | some nd =>
          cases nd with
          | dir => exact .inr ⟨rfl, by simp only [exec, hl]⟩
          | file j => exact .inl (by simp only [exec, hl])
      have h2 : (exec cfg fs (.readDir ⟨cfg.root ++ b :: cs, x⟩)).2 = fs := by
        rcases h0 with h0 | ⟨_, h0⟩ <;> rw [h0]
      intro f
      cases f with
      | none => exact h0
      | before => exact .inl rfl
      | after => exact .inl (by simp only [execF, failed, h2])
      | during m rs => exact .inl rfl
    rcases hrd (g 0) with h0 | ⟨hd, h0⟩
    · rw [h0]
      refine .inl ⟨by simp only [orInternal, Prog.bind, fails], fun a h => ?_⟩
      simp only [orInternal, Prog.bind, fails] at h
      cases h
    · rw [h0]
      by_cases hch : fs.children (cfg.root ++ b :: cs) = []
      · simp only [hch, List.map_nil, orInternal, Prog.bind, if_true, call]
        cases n with
        | zero => exact .inl ⟨rfl, fun a h => nomatch h⟩
        | succ n =>
          simp only [runFN]
          have hrm : exec cfg fs (.rmdir ⟨cfg.root ++ b :: cs, x⟩) = (true, fs.erase (cfg.root ++ b :: cs)) := by
            simp [exec, hd, hch]
          have hrF : ∀ f, execF cfg fs (.rmdir ⟨cfg.root ++ b :: cs, x⟩) f = (true, fs.erase (cfg.root ++ b :: cs)) ∨
              execF cfg fs (.rmdir ⟨cfg.root ++ b :: cs, x⟩) f = (false, fs) ∨
              execF cfg fs (.rmdir ⟨cfg.root ++ b :: cs, x⟩) f = (false, fs.erase (cfg.root ++ b :: cs)) := by
            intro f
            cases f with
            | none => exact .inl hrm
            | before => exact .inr (.inl rfl)
            | after => exact .inr (.inr (by simp only [execF, hrm, failed]))
            | during m rs => exact .inr (.inl rfl)
          rcases hrF (g (0 + 1)) with e | e | e
          · simp only [e, if_true, Prog.bind, rets]
            exact .inr ⟨hd, trivial, trivial, fun a h => by cases h; rfl⟩
          · simp only [e, Bool.false_eq_true, if_false, Prog.bind, fails]
            exact .inl ⟨trivial, fun a h => nomatch h⟩
          · simp only [e, Bool.false_eq_true, if_false, Prog.bind, fails]
            exact .inr ⟨hd, trivial, trivial, fun a h => nomatch h⟩
      · have hne : (fs.children (cfg.root ++ b :: cs)).map (fun e => (e.1, e.2 == .dir)) ≠ [] := by simpa using hch
        simp only [orInternal, Prog.bind, if_neg hne, rets]
        exact .inl ⟨trivial, fun a h => by cases h; exact ⟨rfl, hd, hch⟩⟩

/-- the tree after the directory of an empty folder is gone -/
theorem tree_removed (hS : Spelled cfg.root A place) (h : Tree cfg ext A place s fs) {b k : Bytes} {cs : List Bytes}
    (hk : FolderKey A place b k cs) (hd : fs.lookup (cfg.root ++ b :: cs) = some .dir) (hch : fs.children (cfg.root ++ b :: cs) = []) :
    s.folder (b :: cs) = true ∧ s.Empty (b :: cs) ∧
      Tree cfg ext A place { s with folder := fun r => s.folder r && decide (r ≠ b :: cs) } (fs.erase (cfg.root ++ b :: cs)) := by
  have hf : s.folder (b :: cs) = true := (h.folders b cs hk.legal).mp hd
  have hem := (folder_empty h hk.legal).mp hch
  refine ⟨hf, hem, ?_⟩
  obtain ⟨t, h1, h2⟩ := folder_delete hS h hk
  have hrun : after cfg ext (.deleteObject b k) fs = fs.erase (cfg.root ++ b :: cs) := by
    have he := folderSlash hk
    obtain ⟨x, hp⟩ := folderPath (cfg := cfg) hk
    simp [after, opProg, deleteObject, he, hp, bind_eq, orInternal, Prog.bind, call, run, exec, hd, hch]
  rw [hrun] at h2
  cases h1e : answer cfg ext (.deleteObject b k) fs <;> rw [h1e] at h1 <;> cases h1
  · rename_i hn; exact absurd hem hn
  · exact h2
  · rename_i hn; rw [hf] at hn; cases hn

end S3
