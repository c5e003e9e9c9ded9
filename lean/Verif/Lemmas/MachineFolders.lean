import Verif.Spec.MachineFolders
import Verif.Props.MachineListing
import Verif.Props.Folder
/-! Folder keys in the abstract machine. -/
namespace S3
open Spec

variable {cfg : Cfg} {ext : Ext} {A : Bytes → Bytes → Prop} {place : Bytes → Bytes → List Bytes} {s t : Machine} {fs fs' : FS}

theorem folderPath {b k : Bytes} {cs : List Bytes} (h : FolderKey A place b k cs) :
    ∃ x, objectPath cfg b k = some ⟨cfg.root ++ b :: cs, x⟩ := by
  obtain ⟨k', hk, rfl⟩ := h.key
  exact objectPath_folder ((C02_bucket_name_rule b).mpr h.legal) hk

theorem folderSlash {b k : Bytes} {cs : List Bytes} (h : FolderKey A place b k cs) : endsWithByte k 47 = true := by
  obtain ⟨k', _, rfl⟩ := h.key
  exact endsWithByte_iff.mpr ⟨k', rfl⟩

theorem folder_ne {b k : Bytes} {cs : List Bytes} (h : FolderKey A place b k cs) : cs ≠ [] := by
  obtain ⟨k', hk, _⟩ := h.key
  exact hk.nonempty

/-- no file where the folder is or on the way to it -/
theorem folder_content (h : Tree cfg ext A place s fs) {b k : Bytes} {cs : List Bytes} (hk : FolderKey A place b k cs)
    {r : List Bytes} (hr : r <+: b :: cs) : contentAt fs (cfg.root ++ r) = none := by
  cases r with
  | nil =>
    have := h.shown.root
    rw [List.append_nil, contentAt, this]
  | cons c r =>
    obtain rfl := (List.cons_prefix_cons.mp hr).1
    by_cases hn : r = []
    · subst hn
      exact (h.shown.folders [c] (.inr ⟨c, hk.legal, rfl⟩)).2
    · refine Classical.byContradiction fun hc => ?_
      obtain ⟨b', k', ha, e⟩ := h.closed.1 c r hk.legal hn hc
      exact hk.free b' k' ha (by rw [e]; exact hr)

theorem folder_clear (h : Tree cfg ext A place s fs) {b k : Bytes} {cs : List Bytes} (hk : FolderKey A place b k cs) :
    Clear (cfg.root ++ b :: cs) fs := by
  intro q hq
  rcases List.prefix_or_prefix_of_prefix hq (List.prefix_append cfg.root (b :: cs)) with hq | ⟨r, rfl⟩
  · by_cases e : q = cfg.root
    · rw [e]; exact .inr h.shown.root
    · exact .inr (h.shown.wf.above h.shown.root hq e)
  · exact clear_look (folder_content h hk ((List.prefix_append_right_inj _).mp hq))

/-- steps that touch only the folder and those on the way to it -/
theorem tree_frame {own up : Path → Prop} (hS : Spelled cfg.root A place) (h : Tree cfg ext A place s fs) {b k : Bytes} {cs : List Bytes}
    (hk : FolderKey A place b k cs) (hw' : WF fs') (hf : Frame own up fs fs')
    (hown : ∀ q, own q → q = cfg.root ++ b :: cs) (hup : ∀ q, up q → q <+: cfg.root ++ b :: cs)
    (hc : contentAt fs' (cfg.root ++ b :: cs) = none) {f : List Bytes → Bool} (hf0 : s.folder [] = true → f [] = true)
    (hd : ∀ b' cs', LegalBucket b' → (IsDir fs' (cfg.root ++ b' :: cs') ↔ f (b' :: cs') = true)) :
    Tree cfg ext A place { s with folder := f } fs' := by
  have hE := h.shown
  have hcont : ∀ q, contentAt fs' q = contentAt fs q := by
    intro q
    by_cases ho : own q
    · obtain rfl := hown q ho
      rw [hc, folder_content h hk (List.prefix_refl _)]
    · exact frame_content hE.wf hf ho
  have hlegal := (C02_bucket_name_rule b).mpr hk.legal
  have away : ∀ q, ¬ cfg.root ++ q <+: cfg.root ++ b :: cs → ¬ own (cfg.root ++ q) ∧ fs'.lookup (cfg.root ++ q) = fs.lookup (cfg.root ++ q) := by
    intro q hq
    have ho : ¬ own (cfg.root ++ q) := fun ho => hq (by rw [hown _ ho]; exact List.prefix_refl _)
    refine ⟨ho, ?_⟩
    rcases hf.node _ ho with e | ⟨hu, _⟩
    · exact e
    · exact absurd (hup _ hu) hq
  have hplace : ∀ b' k', A b' k' → ¬ cfg.root ++ place b' k' <+: cfg.root ++ b :: cs := fun b' k' ha hx =>
    hk.free b' k' ha ((List.prefix_append_right_inj _).mp hx)
  have hin : InBucket (b :: cs) := by
    cases hcs : cs with
    | nil => exact absurd hcs (folder_ne hk)
    | cons d r => exact ⟨b, d, r, rfl, hk.legal⟩
  have hmeta : ∀ b' k', ¬ cfg.root ++ [metadataName b' k'] <+: cfg.root ++ b :: cs := fun b' k' => place_not_meta hin b' k'
  have hpart : ∀ u n, ¬ cfg.root ++ [partName u n] <+: cfg.root ++ b :: cs := fun u n => part_not_prefix hlegal
  have hroot : IsDir fs' cfg.root := by
    have ho : ¬ own cfg.root := fun ho => by
      have := congrArg List.length (hown _ ho)
      simp at this
    rcases hf.node _ ho with e | ⟨_, _, e⟩
    · exact e.trans hE.root
    · exact e
  refine ⟨⟨hw', hroot, ?_, ?_, ?_, ?_, ?_, ?_⟩, ⟨?_, h.closed.2⟩, hd⟩
  · intro b' k' ha
    rw [hcont]; exact hE.bytes b' k' ha
  · intro b' k' ha
    rw [IsDir, (away _ (hplace b' k' ha)).2]; exact hE.free b' k' ha
  · intro b' k' ha
    rw [← hE.record b' k' ha]
    exact metaAt_same (frame_same hf (away _ (hmeta b' k')).1 (.inl fun hu => hmeta b' k' (hup _ hu))) hE.wf
  · intro b' k' ha
    rw [IsDir, (away _ (hmeta b' k')).2]; exact hE.noDir b' k' ha
  · intro q hq
    refine ⟨?_, by rw [hcont]; exact (hE.folders q hq).2⟩
    rcases way_head hS hq with rfl | ⟨c, r, rfl, hc'⟩
    · rw [List.append_nil]
      refine ⟨fun _ => ?_, fun _ => hroot⟩
      refine hf0 ?_
      exact (hE.folders [] hq).1.mp (by rw [List.append_nil]; exact hE.root)
    · exact hd c r ((C02_bucket_name_rule c).mp hc')
  · intro u n hu
    rw [hcont, IsDir, (away _ (hpart u n)).2]; exact hE.parts u n hu
  · intro b' cs' hb' hcs' hcc
    rw [hcont] at hcc
    exact h.closed.1 b' cs' hb' hcs' hcc

theorem folder_put (hS : Spelled cfg.root A place) (h : Tree cfg ext A place s fs) {i : PutInput} {cs : List Bytes}
    (hk : FolderKey A place i.bucket i.key cs) :
    ∃ t, FolderStep s (i.bucket :: cs) (.putObject i) (answer cfg ext (.putObject i) fs) t ∧
      Tree cfg ext A place t (after cfg ext (.putObject i) fs) := by
  have he := folderSlash hk
  obtain ⟨x, hp⟩ := folderPath (cfg := cfg) hk
  have stays : ∀ e, run cfg (opProg cfg ext (.putObject i)) fs = (.err e, fs) →
      answer cfg ext (.putObject i) fs = .err e ∧ after cfg ext (.putObject i) fs = fs := by
    intro e h; exact ⟨congrArg (·.1) h, congrArg (·.2) h⟩
  cases hc : classKnown i with
  | false =>
    have hc' := hc
    rw [classKnown_iff] at hc'
    obtain ⟨h1, h2⟩ := stays .InvalidStorageClass (by simp only [opProg, putObject, hc', Bool.not_false, if_true]; rfl)
    exact ⟨s, by rw [h1]; exact .badClass hc, by rw [h2]; exact h⟩
  | true =>
    have hc' := hc
    rw [classKnown_iff] at hc'
    cases hb : i.body with
    | none =>
      obtain ⟨h1, h2⟩ := stays .IncompleteBody (by simp only [opProg, putObject, hc', hb, Bool.not_true, Bool.false_eq_true, if_false]; rfl)
      exact ⟨s, by rw [h1]; exact .noBody hc hb, by rw [h2]; exact h⟩
    | some body =>
      have hb' : i.body ≠ none := by rw [hb]; simp
      by_cases hl : i.contentLength = some 0
      · have hwp := createDirAllRev_wp (cfg := cfg) (R := fun a b => a = b) rely_eq
          (P := cfg.root ++ i.bucket :: cs) (fun a b e q _ => .inl (by rw [e]))
          (fun c hc => by
            rcases List.mem_append.mp hc with hc | hc
            · exact dir_names h.shown.wf h.shown.root c hc
            · exact hk.fits c hc)
          (cfg.root ++ i.bucket :: cs).reverse (by simp) h.shown.wf (folder_clear h hk)
        obtain ⟨r1, r2, _⟩ := wp_run h.shown.wf hwp
        rw [List.reverse_reverse] at r2
        have hrun : run cfg (opProg cfg ext (.putObject i)) fs =
            (.ok (.etag none), (run cfg (createDirAllRev (cfg.root ++ i.bucket :: cs).reverse) fs).2) := by
          simp only [opProg, putObject, hc', hb, he, hl, hp, Bool.not_true, Bool.false_eq_true, if_false, if_true, bind_eq, pure_eq,
            createDirAll, orInternal, Prog.bind]
          rw [run_bind, run_bind]
          generalize run cfg (createDirAllRev (cfg.root ++ i.bucket :: cs).reverse) fs = z at r1
          obtain ⟨z1, z2⟩ := z
          cases r1
          rfl
        have h1 : answer cfg ext (.putObject i) fs = .ok (.etag none) := congrArg (·.1) hrun
        have h2 : after cfg ext (.putObject i) fs = (run cfg (createDirAllRev (cfg.root ++ i.bucket :: cs).reverse) fs).2 := congrArg (·.2) hrun
        rw [← h2] at r2
        have hw' : WF (after cfg ext (.putObject i) fs) := run_wf cfg _ h.shown.wf
        have hf := op_frame cfg ext (.putObject i) (fun q h => h) h.shown.wf
        have hown : ∀ q, ¬ opOwn cfg (.putObject i) q := by
          rintro q (h | h | h)
          · have := h.1
            rw [he] at this; cases this
          · exact h
          · exact h
        have hup : ∀ q, (opPerm cfg (.putObject i)).up q → q <+: cfg.root ++ i.bucket :: cs := by
          rintro q ⟨p, ⟨y, hy, hyp⟩, hq⟩
          rw [hp] at hy
          cases hy
          rw [he, if_pos rfl, hyp] at hq
          exact hq
        refine ⟨_, by rw [h1]; exact .made hc hb' hl, tree_frame hS h hk hw' hf (fun q ho => (hown q ho).elim) hup ?_ ?_ ?_⟩
        · rw [contentAt, r2]
        · intro _; simp
        · intro b' cs' hb'
          simp only [Bool.or_eq_true, decide_eq_true_eq]
          rw [← h.folders b' cs' hb']
          constructor
          · intro hd
            rcases hf.node (cfg.root ++ b' :: cs') (hown _) with e | ⟨hu, _⟩
            · exact .inl (e.symm.trans hd)
            · exact .inr ((List.prefix_append_right_inj _).mp (hup _ hu))
          · rintro (hd | hq)
            · rcases hf.node (cfg.root ++ b' :: cs') (hown _) with e | ⟨_, _, e⟩
              · exact e.trans hd
              · exact e
            · by_cases e : cfg.root ++ b' :: cs' = cfg.root ++ i.bucket :: cs
              · rw [IsDir, e]; exact r2
              · exact hw'.above r2 ((List.prefix_append_right_inj _).mpr hq) e
      · obtain ⟨h1, h2⟩ := stays .UnexpectedContent (by
          simp only [opProg, putObject, hc', hb, he, hl, Bool.not_true, Bool.false_eq_true, if_false, if_true]; rfl)
        exact ⟨s, by rw [h1]; exact .content hc hb' hl, by rw [h2]; exact h⟩


/-- the folder is empty in the machine exactly when the directory has no entries -/
theorem folder_empty (h : Tree cfg ext A place s fs) {b : Bytes} {cs : List Bytes} (hb : LegalBucket b) :
    fs.children (cfg.root ++ b :: cs) = [] ↔ s.Empty (b :: cs) := by
  have hw := h.shown.wf
  constructor
  · intro hch r hr hne
    have hnone : fs.lookup (cfg.root ++ r) = none := by
      refine Classical.byContradiction fun hl => ?_
      obtain ⟨n, hn⟩ := Option.ne_none_iff_exists'.mp hl
      obtain ⟨t, rfl⟩ := hr
      cases t with
      | nil => simp at hne
      | cons c t =>
        have hpre : cfg.root ++ (b :: cs ++ [c]) <+: cfg.root ++ (b :: cs ++ c :: t) := by
          refine (List.prefix_append_right_inj _).mpr ((List.prefix_append_right_inj _).mpr ?_)
          exact ⟨t, rfl⟩
        have : ∃ n, fs.lookup (cfg.root ++ (b :: cs ++ [c])) = some n := by
          by_cases e : cfg.root ++ (b :: cs ++ [c]) = cfg.root ++ (b :: cs ++ c :: t)
          · exact ⟨n, by rw [e]; exact hn⟩
          · exact ⟨_, hw.above hn hpre e⟩
        obtain ⟨m, hm⟩ := this
        refine no_children_iff.mp hch (cfg.root ++ (b :: cs ++ [c]), m) ((lookup_iff_mem hw.nodup (by simp) _).mp hm) (by simp) ?_
        rw [← List.append_assoc, List.dropLast_concat]
    obtain ⟨t, rfl⟩ := hr
    refine ⟨?_, ?_⟩
    · cases hx : s.folder (b :: cs ++ t) with
      | false => rfl
      | true =>
        have := (h.folders b (cs ++ t) hb).mpr hx
        rw [IsDir, show cfg.root ++ b :: (cs ++ t) = cfg.root ++ (b :: cs ++ t) from rfl, hnone] at this
        cases this
    · refine Classical.byContradiction fun hx => ?_
      obtain ⟨b', k', ha, e⟩ := h.closed.2 _ hx
      have := h.shown.bytes b' k' ha
      rw [e] at this
      rw [← this, contentAt, hnone] at hx
      exact hx rfl
  · intro hem
    refine no_children_iff.mpr fun e he hne hd => ?_
    have hl : fs.lookup e.1 = some e.2 := (lookup_iff_mem hw.nodup hne _).mpr he
    obtain ⟨c, hc⟩ : ∃ c, e.1 = cfg.root ++ (b :: cs ++ [c]) :=
      ⟨e.1.getLast hne, by rw [← List.append_assoc, ← hd, List.dropLast_concat_getLast]⟩
    obtain ⟨h1, h2⟩ := hem (b :: cs ++ [c]) (List.prefix_append _ _) (by simp)
    rw [hc] at hl
    cases hn : e.2 with
    | dir =>
      rw [hn] at hl
      have := (h.folders b (cs ++ [c]) hb).mp hl
      rw [show b :: (cs ++ [c]) = b :: cs ++ [c] from rfl, h1] at this
      cases this
    | file i =>
      rw [hn] at hl
      have hcont : contentAt fs (cfg.root ++ b :: (cs ++ [c])) ≠ none := by
        have hl' : fs.lookup (cfg.root ++ b :: (cs ++ [c])) = some (.file i) := hl
        rw [contentAt, hl']; simp
      obtain ⟨b', k', ha, e'⟩ := h.closed.1 b (cs ++ [c]) hb (by simp) hcont
      rw [← e', h.shown.bytes b' k' ha, e'] at hcont
      exact hcont h2

theorem folder_delete (hS : Spelled cfg.root A place) (h : Tree cfg ext A place s fs) {b k : Bytes} {cs : List Bytes}
    (hk : FolderKey A place b k cs) :
    ∃ t, FolderStep s (b :: cs) (.deleteObject b k) (answer cfg ext (.deleteObject b k) fs) t ∧
      Tree cfg ext A place t (after cfg ext (.deleteObject b k) fs) := by
  have he := folderSlash hk
  obtain ⟨x, hp⟩ := folderPath (cfg := cfg) hk
  have hw := h.shown.wf
  have hprog : opProg cfg ext (.deleteObject b k) = (call (.readDir ⟨cfg.root ++ b :: cs, x⟩)).bind fun r =>
      ((orInternal r).bind fun entries => if entries = [] then
        (call (.rmdir ⟨cfg.root ++ b :: cs, x⟩)).bind fun ok => if ok then .ret () else .fail .InternalError
        else .ret ()).bind fun _ => .ret .done := by
    simp only [opProg, deleteObject, he, hp, if_true, bind_eq, pure_eq, orInternal, Prog.bind]
    rfl
  have hrun : run cfg (opProg cfg ext (.deleteObject b k)) fs =
      if s.folder (b :: cs) then
        if fs.children (cfg.root ++ b :: cs) = [] then (.ok .done, fs.erase (cfg.root ++ b :: cs)) else (.ok .done, fs)
      else (.err .InternalError, fs) := by
    rw [hprog, run_call1]
    cases hf : s.folder (b :: cs) with
    | false =>
      have hnd : ¬ IsDir fs (cfg.root ++ b :: cs) := fun hd => by
        have := (h.folders b cs hk.legal).mp hd
        rw [hf] at this; cases this
      have hn : fs.lookup (cfg.root ++ b :: cs) = none :=
        (clear_look (folder_content h hk (List.prefix_refl _))).resolve_right hnd
      simp [exec, hn, orInternal, Prog.bind]
    | true =>
      have hd : fs.lookup (cfg.root ++ b :: cs) = some .dir := (h.folders b cs hk.legal).mpr hf
      by_cases hch : fs.children (cfg.root ++ b :: cs) = []
      · simp [exec, hd, hch, orInternal, Prog.bind, run, call]
      · simp [exec, hd, hch, orInternal, Prog.bind]
  have h1 : answer cfg ext (.deleteObject b k) fs = _ := congrArg (·.1) hrun
  have h2 : after cfg ext (.deleteObject b k) fs = _ := congrArg (·.2) hrun
  cases hf : s.folder (b :: cs) with
  | false =>
    simp only [hf, Bool.false_eq_true, if_false] at h1 h2
    exact ⟨s, by rw [h1]; exact .missing hf, by rw [h2]; exact h⟩
  | true =>
    by_cases hch : fs.children (cfg.root ++ b :: cs) = []
    · simp only [hf, hch, if_true] at h1 h2
      have hem := (folder_empty h hk.legal).mp hch
      have hw' : WF (after cfg ext (.deleteObject b k) fs) := run_wf cfg _ hw
      have hfr := op_frame cfg ext (.deleteObject b k) (fun q h => h) hw
      have hown : ∀ q, opOwn cfg (.deleteObject b k) q → q = cfg.root ++ b :: cs := by
        rintro q (h | h | h)
        · exact h.elim
        · have := h.1
          rw [he] at this; cases this
        · obtain ⟨p, hpp, rfl⟩ := h.2
          rw [hp] at hpp; cases hpp; rfl
      refine ⟨_, by rw [h1]; exact .removed hf hem, tree_frame hS h hk hw' hfr hown (fun q h => h.elim) ?_ ?_ ?_⟩
      · rw [h2, contentAt, lookup_erase, if_neg (by simp), if_pos rfl]
      · intro h0; simp [h0]
      · intro b' cs' hb'
        simp only [Bool.and_eq_true, decide_eq_true_eq]
        rw [← h.folders b' cs' hb', h2, IsDir, lookup_erase, if_neg (by simp)]
        by_cases e : b' :: cs' = b :: cs
        · rw [if_pos (by rw [e])]; simp [e]
        · rw [if_neg (fun e' => e (List.append_cancel_left e'))]
          exact ⟨fun h => ⟨h, e⟩, fun h => h.1⟩
    · simp only [hf, hch, if_true, if_false] at h1 h2
      have hem : ¬ s.Empty (b :: cs) := fun he => hch ((folder_empty h hk.legal).mpr he)
      exact ⟨s, by rw [h1]; exact .full hf hem, by rw [h2]; exact h⟩

/-- which folders the machine has after a request it knows -/
theorem machine_folderNew {o : Op} (ho : Served A o ∨ Watching o) {q : List Bytes} :
    (s.after place o).folder q = true → s.folder q = true ∨ (∃ b k, A b k ∧ onTheWay q (place b k) = true) ∨ ∃ b, LegalBucket b ∧ q = [b] := by
  cases o with
  | putObject i =>
    have ha : A i.bucket i.key := ho.elim (·.1) False.elim
    cases hb : i.body with
    | none => simp only [Machine.after, hb]; exact .inl
    | some body =>
      simp only [Machine.after, hb]
      split
      · exact .inl
      · simp only [Bool.or_eq_true]
        rintro (h | h)
        · exact .inl h
        · exact .inr (.inl ⟨_, _, ha, h⟩)
  | copyObject b k src =>
    simp only [Machine.after]
    split
    · exact .inl
    · split
      · exact .inl
      · split <;> exact .inl
  | completeMultipartUpload b k u parts =>
    cases parts with
    | none => exact .inl
    | some l =>
      simp only [Machine.after]
      split <;> exact .inl
  | uploadPart u n body => cases body <;> exact .inl
  | createBucket b =>
    simp only [Machine.after, Bool.or_eq_true, decide_eq_true_eq]
    rintro (h | h)
    · exact .inl h
    · exact .inr (.inr ⟨b, ho.elim (fun h => h) False.elim, h⟩)
  | deleteBucket b =>
    simp only [Machine.after, Bool.and_eq_true]
    exact fun h => .inl h.1
  | _ => exact .inl

/-- ... and which it keeps -/
theorem machine_folder_keeps {o : Op} {q : List Bytes} (hq : ∀ b, o = .deleteBucket b → q.head? ≠ some b) (h : s.folder q = true) :
    (s.after place o).folder q = true := by
  cases o with
  | putObject i =>
    cases hb : i.body with
    | none => simp only [Machine.after, hb]; exact h
    | some body =>
      simp only [Machine.after, hb]
      split
      · exact h
      · simp [h]
  | copyObject b k src =>
    simp only [Machine.after]
    split
    · exact h
    · split
      · exact h
      · split <;> exact h
  | completeMultipartUpload b k u parts =>
    cases parts with
    | none => exact h
    | some l =>
      simp only [Machine.after]
      split <;> exact h
  | uploadPart u n body => cases body <;> exact h
  | createBucket b => simp [Machine.after, h]
  | deleteBucket b => simp [Machine.after, h, hq b rfl]
  | _ => exact h

/-- requests the machine knows leave directories alone that are no buckets, not at an address and not on the way to one -/
theorem served_leaves (hS : Spelled cfg.root A place) (hw : WF fs) {o : Op} (ho : Served A o ∨ Watching o)
    (hd : ∀ b, o ≠ .deleteBucket b) {b : Bytes} {cs : List Bytes} (hb : LegalBucket b) (hway : ¬ Way A place (b :: cs))
    (hpl : ∀ b' k, A b' k → place b' k ≠ b :: cs) :
    (after cfg ext o fs).lookup (cfg.root ++ b :: cs) = fs.lookup (cfg.root ++ b :: cs) := by
  have hlegal := (C02_bucket_name_rule b).mpr hb
  have hhead : b :: cs = [] ∨ ∃ c r, b :: cs = c :: r ∧ checkBucketName c = true := .inr ⟨b, cs, rfl, hlegal⟩
  have ht : ∀ q, ¬ (opPerm cfg o).tree q := by
    intro q h
    cases o <;> first | exact h.elim | exact hd _ rfl
  have hf := op_frame cfg ext o ht hw
  have key : ∀ b' k, A b' k → WritesTo b' k o →
      ¬ opOwn cfg o (cfg.root ++ b :: cs) ∧ ¬ (opPerm cfg o).up (cfg.root ++ b :: cs) := fun b' k ha hwr =>
    ⟨(own_not hS ha hwr).1 _ hhead (fun e => hpl b' k ha e.symm), fun hu => by
      obtain ⟨_, h1, h2⟩ := up_way hS ha hwr hu
      exact hway (.inl ⟨b', k, ha, onTheWay_iff.mpr ⟨(List.prefix_append_right_inj _).mp h1, fun e => h2 (by rw [e])⟩⟩)⟩
  have both : ¬ opOwn cfg o (cfg.root ++ b :: cs) ∧ ¬ (opPerm cfg o).up (cfg.root ++ b :: cs) := by
    cases o with
    | putObject i => exact key _ _ (ho.elim (·.1) False.elim) ⟨rfl, rfl⟩
    | copyObject b' k src => exact key _ _ (ho.elim (·.1) False.elim) ⟨rfl, rfl⟩
    | completeMultipartUpload b' k u parts => exact key _ _ (ho.elim (·.1) False.elim) ⟨rfl, rfl, ho.elim (·.2) False.elim⟩
    | deleteObject b' k => exact key _ _ (ho.elim (fun h => h) False.elim) ⟨rfl, rfl⟩
    | deleteObjects b' ks =>
      refine ⟨?_, fun h => h⟩
      rintro (h | ⟨k, hk, h⟩ | h)
      · exact h
      · have ha : A b' k := ho.elim (fun h => h k hk) False.elim
        exact hpl _ _ ha (List.append_cancel_left ((objP_names (hS.names _ _ ha)).mp h)).symm
      · exact h
    | uploadPart u n body =>
      refine ⟨?_, fun h => h⟩
      rintro (h | h | h)
      · obtain ⟨p, hp, hq⟩ := h
        rw [partPath_eq cfg (ho.elim (·.1) False.elim) n] at hp
        cases hp
        exact absurd hq (head_ne_part (cfg := cfg) hhead u n)
      · exact h
      · exact h
    | createBucket b' =>
      have hb' : LegalBucket b' := ho.elim (fun h => h) False.elim
      refine ⟨?_, ?_⟩
      · rintro (h | h | h) <;> exact h
      · rintro ⟨p, hp, e⟩
        rw [bucketPath_legal cfg ((C02_bucket_name_rule b').mpr hb')] at hp
        cases hp
        have := List.append_cancel_left e
        exact hway (.inr ⟨b', hb', this⟩)
    | deleteBucket b' => exact absurd rfl (hd b')
    | _ => exact ⟨by rintro (h | h | h) <;> exact h, fun h => h⟩
  rcases hf.node _ both.1 with e | ⟨hu, _⟩
  · exact e
  · exact absurd hu both.2

theorem tree_step (hl : MetaLaw ext) (he : ext.metaDec [] = none) (hS : Spelled cfg.root A place)
    (h : Tree cfg ext A place s fs) {o : Op} (ho : Served A o ∨ Watching o) :
    Tree cfg ext A place (s.after place o) (after cfg ext o fs) := by
  have hE := C131_step hl he hS h.shown ho
  refine ⟨hE, closed_step hS h.shown.wf h.closed ho, fun b cs hb => ?_⟩
  by_cases hway : Way A place (b :: cs)
  · exact (hE.folders _ hway).1
  by_cases hpl : ∃ b' k, A b' k ∧ place b' k = b :: cs
  · obtain ⟨b', k, ha, e⟩ := hpl
    have h1 := hE.free b' k ha
    rw [e] at h1
    refine ⟨fun h => absurd h h1, fun hf => ?_⟩
    rcases machine_folderNew ho hf with hf | hx | hx
    · have := (h.folders b cs hb).mpr hf
      rw [← e] at this
      exact absurd this (h.shown.free b' k ha)
    · exact absurd (.inl hx) hway
    · exact absurd (.inr hx) hway
  · have hpl' : ∀ b' k, A b' k → place b' k ≠ b :: cs := fun b' k ha e => hpl ⟨b', k, ha, e⟩
    have hback : (s.after place o).folder (b :: cs) = true → s.folder (b :: cs) = true := fun hf =>
      (machine_folderNew ho hf).resolve_right fun hx => hway (hx.imp (fun h => h) fun h => h)
    by_cases hd : ∃ b', o = .deleteBucket b'
    · obtain ⟨b', rfl⟩ := hd
      have hb' : LegalBucket b' := ho.elim (fun h => h) False.elim
      by_cases e : b = b'
      · subst e
        have hgone : ¬ IsDir (after cfg ext (.deleteBucket b) fs) (cfg.root ++ [b]) := fun hx => by
          have := (hE.folders [b] (.inr ⟨b, hb, rfl⟩)).1.mp hx
          simp [Machine.after] at this
        refine ⟨fun hx => ?_, fun hx => by simp [Machine.after] at hx⟩
        have hne : cs ≠ [] := fun e => hway (.inr ⟨b, hb, by rw [e]⟩)
        refine absurd (hE.wf.above hx (p := cfg.root ++ [b]) ((List.prefix_append_right_inj _).mpr ⟨cs, rfl⟩) ?_) hgone
        intro e; exact hne (by simpa using (List.append_cancel_left e).symm)
      · have hlook : (after cfg ext (.deleteBucket b') fs).lookup (cfg.root ++ b :: cs) = fs.lookup (cfg.root ++ b :: cs) := by
          obtain ⟨h1, h2⟩ := C23_delete_bucket_partial (cfg := cfg) (ext := ext) (fs := fs) hb'
          by_cases hx : IsDir fs (bucketDir cfg b')
          · rw [(h2 hx).2.1, if_neg]
            intro hbel
            rw [below, List.isPrefixOf_iff_prefix] at hbel
            have := (List.prefix_append_right_inj cfg.root).mp hbel
            exact e (List.cons_prefix_cons.mp this).1.symm
          · rw [(h1 hx).2]
        rw [IsDir, hlook]
        exact ⟨fun hx => machine_folder_keeps (by rintro b'' ⟨⟩ hh; exact e (by simpa using hh)) ((h.folders b cs hb).mp hx),
          fun hx => (h.folders b cs hb).mpr (hback hx)⟩
    · have hd' : ∀ b', o ≠ .deleteBucket b' := fun b' e => hd ⟨b', e⟩
      rw [IsDir, served_leaves hS h.shown.wf ho hd' hb hway hpl']
      exact ⟨fun hx => machine_folder_keeps (fun b' e => absurd e (hd' b')) ((h.folders b cs hb).mp hx),
        fun hx => (h.folders b cs hb).mpr (hback hx)⟩

theorem tree_fresh (hS : Spelled cfg.root A place) (hw : WF fs) (hroot : IsDir fs cfg.root)
    (hempty : ∀ q, q ≠ [] → fs.lookup (cfg.root ++ q) = none) : Tree cfg ext A place Machine.fresh fs :=
  ⟨embodies_fresh hS hw hroot hempty, closed_fresh hempty, fun b cs _ => by
    rw [IsDir, hempty _ (by simp)]; simp [Machine.fresh]⟩

end S3
