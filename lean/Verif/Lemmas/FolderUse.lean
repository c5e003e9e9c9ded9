import Verif.Spec.FolderUse
import Verif.Props.MachineFolders
/-! Reading, copying and deleting folders like objects. -/
namespace S3
open Spec

variable {cfg : Cfg} {ext : Ext} {A : Bytes → Bytes → Prop} {place : Bytes → Bytes → List Bytes} {s t : Machine} {fs fs' : FS}

theorem folder_not_address (hS : Spelled cfg.root A place) {b k : Bytes} {cs : List Bytes} (hk : FolderKey A place b k cs) : ¬ A b k := by
  intro ha
  obtain ⟨k', _, e⟩ := hk.key
  exact (hS.names b k ha).key.noSlash k' e

theorem folder_comps {b k : Bytes} {cs cs' : List Bytes} (hk : FolderKey A place b k cs) (hk' : FolderKey A place b k cs') : cs = cs' := by
  obtain ⟨x, h1⟩ := folderPath (cfg := ⟨[], [], false, 0⟩) hk
  obtain ⟨x', h2⟩ := folderPath (cfg := ⟨[], [], false, 0⟩) hk'
  rw [h1] at h2
  simp at h2
  exact h2.1

/-- what is at the path of a folder key -/
theorem folder_look (h : Tree cfg ext A place s fs) {b k : Bytes} {cs : List Bytes} (hk : FolderKey A place b k cs) :
    fs.lookup (cfg.root ++ b :: cs) = if s.folder (b :: cs) then some .dir else none := by
  cases hf : s.folder (b :: cs) with
  | true => exact (h.folders b cs hk.legal).mpr hf
  | false =>
    refine (clear_look (folder_content h hk (List.prefix_refl _))).resolve_right fun hd => ?_
    have := (h.folders b cs hk.legal).mp hd
    rw [hf] at this; cases this

theorem folder_at (h : Tree cfg ext A place s fs) {b k : Bytes} {cs : List Bytes} (hk : FolderKey A place b k cs) (x : Bool) :
    fs.at ⟨cfg.root ++ b :: cs, x⟩ = if s.folder (b :: cs) then some .dir else none := by
  rw [FS.at, folder_look h hk]
  cases s.folder (b :: cs) <;> rfl

theorem folder_head (h : Tree cfg ext A place s fs) (hu : Unrecorded A place cfg fs) {b k : Bytes} {cs : List Bytes}
    (hk : FolderKey A place b k cs) : FolderAnswer A place cfg.dirLen s (.headObject b k) (answer cfg ext (.headObject b k) fs) s := by
  obtain ⟨x, hp⟩ := folderPath (cfg := cfg) hk
  have hrun := head_run (cfg := cfg) (ext := ext) (fs := fs) hp
  rw [folder_at h hk] at hrun
  rw [answer, opProg, run_bind, hrun]
  cases hf : s.folder (b :: cs) with
  | false => exact .headNone hk hf
  | true =>
    have hm : metaAt ext fs (cfg.root ++ [metadataName b k]) = some none := by rw [metaAt, hu b k cs hk]
    simp only [hm, if_true]
    by_cases hl : cfg.dirLen ≤ i64Max
    · rw [if_pos hl]; exact .head hk hf hl
    · rw [if_neg hl]; exact .headLong hk hf (by omega)

theorem folder_get (h : Tree cfg ext A place s fs) (hu : Unrecorded A place cfg fs) {b k : Bytes} {cs : List Bytes} (r : Option Bytes)
    (w : Nat → Nat) (hk : FolderKey A place b k cs) :
    FolderAnswer A place cfg.dirLen s (.getObject b k r w) (answer cfg ext (.getObject b k r w) fs) s := by
  obtain ⟨x, hp⟩ := folderPath (cfg := cfg) hk
  have hat := folder_at h hk x
  cases hr : rangeOf r with
  | none =>
    have : run cfg (getObjectFull cfg ext b k r w) fs = (.err .InvalidRequest, fs) := by
      simp only [getObjectFull, getObject, bind_eq, hp]
      rw [run_bind, run_orInternal_some, parseRange_bind, hr]
      rfl
    rw [show answer cfg ext (.getObject b k r w) fs = .err .InvalidRequest from run_map_err.mpr (by rw [this])]
    exact .getRange hk (by rw [← asked_eq]; exact hr)
  | some y =>
    have hr' : askedRange r = some y := by rw [← asked_eq]; exact hr
    cases hf : s.folder (b :: cs) with
    | false =>
      rw [hf] at hat
      rw [(get_absent (cfg := cfg) (ext := ext) hp hat r w).1, hr]
      exact .getNone hk (by rw [hr']; simp) hf
    | true =>
      rw [hf] at hat
      simp only [if_true] at hat
      have hm : metaAt ext fs (cfg.root ++ [metadataName b k]) = some none := by rw [metaAt, hu b k cs hk]
      have : run cfg (getObjectFull cfg ext b k r w) fs =
          (.err (if slice cfg.dirLen y = none then .InvalidRange else .InternalError), fs) := by
        simp only [getObjectFull, getObject, bind_eq, hp]
        rw [run_bind, run_orInternal_some, parseRange_bind, hr]
        simp only [run_open_bind, hat, Option.map_some, Node.handle, run_fstat_dir_bind, run_orInternal_some, slice_eq]
        cases hsl : slice cfg.dirLen y with
        | none => rfl
        | some ol =>
          simp only
          rw [run_bind, loadMetadata_run, hm]
          simp only [Outcome.andThen]
          rw [run_bind, getMd5Sum_run, hp]
          simp only [Option.bind_some, hat]
          rfl
      rw [show answer cfg ext (.getObject b k r w) fs = .err _ from run_map_err.mpr (by rw [this])]
      by_cases hsl : slice cfg.dirLen y = none
      · rw [if_pos hsl]; exact .getOutside hk hr' hf hsl
      · rw [if_neg hsl]; exact .get hk hr' hf hsl

theorem folder_copy (h : Tree cfg ext A place s fs) {b k src sb sk : Bytes} {cs : List Bytes}
    (hsrc : copySourceFromHeader src = .ok (sb, sk)) (hk : FolderKey A place sb sk cs) :
    run cfg (opProg cfg ext (.copyObject b k src)) fs = (.err .InternalError, fs) := by
  obtain ⟨x, hp⟩ := folderPath (cfg := cfg) hk
  have hat := folder_at h hk x
  simp only [opProg, copyObject, hsrc, hp, bind_eq]
  rw [run_bind, run_orInternal_some]
  cases objectPath cfg b k with
  | none => rfl
  | some dst =>
    rw [run_orInternal_some, run_stat_bind, hat]
    cases hf : s.folder (sb :: cs) with
    | false => rfl
    | true =>
      rw [hf, if_pos rfl] at hat
      simp only [if_true, Option.map_some, run_orInternal_some]
      rw [run_bind]
      simp only [copyFile, bind_eq, run_open_bind, hat, Option.map_some, Node.handle, run_orInternal_some]
      rfl

/-- the slash at the end of a folder key is kept in the path exactly by the releases that keep it -/
theorem objectPath_slash {b k' : Bytes} {cs : List Bytes} (hb : checkBucketName b = true) (hk' : PlainKey k' cs) :
    objectPath cfg b (k' ++ b!"/") = some ⟨cfg.root ++ b :: cs, cfg.keepSlash⟩ := by
  obtain ⟨x, hp⟩ := objectPath_folder (cfg := cfg) hb hk'
  obtain ⟨h1, h2, h3⟩ := plain_relative hk'
  have hne : k' ≠ [] := by
    rintro rfl
    rw [splitAll] at h3
    exact (hk'.comps [] (by rw [← h3]; simp)).nonempty rfl
  have hst : startsWith (k' ++ b!"/") b!"/" = false := by
    cases k' with
    | nil => exact absurd rfl hne
    | cons c r => simpa [startsWith, List.isPrefixOf] using h1
  obtain ⟨hj, _, hpc⟩ := join_relative hb hst
  have hpd := parseDot_relative cfg hb hst
  simp only [objectPath, hj, resolveVirtual, hpd] at hp ⊢
  simp only [Bool.false_eq_true, if_false, Option.some.injEq, OsPath.mk.injEq] at hp ⊢
  have hfold := List.append_cancel_left hp.1
  refine ⟨hp.1, ?_⟩
  rw [hfold]
  have hcs : keyComps (k' ++ b!"/") = cs := by
    have hdd : b!".." ∉ keyComps (k' ++ b!"/") := by
      intro hm
      have := (List.mem_filter.mp (List.mem_filter.mp hm).1).1
      rw [hk'.text, ← joinWith_slash hk'.nonempty, splitAll_joinWith (by simp)] at this
      · rcases List.mem_append.mp this with h | h
        · exact (hk'.comps _ h).notDotDot rfl
        · simp at h
      · intro p hp
        rcases List.mem_append.mp hp with h | h
        · exact (hk'.comps p h).noSlash
        · simp only [List.mem_cons, List.not_mem_nil, or_false] at h; rw [h]; simp
    rw [foldl_dedot_plain hdd] at hfold
    simpa using hfold
  have hd : hasDots (b ++ 47 :: (k' ++ b!"/")) = false := by
    rw [hasDots, hpc, hcs, List.any_eq_false]
    intro c hc
    have : PlainComp c := by
      rcases List.mem_cons.mp hc with rfl | hc
      · exact legal_plain hb
      · exact hk'.comps c hc
    simp [this.notDot, this.notDotDot]
  have he : endsAsDir (b ++ 47 :: (k' ++ b!"/")) = true := by
    have : endsWithByte (b ++ 47 :: (k' ++ b!"/")) 47 = true := endsWithByte_iff.mpr ⟨b ++ 47 :: k', by simp⟩
    rw [endsAsDir, this]; rfl
  rw [hd, he]
  simp

theorem folder_slash {b k : Bytes} {cs : List Bytes} (hk : FolderKey A place b k cs) :
    objectPath cfg b k = some ⟨cfg.root ++ b :: cs, cfg.keepSlash⟩ := by
  obtain ⟨k', hk', rfl⟩ := hk.key
  exact objectPath_slash ((C02_bucket_name_rule b).mpr hk.legal) hk'

/-- a copy or a completion onto an existing folder, or onto any folder key when the slash is kept -/
theorem folder_onto (h : Tree cfg ext A place s fs) {b k : Bytes} {cs : List Bytes} (hk : FolderKey A place b k cs)
    (hf : cfg.keepSlash = true ∨ s.folder (b :: cs) = true) :
    (∀ src sb sk, copySourceFromHeader src = .ok (sb, sk) →
      run cfg (opProg cfg ext (.copyObject b k src)) fs = (.err .InternalError, fs)) ∧
    (∀ u l, run cfg (opProg cfg ext (.completeMultipartUpload b k u (some l))) fs = (.err .InternalError, fs)) := by
  have hp := folder_slash (cfg := cfg) hk
  have hc : exec cfg fs (.create ⟨cfg.root ++ b :: cs, cfg.keepSlash⟩) = (none, fs) := by
    simp only [exec]
    rcases hf with hf | hf
    · rw [hf, Bool.or_true, if_pos rfl]
    have hd := folder_look h hk
    rw [hf, if_pos rfl] at hd
    split
    · rfl
    · split
      · rfl
      · rw [hd]
  constructor
  · intro src sb sk hsrc
    simp only [opProg, copyObject, hsrc, hp, bind_eq]
    rw [run_bind]
    cases objectPath cfg sb sk with
    | none => rfl
    | some sp =>
      rw [run_orInternal_some, run_orInternal_some, run_stat_bind]
      cases hat : fs.at sp with
      | none => rfl
      | some n =>
        simp only [Option.map_some, run_orInternal_some]
        rw [run_bind]
        simp only [copyFile, bind_eq, run_open_bind, hat, Option.map_some, run_orInternal_some]
        cases n with
        | dir => rfl
        | file i =>
          simp only [Node.handle]
          rw [run_call1, hc]
          rfl
  · intro u l
    simp only [opProg, completeMultipartUpload, hp, bind_eq]
    rw [run_bind, run_orInternal_some, run_call1, hc]
    rfl

theorem onto_copy (h : Tree cfg ext A place s fs) {b k : Bytes} {cs : List Bytes} (hk : FolderKey A place b k cs)
    (hf : cfg.keepSlash = true ∨ s.folder (b :: cs) = true) {src : Bytes} :
    after cfg ext (.copyObject b k src) fs = fs := by
  cases hsrc : copySourceFromHeader src with
  | error x =>
    have : run cfg (opProg cfg ext (.copyObject b k src)) fs = (.err .InvalidRequest, fs) := by
      simp only [opProg, copyObject, hsrc]; rfl
    rw [after, this]
  | ok p => rw [after, (folder_onto (ext := ext) h hk hf).1 src p.1 p.2 hsrc]

theorem onto_complete (h : Tree cfg ext A place s fs) {b k : Bytes} {cs : List Bytes} (hk : FolderKey A place b k cs)
    (hf : cfg.keepSlash = true ∨ s.folder (b :: cs) = true) {u : Bytes} {l : Option (List (Option Int))} :
    after cfg ext (.completeMultipartUpload b k u l) fs = fs := by
  cases l with
  | none => rfl
  | some l => rw [after, (folder_onto (ext := ext) h hk hf).2 u l]

/-- the paths a DeleteObjects collects -/
theorem folder_collect (hS : Spelled cfg.root A place) (h : Tree cfg ext A place s fs) {b : Bytes} (ks : List Bytes)
    (hks : ∀ k ∈ ks, A b k ∨ ∃ cs, FolderKey A place b k cs) :
    ∃ l, run cfg (deleteCollect cfg b ks) fs = (.ok l, fs) ∧ l.map (·.2) = present A place s b ks ∧
      ∀ e ∈ l, objectPath cfg b e.2 = some e.1 ∧ (A b e.2 ∨ ∃ cs, FolderKey A place b e.2 cs ∧ s.folder (b :: cs) = true) := by
  induction ks with
  | nil => exact ⟨[], rfl, rfl, by simp⟩
  | cons k ks ih =>
    obtain ⟨l, h1, h2, h3⟩ := ih fun k hk => hks k (List.mem_cons_of_mem _ hk)
    have hpath : ∃ p, objectPath cfg b k = some p ∧ ((fs.at p).isSome = true ↔ Present A place s b k) := by
      rcases hks k (by simp) with ha | ⟨cs, hk⟩
      · refine ⟨_, objectPath_names cfg (hS.names b k ha), ?_⟩
        rw [at_false]
        cases hb : s.bytes (place b k) with
        | none =>
          rw [shown_none h.shown ha hb]
          refine ⟨(fun h => nomatch h), ?_⟩
          rintro (⟨_, hx⟩ | ⟨cs, hk, _⟩)
          · exact absurd hb hx
          · exact absurd ha (folder_not_address hS hk)
        | some c =>
          obtain ⟨i, hl, -⟩ := shown_file h.shown ha hb
          rw [hl]
          exact ⟨fun _ => .inl ⟨ha, by rw [hb]; simp⟩, fun _ => rfl⟩
      · obtain ⟨x, hp⟩ := folderPath (cfg := cfg) hk
        refine ⟨_, hp, ?_⟩
        rw [folder_at h hk]
        cases hf : s.folder (b :: cs) with
        | true => exact ⟨fun _ => .inr ⟨cs, hk, hf⟩, fun _ => rfl⟩
        | false =>
          refine ⟨(fun h => nomatch h), ?_⟩
          rintro (⟨ha, _⟩ | ⟨cs', hk', hf'⟩)
          · exact absurd ha (folder_not_address hS hk)
          · rw [folder_comps hk' hk, hf] at hf'; cases hf'
    obtain ⟨p, hp, hpr⟩ := hpath
    simp only [deleteCollect, bind_eq, pure_eq]
    rw [hp, run_orInternal_some, run_exists_bind, run_bind, h1]
    simp only [run, Outcome.andThen, present, List.filter_cons]
    by_cases hx : Present A place s b k
    · rw [hpr.mpr hx]
      simp only [hx, decide_true, if_true]
      refine ⟨_, rfl, by rw [List.map_cons, h2]; rfl, ?_⟩
      intro e he
      rcases List.mem_cons.mp he with rfl | he
      · exact ⟨hp, hx.imp_left (·.1)⟩
      · exact h3 e he
    · have hn : (fs.at p).isSome = false := by
        cases hh : (fs.at p).isSome with
        | false => rfl
        | true => exact absurd (hpr.mp hh) hx
      rw [hn]
      simp only [hx, decide_false, Bool.false_eq_true, if_false]
      exact ⟨l, rfl, h2, h3⟩

theorem folder_each (hl : MetaLaw ext) (he : ext.metaDec [] = none) (hS : Spelled cfg.root A place) {b : Bytes}
    (l : List (OsPath × Bytes)) : ∀ {s : Machine} {fs : FS}, Tree cfg ext A place s fs →
      (∀ e ∈ l, objectPath cfg b e.2 = some e.1 ∧ (A b e.2 ∨ ∃ cs, FolderKey A place b e.2 cs ∧ s.folder (b :: cs) = true)) →
      ∃ r t fs', RemovesEach A place b s (l.map (·.2)) r t ∧ Tree cfg ext A place t fs' ∧
        run cfg (deleteAll l) fs = (if r then .ok (l.map (·.2)) else .err .InternalError, fs') := by
  induction l with
  | nil => exact fun h _ => ⟨true, _, _, .nil _, h, rfl⟩
  | cons e l ih =>
    intro s fs h hks
    obtain ⟨p, k⟩ := e
    obtain ⟨hp, hk⟩ := hks (p, k) (by simp)
    simp only at hp hk
    simp only [deleteAll, bind_eq, pure_eq, List.map_cons]
    rw [run_call1]
    rcases hk with ha | ⟨cs, hk, hf⟩
    · have hn := hS.names b k ha
      rw [objectPath_names cfg hn] at hp
      cases hp
      cases hb : s.bytes (place b k) with
      | none =>
        have hx : exec cfg fs (.unlink ⟨cfg.root ++ place b k, false⟩) = (false, fs) := by
          simp [exec, at_false, shown_none h.shown ha hb]
        rw [hx]
        exact ⟨false, s, fs, .gone ha hb, h, rfl⟩
      | some c =>
        obtain ⟨i, hlk, -⟩ := shown_file h.shown ha hb
        have hx : exec cfg fs (.unlink ⟨cfg.root ++ place b k, false⟩) = (true, fs.erase (cfg.root ++ place b k)) := by
          simp [exec, at_false, hlk]
        have hd := tree_step hl he hS h (o := .deleteObject b k) (.inl ha)
        rw [after_del, deleteObject_run (namesFile_slash hn.key), objectPath_names cfg hn] at hd
        simp only [unlinked, at_false, hlk] at hd
        obtain ⟨r, t, fs', h1, h2, h3⟩ := ih hd fun e he => hks e (List.mem_cons_of_mem _ he)
        rw [hx]
        refine ⟨r, t, fs', .object ha (by rw [hb]; simp) h1, h2, ?_⟩
        simp only [if_true]
        rw [run_bind, h3]
        cases r <;> rfl
    · obtain ⟨x, hp'⟩ := folderPath (cfg := cfg) hk
      rw [hp'] at hp
      cases hp
      have hx : exec cfg fs (.unlink ⟨cfg.root ++ b :: cs, x⟩) = (false, fs) := by
        simp only [exec, folder_at h hk, hf, if_true]
      rw [hx]
      exact ⟨false, s, fs, .folder hk, h, rfl⟩

theorem folder_deleteObjects (hl : MetaLaw ext) (he : ext.metaDec [] = none) (hS : Spelled cfg.root A place)
    (h : Tree cfg ext A place s fs) {b : Bytes} {ks : List Bytes} (hks : ∀ k ∈ ks, A b k ∨ ∃ cs, FolderKey A place b k cs) :
    ∃ t, FolderAnswer A place cfg.dirLen s (.deleteObjects b ks) (answer cfg ext (.deleteObjects b ks) fs) t ∧
      Tree cfg ext A place t (after cfg ext (.deleteObjects b ks) fs) := by
  obtain ⟨l, h1, h2, h3⟩ := folder_collect hS h ks hks
  obtain ⟨r, t, fs', h4, h5, h6⟩ := folder_each hl he hS l h h3
  rw [h2] at h4 h6
  have hrun : run cfg (opProg cfg ext (.deleteObjects b ks)) fs =
      (if r then .ok (.keys (present A place s b ks)) else .err .InternalError, fs') := by
    simp only [opProg, deleteObjects, bind_eq]
    rw [run_bind, run_bind, h1]
    simp only [Outcome.andThen]
    rw [h6]
    cases r <;> rfl
  rw [answer, after, hrun]
  refine ⟨t, ?_, h5⟩
  cases r with
  | true => exact .deleted h4
  | false => exact .stopped h4

/-- no request gives a record of metadata to a folder key -/
theorem unrecorded_step (hS : Spelled cfg.root A place) (h : Tree cfg ext A place s fs) (hu : Unrecorded A place cfg fs) {o : Op}
    (ho : Served A o ∨ Watching o ∨ (∃ q, FolderOp A place q o) ∨ FolderUse A place cfg.keepSlash o) :
    Unrecorded A place cfg (after cfg ext o fs) := by
  intro b k cs hk
  have hw := h.shown.wf
  have hin : ∀ {b' k' cs'}, FolderKey A place b' k' cs' → InBucket (b' :: cs') := by
    intro b' k' cs' hk'
    cases hcs : cs' with
    | nil => exact absurd hcs (folder_ne hk')
    | cons d r => exact ⟨b', d, r, rfl, hk'.legal⟩
  have hfold : ∀ {b' k' cs'}, FolderKey A place b' k' cs' → ¬ objP cfg b' k' (metaFile cfg b k) := by
    intro b' k' cs' hk' hx
    obtain ⟨x, hp⟩ := folderPath (cfg := cfg) hk'
    obtain ⟨p, hp', e⟩ := hx
    rw [hp] at hp'
    cases hp'
    exact place_not_meta (cfg := cfg) (hin hk') b k (by rw [e]; exact List.prefix_refl _)
  have hobj : ∀ {b' k'}, A b' k' → ¬ objP cfg b' k' (metaFile cfg b k) := by
    intro b' k' ha hx
    exact place_not_hidden (hS.names _ _ ha).inside _ ((objP_names (hS.names _ _ ha)).mp hx).symm
  have close : (∀ q, ¬ (opPerm cfg o).tree q) → ¬ opOwn cfg o (metaFile cfg b k) → ¬ (opPerm cfg o).up (metaFile cfg b k) →
      (after cfg ext o fs).lookup (cfg.root ++ [metadataName b k]) = none := by
    intro ht h1 h2
    rcases (op_frame cfg ext o ht hw).node _ h1 with e | ⟨hx, _⟩
    · exact e.trans (hu b k cs hk)
    · exact absurd hx h2
  have key : ∀ b' k', A b' k' → WritesTo b' k' o → ¬ opOwn cfg o (metaFile cfg b k) ∧ ¬ (opPerm cfg o).up (metaFile cfg b k) := fun b' k' ha hwr =>
    ⟨(own_not hS ha hwr).2 b k (by rintro ⟨rfl, rfl⟩; exact folder_not_address hS hk ha), fun hx =>
      place_not_meta (hS.names _ _ ha).inside b k (up_way hS ha hwr hx).2.1⟩
  cases o with
  | putObject i =>
    rcases ho with ho | ho | ⟨q, cs', hk', _⟩ | ho
    · exact close (fun _ h => h) (key _ _ ho.1 ⟨rfl, rfl⟩).1 (key _ _ ho.1 ⟨rfl, rfl⟩).2
    · exact ho.elim
    · have he := folderSlash hk'
      refine close (fun _ h => h) ?_ ?_
      · rintro (h | h | h)
        · have := h.1
          rw [he] at this; cases this
        · exact h
        · exact h
      · rintro ⟨p, ⟨y, hy, hyp⟩, hq⟩
        obtain ⟨x, hp⟩ := folderPath (cfg := cfg) hk'
        rw [hp] at hy
        cases hy
        rw [he, if_pos rfl, hyp] at hq
        exact place_not_meta (hin hk') b k hq
    · exact ho.elim
  | copyObject b' k' src =>
    rcases ho with ho | ho | ⟨q, ho⟩ | ⟨sb, sk, cs', hsrc, hk'⟩ | ⟨hkeep, cs', hk'⟩
    · exact close (fun _ h => h) (key _ _ ho.1 ⟨rfl, rfl⟩).1 (key _ _ ho.1 ⟨rfl, rfl⟩).2
    · exact ho.elim
    · exact ho.elim
    · rw [after, folder_copy h hsrc hk']
      exact hu b k cs hk
    · rw [onto_copy h hk' (.inl hkeep)]
      exact hu b k cs hk
  | completeMultipartUpload b' k' u parts =>
    rcases ho with ho | ho | ⟨q, ho⟩ | ho
    · exact close (fun _ h => h) (key _ _ ho.1 ⟨rfl, rfl, ho.2⟩).1 (key _ _ ho.1 ⟨rfl, rfl, ho.2⟩).2
    · exact ho.elim
    · exact ho.elim
    · obtain ⟨hkeep, cs', hk'⟩ := ho
      rw [onto_complete h hk' (.inl hkeep)]
      exact hu b k cs hk
  | deleteObject b' k' =>
    rcases ho with ho | ho | ⟨q, cs', hk', _⟩ | ho
    · exact close (fun _ h => h) (key _ _ ho ⟨rfl, rfl⟩).1 (key _ _ ho ⟨rfl, rfl⟩).2
    · exact ho.elim
    · refine close (fun _ h => h) ?_ (fun h => h)
      rintro (h | h | h)
      · exact h
      · exact hfold hk' h.2
      · exact hfold hk' h.2
    · exact ho.elim
  | deleteObjects b' ks =>
    have hks : ∀ k ∈ ks, A b' k ∨ ∃ cs, FolderKey A place b' k cs := by
      rcases ho with ho | ho | ⟨q, ho⟩ | ho
      · exact fun k hk => .inl (ho k hk)
      · exact ho.elim
      · exact ho.elim
      · exact ho
    refine close (fun _ h => h) ?_ (fun h => h)
    rintro (h | ⟨k', hk', h⟩ | h)
    · exact h
    · rcases hks k' hk' with ha | ⟨cs', hx⟩
      · exact hobj ha h
      · exact hfold hx h
    · exact h
  | uploadPart u n body =>
    rcases ho with ho | ho | ⟨q, ho⟩ | ho
    · refine close (fun _ h => h) ?_ (fun h => h)
      rintro (h | h | h)
      · obtain ⟨p, hp, hq⟩ := h
        rw [partPath_eq cfg ho.1 n] at hp
        cases hp
        exact metaFile_ne_partFile (cfg := cfg) (b := b) (k := k) (u := u) (n := n) hq
      · exact h
      · exact h
    all_goals exact ho.elim
  | createBucket b' =>
    rcases ho with ho | ho | ⟨q, ho⟩ | ho
    · refine close (fun _ h => h) (by rintro (h | h | h) <;> exact h) ?_
      rintro ⟨p, hp, e⟩
      have hb' := (C02_bucket_name_rule b').mpr ho
      rw [bucketPath_legal cfg hb'] at hp
      cases hp
      exact head_ne_meta (cfg := cfg) (.inr ⟨b', [], rfl, hb'⟩) b k e.symm
    all_goals exact ho.elim
  | deleteBucket b' =>
    rcases ho with ho | ho | ⟨q, ho⟩ | ho
    · obtain ⟨h1, h2⟩ := C23_delete_bucket_partial (cfg := cfg) (ext := ext) (fs := fs) ho
      by_cases hx : IsDir fs (bucketDir cfg b')
      · rw [(h2 hx).2.1]
        split
        · rfl
        · exact hu b k cs hk
      · rw [(h1 hx).2]; exact hu b k cs hk
    all_goals exact ho.elim
  | _ => exact close (fun _ h => h) (by rintro (h | h | h) <;> exact h) (fun h => h)

end S3
