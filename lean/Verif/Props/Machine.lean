import Verif.Lemmas.Machine
import Verif.Props.Json
import Verif.Props.Root
/-! C131: the server is the abstract machine. -/
namespace S3
open Spec

variable {cfg : Cfg} {ext : Ext} {A : Bytes → Bytes → Prop} {place : Bytes → Bytes → List Bytes} {s : Machine} {fs : FS}

theorem shown_file (h : Embodies cfg ext A place s fs) {b k : Bytes} (ha : A b k) {c : Bytes} (hc : s.bytes (place b k) = some c) :
    ∃ i, fs.lookup (cfg.root ++ place b k) = some (.file i) ∧ fs.data i = c := by
  have h1 := h.bytes b k ha
  rw [hc, contentAt] at h1
  cases hl : fs.lookup (cfg.root ++ place b k) with
  | none => rw [hl] at h1; cases h1
  | some x => cases x with
    | dir => rw [hl] at h1; cases h1
    | file i => rw [hl] at h1; exact ⟨i, rfl, Option.some.inj h1⟩

theorem shown_none (h : Embodies cfg ext A place s fs) {b k : Bytes} (ha : A b k) (hc : s.bytes (place b k) = none) :
    fs.lookup (cfg.root ++ place b k) = none :=
  lookup_absent ((h.bytes b k ha).trans hc) (h.free b k ha)

theorem bucket_shown (h : Embodies cfg ext A place s fs) {b : Bytes} (hb : LegalBucket b) :
    fs.lookup (bucketDir cfg b) = if s.folder [b] then some .dir else none := by
  obtain ⟨h1, h2⟩ := h.folders [b] (.inr ⟨b, hb, rfl⟩)
  rcases clear_look h2 with e | e
  · rw [if_neg]
    · exact e
    · intro hf
      have := h1.mpr hf
      rw [IsDir, e] at this; cases this
  · rw [if_pos (h1.mp e)]
    exact e

/-- the upload that breaks off -/
theorem put_breaks (hS : Spelled cfg.root A place) (h : Embodies cfg ext A place s fs) {i : PutInput} (ha : A i.bucket i.key)
    (hc : classKnown i = true) {body : Body} (hbody : i.body = some body) (hu : ¬ unbroken body) :
    answer cfg ext (.putObject i) fs = .err .InternalError ∧
    after cfg ext (.putObject i) fs
      = after cfg ext (.putObject { i with body := some [some (received body)], metadata := none }) fs := by
  have hn := hS.names _ _ ha
  have h1 := put_spelled (i := { i with body := some [some (received body)], metadata := none }) hS h ha hc rfl
    (by simp [unbroken])
  obtain ⟨e, he, -⟩ := answer_put.mp h1
  have h2 := put_broken (cfg := cfg) (ext := ext) (namesFile_slash hn.key) hbody hu fs (Prod.ext he rfl)
  rw [after_put, after_put, h2]
  exact ⟨run_map_err.mpr (by rw [h2]), rfl⟩

theorem slice_eq (n : Nat) (x : Option Range) : rangeSlice n x = slice n x := by
  cases x with
  | none => rfl
  | some x => cases x with
    | suffix m => rfl
    | normal f l =>
      cases l with
      | none =>
        simp only [rangeSlice, slice]
        by_cases h : f < n
        · rw [if_neg (Nat.not_le.mpr h), if_pos h]
        · rw [if_pos (Nat.not_lt.mp h), if_neg h]
      | some l =>
        simp only [rangeSlice, slice]
        by_cases h : f < n
        · rw [if_neg (Nat.not_le.mpr h), if_pos h]; rfl
        · rw [if_pos (Nat.not_lt.mp h), if_neg h]

theorem asked_eq (r : Option Bytes) : rangeOf r = askedRange r := by cases r <;> rfl

theorem get_machine (hS : Spelled cfg.root A place) (h : Embodies cfg ext A place s fs) {b k : Bytes} (ha : A b k)
    (r : Option Bytes) (w : Nat → Nat) :
    s.answer ext place (.getObject b k r w) = some (answer cfg ext (.getObject b k r w) fs) := by
  have hp := objectPath_names cfg (hS.names _ _ ha)
  simp only [Machine.answer, ← asked_eq]
  cases hr : rangeOf r with
  | none =>
    have : run cfg (getObjectFull cfg ext b k r w) fs = (.err .InvalidRequest, fs) := by
      simp only [getObjectFull, getObject, bind_eq, hp]
      rw [run_bind, run_orInternal_some, parseRange_bind, hr]
      rfl
    exact congrArg some (run_map_err.mpr (by rw [this])).symm
  | some x =>
    cases hs : s.bytes (place b k) with
    | none =>
      rw [(get_absent (cfg := cfg) (ext := ext) hp (by rw [at_false]; exact shown_none h ha hs) r w).1, hr]
      rfl
    | some c =>
      obtain ⟨i, hl, hi⟩ := shown_file h ha hs
      have hm := h.record b k ha
      rw [storedMeta] at hm
      have hrun := get_run_file (cfg := cfg) (ext := ext) (r := r) (wants := w) hp (by rw [at_false]; exact hl) hr
      simp only [slice_eq, hm, hi] at hrun
      rw [answer, opProg, run_bind, hrun]
      dsimp only
      cases slice c.length x with
      | none => simp [Outcome.andThen]
      | some ol =>
        obtain ⟨start, len⟩ := ol
        cases hf : (s.record b k).found with
        | none => simp [Outcome.andThen]
        | some m =>
          simp only
          by_cases hlen : len ≤ i64Max
          · simp [if_pos hlen, Outcome.andThen, run]
          · simp [if_neg hlen, Outcome.andThen]

theorem delete_embodies (hS : Spelled cfg.root A place) (h : Embodies cfg ext A place s fs) {b k : Bytes} (ho : A b k) :
    Embodies cfg ext A place (s.after place (.deleteObject b k)) (after cfg ext (.deleteObject b k) fs) := by
  have hw := h.wf
  have hn := hS.names _ _ ho
  have hd := delete_answer (cfg := cfg) (ext := ext) (namesFile_slash hn.key) fs (b := b)
  rw [stored_names hn, h.bytes b k ho] at hd
  have hf := op_frame cfg ext (.deleteObject b k) (fun _ h => h) hw
  have hno : ¬ opOwn cfg (.deleteObject b k) (cfg.root ++ [metadataName b k]) := by
    rintro (h | h | h)
    · exact h
    · exact place_not_hidden hn.inside _ ((objP_names hn).mp h.2).symm
    · exact place_not_hidden hn.inside _ ((objP_names hn).mp h.2).symm
  have hgone : (after cfg ext (.deleteObject b k) fs).lookup (cfg.root ++ place b k) = none := by
    cases hs : s.bytes (place b k) with
    | none =>
      rw [hd.2 hs]
      exact shown_none h ho hs
    | some c =>
      rw [hs, if_neg (by simp)] at hd
      obtain ⟨p, i, hp, hat, he⟩ := delete_erases (namesFile_slash hn.key) hd.1
      rw [objectPath_names cfg hn] at hp
      cases hp
      have hg := erase_gone hat
      simp only at hg he
      rw [he]; exact hg
  refine embodies_write hS h ho (o := .deleteObject b k) ⟨rfl, rfl⟩ ?_ ?_ ?_ ?_ ?_ ?_ ?_ ?_
    (parts_stay hS h ho (o := .deleteObject b k) ⟨rfl, rfl⟩ (.inr (.inl ⟨_, _, rfl⟩)) rfl)
  · rw [contentAt, hgone]; simp [Machine.after, setBytes]
  · rw [IsDir, hgone]; simp
  · intro q hq
    simp [Machine.after, setBytes, hq]
  · show _ = (s.record b k).found
    rw [← h.record b k ho]
    exact metaAt_same (frame_same hf hno (.inl fun h => h)) hw
  · intro hx
    rcases hf.node _ hno with e | ⟨hu, _⟩
    · exact h.noDir _ _ ho (e.symm.trans hx)
    · exact hu
  · intro b' k' _; rfl
  · intro q _ _; rfl
  · intro q hq _
    exact folders_stay hS h ho (o := .deleteObject b k) ⟨rfl, rfl⟩ (fun i e => by cases e) hq

theorem collect_machine (hS : Spelled cfg.root A place) (h : Embodies cfg ext A place s fs) {b : Bytes} (ks : List Bytes)
    (ha : ∀ k ∈ ks, A b k) :
    run cfg (deleteCollect cfg b ks) fs
      = (.ok ((holding place s.bytes b ks).map fun k => (⟨cfg.root ++ place b k, false⟩, k)), fs) := by
  induction ks with
  | nil => rfl
  | cons k ks ih =>
    have hk := ha k (by simp)
    simp only [deleteCollect, bind_eq, pure_eq]
    rw [objectPath_names cfg (hS.names b k hk), run_orInternal_some, run_exists_bind, run_bind,
      ih fun k h => ha k (List.mem_cons_of_mem _ h)]
    simp only [run, at_false, holding, List.filter_cons, Outcome.andThen]
    cases hs : s.bytes (place b k) with
    | none => rw [shown_none h hk hs]; rfl
    | some c =>
      obtain ⟨i, hl, -⟩ := shown_file h hk hs
      rw [hl]; rfl

theorem each_machine (hS : Spelled cfg.root A place) {b : Bytes} (ks : List Bytes) :
    ∀ {s : Machine} {fs : FS}, Embodies cfg ext A place s fs → (∀ k ∈ ks, A b k) →
      ∃ fs', run cfg (deleteAll (ks.map fun k => (⟨cfg.root ++ place b k, false⟩, k))) fs
          = (if (deleteEach place b s.bytes ks).1 then .ok ks else .err .InternalError, fs') ∧
        Embodies cfg ext A place { s with bytes := (deleteEach place b s.bytes ks).2 } fs' := by
  induction ks with
  | nil => intro s fs h _; exact ⟨fs, rfl, h⟩
  | cons k ks ih =>
    intro s fs h ha
    have hk := ha k (by simp)
    have hn := hS.names b k hk
    simp only [List.map_cons, deleteAll, bind_eq, pure_eq]
    rw [run_call1]
    cases hs : s.bytes (place b k) with
    | none =>
      have hx : exec cfg fs (.unlink ⟨cfg.root ++ place b k, false⟩) = (false, fs) := by
        simp [exec, at_false, shown_none h hk hs]
      rw [hx]
      exact ⟨fs, by simp [deleteEach, hs], by simpa [deleteEach, hs] using h⟩
    | some c =>
      obtain ⟨i, hl, -⟩ := shown_file h hk hs
      have hx : exec cfg fs (.unlink ⟨cfg.root ++ place b k, false⟩) = (true, fs.erase (cfg.root ++ place b k)) := by
        simp [exec, at_false, hl]
      have hd := delete_embodies hS h hk
      rw [after_del, deleteObject_run (namesFile_slash hn.key), objectPath_names cfg hn] at hd
      simp only [unlinked, at_false, hl] at hd
      obtain ⟨fs', h1, h2⟩ := ih hd fun k h => ha k (List.mem_cons_of_mem _ h)
      rw [hx]
      refine ⟨fs', ?_, ?_⟩
      · simp only [if_true]
        rw [run_bind, h1]
        simp only [deleteEach, hs, Machine.after, Option.isSome_some, if_true]
        by_cases e : (deleteEach place b (setBytes s.bytes (place b k) none) ks).1 = true
        · simp [e, Outcome.andThen, run]
        · simp [e, Outcome.andThen]
      · simpa only [deleteEach, hs, Machine.after, Option.isSome_some, if_true] using h2

theorem deleteObjects_machine (hS : Spelled cfg.root A place) (h : Embodies cfg ext A place s fs) {b : Bytes} {ks : List Bytes}
    (ha : ∀ k ∈ ks, A b k) :
    ∃ fs', run cfg (deleteObjects cfg b ks) fs
        = (if (deleteEach place b s.bytes (holding place s.bytes b ks)).1 then .ok (holding place s.bytes b ks) else .err .InternalError, fs') ∧
      Embodies cfg ext A place { s with bytes := (deleteEach place b s.bytes (holding place s.bytes b ks)).2 } fs' := by
  obtain ⟨fs', h1, h2⟩ := each_machine hS (holding place s.bytes b ks) h fun k hk => ha k (List.mem_filter.mp hk).1
  refine ⟨fs', ?_, h2⟩
  simp only [deleteObjects, bind_eq]
  rw [run_bind, collect_machine hS h ks ha]
  exact h1

theorem part_embodies (hS : Spelled cfg.root A place) (h : Embodies cfg ext A place s fs) {u : Bytes} {n : Int} {body : Body}
    (hu : (47 : UInt8) ∉ u) (hn : nameOk (partName u n) = true) :
    Embodies cfg ext A place (s.after place (.uploadPart u n (some body))) (after cfg ext (.uploadPart u n (some body)) fs) := by
  obtain ⟨fs', h1, h2, h3⟩ := part_run (ext := ext) (body := body) hu h.wf (part_writable h hu hn)
  have hafter : after cfg ext (.uploadPart u n (some body)) fs = fs' := by
    rw [show after cfg ext (.uploadPart u n (some body)) fs = (run cfg (uploadPart cfg ext u n (some body)) fs).2 from run_map_snd, h1]
  have hw' : WF fs' := by rw [← hafter]; exact run_wf cfg _ h.wf
  rw [hafter]
  refine embodies_frame hS h hw' h3 ?_ ?_
  · intro q hq
    exact ⟨u, n, List.append_cancel_left hq⟩
  · intro u' n' hu'
    by_cases e : (u', n') = (u, n)
    · cases e
      simp only [if_true]
      exact ⟨h2, content_not_dir h2⟩
    · have hno : ¬ cfg.root ++ [partName u' n'] = cfg.root ++ [partName u n] := by
        intro e'
        have := partFile_inj (cfg := cfg) e'
        exact e (Prod.ext this.1 this.2)
      simp only [if_neg e]
      refine ⟨by rw [content_frame h.wf h3 hno]; exact (h.parts u' n' hu').1, fun hd => ?_⟩
      rcases h3.node _ hno with e' | e'
      · exact (h.parts u' n' hu').2 (e'.symm.trans hd)
      · exact e'.1

theorem complete_no_folder (hS : Spelled cfg.root A place) (h : Embodies cfg ext A place s fs) {b k u : Bytes} (ha : A b k)
    (hf : s.folder (place b k).dropLast = false) {l : List (Option Int)} :
    run cfg (completeMultipartUpload cfg ext b k u (some l)) fs = (.err .InternalError, fs) := by
  simp only [completeMultipartUpload, objectPath_names cfg (hS.names b k ha), bind_eq, pure_eq, run_orInternal_some]
  rw [run_call1, create_no_folder hS h ha hf]
  rfl

theorem complete_machine (hS : Spelled cfg.root A place) (h : Embodies cfg ext A place s fs) {b k u : Bytes} (ha : A b k)
    (hu : (47 : UInt8) ∉ u) (hf : s.folder (place b k).dropLast = true) (l : List (Option Int)) :
    ∃ fs', run cfg (completeMultipartUpload cfg ext b k u (some l)) fs
        = (if (assemble (s.parts u) 0 [] l).1 then .ok (quoted (ext.md5hex (assemble (s.parts u) 0 [] l).2.1)) else .err .InternalError, fs') ∧
      contentAt fs' (cfg.root ++ place b k) = some (assemble (s.parts u) 0 [] l).2.1 ∧
      (∀ n, contentAt fs' (partFile cfg u n) = (assemble (s.parts u) 0 [] l).2.2 n ∧ ¬ IsDir fs' (partFile cfg u n)) ∧
      Frame (fun q => q = cfg.root ++ place b k ∨ ∃ n, q = partFile cfg u n) (fun _ => False) fs fs' := by
  have hn := hS.names b k ha
  have hp := objectPath_names cfg hn
  have hO : ∀ m, cfg.root ++ place b k ≠ partFile cfg u m := fun m e => place_not_hidden hn.inside _ e
  have hw := h.wf
  obtain ⟨i, hi⟩ := create_in_folder hS h ha hf
  have hw1 := exec_wf cfg hw (.create ⟨cfg.root ++ place b k, false⟩)
  have hf1 : Frame (· = cfg.root ++ place b k) (fun _ => False) fs (exec cfg fs (.create ⟨cfg.root ++ place b k, false⟩)).2 :=
    exec_frame cfg hw (by exact rfl)
  have hh := (exec_create_snd hi).1
  obtain ⟨fs2, h1, h2, h3, h4, h5⟩ := loop_run hu hO l (cnt := 0) (parts := s.parts u) hw1 hh (by
    intro n
    have hne : ¬ partFile cfg u n = cfg.root ++ place b k := fun e => hO n e.symm
    refine ⟨by rw [content_frame hw hf1 hne]; exact (h.parts u n hu).1, fun hd => ?_⟩
    rcases hf1.node _ hne with e | e
    · exact (h.parts u n hu).2 (e.symm.trans hd)
    · exact e.1)
  refine ⟨fs2, ?_, h3.content, h4, (hf1.mono (fun q e => .inl e) fun _ h => h).trans h5⟩
  simp only [completeMultipartUpload, hp, bind_eq, pure_eq, run_orInternal_some]
  rw [run_call1, hi]
  simp only [run_orInternal_some]
  rw [run_bind, show (0 : Nat) = ([] : Bytes).length from rfl, h1]
  cases hr : (assemble (s.parts u) 0 [] l).1 with
  | false => rfl
  | true =>
    simp only [if_true, Outcome.andThen]
    rw [run_stat_bind, at_false, h3.node]
    simp only [Option.map_some, run_orInternal_some]
    rw [run_bind, getMd5Sum_run, hp]
    simp only [Option.bind_some, at_false, h3.node, h3.data, Outcome.andThen, run_ret]

theorem complete_embodies (hS : Spelled cfg.root A place) (h : Embodies cfg ext A place s fs) {b k u : Bytes} (ha : A b k)
    (hu : (47 : UInt8) ∉ u) (hf : s.folder (place b k).dropLast = true) (l : List (Option Int)) :
    Embodies cfg ext A place
      { s with
        bytes := setBytes s.bytes (place b k) (some (assemble (s.parts u) 0 [] l).2.1)
        parts := fun u' => if u' = u then (assemble (s.parts u) 0 [] l).2.2 else s.parts u' }
      (after cfg ext (.completeMultipartUpload b k u (some l)) fs) := by
  have hn := hS.names b k ha
  have hw := h.wf
  obtain ⟨fs', h1, h2, h3, h4⟩ := complete_machine (ext := ext) hS h ha hu hf l
  have hafter : after cfg ext (.completeMultipartUpload b k u (some l)) fs = fs' := by rw [after_complete, h1]
  have hno : ¬ (metaFile cfg b k = cfg.root ++ place b k ∨ ∃ n, metaFile cfg b k = partFile cfg u n) := by
    rintro (e | ⟨n, e⟩)
    · exact place_not_hidden hn.inside _ e.symm
    · exact metaFile_ne_partFile e
  refine embodies_write hS h ha (o := .completeMultipartUpload b k u (some l)) ⟨rfl, rfl, hu⟩ ?_ ?_ ?_ ?_ ?_ ?_ ?_ ?_ ?_
  · rw [hafter, h2]; simp [setBytes]
  · rw [hafter]; exact content_not_dir h2
  · intro q hq
    simp [setBytes, hq]
  · rw [hafter]
    show _ = (s.record b k).found
    rw [← h.record b k ha]
    exact metaAt_same (frame_same h4 hno (.inl fun h => h)) hw
  · rw [hafter]
    intro hx
    rcases h4.node _ hno with e | e
    · exact h.noDir _ _ ha (e.symm.trans hx)
    · exact e.1
  · intro b' k' _; rfl
  · intro q _ _; rfl
  · intro q hq _
    exact folders_stay hS h ha (o := .completeMultipartUpload b k u (some l)) ⟨rfl, rfl, hu⟩ (fun i e => by cases e) hq
  · rw [hafter]
    intro u' n' hu'
    by_cases e : u' = u
    · subst e
      simp only [if_true]
      exact h3 n'
    · have hne : ¬ (cfg.root ++ [partName u' n'] = cfg.root ++ place b k ∨ ∃ n, cfg.root ++ [partName u' n'] = partFile cfg u n) := by
        rintro (e' | ⟨n, e'⟩)
        · exact place_not_hidden hn.inside _ e'.symm
        · exact e (partFile_inj (cfg := cfg) e').1
      simp only [if_neg e]
      refine ⟨by rw [content_frame hw h4 hne]; exact (h.parts u' n' hu').1, fun hd => ?_⟩
      rcases h4.node _ hne with e' | e'
      · exact (h.parts u' n' hu').2 (e'.symm.trans hd)
      · exact e'.1

/-- **C131** (answers) When the file tree shows a state of the machine, every request about the addresses in `A` (in any
spelling) and about buckets gets exactly the answer of the machine. -/
theorem C131_answer (hS : Spelled cfg.root A place) (he : ext.metaDec [] = none) (h : Embodies cfg ext A place s fs) {o : Op}
    (ho : Served A o) : s.answer ext place o = some (answer cfg ext o fs) := by
  have hw := h.wf
  cases o <;> simp only [Served] at ho <;> simp only [Machine.answer]
  case putObject i =>
    obtain ⟨ha, _⟩ := ho
    have hn := hS.names _ _ ha
    cases hc : classKnown i with
    | false =>
      have : run cfg (putObject cfg ext i) fs = (.err .InvalidStorageClass, fs) := by
        rw [classKnown_iff] at hc
        simp only [putObject, hc, Bool.not_false, if_true]
        rfl
      rw [if_pos rfl]
      exact congrArg some (run_map_err.mpr (by rw [this])).symm
    | true =>
      rw [if_neg (by simp)]
      cases hb : i.body with
      | none =>
        have : run cfg (putObject cfg ext i) fs = (.err .IncompleteBody, fs) := by
          rw [classKnown_iff] at hc
          simp only [putObject, hc, hb]
          rfl
        exact congrArg some (run_map_err.mpr (by rw [this])).symm
      | some body =>
        by_cases hu : none ∈ body
        · simp only [if_pos hu]
          rw [(put_breaks hS h ha hc hb (fun h => h hu)).1]
        · simp only [if_neg hu]
          rw [put_spelled hS h ha hc hb hu]
  case getObject b k r w =>
    exact get_machine hS h ho r w
  case headObject b k =>
    have hp := objectPath_names cfg (hS.names _ _ ho)
    cases hs : s.bytes (place b k) with
    | none =>
      rw [(get_absent (cfg := cfg) (ext := ext) hp (by rw [at_false]; exact shown_none h ho hs) none fun _ => 0).2]
    | some c =>
      obtain ⟨i, hl, hi⟩ := shown_file h ho hs
      have hm := h.record b k ho
      rw [storedMeta] at hm
      have hrun := head_run (cfg := cfg) (ext := ext) (fs := fs) hp
      simp only [at_false, hl, hm, hi] at hrun
      rw [answer, opProg, run_bind, hrun]
      cases hf : (s.record b k).found with
      | none => simp [Outcome.andThen]
      | some m =>
        simp only
        by_cases hlen : c.length ≤ i64Max
        · simp [if_pos hlen, Outcome.andThen, run]
        · simp [if_neg hlen, Outcome.andThen]
  case deleteObject b k =>
    have hn := hS.names _ _ ho
    rw [(delete_answer (cfg := cfg) (ext := ext) (namesFile_slash hn.key) fs).1, stored_names hn, h.bytes b k ho]
    cases s.bytes (place b k) <;> rfl
  case deleteObjects b ks =>
    obtain ⟨fs', h1, -⟩ := deleteObjects_machine (ext := ext) hS h ho
    rw [answer, opProg, run_bind, h1]
    cases (deleteEach place b s.bytes (holding place s.bytes b ks)).1 <;> rfl
  case createMultipartUpload id => rfl
  case uploadPart u n body =>
    cases body with
    | none => rfl
    | some body =>
      obtain ⟨fs', h1, -, -⟩ := part_run (ext := ext) (body := body) ho.1 hw (part_writable h ho.1 ho.2)
      rw [answer, opProg, run_bind, h1]
      by_cases hb : none ∈ body
      · simp [if_pos hb, Outcome.andThen]
      · simp [if_neg hb, Outcome.andThen, run]
  case completeMultipartUpload b k u l =>
    cases l with
    | none => rfl
    | some l =>
      dsimp only
      cases hf : s.folder (place b k).dropLast with
      | false =>
        rw [answer, opProg, run_bind, complete_no_folder hS h ho.1 hf]
        rfl
      | true =>
        obtain ⟨fs', h1, -, -, -⟩ := complete_machine (ext := ext) hS h ho.1 ho.2 hf l
        rw [answer, opProg, run_bind, h1]
        generalize assemble (s.parts u) 0 [] l = r
        obtain ⟨r1, r2, r3⟩ := r
        cases r1 <;> rfl
  case copyObject b k src =>
    obtain ⟨ha, sb, sk, hsrc, has⟩ := ho
    simp only [hsrc]
    cases hs : s.bytes (place sb sk) with
    | none =>
      exact congrArg some (run_map_err.mpr (by rw [copy_no_source hS h ha hsrc has hs])).symm
    | some c =>
      cases hf : s.folder (place b k).dropLast with
      | false =>
        exact congrArg some (run_map_err.mpr (by rw [copy_no_folder hS h ha hsrc has hf])).symm
      | true =>
        obtain ⟨e, fs', hrun, -, -⟩ := copy_spelled hS he h ha hsrc has hs hf
        have hnd := hS.names b k ha
        have hns := hS.names sb sk has
        obtain ⟨c', src', dst', h1, h2, h3, _, _, h6⟩ := copy_done ((C02_bucket_name_rule b).mpr hnd.bucket) hsrc
          (fun q hq e => by
            rw [objP_names hns] at hq
            exact place_not_hidden hns.inside _ (hq ▸ e)) hw hrun
        rw [objectPath_names cfg hns] at h1
        rw [objectPath_names cfg hnd] at h2
        cases h1; cases h2
        rw [stored_names hns, h.bytes sb sk has, hs] at h3
        cases h3
        simp only [if_true]
        rw [show answer cfg ext (.copyObject b k src) fs = .ok (.etag (some e)) from answer_copy.mpr ⟨e, by rw [hrun], rfl⟩, h6, copied]
        by_cases e : place b k = place sb sk
        · rw [if_pos e, if_pos (by rw [e])]
        · rw [if_neg e, if_neg fun e' => e (List.append_cancel_left e').symm]
  case createBucket b =>
    have hb' := (C02_bucket_name_rule b).mpr ho
    rw [answer_create.1, createBucket_run hw h.root hb', bucket_shown h ho]
    cases s.folder [b] <;> rfl
  case deleteBucket b =>
    have hb' := (C02_bucket_name_rule b).mpr ho
    rw [answer_delBucket.1, deleteBucket_run hb', bucket_shown h ho]
    cases s.folder [b] <;> rfl
  case headBucket b =>
    rw [(headBucket_run ((C02_bucket_name_rule b).mpr ho)).1, bucket_shown h ho]
    cases s.folder [b] <;> rfl
  case getBucketLocation b =>
    rw [(headBucket_run ((C02_bucket_name_rule b).mpr ho)).2, bucket_shown h ho]
    cases s.folder [b] <;> rfl

/-- after an upload that arrived, the tree shows the new state -/
theorem put_embodies (hl : MetaLaw ext) (hS : Spelled cfg.root A place) (h : Embodies cfg ext A place s fs) {i : PutInput}
    (ha : A i.bucket i.key) (hv : ∀ m, i.metadata = some m → ValidMeta m) (hc : classKnown i = true) {body : Body}
    (hbody : i.body = some body) (hu : unbroken body) :
    Embodies cfg ext A place (s.after place (.putObject i)) (after cfg ext (.putObject i) fs) := by
  have hw := h.wf
  have hn := hS.names _ _ ha
  have hput := put_spelled hS h ha hc hbody hu
  have hop : ObjectPut i := ⟨(C02_bucket_name_rule _).mpr hn.bucket, namesFile_slash hn.key⟩
  obtain ⟨e, _, hd⟩ := put_done hop hw hput
  obtain ⟨body', hb1, _, hb2, _⟩ := hd.body
  rw [hbody] at hb1
  cases hb1
  rw [stored_names hn] at hb2
  have hs' : s.after place (.putObject i) =
      { s with
        bytes := setBytes s.bytes (place i.bucket i.key) (some (received body))
        folder := fun q => s.folder q || onTheWay q (place i.bucket i.key)
        record := match i.metadata with
          | none => s.record
          | some m => upd s.record i.bucket i.key (.is m) } := by
    have hu' : ¬ none ∈ body := hu
    simp only [Machine.after, hbody, hc, Bool.true_eq_false, if_false, if_neg hu']
    cases i.metadata <;> rfl
  rw [hs']
  have hmeta := put_meta hl hop hv hw hput
  have hrd : ¬ IsDir (after cfg ext (.putObject i) fs) (cfg.root ++ [metadataName i.bucket i.key]) := by
    cases hm : i.metadata with
    | some m => exact content_not_dir (hd.md m hm)
    | none =>
      have hf := op_frame cfg ext (.putObject i) (fun _ h => h) hw
      have hno : ¬ opOwn cfg (.putObject i) (cfg.root ++ [metadataName i.bucket i.key]) := by
        rintro (h | h | h)
        · rcases h.2 with h | h
          · rw [objP_names hn] at h
            exact place_not_hidden hn.inside _ h.symm
          · rw [hm] at h; cases h.1
        · exact h
        · exact h
      intro hx
      rcases hf.node _ hno with e | ⟨hu, _⟩
      · exact h.noDir _ _ ha (e.symm.trans hx)
      · exact place_not_meta hn.inside _ _ (up_way (o := .putObject i) hS ha ⟨rfl, rfl⟩ hu).2.1
  refine embodies_write hS h ha (o := .putObject i) ⟨rfl, rfl⟩ ?_ (content_not_dir hb2) ?_ ?_ hrd ?_ ?_ ?_
    (parts_stay hS h ha (o := .putObject i) ⟨rfl, rfl⟩ (.inl ⟨_, rfl⟩) rfl)
  · rw [hb2]; simp [setBytes]
  · intro q hq
    simp [setBytes, hq]
  · rw [hmeta]
    cases i.metadata with
    | none => exact h.record _ _ ha
    | some m => simp [upd_self, Record.found]
  · intro b' k' hne
    cases i.metadata with
    | none => rfl
    | some m =>
      refine upd_other ?_
      intro e
      cases e
      exact hne ⟨rfl, rfl⟩
  · intro q _ hq
    simp [hq]
  · intro q _ hq
    simp only [hq, Bool.or_true, iff_true]
    have hfile : ∃ x, (after cfg ext (.putObject i) fs).lookup (cfg.root ++ place i.bucket i.key) = some x := by
      cases hx : (after cfg ext (.putObject i) fs).lookup (cfg.root ++ place i.bucket i.key) with
      | none => rw [contentAt, hx] at hb2; cases hb2
      | some x => exact ⟨x, rfl⟩
    obtain ⟨x, hx⟩ := hfile
    obtain ⟨h1, h2⟩ := onTheWay_iff.mp hq
    exact (run_wf cfg _ hw).above hx ((List.prefix_append_right_inj _).mpr h1) fun e => h2 (List.append_cancel_left e)

theorem metaAt_of {a b : FS} {m : Path} (h1 : b.lookup m = a.lookup m) (h2 : contentAt b m = contentAt a m) :
    metaAt ext b m = metaAt ext a m := by
  rw [contentAt, contentAt, h1] at h2
  rw [metaAt, metaAt, h1]
  cases hl : a.lookup m with
  | none => rfl
  | some x => cases x with
    | dir => rfl
    | file i =>
      rw [hl] at h2
      simp only at h2 ⊢
      rw [Option.some.inj h2]

theorem create_embodies (hS : Spelled cfg.root A place) (h : Embodies cfg ext A place s fs) {b : Bytes} (hb : LegalBucket b) :
    Embodies cfg ext A place (s.after place (.createBucket b)) (after cfg ext (.createBucket b) fs) := by
  obtain ⟨h1, h2⟩ := C22_create_bucket (cfg := cfg) (ext := ext) h.wf h.root hb
  rw [bucket_shown h hb] at h1 h2
  cases hf : s.folder [b] with
  | true =>
    rw [(h1 (by simp [hf])).2]
    have : s.after place (.createBucket b) = s := by
      simp only [Machine.after]
      have : (fun q => s.folder q || decide (q = [b])) = s.folder := by
        funext q
        by_cases e : q = [b]
        · rw [e, hf]; rfl
        · simp [e]
      rw [this]
    rw [this]
    exact h
  | false =>
    obtain ⟨_, hl, hc, _⟩ := h2 (by simp [hf])
    have node : ∀ q, q ≠ [b] → (after cfg ext (.createBucket b) fs).lookup (cfg.root ++ q) = fs.lookup (cfg.root ++ q) := by
      intro q hq
      rw [hl, if_neg]
      intro e
      exact hq (List.append_cancel_left e)
    have hp : ∀ b' k', A b' k' → place b' k' ≠ [b] := by
      intro b' k' ha e
      obtain ⟨c, d, r, hp, _⟩ := (hS.names b' k' ha).inside
      rw [hp] at e; simp at e
    have hm : ∀ b' k', [metadataName b' k'] ≠ [b] := by
      intro b' k' e
      exact metaFile_ne_bucket cfg b' k' ((C02_bucket_name_rule b).mpr hb) (by rw [metaFile, e])
    have hpt : ∀ u n, [partName u n] ≠ [b] := by
      intro u n e
      exact bucket_not_part (cfg := cfg) (u := u) (n := n) ((C02_bucket_name_rule b).mpr hb) (by rw [partFile, e]; exact List.prefix_refl _)
    refine ⟨run_wf cfg _ h.wf, ?_, ?_, ?_, ?_, ?_, ?_, fun u n hu => ⟨by rw [hc]; exact (h.parts u n hu).1, by
      rw [IsDir, node _ (hpt u n)]; exact (h.parts u n hu).2⟩⟩
    · have := node [] (by simp)
      rw [List.append_nil] at this
      rw [IsDir, this]; exact h.root
    · intro b' k' ha
      rw [hc]; exact h.bytes b' k' ha
    · intro b' k' ha
      rw [IsDir, node _ (hp b' k' ha)]; exact h.free b' k' ha
    · intro b' k' ha
      rw [storedMeta, metaAt_of (node _ (hm b' k')) (hc _)]
      exact h.record b' k' ha
    · intro b' k' ha
      rw [IsDir, node _ (hm b' k')]; exact h.noDir b' k' ha
    · intro q hq
      rw [hc]
      refine ⟨?_, (h.folders q hq).2⟩
      by_cases e : q = [b]
      · subst e
        rw [IsDir, hl, if_pos (show cfg.root ++ [b] = bucketDir cfg b from rfl)]
        simp [Machine.after]
      · rw [IsDir, node q e]
        simp only [Machine.after, e, decide_false, Bool.or_false]
        exact (h.folders q hq).1

theorem drop_embodies (hS : Spelled cfg.root A place) (h : Embodies cfg ext A place s fs) {b : Bytes} (hb : LegalBucket b) :
    Embodies cfg ext A place (s.after place (.deleteBucket b)) (after cfg ext (.deleteBucket b) fs) := by
  have key : (∀ q, (after cfg ext (.deleteBucket b) fs).lookup q = if below (bucketDir cfg b) q then none else fs.lookup q) ∧
      (∀ q, contentAt (after cfg ext (.deleteBucket b) fs) q = if below (bucketDir cfg b) q then none else contentAt fs q) := by
    obtain ⟨h1, h2⟩ := C23_delete_bucket_partial (cfg := cfg) (ext := ext) (fs := fs) hb
    by_cases hd : IsDir fs (bucketDir cfg b)
    · exact ⟨(h2 hd).2.1, (h2 hd).2.2.1⟩
    · rw [(h1 hd).2]
      have hgone : ∀ q, below (bucketDir cfg b) q = true → fs.lookup q = none := by
        intro q hq
        have hpre : bucketDir cfg b <+: q := List.isPrefixOf_iff_prefix.mp hq
        have hnone : fs.lookup (bucketDir cfg b) = none := by
          rw [bucket_shown h hb]
          rw [IsDir, bucket_shown h hb] at hd
          cases hf : s.folder [b] with
          | true => rw [hf] at hd; simp at hd
          | false => simp
        cases hl : fs.lookup q with
        | none => rfl
        | some x =>
          by_cases e : bucketDir cfg b = q
          · rw [← e, hnone] at hl; cases hl
          · have := h.wf.above hl hpre e
            rw [hnone] at this; cases this
      constructor
      · intro q
        by_cases e : below (bucketDir cfg b) q = true
        · rw [if_pos e, hgone q e]
        · rw [if_neg e]
      · intro q
        by_cases e : below (bucketDir cfg b) q = true
        · rw [if_pos e, contentAt, hgone q e]
        · rw [if_neg e]
  obtain ⟨hl, hc⟩ := key
  have hbelow : ∀ q, below (bucketDir cfg b) (cfg.root ++ q) = true ↔ q.head? = some b := by
    intro q
    rw [show below (bucketDir cfg b) (cfg.root ++ q) = (bucketDir cfg b).isPrefixOf (cfg.root ++ q) from rfl,
      List.isPrefixOf_iff_prefix, bucketDir, List.prefix_append_right_inj]
    cases q with
    | nil => simp
    | cons c r => simp [List.cons_prefix_cons, eq_comm]
  have node : ∀ q, q.head? ≠ some b → (after cfg ext (.deleteBucket b) fs).lookup (cfg.root ++ q) = fs.lookup (cfg.root ++ q) ∧
      contentAt (after cfg ext (.deleteBucket b) fs) (cfg.root ++ q) = contentAt fs (cfg.root ++ q) := by
    intro q hq
    have : ¬ below (bucketDir cfg b) (cfg.root ++ q) = true := fun h => hq ((hbelow q).mp h)
    exact ⟨by rw [hl, if_neg this], by rw [hc, if_neg this]⟩
  have gone : ∀ q, q.head? = some b → (after cfg ext (.deleteBucket b) fs).lookup (cfg.root ++ q) = none ∧
      contentAt (after cfg ext (.deleteBucket b) fs) (cfg.root ++ q) = none := by
    intro q hq
    have := (hbelow q).mpr hq
    exact ⟨by rw [hl, if_pos this], by rw [hc, if_pos this]⟩
  have hm : ∀ b' k', [metadataName b' k'].head? ≠ some b := by
    intro b' k' e
    simp only [List.head?_cons, Option.some.injEq] at e
    exact metaFile_ne_bucket cfg b' k' ((C02_bucket_name_rule b).mpr hb) (by rw [metaFile, e])
  have hpt : ∀ u n, [partName u n].head? ≠ some b := by
    intro u n e
    simp only [List.head?_cons, Option.some.injEq] at e
    exact bucket_not_part (cfg := cfg) (u := u) (n := n) ((C02_bucket_name_rule b).mpr hb) (by rw [partFile, e]; exact List.prefix_refl _)
  refine ⟨run_wf cfg _ h.wf, ?_, ?_, ?_, ?_, ?_, ?_, fun u n hu => ⟨by rw [(node _ (hpt u n)).2]; exact (h.parts u n hu).1, by
    rw [IsDir, (node _ (hpt u n)).1]; exact (h.parts u n hu).2⟩⟩
  · have := (node [] (by simp)).1
    rw [List.append_nil] at this
    rw [IsDir, this]; exact h.root
  · intro b' k' ha
    simp only [Machine.after]
    by_cases e : (place b' k').head? = some b
    · rw [if_pos e, (gone _ e).2]
    · rw [if_neg e, (node _ e).2]; exact h.bytes b' k' ha
  · intro b' k' ha
    by_cases e : (place b' k').head? = some b
    · rw [IsDir, (gone _ e).1]; simp
    · rw [IsDir, (node _ e).1]; exact h.free b' k' ha
  · intro b' k' ha
    rw [storedMeta, metaAt_of (node _ (hm b' k')).1 (node _ (hm b' k')).2]
    exact h.record b' k' ha
  · intro b' k' ha
    rw [IsDir, (node _ (hm b' k')).1]; exact h.noDir b' k' ha
  · intro q hq
    simp only [Machine.after]
    by_cases e : q.head? = some b
    · rw [IsDir, (gone _ e).1, (gone _ e).2]
      simp [e]
    · rw [IsDir, (node _ e).1, (node _ e).2]
      simp only [e, ne_eq, not_false_eq_true, decide_true, Bool.and_true]
      exact h.folders q hq

/-- **C131** (steps) Whatever the request, the file tree afterwards shows the state the machine goes to. -/
theorem C131_step (hl : MetaLaw ext) (he : ext.metaDec [] = none) (hS : Spelled cfg.root A place)
    (h : Embodies cfg ext A place s fs) {o : Op} (ho : Served A o ∨ Watching o) :
    Embodies cfg ext A place (s.after place o) (after cfg ext o fs) := by
  have hw := h.wf
  by_cases hwa : Watching o
  · have : s.after place o = s := by cases o <;> first | rfl | exact hwa.elim
    rw [this]
    exact watching_embodies hS h hwa
  replace ho : Served A o := ho.resolve_right hwa
  cases o <;> simp only [Served] at ho <;> simp only [Watching, not_true] at hwa
  case putObject i =>
    obtain ⟨ha, hv⟩ := ho
    have stays : run cfg (putObject cfg ext i) fs = ((run cfg (putObject cfg ext i) fs).1, fs) → s.after place (.putObject i) = s →
        Embodies cfg ext A place (s.after place (.putObject i)) (after cfg ext (.putObject i) fs) := by
      intro h1 h2
      rw [h2, after_put, h1]
      exact h
    cases hb : i.body with
    | none =>
      refine stays ?_ (by simp only [Machine.after, hb])
      simp only [putObject, hb]
      split <;> rfl
    | some body =>
      cases hc : classKnown i with
      | false =>
        refine stays ?_ (by simp only [Machine.after, hb, hc, if_true])
        rw [classKnown_iff] at hc
        simp only [putObject, hc, Bool.not_false, if_true]
        rfl
      | true =>
        by_cases hu : none ∈ body
        · rw [(put_breaks hS h ha hc hb (fun h => h hu)).2]
          have hput := put_embodies hl hS h (i := { i with body := some [some (received body)], metadata := none }) ha
            (fun m hm => by cases hm) hc rfl (by simp [unbroken])
          have heq : s.after place (.putObject i)
              = s.after place (.putObject { i with body := some [some (received body)], metadata := none }) := by
            have hc' : classKnown { i with body := some [some (received body)], metadata := none } = true := hc
            simp only [Machine.after, hb, hc, hc', Bool.true_eq_false, if_false, if_pos hu, received, List.append_nil]
            cases i.metadata <;> rfl
          rw [heq]
          exact hput
        · exact put_embodies hl hS h ha hv hc hb hu
  case deleteObject b k =>
    exact delete_embodies hS h ho
  case deleteObjects b ks =>
    obtain ⟨fs', h1, h2⟩ := deleteObjects_machine (ext := ext) hS h ho
    have : after cfg ext (.deleteObjects b ks) fs = fs' := by
      rw [after, opProg, run_bind, h1]
      cases (deleteEach place b s.bytes (holding place s.bytes b ks)).1 <;> rfl
    rw [this]
    exact h2
  case createMultipartUpload id => exact h
  case uploadPart u n body =>
    cases body with
    | none => exact h
    | some body => exact part_embodies hS h ho.1 ho.2
  case completeMultipartUpload b k u l =>
    cases l with
    | none => exact h
    | some l =>
      simp only [Machine.after]
      cases hf : s.folder (place b k).dropLast with
      | false =>
        rw [after_complete, complete_no_folder hS h ho.1 hf]
        exact h
      | true => exact complete_embodies hS h ho.1 ho.2 hf l
  case copyObject b k src =>
    obtain ⟨ha, sb, sk, hsrc, has⟩ := ho
    cases hs : s.bytes (place sb sk) with
    | none =>
      simp only [Machine.after, hsrc, hs]
      rw [after_copy, copy_no_source hS h ha hsrc has hs]
      exact h
    | some c =>
      cases hf : s.folder (place b k).dropLast with
      | false =>
        simp only [Machine.after, hsrc, hs, hf, Bool.false_eq_true, if_false]
        rw [after_copy, copy_no_folder hS h ha hsrc has hf]
        exact h
      | true =>
        simp only [Machine.after, hsrc, hs, hf, if_true]
        obtain ⟨e, fs', hrun, hmd, hnd'⟩ := copy_spelled hS he h ha hsrc has hs hf
        have hafter : after cfg ext (.copyObject b k src) fs = fs' := by rw [after_copy, hrun]
        have hnd := hS.names b k ha
        have hns := hS.names sb sk has
        obtain ⟨c', src', dst', h1, h2, h3, h4, _, _⟩ := copy_done ((C02_bucket_name_rule b).mpr hnd.bucket) hsrc
          (fun q hq e => by
            rw [objP_names hns] at hq
            exact place_not_hidden hns.inside _ (hq ▸ e)) hw hrun
        rw [objectPath_names cfg hns] at h1
        rw [objectPath_names cfg hnd] at h2
        cases h1; cases h2
        rw [stored_names hns, h.bytes sb sk has, hs] at h3
        cases h3
        rw [stored_names hnd, ← hafter] at h4
        refine embodies_write hS h ha (o := .copyObject b k src) ⟨rfl, rfl⟩ ?_ (content_not_dir h4) ?_ ?_ ?_ ?_ ?_ ?_
          (parts_stay hS h ha (o := .copyObject b k src) ⟨rfl, rfl⟩ (.inr (.inr ⟨_, _, _, rfl⟩)) rfl)
        · rw [h4]
          simp only [setBytes, if_true, copied]
          by_cases e : place b k = place sb sk
          · rw [if_pos e, if_pos (by rw [e])]
          · rw [if_neg e, if_neg fun e' => e (List.append_cancel_left e').symm]
        · intro q hq
          simp [setBytes, hq]
        · rw [hafter, hmd]
          cases s.record sb sk <;> simp [upd_self]
        · rw [hafter]; exact hnd'
        · intro b' k' hne
          have : (b, k) ≠ (b', k') := by
            intro e; cases e; exact hne ⟨rfl, rfl⟩
          cases s.record sb sk <;> first | rfl | exact upd_other this
        · intro q _ _; rfl
        · intro q hq _
          exact folders_stay hS h ha (o := .copyObject b k src) ⟨rfl, rfl⟩ (fun i e => by cases e) hq
  case createBucket b =>
    exact create_embodies hS h ho
  case deleteBucket b =>
    exact drop_embodies hS h ho

/-- **C131** For every history of requests, each of which is about the addresses in `A` (in any spelling), about a bucket,
or only reads: the file tree keeps showing the state of the machine, and every further request about `A` or a bucket
gets exactly the answer of the machine. Uploads that break off, copies of an object onto itself, copies into folders that
do not exist, ranges, uploads in parts, completions that fail, the deletion of several objects and the removal of buckets
are included. -/
theorem C131_machine (hl : MetaLaw ext) (he : ext.metaDec [] = none) (hS : Spelled cfg.root A place)
    (h : Embodies cfg ext A place s fs) (os : List Op) (hos : ∀ o ∈ os, Served A o ∨ Watching o) :
    Embodies cfg ext A place (s.afterAll place os) (afterAll cfg ext os fs) ∧
    ∀ o, Served A o → (s.afterAll place os).answer ext place o = some (answer cfg ext o (afterAll cfg ext os fs)) := by
  have key : Embodies cfg ext A place (s.afterAll place os) (afterAll cfg ext os fs) := by
    induction os generalizing s fs with
    | nil => exact h
    | cons o os ih =>
      exact ih (C131_step hl he hS h (hos o (by simp))) fun o' ho' => hos o' (List.mem_cons_of_mem _ ho')
  exact ⟨key, fun o ho => C131_answer hS he key ho⟩

/-- the machine at the start: no bytes, no records, no parts, no folder but the storage directory itself -/
def Spec.Machine.fresh : Machine := ⟨fun _ => none, fun q => decide (q = []), fun _ _ => .absent, fun _ _ => none⟩

theorem embodies_fresh (hS : Spelled cfg.root A place) (hw : WF fs) (hroot : IsDir fs cfg.root)
    (hempty : ∀ q, q ≠ [] → fs.lookup (cfg.root ++ q) = none) : Embodies cfg ext A place Machine.fresh fs := by
  have hp : ∀ b k, A b k → fs.lookup (cfg.root ++ place b k) = none := fun b k ha =>
    hempty _ (inBucket_ne (hS.names b k ha).inside)
  refine ⟨hw, hroot, ?_, ?_, ?_, ?_, ?_, fun u n _ => ⟨by rw [contentAt, hempty _ (by simp)]; rfl, by
    rw [IsDir, hempty _ (by simp)]; simp⟩⟩
  · intro b k ha
    rw [contentAt, hp b k ha]; rfl
  · intro b k ha
    rw [IsDir, hp b k ha]; simp
  · intro b k ha
    rw [storedMeta, metaAt, hempty _ (by simp)]; rfl
  · intro b k ha
    rw [IsDir, hempty _ (by simp)]; simp
  · intro q _
    by_cases e : q = []
    · subst e
      rw [List.append_nil]
      refine ⟨⟨fun _ => rfl, fun _ => hroot⟩, ?_⟩
      have : fs.lookup cfg.root = some .dir := hroot
      rw [contentAt, this]
    · rw [IsDir, contentAt, hempty q e]
      simp [Machine.fresh, e]

/-- **C131** (from the start) A server started on an empty directory answers like the machine that starts empty, whatever
happened in between. -/
theorem C131_from_empty (hl : MetaLaw ext) (he : ext.metaDec [] = none) (hS : Spelled cfg.root A place) (hw : WF fs)
    (hroot : IsDir fs cfg.root) (hempty : ∀ q, q ≠ [] → fs.lookup (cfg.root ++ q) = none) (os : List Op)
    (hos : ∀ o ∈ os, Served A o ∨ Watching o) (o : Op) (ho : Served A o) :
    (Machine.fresh.afterAll place os).answer ext place o = some (answer cfg ext o (afterAll cfg ext os fs)) :=
  (C131_machine hl he hS (embodies_fresh hS hw hroot hempty) os hos).2 o ho

/-! #### a sample -/

/-- three addresses: two spellings of the same place, and an object in a folder of another bucket -/
def Sample.spellings (b k : Bytes) : Prop := (b, k) ∈ [(b!"aaa", b!"x"), (b!"aaa", b!"d/../x"), (b!"bbb", b!"d/e")]

def Sample.placeOf (b _k : Bytes) : List Bytes := if b = b!"bbb" then [b!"bbb", b!"d", b!"e"] else [b!"aaa", b!"x"]

theorem Sample.spellings_cases {b k : Bytes} (h : Sample.spellings b k) :
    b = b!"aaa" ∧ k = b!"x" ∨ b = b!"aaa" ∧ k = b!"d/../x" ∨ b = b!"bbb" ∧ k = b!"d/e" := by
  simpa [Sample.spellings] using h

theorem Sample.spelled : Spelled Sample.cfg.root Sample.spellings Sample.placeOf := by
  refine ⟨?_, ?_, ?_⟩
  · intro b k h
    rcases Sample.spellings_cases h with ⟨rfl, rfl⟩ | ⟨rfl, rfl⟩ | ⟨rfl, rfl⟩ <;>
      exact Sample.names (by decide +kernel) (by decide) (by decide +kernel) (by decide +kernel)
  · intro b k b' k' h h'
    rcases Sample.spellings_cases h with ⟨rfl, rfl⟩ | ⟨rfl, rfl⟩ | ⟨rfl, rfl⟩ <;>
      rcases Sample.spellings_cases h' with ⟨rfl, rfl⟩ | ⟨rfl, rfl⟩ | ⟨rfl, rfl⟩ <;> decide +kernel
  · intro b k h
    rcases Sample.spellings_cases h with ⟨rfl, rfl⟩ | ⟨rfl, rfl⟩ | ⟨rfl, rfl⟩ <;> decide +kernel

/-- an upload with metadata; an upload that breaks off; a copy onto the same place in another spelling; a bucket removed;
a copy into a folder that is gone -/
def Sample.odd : List Op :=
  [.createBucket b!"aaa", .putObject { samplePut b!"aaa" b!"x" b!"hello" with metadata := some [(b!"a", b!"1")] },
    .putObject { samplePut b!"bbb" b!"d/e" b!"" with body := some [some b!"on", none, some b!"e"] },
    .listBuckets, .copyObject b!"aaa" b!"d/../x" b!"aaa/x", .deleteBucket b!"bbb", .copyObject b!"bbb" b!"d/e" b!"aaa/x"]

theorem Sample.odd_served : ∀ o ∈ Sample.odd, Served Sample.spellings o ∨ Watching o := by
  intro o ho
  simp only [Sample.odd, List.mem_cons, List.not_mem_nil, or_false] at ho
  have mem : ∀ {b k : Bytes}, (b, k) ∈ [(b!"aaa", b!"x"), (b!"aaa", b!"d/../x"), (b!"bbb", b!"d/e")] → Sample.spellings b k := id
  rcases ho with rfl | rfl | rfl | rfl | rfl | rfl | rfl
  · exact .inl (Sample.legal (by decide +kernel))
  · refine .inl ⟨mem (by decide), fun m hm => ?_⟩
    cases hm
    exact ⟨by decide +kernel, by decide +kernel⟩
  · exact .inl ⟨mem (by decide), fun m hm => by cases hm⟩
  · exact .inr trivial
  · exact .inl ⟨mem (by decide), _, _, (by decide +kernel : copySourceFromHeader b!"aaa/x" = .ok (b!"aaa", b!"x")), mem (by decide)⟩
  · exact .inl (Sample.legal (by decide +kernel))
  · exact .inl ⟨mem (by decide), _, _, (by decide +kernel : copySourceFromHeader b!"aaa/x" = .ok (b!"aaa", b!"x")), mem (by decide)⟩

/-- the answers of the machine after these requests: the object is empty in both spellings, its metadata is recorded under
both, the object in the removed bucket is not there, and neither is its bucket -/
theorem Sample.odd_answers :
    (Machine.fresh.afterAll Sample.placeOf Sample.odd).answer (realExt id) Sample.placeOf (.headObject b!"aaa" b!"x")
      = some (.ok (.head 0 (some [(b!"a", b!"1")]))) ∧
    (Machine.fresh.afterAll Sample.placeOf Sample.odd).answer (realExt id) Sample.placeOf (.headObject b!"aaa" b!"d/../x")
      = some (.ok (.head 0 (some [(b!"a", b!"1")]))) ∧
    (Machine.fresh.afterAll Sample.placeOf (Sample.odd.take 3)).answer (realExt id) Sample.placeOf (.headObject b!"bbb" b!"d/e")
      = some (.ok (.head 2 none)) ∧
    (Machine.fresh.afterAll Sample.placeOf Sample.odd).answer (realExt id) Sample.placeOf (.headObject b!"bbb" b!"d/e")
      = some (.err .NoSuchKey) ∧
    (Machine.fresh.afterAll Sample.placeOf Sample.odd).answer (realExt id) Sample.placeOf (.headBucket b!"bbb")
      = some (.err .NoSuchBucket) ∧
    (Machine.fresh.afterAll Sample.placeOf (Sample.odd.take 6)).answer (realExt id) Sample.placeOf (.copyObject b!"bbb" b!"d/e" b!"aaa/x")
      = some (.err .InternalError) :=
  ⟨by decide +kernel, by decide +kernel, by decide +kernel, by decide +kernel, by decide +kernel, by decide +kernel⟩

/-- uploads in parts and the deletion of several objects: the second part breaks off; the first completion has no folder to
write to; the second names a part that is not there, the third one that is used up already; two spellings of one object are
deleted -/
def Sample.pieces : List Op :=
  Sample.odd ++ [.createMultipartUpload b!"u1", .uploadPart b!"u1" 1 (some [some b!"ab", some b!"c"]), .uploadPart b!"u1" 2 (some [some b!"d", none]),
    .completeMultipartUpload b!"bbb" b!"d/e" b!"u1" (some [some 1, some 2]),
    .putObject (samplePut b!"bbb" b!"d/e" b!"old"), .completeMultipartUpload b!"bbb" b!"d/e" b!"u1" (some [some 1, some 3]),
    .getObject b!"bbb" b!"d/e" (some b!"bytes=1-") (fun _ => 7), .deleteObjects b!"aaa" [b!"x", b!"d/../x"]]

theorem Sample.pieces_served : ∀ o ∈ Sample.pieces, Served Sample.spellings o ∨ Watching o := by
  intro o ho
  rcases List.mem_append.mp ho with ho | ho
  · exact Sample.odd_served o ho
  simp only [List.mem_cons, List.not_mem_nil, or_false] at ho
  have mem : ∀ {b k : Bytes}, (b, k) ∈ [(b!"aaa", b!"x"), (b!"aaa", b!"d/../x"), (b!"bbb", b!"d/e")] → Sample.spellings b k := id
  rcases ho with rfl | rfl | rfl | rfl | rfl | rfl | rfl | rfl
  · exact .inl trivial
  · exact .inl ⟨by decide, by decide +kernel⟩
  · exact .inl ⟨by decide, by decide +kernel⟩
  · exact .inl ⟨mem (by decide), by decide⟩
  · exact .inl ⟨mem (by decide), fun m hm => by cases hm⟩
  · exact .inl ⟨mem (by decide), by decide⟩
  · exact .inr trivial
  · refine .inl fun k hk => ?_
    simp only [List.mem_cons, List.not_mem_nil, or_false] at hk
    rcases hk with rfl | rfl
    · exact mem (by decide)
    · exact mem (by decide)

/-- the answers of the machine: the failed completion has left the bytes of the first part and used it up; the second part
is what had arrived; the deletion of two spellings of one object fails, and the object is gone -/
theorem Sample.pieces_answers :
    (Machine.fresh.afterAll Sample.placeOf (Sample.pieces.take 9)).answer (realExt id) Sample.placeOf (.uploadPart b!"u1" 2 (some [some b!"d", none]))
      = some (.err .InternalError) ∧
    (Machine.fresh.afterAll Sample.placeOf (Sample.pieces.take 10)).answer (realExt id) Sample.placeOf
      (.completeMultipartUpload b!"bbb" b!"d/e" b!"u1" (some [some 1, some 2])) = some (.err .InternalError) ∧
    (Machine.fresh.afterAll Sample.placeOf (Sample.pieces.take 12)).answer (realExt id) Sample.placeOf
      (.completeMultipartUpload b!"bbb" b!"d/e" b!"u1" (some [some 1, some 2])) = some (.ok (.etag (some (quoted ((realExt id).md5hex b!"abcd"))))) ∧
    (Machine.fresh.afterAll Sample.placeOf Sample.pieces).answer (realExt id) Sample.placeOf
      (.getObject b!"bbb" b!"d/e" (some b!"bytes=1-") fun _ => 7)
      = some (.ok (.object 2 none (quoted ((realExt id).md5hex b!"abc")) (some b!"bc"))) ∧
    (Machine.fresh.afterAll Sample.placeOf Sample.pieces).answer (realExt id) Sample.placeOf
      (.getObject b!"bbb" b!"d/e" (some b!"bytes=3-") fun _ => 7) = some (.err .InvalidRange) ∧
    (Machine.fresh.afterAll Sample.placeOf Sample.pieces).answer (realExt id) Sample.placeOf
      (.completeMultipartUpload b!"bbb" b!"d/e" b!"u1" (some [some 1, some 2])) = some (.err .InternalError) ∧
    (Machine.fresh.afterAll Sample.placeOf (Sample.pieces.take 14)).answer (realExt id) Sample.placeOf (.deleteObjects b!"aaa" [b!"x", b!"d/../x"])
      = some (.err .InternalError) ∧
    (Machine.fresh.afterAll Sample.placeOf Sample.pieces).answer (realExt id) Sample.placeOf (.deleteObjects b!"aaa" [b!"x", b!"d/../x"])
      = some (.ok (.keys [])) :=
  ⟨by decide +kernel, by decide +kernel, by decide +kernel, by decide +kernel, by decide +kernel, by decide +kernel,
    by decide +kernel, by decide +kernel⟩

theorem Sample.emptyStore_wf : WF Sample.emptyStore := run_wf _ _ Sample.empty_wf

theorem Sample.emptyStore_root : IsDir Sample.emptyStore Sample.cfg.root := by unfold IsDir; decide +kernel

theorem Sample.emptyStore_bare : ∀ q, q ≠ [] → Sample.emptyStore.lookup (Sample.cfg.root ++ q) = none := by
  intro q hq
  have hn : Sample.emptyStore.nodes = [([b!"srv"], .dir)] := by decide +kernel
  have : ¬ ([b!"srv"] = Sample.cfg.root ++ q) := by
    intro e
    have := congrArg List.length e
    simp [Sample.cfg] at this
    exact hq this
  simp only [FS.lookup, hn]
  rw [if_neg (by simp [hq])]
  simp only [List.find?_cons]
  rw [show (([b!"srv"] : Path) == Sample.cfg.root ++ q) = false by simpa using this]
  rfl

example : MetaLaw (realExt id) ∧ (realExt id).metaDec [] = none ∧ Spelled Sample.cfg.root Sample.spellings Sample.placeOf ∧
    WF Sample.emptyStore ∧ IsDir Sample.emptyStore Sample.cfg.root ∧
    (∀ q, q ≠ [] → Sample.emptyStore.lookup (Sample.cfg.root ++ q) = none) ∧
    (∀ o ∈ Sample.pieces, Served Sample.spellings o ∨ Watching o) ∧ Served Sample.spellings (.headObject b!"aaa" b!"d/../x") ∧
    Sample.placeOf b!"aaa" b!"x" = Sample.placeOf b!"aaa" b!"d/../x" :=
  ⟨realExt_law (fun m => List.Perm.refl m), by decide +kernel, Sample.spelled, Sample.emptyStore_wf, Sample.emptyStore_root,
    Sample.emptyStore_bare, Sample.pieces_served, (by decide : _ ∈ _), rfl⟩

end S3
