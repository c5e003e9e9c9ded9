import Verif.Spec.Machine
import Verif.Lemmas.Place
import Verif.Props.Place
import Verif.Props.History
import Verif.Props.Buckets
import Verif.Props.Packets
/-! The requests of the abstract machine, on the file tree. -/
namespace S3
open Spec

variable {cfg : Cfg} {ext : Ext}

/-! ### names -/

theorem onTheWay_iff {q p : List Bytes} : onTheWay q p = true ↔ q <+: p ∧ q ≠ p := by simp [onTheWay]

theorem way_head {A : Bytes → Bytes → Prop} {place : Bytes → Bytes → List Bytes} (hS : Spelled cfg.root A place)
    {q : List Bytes} (h : Way A place q) : q = [] ∨ ∃ c r, q = c :: r ∧ checkBucketName c = true := by
  rcases h with ⟨b, k, ha, ho⟩ | ⟨b, hb, rfl⟩
  · cases q with
    | nil => exact .inl rfl
    | cons c r =>
      obtain ⟨c', d, r', hp, hc⟩ := (hS.names b k ha).inside
      have h1 := (onTheWay_iff.mp ho).1
      rw [hp] at h1
      obtain rfl := (List.cons_prefix_cons.mp h1).1
      exact .inr ⟨c, r, rfl, (C02_bucket_name_rule _).mpr hc⟩
  · exact .inr ⟨b, [], rfl, (C02_bucket_name_rule _).mpr hb⟩

theorem head_ne_meta {q : List Bytes} (h : q = [] ∨ ∃ c r, q = c :: r ∧ checkBucketName c = true) (b k : Bytes) :
    cfg.root ++ q ≠ metaFile cfg b k := by
  rcases h with rfl | ⟨c, r, rfl, hc⟩
  · intro e
    have := congrArg List.length e
    simp [metaFile] at this
  · intro e
    exact meta_not_prefix hc (pfx_of_eq e.symm)

theorem head_ne_part {q : List Bytes} (h : q = [] ∨ ∃ c r, q = c :: r ∧ checkBucketName c = true) (u : Bytes) (n : Int) :
    cfg.root ++ q ≠ cfg.root ++ [partName u n] := by
  rcases h with rfl | ⟨c, r, rfl, hc⟩
  · intro e
    have := congrArg List.length e
    simp at this
  · intro e
    exact part_not_prefix (u := u) (n := n) hc (pfx_of_eq e.symm)

theorem place_head {p : List Bytes} (h : InBucket p) : p = [] ∨ ∃ c r, p = c :: r ∧ checkBucketName c = true := by
  obtain ⟨c, d, r, rfl, hc⟩ := h
  exact .inr ⟨c, d :: r, rfl, (C02_bucket_name_rule _).mpr hc⟩

section
variable {A : Bytes → Bytes → Prop} {place : Bytes → Bytes → List Bytes} {s s' : Machine} {fs fs' : FS}

/-- a folder that matters is not the place of an address -/
theorem way_not_place (hS : Spelled cfg.root A place) {q : List Bytes} (h : Way A place q) {b k : Bytes} (ha : A b k) :
    q ≠ place b k := by
  rintro rfl
  rcases h with ⟨b', k', ha', ho⟩ | ⟨b', _, hp⟩
  · have := hS.flat b k b' k' ha ha'
    rw [this] at ho; cases ho
  · obtain ⟨c, d, r, hp', _⟩ := (hS.names b k ha).inside
    rw [hp'] at hp; simp at hp

/-- the parts are those of the machine -/
def PartsOf (cfg : Cfg) (s : Machine) (fs : FS) : Prop :=
  ∀ u n, (47 : UInt8) ∉ u → contentAt fs (cfg.root ++ [partName u n]) = s.parts u n ∧ ¬ IsDir fs (cfg.root ++ [partName u n])

/-- parts that are not touched -/
theorem parts_frame {own up : Path → Prop} (h : PartsOf cfg s fs) (hw : WF fs) (hf : Frame own up fs fs')
    (hown : ∀ u n, ¬ own (cfg.root ++ [partName u n])) (hup : ∀ u n, ¬ up (cfg.root ++ [partName u n])) : PartsOf cfg s fs' := by
  intro u n hu
  obtain ⟨h1, h2⟩ := h u n hu
  refine ⟨(frame_content hw hf (hown u n)).trans h1, fun hd => ?_⟩
  rcases hf.node _ (hown u n) with e | ⟨e, _⟩
  · exact h2 (e.symm.trans hd)
  · exact hup u n e

/-- steps that leave alone what matters -/
theorem embodies_frame {own : Path → Prop} (hS : Spelled cfg.root A place) (h : Embodies cfg ext A place s fs) (hw' : WF fs')
    (hf : Frame own (fun _ => False) fs fs')
    (hown : ∀ q, own (cfg.root ++ q) → ∃ u n, q = [partName u n]) {parts : Bytes → Int → Option Bytes}
    (hp : PartsOf cfg { s with parts := parts } fs') : Embodies cfg ext A place { s with parts := parts } fs' := by
  have keep : ∀ q, (q = [] ∨ ∃ c r, q = c :: r ∧ checkBucketName c = true) → ¬ own (cfg.root ++ q) := by
    intro q hq ho
    obtain ⟨u, n, rfl⟩ := hown q ho
    exact head_ne_part (cfg := cfg) hq u n rfl
  have node : ∀ q, ¬ own q → fs'.lookup q = fs.lookup q := by
    intro q hq
    rcases hf.node q hq with e | e
    · exact e
    · exact e.1.elim
  have hm : ∀ b k, ¬ own (cfg.root ++ [metadataName b k]) := by
    intro b k ho
    obtain ⟨u, n, e⟩ := hown _ ho
    exact metaFile_ne_partFile (cfg := cfg) (b := b) (k := k) (u := u) (n := n) (by rw [metaFile, e]; rfl)
  have obj : ∀ b k, A b k → ¬ own (cfg.root ++ place b k) := fun b k ha => keep _ (place_head (hS.names b k ha).inside)
  refine ⟨hw', ?_, ?_, ?_, ?_, ?_, ?_, hp⟩
  · have := node cfg.root (by simpa using keep [] (.inl rfl))
    rw [IsDir, this]; exact h.root
  · intro b k ha
    rw [frame_content h.wf hf (obj b k ha)]; exact h.bytes b k ha
  · intro b k ha
    rw [IsDir, node _ (obj b k ha)]; exact h.free b k ha
  · intro b k ha
    rw [← h.record b k ha]
    exact metaAt_same (frame_same hf (hm b k) (.inl fun h => h)) h.wf
  · intro b k ha
    rw [IsDir, node _ (hm b k)]; exact h.noDir b k ha
  · intro q hq
    have hk := keep q (way_head hS hq)
    rw [frame_content h.wf hf hk, IsDir, node _ hk]
    exact h.folders q hq

theorem watching_embodies (hS : Spelled cfg.root A place) (h : Embodies cfg ext A place s fs) {o : Op} (ho : Watching o) :
    Embodies cfg ext A place s (after cfg ext o fs) := by
  have hf := op_frame cfg ext o (by intro q hq; cases o <;> first | exact hq.elim | exact ho.elim) h.wf
  have hup : (opPerm cfg o).up = fun _ => False := by
    cases o <;> first | rfl | exact ho.elim
  have hown : ∀ q, ¬ opOwn cfg o q := by
    intro q hq
    cases o <;> first
      | exact ho.elim
      | (rcases hq with hq | hq | hq <;> exact hq.elim)
  rw [hup] at hf
  exact embodies_frame hS h (run_wf cfg _ h.wf) hf (fun q hq => (hown _ hq).elim)
    (parts_frame h.parts h.wf hf (fun _ _ => hown _) fun _ _ h => h)

/-- what a request that writes the address (b, k) leaves alone -/
theorem own_not (hS : Spelled cfg.root A place) {b k : Bytes} (ha : A b k) {o : Op} (ho : WritesTo b k o) :
    (∀ q, (q = [] ∨ ∃ c r, q = c :: r ∧ checkBucketName c = true) → q ≠ place b k → ¬ opOwn cfg o (cfg.root ++ q)) ∧
    (∀ b' k', ¬ (b' = b ∧ k' = k) → ¬ opOwn cfg o (metaFile cfg b' k')) := by
  have hn := hS.names b k ha
  constructor
  · intro q hq hne h
    rcases own_names hn ho h with h | h | ⟨u, n, _, h⟩
    · exact hne (List.append_cancel_left h)
    · exact head_ne_meta hq _ _ h
    · exact head_ne_part (cfg := cfg) hq u n h
  · intro b' k' hdiff h
    rcases own_names hn ho h with h | h | ⟨u, n, hp, h⟩
    · exact place_not_hidden hn.inside _ h.symm
    · simp only [metaFile, List.append_cancel_left_eq, List.cons.injEq, and_true] at h
      exact hdiff (metadataName_inj h)
    · exact metaFile_ne_part cfg b' k' hp rfl

/-- requests that write objects do not write parts -/
theorem own_not_part (hS : Spelled cfg.root A place) {b k : Bytes} (ha : A b k) {o : Op} (ho : WritesTo b k o)
    (hp : (∃ i, o = .putObject i) ∨ (∃ b k, o = .deleteObject b k) ∨ ∃ b k src, o = .copyObject b k src) (u : Bytes) (n : Int) :
    ¬ opOwn cfg o (cfg.root ++ [partName u n]) := by
  have hn := hS.names b k ha
  have hobj : ¬ objP cfg b k (cfg.root ++ [partName u n]) := fun h =>
    place_not_hidden hn.inside _ ((objP_names hn).mp h).symm
  have hmeta : ¬ metaP cfg b k (cfg.root ++ [partName u n]) := fun h =>
    metaFile_ne_partFile (cfg := cfg) (b := b) (k := k) (u := u) (n := n) (show metaFile cfg b k = partFile cfg u n from Eq.symm h)
  rcases hp with ⟨i, rfl⟩ | ⟨b', k', rfl⟩ | ⟨b', k', src, rfl⟩
  · obtain ⟨rfl, rfl⟩ := ho
    rintro (h | h | h)
    · rcases h.2 with h | h
      · exact hobj h
      · exact hmeta h.2
    · exact h
    · exact h
  · obtain ⟨rfl, rfl⟩ := ho
    rintro (h | h | h)
    · exact h
    · exact hobj h.2
    · exact hobj h.2
  · obtain ⟨rfl, rfl⟩ := ho
    rintro (h | h | h)
    · rcases h with h | h
      · exact hobj h
      · exact hmeta h
    · exact h
    · exact h

/-- the directories a request that writes (b, k) may create -/
theorem up_way (hS : Spelled cfg.root A place) {b k : Bytes} (ha : A b k) {o : Op} (ho : WritesTo b k o) {q : Path}
    (h : (opPerm cfg o).up q) : (∃ i, o = .putObject i) ∧ q <+: cfg.root ++ place b k ∧ q ≠ cfg.root ++ place b k := by
  cases o with
  | putObject i =>
    obtain ⟨rfl, rfl⟩ := ho
    obtain ⟨p, hp, hd⟩ := h
    have hn := hS.names _ _ ha
    rw [objP_names hn] at hp
    subst hp
    rw [namesFile_slash hn.key] at hd
    simp only [Bool.false_eq_true, if_false] at hd
    refine ⟨⟨i, rfl⟩, hd.trans (List.dropLast_prefix _), ?_⟩
    rintro rfl
    have := hd.length_le
    have hne := List.length_pos_iff.mpr (inBucket_ne hn.inside)
    simp at this
    omega
  | _ => first | exact h.elim | exact ho.elim

/-- requests that write objects leave the parts as they are -/
theorem parts_stay (hS : Spelled cfg.root A place) (h : Embodies cfg ext A place s fs) {b k : Bytes} (ha : A b k) {o : Op}
    (ho : WritesTo b k o)
    (hp : (∃ i, o = .putObject i) ∨ (∃ b k, o = .deleteObject b k) ∨ ∃ b k src, o = .copyObject b k src)
    (hs : s'.parts = s.parts) : PartsOf cfg s' (after cfg ext o fs) := by
  have ht : ∀ q, ¬ (opPerm cfg o).tree q := by
    intro q h
    cases o <;> first | exact h.elim | exact ho.elim
  have : PartsOf cfg s (after cfg ext o fs) := by
    refine parts_frame h.parts h.wf (op_frame cfg ext o ht h.wf) (own_not_part hS ha ho hp) fun u n hu => ?_
    obtain ⟨-, h1, h2⟩ := up_way hS ha ho hu
    have h3 := (List.prefix_append_right_inj _).mp h1
    obtain ⟨c, d, r, hpl, hc⟩ := (hS.names b k ha).inside
    rw [hpl] at h3
    obtain rfl := (List.cons_prefix_cons.mp h3).1
    exact bucket_not_part (cfg := cfg) (u := u) (n := n) ((C02_bucket_name_rule _).mpr hc) (List.prefix_refl _)
  intro u n hu
  rw [hs]
  exact this u n hu

/-- a request that writes (b, k) keeps the relation, if it does so for what it writes -/
theorem embodies_write (hS : Spelled cfg.root A place) (h : Embodies cfg ext A place s fs) {b k : Bytes} (ha : A b k) {o : Op}
    (ho : WritesTo b k o)
    (hb : contentAt (after cfg ext o fs) (cfg.root ++ place b k) = s'.bytes (place b k))
    (hd : ¬ IsDir (after cfg ext o fs) (cfg.root ++ place b k))
    (hb' : ∀ q, q ≠ place b k → s'.bytes q = s.bytes q)
    (hr : storedMeta cfg ext (after cfg ext o fs) b k = (s'.record b k).found)
    (hrd : ¬ IsDir (after cfg ext o fs) (cfg.root ++ [metadataName b k]))
    (hr' : ∀ b' k', ¬ (b' = b ∧ k' = k) → s'.record b' k' = s.record b' k')
    (hq : ∀ q, Way A place q → onTheWay q (place b k) = false → s'.folder q = s.folder q)
    (hq' : ∀ q, Way A place q → onTheWay q (place b k) = true →
      (IsDir (after cfg ext o fs) (cfg.root ++ q) ↔ s'.folder q = true))
    (hp : PartsOf cfg s' (after cfg ext o fs)) :
    Embodies cfg ext A place s' (after cfg ext o fs) := by
  have hw := h.wf
  have ht : ∀ q, ¬ (opPerm cfg o).tree q := by
    intro q h
    cases o <;> first | exact h.elim | exact ho.elim
  have hf := op_frame cfg ext o ht hw
  obtain ⟨own1, own2⟩ := own_not (cfg := cfg) hS ha ho
  have hn := hS.names b k ha
  have flat : ∀ b' k', A b' k' → ¬ (cfg.root ++ place b' k' <+: cfg.root ++ place b k ∧ cfg.root ++ place b' k' ≠ cfg.root ++ place b k) := by
    intro b' k' ha' hx
    have h1 := hS.flat b' k' b k ha' ha
    have : onTheWay (place b' k') (place b k) = true :=
      onTheWay_iff.mpr ⟨(List.prefix_append_right_inj _).mp hx.1, fun e => hx.2 (by rw [e])⟩
    rw [h1] at this; cases this
  refine ⟨run_wf cfg _ hw, ?_, ?_, ?_, ?_, ?_, ?_, hp⟩
  · have h1 := own1 [] (.inl rfl) (fun e => inBucket_ne hn.inside e.symm)
    rw [List.append_nil] at h1
    rcases hf.node _ h1 with e | ⟨_, _, e⟩
    · exact e.trans h.root
    · exact e
  · intro b' k' ha'
    by_cases e : place b' k' = place b k
    · rw [e]; exact hb
    · rw [hb' _ e, ← h.bytes b' k' ha']
      exact frame_content hw hf (own1 _ (place_head (hS.names b' k' ha').inside) e)
  · intro b' k' ha'
    by_cases e : place b' k' = place b k
    · rw [e]; exact hd
    · rcases hf.node _ (own1 _ (place_head (hS.names b' k' ha').inside) e) with e' | ⟨hu, _⟩
      · intro hx
        exact h.free b' k' ha' (e'.symm.trans hx)
      · exact absurd (up_way hS ha ho hu).2 (flat b' k' ha')
  · intro b' k' ha'
    by_cases e : b' = b ∧ k' = k
    · obtain ⟨rfl, rfl⟩ := e; exact hr
    · rw [hr' _ _ e, ← h.record b' k' ha']
      refine metaAt_same (frame_same hf (own2 b' k' e) (.inl fun hu => ?_)) hw
      exact place_not_meta hn.inside b' k' (up_way hS ha ho hu).2.1
  · intro b' k' ha'
    by_cases e : b' = b ∧ k' = k
    · obtain ⟨rfl, rfl⟩ := e; exact hrd
    · rcases hf.node _ (own2 b' k' e) with e' | ⟨hu, _⟩
      · intro hx
        exact h.noDir b' k' ha' (e'.symm.trans hx)
      · exact absurd (up_way hS ha ho hu).2.1 (place_not_meta hn.inside b' k')
  · intro q hwq
    have hown := own1 q (way_head hS hwq) (way_not_place hS hwq ha)
    refine ⟨?_, by rw [show contentAt (after cfg ext o fs) _ = _ from frame_content hw hf hown]; exact (h.folders q hwq).2⟩
    cases hx : onTheWay q (place b k) with
    | true => exact hq' q hwq hx
    | false =>
      rw [hq q hwq hx]
      rcases hf.node _ hown with e' | ⟨hu, _⟩
      · rw [← (h.folders q hwq).1]
        exact ⟨fun hx => e'.symm.trans hx, fun hx => e'.trans hx⟩
      · have h2 := (up_way hS ha ho hu).2
        have : onTheWay q (place b k) = true :=
          onTheWay_iff.mpr ⟨(List.prefix_append_right_inj _).mp h2.1, fun e => h2.2 (by rw [e])⟩
        rw [hx] at this; cases this

/-- what stays of the folders when a request that creates none writes (b, k) -/
theorem folders_stay (hS : Spelled cfg.root A place) (h : Embodies cfg ext A place s fs) {b k : Bytes} (ha : A b k) {o : Op}
    (ho : WritesTo b k o) (hnp : ∀ i, o ≠ .putObject i) {q : List Bytes} (hwq : Way A place q) :
    IsDir (after cfg ext o fs) (cfg.root ++ q) ↔ s.folder q = true := by
  have ht : ∀ q, ¬ (opPerm cfg o).tree q := by
    intro q h
    cases o <;> first | exact h.elim | exact ho.elim
  have hf := op_frame cfg ext o ht h.wf
  have hown := (own_not (cfg := cfg) hS ha ho).1 q (way_head hS hwq) (way_not_place hS hwq ha)
  rw [← (h.folders q hwq).1]
  rcases hf.node _ hown with e' | ⟨hu, _⟩
  · exact ⟨fun hx => e'.symm.trans hx, fun hx => e'.trans hx⟩
  · obtain ⟨i, hi⟩ := (up_way hS ha ho hu).1
    exact absurd hi (hnp i)

/-! ### what is in the way of an upload, and what is not -/

theorem clear_look {q : Path} (h : contentAt fs q = none) : fs.lookup q = none ∨ fs.lookup q = some .dir := by
  cases hl : fs.lookup q with
  | none => exact .inl rfl
  | some x => cases x with
    | dir => exact .inr rfl
    | file j => simp [contentAt, hl] at h

theorem names_all (hS : Spelled cfg.root A place) (h : Embodies cfg ext A place s fs) {b k : Bytes} (ha : A b k) :
    ∀ c ∈ cfg.root ++ place b k, nameOk c = true := by
  intro c hc
  rcases List.mem_append.mp hc with hc | hc
  · exact dir_names h.wf h.root c hc
  · exact (hS.fits b k ha).1 c hc

theorem meta_writable (hS : Spelled cfg.root A place) (h : Embodies cfg ext A place s fs) {b k : Bytes} (ha : A b k) :
    Writable cfg.root (metadataName b k) fs := by
  refine ⟨h.root, ?_, h.noDir b k ha⟩
  intro c hc
  rcases List.mem_append.mp hc with hc | hc
  · exact dir_names h.wf h.root c hc
  · simp only [List.mem_cons, List.not_mem_nil, or_false] at hc; rw [hc]; exact (hS.fits b k ha).2

theorem split_place (hS : Spelled cfg.root A place) {b k : Bytes} (ha : A b k) :
    ∃ p n, place b k = p ++ [n] ∧ onTheWay p (place b k) = true := by
  obtain ⟨p, n, e⟩ : ∃ p n, place b k = p ++ [n] :=
    ⟨_, _, (List.dropLast_concat_getLast (inBucket_ne (hS.names b k ha).inside)).symm⟩
  refine ⟨p, n, e, ?_⟩
  rw [onTheWay_iff, e]
  exact ⟨List.prefix_append _ _, fun h => by have := congrArg List.length h; simp at this⟩

theorem place_ready (hS : Spelled cfg.root A place) (h : Embodies cfg ext A place s fs) {b k : Bytes} (ha : A b k) :
    Ready (cfg.root ++ place b k) fs := by
  refine ⟨by simp [inBucket_ne (hS.names b k ha).inside], names_all hS h ha, ?_, h.free b k ha⟩
  intro q hq
  obtain ⟨p, n, hp, hon⟩ := split_place hS ha
  rw [hp, ← List.append_assoc, List.dropLast_concat] at hq
  rcases List.prefix_or_prefix_of_prefix hq (List.prefix_append cfg.root p) with h1 | h1
  · by_cases e : q = cfg.root
    · rw [e]; exact .inr h.root
    · exact .inr (h.wf.above h.root h1 e)
  · obtain ⟨q', rfl⟩ := h1
    have hq' : q' <+: p := (List.prefix_append_right_inj _).mp hq
    refine clear_look (h.folders q' (.inl ⟨b, k, ha, ?_⟩)).2
    rw [onTheWay_iff, hp]
    refine ⟨hq'.trans (List.prefix_append _ _), ?_⟩
    rintro rfl
    have := hq'.length_le
    simp at this
    omega

theorem classKnown_iff {i : PutInput} : classKnown i = i.storageClass.all storageClassOk := by
  rw [Bool.eq_iff_iff]
  cases hc : i.storageClass with
  | none => simp [classKnown, hc]
  | some c => simp [classKnown, hc, storageClassOk]

/-- an upload that arrives completely succeeds -/
theorem put_spelled (hS : Spelled cfg.root A place) (h : Embodies cfg ext A place s fs) {i : PutInput}
    (ha : A i.bucket i.key) (hc : classKnown i = true) {body : Body} (hbody : i.body = some body) (hu : unbroken body) :
    answer cfg ext (.putObject i) fs = .ok (.etag (some (quoted (ext.md5hex (received body))))) := by
  have hn := hS.names _ _ ha
  obtain ⟨p, n, hp, hon⟩ := split_place hS ha
  have hb' := (C02_bucket_name_rule _).mpr hn.bucket
  have hpath := objectPath_names cfg hn
  have hr := place_ready hS h ha
  have hmp := place_not_meta (cfg := cfg) hn.inside i.bucket i.key
  rw [hp, ← List.append_assoc] at hpath hr hmp
  have hwp := putObject_ok (cfg := cfg) (ext := ext) hpath (namesFile_slash hn.key) (by rw [← classKnown_iff]; exact hc) hbody hu hb'
    (List.prefix_append _ _) hmp h.wf hr (fun _ => meta_writable hS h ha)
  obtain ⟨e, he⟩ := wp_run h.wf (wp_anti (R' := fun a b => a = b) (fun a b _ _ e => e ▸ Frame.refl ..) h.wf hwp)
  have ha : answer cfg ext (.putObject i) fs = .ok (.etag e) := by
    rw [answer, opProg]
    exact run_map_fst.mpr ⟨e, he, rfl⟩
  obtain ⟨e', h1, h2⟩ := put_done ⟨hb', namesFile_slash hn.key⟩ h.wf ha
  cases h1
  obtain ⟨body', h3, _, _, h4⟩ := h2.body
  rw [hbody] at h3
  cases h3
  rw [ha, h4]

/-- an upload that breaks off does what the upload of the bytes that arrived does, without metadata, and then fails -/
theorem put_broken {i : PutInput} (hk : endsWithByte i.key 47 = false) {body : Body} (hbody : i.body = some body)
    (hu : ¬ unbroken body) (fs : FS) {e : Option Bytes} {fs' : FS}
    (h : run cfg (putObject cfg ext { i with body := some [some (received body)], metadata := none }) fs = (.ok e, fs')) :
    run cfg (putObject cfg ext i) fs = (.err .InternalError, fs') := by
  simp only [putObject, hbody, hk, bind_eq, pure_eq] at h ⊢
  cases hc : i.storageClass.all storageClassOk with
  | false => rw [hc] at h; cases h
  | true =>
    rw [hc] at h
    simp only [Bool.not_true, Bool.false_eq_true, if_false] at h ⊢
    cases hp : objectPath cfg i.bucket i.key with
    | none => rw [hp] at h; cases h
    | some p =>
      rw [hp] at h
      simp only [run_orInternal_some] at h ⊢
      have tail : ∀ fs, run cfg ((call (.create p)).bind fun x => (orInternal x).bind fun ino =>
            (copyBytes ino 0 [some (received body)]).bind fun content =>
              (saveOptional cfg ext i.bucket i.key none).bind fun _ => .ret (some (quoted (ext.md5hex content)))) fs = (.ok e, fs') →
          run cfg ((call (.create p)).bind fun x => (orInternal x).bind fun ino =>
            (copyBytes ino 0 body).bind fun content =>
              (saveOptional cfg ext i.bucket i.key i.metadata).bind fun _ => .ret (some (quoted (ext.md5hex content)))) fs
            = (.err .InternalError, fs') := by
        intro fs h
        rw [run_call1] at h ⊢
        cases hx : (exec cfg fs (.create p)).1 with
        | none => rw [hx] at h; cases h
        | some ino =>
          rw [hx, run_orInternal_some, run_bind, copyBytes_run] at h
          rw [run_orInternal_some, run_bind, copyBytes_run]
          rw [if_neg hu]
          simp only [Outcome.andThen]
          rw [if_pos (by simp [unbroken])] at h
          simp only [Outcome.andThen, saveOptional, received, List.append_nil] at h
          cases h
          rfl
      split at h
      · rename_i hne
        rw [if_pos hne]
        rw [run_bind] at h ⊢
        revert h
        generalize run cfg (createDirAll p.comps.dropLast) fs = o
        obtain ⟨o, f⟩ := o
        cases o <;> intro h
        · exact tail f h
        · cases h
        · cases h
        · cases h
      · rename_i hne
        rw [if_neg hne]
        exact tail fs h

/-! ### copies -/

theorem found_none {r : Record} : r.found = some none ↔ r = .absent := by cases r <;> simp [Record.found]

theorem storedMeta_absent {b k : Bytes} (hd : ¬ IsDir fs (metaFile cfg b k)) :
    storedMeta cfg ext fs b k = some none ↔ fs.lookup (metaFile cfg b k) = none := by
  rw [show storedMeta cfg ext fs b k = metaAt ext fs (metaFile cfg b k) from rfl, metaAt]
  cases hl : fs.lookup (metaFile cfg b k) with
  | none => simp
  | some x => cases x with
    | dir => exact absurd hl hd
    | file i => simp only [reduceCtorEq, iff_false]; cases ext.metaDec (fs.data i) <;> simp

/-- a copy into a folder that exists succeeds, also onto the same place and also onto the same address -/
theorem copy_spelled (hS : Spelled cfg.root A place) (he : ext.metaDec [] = none) (h : Embodies cfg ext A place s fs)
    {b k src sb sk : Bytes} (ha : A b k) (hs : copySourceFromHeader src = .ok (sb, sk)) (has : A sb sk) {c : Bytes}
    (hc : s.bytes (place sb sk) = some c) (hfo : s.folder (place b k).dropLast = true) :
    ∃ e fs', run cfg (copyObject cfg ext b k src) fs = (.ok e, fs') ∧
      storedMeta cfg ext fs' b k =
        (match s.record sb sk with
          | .absent => s.record b k
          | r => if (sb, sk) = (b, k) then .unreadable else r).found ∧
      ¬ IsDir fs' (metaFile cfg b k) := by
  have hw := h.wf
  have hnd := hS.names b k ha
  have hns := hS.names sb sk has
  have hsp := objectPath_names cfg hns
  have hdp := objectPath_names cfg hnd
  have hcs := h.bytes sb sk has
  rw [hc] at hcs
  obtain ⟨i, hl, hi⟩ : ∃ i, fs.lookup (cfg.root ++ place sb sk) = some (.file i) ∧ fs.data i = c := by
    rw [contentAt] at hcs
    cases hl : fs.lookup (cfg.root ++ place sb sk) with
    | none => rw [hl] at hcs; cases hcs
    | some x => cases x with
      | dir => rw [hl] at hcs; cases hcs
      | file i => rw [hl] at hcs; exact ⟨i, rfl, Option.some.inj hcs⟩
  have hat : fs.at ⟨cfg.root ++ place sb sk, false⟩ = some (.file i) := by rw [at_false]; exact hl
  obtain ⟨p, n, hp, hon⟩ := split_place hS ha
  rw [hp, List.dropLast_concat] at hfo
  have hdir := ((h.folders p (.inl ⟨b, k, ha, hon⟩)).1).mpr hfo
  have hwr : Writable (cfg.root ++ p) n fs := by
    refine ⟨hdir, ?_, ?_⟩
    · have := names_all hS h ha
      rw [hp, ← List.append_assoc] at this
      exact this
    · have := h.free b k ha
      rw [hp, ← List.append_assoc] at this
      exact this
  have hmw := meta_writable hS h ha
  have hPM : ∀ b1 k1, metaFile cfg b1 k1 ≠ cfg.root ++ place b k := fun b1 k1 e => place_not_hidden hnd.inside _ e.symm
  have hSM : cfg.root ++ place sb sk ≠ metaFile cfg b k := place_not_hidden hns.inside _
  simp only [copyObject, hs, hsp, hdp, bind_eq, pure_eq]
  rw [run_orInternal_some, run_orInternal_some, run_stat_bind, hat]
  simp only [Option.map_some, run_orInternal_some]
  obtain ⟨fs1, h1⟩ := copyFile_run (cfg := cfg) hat hwr
  rw [List.append_assoc, ← hp] at h1
  have hw1 : WF fs1 := run_wf_of h1 hw
  obtain ⟨i', hi', _, ⟨j, hj⟩, hfr⟩ := copyFile_ok hw h1
  rw [hat] at hi'
  cases hi'
  simp only at hfr hj
  rw [run_bind, h1]
  simp only [Outcome.andThen]
  rw [metadataPath_eq, run_orInternal_some, run_exists_bind]
  have hms : ∀ b1 k1, metaAt ext fs1 (metaFile cfg b1 k1) = metaAt ext fs (metaFile cfg b1 k1) := fun b1 k1 =>
    metaAt_same (frame_same hfr (hPM b1 k1) (.inl fun h => h)) hw
  have hlm : ∀ b1 k1, fs1.lookup (metaFile cfg b1 k1) = fs.lookup (metaFile cfg b1 k1) := by
    intro b1 k1
    rcases hfr.node _ (hPM b1 k1) with h | h
    · exact h
    · exact h.1.elim
  have hsrc1 : ∃ j c', Has fs1 (cfg.root ++ place sb sk) j c' := by
    by_cases e : cfg.root ++ place sb sk = cfg.root ++ place b k
    · rw [e]; exact ⟨j, _, hj⟩
    · exact ⟨i, _, hfr.keep hw e ⟨hl, rfl⟩⟩
  obtain ⟨j1, c1, hsrc1⟩ := hsrc1
  have hmd5 : ∀ fs2, Has fs2 (cfg.root ++ place sb sk) j1 c1 →
      ∃ e, run cfg ((getMd5Sum cfg ext sb sk).bind fun sum => .ret (quoted sum)) fs2 = (.ok e, fs2) := by
    intro fs2 h2
    rw [run_bind, getMd5Sum_run, hsp]
    simp only [Option.bind_some, at_false, h2.node, Outcome.andThen, run]
    exact ⟨_, rfl⟩
  have hat1 : (fs1.at ⟨cfg.root ++ [metadataName sb sk], false⟩) = fs.lookup (metaFile cfg sb sk) := by
    rw [at_false]; exact hlm sb sk
  rw [hat1]
  have hrec := h.record sb sk has
  have hnd1 := h.noDir sb sk has
  have habs := storedMeta_absent (cfg := cfg) (ext := ext) (fs := fs) (b := sb) (k := sk) hnd1
  rw [hrec, found_none] at habs
  cases hl2 : fs.lookup (metaFile cfg sb sk) with
  | none =>
    obtain ⟨e, hrun⟩ := hmd5 fs1 hsrc1
    refine ⟨e, fs1, hrun, ?_, ?_⟩
    · rw [habs.mpr hl2, ← h.record b k ha]
      exact hms b k
    · rw [IsDir, hlm]; exact h.noDir b k ha
  | some x =>
    have hna : s.record sb sk ≠ .absent := fun e => by rw [habs.mp e] at hl2; cases hl2
    cases x with
    | dir => exact absurd hl2 hnd1
    | file m =>
      simp only [Option.isSome_some, if_true]
      rw [metadataPath_eq, run_orInternal_some]
      have hmw1 : Writable cfg.root (metadataName b k) fs1 :=
        hmw.of_frame hfr (fun e => by
          have := congrArg List.length e
          simp at this
          exact inBucket_ne hnd.inside this) (hPM b k)
      have ha1 : fs1.at ⟨metaFile cfg sb sk, false⟩ = some (.file m) := by
        rw [at_false, hlm, hl2]
      obtain ⟨fs2, h2⟩ := copyFile_run (cfg := cfg) ha1 hmw1
      obtain ⟨m', hm', _, ⟨j2, hj2⟩, hfr2⟩ := copyFile_ok hw1 h2
      rw [ha1] at hm'
      cases hm'
      rw [run_bind]
      rw [show (⟨cfg.root ++ [metadataName sb sk], false⟩ : OsPath) = ⟨metaFile cfg sb sk, false⟩ from rfl, h2]
      simp only [Outcome.andThen]
      obtain ⟨e, hrun⟩ := hmd5 fs2 (hfr2.keep hw1 hSM hsrc1)
      simp only at hj2
      have hlook : fs2.lookup (metaFile cfg b k) = some (.file j2) := hj2.node
      refine ⟨e, fs2, hrun, ?_, by rw [IsDir, hlook]; simp⟩
      have hdat : fs1.data m = fs.data m := hfr.data m (by
        rw [hw.of_file hl2]; exact hPM sb sk)
      have h3 : storedMeta cfg ext fs2 b k = (ext.metaDec (if metaFile cfg sb sk = metaFile cfg b k then [] else fs.data m)).map some := by
        show metaAt ext fs2 (metaFile cfg b k) = _
        rw [metaAt, hlook]
        simp only
        rw [hj2.data, hdat]
        rfl
      have h4 : (s.record sb sk).found = (ext.metaDec (fs.data m)).map some := by
        rw [← hrec, show storedMeta cfg ext fs sb sk = metaAt ext fs (metaFile cfg sb sk) from rfl, metaAt, hl2]
      rw [h3]
      by_cases e : (sb, sk) = (b, k)
      · rw [if_pos e, if_pos (by cases e; rfl), he]
        rfl
      · rw [if_neg e, if_neg, h4]
        intro e'
        have := metaFile_inj e'
        exact e (by rw [this.1, this.2])

theorem create_no_folder (hS : Spelled cfg.root A place) (h : Embodies cfg ext A place s fs) {b k : Bytes} (ha : A b k)
    (hfo : s.folder (place b k).dropLast = false) : exec cfg fs (.create ⟨cfg.root ++ place b k, false⟩) = (none, fs) := by
  obtain ⟨p, n, hp, hon⟩ := split_place hS ha
  rw [hp, List.dropLast_concat] at hfo
  have hf := h.folders p (.inl ⟨b, k, ha, hon⟩)
  have hdir : fs.lookup (cfg.root ++ p) = none := by
    rcases clear_look hf.2 with e | e
    · exact e
    · have := hf.1.mp e
      rw [hfo] at this; cases this
  have hno : fs.lookup (cfg.root ++ place b k) = none := by
    cases hl : fs.lookup (cfg.root ++ place b k) with
    | none => rfl
    | some x =>
      have := h.wf.above hl (show cfg.root ++ p <+: cfg.root ++ place b k by rw [hp]; exact (List.prefix_append_right_inj _).mpr (List.prefix_append _ _))
        (by rw [hp]; intro e; have := congrArg List.length e; simp at this)
      rw [hdir] at this; cases this
  have hnn := noNul_of (names_all hS h ha)
  simp only [exec, hnn, hno]
  rw [hp, ← List.append_assoc]
  simp [hdir]

theorem create_in_folder (hS : Spelled cfg.root A place) (h : Embodies cfg ext A place s fs) {b k : Bytes} (ha : A b k)
    (hfo : s.folder (place b k).dropLast = true) : ∃ i, (exec cfg fs (.create ⟨cfg.root ++ place b k, false⟩)).1 = some i := by
  obtain ⟨p, n, hp, hon⟩ := split_place hS ha
  rw [hp, List.dropLast_concat] at hfo
  have hd := (h.folders p (.inl ⟨b, k, ha, hon⟩)).1.mpr hfo
  have hnames := names_all hS h ha
  have hfree := h.free b k ha
  rw [hp, ← List.append_assoc] at hnames hfree ⊢
  exact exec_create_ok ⟨hd, hnames, hfree⟩

/-- a copy into a folder that does not exist changes nothing -/
theorem copy_no_folder (hS : Spelled cfg.root A place) (h : Embodies cfg ext A place s fs)
    {b k src sb sk : Bytes} (ha : A b k) (hs : copySourceFromHeader src = .ok (sb, sk)) (has : A sb sk)
    (hfo : s.folder (place b k).dropLast = false) :
    run cfg (copyObject cfg ext b k src) fs = (.err .InternalError, fs) := by
  have hsp := objectPath_names cfg (hS.names sb sk has)
  have hdp := objectPath_names cfg (hS.names b k ha)
  have hcr := create_no_folder hS h ha hfo
  simp only [copyObject, hs, hsp, hdp, bind_eq, pure_eq]
  rw [run_orInternal_some, run_orInternal_some, run_stat_bind]
  cases hat : fs.at ⟨cfg.root ++ place sb sk, false⟩ with
  | none => rfl
  | some x =>
    simp only [Option.map_some, run_orInternal_some]
    rw [run_bind]
    have : run cfg (copyFile ⟨cfg.root ++ place sb sk, false⟩ ⟨cfg.root ++ place b k, false⟩) fs = (.err .InternalError, fs) := by
      simp only [copyFile, bind_eq, pure_eq]
      rw [run_open_bind, hat]
      simp only [Option.map_some, run_orInternal_some]
      cases x with
      | dir => rfl
      | file j =>
        simp only [Node.handle]
        rw [run_call1, hcr]
        rfl
    rw [this]
    rfl

/-- the source of a copy is not there -/
theorem copy_no_source (hS : Spelled cfg.root A place) (h : Embodies cfg ext A place s fs)
    {b k src sb sk : Bytes} (ha : A b k) (hs : copySourceFromHeader src = .ok (sb, sk)) (has : A sb sk)
    (hc : s.bytes (place sb sk) = none) :
    run cfg (copyObject cfg ext b k src) fs = (.err .InternalError, fs) := by
  have hl := lookup_absent ((h.bytes sb sk has).trans hc) (h.free sb sk has)
  simp only [copyObject, hs, objectPath_names cfg (hS.names sb sk has), objectPath_names cfg (hS.names b k ha), bind_eq, pure_eq]
  rw [run_orInternal_some, run_orInternal_some, run_stat_bind, at_false, hl]
  rfl

/-! ### parts -/

theorem part_writable (h : Embodies cfg ext A place s fs) {u : Bytes} {n : Int} (hu : (47 : UInt8) ∉ u)
    (hn : nameOk (partName u n) = true) : Writable cfg.root (partName u n) fs := by
  refine ⟨h.root, ?_, (h.parts u n hu).2⟩
  intro c hc
  rcases List.mem_append.mp hc with hc | hc
  · exact dir_names h.wf h.root c hc
  · simp only [List.mem_cons, List.not_mem_nil, or_false] at hc; rw [hc]; exact hn

/-- the upload of a part: what has arrived is in the part file, whether or not more was to come -/
theorem part_run {u : Bytes} {n : Int} (hu : (47 : UInt8) ∉ u) {body : Body} (hw : WF fs) (hr : Writable cfg.root (partName u n) fs) :
    ∃ fs', run cfg (uploadPart cfg ext u n (some body)) fs =
        (if none ∈ body then .err .InternalError else .ok (quoted (ext.md5hex (received body))), fs') ∧
      contentAt fs' (cfg.root ++ [partName u n]) = some (received body) ∧
      Frame (· = cfg.root ++ [partName u n]) (fun _ => False) fs fs' := by
  obtain ⟨e, he⟩ := uploadPart_ok (ext := ext) hu (body := [some (received body)]) (by simp [unbroken]) hw hr
  obtain ⟨-, h2, h3, h4⟩ := uploadPart_run (ext := ext) hu hw (Prod.ext he rfl)
  have hrec : received [some (received body)] = received body := by simp [received]
  rw [hrec] at h2 h3
  subst h2
  refine ⟨_, ?_, h3, h4⟩
  have hrun := (Prod.ext he rfl : run cfg (uploadPart cfg ext u n (some [some (received body)])) fs = (.ok _, _))
  simp only [uploadPart, partPath_eq cfg hu, bind_eq, pure_eq, run_orInternal_some] at hrun ⊢
  rw [run_call1] at hrun ⊢
  obtain ⟨i, hi⟩ := exec_create_ok (cfg := cfg) hr
  rw [hi] at hrun ⊢
  rw [run_orInternal_some, run_bind, copyBytes_run] at hrun ⊢
  rw [run_call1, hi, run_orInternal_some, run_bind, copyBytes_run]
  rw [hrec]
  by_cases hb : none ∈ body
  · rw [if_pos hb, if_neg (fun h : unbroken body => h hb)]
    rw [if_pos (by simp [unbroken])]
    rfl
  · rw [if_neg hb, if_pos (show unbroken body from hb), if_pos (by simp [unbroken])]
    rfl

/-- parts put together -/
theorem loop_run {u : Bytes} (hu : (47 : UInt8) ∉ u) {ino : Ino} {O : Path} (hO : ∀ m, O ≠ partFile cfg u m) (l : List (Option Int)) :
    ∀ {cnt : Int} {c : Bytes} {fs : FS} {parts : Int → Option Bytes}, WF fs → Has fs O ino c →
      (∀ n, contentAt fs (partFile cfg u n) = parts n ∧ ¬ IsDir fs (partFile cfg u n)) →
      ∃ fs', run cfg (completeLoop cfg u ino cnt c.length l) fs
          = (if (assemble parts cnt c l).1 then .ok () else .err .InternalError, fs') ∧
        WF fs' ∧ Has fs' O ino (assemble parts cnt c l).2.1 ∧
        (∀ n, contentAt fs' (partFile cfg u n) = (assemble parts cnt c l).2.2 n ∧ ¬ IsDir fs' (partFile cfg u n)) ∧
        Frame (fun q => q = O ∨ ∃ n, q = partFile cfg u n) (fun _ => False) fs fs' := by
  induction l with
  | nil =>
    intro cnt c fs parts hw h hp
    exact ⟨fs, rfl, hw, h, hp, Frame.refl ..⟩
  | cons x rest ih =>
    intro cnt c fs parts hw h hp
    cases x with
    | none => exact ⟨fs, rfl, hw, h, hp, Frame.refl ..⟩
    | some n =>
      rw [completeLoop_cons hu]
      by_cases hn : n = cnt + 1
      · obtain ⟨h1, h2⟩ := hp n
        cases hl : fs.lookup (partFile cfg u n) with
        | none =>
          rw [contentAt, hl] at h1
          simp only [assemble, if_pos hn, ← h1]
          exact ⟨fs, by rw [if_neg (by simp [hn])]; rfl, hw, h, hp, Frame.refl ..⟩
        | some y => cases y with
          | dir => exact absurd hl h2
          | file i =>
            rw [contentAt, hl] at h1
            simp only at h1
            simp only [assemble, if_pos hn, ← h1]
            rw [if_neg (by simp [hn])]
            obtain ⟨hw2, g2, hg, hf⟩ := assemble_step hO hw h hl
            have hp' : ∀ m, contentAt ((exec cfg fs (.writeAt ino c.length (fs.data i))).2.erase (partFile cfg u n)) (partFile cfg u m)
                  = (fun m => if m = n then none else parts m) m ∧
                ¬ IsDir ((exec cfg fs (.writeAt ino c.length (fs.data i))).2.erase (partFile cfg u n)) (partFile cfg u m) := by
              intro m
              by_cases e : m = n
              · subst e
                exact ⟨by rw [contentAt, hg]; simp, by rw [IsDir, hg]; simp⟩
              · have hno : ¬ (partFile cfg u m = O ∨ partFile cfg u m = partFile cfg u n) := by
                  rintro (e' | e')
                  · exact hO _ e'.symm
                  · exact e (partFile_inj e').2
                refine ⟨by rw [content_frame hw hf hno, (hp m).1]; simp [e], fun hd => ?_⟩
                rcases hf.node _ hno with e' | e'
                · exact (hp m).2 (e'.symm.trans hd)
                · exact e'.1
            obtain ⟨fs', r1, r2, r3, r4, r5⟩ := ih (cnt := cnt + 1) hw2 g2 hp'
            rw [hn] at hf r1 r3 r4 r5 ⊢
            refine ⟨fs', ?_, r2, r3, r4, ?_⟩
            · rw [← r1, List.length_append]
            · refine Frame.trans (hf.mono ?_ fun _ h => h) r5
              rintro q (e | e)
              · exact .inl e
              · exact .inr ⟨_, e⟩
      · simp only [assemble, if_neg hn]
        exact ⟨fs, by rw [if_pos hn]; rfl, hw, h, hp, Frame.refl ..⟩

end

end S3
