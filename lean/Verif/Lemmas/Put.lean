import Verif.Lemmas.Wp
import Verif.Lemmas.Get
import Verif.Lemmas.OpSafe
import Verif.Spec.Object
import Verif.Spec.Address
/-! PUT under interference that leaves its own files alone. -/
namespace S3
open Spec

variable {cfg : Cfg} {ext : Ext}

/-! ### the object is never stored in its own metadata file -/

theorem splitAll_length {c : UInt8} {s x : Bytes} (h : x ∈ splitAll c s) : x.length ≤ s.length := by
  induction s generalizing x with
  | nil => simp [splitAll] at h; simp [h]
  | cons a s ih =>
    simp only [splitAll] at h
    split at h
    · rcases List.mem_cons.mp h with h | h
      · simp [h]
      · have := ih h; simp; omega
    · split at h
      · simp at h; subst h; simp
      · rename_i l r e
        rcases List.mem_cons.mp h with h | h
        · subst h
          have := ih (x := l) (by rw [e]; simp)
          simp; omega
        · have := ih (x := x) (by rw [e]; simp [h])
          simp; omega

theorem pathComps_mem {s x : Bytes} (h : x ∈ pathComps s) : x ∈ splitAll 47 s := by
  have key : ∀ {y}, y ∈ (splitAll 47 s).filter (· ≠ []) → y ∈ splitAll 47 s :=
    fun h => (List.mem_filter.mp h).1
  simp only [pathComps] at h
  split at h
  · exact key (List.mem_filter.mp h).1
  · split at h
    · cases h
    · rename_i c r e
      rcases List.mem_cons.mp h with h | h
      · exact key (by rw [e, h]; simp)
      · exact key (by rw [e]; exact List.mem_cons_of_mem _ (List.mem_filter.mp h).1)

theorem metadataName_length (b k : Bytes) : b.length < (metadataName b k).length ∧ k.length < (metadataName b k).length := by
  have h1 := b64Encode_length b
  have h2 := b64Encode_length k
  simp only [metadataName, List.length_append, List.length_cons]
  omega

/-- the path of an object does not go through its own metadata file -/
theorem objectPath_no_meta {b k : Bytes} (hb : checkBucketName b = true) {p : OsPath}
    (hp : objectPath cfg b k = some p) : ¬ metaFile cfg b k <+: p.comps := by
  have hpb := legal_plain hb
  have hl := metadataName_length b k
  intro e
  have hmem : metadataName b k ∈ splitAll 47 k := by
    by_cases hs : startsWith k b!"/" = true
    · have hj : pathJoin b k = k := by simp [pathJoin, hs]
      rw [objectPath, hj, resolveVirtual, parseDot] at hp
      simp only [hs, if_true] at hp
      split at hp
      · cases hp
        simp only at e
        have hm : metadataName b k ∈ (pathComps k).foldl dedotStep [] := e.subset (by simp [metaFile])
        rcases foldl_dedot_mem hm with h | h
        · cases h
        · exact pathComps_mem h
      · cases hp
    · simp only [Bool.not_eq_true] at hs
      rw [objectPath, (join_relative hb hs).1, resolveVirtual, parseDot_relative cfg hb hs] at hp
      simp only [if_neg (show ¬ (false = true) by decide), Option.some.injEq] at hp
      subst hp
      rw [metaFile, List.prefix_append_right_inj] at e
      have hm : metadataName b k ∈ (keyComps k).foldl dedotStep [b] := e.subset (by simp)
      rcases foldl_dedot_mem hm with h | h
      · simp at h; rw [h] at hl; omega
      · exact (List.mem_filter.mp (List.mem_filter.mp h).1).1
  have := splitAll_length hmem; omega

theorem objectPath_ne_meta {b k : Bytes} (hb : checkBucketName b = true) {p : OsPath}
    (hp : objectPath cfg b k = some p) : p.comps ≠ cfg.root ++ [metadataName b k] :=
  fun h => objectPath_no_meta hb hp (by rw [h]; exact List.prefix_refl _)

/-! ### files that stay -/

/-- the regular file at a path: identity and content -/
structure Has (fs : FS) (p : Path) (i : Ino) (c : Bytes) : Prop where
  node : fs.lookup p = some (.file i)
  data : fs.data i = c

theorem Has.content {fs : FS} {p : Path} {i : Ino} {c : Bytes} (h : Has fs p i c) : contentAt fs p = some c := by
  simp [contentAt, h.node, h.data]

/-- the regular files at the paths in `own` stay as they are -/
def KeepFiles (own : Path → Prop) (a b : FS) : Prop :=
  ∀ p i c, own p → Has a p i c → Has b p i c

theorem rely_keepFiles (own : Path → Prop) : Rely (KeepFiles own) :=
  ⟨fun _ _ _ _ _ h => h, fun _ _ _ h1 h2 p i c hp h => h2 p i c hp (h1 p i c hp h)⟩

theorem Frame.keep {own up : Path → Prop} {a b : FS} (hw : WF a) (h : Frame own up a b) {p : Path} {i : Ino} {c : Bytes}
    (hp : ¬ own p) (ha : Has a p i c) : Has b p i c := by
  rcases h.node p hp with e | ⟨_, h1, _⟩
  · exact ⟨e.trans ha.node, (h.data i (by rw [(hw.ino _ _ ha.node).1]; exact hp)).trans ha.data⟩
  · rw [ha.node] at h1; cases h1

theorem exec_create_some {fs fs' : FS} {p : OsPath} {i : Ino} (h : exec cfg fs (.create p) = (some i, fs')) :
    Has fs' p.comps i [] ∧ p.slash = false := by
  simp only [exec] at h
  split at h; · cases h
  rename_i hs
  have hs' : p.slash = false := by
    simp only [Bool.or_eq_true, not_or, Bool.not_eq_true] at hs; exact hs.2
  split at h; · cases h
  rename_i c hc
  have hne : p.comps ≠ [] := by intro e; rw [e] at hc; cases hc
  split at h
  · cases h
  · rename_i j hj
    cases h
    exact ⟨⟨by simpa using hj, by simp [data_setData]⟩, hs'⟩
  · split at h
    · split at h
      · cases h
        exact ⟨⟨by simp [lookup_set, hne], by simp [data_setData]⟩, hs'⟩
      · cases h
    · cases h

theorem exec_create_snd {fs : FS} {p : OsPath} {i : Ino} (h : (exec cfg fs (.create p)).1 = some i) :
    Has (exec cfg fs (.create p)).2 p.comps i [] ∧ p.slash = false :=
  exec_create_some (cfg := cfg) (fs := fs) (Prod.ext h rfl)

theorem splice_end (c b : Bytes) : splice c c.length b = c ++ b := by
  by_cases h : b = [] <;> simp [splice, h, List.drop_eq_nil_of_le]

theorem splice_nil (b : Bytes) : splice [] 0 b = b := by
  by_cases h : b = [] <;> simp [splice, h]

theorem Has.write {fs : FS} {p : Path} {i : Ino} {c : Bytes} (h : Has fs p i c) (off : Nat) (b : Bytes) :
    Has (exec cfg fs (.writeAt i off b)).2 p i (splice c off b) :=
  ⟨h.node, by simp [exec, data_setData, h.data]⟩

/-! ### writing the body -/

theorem not_unbroken_cons {b : Bytes} {r : Body} : unbroken (some b :: r) ↔ unbroken r := by
  simp [unbroken]

theorem copyBytes_wp {R : FS → FS → Prop} (hR : Rely R) {own : Path → Prop} (hk : ∀ a b, WF a → WF b → R a b → KeepFiles own a b)
    {P : Path} (hP : own P) {i : Ino} (body : Body) :
    ∀ {fs : FS} {c : Bytes}, WF fs → Has fs P i c →
      wp cfg R (fun o fs' => Has fs' P i (c ++ received body) ∧
        (unbroken body ∧ o = .ok (received body) ∨ ¬ unbroken body ∧ o = .err .InternalError))
        (copyBytes i c.length body) fs := by
  induction body with
  | nil =>
    intro fs c hw h
    intro fs' hr hw'
    exact ⟨by simpa [received] using hk _ _ hw hw' hr _ _ _ hP h, Or.inl ⟨by simp [unbroken], rfl⟩⟩
  | cons x rest ih =>
    intro fs c hw h
    cases x with
    | none =>
      intro fs' hr hw'
      exact ⟨by simpa [received] using hk _ _ hw hw' hr _ _ _ hP h, Or.inr ⟨by simp [unbroken], rfl⟩⟩
    | some b =>
      simp only [copyBytes, received, not_unbroken_cons]
      split
      · rename_i hb
        subst hb
        simpa using ih hw h
      · simp only [bind_eq, pure_eq]
        refine wp_call fun fs' hr hw' => ?_
        have h1 := (hk _ _ hw hw' hr _ _ _ hP h).write (cfg := cfg) c.length b
        rw [splice_end] at h1
        have hw1 := exec_wf cfg hw' (.writeAt i c.length b)
        refine wp_bind hR hw1 ?_
        have h2 := ih hw1 h1
        rw [List.length_append] at h2
        refine wp_mono ?_ h2
        rintro o fs2 hw2 ⟨h3, h4⟩
        rw [List.append_assoc] at h3
        rcases h4 with ⟨hu, rfl⟩ | ⟨hu, rfl⟩
        · intro fs3 hr3 hw3
          exact ⟨hk _ _ hw2 hw3 hr3 _ _ _ hP h3, Or.inl ⟨hu, rfl⟩⟩
        · exact ⟨h3, Or.inr ⟨hu, rfl⟩⟩

theorem exec_write_keep {fs : FS} (hw : WF fs) {c : Call} {M P : Path} {i : Ino} {d : Bytes} (hne : P ≠ M)
    (hc : writeOk (· = M) (fun _ => False) c) (h : Has fs P i d) : Has (exec cfg fs c).2 P i d :=
  (exec_frame cfg hw hc).keep hw hne h

theorem saveMetadata_wp {R : FS → FS → Prop} {own : Path → Prop}
    (hk : ∀ a b, WF a → WF b → R a b → KeepFiles own a b) {P : Path} (hP : own P) {b k : Bytes}
    (hM : own (metaFile cfg b k)) (hne : P ≠ metaFile cfg b k) (m : Meta)
    {fs : FS} (hw : WF fs) {i : Ino} {c : Bytes} (h : Has fs P i c) :
    wp cfg R (fun o fs' => Has fs' P i c ∧
      (o = .ok () ∧ contentAt fs' (metaFile cfg b k) = some (ext.metaEnc m) ∨ o = .err .InternalError))
      (saveMetadata cfg ext b k m) fs := by
  simp only [saveMetadata, metadataPath_eq, bind_eq, pure_eq]
  show wp _ _ _ ((call _).bind _) _
  refine wp_call fun fs' hr hw' => ?_
  have h1 := hk _ _ hw hw' hr _ _ _ hP h
  have h2 : Has (exec cfg fs' (.create ⟨cfg.root ++ [metadataName b k], false⟩)).2 P i c :=
    exec_write_keep hw' hne (c := .create _) rfl h1
  have hw2 := exec_wf cfg hw' (.create ⟨cfg.root ++ [metadataName b k], false⟩)
  cases hc : (exec cfg fs' (.create ⟨cfg.root ++ [metadataName b k], false⟩)).1 with
  | none => exact fun fs3 hr3 hw3 => ⟨hk _ _ hw2 hw3 hr3 _ _ _ hP h2, Or.inr rfl⟩
  | some j =>
    have hj := (exec_create_snd hc).1
    show wp _ _ _ ((call _).bind _) _
    refine wp_call fun fs3 hr3 hw3 => ?_
    have h3 := hk _ _ hw2 hw3 hr3 _ _ _ hP h2
    have hj3 := hk _ _ hw2 hw3 hr3 _ _ _ hM hj
    have hjp := (hw3.ino _ _ hj3.node).1
    have h4 : Has (exec cfg fs3 (.writeAt j 0 (ext.metaEnc m))).2 P i c :=
      exec_write_keep hw3 hne (c := .writeAt j 0 _) hjp h3
    have hj4 := hj3.write (cfg := cfg) 0 (ext.metaEnc m)
    rw [splice_nil] at hj4
    have hw4 := exec_wf cfg hw3 (.writeAt j 0 (ext.metaEnc m))
    intro fs5 hr5 hw5
    exact ⟨hk _ _ hw4 hw5 hr5 _ _ _ hP h4, Or.inl ⟨rfl, (hk _ _ hw4 hw5 hr5 _ _ _ hM hj4).content⟩⟩

/-- what a successful PUT of an object (not a directory) has done -/
structure PutDone (cfg : Cfg) (ext : Ext) (i : PutInput) (e : Option Bytes) (fs : FS) : Prop where
  body : ∃ body, i.body = some body ∧ unbroken body ∧ stored cfg fs i.bucket i.key = some (received body) ∧
    e = some (quoted (ext.md5hex (received body)))
  md : ∀ m, i.metadata = some m → contentAt fs (metaFile cfg i.bucket i.key) = some (ext.metaEnc m)

theorem putObject_wp {R : FS → FS → Prop} (hR : Rely R) {own : Path → Prop}
    (hk : ∀ a b, WF a → WF b → R a b → KeepFiles own a b) (i : PutInput) (hkey : endsWithByte i.key 47 = false)
    (hb : checkBucketName i.bucket = true)
    (hP : ∀ q, objP cfg i.bucket i.key q → own q) (hM : own (metaFile cfg i.bucket i.key))
    {fs : FS} (hw : WF fs) :
    wp cfg R (fun o fs' => ∀ e, o = .ok e → PutDone cfg ext i e fs') (putObject cfg ext i) fs := by
  simp only [putObject, bind_eq, pure_eq]
  split
  · exact fun _ _ _ e h => by cases h
  split
  · exact fun _ _ _ e h => by cases h
  rename_i body hbody
  simp only [hkey, Bool.false_eq_true, if_false]
  cases hp : objectPath cfg i.bucket i.key with
  | none => exact fun _ _ _ e h => by cases h
  | some p =>
    have hPp : own p.comps := hP _ ⟨p, hp, rfl⟩
    have hne : p.comps ≠ metaFile cfg i.bucket i.key := objectPath_ne_meta hb hp
    have rest : ∀ fs, WF fs → wp cfg R (fun o fs' => ∀ e, o = .ok e → PutDone cfg ext i e fs')
        ((call (.create p)).bind fun r => (orInternal r).bind fun ino =>
          (copyBytes ino 0 body).bind fun content =>
            (saveOptional cfg ext i.bucket i.key i.metadata).bind fun _ =>
              .ret (some (quoted (ext.md5hex content)))) fs := by
      intro fs hw
      refine wp_call fun fs1 hr1 hw1 => ?_
      have hw2 := exec_wf cfg hw1 (.create p)
      cases hc : (exec cfg fs1 (.create p)).1 with
      | none => exact fun _ _ _ e h => by cases h
      | some ino =>
        obtain ⟨h0, hs⟩ := exec_create_snd hc
        simp only [orInternal]
        show wp _ _ _ ((copyBytes ino 0 body).bind _) _
        refine wp_bind hR hw2 ?_
        refine wp_mono ?_ (copyBytes_wp hR hk hPp body hw2 h0)
        rintro o fs3 hw3 ⟨h3, h4⟩
        rw [List.nil_append] at h3
        rcases h4 with ⟨hu, rfl⟩ | ⟨hu, rfl⟩
        · have hst : ∀ {fs}, Has fs p.comps ino (received body) → stored cfg fs i.bucket i.key = some (received body) := by
            intro fs h
            simp [stored, hp, hs, h.content]
          show wp _ _ _ ((saveOptional cfg ext i.bucket i.key i.metadata).bind _) _
          cases hm : i.metadata with
          | none =>
            intro fs4 hr4 hw4 e he
            cases he
            refine ⟨⟨body, hbody, hu, hst (hk _ _ hw3 hw4 hr4 _ _ _ hPp h3), rfl⟩, ?_⟩
            intro m h; rw [hm] at h; cases h
          | some m =>
            refine wp_bind hR hw3 ?_
            refine wp_mono ?_ (saveMetadata_wp hk hPp hM hne m hw3 h3)
            rintro o fs4 hw4 ⟨h5, h6⟩
            rcases h6 with ⟨rfl, h6⟩ | rfl
            · intro fs5 hr5 hw5 e he
              cases he
              refine ⟨⟨body, hbody, hu, hst (hk _ _ hw4 hw5 hr5 _ _ _ hPp h5), rfl⟩, ?_⟩
              intro m' h
              rw [hm] at h; cases h
              simp only [contentAt] at h6
              split at h6
              · rename_i j hj
                exact (hk _ _ hw4 hw5 hr5 _ _ _ hM ⟨hj, Option.some.inj h6⟩).content
              · cases h6
            · intro e he; cases he
        · intro e he; cases he
    show wp _ _ _ (if p.comps ≠ [] then _ else _) _
    split
    · refine wp_bind hR hw ?_
      refine wp_true _ _ ?_
      intro o fs' hw'
      cases o with
      | ok a => exact rest fs' hw'
      | _ => exact fun e h => by cases h
    · exact rest fs hw

end S3
