import Verif.Lemmas.Put
/-! PUT succeeds when nothing is in the way, under interference by other uploads. -/
namespace S3
open Spec

variable {cfg : Cfg} {ext : Ext}

/-- below `p` nothing but directories has appeared -/
def Grow (p : Path) (a b : FS) : Prop :=
  ∀ q, q <+: p → b.lookup q = a.lookup q ∨ (a.lookup q = none ∧ b.lookup q = some .dir)

/-- no regular file on the way to `p` (included) -/
def Clear (p : Path) (fs : FS) : Prop := ∀ q, q <+: p → fs.lookup q = none ∨ fs.lookup q = some .dir

theorem Clear.grow {p : Path} {a b : FS} (h : Clear p a) (hg : Grow p a b) : Clear p b := by
  intro q hq
  rcases hg q hq with e | ⟨_, e⟩
  · rw [e]; exact h q hq
  · exact Or.inr e

theorem Clear.up {p q : Path} {fs : FS} (h : Clear p fs) (hq : q <+: p) : Clear q fs :=
  fun r hr => h r (hr.trans hq)

theorem Grow.up {p q : Path} {a b : FS} (h : Grow p a b) (hq : q <+: p) : Grow q a b :=
  fun r hr => h r (hr.trans hq)

theorem Grow.dir {p q : Path} {a b : FS} (h : Grow p a b) (hq : q <+: p) (hd : a.lookup q = some .dir) :
    b.lookup q = some .dir := by
  rcases h q hq with e | ⟨e, _⟩
  · rw [e, hd]
  · rw [hd] at e; cases e

theorem noNul_of {p : Path} (h : ∀ c ∈ p, nameOk c = true) : noNul p = true := by
  simp only [noNul, List.all_eq_true]
  intro c hc
  have := h c hc
  simp only [nameOk, Bool.and_eq_true] at this
  exact this.1.1.1.2

theorem exec_mkdir {fs : FS} {u : Path} {c : Bytes} (hn : ∀ x ∈ u ++ [c], nameOk x = true) (hc : Clear (u ++ [c]) fs) :
    (fs.lookup u = none ∧ exec cfg fs (.mkdir (u ++ [c])) = (.notFound, fs)) ∨
    (fs.lookup u = some .dir ∧ fs.lookup (u ++ [c]) = none ∧
      exec cfg fs (.mkdir (u ++ [c])) = (.ok, fs.set (u ++ [c]) .dir)) ∨
    (fs.lookup u = some .dir ∧ fs.lookup (u ++ [c]) = some .dir ∧
      exec cfg fs (.mkdir (u ++ [c])) = (.failed, fs)) := by
  have h1 := noNul_of hn
  have h2 := hn c (by simp)
  rcases hc u (List.prefix_append _ _) with hu | hu
  · left; simp [exec, h1, hu]
  · right
    rcases hc _ (List.prefix_refl _) with hp | hp
    · left; simp [exec, h1, hu, hp, h2]
    · right; simp [exec, h1, hu, hp]

theorem Clear.setDir {P p : Path} {fs : FS} (h : Clear P fs) : Clear P (fs.set p .dir) := by
  intro q hq
  rw [lookup_set]
  split
  · exact Or.inr rfl
  · split
    · exact Or.inr rfl
    · exact h q hq

theorem requireDir_wp {R : FS → FS → Prop} {P p : Path} (hg : ∀ a b, R a b → Grow P a b) (hp : p <+: P) {fs : FS}
    (h : fs.lookup p = some .dir) (hc : Clear P fs) :
    wp cfg R (fun o fs' => o = .ok () ∧ fs'.lookup p = some .dir ∧ Clear P fs') (requireDir p) fs := by
  intro fs' hr hw
  have hd := (hg _ _ hr).dir hp h
  have : (exec cfg fs' (.stat ⟨p, false⟩)) = (some .dir, fs') := by simp [exec, hd]
  rw [this]
  intro fs2 hr2 hw2
  exact ⟨rfl, (hg _ _ hr2).dir hp hd, (hc.grow (hg _ _ hr)).grow (hg _ _ hr2)⟩

theorem createDirAllRev_wp {R : FS → FS → Prop} (hR : Rely R) {P : Path}
    (hg : ∀ a b, R a b → Grow P a b) (hn : ∀ c ∈ P, nameOk c = true) (l : List Bytes) (hl : l.reverse <+: P) :
    ∀ {fs : FS}, WF fs → Clear P fs →
      wp cfg R (fun o fs' => o = .ok () ∧ fs'.lookup l.reverse = some .dir ∧ Clear P fs') (createDirAllRev l) fs := by
  induction l with
  | nil =>
    intro fs hw hc fs' hr hw'
    have : (exec cfg fs' (.mkdir [])) = (.failed, fs') := by simp [exec, noNul]
    rw [this]
    exact fun fs2 hr2 hw2 => ⟨rfl, lookup_nil _, (hc.grow (hg _ _ hr)).grow (hg _ _ hr2)⟩
  | cons c up ih =>
    intro fs hw hc
    rw [List.reverse_cons] at hl ⊢
    have hup : up.reverse <+: P := (List.prefix_append _ _).trans hl
    have hn' : ∀ x ∈ up.reverse ++ [c], nameOk x = true := fun x hx => hn x (hl.subset hx)
    simp only [createDirAllRev, bind_eq, pure_eq]
    rw [List.reverse_cons]
    have okRet : ∀ {fs1 : FS}, fs1.lookup (up.reverse ++ [c]) = some .dir → Clear P fs1 →
        wp cfg R (fun o fs' => o = .ok () ∧ fs'.lookup (up.reverse ++ [c]) = some .dir ∧ Clear P fs') (.ret ()) fs1 :=
      fun h hc fs2 hr2 _ => ⟨rfl, (hg _ _ hr2).dir hl h, hc.grow (hg _ _ hr2)⟩
    have hset : ∀ fs1 : FS, (fs1.set (up.reverse ++ [c]) .dir).lookup (up.reverse ++ [c]) = some .dir := by
      intro fs1; simp [lookup_set]
    refine wp_call fun fs' hr hw' => ?_
    have hc' := hc.grow (hg _ _ hr)
    rcases exec_mkdir (cfg := cfg) hn' (hc'.up hl) with ⟨_, e⟩ | ⟨_, _, e⟩ | ⟨_, hd, e⟩
    · rw [e]
      refine wp_bind hR hw' ?_
      refine wp_mono ?_ (ih hup hw' hc')
      rintro o fs2 hw2 ⟨rfl, hd2, hc2⟩
      show wp _ _ _ ((call _).bind _) _
      refine wp_call fun fs3 hr3 hw3 => ?_
      have hd3 := (hg _ _ hr3).dir hup hd2
      have hc3 := hc2.grow (hg _ _ hr3)
      rcases exec_mkdir (cfg := cfg) hn' (hc3.up hl) with ⟨hx, _⟩ | ⟨_, _, e⟩ | ⟨_, hd, e⟩
      · rw [hd3] at hx; cases hx
      · rw [e]; exact okRet (hset _) hc3.setDir
      · rw [e]; exact requireDir_wp hg hl hd hc3
    · rw [e]; exact okRet (hset _) hc'.setDir
    · rw [e]; exact requireDir_wp hg hl hd hc'

/-- what the other uploads may do while an object is written to `P` with metadata at `M`: anything
elsewhere, and directories on the way to `P` -/
def PutRely (P M : Path) : FS → FS → Prop :=
  Frame (fun q => ¬ (q <+: P ∨ q = M)) (fun q => q <+: P ∧ q ≠ P)

theorem rely_put (P M : Path) : Rely (PutRely P M) := ⟨fun _ => Frame.refl .., fun _ _ _ => Frame.trans⟩

theorem putRely_keep (P M : Path) {a b : FS} (hw : WF a) (_ : WF b) (h : PutRely P M a b) :
    KeepFiles (fun q => q = P ∨ q = M) a b := by
  intro p i c hp ha
  refine h.keep hw ?_ ha
  rcases hp with rfl | rfl <;> simp

/-- nothing stands in the way of an object at `P` -/
structure Ready (P : Path) (fs : FS) : Prop where
  nonempty : P ≠ []
  names : ∀ c ∈ P, nameOk c = true
  clear : Clear P.dropLast fs
  free : fs.lookup P ≠ some .dir

/-- the file `M` in the directory `d` can be written -/
structure Writable (d : Path) (n : Bytes) (fs : FS) : Prop where
  dir : fs.lookup d = some .dir
  names : ∀ c ∈ d ++ [n], nameOk c = true
  free : fs.lookup (d ++ [n]) ≠ some .dir

theorem exec_create_ok {fs : FS} {d : Path} {n : Bytes} (h : Writable d n fs) :
    ∃ i, (exec cfg fs (.create ⟨d ++ [n], false⟩)).1 = some i := by
  have h1 := noNul_of h.names
  have h2 := h.names n (by simp)
  simp only [exec, h1]
  simp only [Bool.not_true, Bool.or_self, Bool.false_eq_true, if_false, List.getLast?_append, List.getLast?_singleton,
    Option.some_or]
  cases hl : fs.lookup (d ++ [n]) with
  | none => simp [h.dir, h2]
  | some x =>
    cases x with
    | dir => exact (h.free hl).elim
    | file i => exact ⟨i, rfl⟩

theorem Writable.frame {d : Path} {n : Bytes} {own up : Path → Prop} {a b : FS} (h : Writable d n a)
    (hf : Frame own up a b) (h1 : ¬ own d) (h2 : ¬ own (d ++ [n])) (h3 : ¬ up (d ++ [n])) : Writable d n b := by
  refine ⟨?_, h.names, ?_⟩
  · rcases hf.node d h1 with e | ⟨_, _, e⟩
    · rw [e, h.dir]
    · exact e
  · rcases hf.node _ h2 with e | ⟨hu, _⟩
    · rw [e]; exact h.free
    · exact (h3 hu).elim

theorem wp_writable {R : FS → FS → Prop} {d : Path} {n : Bytes} {own up : Path → Prop} {α : Type} {p : Prog α}
    (hs : Safe (writeOk own up) (fun _ => True) p) (hRw : ∀ a b, R a b → Writable d n a → Writable d n b)
    (h1 : ¬ own d) (h2 : ¬ own (d ++ [n])) (h3 : ¬ up (d ++ [n])) {fs : FS} (h : Writable d n fs) :
    wp cfg R (fun _ fs' => Writable d n fs') p fs :=
  wp_inv hs (J := Writable d n) (fun _ _ hw hj hc => hj.frame (exec_frame cfg hw hc) h1 h2 h3) hRw h
    (fun _ _ hj _ => hj)

/-- The PUT of a plain key succeeds when its body arrives completely, the names fit and nothing is in the way,
whatever other uploads do meanwhile (`PutRely`). -/
theorem putObject_ok {i : PutInput} {body : Body} {d : Path} {n : Bytes} (hp : objectPath cfg i.bucket i.key = some ⟨d ++ [n], false⟩)
    (hkey : endsWithByte i.key 47 = false) (hsc : i.storageClass.all storageClassOk = true)
    (hbody : i.body = some body) (hu : unbroken body) (hb : checkBucketName i.bucket = true)
    (hroot : cfg.root <+: d) (hMP : ¬ metaFile cfg i.bucket i.key <+: d ++ [n])
    {fs : FS} (hw : WF fs) (hr : Ready (d ++ [n]) fs)
    (hm : i.metadata ≠ none → Writable cfg.root (metadataName i.bucket i.key) fs) :
    wp cfg (PutRely (d ++ [n]) (metaFile cfg i.bucket i.key)) (fun o _ => ∃ e, o = .ok e) (putObject cfg ext i) fs := by
  have hR := rely_put (d ++ [n]) (metaFile cfg i.bucket i.key)
  have hkeep := @putRely_keep (d ++ [n]) (metaFile cfg i.bucket i.key)
  have hdP : d <+: d ++ [n] := List.prefix_append _ _
  have hdne : d ≠ d ++ [n] := by intro h; have := congrArg List.length h; simp at this
  have hMd : ¬ metaFile cfg i.bucket i.key <+: d := fun h => hMP (h.trans hdP)
  have hgrow : ∀ a b, PutRely (d ++ [n]) (metaFile cfg i.bucket i.key) a b → Grow d a b := by
    intro a b h q hq
    rcases h.node q (by simp [hq.trans hdP]) with e | ⟨_, h1, h2⟩
    · exact Or.inl e
    · exact Or.inr ⟨h1, h2⟩
  have hRw : ∀ a b, PutRely (d ++ [n]) (metaFile cfg i.bucket i.key) a b →
      (i.metadata ≠ none → Writable cfg.root (metadataName i.bucket i.key) a) →
      (i.metadata ≠ none → Writable cfg.root (metadataName i.bucket i.key) b) := by
    intro a b h hm hn
    exact (hm hn).frame h (by simp [hroot.trans hdP]) (by simp [metaFile]) (fun hx => hMP hx.1)
  have hrootP : cfg.root ≠ d ++ [n] := by
    intro h
    have h1 := hroot.length_le
    have h2 := congrArg List.length h
    simp at h2; omega
  simp only [putObject, bind_eq, pure_eq, hsc, hbody, hkey, hp]
  show wp _ _ _ (if d ++ [n] ≠ [] then (createDirAll (d ++ [n]).dropLast).bind _ else _) fs
  rw [if_pos (by simp), List.dropLast_concat]
  refine wp_bind hR hw ?_
  have hclear : Clear d fs := by have := hr.clear; rwa [List.dropLast_concat] at this
  have hcd := createDirAllRev_wp (cfg := cfg) hR hgrow (fun c hc => hr.names c (by simp [hc])) d.reverse (by simp) hw hclear
  rw [List.reverse_reverse] at hcd
  -- the place of the object stays free, the metadata file stays writable
  have hsafe : Safe (writeOk (fun _ => False) (fun q => q <+: d)) (fun _ => True) (createDirAllRev d.reverse) := by
    refine (safe_createDirAllRev (π := { st := fun q => q <+: d, up := fun q => q <+: d }) _ (by simp)).mono ?_ (fun _ h => h)
    intro c hc
    cases c <;> first | exact Or.inl hc | exact hc | trivial
  have hfree := wp_inv (cfg := cfg) (R := PutRely (d ++ [n]) (metaFile cfg i.bucket i.key)) (fs := fs) hsafe
    (J := fun fs => fs.lookup (d ++ [n]) ≠ some .dir ∧ (i.metadata ≠ none → Writable cfg.root (metadataName i.bucket i.key) fs))
    (Q := fun _ fs => fs.lookup (d ++ [n]) ≠ some .dir ∧ (i.metadata ≠ none → Writable cfg.root (metadataName i.bucket i.key) fs))
    (by
      intro fs c hw ⟨h1, h2⟩ hc
      have hf := exec_frame cfg hw hc
      refine ⟨?_, fun hn => (h2 hn).frame hf (fun h => h) (fun h => h) hMd⟩
      rcases hf.node (d ++ [n]) (fun h => h) with e | ⟨h, _⟩
      · rw [e]; exact h1
      · have h1 := h.length_le
        simp at h1; omega)
    (by
      intro a b h ⟨h1, h2⟩
      refine ⟨?_, hRw a b h h2⟩
      rcases h.node (d ++ [n]) (by simp) with e | ⟨h, _⟩
      · rw [e]; exact h1
      · exact (h.2 rfl).elim)
    ⟨hr.free, hm⟩ (fun _ _ h _ => h)
  refine wp_mono ?_ (wp_and hcd hfree)
  rintro o fs1 hw1 ⟨⟨rfl, hd1, _⟩, hf1, hm1⟩
  show wp _ _ _ ((call _).bind _) _
  refine wp_call fun fs2 hr2 hw2 => ?_
  have hd2 := (hgrow _ _ hr2).dir (List.prefix_refl _) hd1
  have hf2 : fs2.lookup (d ++ [n]) ≠ some .dir := by
    rcases hr2.node (d ++ [n]) (by simp) with e | ⟨h, _⟩
    · rw [e]; exact hf1
    · exact (h.2 rfl).elim
  have hm2 := hRw _ _ hr2 hm1
  obtain ⟨ino, hino⟩ := exec_create_ok (cfg := cfg) ⟨hd2, hr.names, hf2⟩
  have hcr := exec_create_snd hino
  have hw3 := exec_wf cfg hw2 (.create ⟨d ++ [n], false⟩)
  have hne : ∀ {q}, q = d ++ [n] → q ≠ metaFile cfg i.bucket i.key := by
    rintro q rfl h
    exact hMP (by rw [h]; exact List.prefix_refl _)
  have hm3 : i.metadata ≠ none → Writable cfg.root (metadataName i.bucket i.key) (exec cfg fs2 (.create ⟨d ++ [n], false⟩)).2 :=
    fun hn => (hm2 hn).frame (exec_frame cfg (own := (· = d ++ [n])) (up := fun _ => False) (c := .create _) hw2 rfl)
      hrootP (fun h => hne h rfl) (fun h => h)
  rw [hino]
  show wp _ _ _ ((copyBytes ino 0 body).bind _) _
  refine wp_bind hR hw3 ?_
  have hc1 := copyBytes_wp (cfg := cfg) hR (fun a b h1 h2 h => hkeep h1 h2 h) (Or.inl rfl) body hw3 hcr.1
  have hinop := (hw3.ino _ _ hcr.1.node).1
  have hsafe2 : Safe (writeOk (· = d ++ [n]) (fun _ => False)) (fun _ => True) (copyBytes ino 0 body) := by
    refine (safe_copyBytes (π := { wr := (· = d ++ [n]) }) hinop body 0).mono ?_ (fun _ h => h)
    intro c hc
    cases c <;> first | exact hc | exact (hc : False).elim | trivial
  have hc2 := wp_inv (cfg := cfg) (R := PutRely (d ++ [n]) (metaFile cfg i.bucket i.key)) hsafe2
    (J := fun fs => i.metadata ≠ none → Writable cfg.root (metadataName i.bucket i.key) fs)
    (Q := fun _ fs => i.metadata ≠ none → Writable cfg.root (metadataName i.bucket i.key) fs)
    (by
      intro fs c hw h2 hc hn
      exact (h2 hn).frame (exec_frame cfg hw hc) hrootP (fun h => hne h rfl) (fun h => h))
    hRw hm3 (fun _ _ h _ => h)
  refine wp_mono ?_ (wp_and hc1 hc2)
  rintro o fs4 hw4 ⟨⟨h3, h4⟩, hm4⟩
  rcases h4 with ⟨_, rfl⟩ | ⟨h, _⟩
  case inr => exact (h hu).elim
  show wp _ _ _ ((saveOptional cfg ext i.bucket i.key i.metadata).bind _) _
  cases hmd : i.metadata with
  | none => exact fun _ _ _ => ⟨_, rfl⟩
  | some m =>
    have hm4 := hm4 (by simp [hmd])
    simp only [saveOptional, saveMetadata, metadataPath_eq, bind_eq, pure_eq]
    refine wp_bind hR hw4 ?_
    show wp _ _ _ ((call _).bind _) _
    refine wp_call fun fs5 hr5 hw5 => ?_
    have hm5 := hRw _ _ hr5 (fun _ => hm4) (by simp [hmd])
    obtain ⟨j, hj⟩ := exec_create_ok (cfg := cfg) hm5
    rw [hj]
    exact fun _ _ _ _ _ _ _ _ _ => ⟨_, rfl⟩

end S3
