import Verif.Spec.FolderMade
import Verif.Lemmas.Making
import Verif.Lemmas.FoldersAtOnce
import Verif.Lemmas.Root
/-! Helper lemmas for C145: how a folder comes into being beside other requests. -/
namespace S3
open Spec

variable {cfg : Cfg} {ext : Ext}

theorem rely_grow (D : Path) : Rely (Grow D) := by
  refine ⟨fun _ _ _ => .inl rfl, fun a b c h1 h2 q hq => ?_⟩
  rcases h1 q hq with e1 | ⟨e1, e1'⟩ <;> rcases h2 q hq with e2 | ⟨e2, e2'⟩
  · exact .inl (e2.trans e1)
  · exact .inr ⟨e1.symm.trans e2, e2'⟩
  · exact .inr ⟨e1, e2.trans e1'⟩
  · exact .inr ⟨e1, e2'⟩

theorem grow_frame {D : Path} {a b : FS} (h : Frame (fun q => ¬ q <+: D) (fun q => q <+: D) a b) : Grow D a b := by
  intro q hq
  rcases h.node q (not_not_intro hq) with e | ⟨_, e1, e2⟩
  · exact .inl e
  · exact .inr ⟨e1, e2⟩

/-- the calls of a request that lets the folder be made -/
theorem lets_ok {b k : Bytes} {cs : List Bytes} (hb : checkBucketName b = true) (hk : PlainKey k cs) {o : Op} (ho : Lets b k o) {c : Call}
    (hc : (opPerm cfg o).ok c) : writeOk (fun q => ¬ q <+: cfg.root ++ b :: cs) (fun q => q <+: cfg.root ++ b :: cs) c := by
  have off : ∀ {b' k' cs'}, OffTheWay b k b' k' → PlainKey k' cs' → ¬ cfg.root ++ b' :: cs' <+: cfg.root ++ b :: cs := by
    intro b' k' cs' ha hk' e
    rw [List.prefix_append_right_inj] at e
    obtain ⟨rfl, e'⟩ := List.cons_prefix_cons.mp e
    rcases nested_of_prefix hk' hk e' with h | h
    · exact ha.other (by rw [h])
    · exact ha.above rfl h
  rcases ho with ho | ho | ⟨b', k', rfl, ha⟩
  · have hA : ∀ b' k', OffTheWay b k b' k' → checkBucketName b' = true ∧ ∃ cs, PlainKey k' cs := fun _ _ h =>
      ⟨(C02_bucket_name_rule _).mpr h.bucket, h.key⟩
    have ht : ∀ {q}, opTouch cfg o q → ¬ q <+: cfg.root ++ b :: cs := by
      intro q h e
      rcases touch_cases hA ho h with ⟨b', k', cs', ha, hb', hk', rfl | rfl⟩ | ⟨u, n, rfl⟩ | ⟨b', hb', hne, hp⟩
      · exact off ha hk' e
      · exact meta_not_prefix hb e
      · exact part_not_prefix hb e
      · exact hne (prefix_root (hp.trans e))
    cases c with
    | mkdir p =>
      by_cases h : p <+: cfg.root ++ b :: cs
      · exact .inl h
      · exact .inr h
    | create p => exact ht (.inl (.inl hc))
    | writeAt i _ _ => exact ht (.inl (.inl hc))
    | unlink p => exact ht (.inl (.inr (.inl hc)))
    | rmdir p => exact ht (.inl (.inr (.inr hc)))
    | rmtree p => exact fun q hq => ht (.inr ⟨p, hc, hq⟩)
    | _ => trivial
  · cases o with
    | putObject i =>
      obtain ⟨hl, k', cs', hk', ek⟩ := ho
      refine writeOk_wider (making_ok hl hk' ek hc) (fun _ h => h.elim) fun q _ => ?_
      by_cases h : q <+: cfg.root ++ b :: cs
      · exact .inl h
      · exact .inr h
    | _ => exact ho.elim
  · obtain ⟨cs', hk'⟩ := ha.key
    have he : endsWithByte (k' ++ b!"/") 47 = true := endsWithByte_iff.mpr ⟨k', rfl⟩
    obtain ⟨x, hp⟩ := objectPath_folder (cfg := cfg) ((C02_bucket_name_rule _).mpr ha.bucket) hk'
    cases c with
    | rmdir p =>
      obtain ⟨_, y, hy, hyp⟩ := hc
      rw [hp] at hy
      cases hy
      show ¬ p.comps <+: _
      rw [hyp]
      exact off ha hk'
    | unlink p =>
      have := hc.1
      rw [he] at this
      cases this
    | mkdir p => exact (hc : False).elim
    | create p => exact (hc : False).elim
    | writeAt i => exact (hc : False).elim
    | rmtree p => exact (hc : False).elim
    | _ => trivial

/-- the calls of a request that spares the folder -/
theorem spares_ok {b k : Bytes} {cs : List Bytes} (hk : PlainKey k cs) {o : Op} (ho : LeavesFolder b k o) {c : Call}
    (hc : (opPerm cfg o).ok c) : sparesDir (cfg.root ++ b :: cs) c := by
  rcases ho with ho | ⟨ho, hne⟩
  · have hA : ∀ b' k', PlainAddress b' k' → checkBucketName b' = true ∧ ∃ cs, PlainKey k' cs := fun _ _ h =>
      ⟨(C02_bucket_name_rule _).mpr h.1, h.2⟩
    cases c with
    | rmdir p =>
      cases o <;> first
        | exact (hc : False).elim
        | (obtain ⟨h, _⟩ := hc
           obtain ⟨_, cs', hk'⟩ := ho
           rw [plain_no_slash hk'] at h
           cases h)
    | rmtree p =>
      cases o <;> first
        | exact (hc : False).elim
        | (obtain ⟨p', hp, he⟩ := hc
           rw [bucketPath_legal cfg ((C02_bucket_name_rule _).mpr ho.1)] at hp
           cases hp
           subst he
           exact fun e => ho.2 (prefix_root e))
    | _ => trivial
  · cases o with
    | putObject i =>
      cases c with
      | rmdir p => exact (hc : False).elim
      | rmtree p => exact (hc : False).elim
      | _ => trivial
    | deleteObject b' k'' =>
      obtain ⟨hl, k', cs', hk', rfl⟩ := ho
      obtain ⟨x, hp⟩ := objectPath_folder (cfg := cfg) ((C02_bucket_name_rule _).mpr hl) hk'
      cases c with
      | rmdir p =>
        obtain ⟨_, y, hy, hyp⟩ := hc
        rw [hp] at hy
        cases hy
        intro e
        rw [hyp] at e
        have := List.append_cancel_left e
        simp only [List.cons.injEq] at this
        obtain ⟨rfl, rfl⟩ := this
        exact hne (by rw [hk'.text, hk.text])
      | rmtree p => exact (hc : False).elim
      | _ => trivial
    | _ => exact ho.elim

/-- the program of a PUT of a folder key -/
theorem folder_prog {i : PutInput} {k : Bytes} {cs : List Bytes} (hl : LegalBucket i.bucket) (hk : PlainKey k cs) (ek : i.key = k ++ b!"/") :
    (∃ e, opProg cfg ext (.putObject i) = .fail e) ∧ ¬ ProperPut (.putObject i) ∨
      opProg cfg ext (.putObject i) = (createDirAllRev (cfg.root ++ i.bucket :: cs).reverse).bind fun _ => .ret (.etag none) := by
  have he : endsWithByte i.key 47 = true := endsWithByte_iff.mpr ⟨k, ek⟩
  obtain ⟨x, hp⟩ := objectPath_folder (cfg := cfg) ((C02_bucket_name_rule _).mpr hl) hk
  rw [← ek] at hp
  have np : (classKnown i = true → i.body ≠ none → i.contentLength = some 0 → False) → ¬ ProperPut (.putObject i) := by
    rintro hn ⟨j, hj, h1, h2, h3⟩
    cases hj
    exact hn h1 h2 h3
  cases hc : classKnown i with
  | false =>
    refine .inl ⟨⟨.InvalidStorageClass, ?_⟩, np (fun h => by rw [hc] at h; cases h)⟩
    rw [classKnown_iff] at hc
    simp only [opProg, putObject, hc, Bool.not_false, if_true]; rfl
  | true =>
    have hc' := hc
    rw [classKnown_iff] at hc'
    cases hb : i.body with
    | none =>
      refine .inl ⟨⟨.IncompleteBody, ?_⟩, np (fun _ h => absurd hb h)⟩
      simp only [opProg, putObject, hc', hb, Bool.not_true, Bool.false_eq_true, if_false]; rfl
    | some body =>
      by_cases hl : i.contentLength = some 0
      · refine .inr ?_
        simp only [opProg, putObject, hc', hb, he, hl, hp, Bool.not_true, Bool.false_eq_true, if_false, if_true, bind_eq, pure_eq,
          createDirAll, orInternal, Prog.bind, bind_assoc]
      · refine .inl ⟨⟨.UnexpectedContent, ?_⟩, np (fun _ _ h => hl h)⟩
        simp only [opProg, putObject, hc', hb, he, hl, Bool.not_true, Bool.false_eq_true, if_false, if_true]; rfl

/-- others keep the directory `D` -/
def KeepsDir (D : Path) (a b : FS) : Prop := a.lookup D = some .dir → b.lookup D = some .dir

theorem rely_keepsDir (D : Path) : Rely (KeepsDir D) := ⟨fun _ h => h, fun _ _ _ h1 h2 h => h2 (h1 h)⟩

/-- a success of `create_dir_all` means that the directory is there, if nobody removes it, whatever fails -/
theorem createDirAllRev_there (l : List Bytes) {fs : FS} (hw : WF fs) :
    wpF cfg (KeepsDir l.reverse) (fun _ fs' => fs'.lookup l.reverse = some .dir) (createDirAllRev l) fs := by
  have req : ∀ (p : Path) (fs : FS), wpF cfg (KeepsDir p) (fun _ fs' => fs'.lookup p = some .dir) (requireDir p) fs := by
    intro p fs
    simp only [requireDir, bind_eq]
    refine wpF_call trivial fun a hr hw => ?_
    simp only [exec, FS.at]
    cases hl : a.lookup p with
    | none => trivial
    | some n =>
      cases n with
      | dir => exact fun b hb _ => hb hl
      | file i => trivial
  have mk : ∀ (p : Path) (a : FS) (f : Fault), (execF cfg a (.mkdir p) f).1 = .ok → (execF cfg a (.mkdir p) f).2.lookup p = some .dir := by
    intro p a f h
    cases f with
    | none =>
      revert h
      simp only [execF, exec]
      repeat' split
      all_goals first
        | (intro h; cases h; done)
        | (intro _; rw [lookup_set]; split <;> simp)
    | _ => cases h
  cases l with
  | nil => exact wpF_true _ _ fun _ fs hw => lookup_nil fs
  | cons c up =>
    simp only [createDirAllRev, bind_eq, pure_eq]
    intro a f hr hwa
    have hm := mk (c :: up).reverse a f
    have hwb := execF_wf (cfg := cfg) hwa (.mkdir (c :: up).reverse) f
    generalize execF cfg a (.mkdir (c :: up).reverse) f = z at hm hwb
    obtain ⟨r, b⟩ := z
    cases r with
    | ok => exact fun b' hb _ => hb (hm rfl)
    | failed => exact req _ _
    | notFound =>
      show wpF cfg (KeepsDir _) _ ((createDirAllRev up).bind _) b
      refine wpF_bind (rely_keepsDir _) hwb (wpF_mono ?_ (wpF_true (createDirAllRev up) b (Q := fun _ _ => True) fun _ _ _ => trivial))
      intro _ d hwd _ a' f' hr' hwa'
      have hm' := mk (c :: up).reverse a' f'
      generalize execF cfg a' (.mkdir (c :: up).reverse) f' = z at hm'
      obtain ⟨r', b'⟩ := z
      cases r' with
      | ok => exact fun b'' hb _ => hb (hm' rfl)
      | failed => exact req _ _
      | notFound => exact req _ _

end S3
