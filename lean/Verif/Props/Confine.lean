import Verif.Lemmas.OpSafe
import Verif.Props.Sample
/-! C03, C04, C15, C28: where the operations of the storage read and write. -/
namespace S3
open Spec

/-- permissions inside a region make the calls stay in the region -/
theorem perm_region {Z : Path → Bool} {π : Perm}
    (hst : ∀ q, π.st q → InOrAbove Z q) (hrd : ∀ q, π.rd q → Z q = true)
    (hup : ∀ q, π.up q → InOrAbove Z q) (hwr : ∀ q, π.wr q → Z q = true)
    (hdel : ∀ q, π.del q → Z q = true)
    (hrmd : ∀ q, π.rmd q → Z q = true ∧ ∀ c, Z (q ++ [c]) = true)
    (htree : ∀ q, π.tree q → ∀ r, q <+: r → Z r = true)
    (hrdir : ∀ q, π.rdir q → Z q = true ∧ ∀ c, Z (q ++ [c]) = true)
    (c : Call) (h : π.ok c) : regionOk Z c := by
  cases c with
  | stat p => exact h.elim (hst _) fun h => Or.inl (hrd _ h)
  | mkdir p => exact hup _ h
  | openRead p => exact Or.inl (hrd _ h)
  | fstat x => cases x with
    | dir => trivial
    | file i => exact hrd _ h
  | readAll x => cases x with
    | dir => trivial
    | file i => exact hrd _ h
  | readAt x _ _ _ => cases x with
    | dir => trivial
    | file i => exact hrd _ h
  | create p => exact Or.inl (hwr _ h)
  | writeAt i _ _ => exact hwr _ h
  | unlink p => exact Or.inl (hdel _ h)
  | rmdir p => exact hrmd _ h
  | rmtree p => exact htree _ h
  | readDir p => exact ⟨Or.inl (hrdir _ h).1, (hrdir _ h).2⟩

theorem objP_under {cfg : Cfg} {b k : Bytes} {q : Path} (h : objP cfg b k q) : cfg.root <+: q := by
  obtain ⟨p, hp, rfl⟩ := h; exact resolve_under hp
theorem bucketP_under {cfg : Cfg} {b : Bytes} {q : Path} (h : bucketP cfg b q) : cfg.root <+: q := by
  obtain ⟨p, hp, rfl⟩ := h; exact resolve_under hp
theorem partP_under {cfg : Cfg} {u : Bytes} {n : Int} {q : Path} (h : partP cfg u n q) :
    cfg.root <+: q := by
  obtain ⟨p, hp, rfl⟩ := h; exact resolve_under hp
theorem metaP_under {cfg : Cfg} {b k : Bytes} {q : Path} (h : metaP cfg b k q) : cfg.root <+: q := by
  rw [metaP] at h; rw [h]; exact List.prefix_append _ _

theorem op_region (cfg : Cfg) (o : Op) (c : Call) (h : (opPerm cfg o).ok c) :
    regionOk (below cfg.root) c := by
  have Z : ∀ {q}, cfg.root <+: q → below cfg.root q = true := fun h => isPrefixOf_iff.mpr h
  have Zc : ∀ {q}, cfg.root <+: q → below cfg.root q = true ∧ ∀ c, below cfg.root (q ++ [c]) = true :=
    fun h => ⟨Z h, fun _ => Z (h.trans (List.prefix_append _ _))⟩
  have Zt : ∀ {q}, cfg.root <+: q → ∀ r, q <+: r → below cfg.root r = true :=
    fun h r hr => Z (h.trans hr)
  have drop : ∀ {q d : Path} {b : Bool}, cfg.root <+: q → d <+: (if b then q else q.dropLast) →
      InOrAbove (below cfg.root) d := by
    intro q d b hq hd
    refine Or.inr ⟨q, Z hq, ?_⟩
    cases b
    · exact hd.trans (List.dropLast_prefix q)
    · exact hd
  refine perm_region (π := opPerm cfg o) ?_ ?_ ?_ ?_ ?_ ?_ ?_ ?_ c h <;> intro q hq <;>
    cases o <;> simp only [opPerm] at hq
  all_goals first
    | exact hq.elim
    | (obtain ⟨q', h', hd⟩ := hq; exact drop (objP_under h') hd)
    | exact Z (bucketP_under hq)
    | exact Or.inl (Z (bucketP_under hq))
    | exact Z (objP_under hq)
    | exact Z (partP_under hq)
    | exact Zt (bucketP_under hq)
    | (obtain ⟨sb, sk, _, h1⟩ := hq; exact Z (h1.elim objP_under metaP_under))
    | exact Z (hq.elim objP_under metaP_under)
    | (obtain ⟨k, _, h1⟩ := hq; exact Z (objP_under h1))
    | (obtain ⟨n, rfl⟩ := hq; exact Z (List.prefix_append _ _))
    | (obtain ⟨q', h', hd⟩ := hq; exact Z ((bucketP_under h').trans hd))
    | exact Z (hq.elim objP_under (fun ⟨_, _, _, _, h⟩ => partP_under h))
    | (obtain ⟨_, _, _, _, h⟩ := hq; exact Z (partP_under h))
    | exact Z (hq.2.elim objP_under (fun h => metaP_under h.2))
    | exact Z (objP_under hq.2)
    | exact Zc (objP_under hq.2)
    | (rw [hq]; exact Zc (List.prefix_refl _))
    | (obtain ⟨q', h', hd⟩ := hq; exact Zc ((bucketP_under h').trans hd))

/-- the directories leading to the storage root exist -/
def RootReachable (cfg : Cfg) (fs : FS) : Prop :=
  ∀ q, q <+: cfg.root → q ≠ cfg.root → IsDir fs q

theorem regionRooted_below {cfg : Cfg} {fs : FS} (h : RootReachable cfg fs) :
    RegionRooted (below cfg.root) fs := by
  intro q hq ⟨z, hz, hqz⟩
  have hz' : cfg.root <+: z := isPrefixOf_iff.mp hz
  have hn : ¬ cfg.root <+: q := fun h => by
    rw [below, isPrefixOf_iff.mpr h] at hq; cases hq
  rcases List.prefix_or_prefix_of_prefix hqz hz' with h1 | h1
  · exact h q h1 (fun e => hn (e ▸ List.prefix_refl _))
  · exact absurd h1 hn

theorem content_of_agree {Z : Path → Bool} {a b : FS} (ha : WF a) (h : Agree Z a b)
    {q : Path} (hq : Z q = true) : contentAt b q = contentAt a q := by
  simp only [contentAt, ← h.lookup hq]
  split
  · rename_i i hi
    rw [h.data i (by rw [(ha.ino _ _ hi).1]; exact hq)]
  · rfl

/-- **C03** Whatever a request names, the storage changes nothing outside its root, and what lies
outside has no influence on the answer or on the effect: nothing outside is read. -/
theorem C03_root_confinement (cfg : Cfg) (ext : Ext) (o : Op) (fs : FS) (hw : WF fs)
    (hr : RootReachable cfg fs) :
    (∀ q, ¬ Above cfg.root q →
      (run cfg (opProg cfg ext o) fs).2.lookup q = fs.lookup q ∧
      contentAt (run cfg (opProg cfg ext o) fs).2 q = contentAt fs q) ∧
    (∀ fs2, WF fs2 → RootReachable cfg fs2 → Agree (below cfg.root) fs fs2 →
      (run cfg (opProg cfg ext o) fs2).1 = (run cfg (opProg cfg ext o) fs).1 ∧
      Agree (below cfg.root) (run cfg (opProg cfg ext o) fs).2 (run cfg (opProg cfg ext o) fs2).2) := by
  have hs := (op_safe cfg ext o).mono (op_region cfg o) (fun _ h => h)
  have := hs.region cfg hw (regionRooted_below hr)
  refine ⟨?_, ?_⟩
  · intro q hq
    have hz : (!below cfg.root q) = true := by
      cases hb : below cfg.root q with
      | false => rfl
      | true =>
        obtain ⟨t, ht⟩ := isPrefixOf_iff.mp hb
        exact absurd ⟨t, ht.symm⟩ hq
    exact ⟨(this.1.lookup (Z := fun q => !below cfg.root q) hz).symm,
      content_of_agree hw this.1 hz⟩
  · intro fs2 hw2 hr2 hab
    have h2 := this.2 fs2 hw2 (regionRooted_below hr2) hab
    exact ⟨h2.1.symm, h2.2⟩

theorem sample_reachable : RootReachable Sample.cfg Sample.fs := by
  intro q hq hne
  have : q = [] := by
    obtain ⟨t, ht⟩ := hq
    match q with
    | [] => rfl
    | [x] =>
      simp [Sample.cfg] at ht hne
      exact absurd ht.1 hne
    | x :: y :: r => simp [Sample.cfg] at ht
  rw [this]; exact lookup_nil _

/-- the sample installation meets the hypotheses, for a PUT that tries to climb out -/
example : WF Sample.fs ∧ RootReachable Sample.cfg Sample.fs ∧
    objectPath Sample.cfg b!"aaa" b!"../../../etc/passwd" = some ⟨[b!"srv", b!"etc", b!"passwd"], false⟩ ∧
    contentAt Sample.fs [b!"etc", b!"passwd"] = some b!"secret" :=
  ⟨Sample.fs_wf, sample_reachable, by decide +kernel, by decide +kernel⟩

/-- the same at every crash point -/
theorem C03_root_confinement_crash (cfg : Cfg) (ext : Ext) (o : Op) (fs : FS) (hw : WF fs)
    (hr : RootReachable cfg fs) (n : Nat) (q : Path) (hq : ¬ Above cfg.root q) :
    contentAt (runN cfg n (opProg cfg ext o) fs).2 q = contentAt fs q ∧
    (runN cfg n (opProg cfg ext o) fs).2.lookup q = fs.lookup q := by
  have hs := (op_safe cfg ext o).mono (op_region cfg o) (fun _ h => h)
  have := hs.invN cfg (J := fun x => Agree (fun q => !below cfg.root q) fs x ∧
      RegionRooted (below cfg.root) x)
    (fun x c hx hj hc => by
      have := exec_outside cfg hx hj.2 hc
      exact ⟨hj.1.trans this, hj.2.agree this⟩) hw
    ⟨.refl .., regionRooted_below hr⟩ n
  have hz : (!below cfg.root q) = true := by
    cases hb : below cfg.root q with
    | false => rfl
    | true =>
      obtain ⟨t, ht⟩ := isPrefixOf_iff.mp hb
      exact absurd ⟨t, ht.symm⟩ hq
  exact ⟨content_of_agree hw this.1 hz, (this.1.lookup (Z := fun q => !below cfg.root q) hz).symm⟩

example : ¬ Above Sample.cfg.root [b!"etc", b!"passwd"] := by
  rintro ⟨r, hr⟩; simp [Sample.cfg] at hr

/-- the operations that only read -/
def IsReadOp : Op → Prop
  | .getObject .. | .headObject .. | .headBucket _ | .getBucketLocation _ | .listBuckets
  | .listObjects .. | .listObjectsV2 .. | .createMultipartUpload _ => True
  | _ => False

/-- **C28** Read operations change nothing, whatever they answer. -/
theorem C28_read_ops_pure (cfg : Cfg) (ext : Ext) (o : Op) (h : IsReadOp o) (fs : FS) (hw : WF fs) :
    (run cfg (opProg cfg ext o) fs).2 = fs := by
  refine (op_safe cfg ext o).inv cfg (J := fun x => x = fs) ?_ hw rfl
  intro x c _ hx hc
  subst hx
  cases c with
  | stat p => rfl
  | openRead p => rfl
  | fstat p => rfl
  | readAll p => rfl
  | readAt p => rfl
  | readDir p => simp only [exec]; split <;> rfl
  | mkdir p => cases o <;> first | exact hc.elim | exact h.elim
  | create p => cases o <;> first | exact hc.elim | exact h.elim
  | writeAt i a b => cases o <;> first | exact hc.elim | exact h.elim
  | unlink p => cases o <;> first | exact hc.elim | exact h.elim
  | rmdir p => cases o <;> first | exact hc.elim | exact h.elim
  | rmtree p => cases o <;> first | exact hc.elim | exact h.elim

example : IsReadOp (.getObject b!"aaa" b!"x" (some b!"bytes=1-2") fun _ => 3) ∧
    (run Sample.cfg (opProg Sample.cfg Sample.ext
      (.getObject b!"aaa" b!"x" (some b!"bytes=1-2") fun _ => 3)) Sample.fs).1
      = .ok (.object 2 none b!"\"md5:5\"" (some b!"el")) :=
  ⟨trivial, by decide +kernel⟩

end S3
