import Verif.Lemmas.ReadOnly
import Verif.Props.Address
/-! C15: writing one object leaves the others alone. -/
namespace S3
open Spec

/-- the request writes the object `k` of bucket `b` (an upload of a part writes no object) -/
def Spec.WritesTo (b k : Bytes) : Op → Prop
  | .putObject i => i.bucket = b ∧ i.key = k
  | .deleteObject b' k' => b' = b ∧ k' = k
  | .copyObject b' k' _ => b' = b ∧ k' = k
  | .completeMultipartUpload b' k' u _ => b' = b ∧ k' = k ∧ (47 : UInt8) ∉ u
  | .uploadPart u _ _ => (47 : UInt8) ∉ u
  | _ => False

theorem metaFile_ne_bucket (cfg : Cfg) (b k : Bytes) {b' : Bytes} (h : checkBucketName b' = true) :
    metaFile cfg b k ≠ cfg.root ++ [b'] := by
  obtain ⟨p, hp, _, h2, _⟩ := C06_metadata_storage cfg b k
  rw [metadataPath_eq] at hp; cases hp
  exact h2 b' _ h (bucketPath_legal cfg h)

theorem metaFile_ne_part (cfg : Cfg) (b k : Bytes) {u : Bytes} {n : Int} {q : Path} (h : partP cfg u n q) :
    metaFile cfg b k ≠ q := by
  obtain ⟨p, hp, _, _, h3⟩ := C06_metadata_storage cfg b k
  rw [metadataPath_eq] at hp; cases hp
  obtain ⟨p', hp', rfl⟩ := h
  exact h3 u n p' hp'

theorem objP_plain {cfg : Cfg} {b k : Bytes} {cs : List Bytes} (hb : checkBucketName b = true)
    (hk : PlainKey k cs) {q : Path} : objP cfg b k q ↔ q = cfg.root ++ b :: cs := by
  constructor
  · rintro ⟨p, hp, rfl⟩
    rw [objectPath_plain cfg hb hk] at hp
    cases hp; rfl
  · rintro rfl
    exact ⟨_, objectPath_plain cfg hb hk, rfl⟩

theorem own_cases {cfg : Cfg} {o : Op} {b k : Bytes} {cs : List Bytes} (hb : checkBucketName b = true)
    (hk : PlainKey k cs) (hwr : WritesTo b k o) {q : Path} (h : opOwn cfg o q) :
    q = cfg.root ++ b :: cs ∨ q = metaFile cfg b k ∨
      ∃ u n, partP cfg u n q ∧ q = cfg.root ++ [partName u n] := by
  have hm : ∀ {q}, metaP cfg b k q → q = metaFile cfg b k := fun h => h
  cases o with
  | putObject i =>
    obtain ⟨rfl, rfl⟩ := hwr
    rcases h with h | h | h
    · rcases h.2 with h | h
      · exact Or.inl ((objP_plain hb hk).mp h)
      · exact Or.inr (Or.inl (hm h.2))
    · exact h.elim
    · exact h.elim
  | deleteObject b' k' =>
    obtain ⟨rfl, rfl⟩ := hwr
    rcases h with h | h | h
    · exact h.elim
    · exact Or.inl ((objP_plain hb hk).mp h.2)
    · exact Or.inl ((objP_plain hb hk).mp h.2)
  | copyObject b' k' s =>
    obtain ⟨rfl, rfl⟩ := hwr
    rcases h with h | h | h
    · rcases h with h | h
      · exact Or.inl ((objP_plain hb hk).mp h)
      · exact Or.inr (Or.inl (hm h))
    · exact h.elim
    · exact h.elim
  | completeMultipartUpload b' k' u parts =>
    obtain ⟨rfl, rfl, hu⟩ := hwr
    rcases h with h | h | h
    · exact Or.inl ((objP_plain hb hk).mp h)
    · obtain ⟨l, n, _, _, h⟩ := h
      exact Or.inr (Or.inr ⟨u, n, h, partP_eq hu h⟩)
    · exact h.elim
  | uploadPart u n body =>
    rcases h with h | h | h
    · exact Or.inr (Or.inr ⟨u, n, h, partP_eq hwr h⟩)
    · exact h.elim
    · exact h.elim
  | _ => exact hwr.elim

/-- **C15** (partial) For plain keys: PutObject, DeleteObject, CopyObject, CompleteMultipartUpload (and
UploadPart) on one address change the content of no other address; an object that exists there keeps
its GET answer (bytes, length, entity tag, metadata) and its HEAD answer.
Missing from the full property: keys that are not plain, for which it is false, see
`C15_frame_fails`. -/
theorem C15_frame_partial (cfg : Cfg) (ext : Ext) (o : Op) (fs : FS) (hw : WF fs)
    {b k b' k' : Bytes} {cs cs' : List Bytes} (hb : checkBucketName b = true) (hk : PlainKey k cs)
    (hb' : checkBucketName b' = true) (hk' : PlainKey k' cs')
    (hwr : WritesTo b k o) (hne : ¬ (b = b' ∧ k = k')) :
    contentAt (run cfg (opProg cfg ext o) fs).2 (cfg.root ++ b' :: cs')
      = contentAt fs (cfg.root ++ b' :: cs') ∧
    (contentAt fs (cfg.root ++ b' :: cs') ≠ none → ∀ r w,
      (run cfg (opProg cfg ext (.getObject b' k' r w)) (run cfg (opProg cfg ext o) fs).2).1
        = (run cfg (opProg cfg ext (.getObject b' k' r w)) fs).1 ∧
      (run cfg (opProg cfg ext (.headObject b' k')) (run cfg (opProg cfg ext o) fs).2).1
        = (run cfg (opProg cfg ext (.headObject b' k')) fs).1) := by
  have ht : ∀ q, ¬ (opPerm cfg o).tree q := by
    intro q h
    cases o <;> first | exact h.elim | exact hwr.elim
  have hf := op_frame cfg ext o ht hw
  have hobj : ¬ opOwn cfg o (cfg.root ++ b' :: cs') := by
    intro h
    rcases own_cases hb hk hwr h with h | h | ⟨u, n, _, h⟩
    · simp only [List.append_cancel_left_eq, List.cons.injEq] at h
      exact hne ⟨h.1.symm, by rw [hk.text, hk'.text, h.2]⟩
    · simp only [metaFile, List.append_cancel_left_eq, List.cons.injEq] at h
      exact hk'.nonempty h.2
    · simp only [List.append_cancel_left_eq, List.cons.injEq] at h
      exact hk'.nonempty h.2
  have hmeta : ¬ opOwn cfg o (metaFile cfg b' k') := by
    intro h
    rcases own_cases hb hk hwr h with h | h | ⟨u, n, hp, h⟩
    · simp only [metaFile, List.append_cancel_left_eq, List.cons.injEq] at h
      exact hk.nonempty h.2.symm
    · simp only [metaFile, List.append_cancel_left_eq, List.cons.injEq, and_true] at h
      have := metadataName_inj h
      exact hne ⟨this.1.symm, this.2.symm⟩
    · exact metaFile_ne_part cfg b' k' hp rfl
  have hup : ¬ (opPerm cfg o).up (metaFile cfg b' k') := by
    intro h
    cases o with
    | putObject i =>
      obtain ⟨rfl, rfl⟩ := hwr
      obtain ⟨q, hq, hd⟩ := h
      rw [objP_plain hb hk] at hq
      subst hq
      have hd' : metaFile cfg b' k' <+: cfg.root ++ i.bucket :: cs := by
        refine hd.trans ?_
        split
        · exact List.prefix_refl _
        · exact List.dropLast_prefix _
      rw [metaFile, List.prefix_append_right_inj] at hd'
      have := (List.cons_prefix_cons.mp hd').1
      exact metaFile_ne_bucket cfg b' k' hb (by rw [metaFile, this])
    | _ => first | exact h.elim | exact hwr.elim
  refine ⟨frame_content hw hf hobj, ?_⟩
  intro hex r w
  have hl : fs.lookup (cfg.root ++ b' :: cs') ≠ none := by
    intro h; simp [contentAt, h] at hex
  refine get_local cfg ext r w (run_wf cfg _ hw) hw ?_
  intro q hq
  rcases hq with hq | hq
  · rw [objP_plain hb' hk'] at hq
    subst hq
    exact frame_same hf hobj (Or.inr hl)
  · rw [show q = metaFile cfg b' k' from hq]
    exact frame_same hf hmeta (Or.inl hup)

theorem plain1 {k : Bytes} (h : k ≠ [] ∧ (47 : UInt8) ∉ k ∧ k ≠ b!"." ∧ k ≠ b!"..") : PlainKey k [k] :=
  ⟨rfl, by simp, by intro c hc; simp at hc; subst hc; exact ⟨h.1, h.2.1, h.2.2.1, h.2.2.2⟩⟩

example : WritesTo b!"aaa" b!"x" (.copyObject b!"aaa" b!"x" b!"bbb/y") ∧
    checkBucketName b!"aaa" = true ∧ PlainKey b!"x" [b!"x"] ∧ PlainKey b!"y" [b!"y"] ∧
    contentAt Sample.fs (Sample.cfg.root ++ b!"bbb" :: [b!"y"]) = some b!"world!" ∧
    contentAt (run Sample.cfg (opProg Sample.cfg Sample.ext (.copyObject b!"aaa" b!"x" b!"bbb/y"))
      Sample.fs).2 (Sample.cfg.root ++ b!"aaa" :: [b!"x"]) = some b!"world!" :=
  ⟨⟨rfl, rfl⟩, by decide +kernel, plain1 (by decide), plain1 (by decide), by decide +kernel, by decide +kernel⟩

/-- C15 fails: deleting the object with key `d//x` removes the object with key `d/x`. -/
theorem C15_frame_fails :
    ∃ (cfg : Cfg) (ext : Ext) (fs : FS) (b k k' : Bytes), WF fs ∧ checkBucketName b = true ∧ k ≠ k' ∧
      (run cfg (opProg cfg ext (.headObject b k')) fs).1 = .ok (.head 3 none) ∧
      (run cfg (opProg cfg ext (.deleteObject b k)) fs).1 = .ok .done ∧
      (run cfg (opProg cfg ext (.headObject b k')) (run cfg (opProg cfg ext (.deleteObject b k)) fs).2).1
        = .err .NoSuchKey :=
  ⟨Sample.cfg, Sample.ext,
    (run Sample.cfg (putObject Sample.cfg Sample.ext (samplePut b!"aaa" b!"d/x" b!"one")) Sample.fs).2,
    b!"aaa", b!"d//x", b!"d/x", run_wf _ _ Sample.fs_wf, by decide +kernel, by decide, by decide +kernel,
    by decide +kernel, by decide +kernel⟩

end S3
