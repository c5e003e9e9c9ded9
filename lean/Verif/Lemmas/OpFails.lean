import Verif.Lemmas.Fails
/-! The errors each operation can end with. -/
namespace S3
open Spec

variable {cfg : Cfg} {ext : Ext} {α β : Type} {D : Prop} {E : S3ErrorCode → Prop} (hE : E .InternalError)
include hE

theorem fails_createBucket (b : Bytes) (h : E .BucketAlreadyExists) : Ends D E (createBucket cfg b) := by
  refine Ends.orInternal hE fun p => Ends.exists_ fun r => ?_
  cases r with
  | true => exact h
  | false =>
    refine Ends.call fun r => ?_
    cases r <;> first | exact hE | trivial

theorem fails_copyObject (b k s : Bytes) (h : E .InvalidRequest) : Ends D E (copyObject cfg ext b k s) := by
  simp only [copyObject]
  split
  · exact h
  · refine Ends.orInternal hE fun _ => Ends.orInternal hE fun _ => Ends.call fun _ => Ends.orInternal hE fun _ =>
      Ends.bind (fails_copyFile hE _ _) fun _ => Ends.orInternal hE fun _ => Ends.exists_ fun r => ?_
    cases r with
    | true => exact Ends.orInternal hE fun _ => Ends.bind (fails_copyFile hE _ _) fun _ => Ends.bind (fails_getMd5Sum hE _ _) fun _ => trivial
    | false => exact Ends.bind (fails_getMd5Sum hE _ _) fun _ => trivial

theorem fails_deleteBucket (b : Bytes) : Ends D E (deleteBucket cfg b) := by
  refine Ends.orInternal hE fun p => Ends.call fun r => ?_
  cases (show Bool from r)
  · exact hE
  · trivial

theorem fails_deleteObject (b k : Bytes) : Ends D E (deleteObject cfg b k) := by
  refine Ends.orInternal hE fun p => ?_
  split
  · refine Ends.call fun r => Ends.orInternal hE fun es => ?_
    split
    · refine Ends.call fun r => ?_
      cases (show Bool from r)
      · exact hE
      · trivial
    · trivial
  · refine Ends.call fun r => ?_
    cases (show Bool from r)
    · exact hE
    · trivial

theorem fails_deleteCollect (b : Bytes) (ks : List Bytes) : Ends D E (deleteCollect cfg b ks) := by
  induction ks with
  | nil => trivial
  | cons k ks ih => exact Ends.orInternal hE fun _ => Ends.exists_ fun _ => Ends.bind ih fun _ => trivial

theorem fails_deleteAll (l : List (OsPath × Bytes)) : Ends D E (deleteAll l) := by
  induction l with
  | nil => trivial
  | cons p l ih =>
    refine Ends.call fun r => ?_
    cases (show Bool from r)
    · exact hE
    · exact Ends.bind ih fun _ => trivial

theorem fails_deleteObjects (b : Bytes) (ks : List Bytes) : Ends D E (deleteObjects cfg b ks) :=
  Ends.bind (fails_deleteCollect hE b ks) fun _ => fails_deleteAll hE _

theorem fails_headBucket (b : Bytes) (h : E .NoSuchBucket) : Ends D E (headBucket cfg b) := by
  refine Ends.orInternal hE fun p => Ends.exists_ fun r => ?_
  cases r
  · exact h
  · trivial

theorem fails_getBucketLocation (b : Bytes) (h : E .NoSuchBucket) : Ends D E (getBucketLocation cfg b) := by
  refine Ends.orInternal hE fun p => Ends.exists_ fun r => ?_
  cases r
  · exact h
  · trivial

omit hE in
theorem fails_parseRange (h : E .InvalidRequest) (r : Option Bytes) : Ends D E (parseRange r) := by
  cases r with
  | none => trivial
  | some s =>
    simp only [parseRange]
    split
    · trivial
    · exact h

theorem fails_getObject (b k : Bytes) (r : Option Bytes) (h1 : E .InvalidRequest) (h2 : E .NoSuchKey) (h3 : E .InvalidRange) :
    Ends D E (getObject cfg ext b k r) := by
  refine Ends.orInternal hE fun p => Ends.bind (fails_parseRange h1 r) fun rg => Ends.call fun o => ?_
  cases o with
  | none => exact h2
  | some h =>
    refine Ends.call fun _ => Ends.orInternal hE fun n => ?_
    split
    · exact h3
    · refine Ends.bind (fails_loadMetadata hE b k) fun _ => Ends.bind (fails_getMd5Sum hE b k) fun _ => ?_
      split
      · trivial
      · exact hE

omit hE in
theorem fails_drainBody (h : Handle) (w : Nat → Nat) (fuel i off limit : Nat) : Ends D E (drainBody h w fuel i off limit) := by
  induction fuel generalizing i off limit with
  | zero => trivial
  | succ fuel ih =>
    refine Ends.call fun r => ?_
    cases (show Option Bytes from r) with
    | none => trivial
    | some b =>
      simp only
      split
      · trivial
      · refine Ends.bind (ih _ _ _) fun o => ?_
        cases o <;> trivial

theorem fails_getObjectFull (b k : Bytes) (r : Option Bytes) (w : Nat → Nat) (h1 : E .InvalidRequest) (h2 : E .NoSuchKey)
    (h3 : E .InvalidRange) : Ends D E (getObjectFull cfg ext b k r w) :=
  Ends.bind (fails_getObject hE b k r h1 h2 h3) fun _ => Ends.bind (fails_drainBody _ _ _ _ _ _) fun _ => trivial

theorem fails_headObject (b k : Bytes) (h : E .NoSuchKey) : Ends D E (headObject cfg ext b k) := by
  refine Ends.orInternal hE fun p => Ends.exists_ fun r => ?_
  cases r with
  | false => exact h
  | true =>
    refine Ends.call fun _ => Ends.orInternal hE fun _ => Ends.bind (fails_loadMetadata hE b k) fun _ => ?_
    split
    · trivial
    · exact hE

theorem fails_listBucketsLoop (l : List (Bytes × Bool)) : Ends D E (listBucketsLoop cfg l) := by
  induction l with
  | nil => trivial
  | cons p l ih =>
    obtain ⟨n, d⟩ := p
    simp only [listBucketsLoop]
    split
    · exact Ends.call fun _ => Ends.orInternal hE fun _ => Ends.bind ih fun _ => trivial
    · exact ih

theorem fails_listBuckets : Ends D E (listBuckets cfg) :=
  Ends.call fun _ => Ends.orInternal hE fun _ => fails_listBucketsLoop hE _

theorem fails_listEntries (base : Path) (pfx : Option Bytes) (dir : Path) (l : List (Bytes × Bool)) :
    Ends D E (listEntries cfg base pfx dir l) := by
  induction l with
  | nil => trivial
  | cons p l ih =>
    obtain ⟨n, d⟩ := p
    simp only [listEntries]
    split
    · exact Ends.bind ih fun _ => trivial
    · split
      · exact ih
      · refine Ends.call fun _ => Ends.orInternal hE fun _ => ?_
        split
        · exact Ends.bind ih fun _ => trivial
        · exact hE

theorem fails_listLoop (base : Path) (pfx : Option Bytes) (fuel : Nat) (q : List Path) : Fails E (listLoop cfg base pfx fuel q) := by
  induction fuel generalizing q with
  | zero => cases q <;> trivial
  | succ fuel ih =>
    cases q with
    | nil => trivial
    | cons d q =>
      exact Ends.call fun _ => Ends.orInternal hE fun _ => Ends.bind (fails_listEntries hE _ _ _ _) fun _ =>
        Ends.bind (ih _) fun _ => trivial

theorem fails_listObjects (b : Bytes) (pfx : Option Bytes) (fuel : Nat) : Fails E (listObjects cfg b pfx fuel) :=
  Ends.orInternal hE fun _ => Ends.bind (fails_listLoop hE _ _ _ _) fun _ => trivial

theorem fails_listObjectsV2 (b : Bytes) (pfx : Option Bytes) (fuel : Nat) : Fails E (listObjectsV2 cfg b pfx fuel) := by
  refine Ends.orInternal hE fun _ => Ends.bind (fails_listLoop hE _ _ _ _) fun os => ?_
  split
  · trivial
  · exact hE

theorem fails_putObject (i : PutInput) (h1 : E .InvalidStorageClass) (h2 : E .IncompleteBody) (h3 : E .UnexpectedContent) :
    Ends D E (putObject cfg ext i) := by
  simp only [putObject]
  split
  · exact h1
  · split
    · exact h2
    · rename_i body _
      split
      · split
        · exact Ends.orInternal hE fun _ => Ends.bind (fails_createDirAllRev hE _) fun _ => trivial
        · exact h3
      · refine Ends.orInternal hE fun p => ?_
        have hrest : Ends D E ((call (.create p)).bind fun r => (orInternal r).bind fun ino =>
            (copyBytes ino 0 body).bind fun content => (saveOptional cfg ext i.bucket i.key i.metadata).bind fun _ =>
              Prog.ret (some (quoted (ext.md5hex content)))) :=
          Ends.call fun r => Ends.orInternal hE fun ino => Ends.bind (fails_copyBytes hE _ _ _) fun _ =>
            Ends.bind (fails_saveOptional hE _ _ _) fun _ => trivial
        split
        · exact Ends.bind (fails_createDirAllRev hE _) fun _ => hrest
        · exact hrest

theorem fails_uploadPart (u : Bytes) (n : Int) (b : Option Body) (h : E .IncompleteBody) : Ends D E (uploadPart cfg ext u n b) := by
  cases b with
  | none => exact h
  | some b =>
    exact Ends.orInternal hE fun _ => Ends.call fun r => Ends.orInternal hE fun ino => Ends.bind (fails_copyBytes hE _ _ _) fun _ => trivial

theorem fails_completeLoop (u : Bytes) (ino : Ino) (cnt : Int) (off : Nat) (l : List (Option Int)) :
    Ends D E (completeLoop cfg u ino cnt off l) := by
  induction l generalizing cnt off with
  | nil => trivial
  | cons n l ih =>
    refine Ends.orInternal hE fun n => ?_
    split
    · exact hE
    · refine Ends.orInternal hE fun _ => Ends.call fun _ => Ends.orInternal hE fun _ => Ends.call fun _ => Ends.orInternal hE fun _ =>
        Ends.call (c := .writeAt ..) fun w => ?_
      cases w with
      | false => exact hE
      | true =>
      refine Ends.call (c := .unlink _) fun r => ?_
      cases r
      · exact hE
      · exact ih _ _

theorem fails_completeMultipartUpload (b k u : Bytes) (p : Option (List (Option Int))) (h : E .InvalidPart) :
    Ends D E (completeMultipartUpload cfg ext b k u p) := by
  cases p with
  | none => exact h
  | some p =>
    exact Ends.orInternal hE fun _ => Ends.call fun _ => Ends.orInternal hE fun _ => Ends.bind (fails_completeLoop hE _ _ _ _ _) fun _ =>
      Ends.call fun _ => Ends.orInternal hE fun _ => Ends.bind (fails_getMd5Sum hE _ _) fun _ => trivial

end S3
