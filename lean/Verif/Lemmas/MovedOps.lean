import Verif.Lemmas.Moved
import Verif.Props.CopySource
import Verif.Lemmas.Root
/-! The operations make corresponding calls on corresponding stores. -/
namespace S3
open Spec

/-- servers for the two stores -/
structure Twins (w : World) (c1 c2 : Cfg) : Prop where
  root1 : c1.root = w.r1
  root2 : c2.root = w.r2
  slash : c1.keepSlash = c2.keepSlash
  len : c1.dirLen = c2.dirLen

/-- corresponding paths -/
def PathRel (w : World) (p p' : OsPath) : Prop := ∃ q s, p = ⟨w.r1 ++ q, s⟩ ∧ p' = ⟨w.r2 ++ q, s⟩

variable {w : World} {c1 c2 : Cfg} {ext : Ext} {α β : Type} {R : α → β → Prop}

theorem orInternal_sim {x : Option α} {y : Option β} (h : OptRel R x y) : Sim w R (orInternal x) (orInternal y) := by
  cases x <;> cases y
  · exact .fail _
  · cases h
  · cases h
  · exact .ret h

theorem orInternal_same (x : Option α) : Sim w (· = ·) (orInternal x) (orInternal x) := by
  cases x
  · exact .fail _
  · exact .ret rfl

/-- a relative path is resolved the same way below either directory -/
theorem resolve_twins (ht : Twins w c1 c2) {s : Bytes} (h : ∀ c, (parseDot c s).1 = false) :
    OptRel (PathRel w) (resolveVirtual c1 s) (resolveVirtual c2 s) := by
  have hp : parseDot c1 s = parseDot c2 s := by
    have h1 := h c1
    have h2 := h c2
    unfold parseDot at *
    by_cases hs : startsWith s b!"/" = true
    · rw [if_pos hs] at h1
      cases h1
    · rw [if_neg hs] at h1
      rw [if_neg hs, if_neg hs]
      cases hc : pathComps s with
      | nil => rfl
      | cons x r =>
        rw [hc] at h1
        dsimp only at h1 ⊢
        split
        · rw [if_pos (by assumption)] at h1
          cases h1
        · rw [if_neg (by assumption)] at h1
          split
          · rw [if_pos (by assumption)] at h1
            cases h1
          · rfl
  simp only [resolveVirtual, h c2, hp, ht.slash, ht.root1, ht.root2]
  exact ⟨_, _, rfl, rfl⟩

theorem relative_starts {k : Bytes} (h : RelativeKey k) : startsWith k b!"/" = false := by
  cases hs : startsWith k b!"/" with
  | false => rfl
  | true =>
    obtain ⟨t, ht⟩ := startsWith_iff.mp hs
    exact absurd ht (h t)

theorem object_twins (ht : Twins w c1 c2) {b k : Bytes} (hb : LegalBucket b) (hk : RelativeKey k) :
    OptRel (PathRel w) (objectPath c1 b k) (objectPath c2 b k) := by
  have hl := (C02_bucket_name_rule _).mpr hb
  have hs := relative_starts hk
  rw [objectPath, objectPath, (join_relative hl hs).1]
  exact resolve_twins ht fun c => by rw [parseDot_relative c hl hs]

theorem bucket_twins (ht : Twins w c1 c2) {b : Bytes} (hb : LegalBucket b) :
    OptRel (PathRel w) (bucketPath c1 b) (bucketPath c2 b) := by
  have hl := (C02_bucket_name_rule _).mpr hb
  rw [bucketPath_legal c1 hl, bucketPath_legal c2 hl, ht.root1, ht.root2]
  exact ⟨_, _, rfl, rfl⟩

theorem meta_twins (ht : Twins w c1 c2) (b k : Bytes) : OptRel (PathRel w) (metadataPath c1 b k) (metadataPath c2 b k) := by
  rw [metadataPath_eq, metadataPath_eq, ht.root1, ht.root2]
  exact ⟨_, _, rfl, rfl⟩

theorem splitAll_keep {c : UInt8} (hc : c ≠ 47) (s : Bytes) : ∃ t r, splitAll 47 s = t :: r ∧ splitAll 47 (c :: s) = (c :: t) :: r := by
  cases h : splitAll 47 s with
  | nil => exact absurd h (splitAll_ne_nil _ _)
  | cons t r => exact ⟨t, r, rfl, by simp [splitAll, hc, h]⟩

theorem part_twins (ht : Twins w c1 c2) (u : Bytes) (n : Int) : OptRel (PathRel w) (partPath c1 u n) (partPath c2 u n) := by
  refine resolve_twins ht fun c => ?_
  obtain ⟨t, r, h1, h2⟩ := splitAll_keep (c := 117) (by decide) (b!"pload_id-" ++ u ++ b!".part-" ++ intDigits n)
  obtain ⟨t', r', h3, h4⟩ := splitAll_keep (c := 46) (by decide) (117 :: (b!"pload_id-" ++ u ++ b!".part-" ++ intDigits n))
  rw [h2] at h3
  cases h3
  have hp : partName u n = 46 :: 117 :: (b!"pload_id-" ++ u ++ b!".part-" ++ intDigits n) := by simp [partName]
  have hs : startsWith (partName u n) b!"/" = false := by rw [hp]; rfl
  have hc : ∃ rest, pathComps (partName u n) = (46 :: 117 :: t) :: rest := by
    rw [pathComps, if_neg (by rw [hs]; decide), hp, h4]
    exact ⟨_, rfl⟩
  obtain ⟨rest, hc⟩ := hc
  rw [parseDot, if_neg (by rw [hs]; decide), hc]
  dsimp only
  rw [if_neg (by simp), if_neg (by simp)]

/-! ### the parts of the operations -/

theorem exists_sim {p p' : OsPath} (h : PathRel w p p') : Sim w (· = ·) (exists_ p) (exists_ p') := by
  obtain ⟨q, s, rfl, rfl⟩ := h
  exact .stat q s fun x => .ret rfl

theorem stat_sim {p p' : OsPath} (h : PathRel w p p') : Sim w (· = ·) (call (.stat p)) (call (.stat p')) := by
  obtain ⟨q, s, rfl, rfl⟩ := h
  exact .stat q s fun x => .ret rfl

theorem open_sim {p p' : OsPath} (h : PathRel w p p') : Sim w (OptRel (HandleRel w)) (call (.openRead p)) (call (.openRead p')) := by
  obtain ⟨q, s, rfl, rfl⟩ := h
  exact .openRead q s fun x y h => .ret h

theorem create_sim {p p' : OsPath} (h : PathRel w p p') :
    Sim w (OptRel fun i j => w.live i ∧ j = w.name i) (call (.create p)) (call (.create p')) := by
  obtain ⟨q, s, rfl, rfl⟩ := h
  exact .create q s fun x y h => .ret h

theorem unlink_sim {p p' : OsPath} (h : PathRel w p p') : Sim w (· = ·) (call (.unlink p)) (call (.unlink p')) := by
  obtain ⟨q, s, rfl, rfl⟩ := h
  exact .unlink q s fun x => .ret rfl

theorem readAll_sim {h h' : Handle} (hh : HandleRel w h h') : Sim w (· = ·) (call (.readAll h)) (call (.readAll h')) :=
  .readAll hh fun _ => .ret rfl

theorem write_sim {i : Ino} (hi : w.live i) (off : Nat) (c : Bytes) :
    Sim w (· = ·) (call (.writeAt i off c)) (call (.writeAt (w.name i) off c)) :=
  .writeAt off c hi fun _ => .ret rfl

theorem requireDir_sim (q : Path) : Sim w (· = ·) (requireDir (w.r1 ++ q)) (requireDir (w.r2 ++ q)) := by
  refine .stat q false fun x => ?_
  cases x with
  | none => exact .fail _
  | some s => cases s <;> first | exact .ret rfl | exact .fail _

theorem createDirAllRev_sim (u : List Bytes) :
    Sim w (· = ·) (createDirAllRev (u ++ w.r1.reverse)) (createDirAllRev (u ++ w.r2.reverse)) := by
  induction u with
  | nil =>
    have hc1 : ∃ c up, w.r1.reverse = c :: up := by
      cases h : w.r1.reverse with
      | nil => exact absurd (by simpa using h) w.ok1.1
      | cons c up => exact ⟨c, up, rfl⟩
    have hc2 : ∃ c up, w.r2.reverse = c :: up := by
      cases h : w.r2.reverse with
      | nil => exact absurd (by simpa using h) w.ok2.1
      | cons c up => exact ⟨c, up, rfl⟩
    obtain ⟨c, up, hc⟩ := hc1
    obtain ⟨d, vp, hd⟩ := hc2
    have e1 : (c :: up).reverse = w.r1 ++ [] := by rw [← hc]; simp
    have e2 : (d :: vp).reverse = w.r2 ++ [] := by rw [← hd]; simp
    rw [List.nil_append, List.nil_append, hc, hd, createDirAllRev, createDirAllRev]
    rw [e1, e2]
    refine Sim.mkdir [] fun x hx => ?_
    cases x with
    | ok => exact .ret rfl
    | failed => exact requireDir_sim []
    | notFound => exact absurd rfl (hx rfl)
  | cons c u ih =>
    have e : ∀ r : Path, (c :: (u ++ r.reverse)).reverse = r ++ (c :: u).reverse := by intro r; simp
    rw [List.cons_append, List.cons_append, createDirAllRev, createDirAllRev]
    rw [e, e]
    refine Sim.mkdir _ fun x hx => ?_
    cases x with
    | ok => exact .ret rfl
    | failed => exact requireDir_sim _
    | notFound =>
      refine Sim.bind ih fun _ _ _ => ?_
      refine Sim.mkdir _ fun x hx => ?_
      cases x with
      | ok => exact .ret rfl
      | failed => exact requireDir_sim _
      | notFound => exact requireDir_sim _

theorem createDirAll_sim (q : Path) : Sim w (· = ·) (createDirAll (w.r1 ++ q)) (createDirAll (w.r2 ++ q)) := by
  rw [createDirAll, createDirAll, List.reverse_append, List.reverse_append]
  exact createDirAllRev_sim _

theorem copyBytes_sim {i : Ino} (hi : w.live i) (body : Body) (off : Nat) :
    Sim w (· = ·) (copyBytes i off body) (copyBytes (w.name i) off body) := by
  induction body generalizing off with
  | nil => exact .ret rfl
  | cons x rest ih =>
    cases x with
    | none => exact .fail _
    | some b =>
      rw [copyBytes, copyBytes]
      by_cases hb : b = []
      · rw [if_pos hb, if_pos hb]
        exact ih off
      · rw [if_neg hb, if_neg hb]
        refine .writeAt _ _ hi fun x => ?_
        cases x with
        | false => exact .fail _
        | true => exact Sim.bind (ih _) fun _ _ e => by cases e; exact .ret rfl

variable {γ δ : Type} {S : γ → δ → Prop}

theorem Sim.path {x y : Option OsPath} (h : OptRel (PathRel w) x y) {f : OsPath → Prog γ} {f' : OsPath → Prog δ}
    (hf : ∀ q s, Sim w S (f ⟨w.r1 ++ q, s⟩) (f' ⟨w.r2 ++ q, s⟩)) : Sim w S (orInternal x >>= f) (orInternal y >>= f') :=
  Sim.bind (orInternal_sim h) fun _ _ ⟨q, s, h1, h2⟩ => by rw [h1, h2]; exact hf q s

theorem Sim.opened (q : Path) (s : Bool) {f : Handle → Prog γ} {f' : Handle → Prog δ}
    (hf : ∀ h h', HandleRel w h h' → Sim w S (f h) (f' h')) :
    Sim w S (call (.openRead ⟨w.r1 ++ q, s⟩) >>= fun x => orInternal x >>= f)
      (call (.openRead ⟨w.r2 ++ q, s⟩) >>= fun x => orInternal x >>= f') :=
  .openRead q s fun _ _ h => Sim.bind (orInternal_sim h) hf

theorem Sim.created (q : Path) (s : Bool) {f : Ino → Prog γ} {f' : Ino → Prog δ}
    (hf : ∀ i, w.live i → Sim w S (f i) (f' (w.name i))) :
    Sim w S (call (.create ⟨w.r1 ++ q, s⟩) >>= fun x => orInternal x >>= f)
      (call (.create ⟨w.r2 ++ q, s⟩) >>= fun x => orInternal x >>= f') :=
  .create q s fun _ _ h => Sim.bind (orInternal_sim h) fun i j ⟨hi, hj⟩ => by rw [hj]; exact hf i hi

theorem Sim.allRead {h h' : Handle} (hh : HandleRel w h h') {f : Bytes → Prog γ} {f' : Bytes → Prog δ}
    (hf : ∀ c, Sim w S (f c) (f' c)) :
    Sim w S (call (.readAll h) >>= fun x => orInternal x >>= f) (call (.readAll h') >>= fun x => orInternal x >>= f') :=
  .readAll hh fun x => Sim.bind (orInternal_same x) fun _ _ e => by cases e; exact hf _

theorem Sim.stated (q : Path) (s : Bool) {f : Stat → Prog γ} {f' : Stat → Prog δ} (hf : ∀ x, Sim w S (f x) (f' x)) :
    Sim w S (call (.stat ⟨w.r1 ++ q, s⟩) >>= fun x => orInternal x >>= f)
      (call (.stat ⟨w.r2 ++ q, s⟩) >>= fun x => orInternal x >>= f') :=
  .stat q s fun x => Sim.bind (orInternal_same x) fun _ _ e => by cases e; exact hf _

theorem Sim.exists_ (q : Path) (s : Bool) {f : Bool → Prog γ} {f' : Bool → Prog δ} (hf : ∀ x, Sim w S (f x) (f' x)) :
    Sim w S (S3.exists_ ⟨w.r1 ++ q, s⟩ >>= f) (S3.exists_ ⟨w.r2 ++ q, s⟩ >>= f') :=
  .stat q s fun _ => hf _

theorem Sim.eq {p : Prog α} {p' : Prog α} (h : Sim w (· = ·) p p') {f : α → Prog γ} {f' : α → Prog δ}
    (hf : ∀ x, Sim w S (f x) (f' x)) : Sim w S (p >>= f) (p' >>= f') :=
  Sim.bind h fun _ _ e => by cases e; exact hf _

theorem Sim.ask {b : Bool} {p q : Prog γ} {p' q' : Prog δ} (h1 : Sim w S p p') (h2 : Sim w S q q') :
    Sim w S (if b = true then p else q) (if b = true then p' else q') := by
  cases b
  · exact h2
  · exact h1

/-! ### the operations -/

theorem getMd5Sum_sim (ht : Twins w c1 c2) {b k : Bytes} (hb : LegalBucket b) (hk : RelativeKey k) :
    Sim w (· = ·) (getMd5Sum c1 ext b k) (getMd5Sum c2 ext b k) :=
  .path (object_twins ht hb hk) fun q s => .opened q s fun _ _ hh => .allRead hh fun _ => .ret rfl

theorem loadMetadata_sim (ht : Twins w c1 c2) (b k : Bytes) :
    Sim w (· = ·) (loadMetadata c1 ext b k) (loadMetadata c2 ext b k) :=
  .path (meta_twins ht b k) fun q s => .exists_ q s fun _ => .ask
    (.opened q s fun _ _ hh => .allRead hh fun _ => .eq (orInternal_same _) fun _ => .ret rfl) (.ret rfl)

theorem saveMetadata_sim (ht : Twins w c1 c2) (b k : Bytes) (m : Meta) :
    Sim w (· = ·) (saveMetadata c1 ext b k m) (saveMetadata c2 ext b k m) :=
  .path (meta_twins ht b k) fun q s => .created q s fun _ hi => .writeAt _ _ hi fun _ => .ask (.ret rfl) (.fail _)

theorem copyFile_sim (q q' : Path) (s s' : Bool) :
    Sim w (· = ·) (copyFile ⟨w.r1 ++ q, s⟩ ⟨w.r1 ++ q', s'⟩) (copyFile ⟨w.r2 ++ q, s⟩ ⟨w.r2 ++ q', s'⟩) := by
  refine .opened q s fun h h' hh => ?_
  cases h <;> cases h' <;> try (exact absurd hh (fun h => h))
  · exact .fail _
  · exact .created q' s' fun _ hi => .allRead hh fun _ => .writeAt _ _ hi fun _ => .ask (.ret rfl) (.fail _)

theorem createBucket_sim (ht : Twins w c1 c2) {b : Bytes} (hb : LegalBucket b) :
    Sim w (· = ·) (createBucket c1 b) (createBucket c2 b) :=
  .path (bucket_twins ht hb) fun q s => .exists_ q s fun _ => .ask (.fail _) <| .mkdir q fun x _ => by
    cases x
    · exact .ret rfl
    · exact .fail _
    · exact .fail _

theorem copyObject_sim (ht : Twins w c1 c2) {b k source : Bytes} (hb : LegalBucket b) (hk : RelativeKey k)
    (hs : ∀ sb sk, source = sb ++ b!"/" ++ sk → LegalBucket sb → RelativeKey sk) :
    Sim w (· = ·) (copyObject c1 ext b k source) (copyObject c2 ext b k source) := by
  rw [copyObject, copyObject]
  cases hc : copySourceFromHeader source with
  | error e => exact .fail _
  | ok v =>
    obtain ⟨sb, sk⟩ := v
    obtain ⟨h1, h2, _⟩ := (C62_copy_source source sb sk).mp hc
    have h3 := hs sb sk h1 h2
    exact .path (object_twins ht h2 h3) fun q s => .path (object_twins ht hb hk) fun q' s' => .stated q s fun _ =>
      .eq (copyFile_sim q q' s s') fun _ => .path (meta_twins ht sb sk) fun m t => .exists_ m t fun e => by
        cases e
        · exact .eq (getMd5Sum_sim ht h2 h3) fun _ => .ret rfl
        · exact .path (meta_twins ht b k) fun m' t' => .eq (copyFile_sim m m' t t') fun _ =>
            .eq (getMd5Sum_sim ht h2 h3) fun _ => .ret rfl

theorem deleteBucket_sim (ht : Twins w c1 c2) {b : Bytes} (hb : LegalBucket b) :
    Sim w (· = ·) (deleteBucket c1 b) (deleteBucket c2 b) :=
  .path (bucket_twins ht hb) fun q _ => .rmtree q fun _ => .ask (.ret rfl) (.fail _)

theorem deleteObject_sim (ht : Twins w c1 c2) {b k : Bytes} (hb : LegalBucket b) (hk : RelativeKey k) :
    Sim w (· = ·) (deleteObject c1 b k) (deleteObject c2 b k) :=
  .path (object_twins ht hb hk) fun q s => .ask
    (.readDir q s fun x => .eq (orInternal_same x) fun es => by
      by_cases he : es = []
      · rw [if_pos he, if_pos he]
        exact .rmdir q s fun _ => .ask (.ret rfl) (.fail _)
      · rw [if_neg he, if_neg he]
        exact .ret rfl)
    (.unlink q s fun _ => .ask (.ret rfl) (.fail _))

/-- corresponding entries of a list of paths and keys -/
def PathsRel (w : World) : List (OsPath × Bytes) → List (OsPath × Bytes) → Prop
  | [], [] => True
  | (p, k) :: l, (p', k') :: l' => PathRel w p p' ∧ k = k' ∧ PathsRel w l l'
  | _, _ => False

theorem deleteCollect_sim (ht : Twins w c1 c2) {b : Bytes} (hb : LegalBucket b) (ks : List Bytes) (hk : ∀ k ∈ ks, RelativeKey k) :
    Sim w (PathsRel w) (deleteCollect c1 b ks) (deleteCollect c2 b ks) := by
  induction ks with
  | nil => exact .ret trivial
  | cons k ks ih =>
    refine .path (object_twins ht hb (hk k (by simp))) fun q s => .exists_ q s fun e => ?_
    refine Sim.bind (ih fun k h => hk k (by simp [h])) fun l l' hl => ?_
    cases e
    · exact .ret hl
    · exact .ret ⟨⟨q, s, rfl, rfl⟩, rfl, hl⟩

theorem deleteAll_sim (l l' : List (OsPath × Bytes)) (h : PathsRel w l l') : Sim w (· = ·) (deleteAll l) (deleteAll l') := by
  induction l generalizing l' with
  | nil =>
    cases l'
    · exact .ret rfl
    · cases h
  | cons e l ih =>
    cases l' with
    | nil => cases h
    | cons e' l' =>
      obtain ⟨p, k⟩ := e
      obtain ⟨p', k'⟩ := e'
      obtain ⟨⟨q, s, rfl, rfl⟩, rfl, h⟩ := h
      exact .unlink q s fun _ => .ask (.eq (ih l' h) fun _ => .ret rfl) (.fail _)

theorem deleteObjects_sim (ht : Twins w c1 c2) {b : Bytes} (hb : LegalBucket b) (ks : List Bytes) (hk : ∀ k ∈ ks, RelativeKey k) :
    Sim w (· = ·) (deleteObjects c1 b ks) (deleteObjects c2 b ks) :=
  Sim.bind (deleteCollect_sim ht hb ks hk) fun l l' h => deleteAll_sim l l' h

theorem getBucketLocation_sim (ht : Twins w c1 c2) {b : Bytes} (hb : LegalBucket b) :
    Sim w (· = ·) (getBucketLocation c1 b) (getBucketLocation c2 b) :=
  .path (bucket_twins ht hb) fun q s => .exists_ q s fun _ => .ask (.ret rfl) (.fail _)

theorem headBucket_sim (ht : Twins w c1 c2) {b : Bytes} (hb : LegalBucket b) :
    Sim w (· = ·) (headBucket c1 b) (headBucket c2 b) :=
  .path (bucket_twins ht hb) fun q s => .exists_ q s fun _ => .ask (.ret rfl) (.fail _)

theorem parseRange_sim (r : Option Bytes) : Sim w (· = ·) (parseRange r) (parseRange r) := by
  cases r with
  | none => exact .ret rfl
  | some s =>
    simp only [parseRange]
    cases Range.fromHeaderStr s
    · exact .fail _
    · exact .ret rfl

/-- corresponding answers of GET -/
def GetRel (w : World) (o o' : GetOutput) : Prop := HandleRel w o.handle o'.handle ∧ o' = { o with handle := o'.handle }

theorem getObject_sim (ht : Twins w c1 c2) {b k : Bytes} (hb : LegalBucket b) (hk : RelativeKey k) (r : Option Bytes) :
    Sim w (GetRel w) (getObject c1 ext b k r) (getObject c2 ext b k r) :=
  .path (object_twins ht hb hk) fun q s => .eq (parseRange_sim r) fun rg => .openRead q s fun x y h => by
    cases x <;> cases y <;> try cases h
    · exact .fail _
    · rename_i a c
      refine .fstat h fun x => .eq (orInternal_same x) fun n => ?_
      cases rangeSlice n rg with
      | none => exact .fail _
      | some l =>
        refine .eq (loadMetadata_sim ht b k) fun md => .eq (getMd5Sum_sim ht hb hk) fun sum => ?_
        by_cases hl : l.2 ≤ i64Max
        · rw [if_pos hl, if_pos hl]
          exact .ret ⟨h, rfl⟩
        · rw [if_neg hl, if_neg hl]
          exact .fail _

theorem drainBody_sim {h h' : Handle} (hh : HandleRel w h h') (wants : Nat → Nat) (fuel i off limit : Nat) :
    Sim w (· = ·) (drainBody h wants fuel i off limit) (drainBody h' wants fuel i off limit) := by
  induction fuel generalizing i off limit with
  | zero => exact .ret rfl
  | succ fuel ih =>
    refine .readAt _ _ _ hh fun x => ?_
    cases x with
    | none => exact .ret rfl
    | some b =>
      show Sim w _ (if b = [] then _ else _) (if b = [] then _ else _)
      by_cases hb : b = []
      · rw [if_pos hb, if_pos hb]
        exact .ret rfl
      · rw [if_neg hb, if_neg hb]
        refine .eq (ih _ _ _) fun r => ?_
        cases r <;> exact .ret rfl

theorem getObjectFull_sim (ht : Twins w c1 c2) {b k : Bytes} (hb : LegalBucket b) (hk : RelativeKey k) (r : Option Bytes)
    (wants : Nat → Nat) : Sim w (fun o o' => GetRel w o.1 o'.1 ∧ o.2 = o'.2) (getObjectFull c1 ext b k r wants)
      (getObjectFull c2 ext b k r wants) :=
  Sim.bind (getObject_sim ht hb hk r) fun o o' h => by
    have e := h.2
    rw [show o'.limit = o.limit by rw [e], show o'.offset = o.offset by rw [e]]
    exact .eq (drainBody_sim h.1 ..) fun x => .ret ⟨h, rfl⟩

theorem statLen_twins (ht : Twins w c1 c2) (st : Stat) : statLen c2 st = statLen c1 st := by
  cases st
  · exact ht.len.symm
  · rfl

theorem headObject_sim (ht : Twins w c1 c2) {b k : Bytes} (hb : LegalBucket b) (hk : RelativeKey k) :
    Sim w (· = ·) (headObject c1 ext b k) (headObject c2 ext b k) :=
  .path (object_twins ht hb hk) fun q s => .exists_ q s fun _ => .ask
    (.stated q s fun st => .eq (loadMetadata_sim ht b k) fun md => by
      rw [statLen_twins ht]
      by_cases hl : statLen c1 st ≤ i64Max
      · rw [if_pos hl]
        exact .ret rfl
      · rw [if_neg hl]
        exact .fail _) (.fail _)

theorem listBucketsLoop_sim (ht : Twins w c1 c2) (es : List (Bytes × Bool)) :
    Sim w (· = ·) (listBucketsLoop c1 es) (listBucketsLoop c2 es) := by
  induction es with
  | nil => exact .ret rfl
  | cons e es ih =>
    obtain ⟨n, d⟩ := e
    rw [listBucketsLoop, listBucketsLoop]
    by_cases h : d = true ∧ checkBucketName (utf8Lossy n) = true
    · rw [if_pos h, if_pos h, ht.root1, ht.root2]
      exact .stated [n] false fun _ => .eq ih fun _ => .ret rfl
    · rw [if_neg h, if_neg h]
      exact ih

theorem listBuckets_sim (ht : Twins w c1 c2) : Sim w (· = ·) (listBuckets c1) (listBuckets c2) := by
  rw [listBuckets, listBuckets, ht.root1, ht.root2, show w.r1 = w.r1 ++ [] by simp, show w.r2 = w.r2 ++ [] by simp]
  exact .readDir [] false fun x => .eq (orInternal_same x) fun es => listBucketsLoop_sim ht es

/-- corresponding directories -/
def DirsRel (w : World) (l l' : List Path) : Prop := ∃ qs : List Path, l = qs.map (w.r1 ++ ·) ∧ l' = qs.map (w.r2 ++ ·)

theorem relKey_twins (q p : Path) : relKey (w.r2 ++ q) (w.r2 ++ p) = relKey (w.r1 ++ q) (w.r1 ++ p) := by
  have e : ∀ r : Path, (r ++ p).drop (r ++ q).length = p.drop q.length := by
    intro r
    rw [List.length_append, List.drop_append, List.drop_eq_nil_of_le (by omega)]
    simp
  rw [relKey, relKey, e, e]

theorem listEntries_sim (ht : Twins w c1 c2) (q d : Path) (pfx : Option Bytes) (es : List (Bytes × Bool)) :
    Sim w (fun x y => DirsRel w x.1 y.1 ∧ x.2 = y.2) (listEntries c1 (w.r1 ++ q) pfx (w.r1 ++ d) es)
      (listEntries c2 (w.r2 ++ q) pfx (w.r2 ++ d) es) := by
  induction es with
  | nil => exact .ret ⟨⟨[], rfl, rfl⟩, rfl⟩
  | cons e es ih =>
    obtain ⟨n, isDir⟩ := e
    cases isDir with
    | true =>
      refine Sim.bind ih fun x y h => ?_
      obtain ⟨⟨qs, h1, h2⟩, h3⟩ := h
      refine .ret ⟨⟨(d ++ [n]) :: qs, ?_, ?_⟩, h3⟩
      · simp [h1]
      · simp [h2]
    | false =>
      rw [listEntries, listEntries]
      simp only [List.append_assoc, relKey_twins, Bool.false_eq_true, if_false, statLen_twins ht]
      cases filteredOut pfx (relKey (w.r1 ++ q) (w.r1 ++ (d ++ [n]))) with
      | true => exact ih
      | false =>
        rw [if_neg (by decide), if_neg (by decide), List.append_assoc, List.append_assoc]
        refine .stated (d ++ [n]) false fun st => ?_
        by_cases hl : statLen c1 st ≤ i64Max
        · rw [if_pos hl, if_pos hl]
          exact Sim.bind ih fun x y h => .ret ⟨h.1, by rw [h.2]⟩
        · rw [if_neg hl, if_neg hl]
          exact .fail _

theorem listLoop_sim (ht : Twins w c1 c2) (q : Path) (pfx : Option Bytes) (fuel : Nat) (qs : List Path) :
    Sim w (· = ·) (listLoop c1 (w.r1 ++ q) pfx fuel (qs.map (w.r1 ++ ·))) (listLoop c2 (w.r2 ++ q) pfx fuel (qs.map (w.r2 ++ ·))) := by
  induction fuel generalizing qs with
  | zero =>
    cases qs
    · exact .ret rfl
    · exact .diverge
  | succ fuel ih =>
    cases qs with
    | nil => exact .ret rfl
    | cons d qs =>
      refine .readDir d false fun x => .eq (orInternal_same x) fun es => ?_
      refine Sim.bind (listEntries_sim ht q d pfx es) fun x y h => ?_
      obtain ⟨⟨ds, h1, h2⟩, h3⟩ := h
      have := ih (qs ++ ds)
      rw [List.map_append, List.map_append, ← h1, ← h2] at this
      exact .eq this fun r => .ret (by rw [h3])

theorem listObjects_sim (ht : Twins w c1 c2) {b : Bytes} (hb : LegalBucket b) (pfx : Option Bytes) (fuel : Nat) :
    Sim w (· = ·) (listObjects c1 b pfx fuel) (listObjects c2 b pfx fuel) :=
  .path (bucket_twins ht hb) fun q _ => .eq (listLoop_sim ht q pfx fuel [q]) fun _ => .ret rfl

theorem listObjectsV2_sim (ht : Twins w c1 c2) {b : Bytes} (hb : LegalBucket b) (pfx : Option Bytes) (fuel : Nat) :
    Sim w (· = ·) (listObjectsV2 c1 b pfx fuel) (listObjectsV2 c2 b pfx fuel) :=
  .path (bucket_twins ht hb) fun q _ => .eq (listLoop_sim ht q pfx fuel [q]) fun os => by
    by_cases hl : os.length ≤ i64Max
    · rw [if_pos hl]
      exact .ret rfl
    · rw [if_neg hl]
      exact .fail _

theorem uploadPart_sim (ht : Twins w c1 c2) (u : Bytes) (n : Int) (body : Option Body) :
    Sim w (· = ·) (uploadPart c1 ext u n body) (uploadPart c2 ext u n body) := by
  cases body with
  | none => exact .fail _
  | some body =>
    exact .path (part_twins ht u n) fun q s => .created q s fun _ hi => .eq (copyBytes_sim hi body 0) fun _ => .ret rfl

theorem completeLoop_sim (ht : Twins w c1 c2) (u : Bytes) {i : Ino} (hi : w.live i) (cnt : Int) (off : Nat) (l : List (Option Int)) :
    Sim w (· = ·) (completeLoop c1 u i cnt off l) (completeLoop c2 u (w.name i) cnt off l) := by
  induction l generalizing cnt off with
  | nil => exact .ret rfl
  | cons n l ih =>
    refine .eq (orInternal_same n) fun n => ?_
    by_cases hn : n ≠ cnt + 1
    · rw [if_pos hn, if_pos hn]
      exact .fail _
    · rw [if_neg hn, if_neg hn]
      exact .path (part_twins ht u n) fun q s => .opened q s fun _ _ hh => .allRead hh fun c => .writeAt _ _ hi fun _ => .ask
        (.unlink q s fun _ => .ask (ih _ _) (.fail _)) (.fail _)

theorem complete_sim (ht : Twins w c1 c2) {b k : Bytes} (hb : LegalBucket b) (hk : RelativeKey k) (u : Bytes)
    (parts : Option (List (Option Int))) :
    Sim w (· = ·) (completeMultipartUpload c1 ext b k u parts) (completeMultipartUpload c2 ext b k u parts) := by
  cases parts with
  | none => exact .fail _
  | some parts =>
    exact .path (object_twins ht hb hk) fun q s => .created q s fun _ hi => .eq (completeLoop_sim ht u hi 0 0 parts) fun _ =>
      .stated q s fun _ => .eq (getMd5Sum_sim ht hb hk) fun _ => .ret rfl

theorem saveOptional_sim (ht : Twins w c1 c2) (b k : Bytes) (m : Option Meta) :
    Sim w (· = ·) (saveOptional c1 ext b k m) (saveOptional c2 ext b k m) := by
  cases m
  · exact .ret rfl
  · exact saveMetadata_sim ht b k _

theorem putObject_sim (ht : Twins w c1 c2) {i : PutInput} (hb : LegalBucket i.bucket) (hk : RelativeKey i.key)
    (hr : ¬ Place w.r1 i.bucket i.key []) : Sim w (· = ·) (putObject c1 ext i) (putObject c2 ext i) := by
  rw [putObject, putObject]
  refine .ask (.fail _) ?_
  cases i.body with
  | none => exact .fail _
  | some body =>
    have hp := object_twins ht hb hk
    refine .ask ?_ ?_
    · by_cases hl : i.contentLength = some 0
      · rw [if_pos hl, if_pos hl]
        exact .path hp fun q s => .eq (createDirAll_sim q) fun _ => .ret rfl
      · rw [if_neg hl, if_neg hl]
        exact .fail _
    · cases h1 : objectPath c1 i.bucket i.key with
      | none =>
        rw [h1] at hp
        cases h2 : objectPath c2 i.bucket i.key with
        | none => exact .fail _
        | some _ => rw [h2] at hp; cases hp
      | some p =>
        rw [h1] at hp
        cases h2 : objectPath c2 i.bucket i.key with
        | none => rw [h2] at hp; cases hp
        | some p' =>
          rw [h2] at hp
          obtain ⟨q, s, rfl, rfl⟩ := hp
          have hq : q ≠ [] := by
            rintro rfl
            exact hr (ht.root1 ▸ place_root hb h1 (by simp [ht.root1]))
          have rest : Sim w (· = ·)
              (call (.create ⟨w.r1 ++ q, s⟩) >>= fun x => orInternal x >>= fun ino => copyBytes ino 0 body >>= fun content =>
                saveOptional c1 ext i.bucket i.key i.metadata >>= fun _ => pure (some (quoted (ext.md5hex content))))
              (call (.create ⟨w.r2 ++ q, s⟩) >>= fun x => orInternal x >>= fun ino => copyBytes ino 0 body >>= fun content =>
                saveOptional c2 ext i.bucket i.key i.metadata >>= fun _ => pure (some (quoted (ext.md5hex content)))) :=
            .created q s fun _ hi => .eq (copyBytes_sim hi body 0) fun _ => .eq (saveOptional_sim ht ..) fun _ => .ret rfl
          show Sim w _ (if w.r1 ++ q ≠ [] then _ else _) (if w.r2 ++ q ≠ [] then _ else _)
          rw [if_pos (by simp [hq]), if_pos (by simp [hq]), List.dropLast_append_of_ne_nil hq, List.dropLast_append_of_ne_nil hq]
          exact .eq (createDirAll_sim _) fun _ => rest

/-- an operation with legal buckets and relative keys -/
theorem op_sim (ht : Twins w c1 c2) {env : Env} {lib : Lib} {r : Req} {body : Body} {o : Op} (ho : Requests lib env r body o)
    (hk : RelativeKeys w.r1 o) : Sim w (· = ·) (opProg c1 ext o) (opProg c2 ext o) := by
  cases ho with
  | listBuckets => exact .eq (listBuckets_sim ht) fun _ => .ret rfl
  | createBucket _ h => exact .eq (createBucket_sim ht (legal_bucketAt h)) fun _ => .ret rfl
  | headBucket _ h => exact .eq (headBucket_sim ht (legal_bucketAt h)) fun _ => .ret rfl
  | deleteBucket _ h => exact .eq (deleteBucket_sim ht (legal_bucketAt h)) fun _ => .ret rfl
  | getBucketLocation _ h => exact .eq (getBucketLocation_sim ht (legal_bucketAt h)) fun _ => .ret rfl
  | listObjects _ h => exact .eq (listObjects_sim ht (legal_bucketAt h) _ _) fun _ => .ret rfl
  | listObjectsV2 _ h => exact .eq (listObjectsV2_sim ht (legal_bucketAt h) _ _) fun _ => .ret rfl
  | deleteObjects _ h => exact .eq (deleteObjects_sim ht (legal_bucketAt h) _ hk) fun _ => .ret rfl
  | postObject _ h => exact .eq (putObject_sim ht (legal_bucketAt h) hk.1 hk.2) fun _ => .ret rfl
  | getObject _ h =>
    refine Sim.bind (getObjectFull_sim ht (legal_objectAt h) hk _ _) fun x y hxy => .ret ?_
    obtain ⟨⟨_, h1⟩, h2⟩ := hxy
    rw [h1, h2]
  | headObject _ h => exact .eq (headObject_sim ht (legal_objectAt h) hk) fun _ => .ret rfl
  | putObject _ h => exact .eq (putObject_sim ht (legal_objectAt h) hk.1 hk.2) fun _ => .ret rfl
  | copyObject _ h => exact .eq (copyObject_sim ht (legal_objectAt h) hk.1 hk.2) fun _ => .ret rfl
  | deleteObject _ h => exact .eq (deleteObject_sim ht (legal_objectAt h) hk) fun _ => .ret rfl
  | createMultipartUpload _ h => exact .ret rfl
  | uploadPart _ h => exact .eq (uploadPart_sim ht ..) fun _ => .ret rfl
  | completeMultipartUpload _ h => exact .eq (complete_sim ht (legal_objectAt h) hk ..) fun _ => .ret rfl

theorem Sim.refl_ret {x : α} {p : Prog α} (h : p = .ret x) : Sim w (· = ·) p p := by
  rw [h]
  exact .ret rfl

/-- a request -/
theorem request_sim (ht : Twins w c1 c2) {lib : Lib} {auth : Option Provider} {x : Exchange} (h : RelativeRequest w.r1 ext lib auth x) :
    Sim w (· = ·) (hyperCall c1 ext lib auth x.env x.texts x.req) (hyperCall c2 ext lib auth x.env x.texts x.req) := by
  rcases h with ⟨o, hk, c, hc, ho⟩ | ⟨err, he⟩
  · rw [hyperCall_asks hc ho, hyperCall_asks hc ho]
    refine Sim.catch (.eq (op_sim ht ho hk) fun a => ?_) fun e => ?_
    · unfold respond
      split
      · rename_i m _
        obtain ⟨res, hr, _⟩ := makeResponse_ret x.texts c o.handler ⟨o.handler.status, m, a⟩
        exact .refl_ret (x := res) hr
      · exact .fail _
    · obtain ⟨res, hr⟩ := errorResponse_ret x.texts e
      exact .refl_ret hr
  · obtain ⟨res, hr⟩ := errorResponse_ret x.texts err
    have : ∀ c, hyperCall c ext lib auth x.env x.texts x.req = .ret res := by
      intro c
      obtain ⟨K, _, hK⟩ := hyperCall_eq c ext lib auth x.env x.texts x.req
      rw [hK, he]
      exact hr
    rw [this, this]
    exact .ret rfl

end S3
