import Verif.Lemmas.Safe
import Verif.Lemmas.Resolve
/-! The system calls each storage operation can issue. -/
namespace S3
open Spec

/-- sets of paths for the kinds of system calls: `stat` only, reading, `mkdir`, creating and writing, `unlink`,
`rmdir`, `remove_dir_all`, `readdir` -/
structure Perm where
  st : Path → Prop := fun _ => False
  rd : Path → Prop := fun _ => False
  up : Path → Prop := fun _ => False
  wr : Path → Prop := fun _ => False
  del : Path → Prop := fun _ => False
  rmd : Path → Prop := fun _ => False
  tree : Path → Prop := fun _ => False
  rdir : Path → Prop := fun _ => False

def Perm.ok (π : Perm) : Call → Prop
  | .stat p => π.st p.comps ∨ π.rd p.comps
  | .mkdir p => π.up p
  | .openRead p => π.rd p.comps
  | .fstat (.file i) => π.rd i.path
  | .readAll (.file i) => π.rd i.path
  | .readAt (.file i) .. => π.rd i.path
  | .create p => π.wr p.comps
  | .writeAt i _ _ => π.wr i.path
  | .unlink p => π.del p.comps
  | .rmdir p => π.rmd p.comps
  | .rmtree p => π.tree p
  | .readDir p => π.rdir p.comps
  | _ => True

variable {π : Perm} {α : Type}

theorem safe_exists {β : Type} {p : OsPath} {f : Bool → Prog β} {Q : β → Prop} (h : π.rd p.comps)
    (hf : ∀ b, Safe π.ok Q (f b)) : Safe π.ok Q ((exists_ p).bind f) :=
  Safe.callBind (c := .stat p) (Or.inr h) fun r _ => hf r.isSome

theorem safe_requireDir {p : Path} (h : π.st p) : Safe π.ok (fun _ => True) (requireDir p) := by
  refine Safe.callBind (c := .stat _) (Or.inl h) fun r _ => ?_
  match r with
  | some .dir => trivial
  | some (.file _) => trivial
  | none => trivial

theorem safe_createDirAllRev (l : List Bytes) (h : ∀ q, q <+: l.reverse → π.st q ∧ π.up q) :
    Safe π.ok (fun _ => True) (createDirAllRev l) := by
  induction l with
  | nil =>
    refine Safe.callBind (h [] (by simp)).2 fun r _ => ?_
    cases r <;> trivial
  | cons c up ih =>
    have hp := h _ (List.prefix_refl _)
    have hst := safe_requireDir hp.1
    refine Safe.callBind hp.2 fun r _ => ?_
    match r with
    | .ok => trivial
    | .failed => exact hst
    | .notFound =>
      have ih' := ih (fun q hq => h q (by
        rw [List.reverse_cons]; exact hq.trans (List.prefix_append _ _)))
      refine Safe.bind ih' fun _ _ => ?_
      refine Safe.callBind hp.2 fun r _ => ?_
      match r with
      | .ok => trivial
      | .failed => exact hst
      | .notFound => exact hst

theorem safe_createDirAll (p : Path) (h : ∀ q, q <+: p → π.st q ∧ π.up q) :
    Safe π.ok (fun _ => True) (createDirAll p) :=
  safe_createDirAllRev _ (by simpa using h)

theorem safe_copyBytes {ino : Ino} (h : π.wr ino.path) (body : Body) (off : Nat) :
    Safe π.ok (fun _ => True) (copyBytes ino off body) := by
  induction body generalizing off with
  | nil => trivial
  | cons x rest ih =>
    cases x with
    | none => trivial
    | some b =>
      simp only [copyBytes]
      split
      · exact ih off
      · refine Safe.callBind (c := .writeAt ..) h fun r _ => ?_
        cases r with
        | false => trivial
        | true => exact Safe.bind (ih _) fun _ _ => trivial

/-- paths of an object and of its metadata -/
def objP (cfg : Cfg) (b k : Bytes) (q : Path) : Prop := ∃ p, objectPath cfg b k = some p ∧ q = p.comps
def metaP (cfg : Cfg) (b k : Bytes) (q : Path) : Prop := q = cfg.root ++ [metadataName b k]
def bucketP (cfg : Cfg) (b : Bytes) (q : Path) : Prop := ∃ p, bucketPath cfg b = some p ∧ q = p.comps
def partP (cfg : Cfg) (u : Bytes) (n : Int) (q : Path) : Prop :=
  ∃ p, partPath cfg u n = some p ∧ q = p.comps

theorem safe_readFile {p : OsPath} {β : Type} {Q : β → Prop} {f : Bytes → Prog β} (h : π.rd p.comps)
    (hf : ∀ b, Safe π.ok Q (f b)) :
    Safe π.ok Q ((call (.openRead p)).bind fun r => (orInternal r).bind fun x =>
      (call (.readAll x)).bind fun r => (orInternal r).bind f) := by
  refine Safe.callBind h fun r hr => ?_
  refine Safe.orInternal fun x hx => ?_
  have : π.ok (.readAll x) := by
    cases x with
    | dir => trivial
    | file i =>
      show π.rd i.path
      rw [hr i hx]; exact h
  refine Safe.callBind this fun r _ => ?_
  exact Safe.orInternal fun c _ => hf c

variable {cfg : Cfg} {ext : Ext}

theorem safe_getMd5Sum {b k : Bytes} (h : ∀ q, objP cfg b k q → π.rd q) :
    Safe π.ok (fun _ => True) (getMd5Sum cfg ext b k) := by
  refine Safe.orInternal fun p hp => ?_
  exact safe_readFile (h _ ⟨p, hp, rfl⟩) fun _ => trivial

theorem safe_loadMetadata {b k : Bytes} (h : ∀ q, metaP cfg b k q → π.rd q) :
    Safe π.ok (fun _ => True) (loadMetadata cfg ext b k) := by
  refine Safe.orInternal fun p hp => ?_
  rw [metadataPath_eq] at hp; cases hp
  have hm := h _ rfl
  refine safe_exists hm fun e => ?_
  cases e with
  | false => trivial
  | true =>
    refine safe_readFile hm fun c => ?_
    exact Safe.orInternal fun _ _ => trivial

theorem safe_saveMetadata {b k : Bytes} {m : Meta} (h : ∀ q, metaP cfg b k q → π.wr q) :
    Safe π.ok (fun _ => True) (saveMetadata cfg ext b k m) := by
  refine Safe.orInternal fun p hp => ?_
  rw [metadataPath_eq] at hp; cases hp
  have hm := h _ rfl
  refine Safe.callBind hm fun r hr => ?_
  refine Safe.orInternal fun i hi => ?_
  refine Safe.callBind (c := .writeAt ..) ?_ fun r _ => by cases r <;> trivial
  show π.wr i.path
  rw [hr i hi]; exact hm

theorem safe_copyFile {src dst : OsPath} (hs : π.rd src.comps) (hd : π.wr dst.comps) :
    Safe π.ok (fun _ => True) (copyFile src dst) := by
  refine Safe.callBind hs fun r hr => ?_
  refine Safe.orInternal fun x hx => ?_
  cases x with
  | dir => trivial
  | file j =>
    refine Safe.callBind hd fun r' hr' => ?_
    refine Safe.orInternal fun i hi => ?_
    refine Safe.callBind (c := .readAll (.file j)) ?_ fun r'' _ => ?_
    · show π.rd j.path
      rw [hr j hx]; exact hs
    · refine Safe.orInternal fun c _ => ?_
      refine Safe.callBind (c := .writeAt ..) ?_ fun r _ => by cases r <;> trivial
      show π.wr i.path
      rw [hr' i hi]; exact hd

theorem safe_createBucket {b : Bytes} (h : ∀ q, bucketP cfg b q → π.rd q ∧ π.up q) :
    Safe π.ok (fun _ => True) (createBucket cfg b) := by
  refine Safe.orInternal fun p hp => ?_
  have hb := h _ ⟨p, hp, rfl⟩
  refine safe_exists hb.1 fun e => ?_
  cases e with
  | true => trivial
  | false =>
    refine Safe.callBind (c := .mkdir _) hb.2 fun r _ => ?_
    cases r <;> trivial

theorem safe_copyObject {b k s : Bytes}
    (h : ∀ sb sk, copySourceFromHeader s = .ok (sb, sk) →
      (∀ q, objP cfg sb sk q → π.rd q) ∧ (∀ q, metaP cfg sb sk q → π.rd q))
    (hd : ∀ q, objP cfg b k q → π.wr q) (hm : ∀ q, metaP cfg b k q → π.wr q) :
    Safe π.ok (fun _ => True) (copyObject cfg ext b k s) := by
  unfold copyObject
  split
  · trivial
  · rename_i sb sk hs
    have hs' := h sb sk hs
    refine Safe.orInternal fun p hp => ?_
    refine Safe.orInternal fun d hdp => ?_
    have hsp := hs'.1 _ ⟨p, hp, rfl⟩
    refine Safe.callBind (c := .stat p) (Or.inr hsp) fun r _ => ?_
    refine Safe.orInternal fun _ _ => ?_
    refine Safe.bind (safe_copyFile hsp (hd _ ⟨d, hdp, rfl⟩)) fun _ _ => ?_
    refine Safe.orInternal fun sm hsm => ?_
    rw [metadataPath_eq] at hsm; cases hsm
    have hsm := hs'.2 _ rfl
    refine safe_exists hsm fun e => ?_
    have hend : Safe π.ok (fun _ => True) ((getMd5Sum cfg ext sb sk).bind fun sum =>
        Prog.ret (quoted sum)) := Safe.bind (safe_getMd5Sum hs'.1) fun _ _ => trivial
    cases e with
    | false => exact hend
    | true =>
      refine Safe.orInternal fun dm hdm => ?_
      rw [metadataPath_eq] at hdm; cases hdm
      exact Safe.bind (safe_copyFile hsm (hm _ rfl)) fun _ _ => hend

theorem safe_deleteBucket {b : Bytes} (h : ∀ q, bucketP cfg b q → π.tree q) :
    Safe π.ok (fun _ => True) (deleteBucket cfg b) := by
  refine Safe.orInternal fun p hp => ?_
  refine Safe.callBind (c := .rmtree _) (h _ ⟨p, hp, rfl⟩) fun r _ => ?_
  cases r <;> trivial

theorem safe_deleteObject {b k : Bytes}
    (h : ∀ q, objP cfg b k q → if endsWithByte k 47 then π.rdir q ∧ π.rmd q else π.del q) :
    Safe π.ok (fun _ => True) (deleteObject cfg b k) := by
  refine Safe.orInternal fun p hp => ?_
  have hp' := h _ ⟨p, hp, rfl⟩
  by_cases he : endsWithByte k 47 = true
  · simp only [he, if_true] at hp' ⊢
    refine Safe.callBind (c := .readDir p) hp'.1 fun r _ => ?_
    refine Safe.orInternal fun es _ => ?_
    split
    · refine Safe.callBind (c := .rmdir p) hp'.2 fun r _ => ?_
      cases r <;> trivial
    · trivial
  · simp only [he] at hp' ⊢
    refine Safe.callBind (c := .unlink p) hp' fun r _ => ?_
    cases r <;> trivial

theorem safe_deleteCollect {b : Bytes} {ks : List Bytes}
    (h : ∀ k ∈ ks, ∀ q, objP cfg b k q → π.rd q) :
    Safe π.ok (fun l => ∀ e ∈ l, ∃ k ∈ ks, objectPath cfg b k = some e.1)
      (deleteCollect cfg b ks) := by
  induction ks with
  | nil => exact fun e he => by cases he
  | cons k ks ih =>
    refine Safe.orInternal fun p hp => ?_
    refine safe_exists (h k (by simp) _ ⟨p, hp, rfl⟩) fun e => ?_
    refine Safe.bind (ih fun k' hk' => h k' (by simp [hk'])) fun l hl => ?_
    intro x hx
    cases e with
    | false =>
      obtain ⟨k', hk', e⟩ := hl x (by simpa using hx)
      exact ⟨k', by simp [hk'], e⟩
    | true =>
      simp only [if_true, List.mem_cons] at hx
      rcases hx with rfl | hx
      · exact ⟨k, by simp, hp⟩
      · obtain ⟨k', hk', e⟩ := hl x hx
        exact ⟨k', by simp [hk'], e⟩

theorem safe_deleteAll {l : List (OsPath × Bytes)} (h : ∀ e ∈ l, π.del e.1.comps) :
    Safe π.ok (fun _ => True) (deleteAll l) := by
  induction l with
  | nil => trivial
  | cons e l ih =>
    obtain ⟨p, k⟩ := e
    refine Safe.callBind (c := .unlink p) (h (p, k) (by simp)) fun r _ => ?_
    cases r with
    | false => trivial
    | true => exact Safe.bind (ih fun e he => h e (by simp [he])) fun _ _ => trivial

theorem safe_deleteObjects {b : Bytes} {ks : List Bytes}
    (h : ∀ k ∈ ks, ∀ q, objP cfg b k q → π.rd q ∧ π.del q) :
    Safe π.ok (fun _ => True) (deleteObjects cfg b ks) := by
  refine Safe.bind (safe_deleteCollect fun k hk q hq => (h k hk q hq).1) fun l hl => ?_
  refine safe_deleteAll fun e he => ?_
  obtain ⟨k, hk, e1⟩ := hl e he
  exact (h k hk _ ⟨_, e1, rfl⟩).2

theorem safe_headBucket {b : Bytes} (h : ∀ q, bucketP cfg b q → π.rd q) :
    Safe π.ok (fun _ => True) (headBucket cfg b) := by
  refine Safe.orInternal fun p hp => ?_
  refine safe_exists (h _ ⟨p, hp, rfl⟩) fun e => ?_
  cases e <;> trivial

theorem safe_getBucketLocation {b : Bytes} (h : ∀ q, bucketP cfg b q → π.rd q) :
    Safe π.ok (fun _ => True) (getBucketLocation cfg b) := by
  refine Safe.orInternal fun p hp => ?_
  refine safe_exists (h _ ⟨p, hp, rfl⟩) fun e => ?_
  cases e <;> trivial

/-- a handle that only gives access to the object -/
def handleOk (π : Perm) : Handle → Prop
  | .dir => True
  | .file i => π.rd i.path

theorem safe_getObject {b k : Bytes} {r : Option Bytes} (h : ∀ q, objP cfg b k q → π.rd q)
    (hm : ∀ q, metaP cfg b k q → π.rd q) :
    Safe π.ok (fun o => handleOk π o.handle) (getObject cfg ext b k r) := by
  refine Safe.orInternal fun p hp => ?_
  have hpp := h _ ⟨p, hp, rfl⟩
  refine Safe.bind (Q := fun _ => True) ?_ fun rg _ => ?_
  · cases r with
    | none => trivial
    | some s => simp only [parseRange]; split <;> trivial
  · refine Safe.callBind (c := .openRead p) hpp fun x hx => ?_
    match x, hx with
    | none, _ => trivial
    | some hd, hx =>
      have hh : handleOk π hd := by
        cases hd with
        | dir => trivial
        | file i =>
          show π.rd i.path
          rw [hx i rfl]; exact hpp
      have hf : π.ok (.fstat hd) := by cases hd <;> exact hh
      refine Safe.callBind hf fun r _ => Safe.orInternal fun len _ => ?_
      split
      · trivial
      · refine Safe.bind (safe_loadMetadata hm) fun _ _ => ?_
        refine Safe.bind (safe_getMd5Sum h) fun _ _ => ?_
        show Safe π.ok _ (if _ then _ else _)
        split
        · exact hh
        · trivial

theorem safe_drainBody {h : Handle} (hh : handleOk π h) (wants : Nat → Nat) (fuel i off lim : Nat) :
    Safe π.ok (fun _ => True) (drainBody h wants fuel i off lim) := by
  induction fuel generalizing i off lim with
  | zero => trivial
  | succ fuel ih =>
    have hf : π.ok (.readAt h off (min lim 4096) (wants i)) := by cases h <;> exact hh
    refine Safe.callBind hf fun r _ => ?_
    cases r with
    | none => trivial
    | some b =>
      show Safe π.ok _ (if b = [] then _ else _)
      split
      · trivial
      · refine Safe.bind (ih _ _ _) fun x _ => ?_
        cases x <;> trivial

theorem safe_getObjectFull {b k : Bytes} {r : Option Bytes} {w : Nat → Nat}
    (h : ∀ q, objP cfg b k q → π.rd q) (hm : ∀ q, metaP cfg b k q → π.rd q) :
    Safe π.ok (fun _ => True) (getObjectFull cfg ext b k r w) := by
  refine Safe.bind (safe_getObject h hm) fun o ho => ?_
  exact Safe.bind (safe_drainBody ho _ _ _ _ _) fun _ _ => trivial

theorem safe_headObject {b k : Bytes} (h : ∀ q, objP cfg b k q → π.rd q)
    (hm : ∀ q, metaP cfg b k q → π.rd q) : Safe π.ok (fun _ => True) (headObject cfg ext b k) := by
  refine Safe.orInternal fun p hp => ?_
  have hpp := h _ ⟨p, hp, rfl⟩
  refine safe_exists hpp fun e => ?_
  cases e with
  | false => trivial
  | true =>
    refine Safe.callBind (c := .stat p) (Or.inr hpp) fun r _ => ?_
    refine Safe.orInternal fun st _ => ?_
    refine Safe.bind (safe_loadMetadata hm) fun md _ => ?_
    show Safe π.ok _ (if _ then _ else _)
    split <;> trivial

theorem safe_listBucketsLoop {es : List (Bytes × Bool)} (h : ∀ n, π.rd (cfg.root ++ [n])) :
    Safe π.ok (fun _ => True) (listBucketsLoop cfg es) := by
  induction es with
  | nil => trivial
  | cons e es ih =>
    obtain ⟨n, d⟩ := e
    simp only [listBucketsLoop]
    split
    · refine Safe.callBind (c := .stat _) (Or.inr (h n)) fun r _ => ?_
      refine Safe.orInternal fun _ _ => ?_
      exact Safe.bind ih fun _ _ => trivial
    · exact ih

theorem safe_listBuckets (hr : π.rdir cfg.root) (h : ∀ n, π.rd (cfg.root ++ [n])) :
    Safe π.ok (fun _ => True) (listBuckets cfg) := by
  refine Safe.callBind (c := .readDir _) hr fun r _ => ?_
  exact Safe.orInternal fun es _ => safe_listBucketsLoop h

theorem safe_listEntries {base dir : Path} {pfx : Option Bytes} {es : List (Bytes × Bool)}
    (h : ∀ n, π.rd (dir ++ [n])) :
    Safe π.ok (fun x => ∀ d ∈ x.1, ∃ n, d = dir ++ [n]) (listEntries cfg base pfx dir es) := by
  induction es with
  | nil => exact fun d hd => by cases hd
  | cons e es ih =>
    obtain ⟨n, isD⟩ := e
    simp only [listEntries]
    split
    · refine Safe.bind ih fun x hx => ?_
      intro d hd
      rcases List.mem_cons.mp hd with rfl | hd
      · exact ⟨n, rfl⟩
      · exact hx d hd
    · split
      · exact ih
      · refine Safe.callBind (c := .stat _) (Or.inr (h n)) fun r _ => ?_
        refine Safe.orInternal fun st _ => ?_
        show Safe π.ok _ (if _ then _ else _)
        split
        · refine Safe.bind ih fun x hx => ?_
          exact hx
        · trivial

theorem safe_listLoop {base : Path} {pfx : Option Bytes} (fuel : Nat) (queue : List Path)
    (hq : ∀ d ∈ queue, base <+: d) (h : ∀ d, base <+: d → π.rd d ∧ π.rdir d) :
    Safe π.ok (fun _ => True) (listLoop cfg base pfx fuel queue) := by
  induction fuel generalizing queue with
  | zero => cases queue <;> trivial
  | succ fuel ih =>
    cases queue with
    | nil => trivial
    | cons d queue =>
      have hd := hq d (by simp)
      refine Safe.callBind (c := .readDir _) (h d hd).2 fun r _ => ?_
      refine Safe.orInternal fun es _ => ?_
      refine Safe.bind (safe_listEntries fun n => (h _ (hd.trans (List.prefix_append _ _))).1)
        fun x hx => ?_
      obtain ⟨ds, os⟩ := x
      refine Safe.bind (ih _ fun d' hd' => ?_) fun _ _ => trivial
      rcases List.mem_append.mp hd' with h1 | h1
      · exact hq d' (by simp [h1])
      · obtain ⟨n, rfl⟩ := hx d' h1
        exact hd.trans (List.prefix_append _ _)

theorem safe_listObjects {b : Bytes} {pfx : Option Bytes} {fuel : Nat}
    (h : ∀ q, bucketP cfg b q → ∀ d, q <+: d → π.rd d ∧ π.rdir d) :
    Safe π.ok (fun _ => True) (listObjects cfg b pfx fuel) := by
  refine Safe.orInternal fun p hp => ?_
  refine Safe.bind (safe_listLoop fuel _ ?_ (h _ ⟨p, hp, rfl⟩)) fun _ _ => trivial
  intro d hd; simp at hd; rw [hd]; exact List.prefix_refl _

theorem safe_listObjectsV2 {b : Bytes} {pfx : Option Bytes} {fuel : Nat}
    (h : ∀ q, bucketP cfg b q → ∀ d, q <+: d → π.rd d ∧ π.rdir d) :
    Safe π.ok (fun _ => True) (listObjectsV2 cfg b pfx fuel) := by
  refine Safe.orInternal fun p hp => ?_
  refine Safe.bind (safe_listLoop fuel _ ?_ (h _ ⟨p, hp, rfl⟩)) fun _ _ => ?_
  · intro d hd; simp at hd; rw [hd]; exact List.prefix_refl _
  · split <;> trivial

theorem safe_putObject {i : PutInput}
    (h : ∀ q, objP cfg i.bucket i.key q →
      (∀ d, d <+: (if endsWithByte i.key 47 then q else q.dropLast) → π.st d ∧ π.up d) ∧
      (endsWithByte i.key 47 = false → π.wr q))
    (hm : endsWithByte i.key 47 = false → i.metadata.isSome = true →
      ∀ q, metaP cfg i.bucket i.key q → π.wr q) :
    Safe π.ok (fun _ => True) (putObject cfg ext i) := by
  unfold putObject
  split
  · trivial
  · split
    · trivial
    · rename_i body _
      split
      · rename_i he
        split
        · refine Safe.orInternal fun p hp => ?_
          have := (h _ ⟨p, hp, rfl⟩).1
          simp only [he, if_true] at this
          exact Safe.bind (safe_createDirAll _ this) fun _ _ => trivial
        · trivial
      · rename_i he
        have he' : endsWithByte i.key 47 = false := by simpa using he
        refine Safe.orInternal fun p hp => ?_
        have hp' := h _ ⟨p, hp, rfl⟩
        have hw := hp'.2 he'
        have hu := hp'.1
        simp only [he', Bool.false_eq_true, if_false] at hu
        have hrest : Safe π.ok (fun _ => True) ((call (.create p)).bind fun r =>
            (orInternal r).bind fun ino => (copyBytes ino 0 body).bind fun content =>
              (saveOptional cfg ext i.bucket i.key i.metadata).bind fun _ =>
                (Prog.ret (some (quoted (ext.md5hex content))) : Prog (Option Bytes))) := by
          refine Safe.callBind (c := .create p) hw fun r hr => ?_
          refine Safe.orInternal fun ino hi => ?_
          refine Safe.bind (safe_copyBytes (by rw [hr ino hi]; exact hw) body 0) fun c _ => ?_
          cases hmd : i.metadata with
          | none => trivial
          | some m =>
            exact Safe.bind (safe_saveMetadata (hm he' (by rw [hmd]; rfl))) fun _ _ => trivial
        show Safe π.ok _ (if p.comps ≠ [] then _ else _)
        split
        · exact Safe.bind (safe_createDirAll _ hu) fun _ _ => hrest
        · exact hrest

theorem safe_uploadPart {u : Bytes} {n : Int} {body : Option Body} (h : ∀ q, partP cfg u n q → π.wr q) :
    Safe π.ok (fun _ => True) (uploadPart cfg ext u n body) := by
  unfold uploadPart
  split
  · trivial
  · refine Safe.orInternal fun p hp => ?_
    have hw := h _ ⟨p, hp, rfl⟩
    refine Safe.callBind (c := .create p) hw fun r hr => ?_
    refine Safe.orInternal fun ino hi => ?_
    exact Safe.bind (safe_copyBytes (by rw [hr ino hi]; exact hw) _ 0) fun c _ => trivial

theorem safe_completeLoop {u : Bytes} {ino : Ino} (hw : π.wr ino.path)
    (parts : List (Option Int)) (cnt : Int) (off : Nat)
    (h : ∀ n, some n ∈ parts → ∀ q, partP cfg u n q → π.rd q ∧ π.del q) :
    Safe π.ok (fun _ => True) (completeLoop cfg u ino cnt off parts) := by
  induction parts generalizing cnt off with
  | nil => trivial
  | cons n parts ih =>
    refine Safe.orInternal fun m hm => ?_
    show Safe π.ok _ (if _ then _ else _)
    split
    · trivial
    · refine Safe.orInternal fun pp hpp => ?_
      have hp := h m (by simp [hm]) _ ⟨pp, hpp, rfl⟩
      refine safe_readFile hp.1 fun content => ?_
      refine Safe.callBind (c := .writeAt ..) hw fun r _ => ?_
      cases r with
      | false => trivial
      | true =>
      refine Safe.callBind (c := .unlink pp) hp.2 fun r _ => ?_
      cases r with
      | false => trivial
      | true => exact ih _ _ fun n hn => h n (by simp [hn])

theorem safe_complete {b k u : Bytes} {parts : Option (List (Option Int))}
    (ho : ∀ q, objP cfg b k q → π.rd q ∧ π.wr q)
    (h : ∀ l n, parts = some l → some n ∈ l → ∀ q, partP cfg u n q → π.rd q ∧ π.del q) :
    Safe π.ok (fun _ => True) (completeMultipartUpload cfg ext b k u parts) := by
  unfold completeMultipartUpload
  split
  · trivial
  · rename_i l
    refine Safe.orInternal fun p hp => ?_
    have hpp := ho _ ⟨p, hp, rfl⟩
    refine Safe.callBind (c := .create p) hpp.2 fun r hr => ?_
    refine Safe.orInternal fun ino hi => ?_
    refine Safe.bind (safe_completeLoop (by rw [hr ino hi]; exact hpp.2) _ _ _
      fun n hn => h l n rfl hn) fun _ _ => ?_
    refine Safe.callBind (c := .stat p) (Or.inr hpp.1) fun _ _ => ?_
    refine Safe.orInternal fun _ _ => ?_
    exact Safe.bind (safe_getMd5Sum fun q hq => (ho q hq).1) fun _ _ => trivial

/-- the paths an operation may use -/
def opPerm (cfg : Cfg) : Op → Perm
  | .createBucket b => { rd := bucketP cfg b, up := bucketP cfg b }
  | .copyObject b k s =>
    { rd := fun q => ∃ sb sk, copySourceFromHeader s = .ok (sb, sk) ∧
        (objP cfg sb sk q ∨ metaP cfg sb sk q),
      wr := fun q => objP cfg b k q ∨ metaP cfg b k q }
  | .deleteBucket b => { tree := bucketP cfg b }
  | .deleteObject b k =>
    { rdir := fun q => endsWithByte k 47 = true ∧ objP cfg b k q,
      rmd := fun q => endsWithByte k 47 = true ∧ objP cfg b k q,
      del := fun q => endsWithByte k 47 = false ∧ objP cfg b k q }
  | .deleteObjects b ks =>
    { rd := fun q => ∃ k ∈ ks, objP cfg b k q, del := fun q => ∃ k ∈ ks, objP cfg b k q }
  | .getBucketLocation b => { rd := bucketP cfg b }
  | .headBucket b => { rd := bucketP cfg b }
  | .getObject b k _ _ => { rd := fun q => objP cfg b k q ∨ metaP cfg b k q }
  | .headObject b k => { rd := fun q => objP cfg b k q ∨ metaP cfg b k q }
  | .listBuckets =>
    { rd := fun q => ∃ n, q = cfg.root ++ [n], rdir := fun q => q = cfg.root }
  | .listObjects b _ _ | .listObjectsV2 b _ _ =>
    { rd := fun d => ∃ q, bucketP cfg b q ∧ q <+: d, rdir := fun d => ∃ q, bucketP cfg b q ∧ q <+: d }
  | .putObject i =>
    { st := fun d => ∃ q, objP cfg i.bucket i.key q ∧
        d <+: (if endsWithByte i.key 47 then q else q.dropLast),
      up := fun d => ∃ q, objP cfg i.bucket i.key q ∧
        d <+: (if endsWithByte i.key 47 then q else q.dropLast),
      wr := fun q => endsWithByte i.key 47 = false ∧
        (objP cfg i.bucket i.key q ∨ i.metadata.isSome = true ∧ metaP cfg i.bucket i.key q) }
  | .createMultipartUpload _ => {}
  | .uploadPart u n _ => { wr := partP cfg u n }
  | .completeMultipartUpload b k u parts =>
    { rd := fun q => objP cfg b k q ∨ ∃ l n, parts = some l ∧ some n ∈ l ∧ partP cfg u n q,
      wr := objP cfg b k,
      del := fun q => ∃ l n, parts = some l ∧ some n ∈ l ∧ partP cfg u n q }

/-- every operation only issues the system calls its permissions allow -/
theorem op_safe (cfg : Cfg) (ext : Ext) (o : Op) :
    Safe (opPerm cfg o).ok (fun _ => True) (opProg cfg ext o) := by
  have done : ∀ {π : Perm} {β : Type} {p : Prog β} {g : β → Answer},
      Safe π.ok (fun _ => True) p → Safe π.ok (fun _ => True) (p.bind fun x => .ret (g x)) :=
    fun h => Safe.bind h fun _ _ => trivial
  cases o with
  | createBucket b => exact done (safe_createBucket fun q hq => ⟨hq, hq⟩)
  | copyObject b k s =>
    refine done (safe_copyObject ?_ (fun _ h => Or.inl h) (fun _ h => Or.inr h))
    exact fun sb sk h => ⟨fun q hq => ⟨sb, sk, h, Or.inl hq⟩, fun q hq => ⟨sb, sk, h, Or.inr hq⟩⟩
  | deleteBucket b => exact done (safe_deleteBucket fun q hq => hq)
  | deleteObject b k =>
    refine done (safe_deleteObject fun q hq => ?_)
    split
    · rename_i h; exact ⟨⟨h, hq⟩, ⟨h, hq⟩⟩
    · rename_i h; exact ⟨by simpa using h, hq⟩
  | deleteObjects b ks => exact done (safe_deleteObjects fun k hk q hq => ⟨⟨k, hk, hq⟩, ⟨k, hk, hq⟩⟩)
  | getBucketLocation b => exact done (safe_getBucketLocation fun q hq => hq)
  | getObject b k r w => exact done (safe_getObjectFull (fun _ h => Or.inl h) (fun _ h => Or.inr h))
  | headBucket b => exact done (safe_headBucket fun q hq => hq)
  | headObject b k => exact done (safe_headObject (fun _ h => Or.inl h) (fun _ h => Or.inr h))
  | listBuckets => exact done (safe_listBuckets rfl fun n => ⟨n, rfl⟩)
  | listObjects b p f =>
    exact done (safe_listObjects fun q hq d hd => ⟨⟨q, hq, hd⟩, ⟨q, hq, hd⟩⟩)
  | listObjectsV2 b p f =>
    exact done (safe_listObjectsV2 fun q hq d hd => ⟨⟨q, hq, hd⟩, ⟨q, hq, hd⟩⟩)
  | putObject i =>
    refine done (safe_putObject (fun q hq => ⟨fun d hd => ⟨⟨q, hq, hd⟩, ⟨q, hq, hd⟩⟩, ?_⟩) ?_)
    · exact fun he => ⟨he, Or.inl hq⟩
    · exact fun he hm q hq => ⟨he, Or.inr ⟨hm, hq⟩⟩
  | createMultipartUpload u => trivial
  | uploadPart u n b => exact done (safe_uploadPart fun q hq => hq)
  | completeMultipartUpload b k u parts =>
    refine done (safe_complete (fun q hq => ⟨Or.inl hq, hq⟩) ?_)
    exact fun l n hl hn q hq => ⟨Or.inr ⟨l, n, hl, hn, hq⟩, ⟨l, n, hl, hn, hq⟩⟩

end S3
