import Verif.Spec.Once
import Verif.Lemmas.InFlight
import Verif.Lemmas.Power
/-! Lemmas for C111: a file is removed once. -/
namespace S3
open Spec

variable {cfg : Cfg} {ext : Ext} {α β : Type} {P : Path}

/-- there is no file at `P` -/
def NoFile (P : Path) (fs : FS) : Prop := ∀ i, fs.lookup P ≠ some (.file i)

theorem exec_noFile {fs : FS} {c : Call} (hno : NoOpen P c) (h : NoFile P fs) : NoFile P (exec cfg fs c).2 := by
  intro i hi
  cases c with
  | mkdir p =>
    simp only [exec] at hi
    repeat' split at hi
    all_goals first
      | exact h i hi
      | (rw [lookup_set] at hi; split at hi
         · cases hi
         · split at hi
           · cases hi
           · exact h i hi)
  | create p =>
    simp only [exec] at hi
    repeat' split at hi
    all_goals first
      | exact h i hi
      | exact h i (by simpa using hi)
      | (simp only [lookup_bump, lookup_setData] at hi
         rw [lookup_set] at hi; split at hi
         · cases hi
         · split at hi
           · rename_i e; exact hno e.symm
           · exact h i hi)
  | unlink p =>
    simp only [exec] at hi
    split at hi
    · rw [lookup_erase] at hi; split at hi
      · cases hi
      · split at hi
        · cases hi
        · exact h i hi
    · exact h i hi
  | rmdir p =>
    simp only [exec] at hi
    repeat' split at hi
    all_goals first
      | exact h i hi
      | (rw [lookup_erase] at hi; split at hi
         · cases hi
         · split at hi
           · cases hi
           · exact h i hi)
  | rmtree p =>
    simp only [exec] at hi
    repeat' split at hi
    all_goals first
      | exact h i hi
      | (rw [lookup_eraseTree] at hi; split at hi
         · cases hi
         · split at hi
           · cases hi
           · exact h i hi)
  | readDir p =>
    simp only [exec] at hi
    split at hi <;> exact h i hi
  | _ => exact h i hi

theorem eraseTree_noFile {fs : FS} {q : Path} (h : NoFile P fs) : NoFile P (fs.eraseTree q) := by
  intro i hi
  rw [lookup_eraseTree] at hi
  split at hi
  · cases hi
  · split at hi
    · cases hi
    · exact h i hi

theorem foldl_noFile (p : Path) (rs : List Path) : ∀ {fs : FS}, NoFile P fs →
    NoFile P (rs.foldl (fun fs q => if p.isPrefixOf q then fs.eraseTree q else fs) fs) := by
  induction rs with
  | nil => exact fun h => h
  | cons q rs ih =>
    intro fs h
    simp only [List.foldl_cons]
    refine ih ?_
    split
    · exact eraseTree_noFile h
    · exact h

theorem execF_noFile {fs : FS} {c : Call} {f : Fault} (hno : NoOpen P c) (h : NoFile P fs) : NoFile P (execF cfg fs c f).2 := by
  cases f with
  | none => exact exec_noFile hno h
  | before => exact h
  | after => exact exec_noFile hno h
  | during n rs =>
    cases c with
    | writeAt i off b =>
      simp only [execF, partialEffect]
      split
      · exact h
      · exact fun j hj => h j (by simpa using hj)
    | rmtree p =>
      simp only [execF, partialEffect]
      split
      · split
        · exact foldl_noFile p rs h
        · exact h
      · exact h
    | _ => exact h

/-- a successful `unlink` removes a file -/
theorem execF_unlink {fs : FS} {p : OsPath} {f : Fault} (h : (execF cfg fs (.unlink p) f).1 = true) :
    ¬ NoFile p.comps fs ∧ NoFile p.comps (execF cfg fs (.unlink p) f).2 := by
  cases f with
  | none =>
    simp only [execF, exec] at h ⊢
    split at h
    · rename_i i hi
      have hl : fs.lookup p.comps = some (.file i) := (at_file hi).1
      refine ⟨fun hn => hn _ hl, fun j hj => ?_⟩
      change (fs.erase p.comps).lookup p.comps = _ at hj
      rw [lookup_erase] at hj
      split at hj
      · cases hj
      · simp at hj
    · cases h
  | before => cases h
  | after => cases h
  | during n rs => cases h

/-- Something that happens in the file system when a call is answered in a certain way, and that cannot happen again as long as only the
calls `ok` are made: before it `Used` does not hold, from then on it does. -/
structure Single (cfg : Cfg) (ok : Call → Prop) (E : (c : Call) → Resp c → Prop) (Used : FS → Prop) : Prop where
  happens : ∀ fs c f, WF fs → E c (execF cfg fs c f).1 → ¬ Used fs ∧ Used (execF cfg fs c f).2
  stays : ∀ fs c f, WF fs → ok c → Used fs → Used (execF cfg fs c f).2

/-- The program has not met `E`, and will end with `C` only when it has. -/
def Innocent (E : (c : Call) → Resp c → Prop) (C : α → Prop) : Prog α → Prop
  | .ret a => ¬ C a
  | .sys c k => ∀ r, respOk c r → E c r ∨ Innocent E C (k r)
  | _ => True

variable {E : (c : Call) → Resp c → Prop} {ok : Call → Prop} {Used : FS → Prop}

theorem innocent_never {C : α → Prop} (h : ∀ a, ¬ C a) (p : Prog α) : Innocent E C p := by
  induction p with
  | ret a => exact h a
  | sys c k ih => exact fun r _ => .inr (ih r)
  | _ => trivial

theorem innocent_bind {C : β → Prop} {Q : α → Prop} {p : Prog α} {f : α → Prog β} (h : Safe (fun _ => True) Q p)
    (hf : ∀ a, Q a → Innocent E C (f a)) : Innocent E C (p.bind f) := by
  induction p with
  | ret a => exact hf a h
  | sys c k ih => exact fun r hr => .inr (ih r (h.2 r hr))
  | _ => trivial

theorem innocent_weaken {C C' : α → Prop} (hc : ∀ a, C' a → C a) {p : Prog α} (h : Innocent E C p) : Innocent E C' p := by
  induction p with
  | ret a => exact fun x => h (hc a x)
  | sys c k ih => exact fun r hr => (h r hr).imp id (ih r)
  | _ => trivial

/-- every step of an innocent program but the one leaves it innocent -/
theorem innocent_step (hE : Single cfg ok E Used) {C : α → Prop} {p : Prog α} {fs : FS} {f : Fault} (hw : WF fs) (h : Innocent E C p) :
    Innocent E C (stepProgF cfg p f fs).1 ∨ (¬ Used fs ∧ Used (stepProgF cfg p f fs).2) := by
  cases p with
  | sys c k =>
    rcases h _ (execF_respOk hw c f) with h | h
    · exact .inr (hE.happens _ _ _ hw h)
    · exact .inl h
  | _ => exact .inl h

theorem step_set {ps : List (Prog α)} {i : Nat} {p' : Prog α} (j : Nat) (q : Prog α) (hq : (ps.set i p')[j]? = some q) :
    (j = i ∧ q = p') ∨ (j ≠ i ∧ ps[j]? = some q) := by
  rw [List.getElem?_set] at hq
  split at hq
  · rename_i e
    split at hq
    · cases hq; exact .inl ⟨e.symm, rfl⟩
    · cases hq
  · rename_i e; exact .inr ⟨fun x => e x.symm, hq⟩

theorem step_safe {ok : Call → Prop} {ps : List (Prog α)} {i : Nat} {p : Prog α} {f : Fault} {fs : FS} (hw : WF fs) (hi : ps[i]? = some p)
    (hs : ∀ p ∈ ps, Safe ok (fun _ => True) p) :
    ∀ q ∈ ps.set i (stepProgF cfg p f fs).1, Safe ok (fun _ => True) q := by
  intro q hq
  obtain ⟨j, hj⟩ := List.mem_iff_getElem?.mp hq
  have hsafe := hs p (List.mem_of_getElem? hi)
  rcases step_set j q hj with ⟨_, rfl⟩ | ⟨_, h'⟩
  · cases p with
    | sys c k => exact hsafe.2 _ (execF_respOk hw _ _)
    | _ => exact hsafe
  · exact hs q (List.mem_of_getElem? h')

theorem step_used (hE : Single cfg ok E Used) {p : Prog α} {f : Fault} {fs : FS} (hw : WF fs) (hs : Safe ok (fun _ => True) p) (h : Used fs) :
    Used (stepProgF cfg p f fs).2 := by
  cases p with
  | sys c k => exact hE.stays _ _ _ hw hs.1 h
  | _ => exact h

/-- when it has happened, whoever is innocent remains so -/
theorem token_run_at (hE : Single cfg ok E Used) {C : Nat → α → Prop} {J : Nat → Prop} {steps : List (Nat × Fault)} {ps : List (Prog α)}
    {fs : FS} (hw : WF fs) (hs : ∀ p ∈ ps, Safe ok (fun _ => True) p) (hn : Used fs)
    (h : ∀ (j : Nat) p, J j → ps[j]? = some p → Innocent E (C j) p) :
    Used (runParF cfg steps ps fs).2 ∧
      ∀ (j : Nat) p, J j → (runParF cfg steps ps fs).1[j]? = some p → Innocent E (C j) p := by
  induction steps generalizing ps fs with
  | nil => exact ⟨hn, h⟩
  | cons x s ih =>
    obtain ⟨i, f⟩ := x
    simp only [runParF]
    split
    · exact ih hw hs hn h
    · rename_i p hi
      refine ih (stepProgF_wf hw) (step_safe hw hi hs) (step_used hE hw (hs p (List.mem_of_getElem? hi)) hn) ?_
      intro j q hj hq
      rcases step_set j q hq with ⟨rfl, rfl⟩ | ⟨_, hq⟩
      · rcases innocent_step hE (f := f) hw (h j p hj hi) with h' | ⟨h', _⟩
        · exact h'
        · exact absurd hn h'
      · exact h j q hj hq

/-- whoever becomes guilty first stays the only one -/
theorem token_run (hE : Single cfg ok E Used) {C : Nat → α → Prop} {steps : List (Nat × Fault)} {ps : List (Prog α)} {fs : FS} (hw : WF fs)
    (hs : ∀ p ∈ ps, Safe ok (fun _ => True) p) (h : ∀ (j : Nat) p, ps[j]? = some p → Innocent E (C j) p) :
    (∀ (j : Nat) p, (runParF cfg steps ps fs).1[j]? = some p → Innocent E (C j) p) ∨
      (Used (runParF cfg steps ps fs).2 ∧
        ∃ i, ∀ (j : Nat) p, j ≠ i → (runParF cfg steps ps fs).1[j]? = some p → Innocent E (C j) p) := by
  induction steps generalizing ps fs with
  | nil => exact .inl h
  | cons x s ih =>
    obtain ⟨i, f⟩ := x
    simp only [runParF]
    split
    · exact ih hw hs h
    · rename_i p hi
      rcases innocent_step hE (f := f) hw (h i p hi) with h' | ⟨_, h'⟩
      · refine ih (stepProgF_wf hw) (step_safe hw hi hs) fun j q hq => ?_
        rcases step_set j q hq with ⟨rfl, rfl⟩ | ⟨_, hq⟩
        · exact h'
        · exact h j q hq
      · have := token_run_at hE (J := (· ≠ i)) (C := C) (steps := s) (stepProgF_wf (cfg := cfg) (p := p) (f := f) hw)
          (step_safe (cfg := cfg) (f := f) hw hi hs) h' (fun j q hj hq => by
            rcases step_set j q hq with ⟨e, _⟩ | ⟨_, hq⟩
            · exact absurd e hj
            · exact h j q hq)
        exact .inr ⟨this.1, i, this.2⟩

/-- the file at `P` is removed -/
def Removes (P : Path) : (c : Call) → Resp c → Prop
  | .unlink p, r => p.comps = P ∧ r = true
  | _, _ => False

theorem single_removes : Single cfg (NoOpen P) (Removes P) (NoFile P) where
  happens := by
    intro fs c f _ h
    cases c with
    | unlink p => obtain ⟨rfl, h⟩ := h; exact execF_unlink h
    | _ => exact h.elim
  stays := fun _ _ _ _ h hn => execF_noFile h hn

theorem innocent_deleteAll {C : α → Prop} {k : Bytes} {f : List Bytes → Prog α} (l : List (OsPath × Bytes))
    (hl : ∀ p, (p, k) ∈ l → p.comps = P) (hf : ∀ d, k ∉ d → Innocent (Removes P) C (f d)) : Innocent (Removes P) C ((deleteAll l).bind f) := by
  induction l generalizing f with
  | nil => exact hf [] (by simp)
  | cons x r ih =>
    obtain ⟨p, k'⟩ := x
    simp only [deleteAll, bind_eq]
    refine fun x _ => ?_
    cases (show Bool from x) with
    | false => exact .inr trivial
    | true =>
    by_cases e : k' = k
    · subst e; exact .inl ⟨hl p (by simp), rfl⟩
    · refine .inr ?_
      show Innocent _ C (((deleteAll r).bind fun d => .ret (k' :: d)).bind f)
      rw [prog_bind_assoc]
      exact ih (fun p h => hl p (List.mem_cons_of_mem _ h)) fun d hd => hf _ (by simp [hd, Ne.symm e])

theorem safe_collect {b : Bytes} (ks : List Bytes) :
    Safe (fun _ => True) (fun l => ∀ p k, (p, k) ∈ l → objectPath cfg b k = some p) (deleteCollect cfg b ks) := by
  induction ks with
  | nil => simp [deleteCollect, pure_eq, Safe]
  | cons k ks ih =>
    simp only [deleteCollect, bind_eq, exists_]
    refine Safe.orInternal fun p hp => ?_
    refine Safe.callBind trivial fun r _ => ?_
    refine Safe.bind ih fun l hl => ?_
    simp only [pure_eq]
    show ∀ p k, _
    intro q k' h
    split at h
    · rcases List.mem_cons.mp h with e | h
      · cases e; exact hp
      · exact hl _ _ h
    · exact hl _ _ h

/-- who says that the object is deleted has removed its file -/
theorem innocent_delete {b k : Bytes} {cs : List Bytes} (hb : checkBucketName b = true) (hk : PlainKey k cs) (o : Op) :
    Innocent (Removes (cfg.root ++ b :: cs)) (fun a => SaysDeleted b k o (.ok a)) (opProg cfg ext o) := by
  have hp := objectPath_plain cfg hb hk
  cases o with
  | deleteObject b' k' =>
    by_cases e : (b', k') = (b, k)
    · cases e
      simp only [opProg, deleteObject, hp, plain_no_slash hk, bind_eq]
      refine fun x _ => ?_
      cases (show Bool from x) with
      | false => exact .inr trivial
      | true => exact .inl ⟨rfl, rfl⟩
    · exact innocent_never (fun a h => e h) _
  | deleteObjects b' ks =>
    by_cases e : b' = b
    · subst e
      simp only [opProg, deleteObjects, bind_eq, prog_bind_assoc]
      refine innocent_bind (safe_collect ks) fun l hl => ?_
      exact innocent_deleteAll (k := k) l (fun p h => by have := hl p k h; rw [hp] at this; cases this; rfl) fun d hd h => hd h.2
    · exact innocent_never (fun a h => by cases a <;> first | exact h | exact e h.1) _
  | _ => exact innocent_never (fun a h => h) _

theorem innocent_completeLoop {C : α → Prop} {u : Bytes} {n : Int} {ino : Ino} (hu : (47 : UInt8) ∉ u) {f : Unit → Prog α} (parts : List (Option Int)) :
    ∀ (cnt : Int) (off : Nat), some n ∈ parts → Innocent (Removes (partFile cfg u n)) C ((completeLoop cfg u ino cnt off parts).bind f) := by
  induction parts with
  | nil => intro _ _ h; cases h
  | cons m rest ih =>
    intro cnt off h
    cases m with
    | none => trivial
    | some m =>
      simp only [completeLoop, orInternal, bind_eq, ret_bind]
      split
      · trivial
      · rw [partPath_eq cfg hu]
        refine fun r _ => .inr ?_
        cases r with
        | none => trivial
        | some h' =>
          refine fun r _ => .inr ?_
          cases (show Option Bytes from r) with
          | none => trivial
          | some c =>
            refine fun r _ => .inr ?_
            cases (show Bool from r) with
            | false => trivial
            | true =>
              refine fun r _ => ?_
              cases (show Bool from r) with
              | false => exact .inr trivial
              | true =>
              by_cases e : m = n
              · subst e; exact .inl ⟨rfl, rfl⟩
              · refine .inr (ih _ _ ?_)
                rcases List.mem_cons.mp h with h | h
                · cases h; exact absurd rfl e
                · exact h

/-- who says that an object was assembled from a part has removed the file of the part -/
theorem innocent_complete {u : Bytes} {n : Int} (hu : (47 : UInt8) ∉ u) (o : Op) :
    Innocent (Removes (partFile cfg u n)) (fun a => SaysUsed u n o (.ok a)) (opProg cfg ext o) := by
  cases o with
  | completeMultipartUpload b k u' parts =>
    cases parts with
    | none => exact innocent_never (fun a h => h) _
    | some l =>
      by_cases e : u' = u ∧ some n ∈ l
      · obtain ⟨rfl, hn⟩ := e
        simp only [opProg, completeMultipartUpload, bind_eq, prog_bind_assoc]
        cases objectPath cfg b k with
        | none => trivial
        | some p =>
          refine fun r _ => .inr ?_
          cases (show Option Ino from r) with
          | none => trivial
          | some ino => exact innocent_completeLoop hu l _ _ hn
      · exact innocent_never (fun a h => e h) _
  | _ => exact innocent_never (fun a h => h) _

theorem noOpen_object {b k : Bytes} {cs : List Bytes} (hb : LegalBucket b) (hk : PlainKey k cs) {o : Op} (ht : Tidy o) (hn : ¬ Writes o b k) :
    Safe (NoOpen (cfg.root ++ b :: cs)) (fun _ => True) (opProg cfg ext o) := by
  refine (op_safe cfg ext o).mono ?_ fun _ _ => trivial
  intro c hc
  have hb' := (C02_bucket_name_rule _).mpr hb
  have key : OnOthers b (Away b k) o → NoOpen (cfg.root ++ b :: cs) c := by
    intro ho
    have := away_ok (cfg := cfg) hb' hk ho hc
    cases c with
    | create p => exact fun e => this (.inl e)
    | _ => trivial
  cases o with
  | putObject i => exact key ⟨ht.1, ht.2, fun e => hn e.symm⟩
  | copyObject b' k' s => exact key ⟨ht.1, ht.2, fun e => hn e.symm⟩
  | completeMultipartUpload b' k' u l => exact key ⟨⟨ht.1.1, ht.1.2, fun e => hn e.symm⟩, ht.2⟩
  | uploadPart u n body => exact key ht
  | _ =>
    cases c with
    | create p => exact absurd hc (by simp [Perm.ok, opPerm])
    | _ => trivial

theorem noOpen_part {u : Bytes} {n : Int} {o : Op} (ht : Tidy o) (hn : ∀ body, o ≠ .uploadPart u n body) :
    Safe (NoOpen (partFile cfg u n)) (fun _ => True) (opProg cfg ext o) := by
  refine (op_safe cfg ext o).mono ?_ fun _ _ => trivial
  intro c hc
  by_cases hu : UsesPart o u n
  · cases o <;> simp only [UsesPart] at hu
    case uploadPart u' n' body => cases hu; exact absurd rfl (hn body)
    case completeMultipartUpload b' k' u' l =>
      cases c with
      | create p =>
        intro e
        obtain ⟨⟨hb, cs, hk⟩, _⟩ := ht
        exact plain_not_part ((C02_bucket_name_rule _).mpr hb) hk hc e
      | _ => trivial
  · have := tidy_ok (cfg := cfg) ht hc
    cases c with
    | create p => exact fun e => this (.inr ⟨u, n, hu, e⟩)
    | _ => trivial

/-- a directory is made at `P` -/
def MadeDir (P : Path) : (c : Call) → Resp c → Prop
  | .mkdir p, r => p = P ∧ r = .ok
  | _, _ => False

theorem execF_mkdir {fs : FS} {p : Path} {f : Fault} (h : (execF cfg fs (.mkdir p) f).1 = .ok) :
    fs.lookup p = none ∧ (execF cfg fs (.mkdir p) f).2.lookup p = some .dir := by
  cases f with
  | none =>
    simp only [execF, exec] at h ⊢
    repeat' split at h
    all_goals first
      | cases h
      | skip
    rename_i hl hn
    refine ⟨hl, ?_⟩
    simp_all [lookup_set]
  | before => cases h
  | after => cases h
  | during n rs => cases h

theorem single_madeDir : Single cfg (writeOk (· ≠ P) (fun _ => True)) (MadeDir P) (fun fs => fs.lookup P ≠ none) where
  happens := by
    intro fs c f _ h
    cases c with
    | mkdir p =>
      obtain ⟨rfl, h⟩ := h
      have := execF_mkdir h
      exact ⟨fun x => x this.1, by rw [this.2]; exact fun e => nomatch e⟩
    | _ => exact h.elim
  stays := by
    intro fs c f hw h hn
    rcases (execF_frame hw h (f := f)).node P (fun e => e rfl) with e | ⟨_, e, _⟩
    · rw [e]; exact hn
    · exact absurd e hn

theorem innocent_createBucket {b : Bytes} (hb : checkBucketName b = true) (o : Op) :
    Innocent (MadeDir (cfg.root ++ [b])) (fun a => SaysCreated b o (.ok a)) (opProg cfg ext o) := by
  cases o with
  | createBucket b' =>
    by_cases e : b' = b
    · subst e
      simp only [opProg, createBucket, bucketPath_legal cfg hb, bind_eq, exists_]
      refine fun r _ => .inr ?_
      cases (show Option Stat from r) with
      | some s => trivial
      | none =>
        refine fun r _ => ?_
        cases (show MkdirRes from r) with
        | ok => exact .inl ⟨rfl, rfl⟩
        | _ => exact .inr trivial
    · exact innocent_never (fun a h => e h) _
  | _ => exact innocent_never (fun a h => h) _

theorem keeps_bucket {b : Bytes} (hb : LegalBucket b) {o : Op} (ho : OnOthers b PlainAddress o) :
    Safe (writeOk (· ≠ cfg.root ++ [b]) (fun _ => True)) (fun _ => True) (opProg cfg ext o) := by
  refine (op_safe cfg ext o).mono ?_ fun _ _ => trivial
  intro c hc
  have hb' := (C02_bucket_name_rule _).mpr hb
  have ht : ∀ {q}, opTouch cfg o q → q ≠ cfg.root ++ [b] := by
    rintro q h rfl
    rcases touch_cases (fun _ _ h => ⟨(C02_bucket_name_rule _).mpr h.1, h.2⟩) ho h with
      ⟨b', k', cs', ha, hc', hk', e | e⟩ | ⟨u, n, e⟩ | ⟨b', hb', hne, hp⟩
    · have := List.append_cancel_left e
      simp only [List.cons.injEq] at this
      exact hk'.nonempty this.2.symm
    · exact bucket_not_meta hb' (pfx_of_eq e)
    · exact bucket_not_part hb' (pfx_of_eq e)
    · exact hne (prefix_root (cs := []) hp)
  cases c with
  | mkdir p => exact .inl trivial
  | create p => exact ht (.inl (.inl hc))
  | writeAt i off x => exact ht (.inl (.inl hc))
  | unlink p => exact ht (.inl (.inr (.inl hc)))
  | rmdir p => exact ht (.inl (.inr (.inr hc)))
  | rmtree p => exact fun q hq => ht (.inr ⟨p, hc, hq⟩)
  | _ => trivial

/-- what can happen only once is said only once in the life of a server -/
theorem said_once (hE : Single cfg ok E Used) {C : Op → Outcome Answer → Prop} (hC : ∀ o r, C o r → ∃ a, r = .ok a)
    (hinn : ∀ o, Innocent E (fun a => C o (.ok a)) (opProg cfg ext o)) {es : List Epoch}
    (hs : ∀ e ∈ es, ∀ o ∈ e.requests, Safe ok (fun _ => True) (opProg cfg ext o)) {fs : FS} (hw : WF fs) {r r' : Nat × Nat}
    (h : SaidAt cfg ext C es fs r) (h' : SaidAt cfg ext C es fs r') : r = r' := by
  have hinn' : ∀ (e : Epoch) (j : Nat) p, (e.requests.map (opProg cfg ext))[j]? = some p →
      Innocent E (fun a => ∃ o, e.requests[j]? = some o ∧ C o (.ok a)) p := by
    intro e j p hp
    rw [List.getElem?_map] at hp
    cases ho : e.requests[j]? with
    | none => rw [ho] at hp; cases hp
    | some o =>
      rw [ho] at hp
      cases hp
      exact innocent_weaken (fun a ⟨o', e, h⟩ => by cases e; exact h) (hinn o)
  have hsafe : ∀ e ∈ es, ∀ p ∈ e.requests.map (opProg cfg ext), Safe ok (fun _ => True) p := by
    intro e he p hp
    obtain ⟨o, ho, rfl⟩ := List.mem_map.mp hp
    exact hs e he o ho
  -- a request that says so is guilty
  have guilty : ∀ {e : Epoch} {fs : FS} {j : Nat} {o : Op} {a : Outcome Answer}, e.requests[j]? = some o →
      e.answered cfg ext fs j = some a → C o a →
      ∃ p, (runParF cfg e.steps (e.requests.map (opProg cfg ext)) fs).1[j]? = some p ∧
        ¬ Innocent E (fun a => ∃ o, e.requests[j]? = some o ∧ C o (.ok a)) p := by
    intro e fs j o a ho ha hc
    obtain ⟨x, rfl⟩ := hC _ _ hc
    unfold Epoch.answered at ha
    cases hp : (runParF cfg e.steps (e.requests.map (opProg cfg ext)) fs).1[j]? with
    | none => rw [hp] at ha; cases ha
    | some p =>
      rw [hp] at ha
      refine ⟨p, rfl, fun hi => ?_⟩
      cases p <;> simp only [Option.bind, Prog.outcome] at ha <;> cases ha
      exact hi ⟨o, ho, hc⟩
  have wf : ∀ (es : List Epoch) {fs : FS}, WF fs → WF (life cfg ext es fs) := by
    intro es
    induction es with
    | nil => exact fun h => h
    | cons e es ih => exact fun h => ih (runParF_wf h)
  -- after a request that says so the file is gone for ever
  have gone : ∀ (es' : List Epoch), (∀ e ∈ es', e ∈ es) → ∀ {fs : FS}, WF fs → Used fs → ∀ {s : Nat × Nat}, ¬ SaidAt cfg ext C es' fs s := by
    intro es'
    induction es' with
    | nil => rintro _ fs _ _ s ⟨e, o, a, h, _⟩; cases h
    | cons e es' ih =>
      rintro hsub fs hw hn ⟨i, j⟩ ⟨e', o, a, h1, h2, h3, h4⟩
      have hrun := token_run_at hE (J := fun _ => True) (steps := e.steps) hw (hsafe e (hsub e (by simp))) hn
        (fun j p _ => hinn' e j p)
      cases i with
      | zero =>
        cases h1
        obtain ⟨p, hp, hg⟩ := guilty h2 h3 h4
        exact hg (hrun.2 j p trivial hp)
      | succ i =>
        exact ih (fun e h => hsub e (List.mem_cons_of_mem _ h)) (runParF_wf hw) hrun.1 (s := (i, j)) ⟨e', o, a, h1, h2, h3, h4⟩
  have main : ∀ (es' : List Epoch), (∀ e ∈ es', e ∈ es) → ∀ {fs : FS}, WF fs → ∀ {s s' : Nat × Nat}, SaidAt cfg ext C es' fs s →
      SaidAt cfg ext C es' fs s' → s = s' := by
    intro es'
    induction es' with
    | nil => rintro _ fs _ s s' ⟨e, o, a, h, _⟩; cases h
    | cons e es' ih =>
      rintro hsub fs hw ⟨i, j⟩ ⟨i', j'⟩ ⟨e1, o, a, h1, h2, h3, h4⟩ ⟨e1', o', a', h1', h2', h3', h4'⟩
      have hrun := token_run hE (steps := e.steps) hw (hsafe e (hsub e (by simp))) (hinn' e)
      have hsub' : ∀ e ∈ es', e ∈ es := fun e h => hsub e (List.mem_cons_of_mem _ h)
      have later : ∀ {j : Nat} {o : Op} {a : Outcome Answer}, e.requests[j]? = some o → e.answered cfg ext fs j = some a → C o a →
          ∀ {s : Nat × Nat}, ¬ SaidAt cfg ext C es' (e.leaves cfg ext fs) s := by
        intro j o a k2 k3 k4 s
        obtain ⟨p, hp, hg⟩ := guilty k2 k3 k4
        rcases hrun with hr | ⟨hn, _⟩
        · exact absurd (hr j p hp) hg
        · exact gone es' hsub' (runParF_wf hw) hn
      cases i with
      | zero =>
        cases h1
        cases i' with
        | zero =>
          cases h1'
          obtain ⟨p, hp, hg⟩ := guilty h2 h3 h4
          obtain ⟨p', hp', hg'⟩ := guilty h2' h3' h4'
          rcases hrun with hr | ⟨_, g, hr⟩
          · exact absurd (hr j p hp) hg
          · have e1 : j = g := Classical.byContradiction fun x => hg (hr j p x hp)
            have e2 : j' = g := Classical.byContradiction fun x => hg' (hr j' p' x hp')
            rw [e1, e2]
        | succ i' => exact absurd ⟨e1', o', a', h1', h2', h3', h4'⟩ (later h2 h3 h4 (s := (i', j')))
      | succ i =>
        cases i' with
        | zero =>
          cases h1'
          exact absurd ⟨e1, o, a, h1, h2, h3, h4⟩ (later h2' h3' h4' (s := (i, j)))
        | succ i' =>
          have := ih hsub' (runParF_wf hw) (s := (i, j)) (s' := (i', j')) ⟨e1, o, a, h1, h2, h3, h4⟩ ⟨e1', o', a', h1', h2', h3', h4'⟩
          cases this; rfl
  exact main es (fun _ h => h) hw h h'

end S3
