import Verif.Lemmas.Root
import Verif.Lemmas.MovedOps
import Verif.Spec.Accounted
/-! Where files and folders come from. -/
namespace S3
open Spec

variable {cfg : Cfg} {ext : Ext} {lib : Lib} {auth : Option Provider}

/-- an operation asked for over HTTP that writes has a legal bucket -/
def LegalWrite : Op → Prop
  | .createBucket b => LegalBucket b
  | .putObject i => LegalBucket i.bucket
  | .copyObject b _ _ => LegalBucket b
  | .completeMultipartUpload b _ _ _ => LegalBucket b
  | _ => True

theorem asks_legalWrite {x : Exchange} {o : Op} (h : Asks lib auth x o) : LegalWrite o := by
  obtain ⟨c, _, h⟩ := h
  cases h <;> first | trivial | exact legal_bucketAt (by assumption) | exact legal_objectAt (by assumption)

/-- the model resolves a key to a place below the storage directory only if it leads there -/
theorem place_of {b k : Bytes} (hb : LegalBucket b) {p : OsPath} (h : objectPath cfg b k = some p) {q : Path} (hp : p.comps = cfg.root ++ q) :
    Place cfg.root b k q := by
  have hb := (C02_bucket_name_rule b).mpr hb
  rw [place_iff]
  split
  · rename_i h1
    have hj : pathJoin b k = k := by simp only [pathJoin, h1, if_true]
    simp only [objectPath, hj, resolveVirtual, parseDot, h1, if_true, pathComps] at h
    split at h
    · cases h
      rw [← hp]; rfl
    · cases h
  · rename_i h1
    have h1 : startsWith k b!"/" = false := by simpa using h1
    obtain ⟨hj, _, _⟩ := join_relative hb h1
    have hd := parseDot_relative cfg hb h1
    simp only [objectPath, hj, resolveVirtual, hd] at h
    cases h
    exact (List.append_cancel_left hp).symm

theorem objectPath_below {b k : Bytes} {p : OsPath} (h : objectPath cfg b k = some p) : ∃ q, p.comps = cfg.root ++ q := by
  simp only [objectPath, resolveVirtual] at h
  split at h
  · split at h
    · rename_i h1
      cases h
      obtain ⟨t, ht⟩ := isPrefixOf_iff.mp h1
      exact ⟨t, ht.symm⟩
    · cases h
  · cases h; exact ⟨_, rfl⟩

/-- the file of a part -/
theorem partPlace_of {u : Bytes} {n : Int} {p : OsPath} (h : partPath cfg u n = some p) {q : Path} (hp : p.comps = cfg.root ++ q) :
    PartPlace u n q := by
  refine ⟨_, segments_split.mpr rfl, walk_fold.mpr ?_⟩
  obtain ⟨t, ht⟩ : ∃ t, partName u n = 46 :: 117 :: t := ⟨_, rfl⟩
  rw [ht]
  simp only [partPath, resolveVirtual, ht] at h
  have hs : startsWith (46 :: 117 :: t) b!"/" = false := rfl
  obtain ⟨s, r, _, hr⟩ := splitAll_keep (c := 117) (by decide) t
  obtain ⟨s', r', h4, h5⟩ := splitAll_keep (c := 46) (by decide) (117 :: t)
  rw [hr] at h4; cases h4
  have h1 : (46 :: 117 :: s : Bytes) ≠ [] := by simp
  have h2 : (46 :: 117 :: s : Bytes) ≠ b!"." := by simp
  have h3 : (46 :: 117 :: s : Bytes) ≠ b!".." := by simp
  have e1 : ((46 :: 117 :: s : Bytes) :: r).filter (· ≠ []) = (46 :: 117 :: s) :: r.filter (· ≠ []) := List.filter_cons_of_pos (by simp)
  have e2 : ((46 :: 117 :: s : Bytes) :: r.filter (· ≠ [])).filter (· ≠ b!".") = (46 :: 117 :: s) :: (r.filter (· ≠ [])).filter (· ≠ b!".") :=
    List.filter_cons_of_pos (by simp)
  simp only [parseDot, pathComps, hs, h5, e1, if_neg h2, if_neg h3, Bool.false_eq_true, if_false] at h
  cases h
  rw [h5, e1, e2, List.foldl_cons]
  have : dedotStep [] (46 :: 117 :: s) = [46 :: 117 :: s] := by simp only [dedotStep, if_neg h3]; rfl
  rw [this]
  exact (List.append_cancel_left hp).symm

theorem partPath_below {u : Bytes} {n : Int} {p : OsPath} (h : partPath cfg u n = some p) : ∃ q, p.comps = cfg.root ++ q := by
  simp only [partPath, resolveVirtual] at h
  split at h
  · split at h
    · rename_i h1
      cases h
      obtain ⟨t, ht⟩ := isPrefixOf_iff.mp h1
      exact ⟨t, ht.symm⟩
    · cases h
  · cases h; exact ⟨_, rfl⟩

/-- the call writes the file at `P` -/
def callWrites (P : Path) : Call → Prop
  | .create p => p.comps = P
  | .writeAt i _ _ => i.path = P
  | _ => False

/-- the call makes the folder at `P` -/
def callMakes (P : Path) : Call → Prop
  | .mkdir p => p = P ∧ P ≠ []
  | _ => False

/-- nothing new at a place: what is there was there, or the place is empty -/
def NoNew (P : Path) (a b : FS) : Prop := (∀ c, contentAt b P = some c → contentAt a P = some c) ∧ (IsDir b P → IsDir a P)

theorem NoNew.refl (P : Path) (a : FS) : NoNew P a a := ⟨fun _ h => h, fun h => h⟩

theorem noNew_erase {P q : Path} {a : FS} : NoNew P a (a.erase q) := by
  by_cases h : P = []
  · subst h; exact ⟨fun c hc => by simp [contentAt, lookup_erase] at hc, fun _ => rfl⟩
  · constructor
    · intro c; simp only [contentAt, lookup_erase, if_neg h]
      by_cases hq : P = q
      · simp [if_pos hq]
      · simp only [if_neg hq, data_erase]; exact id
    · simp only [IsDir, lookup_erase, if_neg h]; split <;> simp

theorem noNew_eraseTree {P q : Path} {a : FS} : NoNew P a (a.eraseTree q) := by
  by_cases h : P = []
  · subst h; exact ⟨fun c hc => by simp [contentAt, lookup_eraseTree] at hc, fun _ => rfl⟩
  · constructor
    · intro c; simp only [contentAt, lookup_eraseTree, if_neg h]
      by_cases hq : q.isPrefixOf P = true
      · rw [if_pos hq]; intro h; cases h
      · simp only [if_neg hq, data_eraseTree]; exact id
    · simp only [IsDir, lookup_eraseTree, if_neg h]; split <;> simp

theorem NoNew.trans {P : Path} {a b c : FS} (h : NoNew P a b) (h' : NoNew P b c) : NoNew P a c :=
  ⟨fun x hx => h.1 x (h'.1 x hx), fun hx => h.2 (h'.2 hx)⟩

/-- the content at a place changes only by a write to that file -/
theorem noNew_setData {P : Path} {a : FS} (hw : WF a) {i : Ino} (hi : i.path ≠ P) (b : Bytes) : NoNew P a (a.setData i b) := by
  refine ⟨fun c => ?_, fun h => h⟩
  simp only [contentAt, lookup_setData]
  split
  · rename_i j hj
    have : j ≠ i := fun e => hi (by rw [← e]; exact (hw.ino _ _ hj).1)
    rw [data_setData, if_neg this]; exact id
  · simp

theorem noNew_foldl {P p : Path} (l : List Path) (a : FS) :
    NoNew P a (l.foldl (fun fs q => if p.isPrefixOf q then fs.eraseTree q else fs) a) := by
  induction l generalizing a with
  | nil => exact .refl ..
  | cons q l ih =>
    rw [List.foldl_cons]
    refine .trans ?_ (ih _)
    split
    · exact noNew_eraseTree
    · exact .refl ..

/-- a call that neither writes the file at a place nor makes a folder there adds nothing there -/
theorem exec_noNew {P : Path} {a : FS} (hw : WF a) {c : Call} :
    (¬ callWrites P c → ∀ x, contentAt (exec cfg a c).2 P = some x → contentAt a P = some x) ∧
    (¬ callMakes P c → IsDir (exec cfg a c).2 P → IsDir a P) := by
  cases c with
  | stat p => exact ⟨fun _ _ h => h, fun _ h => h⟩
  | openRead p => exact ⟨fun _ _ h => h, fun _ h => h⟩
  | fstat p => exact ⟨fun _ _ h => h, fun _ h => h⟩
  | readAll p => exact ⟨fun _ _ h => h, fun _ h => h⟩
  | readAt p => exact ⟨fun _ _ h => h, fun _ h => h⟩
  | mkdir p =>
    simp only [exec]
    repeat' split
    all_goals first | exact ⟨fun _ _ h => h, fun _ h => h⟩ | skip
    constructor
    · intro _ x
      simp only [contentAt, lookup_set, data_set]
      by_cases h1 : P = []
      · simp [h1]
      · by_cases h2 : P = p
        · simp [h2]
        · simp only [if_neg h1, if_neg h2]; exact id
    · intro hn
      simp only [IsDir, lookup_set]
      by_cases h1 : P = []
      · intro _; rw [h1]; rfl
      · rw [if_neg h1, if_neg (fun e => hn ⟨e.symm, h1⟩)]; exact id
  | create p =>
    simp only [exec]
    repeat' split
    all_goals first | exact ⟨fun _ _ h => h, fun _ h => h⟩ | skip
    · rename_i hl
      exact ⟨fun hn => (noNew_setData hw (fun e => hn ((hw.ino _ _ hl).1.symm.trans e)) _).1, fun _ h => h⟩
    · constructor
      · intro hn x
        simp only [contentAt, lookup_bump, lookup_setData, lookup_set, data_bump]
        by_cases h1 : P = []
        · simp [h1]
        · rw [if_neg h1, if_neg (fun e => hn e.symm)]
          split
          · rename_i j hj
            have : j ≠ ⟨p.comps, a.gen p.comps⟩ := fun e => hn (by rw [← (hw.ino _ _ hj).1, e]; rfl)
            rw [data_setData, if_neg this]; exact id
          · exact id
      · intro _
        simp only [IsDir, lookup_bump, lookup_setData, lookup_set]
        by_cases h1 : P = []
        · intro _; rw [h1]; rfl
        · by_cases h2 : P = p.comps
          · rw [if_neg h1, if_pos h2]; intro h; cases h
          · rw [if_neg h1, if_neg h2]; exact id
  | writeAt i off b => exact ⟨fun hn => (noNew_setData hw (fun e => hn e) _).1, fun _ h => h⟩
  | unlink p =>
    simp only [exec]
    split
    · exact ⟨fun _ => noNew_erase.1, fun _ => noNew_erase.2⟩
    · exact ⟨fun _ _ h => h, fun _ h => h⟩
  | rmdir p =>
    simp only [exec]
    repeat' split
    all_goals first | exact ⟨fun _ _ h => h, fun _ h => h⟩ | exact ⟨fun _ => noNew_erase.1, fun _ => noNew_erase.2⟩
  | rmtree p =>
    simp only [exec]
    repeat' split
    all_goals first | exact ⟨fun _ _ h => h, fun _ h => h⟩ | exact ⟨fun _ => noNew_eraseTree.1, fun _ => noNew_eraseTree.2⟩
  | readDir p =>
    simp only [exec]
    split <;> exact ⟨fun _ _ h => h, fun _ h => h⟩

theorem execF_noNew {P : Path} {a : FS} (hw : WF a) {c : Call} (f : Fault) :
    (¬ callWrites P c → ∀ x, contentAt (execF cfg a c f).2 P = some x → contentAt a P = some x) ∧
    (¬ callMakes P c → IsDir (execF cfg a c f).2 P → IsDir a P) := by
  cases f with
  | none => exact exec_noNew hw
  | before => exact ⟨fun _ _ h => h, fun _ h => h⟩
  | after => exact exec_noNew (cfg := cfg) hw
  | during n rs =>
    cases c with
    | writeAt i off b =>
      simp only [execF, partialEffect]
      split
      · exact ⟨fun _ _ h => h, fun _ h => h⟩
      · exact ⟨fun hn => (noNew_setData hw (fun e => hn e) _).1, fun _ h => h⟩
    | rmtree p =>
      simp only [execF, partialEffect]
      repeat' split
      all_goals first | exact ⟨fun _ _ h => h, fun _ h => h⟩ | exact ⟨fun _ => (noNew_foldl ..).1, fun _ => (noNew_foldl ..).2⟩
    | _ => exact ⟨fun _ _ h => h, fun _ h => h⟩

theorem noSlash_of {k : Bytes} (h : endsWithByte k 47 = false) : ∀ t, k ≠ t ++ b!"/" := by
  rintro t rfl
  simp [endsWithByte] at h

/-- a file written by an operation is one it may write -/
theorem ok_writes {o : Op} (hl : LegalWrite o) {c : Call} (hc : (opPerm cfg o).ok c) {p : Path} (h : callWrites (cfg.root ++ p) c) :
    WritesFile cfg.root o p := by
  have hc : (opPerm cfg o).wr (cfg.root ++ p) := by
    cases c <;> first | exact h.elim | (cases h; exact hc) | (rw [← show _ = cfg.root ++ p from h]; exact hc)
  cases o <;> first | exact hc.elim | skip
  case copyObject b k s =>
    rcases hc with ⟨q, h1, h2⟩ | h1
    · exact .copy (place_of hl h1 h2.symm)
    · rw [List.append_cancel_left h1]; exact .copyMeta
  case putObject i =>
    obtain ⟨hs, ⟨q, h1, h2⟩ | ⟨hm, h1⟩⟩ := hc
    · exact .put (noSlash_of hs) (place_of hl h1 h2.symm)
    · rw [List.append_cancel_left h1]; exact .putMeta (noSlash_of hs) (fun e => by rw [e] at hm; cases hm)
  case uploadPart u n body =>
    obtain ⟨q, h1, h2⟩ := hc
    exact .part (partPlace_of h1 h2.symm)
  case completeMultipartUpload b k u parts =>
    obtain ⟨q, h1, h2⟩ := hc
    exact .complete (place_of hl h1 h2.symm)

theorem slash_of {k : Bytes} (h : endsWithByte k 47 = true) : ∃ t, k = t ++ b!"/" := by
  obtain ⟨t, ht⟩ := endsWithByte_iff.mp h
  exact ⟨t, ht⟩

/-- a folder made by an operation is one it may make -/
theorem ok_makes {o : Op} (hl : LegalWrite o) {c : Call} (hc : (opPerm cfg o).ok c) {d : Path} (h : callMakes (cfg.root ++ d) c) :
    MakesFolder cfg.root o d := by
  have hu : (opPerm cfg o).up (cfg.root ++ d) ∧ cfg.root ++ d ≠ [] := by
    cases c <;> first | exact h.elim | exact ⟨h.1 ▸ hc, h.2⟩
  clear h hc
  obtain ⟨hc, hd⟩ := hu
  cases o <;> first | exact hc.elim | skip
  case createBucket b =>
    obtain ⟨q, h1, h2⟩ := hc
    rw [bucketPath_legal cfg ((C02_bucket_name_rule _).mpr hl)] at h1
    cases h1
    rw [List.append_cancel_left h2]; exact .bucket
  case putObject inp =>
    obtain ⟨q, ⟨q', h1, rfl⟩, h2⟩ := hc
    obtain ⟨p, hp⟩ := objectPath_below h1
    have hpl := place_of hl h1 hp
    cases hs : endsWithByte inp.key 47 with
    | true =>
      rw [hs, if_pos rfl, hp] at h2
      obtain ⟨t, ht⟩ := slash_of hs
      obtain ⟨r, hr⟩ := h2
      rw [List.append_assoc] at hr
      exact .folder ht hpl ⟨r, (List.append_cancel_left hr).symm⟩
    | false =>
      rw [hs, if_neg (by decide), hp] at h2
      have hne : p ≠ [] := by
        rintro rfl
        rw [List.append_nil] at h2
        have h3 := h2.length_le
        have h4 := List.length_pos_iff.mpr hd
        simp only [List.length_append, List.length_dropLast] at h3 h4
        omega
      rw [List.dropLast_append_of_ne_nil hne] at h2
      obtain ⟨r, hr⟩ := h2
      rw [List.append_assoc] at hr
      have hr := List.append_cancel_left hr
      refine .parent (noSlash_of hs) hpl ⟨r ++ [p.getLast hne], ?_⟩ ?_
      · rw [← List.append_assoc, hr, List.dropLast_concat_getLast]
      · rintro rfl
        have := congrArg List.length hr
        have := List.length_pos_iff.mpr hne
        simp at *
        omega

/-- the operations asked for in a life of the server, and the one that stands for refused requests -/
def AskedIn (lib : Lib) (auth : Option Provider) (ws : List WebEpoch) (o : Op) : Prop :=
  o = silent ∨ ∃ w ∈ ws, ∃ x ∈ w.requests, Asks lib auth x o

theorem asked_life {ws : List WebEpoch} (h : ∀ w ∈ ws, ∀ x ∈ w.requests, AsksIn cfg ext lib auth (fun _ => True) x) :
    ∃ es : List Epoch, (∀ e ∈ es, ∀ o ∈ e.requests, AskedIn lib auth ws o) ∧ ∀ fs, life cfg ext es fs = webLife cfg ext lib auth ws fs := by
  refine webLife_life (.inl rfl) fun w hw x hx => ?_
  rcases h w hw x hx with ⟨o, _, ha⟩ | he
  · exact .inl ⟨o, .inr ⟨w, hw, x, hx, ha⟩, ha⟩
  · exact .inr he

theorem onlyAt_ok {p : Path} {o : Op} (ho : OnlyAt cfg.root p o) {c : Call} (hc : (opPerm cfg o).ok c) :
    writeOk (· = cfg.root ++ p) (· <+: (cfg.root ++ p).dropLast) c ∧ (p ≠ [] → ¬ callMakes (cfg.root ++ p) c) := by
  cases ho with
  | @put i hm hn =>
    have hs := namesFile_slash hn.key
    cases c with
    | mkdir q =>
      obtain ⟨q', h1, h2⟩ := hc
      rw [hs, if_neg (by decide), (objP_names hn).mp h1] at h2
      refine ⟨.inl h2, fun hp h => ?_⟩
      cases h.1
      have := h2.length_le
      have := List.length_pos_iff.mpr hp
      simp at *
      omega
    | create q =>
      obtain ⟨_, h | h⟩ := hc
      · exact ⟨(objP_names hn).mp h, fun _ h => h⟩
      · rw [hm] at h; cases h.1
    | writeAt j off b =>
      obtain ⟨_, h | h⟩ := hc
      · exact ⟨(objP_names hn).mp h, fun _ h => h⟩
      · rw [hm] at h; cases h.1
    | _ => first | exact hc.elim | exact ⟨trivial, fun _ h => h⟩
  | @delete b k hn =>
    have hs := namesFile_slash hn.key
    cases c with
    | unlink q => exact ⟨(objP_names hn).mp hc.2, fun _ h => h⟩
    | rmdir q => exact ⟨(objP_names hn).mp hc.2, fun _ h => h⟩
    | _ => first | exact hc.elim | exact ⟨trivial, fun _ h => h⟩
  | _ => cases c <;> first | exact hc.elim | exact ⟨trivial, fun _ h => h⟩

/-- what a DELETE leaves of the place it is about: nothing, unless there is a folder -/
theorem delete_clears {b k : Bytes} {p : Path} (hn : Names cfg.root b k p) {fs : FS} (hd : ¬ IsDir fs (cfg.root ++ p)) :
    (after cfg ext (.deleteObject b k) fs).lookup (cfg.root ++ p) = none := by
  have hs := namesFile_slash hn.key
  have hne : cfg.root ++ p ≠ [] := by simp [inBucket_ne hn.inside]
  have he : after cfg ext (.deleteObject b k) fs = (exec cfg fs (.unlink ⟨cfg.root ++ p, false⟩)).2 := by
    simp only [after, opProg, deleteObject, objectPath_names cfg hn, hs, orInternal]
    simp only [bind, pure, Prog.bind, call, run, Bool.false_eq_true, if_false]
    cases (exec cfg fs (.unlink ⟨cfg.root ++ p, false⟩)).1 <;> rfl
  rw [he]
  simp only [exec]
  cases hl : fs.lookup (cfg.root ++ p) with
  | none => 
    have : fs.at ⟨cfg.root ++ p, false⟩ = none := by simp [FS.at, hl]
    rw [this]; exact hl
  | some n =>
    cases n with
    | dir => exact absurd hl hd
    | file i =>
      have : fs.at ⟨cfg.root ++ p, false⟩ = some (.file i) := by simp [FS.at, hl]
      rw [this]; simp [lookup_erase, hne]

end S3
