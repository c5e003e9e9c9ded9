import Verif.Spec.Root
import Verif.Lemmas.WebLife
import Verif.Lemmas.Place
import Verif.Props.Listed
/-! Lemmas for C120: which system calls can remove the storage directory. -/
namespace S3
open Spec

variable {cfg : Cfg} {ext : Ext} {lib : Lib} {auth : Option Provider}

/-- calls that leave the directory `P` where it is -/
def sparesDir (P : Path) : Call → Prop
  | .rmdir q => q.comps ≠ P
  | .rmtree q => ¬ q <+: P
  | _ => True

theorem lookup_fold_eraseTree {p P : Path} (h : ¬ p <+: P) (rs : List Path) : ∀ {fs : FS}, fs.lookup P = some .dir →
    (rs.foldl (fun fs q => if p.isPrefixOf q then fs.eraseTree q else fs) fs).lookup P = some .dir := by
  induction rs with
  | nil => exact fun h => h
  | cons r rs ih =>
    intro fs h0
    rw [List.foldl_cons]
    refine ih ?_
    split
    · rename_i hr
      rw [lookup_eraseTree]
      split
      · rfl
      · rw [if_neg]
        · exact h0
        · intro hc
          exact h ((List.isPrefixOf_iff_prefix.mp hr).trans (List.isPrefixOf_iff_prefix.mp hc))
    · exact h0

theorem exec_sparesDir {P : Path} {fs : FS} {c : Call} (hc : sparesDir P c) (h : fs.lookup P = some .dir) :
    (exec cfg fs c).2.lookup P = some .dir := by
  cases c with
  | mkdir q =>
    simp only [exec]
    repeat' split
    all_goals first
      | exact h
      | (simp only [lookup_set]; repeat' split
         all_goals first | exact h | rfl)
  | create q =>
    simp only [exec]
    split
    · exact h
    split
    · exact h
    split
    · exact h
    · exact h
    split
    · split
      · rename_i hl _ _ _
        simp only [lookup_setData, lookup_bump, lookup_set]
        split
        · rfl
        split
        · rename_i _ e; rw [← e, h] at hl; cases hl
        · exact h
      · exact h
    · exact h
  | unlink q =>
    simp only [exec]
    split
    · rename_i i hi
      simp only [lookup_erase]; split
      · rfl
      · split
        · rename_i e
          have := (at_file hi).1
          rw [← e, h] at this; cases this
        · exact h
    · exact h
  | rmdir q =>
    simp only [sparesDir] at hc
    simp only [exec]
    split
    · split
      · simp only [lookup_erase]; split
        · rfl
        · rw [if_neg (Ne.symm hc)]; exact h
      · exact h
    · exact h
  | rmtree q =>
    simp only [sparesDir] at hc
    simp only [exec]
    split
    · split
      · simp only [lookup_eraseTree]; split
        · rfl
        · rw [if_neg (fun hp => hc (List.isPrefixOf_iff_prefix.mp hp))]; exact h
      · exact h
    · exact h
  | readDir q => simp only [exec]; split <;> exact h
  | _ => exact h

theorem execF_sparesDir {P : Path} {fs : FS} {c : Call} (hc : sparesDir P c) (f : Fault) (h : fs.lookup P = some .dir) :
    (execF cfg fs c f).2.lookup P = some .dir := by
  cases f with
  | none => exact exec_sparesDir hc h
  | before => exact h
  | after => exact exec_sparesDir hc h
  | during n rs =>
    cases c with
    | writeAt i off b => simp only [execF, partialEffect]; split <;> exact h
    | rmtree p =>
      simp only [execF, partialEffect]
      split
      · split
        · exact lookup_fold_eraseTree hc rs h
        · exact h
      · exact h
    | _ => exact h

/-- removing a directory that has an entry fails -/
theorem execF_entry {P : Path} {fs : FS} {q : OsPath} (f : Fault) (h : fs.lookup P = some .dir) (he : HasEntry fs P) :
    (execF cfg fs (.rmdir q) f).2.lookup P = some .dir := by
  by_cases hq : q.comps = P
  · subst hq
    have : (exec cfg fs (.rmdir q)).2.lookup q.comps = some .dir := by
      simp only [exec]
      split
      · split
        · rename_i hc
          obtain ⟨n, hn⟩ := he
          obtain ⟨x, hx⟩ := Option.ne_none_iff_exists'.mp hn
          exact absurd (by simp) (no_children_iff.mp hc.2 _ (mem_of_lookup (by simp) hx) (by simp))
        · exact h
      · exact h
    cases f with
    | none => exact this
    | after => exact this
    | before => exact h
    | during n rs => exact h
  · exact execF_sparesDir (c := .rmdir q) hq f h

theorem legal_bucketAt {r : Req} {b : Bytes} (h : At r (.bucket b)) : LegalBucket b := by
  obtain ⟨p, _, h⟩ := h
  cases h <;> assumption

theorem legal_objectAt {r : Req} {b k : Bytes} (h : At r (.object b k)) : LegalBucket b := by
  obtain ⟨p, _, h⟩ := h
  cases h; assumption

/-- the bucket of a request that deletes is legal -/
def LegalDelete : Op → Prop
  | .deleteBucket b => LegalBucket b
  | .deleteObject b _ => LegalBucket b
  | _ => True

theorem asks_legal {x : Exchange} {o : Op} (h : Asks lib auth x o) : LegalDelete o := by
  obtain ⟨c, _, h⟩ := h
  cases h <;> first | trivial | exact legal_bucketAt (by assumption) | exact legal_objectAt (by assumption)

theorem asksIn_legal {P : Op → Prop} {x : Exchange} (h : AsksIn cfg ext lib auth P x) :
    AsksIn cfg ext lib auth (fun o => P o ∧ LegalDelete o) x := by
  rcases h with ⟨o, ho, ha⟩ | h
  · exact .inl ⟨o, ⟨ho, asks_legal ha⟩, ha⟩
  · exact .inr h

/-- the model resolves a key to the storage directory only if it leads there -/
theorem place_root {b k : Bytes} (hb : LegalBucket b) {p : OsPath} (h : objectPath cfg b k = some p) (hp : p.comps = cfg.root) :
    Place cfg.root b k [] := by
  have hb := (C02_bucket_name_rule b).mpr hb
  rw [place_iff]
  split
  · rename_i h1
    have hj : pathJoin b k = k := by simp only [pathJoin, h1, if_true]
    simp only [objectPath, hj, resolveVirtual, parseDot, h1, if_true, pathComps] at h
    split at h
    · cases h
      rw [List.append_nil, ← hp]; rfl
    · cases h
  · rename_i h1
    have h1 : startsWith k b!"/" = false := by simpa using h1
    obtain ⟨hj, _, _⟩ := join_relative hb h1
    have hd := parseDot_relative cfg hb h1
    simp only [objectPath, hj, resolveVirtual, hd] at h
    cases h
    simpa using hp.symm

/-- the operation does not delete an object whose key leads to the storage directory itself -/
def SparesRoot (root : List Bytes) : Op → Prop
  | .deleteObject b k => ¬ Place root b k []
  | _ => True

theorem ok_spares {o : Op} (hl : LegalDelete o) (hs : SparesRoot cfg.root o) {c : Call} (hc : (opPerm cfg o).ok c) :
    sparesDir cfg.root c := by
  cases c with
  | rmdir q =>
    intro e
    cases o <;> first
      | exact hc.elim
      | (obtain ⟨_, p, hp, he⟩ := hc
         exact hs (place_root hl hp (he.symm.trans e)))
  | rmtree q =>
    intro e
    cases o <;> first
      | exact hc.elim
      | (obtain ⟨p, hp, he⟩ := hc
         rw [bucketPath_legal cfg ((C02_bucket_name_rule _).mpr hl)] at hp
         cases hp
         have := (he ▸ e : cfg.root ++ [_] <+: cfg.root).length_le
         simp at this
         omega)
  | _ => trivial

theorem runParF_guarded {α : Type} {ok : Call → Prop} {J E : FS → Prop} (hJ : ∀ fs c f, WF fs → J fs → E fs → ok c → J (execF cfg fs c f).2)
    {steps : List (Nat × Fault)} {ps : List (Prog α)} (hs : ∀ p ∈ ps, Safe ok (fun _ => True) p) {fs : FS} (hw : WF fs) (h : J fs)
    (hE : ∀ n, E (runParF cfg (steps.take n) ps fs).2) : J (runParF cfg steps ps fs).2 := by
  induction steps generalizing ps fs with
  | nil => exact h
  | cons x s ih =>
    obtain ⟨i, f⟩ := x
    simp only [runParF]
    have hE' := fun n => hE (n + 1)
    simp only [List.take_succ_cons, runParF] at hE'
    split
    · rename_i hi
      simp only [hi] at hE'
      exact ih hs hw h hE'
    · rename_i p hi
      simp only [hi] at hE'
      have hp := hs p (List.mem_of_getElem? hi)
      refine ih ?_ (stepProgF_wf hw) ?_ hE'
      · intro q hq
        rcases List.mem_or_eq_of_mem_set hq with hq | rfl
        · exact hs q hq
        · cases p with
          | sys c k => exact hp.2 _ (execF_respOk hw c f)
          | _ => exact hp
      · cases p with
        | sys c k => exact hJ _ _ _ hw h (hE 0) hp.1
        | _ => exact h

theorem ok_entry {o : Op} (hl : LegalDelete o) {c : Call} (hc : (opPerm cfg o).ok c) {fs : FS} (f : Fault) (h : IsDir fs cfg.root)
    (he : HasEntry fs cfg.root) : IsDir (execF cfg fs c f).2 cfg.root := by
  cases c with
  | rmdir q => exact execF_entry f h he
  | rmtree q =>
    refine execF_sparesDir (c := .rmtree q) (ok_spares (o := o) hl ?_ hc) f h
    cases o <;> first | trivial | exact hc.elim
  | _ => (refine execF_sparesDir (P := cfg.root) ?_ f h; trivial)

end S3
