import Verif.Spec.Looks
import Verif.Lemmas.Crawl
import Verif.Lemmas.Pieces
import Verif.Lemmas.Sweep
/-! The listings, with directories that change while they are read. -/
namespace S3
open Spec

variable {cfg : Cfg} {α β : Type} {J : FS → Prop}

/-- the calls of the listings -/
def Looking : Call → Prop
  | .stat _ | .readDir _ => True
  | _ => False

/-- what they can be answered with if the tree is always like `J` -/
def Explained (cfg : Cfg) (J : FS → Prop) : (c : Call) → Resp c → Prop
  | .stat p, r => r = none ∨ ∃ fs, WF fs ∧ J fs ∧ r = (exec cfg fs (.stat p)).1
  | .readDir p, r => r = none ∨ ∃ es, r = some es ∧ Glimpse (fun fs => WF fs ∧ J fs) p.comps es
  | _, _ => True

/-- the program only looks at the tree; `R` holds of its result and `E` of its errors -/
def Sees (cfg : Cfg) (J : FS → Prop) (R : α → Prop) (E : S3ErrorCode → Prop) : Prog α → Prop
  | .ret a => R a
  | .fail e => E e
  | .sys c k => Looking c ∧ ∀ r, Explained cfg J c r → Sees cfg J R E (k r)
  | _ => True

theorem Sees.mono {R R' : α → Prop} {E E' : S3ErrorCode → Prop} (hr : ∀ a, R a → R' a) (he : ∀ e, E e → E' e) {p : Prog α}
    (h : Sees cfg J R E p) : Sees cfg J R' E' p := by
  induction p with
  | ret a => exact hr a h
  | fail e => exact he e h
  | sys c k ih => exact ⟨h.1, fun r hx => ih r (h.2 r hx)⟩
  | _ => trivial

theorem Sees.bind {R : α → Prop} {R' : β → Prop} {E : S3ErrorCode → Prop} {p : Prog α} {f : α → Prog β}
    (h : Sees cfg J R E p) (hf : ∀ a, R a → Sees cfg J R' E (f a)) : Sees cfg J R' E (p.bind f) := by
  induction p with
  | ret a => exact hf a h
  | fail e => exact h
  | sys c k ih => exact ⟨h.1, fun r hx => ih r (h.2 r hx)⟩
  | _ => trivial

theorem Sees.callBind {R : α → Prop} {E : S3ErrorCode → Prop} {c : Call} {f : Resp c → Prog α} (hc : Looking c)
    (hf : ∀ r, Explained cfg J c r → Sees cfg J R E (f r)) : Sees cfg J R E ((call c).bind f) := ⟨hc, hf⟩

theorem Sees.orInternal {R : α → Prop} {o : Option β} {f : β → Prog α} (hf : ∀ b, o = some b → Sees cfg J R (· = .InternalError) (f b)) :
    Sees cfg J R (· = .InternalError) ((S3.orInternal o).bind f) := by
  cases o with
  | none => rfl
  | some b => exact hf b rfl

/-- it does not matter in which pieces it is done -/
theorem pieces_sees {R : α → Prop} {E : S3ErrorCode → Prop} {s : Doing α} {q : Prog α} (h : Pieces s q) :
    ∀ p, s = .at p → Sees cfg J R E p → Sees cfg J R E q := by
  induction h with
  | sys c next ih =>
    rintro p e hs
    cases e
    exact ⟨hs.1, fun r hr => ih r _ rfl (hs.2 r hr)⟩
  | ret | fail | panic | diverge => rintro p e hs; cases e; exact hs
  | write | read | copy =>
    rintro p e hs
    cases e
    exact hs.1.elim
  | _ => intro p e; cases e

/-! ### the walk -/

/-- what the inner loop returns -/
structure Glimpsed (cfg : Cfg) (J : FS → Prop) (base : Path) (pfx : Option Bytes) (dir : Path) (es : List (Bytes × Bool))
    (ds : List Path) (os : List (Bytes × Nat)) (ps : List (Path × Nat)) : Prop where
  dirs : ds = (es.filter (·.2)).map fun e => dir ++ [e.1]
  objs : os = ps.map fun x => (relKey base x.1, x.2)
  names : ps.map (·.1) = ((es.filter fun e => !e.2 && !filteredOut pfx (relKey base (dir ++ [e.1]))).map fun e => dir ++ [e.1])
  size : ∀ x ∈ ps, SeenSize cfg J x.1 x.2

theorem sees_listEntries {base dir : Path} {pfx : Option Bytes} (es : List (Bytes × Bool)) :
    Sees cfg J (fun r => ∃ ps, Glimpsed cfg J base pfx dir es r.1 r.2 ps) (· = .InternalError) (listEntries cfg base pfx dir es) := by
  induction es with
  | nil => exact ⟨[], rfl, rfl, rfl, (fun _ h => nomatch h)⟩
  | cons e es ih =>
    obtain ⟨n, d⟩ := e
    cases d with
    | true =>
      simp only [listEntries, if_true, bind_eq, pure_eq]
      refine Sees.bind ih ?_
      rintro ⟨ds, os⟩ ⟨ps, hv⟩
      dsimp only at hv
      exact ⟨ps, by simp [hv.dirs], hv.objs, by simp [hv.names], hv.size⟩
    | false =>
      simp only [listEntries, Bool.false_eq_true, if_false, bind_eq, pure_eq]
      split
      · rename_i hf
        refine ih.mono ?_ fun _ h => h
        rintro ⟨ds, os⟩ ⟨ps, hv⟩
        dsimp only at hv
        exact ⟨ps, by simp [hv.dirs], hv.objs, by simp [hv.names, hf], hv.size⟩
      · rename_i hf
        refine Sees.callBind trivial fun r hr => Sees.orInternal fun st hst => ?_
        have hsee : SeenSize cfg J (dir ++ [n]) (statLen cfg st) := by
          rcases hr with hr | ⟨fs, hw, hj, hr⟩
          · rw [hr] at hst; cases hst
          refine ⟨fs, hw, hj, ?_⟩
          rw [hr] at hst
          simp only [exec, FS.at, Bool.false_eq_true, if_false] at hst
          revert hst
          rcases fs.lookup (dir ++ [n]) with _ | _ | i <;> intro hst
          · cases hst
          · cases hst; exact .inr ⟨rfl, rfl⟩
          · cases hst; exact .inl ⟨i, rfl, rfl⟩
        split
        · refine Sees.bind ih ?_
          rintro ⟨ds, os⟩ ⟨ps, hv⟩
          dsimp only at hv
          refine ⟨(dir ++ [n], statLen cfg st) :: ps, by simp [hv.dirs], by simp [hv.objs], by simp [hv.names, hf], ?_⟩
          intro x hx
          rcases List.mem_cons.mp hx with rfl | hx
          · exact hsee
          · exact hv.size x hx
        · rfl

/-- there is always a file at `P` -/
def Lasting (J : FS → Prop) (P : Path) : Prop := ∀ fs, WF fs → J fs → ∃ i, fs.lookup P = some (.file i)

/-- the directory lies above the path -/
def aboveB (P d : Path) : Bool := d.isPrefixOf P && d != P

theorem aboveB_iff {P d : Path} : aboveB P d = true ↔ d <+: P ∧ d ≠ P := by simp [aboveB]

/-- what the walk returns -/
structure Strolled (cfg : Cfg) (J : FS → Prop) (base : Path) (pfx : Option Bytes) (queue : List Path) (l : List (Bytes × Nat))
    (ps : List (Path × Nat)) : Prop where
  objs : l = ps.map fun x => (relKey base x.1, x.2)
  below : ∀ x ∈ ps, ∃ d ∈ queue, d <+: x.1 ∧ d ≠ x.1
  match_ : ∀ x ∈ ps, filteredOut pfx (relKey base x.1) = false ∧ SeenFile J x.1 ∧ SeenSize cfg J x.1 x.2
  lasting : ∀ P, Lasting J P → filteredOut pfx (relKey base P) = false → (ps.map (·.1)).count P = queue.countP (aboveB P)
  open_ : ∀ d ∈ queue, ∃ fs, WF fs ∧ J fs ∧ fs.lookup d = some .dir

/-- a name that is there all the time is found once, and as what it is -/
theorem glimpse_once {d : Path} {es : List (Bytes × Bool)} (hg : Glimpse (fun fs => WF fs ∧ J fs) d es) {n : Bytes} {t : Bool}
    (h : ∀ fs, WF fs → J fs → EntryAt fs d n t) : es.filter (fun e => e.1 == n) = [(n, t)] := by
  obtain ⟨t', ht⟩ := hg.once n fun fs ⟨h1, h2⟩ => ⟨t, h fs h1 h2⟩
  have hm : (n, t') ∈ es := (List.mem_filter.mp (ht ▸ List.mem_singleton.mpr rfl : (n, t') ∈ es.filter _)).1
  obtain ⟨fs, ⟨h1, h2⟩, nd, h3, h4⟩ := hg.entry _ hm
  obtain ⟨nd', h5, h6⟩ := h fs h1 h2
  rw [h3] at h5
  cases h5
  dsimp only at h4
  rw [ht, h4, h6]

theorem count_filter_map (es : List (Bytes × Bool)) (d : Path) (n : Bytes) (f : Bytes × Bool → Bool) :
    ((es.filter f).map fun e => d ++ [e.1]).count (d ++ [n]) = ((es.filter (fun e => e.1 == n)).filter f).length := by
  rw [List.filter_filter, List.count_eq_countP, List.countP_map, List.countP_filter, List.countP_eq_length_filter]
  congr 1
  refine List.filter_congr fun e _ => ?_
  simp [Bool.and_comm]

theorem sees_listLoop {base : Path} {pfx : Option Bytes} : ∀ (fuel : Nat) (queue : List Path),
    Sees cfg J (fun l => ∃ ps, Strolled cfg J base pfx queue l ps) (· = .InternalError) (listLoop cfg base pfx fuel queue) := by
  intro fuel
  induction fuel with
  | zero =>
    intro queue
    cases queue with
    | nil => exact ⟨[], rfl, (fun _ h => nomatch h), (fun _ h => nomatch h), (fun _ _ _ => rfl), (fun _ h => nomatch h)⟩
    | cons d q => trivial
  | succ fuel ih =>
    intro queue
    cases queue with
    | nil => exact ⟨[], rfl, (fun _ h => nomatch h), (fun _ h => nomatch h), (fun _ _ _ => rfl), (fun _ h => nomatch h)⟩
    | cons d queue =>
      simp only [listLoop, bind_eq, pure_eq]
      refine Sees.callBind trivial fun r hr => Sees.orInternal fun es hes => ?_
      have hg : Glimpse (fun fs => WF fs ∧ J fs) d es := by
        rcases hr with hr | ⟨es', hr, hg⟩
        · rw [hr] at hes; cases hes
        · rw [hr] at hes; cases hes; exact hg
      refine Sees.bind (sees_listEntries es) ?_
      rintro ⟨ds, os⟩ ⟨ps, hv⟩
      dsimp only at hv
      have hds : ∀ p ∈ ds, ∃ n, p = d ++ [n] := by
        intro p hp
        rw [hv.dirs] at hp
        obtain ⟨e, _, rfl⟩ := List.mem_map.mp hp
        exact ⟨e.1, rfl⟩
      have hps : ∀ x ∈ ps, ∃ n, x.1 = d ++ [n] ∧ (n, false) ∈ es ∧ filteredOut pfx (relKey base x.1) = false := by
        intro x hx
        have : x.1 ∈ ps.map (·.1) := List.mem_map.mpr ⟨x, hx, rfl⟩
        rw [hv.names] at this
        obtain ⟨⟨n, t⟩, he, h2⟩ := List.mem_map.mp this
        obtain ⟨he1, he2⟩ := List.mem_filter.mp he
        simp only [Bool.and_eq_true, Bool.not_eq_true'] at he2
        obtain ⟨rfl, he3⟩ := he2
        refine ⟨n, h2.symm, he1, ?_⟩
        rw [← h2]; exact he3
      refine Sees.bind (ih (queue ++ ds)) ?_
      rintro l ⟨ps', hk⟩
      refine ⟨ps ++ ps', ?_, ?_, ?_, ?_, ?_⟩
      · simp [hv.objs, hk.objs]
      · intro x hx
        rcases List.mem_append.mp hx with hx | hx
        · obtain ⟨n, hn, _⟩ := hps x hx
          exact ⟨d, List.mem_cons_self, by rw [hn]; exact List.prefix_append _ _, by rw [hn]; simp⟩
        · obtain ⟨e, he, hpre, hne⟩ := hk.below x hx
          rcases List.mem_append.mp he with he | he
          · exact ⟨e, List.mem_cons_of_mem _ he, hpre, hne⟩
          · obtain ⟨n', rfl⟩ := hds e he
            refine ⟨d, List.mem_cons_self, (List.prefix_append _ _).trans hpre, ?_⟩
            intro e1
            rw [← e1] at hpre
            have := hpre.length_le
            rw [List.length_append, List.length_singleton] at this
            omega
      · intro x hx
        rcases List.mem_append.mp hx with hx | hx
        · obtain ⟨n, hn, hn', hf⟩ := hps x hx
          refine ⟨hf, ?_, hv.size x hx⟩
          obtain ⟨fs, ⟨hw, hj⟩, nd, h3, h4⟩ := hg.entry _ hn'
          cases nd with
          | dir => simp at h4
          | file i => exact ⟨fs, i, hw, hj, by rw [hn]; exact h3⟩
        · exact hk.match_ x hx
      · intro P hP hf
        rw [List.map_append, List.count_append, hk.lasting P hP hf, List.countP_append, List.countP_cons, hv.names]
        by_cases ha : aboveB P d = true
        · obtain ⟨⟨t, rfl⟩, hne⟩ := aboveB_iff.mp ha
          cases t with
          | nil => simp at hne
          | cons n t =>
            rw [if_pos ha]
            by_cases ht : t = []
            · subst ht
              have h1 := glimpse_once hg (n := n) (t := false) fun fs hw hj => by
                obtain ⟨i, hi⟩ := hP fs hw hj
                exact ⟨_, hi, rfl⟩
              have h2 : ds.countP (aboveB (d ++ [n])) = 0 := by
                rw [List.countP_eq_zero]
                intro p hp h
                obtain ⟨m, rfl⟩ := hds p hp
                obtain ⟨h3, h4⟩ := aboveB_iff.mp h
                exact h4 (h3.eq_of_length (by simp))
              rw [count_filter_map, h1, h2]
              simp [hf]
              omega
            · have h1 := glimpse_once hg (n := n) (t := true) fun fs hw hj => by
                obtain ⟨i, hi⟩ := hP fs hw hj
                refine ⟨.dir, hw.above hi ⟨t, by simp⟩ fun e1 => ?_, rfl⟩
                have := congrArg List.length e1
                simp at this
                exact ht this
              have h2 : ((es.filter fun e => !e.2 && !filteredOut pfx (relKey base (d ++ [e.1]))).map fun e => d ++ [e.1]).count (d ++ n :: t) = 0 := by
                rw [List.count_eq_zero]
                intro h
                obtain ⟨e, _, h3⟩ := List.mem_map.mp h
                have := congrArg List.length h3
                simp at this
                exact ht this
              have h3 : ds.countP (aboveB (d ++ n :: t)) = 1 := by
                have h4 : ds.countP (aboveB (d ++ n :: t)) = ds.count (d ++ [n]) := by
                  rw [List.count_eq_countP]
                  refine List.countP_congr fun p hp => ?_
                  obtain ⟨m, rfl⟩ := hds p hp
                  rw [aboveB_iff, beq_iff_eq, List.prefix_append_right_inj]
                  constructor
                  · rintro ⟨h5, _⟩
                    rw [List.cons_prefix_cons] at h5
                    rw [h5.1]
                  · intro e
                    simp only [List.append_cancel_left_eq, List.cons.injEq, and_true] at e
                    subst e
                    refine ⟨⟨t, rfl⟩, fun e1 => ?_⟩
                    have := congrArg List.length e1
                    simp at this
                    exact ht this
                rw [h4, hv.dirs, count_filter_map, h1]
                rfl
              rw [h2, h3]
              omega
        · have h1 : ((es.filter fun e => !e.2 && !filteredOut pfx (relKey base (d ++ [e.1]))).map fun e => d ++ [e.1]).count P = 0 := by
            rw [List.count_eq_zero]
            intro h
            obtain ⟨e, _, rfl⟩ := List.mem_map.mp h
            exact ha (aboveB_iff.mpr ⟨List.prefix_append _ _, by simp⟩)
          have h2 : ds.countP (aboveB P) = 0 := by
            rw [List.countP_eq_zero]
            intro p hp h
            obtain ⟨m, rfl⟩ := hds p hp
            obtain ⟨h3, h4⟩ := aboveB_iff.mp h
            refine ha (aboveB_iff.mpr ⟨(List.prefix_append _ _).trans h3, fun e => ?_⟩)
            rw [← e] at h3
            have := h3.length_le
            rw [List.length_append, List.length_singleton] at this
            omega
          rw [h1, h2, if_neg ha]
          omega
      · intro p hp
        rcases List.mem_cons.mp hp with rfl | hp
        · obtain ⟨fs, ⟨h1, h2⟩, h3⟩ := hg.there
          exact ⟨fs, h1, h2, h3⟩
        · exact hk.open_ p (List.mem_append_left _ hp)

/-! ### the buckets -/

theorem sees_listBucketsLoop (es : List (Bytes × Bool)) :
    Sees cfg J (fun l => l = (es.filter fun e => e.2 && checkBucketName (utf8Lossy e.1)).map fun e => utf8Lossy e.1) (· = .InternalError)
      (listBucketsLoop cfg es) := by
  induction es with
  | nil => rfl
  | cons e es ih =>
    obtain ⟨n, d⟩ := e
    simp only [listBucketsLoop]
    split
    · rename_i h
      refine Sees.callBind (c := .stat _) trivial fun r hr => Sees.orInternal fun st hst => Sees.bind ih fun l hl => ?_
      show _ = _
      simp [hl, h]
    · rename_i h
      refine ih.mono (fun l hl => ?_) fun _ h => h
      have : (d && checkBucketName (utf8Lossy n)) = false := by
        rw [Bool.eq_false_iff]; simpa using h
      simp [hl, this]

theorem sees_listBuckets :
    Sees cfg J (fun l => ∃ es, Glimpse (fun fs => WF fs ∧ J fs) cfg.root es ∧
      l = (es.filter fun e => e.2 && checkBucketName (utf8Lossy e.1)).map fun e => utf8Lossy e.1) (· = .InternalError) (listBuckets cfg) := by
  refine Sees.callBind (c := .readDir _) trivial fun r hr => Sees.orInternal fun es hes => ?_
  refine (sees_listBucketsLoop es).mono (fun l hl => ⟨es, ?_, hl⟩) fun _ h => h
  rcases hr with hr | ⟨es', hr, hg⟩
  · rw [hr] at hes; cases hes
  · rw [hr] at hes; cases hes; exact hg

/-! ### the threads -/

theorem runParL_append (a b : List (Nat × Glance)) (ps : List (Prog α)) (fs : FS) :
    runParL cfg (a ++ b) ps fs = runParL cfg b (runParL cfg a ps fs).1 (runParL cfg a ps fs).2 := by
  induction a generalizing ps fs with
  | nil => rfl
  | cons x a ih =>
    obtain ⟨i, g⟩ := x
    simp only [List.cons_append, runParL]
    split <;> exact ih _ _

theorem stepProgL_wf {p : Prog α} {g : Glance} {fs : FS} (h : WF fs) : WF (stepProgL cfg p g fs).2 := by
  cases g with
  | look es =>
    simp only [stepProgL]
    split <;> exact h
  | stride s =>
    cases s with
    | call f => exact stepProgF_wf h
    | sweep rs =>
      simp only [stepProgL, stepProgS]
      split
      · exact execF_wf (cfg := cfg) h (.rmtree _) (.during 0 rs)
      · exact h

theorem runParL_wf {glances : List (Nat × Glance)} {ps : List (Prog α)} {fs : FS} (h : WF fs) : WF (runParL cfg glances ps fs).2 := by
  induction glances generalizing ps fs with
  | nil => exact h
  | cons x s ih =>
    obtain ⟨i, g⟩ := x
    simp only [runParL]
    split
    · exact ih h
    · exact ih (stepProgL_wf h)

theorem Spec.Glimpse.mono {P Q : FS → Prop} (h : ∀ fs, P fs → Q fs) {d : Path} {es : List (Bytes × Bool)} (hg : Glimpse P d es) : Glimpse Q d es where
  there := by obtain ⟨fs, h1, h2⟩ := hg.there; exact ⟨fs, h fs h1, h2⟩
  entry e he := by obtain ⟨fs, h1, h2⟩ := hg.entry e he; exact ⟨fs, h fs h1, h2⟩
  once n hn := hg.once n fun fs hp => hn fs (h fs hp)

theorem filter_nodup_name {es : List (Bytes × Bool)} (hn : (es.map (·.1)).Nodup) {n : Bytes} {t : Bool} (h : (n, t) ∈ es) :
    es.filter (fun e => e.1 == n) = [(n, t)] := by
  induction es with
  | nil => cases h
  | cons e es ih =>
    rw [List.map_cons, List.nodup_cons] at hn
    rcases List.mem_cons.mp h with rfl | h
    · rw [List.filter_cons_of_pos (by simp), List.filter_eq_nil_iff.mpr]
      intro e he h2
      rw [beq_iff_eq] at h2
      exact hn.1 (List.mem_map.mpr ⟨e, he, h2⟩)
    · rw [List.filter_cons_of_neg, ih hn.2 h]
      rw [beq_iff_eq]
      intro e2
      exact hn.1 (List.mem_map.mpr ⟨_, h, e2.symm⟩)

/-- a directory that is read in one step -/
theorem glimpse_now {during : FS → Prop} {fs : FS} (hw : WF fs) (hd : during fs) {d : Path} (h : fs.lookup d = some .dir) :
    Glimpse during d (dirEntries (fs.kids d)) where
  there := ⟨fs, hd, h⟩
  entry e he := ⟨fs, hd, (mem_readDir hw (t := e.2) (n := e.1)).mp he⟩
  once n hn := by
    obtain ⟨t, nd, h1, h2⟩ := hn fs hd
    refine ⟨t, filter_nodup_name ?_ ((mem_readDir hw).mpr ⟨nd, h1, h2⟩)⟩
    have := readDir_names hw d
    rw [show (fun e : Bytes × Bool => d ++ [e.1]) = (fun n => d ++ [n]) ∘ Prod.fst from rfl, ← List.map_map] at this
    exact List.Pairwise.of_map _ (fun a b hne e => hne (by rw [e])) this

/-- a call in one step -/
theorem explained_step {fs : FS} (hw : WF fs) (hj : J fs) {c : Call} (hc : Looking c) (f : Fault) : Explained cfg J c (execF cfg fs c f).1 := by
  cases c with
  | stat p =>
    cases f with
    | none => exact .inr ⟨fs, hw, hj, rfl⟩
    | _ => exact .inl rfl
  | readDir p =>
    cases f with
    | none =>
      by_cases h : fs.lookup p.comps = some .dir
      · refine .inr ⟨dirEntries (fs.kids p.comps), ?_, glimpse_now (during := fun fs => WF fs ∧ J fs) hw ⟨hw, hj⟩ h⟩
        have := congrArg Prod.fst (exec_readDir (cfg := cfg) h)
        exact this
      · refine .inl ?_
        show (exec cfg fs (.readDir p)).1 = none
        simp only [exec]
    | _ => exact .inl rfl
  | _ => exact hc.elim

theorem runParL_length (glances : List (Nat × Glance)) (ps : List (Prog α)) (fs : FS) : (runParL cfg glances ps fs).1.length = ps.length := by
  induction glances generalizing ps fs with
  | nil => rfl
  | cons x s ih =>
    obtain ⟨i, g⟩ := x
    simp only [runParL]
    split
    · exact ih _ _
    · rw [ih, List.length_set]

/-- a thread that only looks, all along -/
theorem looks_sees {w : LookEpoch} {fs : FS} (hf : w.Faithful cfg fs) (hw : WF fs) {n : Nat} {q : Prog Response} (hq : w.threads[n]? = some q)
    {R : Response → Prop} {E : S3ErrorCode → Prop} (hs : Sees cfg (w.During cfg fs n) R E q) :
    ∀ t, ∃ q', (runParL cfg (w.glances.take t) w.threads fs).1[n]? = some q' ∧ Sees cfg (w.During cfg fs n) R E q' := by
  intro t
  induction t with
  | zero => exact ⟨q, hq, hs⟩
  | succ t ih =>
    obtain ⟨q', h1, h2⟩ := ih
    rw [List.take_add_one]
    cases hg : w.glances[t]? with
    | none => rw [Option.toList_none, List.append_nil]; exact ⟨q', h1, h2⟩
    | some x =>
      obtain ⟨i, g⟩ := x
      rw [Option.toList_some, runParL_append]
      simp only [runParL]
      have hwt : WF (runParL cfg (w.glances.take t) w.threads fs).2 := runParL_wf hw
      by_cases hi : i = n
      · subst hi
        rw [h1]
        have hlt := (List.getElem?_eq_some_iff.mp h1).1
        refine ⟨(stepProgL cfg q' g (runParL cfg (w.glances.take t) w.threads fs).2).1, by simp [hlt], ?_⟩
        obtain ⟨hc1, hc2⟩ := hf.span t i g hg
        have hnow : w.During cfg fs i (runParL cfg (w.glances.take t) w.threads fs).2 := ⟨t, hc1, Nat.le_of_lt hc2, rfl⟩
        cases g with
        | look es =>
          simp only [stepProgL]
          split
          · rename_i p k
            obtain ⟨s, u, k1, k2, k3, k4, k5⟩ := hf.looks t i es p k hg h1
            refine h2.2 _ (.inr ⟨es, rfl, k5.mono ?_⟩)
            rintro fs' ⟨j, j1, j2, rfl⟩
            exact ⟨runParL_wf hw, j, by omega, by omega, rfl⟩
          · exact h2
        | stride s =>
          cases s with
          | call f =>
            cases q' with
            | sys c k => exact h2.2 _ (explained_step hwt hnow h2.1 f)
            | _ => exact h2
          | sweep rs =>
            simp only [stepProgL, stepProgS]
            split <;> exact h2
      · cases hp : (runParL cfg (w.glances.take t) w.threads fs).1[i]? with
        | none => exact ⟨q', h1, h2⟩
        | some p => exact ⟨q', by simp [hi, h1], h2⟩

/-! ### the others -/

theorem closed_looking : Closed Looking where
  read _ _ _ _ h := h.elim
  write _ _ _ _ _ h := h.elim

theorem looking_listEntries {base dir : Path} {pfx : Option Bytes} (es : List (Bytes × Bool)) :
    Safe Looking (fun _ => True) (listEntries cfg base pfx dir es) := by
  induction es with
  | nil => trivial
  | cons e es ih =>
    obtain ⟨n, d⟩ := e
    simp only [listEntries]
    split
    · exact Safe.bind ih fun _ _ => trivial
    · split
      · exact ih
      · refine Safe.callBind (c := .stat _) trivial fun r _ => Safe.orInternal fun st _ => ?_
        show Safe Looking _ (if _ then _ else _)
        split
        · exact Safe.bind ih fun _ _ => trivial
        · trivial

theorem looking_listLoop {base : Path} {pfx : Option Bytes} (fuel : Nat) (queue : List Path) :
    Safe Looking (fun _ => True) (listLoop cfg base pfx fuel queue) := by
  induction fuel generalizing queue with
  | zero => cases queue <;> trivial
  | succ fuel ih =>
    cases queue with
    | nil => trivial
    | cons d queue =>
      refine Safe.callBind (c := .readDir _) trivial fun r _ => Safe.orInternal fun es _ => ?_
      refine Safe.bind (looking_listEntries es) fun x _ => ?_
      exact Safe.bind (ih _) fun _ _ => trivial

theorem looking_listBucketsLoop (es : List (Bytes × Bool)) : Safe Looking (fun _ => True) (listBucketsLoop cfg es) := by
  induction es with
  | nil => trivial
  | cons e es ih =>
    obtain ⟨n, d⟩ := e
    simp only [listBucketsLoop]
    split
    · refine Safe.callBind (c := .stat _) trivial fun r _ => Safe.orInternal fun _ _ => ?_
      exact Safe.bind ih fun _ _ => trivial
    · exact ih

theorem looking_op {ext : Ext} {o : Op} (h : Listing o) : Safe Looking (fun _ => True) (opProg cfg ext o) := by
  cases o with
  | listBuckets =>
    refine Safe.bind (Q := fun _ => True) ?_ fun _ _ => trivial
    exact Safe.callBind (c := .readDir _) trivial fun r _ => Safe.orInternal fun es _ => looking_listBucketsLoop es
  | listObjects =>
    refine Safe.bind (Q := fun _ => True) ?_ fun _ _ => trivial
    exact Safe.orInternal fun p _ => Safe.bind (looking_listLoop _ _) fun _ _ => trivial
  | listObjectsV2 =>
    refine Safe.bind (Q := fun _ => True) ?_ fun _ _ => trivial
    refine Safe.orInternal fun p _ => Safe.bind (looking_listLoop _ _) fun _ _ => ?_
    split <;> trivial
  | _ => exact h.elim

/-- the strides of the other threads -/
def kept (L : Nat → Bool) (glances : List (Nat × Glance)) : List (Nat × Stride) :=
  glances.filterMap fun x => match x.2 with
    | .stride s => if L x.1 then none else some (x.1, s)
    | .look _ => none

theorem execF_looking {fs : FS} {c : Call} (h : Looking c) (f : Fault) : (execF cfg fs c f).2 = fs := by
  cases c with
  | stat p => cases f <;> rfl
  | readDir p =>
    have : (exec cfg fs (.readDir p)).2 = fs := by simp only [exec]; split <;> rfl
    cases f with
    | none => exact this
    | after => exact this
    | _ => rfl
  | _ => exact h.elim

/-- without the listings, the others do the same -/
theorem without_looks {L : Nat → Bool} (glances : List (Nat × Glance)) : ∀ {ps ps' : List (Prog α)} {fs : FS}, WF fs → (∀ i es, (i, .look es) ∈ glances → L i = true) →
    (∀ (i : Nat) p, L i = true → ps[i]? = some p → Safe Looking (fun _ => True) p) →
    ps'.length = ps.length → (∀ (i : Nat), L i = false → ps'[i]? = ps[i]?) →
    (runParS cfg (kept L glances) ps' fs).2 = (runParL cfg glances ps fs).2 ∧
    ∀ (i : Nat), L i = false → (runParS cfg (kept L glances) ps' fs).1[i]? = (runParL cfg glances ps fs).1[i]? := by
  induction glances with
  | nil =>
    intro ps ps' fs hw _ _ _ hN
    exact ⟨rfl, hN⟩
  | cons x glances ih =>
    obtain ⟨i, g⟩ := x
    intro ps ps' fs hw hG hL hlen hN
    have hG' : ∀ i es, (i, .look es) ∈ glances → L i = true := fun i es h => hG i es (List.mem_cons_of_mem _ h)
    cases hp : ps[i]? with
    | none =>
      have hp' : ps'[i]? = none := by rw [List.getElem?_eq_none_iff] at hp ⊢; omega
      have : runParS cfg (kept L ((i, g) :: glances)) ps' fs = runParS cfg (kept L glances) ps' fs := by
        cases g with
        | look es => rfl
        | stride s =>
          by_cases hl : L i = true
          · simp [kept, hl]
          · simp [kept, hl, runParS, hp']
      rw [this]
      simp only [runParL, hp]
      exact ih hw hG' hL hlen hN
    | some p =>
      have hlt := (List.getElem?_eq_some_iff.mp hp).1
      simp only [runParL, hp]
      cases hl : L i with
      | true =>
        have hk : kept L ((i, g) :: glances) = kept L glances := by cases g <;> simp [kept, hl]
        rw [hk]
        have hs := hL i p hl hp
        have hstep : (stepProgL cfg p g fs).2 = fs ∧ Safe Looking (fun _ => True) (stepProgL cfg p g fs).1 := by
          cases g with
          | look es =>
            simp only [stepProgL]
            split
            · exact ⟨rfl, hs.2 _ trivial⟩
            · exact ⟨rfl, hs⟩
          | stride s =>
            cases s with
            | call f =>
              cases p with
              | sys c k => exact ⟨execF_looking hs.1 f, hs.2 _ (execF_respOk hw c f)⟩
              | _ => exact ⟨rfl, hs⟩
            | sweep rs =>
              simp only [stepProgL, stepProgS]
              split
              · exact hs.1.elim
              · exact ⟨rfl, hs⟩
        rw [hstep.1]
        refine ih hw hG' (fun j q hj hq => ?_) (by rw [List.length_set]; exact hlen) (fun j hj => ?_)
        · by_cases e : i = j
          · subst e
            rw [List.getElem?_set_self hlt] at hq
            cases hq
            exact hstep.2
          · rw [List.getElem?_set_ne e] at hq
            exact hL j q hj hq
        · have e : i ≠ j := by rintro rfl; rw [hl] at hj; cases hj
          rw [List.getElem?_set_ne e]
          exact hN j hj
      | false =>
        have hp' : ps'[i]? = some p := (hN i hl).trans hp
        have hlt' : i < ps'.length := by omega
        cases g with
        | look es =>
          have := hG i es (List.mem_cons_self ..)
          rw [hl] at this
          cases this
        | stride s =>
          have hk : kept L ((i, .stride s) :: glances) = (i, s) :: kept L glances := by simp [kept, hl]
          rw [hk]
          simp only [runParS, hp', stepProgL]
          refine ih (stepProgL_wf (g := .stride s) hw) hG' (fun j q hj hq => ?_) (by rw [List.length_set, List.length_set]; exact hlen) (fun j hj => ?_)
          · have e : i ≠ j := by rintro rfl; rw [hl] at hj; cases hj
            rw [List.getElem?_set_ne e] at hq
            exact hL j q hj hq
          · by_cases e : i = j
            · subst e
              rw [List.getElem?_set_self hlt, List.getElem?_set_self hlt']
            · rw [List.getElem?_set_ne e, List.getElem?_set_ne e]
              exact hN j hj

end S3
