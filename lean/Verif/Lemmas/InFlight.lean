import Verif.Props.SameObject
import Verif.Props.Isolated
/-! Several requests that write the same bytes into the same file at the same time: the one that opened the file last writes all of them,
and the others can only help. -/
namespace S3
open Spec

variable {cfg : Cfg} {ext : Ext} {α β : Type} {P : Path} {w : Bytes}

/-- the calls of requests that write pieces of `w` to `P`, and of requests that do not touch `P` -/
def PieceCall (P : Path) (w : Bytes) : Call → Prop
  | .writeAt i off x => i.path = P → x = [] ∨ PieceAt w off x
  | .unlink p => p.comps ≠ P
  | .rmdir p => p.comps ≠ P
  | .rmtree p => ¬ p <+: P
  | _ => True

/-- no call opens `P` for writing -/
def NoOpen (P : Path) : Call → Prop
  | .create p => p.comps ≠ P
  | _ => True

/-- the file at `P` stays the same file, gets no longer than `w`, and every byte of it that is as in `w` stays so -/
def Keeps (P : Path) (w : Bytes) (a b : FS) : Prop :=
  ∀ i, a.lookup P = some (.file i) → b.lookup P = some (.file i) ∧
    (∀ n, n < w.length → (a.data i)[n]? = w[n]? → (b.data i)[n]? = w[n]?) ∧
    ((a.data i).length ≤ w.length → (b.data i).length ≤ w.length)

theorem rely_keeps (P : Path) (w : Bytes) : Rely (Keeps P w) where
  refl := fun _ _ h => ⟨h, fun _ _ h => h, fun h => h⟩
  trans := fun _ _ _ h h' i hi =>
    have h1 := h i hi
    have h2 := h' i h1.1
    ⟨h2.1, fun n hn e => h2.2.1 n hn (h1.2.1 n hn e), fun e => h2.2.2 (h1.2.2 e)⟩

theorem keeps_frame {a b : FS} (hw : WF a) (hf : Frame (· ≠ P) (fun _ => True) a b) : Keeps P w a b := by
  intro i hi
  have hd := hf.data i (fun h => h (hw.ino _ _ hi).1)
  rcases hf.node P (fun h => h rfl) with h | ⟨_, h, _⟩
  · exact ⟨h.trans hi, fun n _ e => by rw [hd]; exact e, fun e => by rw [hd]; exact e⟩
  · rw [hi] at h; cases h

theorem piece_splice {c x : Bytes} {off : Nat} (h : PieceAt w off x) (hx : x ≠ []) {n : Nat} (hc : c[n]? = w[n]?) (hn : n < w.length) :
    (splice c off x)[n]? = w[n]? := by
  rw [splice_get _ _ hx]
  have hlt : n < c.length := by
    have := List.getElem?_eq_getElem hn
    rw [this] at hc
    exact (List.getElem?_eq_some_iff.mp hc).1
  split
  · first | exact hc | rw [if_pos hlt, hc]
  · split
    · rw [← h.get (by omega)]
      congr 1
      omega
    · exact hc

theorem exec_keeps {fs : FS} (hw : WF fs) {c : Call} (h : PieceCall P w c) (hno : NoOpen P c) : Keeps P w fs (exec cfg fs c).2 := by
  have frame : writeOk (· ≠ P) (fun _ => True) c → Keeps P w fs (exec cfg fs c).2 := fun hok => keeps_frame hw (exec_frame cfg hw hok)
  cases c with
  | mkdir p => exact frame (.inl trivial)
  | create p => exact frame hno
  | writeAt j off x =>
    by_cases hp : j.path = P
    · intro i hi
      refine ⟨hi, ?_⟩
      by_cases hj : i = j
      · subst hj
        have hd : (exec cfg fs (.writeAt i off x)).2.data i = splice (fs.data i) off x := by simp [exec, FS.setData]
        rw [hd]
        rcases h hp with rfl | hpc
        · simp only [splice, if_true]
          exact ⟨fun _ _ h => h, fun h => h⟩
        · by_cases hx : x = []
          · subst hx
            simp only [splice, if_true]
            exact ⟨fun _ _ h => h, fun h => h⟩
          · refine ⟨fun n hn e => piece_splice hpc hx e hn, fun e => ?_⟩
            rw [splice_length _ _ hx]
            have := hpc.length hx
            omega
      · have hd : (exec cfg fs (.writeAt j off x)).2.data i = fs.data i := by simp [exec, FS.setData, hj]
        rw [hd]
        exact ⟨fun _ _ h => h, fun h => h⟩
    · exact frame hp
  | unlink p => exact frame h
  | rmdir p => exact frame h
  | rmtree p => exact frame (fun q hq e => h (e ▸ hq))
  | _ => exact frame trivial

/-- a program that writes pieces of `w` to `P`, and leaves `w` there once it has opened `P`, unless another opens it later -/
def Rewrites (cfg : Cfg) (P : Path) (w : Bytes) (T : Prop) : Prog α → Prop
  | .sys c k =>
    (match c, k with
      | .create p, k => p.comps = P → T ∧ ∀ fs i, WF fs → (exec cfg fs (.create p)).1 = some i →
          wp cfg (Keeps P w) (fun _ fs => contentAt fs P = some w) (k (some i)) (exec cfg fs (.create p)).2
      | _, _ => True) ∧ PieceCall P w c ∧ ∀ r, respOk c r → Rewrites cfg P w T (k r)
  | _ => True

/-- a program that does not succeed before it has opened `P` -/
def Before (P : Path) : Prog α → Prop
  | .ret _ => False
  | .sys c k =>
    (match c, k with
      | .create p, k => (p.comps = P ∧ Before P (k none)) ∨ (p.comps ≠ P ∧ ∀ r, respOk (.create p) r → Before P (k r))
      | c, k => ∀ r, respOk c r → Before P (k r))
  | _ => True

theorem opens_safe {T : Prop} {Q : α → Prop} {p : Prog α} (h : Safe (fun c => PieceCall P w c ∧ NoOpen P c) Q p) : Rewrites cfg P w T p := by
  induction p with
  | sys c k ih =>
    refine ⟨?_, h.1.1, fun r hr => ih r (h.2 r hr)⟩
    cases c <;> first | exact trivial | exact fun e => absurd e h.1.2
  | _ => trivial

theorem opens_bind {T : Prop} {Q : α → Prop} {p : Prog α} {f : α → Prog β} (h : Safe (fun c => PieceCall P w c ∧ NoOpen P c) Q p)
    (hf : ∀ a, Q a → Rewrites cfg P w T (f a)) : Rewrites cfg P w T (p.bind f) := by
  induction p with
  | ret a => exact hf a h
  | sys c k ih =>
    refine ⟨?_, h.1.1, fun r hr => ih r (h.2 r hr)⟩
    cases c <;> first | exact trivial | exact fun e => absurd e h.1.2
  | _ => trivial

theorem before_bind {ok : Call → Prop} {Q : α → Prop} {p : Prog α} {f : α → Prog β} (h : Safe ok Q p) (hno : ∀ c, ok c → NoOpen P c)
    (hf : ∀ a, Q a → Before P (f a)) : Before P (p.bind f) := by
  induction p with
  | ret a => exact hf a h
  | sys c k ih =>
    have := fun r hr => ih r (h.2 r hr)
    cases c <;> first | exact this | exact .inr ⟨hno _ h.1, this⟩
  | _ => trivial

theorem create_fails {fs : FS} {p : OsPath} (h : (exec cfg fs (.create p)).1 = none) : (exec cfg fs (.create p)).2 = fs := by
  simp only [exec] at h ⊢
  split at h
  · rename_i h0; rw [if_pos h0]
  rename_i h0
  rw [if_neg h0]
  split at h
  · rfl
  split at h
  · rfl
  · cases h
  · split at h
    · split at h
      · cases h
      · rename_i hn; simp [hn]
    · rfl

/-- some thread of `T` has opened the file last and will leave `w` -/
def Owned (cfg : Cfg) (P : Path) (w : Bytes) (T : Nat → Prop) (ps : List (Prog α)) (fs : FS) : Prop :=
  ∃ (t : Nat) (p : Prog α), ps[t]? = some p ∧ T t ∧ wp cfg (Keeps P w) (fun _ fs => contentAt fs P = some w) p fs

theorem owned_step {T : Nat → Prop} {ps : List (Prog α)} {fs : FS} (hw : WF fs) {i : Nat} {p : Prog α} (hi : ps[i]? = some p)
    (hs : Keeps P w fs (stepProg cfg p fs).2) (h : Owned cfg P w T ps fs) :
    Owned cfg P w T (ps.set i (stepProg cfg p fs).1) (stepProg cfg p fs).2 := by
  obtain ⟨t, q, ht, hT, hq⟩ := h
  have hlt : i < ps.length := (List.getElem?_eq_some_iff.mp hi).1
  by_cases e : i = t
  · subst e
    rw [hi] at ht
    cases ht
    refine ⟨i, _, List.getElem?_set_self hlt, hT, ?_⟩
    cases p with
    | sys c k => exact hq fs ((rely_keeps _ _).refl _) hw
    | _ => exact hq
  · exact ⟨t, q, by rw [List.getElem?_set_ne e]; exact ht, hT, wp_rely (rely_keeps _ _) hq hs⟩

/-- In every interleaving: as soon as the thread `n` can succeed, some thread has opened the file last and will leave `w`. -/
theorem last_opener {T : Nat → Prop} {n : Nat} {sched : List Nat} {ps : List (Prog α)} {fs : FS} (hw : WF fs)
    (hU : ∀ j p, ps[j]? = some p → Rewrites cfg P w (T j) p)
    (hn : (∀ p, ps[n]? = some p → Before P p) ∨ Owned cfg P w T ps fs) :
    (∀ p, (runPar cfg sched ps fs).1[n]? = some p → Before P p) ∨ Owned cfg P w T (runPar cfg sched ps fs).1 (runPar cfg sched ps fs).2 := by
  induction sched generalizing ps fs with
  | nil => exact hn
  | cons i s ih =>
    simp only [runPar]
    split
    · exact ih hw hU hn
    · rename_i p hi
      have hlt : i < ps.length := (List.getElem?_eq_some_iff.mp hi).1
      refine ih (stepProg_wf hw) ?_ ?_
      · intro j q hq
        by_cases hj : i = j
        · subst hj
          rw [List.getElem?_set_self hlt] at hq
          cases hq
          have := hU i p hi
          cases p with
          | sys c k => exact this.2.2 _ (exec_respOk cfg hw c)
          | _ => exact this
        · rw [List.getElem?_set_ne hj] at hq
          exact hU j q hq
      · have hu := hU i p hi
        have keep (hk : Keeps P w fs (stepProg cfg p fs).2) (hb : i = n → Before P p → Before P (stepProg cfg p fs).1) :
            (∀ q, (ps.set i (stepProg cfg p fs).1)[n]? = some q → Before P q) ∨
              Owned cfg P w T (ps.set i (stepProg cfg p fs).1) (stepProg cfg p fs).2 := by
          rcases hn with hn | hn
          · refine .inl fun q hq => ?_
            by_cases e : i = n
            · subst e
              rw [List.getElem?_set_self hlt] at hq
              cases hq
              exact hb rfl (hn p hi)
            · rw [List.getElem?_set_ne e] at hq
              exact hn q hq
          · exact .inr (owned_step hw hi hk hn)
        cases p with
        | sys c k =>
          have hr := exec_respOk cfg hw c
          cases c with
          | create q =>
            by_cases hq : q.comps = P
            · cases hc : (exec cfg fs (.create q)).1 with
              | none =>
                refine keep ?_ ?_
                · show Keeps P w fs (exec cfg fs (.create q)).2
                  rw [create_fails hc]
                  exact (rely_keeps P w).refl _
                · intro _ hbef
                  show Before P (k (exec cfg fs (.create q)).1)
                  rw [hc]
                  rcases hbef with h | h
                  · exact h.2
                  · exact absurd hq h.1
              | some ino =>
                have := (hu.1 hq)
                refine .inr ⟨i, _, List.getElem?_set_self hlt, this.1, ?_⟩
                show wp cfg _ _ (k (exec cfg fs (.create q)).1) _
                rw [hc]
                exact this.2 fs ino hw hc
            · refine keep (exec_keeps hw hu.2.1 hq) ?_
              intro _ hbef
              rcases hbef with h | h
              · exact absurd h.1 hq
              · exact h.2 _ hr
          | _ => exact keep (exec_keeps hw hu.2.1 trivial) (fun _ h => h _ hr)
        | _ => exact keep ((rely_keeps P w).refl _) (fun _ h => h)

/-! ### the programs -/

theorem wp_copyBytes {ino : Ino} {body : Body} (hu : unbroken body) : ∀ {off : Nat} {fs : FS},
    fs.lookup P = some (.file ino) → (fs.data ino).length ≤ w.length → (∀ n, n < off → (fs.data ino)[n]? = w[n]?) →
    off ≤ w.length → w.drop off = received body →
    wp cfg (Keeps P w) (fun _ fs => contentAt fs P = some w) (copyBytes ino off body) fs := by
  induction body with
  | nil =>
    intro off fs hl hlen hpre hoff hd fs' hk hw'
    obtain ⟨h1, h2, h3⟩ := hk ino hl
    simp only [contentAt, h1]
    have : off = w.length := by
      have := congrArg List.length hd
      simp only [received, List.length_drop, List.length_nil] at this
      omega
    subst this
    congr 1
    apply List.ext_getElem?
    intro n
    by_cases hn : n < w.length
    · exact h2 n hn (hpre n hn)
    · rw [List.getElem?_eq_none (by omega), List.getElem?_eq_none (by have := h3 hlen; omega)]
  | cons x rest ih =>
    intro off fs hl hlen hpre hoff hd
    cases x with
    | none => exact absurd hu (by simp [unbroken])
    | some b =>
      have hu' : unbroken rest := by simpa [unbroken] using hu
      simp only [received] at hd
      simp only [copyBytes]
      split
      · rename_i hb
        subst hb
        exact ih hu' hl hlen hpre hoff (by simpa using hd)
      · rename_i hb
        refine wp_call fun fs' hk hw' => ?_
        obtain ⟨h1, h2, h3⟩ := hk ino hl
        have hpc : PieceAt w off b := ⟨received rest, hd⟩
        have hdat : (exec cfg fs' (.writeAt ino off b)).2.data ino = splice (fs'.data ino) off b := by simp [exec, FS.setData]
        have hle := hpc.length hb
        have hfin := ih hu' (off := off + b.length) (fs := (exec cfg fs' (.writeAt ino off b)).2) h1
          (by rw [hdat, splice_length _ _ hb]; have := h3 hlen; omega)
          (by
            intro n hn
            rw [hdat]
            by_cases hlt : n < off
            · exact piece_splice hpc hb (h2 n (by omega) (hpre n hlt)) (by omega)
            · rw [splice_get _ _ hb, if_neg hlt, if_pos hn, ← hpc.get (by omega)]
              congr 1
              omega)
          hle
          (by rw [← List.drop_drop, hd, List.drop_left])
        show wp cfg _ _ ((copyBytes ino (off + b.length) rest).bind fun r => .ret (b ++ r)) _
        refine wp_bind (rely_keeps _ _) (exec_wf cfg hw' _) (wp_mono ?_ hfin)
        intro o fs2 hw2 hq
        cases o with
        | ok a =>
          intro fs3 hk3 _
          unfold contentAt at hq ⊢
          split at hq
          · rename_i j hj
            obtain ⟨g1, g2, g3⟩ := hk3 j hj
            cases hq
            rw [g1]
            simp only
            congr 1
            apply List.ext_getElem?
            intro n
            by_cases hn : n < (fs2.data j).length
            · exact g2 n hn rfl
            · rw [List.getElem?_eq_none (by omega), List.getElem?_eq_none (by have := g3 (Nat.le_refl _); omega)]
          · cases hq
        | _ => exact hq

theorem keeps_content {a b : FS} (h : Keeps P w a b) (hc : contentAt a P = some w) : contentAt b P = some w := by
  unfold contentAt at hc ⊢
  split at hc
  · rename_i j hj
    obtain ⟨g1, g2, g3⟩ := h j hj
    cases hc
    rw [g1]
    simp only
    congr 1
    apply List.ext_getElem?
    intro n
    by_cases hn : n < (a.data j).length
    · exact g2 n hn rfl
    · rw [List.getElem?_eq_none (by omega), List.getElem?_eq_none (by have := g3 (Nat.le_refl _); omega)]
  · cases hc

/-- after `w` is there, calls that do not open the file keep it -/
theorem wp_keep {Q : α → Prop} {p : Prog α} (h : Safe (fun c => PieceCall P w c ∧ NoOpen P c) Q p) {fs : FS} (hc : contentAt fs P = some w) :
    wp cfg (Keeps P w) (fun _ fs => contentAt fs P = some w) p fs :=
  wp_inv h (J := fun fs => contentAt fs P = some w) (fun _ _ hw hj hok => keeps_content (exec_keeps hw hok.1 hok.2) hj)
    (fun _ _ hr hj => keeps_content hr hj) hc (fun _ _ hj _ => hj)

theorem safe_piece_dir (d : Path) : Safe (fun c => PieceCall P w c ∧ NoOpen P c) (fun _ => True) (createDirAll d) := by
  refine (safe_createDirAll (π := { st := fun _ => True, up := fun _ => True }) d fun _ _ => ⟨trivial, trivial⟩).mono ?_
    fun _ h => h
  intro c hc
  cases c <;> first | exact ⟨trivial, trivial⟩ | exact absurd hc (fun h => h)

theorem safe_piece_meta {b k : Bytes} {m : Option Meta} (h : cfg.root ++ [metadataName b k] ≠ P) :
    Safe (fun c => PieceCall P w c ∧ NoOpen P c) (fun _ => True) (saveOptional cfg ext b k m) := by
  cases m with
  | none => trivial
  | some m =>
    refine (safe_saveMetadata (π := { wr := (· ≠ P) }) fun q hq => by rw [hq]; exact h).mono ?_ fun _ h => h
    intro c hc
    cases c <;> first
      | exact ⟨trivial, trivial⟩ | exact absurd hc (fun h => h) | exact ⟨fun h => absurd h hc, trivial⟩ | exact ⟨trivial, hc⟩

/-- a body that is written to `P` or elsewhere -/
theorem safe_piece_copy {ino : Ino} {body : Body} : ∀ {off : Nat}, (ino.path = P → PieceAt w off (received body)) →
    Safe (fun c => PieceCall P w c ∧ NoOpen P c) (fun _ => True) (copyBytes ino off body) := by
  induction body with
  | nil => intro off _; trivial
  | cons x rest ih =>
    intro off h
    cases x with
    | none => trivial
    | some b =>
      simp only [copyBytes]
      split
      · rename_i hb
        subst hb
        exact ih (fun e => by simpa [received] using h e)
      · refine Safe.callBind ⟨fun e => .inr ?_, trivial⟩ fun r _ => ?_
        · obtain ⟨t, ht⟩ := h e
          exact ⟨received rest ++ t, by simpa [received] using ht⟩
        · cases r with
          | false => trivial
          | true =>
            refine Safe.bind (ih fun e => ?_) fun _ _ => trivial
            obtain ⟨t, ht⟩ := h e
            refine ⟨t, ?_⟩
            rw [← List.drop_drop, ht]
            simp [received, List.append_assoc]

theorem opens_put {i : PutInput} {cs : List Bytes} (hb : checkBucketName i.bucket = true) (hk : PlainKey i.key cs)
    (hw : ∀ body, i.body = some body → unbroken body ∧ received body = w) :
    Rewrites cfg (cfg.root ++ i.bucket :: cs) w True (putObject cfg ext i) := by
  rcases putObject_shape (cfg := cfg) (ext := ext) hb hk with ⟨e, he⟩ | ⟨body, h1, h2⟩
  · rw [he]; trivial
  · rw [h2]
    obtain ⟨hu, hr⟩ := hw body h1
    have hmeta : cfg.root ++ [metadataName i.bucket i.key] ≠ cfg.root ++ i.bucket :: cs := by
      intro e
      exact meta_not_prefix (cfg := cfg) (b := i.bucket) (k := i.key) (cs := cs) hb ⟨[], by rw [List.append_nil]; exact e⟩
    have hrest : ∀ c, Safe (fun c => PieceCall (cfg.root ++ i.bucket :: cs) w c ∧ NoOpen (cfg.root ++ i.bucket :: cs) c) (fun _ => True)
        ((saveOptional cfg ext i.bucket i.key i.metadata).bind fun _ => .ret (some (quoted (ext.md5hex c)))) :=
      fun c => Safe.bind (safe_piece_meta hmeta) fun _ _ => trivial
    refine opens_bind (safe_piece_dir _) fun _ _ => ⟨fun _ => ⟨trivial, ?_⟩, trivial, ?_⟩
    · intro fs ino hwf hc
      have hh := (exec_create_snd (cfg := cfg) hc).1
      show wp cfg _ _ ((copyBytes ino 0 body).bind _) _
      refine wp_bind (rely_keeps _ _) (exec_wf cfg hwf _) (wp_mono ?_
        (wp_copyBytes (w := w) hu (off := 0) hh.node (by rw [hh.data]; simp) (fun n hn => by omega) (by omega) (by rw [hr]; rfl)))
      intro o fs' _ hq
      cases o with
      | ok a => exact wp_keep (hrest a) hq
      | _ => exact hq
    · intro r _
      exact opens_safe (Q := fun _ => True)
        (Safe.orInternal fun ino _ => Safe.bind (safe_piece_copy fun _ => ⟨[], by rw [hr]; simp⟩) fun _ _ => hrest _)

theorem before_put {i : PutInput} {cs : List Bytes} (hb : checkBucketName i.bucket = true) (hk : PlainKey i.key cs) :
    Before (cfg.root ++ i.bucket :: cs) (putObject cfg ext i) := by
  rcases putObject_shape (cfg := cfg) (ext := ext) hb hk with ⟨e, he⟩ | ⟨body, h1, h2⟩
  · rw [he]; trivial
  · rw [h2]
    exact before_bind (safe_piece_dir (w := []) _) (fun _ h => h.2) fun _ _ => .inl ⟨rfl, trivial⟩

theorem opens_put_meta {i : PutInput} {cs : List Bytes} (hb : checkBucketName i.bucket = true) (hk : PlainKey i.key cs)
    (hw : ∀ m, i.metadata = some m → ext.metaEnc m = w) :
    Rewrites cfg (metaFile cfg i.bucket i.key) w True (putObject cfg ext i) := by
  rcases putObject_shape (cfg := cfg) (ext := ext) hb hk with ⟨e, he⟩ | ⟨body, h1, h2⟩
  · rw [he]; trivial
  · rw [h2]
    have hmeta : cfg.root ++ i.bucket :: cs ≠ metaFile cfg i.bucket i.key := by
      intro e
      exact meta_not_prefix (cfg := cfg) (b := i.bucket) (k := i.key) (cs := cs) hb ⟨[], by rw [List.append_nil]; exact e.symm⟩
    refine opens_bind (safe_piece_dir _) fun _ _ => ?_
    refine opens_bind (Q := fun r => ∀ j : Ino, r = some j → j.path = cfg.root ++ i.bucket :: cs)
      (p := call (.create ⟨cfg.root ++ i.bucket :: cs, false⟩)) ⟨⟨trivial, hmeta⟩, fun r hr => hr⟩ fun r hr => ?_
    cases r with
    | none => trivial
    | some ino =>
    refine opens_bind (p := copyBytes ino 0 body) (Q := fun _ => True)
      (safe_piece_copy fun e => absurd (e.symm.trans (hr _ rfl)) (fun e => hmeta e.symm)) fun content _ => ?_
    cases hm : i.metadata with
    | none => trivial
    | some m =>
      simp only [saveOptional, saveMetadata, metadataPath_eq]
      have hwm := hw m hm
      refine ⟨fun _ => ⟨trivial, ?_⟩, trivial, ?_⟩
      · intro fs j hwf hc
        have hh := (exec_create_snd (cfg := cfg) hc).1
        intro fs' hk' hw'
        obtain ⟨g1, g2, g3⟩ := hk' j hh.node
        have hlen : (fs'.data j).length ≤ w.length := g3 (by rw [hh.data]; simp)
        have hcon : contentAt (exec cfg fs' (.writeAt j 0 (ext.metaEnc m))).2 (metaFile cfg i.bucket i.key) = some w := by
          refine (contentAt_setData g1).trans ?_
          rw [hwm]
          by_cases hne : w = []
          · subst hne
            simp only [splice, if_true]
            have : fs'.data j = [] := List.length_eq_zero_iff.mp (by simpa using hlen)
            rw [this]
          · congr 1
            simp [splice, hne, List.drop_eq_nil_of_le hlen]
        exact fun fs2 hk2 _ => keeps_content hk2 hcon
      · intro r hr2
        cases r with
        | none => trivial
        | some j =>
          refine opens_safe (Q := fun _ => True) ⟨⟨fun _ => .inr ⟨[], by rw [hwm]; simp⟩, trivial⟩, fun r _ => ?_⟩
          cases r <;> trivial

theorem before_put_meta {i : PutInput} {cs : List Bytes} (hb : checkBucketName i.bucket = true) (hk : PlainKey i.key cs) {m : Meta}
    (hm : i.metadata = some m) : Before (metaFile cfg i.bucket i.key) (putObject cfg ext i) := by
  rcases putObject_shape (cfg := cfg) (ext := ext) hb hk with ⟨e, he⟩ | ⟨body, h1, h2⟩
  · rw [he]; trivial
  · rw [h2]
    have hmeta : cfg.root ++ i.bucket :: cs ≠ metaFile cfg i.bucket i.key := by
      intro e
      exact meta_not_prefix (cfg := cfg) (b := i.bucket) (k := i.key) (cs := cs) hb ⟨[], by rw [List.append_nil]; exact e.symm⟩
    refine before_bind (safe_piece_dir (w := []) _) (fun _ h => h.2) fun _ _ => .inr ⟨hmeta, fun r hr => ?_⟩
    cases r with
    | none => trivial
    | some ino =>
    refine before_bind (p := copyBytes ino 0 body) (Q := fun _ => True) (P := metaFile cfg i.bucket i.key)
      (safe_piece_copy (w := []) fun e => absurd (e.symm.trans (hr _ rfl)) (fun e => hmeta e.symm)) (fun _ h => h.2) fun content _ => ?_
    simp only [hm, saveOptional, saveMetadata, metadataPath_eq]
    exact .inl ⟨rfl, trivial⟩

/-- requests on other addresses -/
theorem opens_away {o : Op} {b k : Bytes} {cs : List Bytes} (hb : checkBucketName b = true) (hk : PlainKey k cs)
    (ho : OnOthers b (Away b k) o) {T : Prop} {q : Path} (hq : q = cfg.root ++ b :: cs ∨ q = metaFile cfg b k) :
    Rewrites cfg q w T (opProg cfg ext o) := by
  refine opens_safe (Q := fun _ => True) ((op_safe cfg ext o).mono ?_ fun _ _ => trivial)
  intro c hc
  have := away_ok (cfg := cfg) hb hk ho hc
  cases c with
  | writeAt j off x => exact ⟨fun e => absurd (e ▸ hq) this, trivial⟩
  | unlink p => exact ⟨fun e => this (e ▸ hq), trivial⟩
  | rmdir p => exact ⟨fun e => this (e ▸ hq), trivial⟩
  | rmtree p => exact ⟨fun e => this _ e hq, trivial⟩
  | create p => exact ⟨trivial, fun e => this (e ▸ hq)⟩
  | _ => exact ⟨trivial, trivial⟩

/-- the answer of PutObject as a step after it -/
theorem opens_map {T : Prop} {p : Prog α} (f : α → β) (h : Rewrites cfg P w T p) : Rewrites cfg P w T (p.bind fun a => .ret (f a)) := by
  induction p with
  | sys c k ih =>
    refine ⟨?_, h.2.1, fun r hr => ih r (h.2.2 r hr)⟩
    have h1 := h.1
    cases c with
    | create q =>
      intro e
      refine ⟨(h1 e).1, fun fs i hw hc => ?_⟩
      refine wp_bind (rely_keeps _ _) (exec_wf cfg hw _) (wp_mono ?_ ((h1 e).2 fs i hw hc))
      intro o fs' _ hq
      cases o with
      | ok a => exact fun fs2 hk2 _ => keeps_content hk2 hq
      | _ => exact hq
    | _ => trivial
  | _ => trivial

theorem before_map {p : Prog α} (f : α → β) (h : Before P p) : Before P (p.bind fun a => .ret (f a)) := by
  induction p with
  | ret a => exact h
  | sys c k ih =>
    cases c with
    | create q =>
      rcases h with ⟨h1, h2⟩ | ⟨h1, h2⟩
      · exact .inl ⟨h1, ih _ h2⟩
      · exact .inr ⟨h1, fun r hr => ih r (h2 r hr)⟩
    | _ => exact fun r hr => ih r (h r hr)
  | _ => trivial

theorem opens_weaken {T T' : Prop} (hT : T → T') {p : Prog α} (h : Rewrites cfg P w T p) : Rewrites cfg P w T' p := by
  induction p with
  | sys c k ih =>
    refine ⟨?_, h.2.1, fun r hr => ih r (h.2.2 r hr)⟩
    have h1 := h.1
    cases c with
    | create q => exact fun e => ⟨hT (h1 e).1, (h1 e).2⟩
    | _ => trivial
  | _ => trivial

/-- when `n` has succeeded and all that open the file have ended, the file holds `w` -/
theorem settled {T : Nat → Prop} {n : Nat} {sched : List Nat} {ps : List (Prog α)} {fs : FS} (hw : WF fs)
    (hU : ∀ j p, ps[j]? = some p → Rewrites cfg P w (T j) p) (hn : ∀ p, ps[n]? = some p → Before P p) {a : α}
    (ha : ((runPar cfg sched ps fs).1[n]?.bind Prog.outcome) = some (.ok a))
    (hall : ∀ j, T j → ∀ p, (runPar cfg sched ps fs).1[j]? = some p → p.outcome ≠ none) :
    contentAt (runPar cfg sched ps fs).2 P = some w := by
  rcases last_opener (sched := sched) (n := n) hw hU (.inl hn) with h | ⟨t, p, hp, hT, hwp⟩
  · simp only [Option.bind_eq_some_iff] at ha
    obtain ⟨p, hp, ho⟩ := ha
    have := h p hp
    cases p <;> simp [Prog.outcome] at ho
    exact absurd this (fun h => h)
  · cases ho : p.outcome with
    | none => exact absurd ho (hall t hT p hp)
    | some o => exact wp_done (rely_keeps _ _) (runPar_wf hw) hwp ho

/-! ### parts -/

theorem opens_part {u : Bytes} {n : Int} {body : Option Body} (hu : (47 : UInt8) ∉ u)
    (hw : ∀ x, body = some x → unbroken x ∧ received x = w) : Rewrites cfg (partFile cfg u n) w True (uploadPart cfg ext u n body) := by
  cases body with
  | none => trivial
  | some body =>
    obtain ⟨hun, hr⟩ := hw body rfl
    simp only [uploadPart, partPath_eq cfg hu]
    refine ⟨fun _ => ⟨trivial, ?_⟩, trivial, ?_⟩
    · intro fs ino hwf hc
      have hh := (exec_create_snd (cfg := cfg) hc).1
      show wp cfg _ _ ((copyBytes ino 0 body).bind _) _
      refine wp_bind (rely_keeps _ _) (exec_wf cfg hwf _) (wp_mono ?_
        (wp_copyBytes (w := w) hun (off := 0) hh.node (by rw [hh.data]; simp) (fun n hn => by omega) (by omega) (by rw [hr]; rfl)))
      intro o fs' _ hq
      cases o with
      | ok a => exact fun fs2 hk2 _ => keeps_content hk2 hq
      | _ => exact hq
    · intro r _
      exact opens_safe (Q := fun _ => True)
        (Safe.orInternal fun ino _ => Safe.bind (safe_piece_copy fun _ => ⟨[], by rw [hr]; simp⟩) fun _ _ => trivial)

theorem before_part {u : Bytes} {n : Int} {body : Option Body} (hu : (47 : UInt8) ∉ u) :
    Before (partFile cfg u n) (uploadPart cfg ext u n body) := by
  cases body with
  | none => trivial
  | some body =>
    simp only [uploadPart, partPath_eq cfg hu]
    exact .inl ⟨rfl, trivial⟩

theorem opens_tidy {o : Op} {u : Bytes} {n : Int} (ht : Tidy o) (hn : ¬ UsesPart o u n) {T : Prop} :
    Rewrites cfg (partFile cfg u n) w T (opProg cfg ext o) := by
  refine opens_safe (Q := fun _ => True) ((op_safe cfg ext o).mono ?_ fun _ _ => trivial)
  intro c hc
  have := tidy_ok (cfg := cfg) ht hc
  have weak : ∀ {q}, ¬ (q <+: cfg.root ∨ ∃ u n, ¬ UsesPart o u n ∧ q = partFile cfg u n) → q ≠ partFile cfg u n :=
    fun h e => h (.inr ⟨u, n, hn, e⟩)
  cases c with
  | writeAt j off x => exact ⟨fun e => absurd e (weak this), trivial⟩
  | unlink p => exact ⟨weak this, trivial⟩
  | rmdir p => exact ⟨weak this, trivial⟩
  | rmtree p => exact ⟨fun e => weak (this _ e) rfl, trivial⟩
  | create p => exact ⟨trivial, weak this⟩
  | _ => exact ⟨trivial, trivial⟩

end S3
