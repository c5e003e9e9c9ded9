import Verif.Lemmas.Put
import Verif.Lemmas.OpSafe
import Verif.Spec.Object
import Verif.Spec.Elsewhere
import Verif.Props.Concurrent
/-! Several uploads to one file at the same time. -/
namespace S3
open Spec

/-- `x` stands in `whole` at `off` -/
def PieceAt (whole : Bytes) (off : Nat) (x : Bytes) : Prop := ∃ t, whole.drop off = x ++ t

theorem splice_get (old : Bytes) (off : Nat) {b : Bytes} (hb : b ≠ []) (n : Nat) :
    (splice old off b)[n]? =
      if n < off then (if n < old.length then old[n]? else some 0)
      else if n < off + b.length then b[n - off]? else old[n]? := by
  unfold splice
  rw [if_neg hb]
  by_cases h1 : n < off
  · rw [if_pos h1, List.getElem?_append_left (by simp; omega), List.getElem?_append_left (by simp; omega)]
    by_cases h2 : n < old.length
    · rw [if_pos h2, List.getElem?_append_left (by simp; omega), List.getElem?_take, if_pos h1]
    · rw [if_neg h2, List.getElem?_append_right (by simp; omega), List.getElem?_replicate, if_pos (by simp; omega)]
  · rw [if_neg h1]
    have hl : (old.take off ++ List.replicate (off - old.length) (0 : UInt8)).length = off := by simp; omega
    by_cases h2 : n < off + b.length
    · rw [if_pos h2, List.getElem?_append_left (by rw [List.length_append, hl]; exact h2),
        List.getElem?_append_right (by omega), hl]
    · rw [if_neg h2, List.getElem?_append_right (by rw [List.length_append, hl]; omega), List.length_append, hl,
        List.getElem?_drop]
      congr 1
      omega

theorem splice_length (old : Bytes) (off : Nat) {b : Bytes} (hb : b ≠ []) :
    (splice old off b).length = max old.length (off + b.length) := by
  simp [splice, hb]; omega

theorem PieceAt.get {w : Bytes} {off : Nat} {x : Bytes} (h : PieceAt w off x) {n : Nat} (hn : n < x.length) :
    w[off + n]? = x[n]? := by
  obtain ⟨t, ht⟩ := h
  rw [← List.getElem?_drop, ht, List.getElem?_append_left hn]

theorem PieceAt.length {w : Bytes} {off : Nat} {x : Bytes} (h : PieceAt w off x) (hx : x ≠ []) :
    off + x.length ≤ w.length := by
  obtain ⟨t, ht⟩ := h
  have := congrArg List.length ht
  simp at this
  have : 0 < x.length := List.length_pos_iff.mpr hx
  omega

theorem Spec.Mixed.splice {bodies : List Bytes} {c w x : Bytes} {off : Nat} (h : Mixed bodies c) (hw : w ∈ bodies)
    (hp : PieceAt w off x) (hx : x ≠ []) : Mixed bodies (S3.splice c off x) := by
  constructor
  · intro n y hy
    rw [splice_get _ _ hx] at hy
    split at hy
    · split at hy
      · exact h.byte n y hy
      · cases hy; exact .inl rfl
    · split at hy
      · refine .inr ⟨w, hw, ?_⟩
        rw [← hy, ← hp.get (by omega)]
        congr 1
        omega
      · exact h.byte n y hy
  · right
    have := hp.length hx
    rw [splice_length _ _ hx]
    rcases h.len with rfl | ⟨b, hb, hl⟩
    · exact ⟨w, hw, by simp; omega⟩
    · by_cases hlt : b.length ≤ w.length
      · exact ⟨w, hw, by omega⟩
      · exact ⟨b, hb, by omega⟩

/-- the calls of requests that upload to `P` pieces of `bodies`, and of requests that do not touch `P` -/
def MixCall (P : Path) (bodies : List Bytes) : Call → Prop
  | .mkdir _ => True
  | .create _ => True
  | .writeAt i off x => i.path = P → x ≠ [] ∧ ∃ w ∈ bodies, PieceAt w off x
  | .unlink p => p.comps ≠ P
  | .rmdir p => p.comps ≠ P
  | .rmtree p => ¬ p <+: P
  | _ => True

/-- there is a file at `P` that holds a mixture -/
def MixFile (P : Path) (bodies : List Bytes) (fs : FS) : Prop := ∃ c, contentAt fs P = some c ∧ Mixed bodies c

theorem Spec.Mixed.nil (bodies : List Bytes) : Mixed bodies [] := ⟨fun n x h => by simp at h, .inl rfl⟩

theorem mix_frame {P : Path} {bodies : List Bytes} {a b : FS} (hw : WF a) (hf : Frame (· ≠ P) (fun _ => True) a b)
    (h : MixFile P bodies a) : MixFile P bodies b := by
  obtain ⟨c, hc, hm⟩ := h
  refine ⟨c, ?_, hm⟩
  unfold contentAt at hc ⊢
  split at hc
  · rename_i i hi
    rcases hf.node P (fun h => h rfl) with h | ⟨_, h, _⟩
    · rw [h, hi]
      simp only
      rw [hf.data i (fun h => h (hw.ino _ _ hi).1)]
      exact hc
    · rw [hi] at h; cases h
  · cases hc

theorem contentAt_setData {fs : FS} {P : Path} {i : Ino} {b : Bytes} (hi : fs.lookup P = some (.file i)) :
    contentAt (fs.setData i b) P = some b := by
  have : (fs.setData i b).lookup P = some (.file i) := hi
  simp only [contentAt, this]
  simp [FS.setData]

theorem mix_exec {cfg : Cfg} {P : Path} {bodies : List Bytes} {fs : FS} {c : Call} (hw : WF fs) (h : MixFile P bodies fs)
    (hc : MixCall P bodies c) : MixFile P bodies (exec cfg fs c).2 := by
  have frame : writeOk (· ≠ P) (fun _ => True) c → MixFile P bodies (exec cfg fs c).2 :=
    fun hok => mix_frame hw (exec_frame cfg hw hok) h
  obtain ⟨x, hx, hm⟩ := h
  have hfile : ∃ i, fs.lookup P = some (.file i) ∧ fs.data i = x := by
    unfold contentAt at hx
    split at hx
    · rename_i i hi; exact ⟨i, hi, by simpa using hx⟩
    · cases hx
  obtain ⟨i, hi, hd⟩ := hfile
  cases c with
  | mkdir p => exact frame (.inl trivial)
  | create p =>
    by_cases hp : p.comps = P
    · simp only [exec]
      split
      · exact ⟨x, hx, hm⟩
      · split
        · exact ⟨x, hx, hm⟩
        · rw [hp, hi]
          exact ⟨[], contentAt_setData hi, Mixed.nil _⟩
    · exact frame hp
  | writeAt j off b =>
    by_cases hp : j.path = P
    · by_cases hj : j = i
      · subst hj
        obtain ⟨hne, w, hwm, hpc⟩ := hc hp
        exact ⟨_, contentAt_setData hi, by rw [hd]; exact hm.splice hwm hpc hne⟩
      · refine ⟨x, ?_, hm⟩
        have hl : (exec cfg fs (.writeAt j off b)).2.lookup P = some (.file i) := hi
        simp only [contentAt, hl]
        simp only [exec, FS.setData]
        rw [if_neg (fun e => hj e.symm), hd]
    · exact frame hp
  | unlink p => exact frame hc
  | rmdir p => exact frame hc
  | rmtree p => exact frame (fun q hq e => hc (e ▸ hq))
  | _ => exact frame trivial

/-- after `open` with create, the file is empty -/
theorem mix_create {cfg : Cfg} {P : OsPath} {bodies : List Bytes} {fs : FS} {i : Ino}
    (h : (exec cfg fs (.create P)).1 = some i) : MixFile P.comps bodies (exec cfg fs (.create P)).2 := by
  refine ⟨[], ?_, Mixed.nil _⟩
  simp only [exec] at h ⊢
  split at h; · cases h
  rename_i h0
  rw [if_neg h0]
  split at h; · cases h
  rename_i c hcl
  split at h
  · cases h
  · rename_i j hj
    exact contentAt_setData hj
  · rename_i hnone
    split at h
    · rename_i hdir
      split at h
      · rename_i hn
        simp only [hn, if_true]
        have hne : P.comps ≠ [] := by intro e; rw [e] at hcl; cases hcl
        simp [contentAt, FS.lookup, FS.bump, FS.setData, FS.set, hne]
      · cases h
    · cases h

variable {cfg : Cfg} {ext : Ext} {P : Path}

theorem safe_pieces {bodies : List Bytes} {w : Bytes} (hw : w ∈ bodies) (ino : Ino) (body : Body) (off : Nat)
    (h : PieceAt w off (received body)) :
    Safe (MixCall P bodies) (fun c => unbroken body ∧ c = received body) (copyBytes ino off body) := by
  induction body generalizing off with
  | nil => exact ⟨by simp [unbroken], rfl⟩
  | cons x rest ih =>
    cases x with
    | none => trivial
    | some b =>
      obtain ⟨t, ht⟩ := h
      simp only [received] at ht
      simp only [copyBytes]
      split
      · rename_i hb
        subst hb
        refine (ih off ⟨t, by simpa using ht⟩).mono (fun _ h => h) ?_
        rintro c ⟨h1, h2⟩
        exact ⟨by simpa [unbroken] using h1, by simpa [received] using h2⟩
      · rename_i hb
        refine Safe.callBind (fun _ => ⟨hb, w, hw, received rest ++ t, by rw [ht, List.append_assoc]⟩) fun r _ => ?_
        cases r with
        | false => trivial
        | true =>
        refine Safe.bind (ih (off + b.length) ⟨t, ?_⟩) ?_
        · rw [← List.drop_drop, ht, List.append_assoc, List.drop_left]
        · rintro c ⟨h1, h2⟩
          exact ⟨by simpa [unbroken] using h1, by rw [h2]; rfl⟩

theorem safe_mixMeta {bodies : List Bytes} {b k : Bytes} {m : Option Meta} (h : cfg.root ++ [metadataName b k] ≠ P) :
    Safe (MixCall P bodies) (fun _ => True) (saveOptional cfg ext b k m) := by
  cases m with
  | none => trivial
  | some m =>
    refine (safe_saveMetadata (π := { wr := (· ≠ P) }) fun q hq => by rw [hq]; exact h).mono ?_ fun _ h => h
    intro c hc
    cases c <;> first | exact trivial | exact absurd hc (fun h => h) | exact fun h => absurd h hc

theorem safe_mixDir {bodies : List Bytes} (d : Path) : Safe (MixCall P bodies) (fun _ => True) (createDirAll d) := by
  refine (safe_createDirAll (π := { st := fun _ => True, up := fun _ => True }) d fun _ _ => ⟨trivial, trivial⟩).mono ?_
    fun _ h => h
  intro c hc
  cases c <;> first | exact trivial | exact absurd hc (fun h => h)

/-- the part of PutObject after the creation of the directories -/
def putTail (cfg : Cfg) (ext : Ext) (i : PutInput) (body : Body) (p : OsPath) : Prog (Option Bytes) :=
  (call (.create p)).bind fun r => (orInternal r).bind fun ino => (copyBytes ino 0 body).bind fun content =>
    (saveOptional cfg ext i.bucket i.key i.metadata).bind fun _ => .ret (some (quoted (ext.md5hex content)))

theorem putObject_shape {i : PutInput} {cs : List Bytes} (hb : checkBucketName i.bucket = true) (hk : PlainKey i.key cs) :
    (∃ e, putObject cfg ext i = .fail e) ∨
    ∃ body, i.body = some body ∧ putObject cfg ext i =
      (createDirAll (cfg.root ++ i.bucket :: cs).dropLast).bind fun _ =>
        putTail cfg ext i body ⟨cfg.root ++ i.bucket :: cs, false⟩ := by
  unfold putObject
  split
  · exact .inl ⟨_, rfl⟩
  · split
    · exact .inl ⟨_, rfl⟩
    · rename_i body hbody
      rw [plain_no_slash hk]
      refine .inr ⟨body, hbody, ?_⟩
      simp only [objectPath_plain cfg hb hk, Bool.false_eq_true, if_false]
      simp [orInternal, bind_eq, pure_eq, Prog.bind, putTail]

theorem safe_putTail {bodies : List Bytes} {i : PutInput} {body : Body} (hw : received body ∈ bodies) {p : OsPath}
    (hm : cfg.root ++ [metadataName i.bucket i.key] ≠ P) :
    Safe (MixCall P bodies) (fun e => unbroken body ∧ e = some (quoted (ext.md5hex (received body)))) (putTail cfg ext i body p) := by
  refine Safe.callBind trivial fun r _ => ?_
  refine Safe.orInternal fun ino _ => ?_
  refine Safe.bind (safe_pieces hw ino body 0 ⟨[], by simp⟩) ?_
  rintro c ⟨h1, rfl⟩
  exact Safe.bind (safe_mixMeta hm) fun _ _ => ⟨h1, rfl⟩

/-- an upload to `(b, k)` -/
theorem safe_mixPut {bodies : List Bytes} {i : PutInput} {cs : List Bytes} (hb : checkBucketName i.bucket = true)
    (hk : PlainKey i.key cs) (hm : ∀ body, i.body = some body → received body ∈ bodies) :
    Safe (MixCall (cfg.root ++ i.bucket :: cs) bodies) (fun _ => True) (putObject cfg ext i) := by
  rcases putObject_shape (cfg := cfg) (ext := ext) hb hk with ⟨e, he⟩ | ⟨body, h1, h2⟩
  · rw [he]; trivial
  · rw [h2]
    refine Safe.bind (safe_mixDir _) fun _ _ => (safe_putTail (hm body h1) ?_).mono (fun _ h => h) fun _ _ => trivial
    intro e
    exact meta_not_prefix (cfg := cfg) (b := i.bucket) (k := i.key) (cs := cs) hb ⟨[], by rw [List.append_nil]; exact e⟩

/-- when it succeeds, the file holds a mixture -/
theorem wp_mixPut {R : FS → FS → Prop} (hR : Rely R) {bodies : List Bytes} {i : PutInput} {cs : List Bytes}
    (hb : checkBucketName i.bucket = true) (hk : PlainKey i.key cs) (hm : ∀ body, i.body = some body → received body ∈ bodies)
    (hRJ : ∀ a b, R a b → MixFile (cfg.root ++ i.bucket :: cs) bodies a → MixFile (cfg.root ++ i.bucket :: cs) bodies b)
    {fs : FS} (hw : WF fs) :
    wp cfg R (fun o fs' => ∀ e, o = .ok e → MixFile (cfg.root ++ i.bucket :: cs) bodies fs' ∧
      ∃ body, i.body = some body ∧ unbroken body ∧ e = some (quoted (ext.md5hex (received body)))) (putObject cfg ext i) fs := by
  rcases putObject_shape (cfg := cfg) (ext := ext) hb hk with ⟨e, he⟩ | ⟨body, h1, h2⟩
  · rw [he]; exact fun fs' _ _ e h => by cases h
  · rw [h2]
    have hmeta : cfg.root ++ [metadataName i.bucket i.key] ≠ cfg.root ++ i.bucket :: cs := by
      intro e
      exact meta_not_prefix (cfg := cfg) (b := i.bucket) (k := i.key) (cs := cs) hb ⟨[], by rw [List.append_nil]; exact e⟩
    refine wp_bind hR hw (wp_mono (Q := fun _ _ => True) ?_ (wp_true _ _ fun _ _ _ => trivial))
    intro o fs1 hw1 _
    cases o with
    | err e => exact fun e h => by cases h
    | panic => exact fun e h => by cases h
    | diverge => exact fun e h => by cases h
    | ok u =>
      refine wp_call fun fs2 _ hw2 => ?_
      cases hc : (exec cfg fs2 (.create ⟨cfg.root ++ i.bucket :: cs, false⟩)).1 with
      | none => exact fun fs' _ _ e h => by cases h
      | some ino =>
        have hsafe := (safe_putTail (cfg := cfg) (ext := ext) (P := cfg.root ++ i.bucket :: cs) (bodies := bodies) (i := i)
          (body := body) (hm body h1) (p := ⟨cfg.root ++ i.bucket :: cs, false⟩) hmeta).2 (some ino)
          (by intro j hj; cases hj; exact (hc ▸ exec_respOk cfg hw2 (.create ⟨cfg.root ++ i.bucket :: cs, false⟩)) _ rfl)
        refine wp_inv hsafe (J := MixFile (cfg.root ++ i.bucket :: cs) bodies) (fun fs c hwf hj hok => mix_exec hwf hj hok) hRJ
          (mix_create hc) ?_
        intro o fs' hj hq e he
        subst he
        exact ⟨hj, body, h1, hq e rfl⟩

end S3
