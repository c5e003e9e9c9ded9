import Verif.Lemmas.Run
/-! What holds at every crash point. -/
namespace S3
open Spec

variable {cfg : Cfg} {ext : Ext} {α β : Type}

/-- `J` holds after any number of system calls of `p` -/
def alw (cfg : Cfg) (J : FS → Prop) (p : Prog α) (fs : FS) : Prop := ∀ n, J (runN cfg n p fs).2

theorem alw_now {J : FS → Prop} {p : Prog α} {fs : FS} (h : alw cfg J p fs) : J fs := by
  have := h 0
  cases p <;> exact this

theorem alw_ret {J : FS → Prop} {a : α} {fs : FS} (h : J fs) : alw cfg J (.ret a : Prog α) fs := by
  intro n; cases n <;> exact h
theorem alw_fail {J : FS → Prop} {e : S3ErrorCode} {fs : FS} (h : J fs) : alw cfg J (.fail e : Prog α) fs := by
  intro n; cases n <;> exact h

theorem alw_sys {J : FS → Prop} {c : Call} {k : Resp c → Prog α} {fs : FS} (h0 : J fs)
    (h : alw cfg J (k (exec cfg fs c).1) (exec cfg fs c).2) : alw cfg J (.sys c k) fs := by
  intro n
  cases n with
  | zero => exact h0
  | succ n => exact h n

theorem alw_call {J : FS → Prop} {c : Call} {k : Resp c → Prog α} {fs : FS} (h0 : J fs)
    (h : alw cfg J (k (exec cfg fs c).1) (exec cfg fs c).2) : alw cfg J ((call c).bind k) fs := alw_sys h0 h

theorem alw_bind {J : FS → Prop} {p : Prog α} {f : α → Prog β} {fs : FS} (h : alw cfg J p fs)
    (hf : ∀ a fs', run cfg p fs = (.ok a, fs') → alw cfg J (f a) fs') : alw cfg J (p.bind f) fs := by
  induction p generalizing fs with
  | ret a => exact hf a fs rfl
  | fail e => exact alw_fail (alw_now h)
  | panic => intro n; cases n <;> exact alw_now h
  | diverge => intro n; cases n <;> exact alw_now h
  | sys c k ih =>
    refine alw_sys (alw_now h) (ih _ (fun n => h (n + 1)) ?_)
    intro a fs' h'
    exact hf a fs' h'

theorem alw_orInternal {J : FS → Prop} {o : Option α} {f : α → Prog β} {fs : FS} (h0 : J fs)
    (h : ∀ a, o = some a → alw cfg J (f a) fs) : alw cfg J ((orInternal o).bind f) fs := by
  cases o with
  | none => exact alw_fail h0
  | some a => exact h a rfl

theorem alw_safe {ok : Call → Prop} {Q : α → Prop} {p : Prog α} (hs : Safe ok Q p) {J : FS → Prop}
    (hJ : ∀ fs c, WF fs → J fs → ok c → J (exec cfg fs c).2) {fs : FS} (hw : WF fs) (h0 : J fs) :
    alw cfg J p fs := fun n => hs.invN cfg hJ hw h0 n

theorem alw_mono {J J' : FS → Prop} (h : ∀ fs, J fs → J' fs) {p : Prog α} {fs : FS} (hp : alw cfg J p fs) :
    alw cfg J' p fs := fun n => h _ (hp n)

/-- the last crash point is the end -/
theorem alw_end {J : FS → Prop} {p : Prog α} {fs : FS} (h : alw cfg J p fs) : J (run cfg p fs).2 := by
  induction p generalizing fs with
  | sys c k ih => exact ih _ (fun n => h (n + 1))
  | _ => exact h 0

theorem received_prefix {b : Bytes} {rest : Body} {x : Bytes} (h : x <+: received rest) :
    b ++ x <+: received (some b :: rest) := by
  simpa [received, List.prefix_append_right_inj] using h

theorem alw_copyBytes {P : Path} {i : Ino} (body : Body) :
    ∀ {fs : FS} {c : Bytes}, Has fs P i c →
      alw cfg (fun fs' => ∃ x, x <+: received body ∧ Has fs' P i (c ++ x)) (copyBytes i c.length body) fs := by
  induction body with
  | nil => intro fs c h; exact alw_ret ⟨[], List.nil_prefix, by simpa using h⟩
  | cons y rest ih =>
    intro fs c h
    cases y with
    | none => exact alw_fail ⟨[], List.nil_prefix, by simpa using h⟩
    | some b =>
      simp only [copyBytes]
      split
      · rename_i hb
        subst hb
        exact alw_mono (fun fs ⟨x, hx, h⟩ => ⟨x, by simpa [received] using hx, h⟩) (ih h)
      · simp only [bind_eq, pure_eq]
        refine alw_call ⟨[], List.nil_prefix, by simpa using h⟩ ?_
        have h1 := h.write (cfg := cfg) c.length b
        rw [splice_end] at h1
        have h2 := ih h1
        rw [List.length_append] at h2
        have h3 := alw_mono (J' := fun fs' => ∃ x, x <+: received (some b :: rest) ∧ Has fs' P i (c ++ x))
          (fun fs ⟨x, hx, h⟩ => ⟨b ++ x, received_prefix hx, by rwa [← List.append_assoc]⟩) h2
        refine alw_bind h3 fun a fs' e => alw_ret ?_
        have := alw_end h3
        rw [e] at this
        exact this

/-- the object at `P` has its content of before, or a beginning of the new content -/
def OldOrPrefix (fs : FS) (P : Path) (new : Bytes) (fs' : FS) : Prop :=
  contentAt fs' P = contentAt fs P ∨ ∃ x, x <+: new ∧ contentAt fs' P = some x

theorem safe_saveOptional {b k : Bytes} (md : Option Meta) :
    Safe (writeOk (· = metaFile cfg b k) (fun _ => False)) (fun _ => True) (saveOptional cfg ext b k md) := by
  cases md with
  | none => trivial
  | some m =>
    simp only [saveOptional, saveMetadata, metadataPath_eq, bind_eq, pure_eq, orInternal]
    refine ⟨rfl, fun r hr => ?_⟩
    cases r with
    | none => trivial
    | some i => exact ⟨hr i rfl, fun r _ => by cases r <;> trivial⟩

theorem content_frame {own up : Path → Prop} {a b : FS} (hw : WF a) (h : Frame own up a b) {q : Path}
    (hq : ¬ own q) : contentAt b q = contentAt a q := frame_content hw h hq

theorem alw_putObject {i : PutInput} (hb : checkBucketName i.bucket = true) {body : Body}
    (hbody : i.body = some body) {p : OsPath} (hp : objectPath cfg i.bucket i.key = some p) {fs : FS} (hw : WF fs) :
    alw cfg (OldOrPrefix fs p.comps (received body)) (putObject cfg ext i) fs := by
  have h0 : OldOrPrefix fs p.comps (received body) fs := Or.inl rfl
  simp only [putObject, bind_eq, pure_eq, hbody]
  split
  · exact alw_fail h0
  have hdirs : ∀ q : Path, alw cfg (OldOrPrefix fs p.comps (received body)) (createDirAll q) fs := by
    intro q
    have hs : Safe (writeOk (fun _ => False) (fun _ => True)) (fun _ => True) (createDirAll q) := by
      refine (safe_createDirAll (π := { st := fun _ => True, up := fun _ => True }) q (fun _ _ => ⟨trivial, trivial⟩)).mono
        ?_ (fun _ h => h)
      intro c hc
      cases c <;> first | exact Or.inl hc | exact hc | trivial
    refine alw_mono (J := fun x => contentAt x p.comps = contentAt fs p.comps) (fun _ h => Or.inl h) ?_
    exact alw_safe hs (fun x c hwx hx hc => (content_frame hwx (exec_frame cfg hwx hc) (fun h => h)).trans hx) hw rfl
  split
  · split
    · rw [hp]
      show alw _ _ ((createDirAll p.comps).bind _) _
      exact alw_bind (hdirs _) fun a fs' e => alw_ret (by have := alw_end (hdirs p.comps); rw [e] at this; exact this)
    · exact alw_fail h0
  · have rest : ∀ fs1, WF fs1 → contentAt fs1 p.comps = contentAt fs p.comps →
        alw cfg (OldOrPrefix fs p.comps (received body))
        ((call (.create p)).bind fun r => (orInternal r).bind fun ino =>
          (copyBytes ino 0 body).bind fun content =>
            (saveOptional cfg ext i.bucket i.key i.metadata).bind fun _ =>
              .ret (some (quoted (ext.md5hex content)))) fs1 := by
      intro fs1 hw1 hc1
      refine alw_call (Or.inl hc1) ?_
      have hw2 := exec_wf cfg hw1 (.create p)
      cases hc : (exec cfg fs1 (.create p)).1 with
      | none =>
        refine alw_fail (Or.inl ?_)
        have : (exec cfg fs1 (.create p)).2 = fs1 := by
          simp only [exec] at hc ⊢
          split; · rfl
          rename_i h1
          simp only [if_neg h1] at hc
          split; · rfl
          rename_i c h2
          simp only [h2] at hc
          split
          · rfl
          · rename_i j h3; simp only [h3] at hc; cases hc
          · rename_i h3
            simp only [h3] at hc
            split
            · rename_i h4
              simp only [h4] at hc
              split
              · rename_i h5; simp only [if_pos h5] at hc; cases hc
              · rfl
            · rfl
        rw [this]; exact hc1
      | some ino =>
        have hh := (exec_create_snd hc).1
        have hcb := alw_copyBytes (cfg := cfg) body hh
        have hcb' := alw_mono (J' := OldOrPrefix fs p.comps (received body))
          (fun fs' ⟨x, hx, h⟩ => Or.inr ⟨x, hx, by simpa using h.content⟩) hcb
        show alw _ _ ((copyBytes ino 0 body).bind _) _
        refine alw_bind hcb' fun content fs3 e => ?_
        have hw3 : WF fs3 := by have := run_wf cfg (copyBytes ino 0 body) hw2; rw [e] at this; exact this
        have h3 := alw_end hcb'
        have e' : (run cfg (copyBytes ino ([] : Bytes).length body) (exec cfg fs1 (.create p)).2).2 = fs3 := by
          show (run cfg (copyBytes ino 0 body) (exec cfg fs1 (.create p)).2).2 = fs3
          rw [e]
        rw [e'] at h3
        have hso := alw_safe (cfg := cfg) (safe_saveOptional (cfg := cfg) (ext := ext) (b := i.bucket) (k := i.key) i.metadata)
          (J := fun x => contentAt x p.comps = contentAt fs3 p.comps)
          (fun x c hwx hx hc => (content_frame hwx (exec_frame cfg hwx hc) (objectPath_ne_meta hb hp)).trans hx) hw3 rfl
        have hso' := alw_mono (J' := OldOrPrefix fs p.comps (received body)) (fun x hx => by
          rcases h3 with h | ⟨y, hy, h⟩
          · exact Or.inl (hx.trans h)
          · exact Or.inr ⟨y, hy, hx.trans h⟩) hso
        refine alw_bind hso' fun _ fs4 e4 => alw_ret ?_
        have := alw_end hso'
        rw [e4] at this; exact this
    rw [hp]
    show alw _ _ (if p.comps ≠ [] then _ else _) _
    split
    · refine alw_bind (hdirs _) fun _ fs1 e => ?_
      have hs : Safe (writeOk (fun _ => False) (fun _ => True)) (fun _ => True) (createDirAll p.comps.dropLast) := by
        refine (safe_createDirAll (π := { st := fun _ => True, up := fun _ => True }) _ (fun _ _ => ⟨trivial, trivial⟩)).mono
          ?_ (fun _ h => h)
        intro c hc
        cases c <;> first | exact Or.inl hc | exact hc | trivial
      have hf := hs.frame cfg hw
      have hwf := run_wf cfg (createDirAll p.comps.dropLast) hw
      rw [e] at hf hwf
      exact rest fs1 hwf (content_frame hw hf (fun h => h))
    · exact rest fs hw rfl

end S3
