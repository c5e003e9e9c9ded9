import Verif.Lemmas.Fault
import Verif.Props.Multipart
/-! What holds at every moment of a run on a disk that may fail. -/
namespace S3
open Spec

variable {cfg : Cfg} {ext : Ext} {α β : Type}

/-- `J` holds after any number of system calls of `p`, whatever fails -/
def alwF (cfg : Cfg) (J : FS → Prop) (p : Prog α) (fs : FS) : Prop := ∀ o n, J (runFN cfg o n p fs).2

theorem alwF_now {J : FS → Prop} {p : Prog α} {fs : FS} (h : alwF cfg J p fs) : J fs := by
  have := h (fun _ => .none) 0
  cases p <;> exact this

theorem alwF_ret {J : FS → Prop} {a : α} {fs : FS} (h : J fs) : alwF cfg J (.ret a : Prog α) fs := by
  intro o n; cases n <;> exact h
theorem alwF_fail {J : FS → Prop} {e : S3ErrorCode} {fs : FS} (h : J fs) : alwF cfg J (.fail e : Prog α) fs := by
  intro o n; cases n <;> exact h

theorem alwF_call {J : FS → Prop} {c : Call} {k : Resp c → Prog α} {fs : FS} (h0 : J fs)
    (h : ∀ f, alwF cfg J (k (execF cfg fs c f).1) (execF cfg fs c f).2) : alwF cfg J ((call c).bind k) fs := by
  intro o n
  cases n with
  | zero => exact h0
  | succ n => exact h (o 0) _ n

theorem alwF_end {J : FS → Prop} {p : Prog α} {fs : FS} (h : alwF cfg J p fs) (o : Nat → Fault) : J (runF cfg o p fs).2 := by
  obtain ⟨n, hn⟩ := runF_end (cfg := cfg) p o fs
  rw [← hn]; exact h o n

theorem alwF_bind {J : FS → Prop} {p : Prog α} {f : α → Prog β} {fs : FS} (hw : WF fs) (h : alwF cfg J p fs)
    (hf : ∀ a fs', WF fs' → J fs' → alwF cfg J (f a) fs') : alwF cfg J (p.bind f) fs := by
  induction p generalizing fs with
  | ret a => exact hf a fs hw (alwF_now h)
  | fail e => exact alwF_fail (alwF_now h)
  | panic => intro o n; cases n <;> exact alwF_now h
  | diverge => intro o n; cases n <;> exact alwF_now h
  | sys c k ih =>
    refine alwF_call (c := c) (alwF_now h) fun x => ih _ (execF_wf hw c x) ?_
    intro o n
    exact h (fun m => match m with | 0 => x | m + 1 => o m) (n + 1)

theorem alwF_orInternal {J : FS → Prop} {o : Option α} {f : α → Prog β} {fs : FS} (h0 : J fs)
    (h : ∀ a, o = some a → alwF cfg J (f a) fs) : alwF cfg J ((orInternal o).bind f) fs := by
  cases o with
  | none => exact alwF_fail h0
  | some a => exact h a rfl

theorem alwF_safe {ok : Call → Prop} {Q : α → Prop} {p : Prog α} (hs : Safe ok Q p) {J : FS → Prop}
    (hJ : ∀ fs c f, WF fs → J fs → ok c → J (execF cfg fs c f).2) {fs : FS} (hw : WF fs) (h0 : J fs) :
    alwF cfg J p fs := fun o n => hs.invF hJ hw h0 o n

theorem alwF_mono {J J' : FS → Prop} (h : ∀ fs, J fs → J' fs) {p : Prog α} {fs : FS} (hp : alwF cfg J p fs) :
    alwF cfg J' p fs := fun o n => h _ (hp o n)

theorem alwF_copyBytes {P : Path} {i : Ino} (body : Body) :
    ∀ {fs : FS} {c : Bytes}, WF fs → Has fs P i c →
      alwF cfg (fun fs' => ∃ x, x <+: received body ∧ Has fs' P i (c ++ x)) (copyBytes i c.length body) fs := by
  induction body with
  | nil => intro fs c hw h; exact alwF_ret ⟨[], List.nil_prefix, by simpa using h⟩
  | cons y rest ih =>
    intro fs c hw h
    cases y with
    | none => exact alwF_fail ⟨[], List.nil_prefix, by simpa using h⟩
    | some b =>
      simp only [copyBytes]
      split
      · rename_i hb
        subst hb
        exact alwF_mono (fun fs ⟨x, hx, h⟩ => ⟨x, by simpa [received] using hx, h⟩) (ih hw h)
      · have hwrite : ∀ d : Bytes, Has (fs.setData i (splice (fs.data i) c.length d)) P i (c ++ d) := by
          intro d
          have h1 := h.write (cfg := cfg) c.length d
          rw [splice_end] at h1
          exact h1
        have h0 : ∃ x, x <+: received (some b :: rest) ∧ Has fs P i (c ++ x) := ⟨[], List.nil_prefix, by simpa using h⟩
        have hb : ∀ n, b.take n <+: received (some b :: rest) := fun n =>
          (List.take_prefix n b).trans (List.prefix_append b _)
        refine alwF_call h0 fun f => ?_
        cases f with
        | none =>
          have hw1 := exec_wf cfg hw (.writeAt i c.length b)
          have h2 := ih hw1 (hwrite b)
          rw [List.length_append] at h2
          have h3 := alwF_mono (J' := fun fs' => ∃ x, x <+: received (some b :: rest) ∧ Has fs' P i (c ++ x))
            (fun fs ⟨x, hx, h⟩ => ⟨b ++ x, received_prefix hx, by rwa [← List.append_assoc]⟩) h2
          exact alwF_bind hw1 h3 fun a fs' _ hj => alwF_ret hj
        | before => exact alwF_fail h0
        | after => exact alwF_fail ⟨b, List.prefix_append b _, hwrite b⟩
        | during n rs =>
          refine alwF_fail ?_
          simp only [execF, partialEffect]
          split
          · exact h0
          · exact ⟨b.take n, hb n, hwrite _⟩

/-- opening a file for writing on a failing disk -/
theorem alwF_create {J : FS → Prop} {p : OsPath} {k : Ino → Prog α} {fs : FS} (h0 : J fs)
    (h1 : ∀ i, (exec cfg fs (.create p)).1 = some i → J (exec cfg fs (.create p)).2 ∧ alwF cfg J (k i) (exec cfg fs (.create p)).2) :
    alwF cfg J ((call (.create p)).bind fun r => (orInternal r).bind k) fs := by
  refine alwF_call h0 fun f => ?_
  have hJ : J (exec cfg fs (.create p)).2 := by
    cases hc : (exec cfg fs (.create p)).1 with
    | none => rw [exec_create_none hc]; exact h0
    | some i => exact (h1 i hc).1
  cases f with
  | none =>
    show alwF cfg J ((orInternal (exec cfg fs (.create p)).1).bind k) _
    exact alwF_orInternal hJ fun i hi => (h1 i hi).2
  | before => exact alwF_fail h0
  | after => exact alwF_fail hJ
  | during n rs => exact alwF_fail h0

theorem alwF_putObject {i : PutInput} (hb : checkBucketName i.bucket = true) {body : Body}
    (hbody : i.body = some body) {p : OsPath} (hp : objectPath cfg i.bucket i.key = some p) {fs : FS} (hw : WF fs) :
    alwF cfg (OldOrPrefix fs p.comps (received body)) (putObject cfg ext i) fs := by
  have h0 : OldOrPrefix fs p.comps (received body) fs := Or.inl rfl
  simp only [putObject, bind_eq, pure_eq, hbody]
  split
  · exact alwF_fail h0
  have hdirs : ∀ q : Path, alwF cfg (fun x => contentAt x p.comps = contentAt fs p.comps) (createDirAll q) fs := by
    intro q
    have hs : Safe (writeOk (fun _ => False) (fun _ => True)) (fun _ => True) (createDirAll q) := by
      refine (safe_createDirAll (π := { st := fun _ => True, up := fun _ => True }) q (fun _ _ => ⟨trivial, trivial⟩)).mono
        ?_ (fun _ h => h)
      intro c hc
      cases c <;> first | exact Or.inl hc | exact hc | trivial
    exact alwF_safe hs (fun x c f hwx hx hc => (content_frame hwx (execF_frame hwx hc f) (fun h => h)).trans hx) hw rfl
  have dirsThen : ∀ {γ : Type} (q : Path) (f : Unit → Prog γ), (∀ fs1, WF fs1 → contentAt fs1 p.comps = contentAt fs p.comps →
      alwF cfg (OldOrPrefix fs p.comps (received body)) (f ()) fs1) →
      alwF cfg (OldOrPrefix fs p.comps (received body)) ((createDirAll q).bind f) fs := by
    intro γ q f hf o n
    -- the first part keeps the content, so the second starts with the old one
    have gen : ∀ (pr : Prog Unit) (fs1 : FS), WF fs1 → alwF cfg (fun x => contentAt x p.comps = contentAt fs p.comps) pr fs1 →
        alwF cfg (OldOrPrefix fs p.comps (received body)) (pr.bind f) fs1 := by
      intro pr
      induction pr with
      | ret a => intro fs1 hw1 h; exact hf fs1 hw1 (alwF_now h)
      | fail e => intro fs1 hw1 h; exact alwF_fail (.inl (alwF_now h))
      | panic => intro fs1 hw1 h o n; cases n <;> exact .inl (alwF_now h)
      | diverge => intro fs1 hw1 h o n; cases n <;> exact .inl (alwF_now h)
      | sys c k ih =>
        intro fs1 hw1 h
        refine alwF_call (c := c) (.inl (alwF_now h)) fun x => ih _ _ (execF_wf hw1 c x) ?_
        intro o n
        exact h (fun m => match m with | 0 => x | m + 1 => o m) (n + 1)
    exact gen _ fs hw (hdirs q) o n
  split
  · split
    · rw [hp]
      exact dirsThen p.comps _ fun fs1 hw1 h1 => alwF_ret (.inl h1)
    · exact alwF_fail h0
  · have rest : ∀ fs1, WF fs1 → contentAt fs1 p.comps = contentAt fs p.comps →
        alwF cfg (OldOrPrefix fs p.comps (received body))
        ((call (.create p)).bind fun r => (orInternal r).bind fun ino =>
          (copyBytes ino 0 body).bind fun content =>
            (saveOptional cfg ext i.bucket i.key i.metadata).bind fun _ =>
              .ret (some (quoted (ext.md5hex content)))) fs1 := by
      intro fs1 hw1 hc1
      refine alwF_create (Or.inl hc1) fun ino hc => ?_
      have hw2 := exec_wf cfg hw1 (.create p)
      have hh := (exec_create_snd hc).1
      refine ⟨.inr ⟨[], List.nil_prefix, hh.content⟩, ?_⟩
      have hcb := alwF_mono (J' := OldOrPrefix fs p.comps (received body))
        (fun fs' ⟨x, hx, h⟩ => Or.inr ⟨x, hx, by simpa using h.content⟩) (alwF_copyBytes (cfg := cfg) body hw2 hh)
      refine alwF_bind hw2 hcb fun content fs3 hw3 h3 => ?_
      have hso := alwF_safe (cfg := cfg) (safe_saveOptional (cfg := cfg) (ext := ext) (b := i.bucket) (k := i.key) i.metadata)
        (J := fun x => contentAt x p.comps = contentAt fs3 p.comps)
        (fun x c f hwx hx hc => (content_frame hwx (execF_frame hwx hc f) (objectPath_ne_meta hb hp)).trans hx) hw3 rfl
      have hso' := alwF_mono (J' := OldOrPrefix fs p.comps (received body)) (fun x hx => by
        rcases h3 with h | ⟨y, hy, h⟩
        · exact Or.inl (hx.trans h)
        · exact Or.inr ⟨y, hy, hx.trans h⟩) hso
      exact alwF_bind hw3 hso' fun _ fs4 _ h4 => alwF_ret h4
    rw [hp]
    show alwF _ _ (if p.comps ≠ [] then _ else _) _
    split
    · exact dirsThen _ _ rest
    · exact rest fs hw rfl

theorem alwF_completeLoop {u : Bytes} (hu : (47 : UInt8) ∉ u) {ino : Ino} {O : Path} (hO : ∀ m, O ≠ partFile cfg u m)
    (parts : List (Option Int)) :
    ∀ {cnt : Int} {fs : FS} {c : Bytes}, WF fs → Has fs O ino c →
      alwF cfg (KeepsParts cfg u O c fs) (completeLoop cfg u ino cnt c.length parts) fs := by
  induction parts with
  | nil =>
    intro cnt fs c hw h
    exact alwF_ret ⟨[], by simpa using h.content, fun m d hd => .inl hd⟩
  | cons p parts ih =>
    intro cnt fs c hw h
    have h0 : KeepsParts cfg u O c fs fs := ⟨[], by simpa using h.content, fun m d hd => .inl hd⟩
    simp only [completeLoop, bind_eq]
    refine alwF_orInternal h0 fun n _ => ?_
    split
    · exact alwF_fail h0
    · rw [partPath_eq cfg hu]
      refine alwF_orInternal h0 fun pp hpp => ?_
      cases hpp
      have hx : exec cfg fs (.openRead ⟨cfg.root ++ [partName u n], false⟩)
          = ((fs.lookup (partFile cfg u n)).map Node.handle, fs) := by
        simp only [exec, at_false]
        rw [show cfg.root ++ [partName u n] = partFile cfg u n from rfl]
        cases fs.lookup (partFile cfg u n) with
        | none => rfl
        | some x => cases x <;> rfl
      refine alwF_call h0 fun f => ?_
      cases f with
      | before => exact alwF_fail h0
      | after => exact alwF_fail h0
      | during n rs => exact alwF_fail h0
      | none =>
      simp only [execF]
      rw [hx]
      refine alwF_orInternal h0 fun hd hhd => ?_
      cases hl : fs.lookup (partFile cfg u n) with
      | none => rw [hl] at hhd; cases hhd
      | some x =>
        cases x with
        | dir =>
          rw [hl] at hhd
          cases hhd
          refine alwF_call h0 fun f => ?_
          cases f <;> exact alwF_fail h0
        | file i =>
          rw [hl] at hhd
          cases hhd
          refine alwF_call h0 fun f => ?_
          cases f with
          | before => exact alwF_fail h0
          | after => exact alwF_fail h0
          | during n rs => exact alwF_fail h0
          | none =>
          show alwF cfg _ ((orInternal (some (fs.data i))).bind _) fs
          refine alwF_orInternal h0 fun content hcontent => ?_
          cases hcontent
          have hw1 := exec_wf cfg hw (.writeAt ino c.length (fs.data i))
          obtain ⟨hw2, h2, hg, hf⟩ := assemble_step hO hw h hl
          have hino : ino.path = O := hw.of_file h.node
          have hpart : ∀ d : Bytes, KeepsParts cfg u O c fs (fs.setData ino (splice (fs.data ino) c.length d)) := by
            intro d
            have h1 := h.write (cfg := cfg) c.length d
            rw [splice_end] at h1
            have hf1 : Frame (· = O) (fun _ => False) fs (exec cfg fs (.writeAt ino c.length d)).2 := exec_frame cfg hw hino
            exact ⟨d, h1.content, fun m e hd => .inl (by rw [← hd]; exact content_frame hw hf1 (fun e => hO m e.symm))⟩
          refine alwF_call h0 fun f => ?_
          cases f with
          | before => exact alwF_fail h0
          | after => exact alwF_fail (hpart _)
          | during n rs =>
            refine alwF_fail ?_
            simp only [execF, partialEffect]
            split
            · exact h0
            · exact hpart _
          | none =>
          show alwF cfg _ ((call (.unlink ⟨cfg.root ++ [partName u n], false⟩)).bind _) (exec cfg fs (.writeAt ino c.length (fs.data i))).2
          have hux : exec cfg (exec cfg fs (.writeAt ino c.length (fs.data i))).2 (.unlink ⟨cfg.root ++ [partName u n], false⟩)
              = (true, (exec cfg fs (.writeAt ino c.length (fs.data i))).2.erase (partFile cfg u n)) := by
            have hl1 : (exec cfg fs (.writeAt ino c.length (fs.data i))).2.at ⟨partFile cfg u n, false⟩ = some (.file i) := by
              rw [at_false]; exact hl
            rw [show cfg.root ++ [partName u n] = partFile cfg u n from rfl]
            simp only [exec] at hl1
            simp only [exec, hl1]
          have step : ∀ fs', KeepsParts cfg u O (c ++ fs.data i)
              ((exec cfg fs (.writeAt ino c.length (fs.data i))).2.erase (partFile cfg u n)) fs' → KeepsParts cfg u O c fs fs' := by
            rintro fs' ⟨x, hx, hp⟩
            refine ⟨fs.data i ++ x, by rw [hx, List.append_assoc], ?_⟩
            intro m d hd
            by_cases hm : m = n
            · subst hm
              rw [contentAt, hl] at hd
              cases hd
              exact .inr ⟨[], x, by simp⟩
            · have := hp m d (by
                rw [content_frame hw hf]
                · exact hd
                · rintro (e | e)
                  · exact hO m e.symm
                  · exact hm (partFile_inj e).2)
              rcases this with h | ⟨y, z, h⟩
              · exact .inl h
              · exact .inr ⟨fs.data i ++ y, z, by rw [← h]; simp⟩
          have hk2 := step _ ⟨[], by simpa using h2.content, fun m d hd => .inl hd⟩
          refine alwF_call (hpart _) fun f => ?_
          cases f with
          | before => exact alwF_fail (hpart _)
          | during n rs => exact alwF_fail (hpart _)
          | after =>
            simp only [execF, hux]
            exact alwF_fail hk2
          | none =>
            show alwF cfg _ (if (exec cfg (exec cfg fs (.writeAt ino c.length (fs.data i))).2 (.unlink ⟨cfg.root ++ [partName u n], false⟩)).1 = true
              then _ else _) (exec cfg (exec cfg fs (.writeAt ino c.length (fs.data i))).2 (.unlink ⟨cfg.root ++ [partName u n], false⟩)).2
            rw [hux]
            simp only [if_true]
            rw [show c.length + (fs.data i).length = (c ++ fs.data i).length by simp]
            exact alwF_mono step (ih hw2 h2)

theorem alwF_complete {b k u : Bytes} {cs : List Bytes} (hu : (47 : UInt8) ∉ u) (hb : checkBucketName b = true)
    (hk : PlainKey k cs) (parts : Option (List (Option Int))) {fs : FS} (hw : WF fs) :
    alwF cfg (PartsSafe cfg u b k fs) (completeMultipartUpload cfg ext b k u parts) fs := by
  have hobj := objectPath_plain cfg hb hk
  have hO : ∀ m, cfg.root ++ b :: cs ≠ partFile cfg u m := fun m => plain_not_part hb hk ((objP_plain hb hk).mpr rfl)
  have h0 : PartsSafe cfg u b k fs fs := fun m d hd => .inl hd
  simp only [completeMultipartUpload, bind_eq, pure_eq]
  split
  · exact alwF_fail h0
  · rename_i l
    rw [hobj]
    refine alwF_orInternal h0 fun p hp => ?_
    cases hp
    refine alwF_create h0 fun i hc => ?_
    have hw1 := exec_wf cfg hw (.create ⟨cfg.root ++ b :: cs, false⟩)
    have hh := (exec_create_snd hc).1
    have hf1 : Frame (· = cfg.root ++ b :: cs) (fun _ => False) fs (exec cfg fs (.create ⟨cfg.root ++ b :: cs, false⟩)).2 :=
      exec_frame cfg hw (by exact rfl)
    have hl' := alwF_mono (J' := PartsSafe cfg u b k fs) (fun fs' ⟨x, hx, hp⟩ => by
      intro m d hd
      rcases hp m d (by rw [content_frame hw hf1 (fun e => hO m e.symm)]; exact hd) with h | h
      · exact .inl h
      · refine .inr ⟨x, ?_, h⟩
        simp [stored, hobj, hx]) (alwF_completeLoop (cfg := cfg) hu hO l (cnt := 0) hw1 hh)
    refine ⟨alwF_now hl', ?_⟩
    refine alwF_bind hw1 hl' fun a fs2 hw2 h2 => ?_
    refine alwF_call h2 fun f => ?_
    have hsame : (execF cfg fs2 (.stat ⟨cfg.root ++ b :: cs, false⟩) f).2 = fs2 := by cases f <;> rfl
    rw [hsame]
    refine alwF_orInternal h2 fun _ _ => ?_
    have hs : Safe (readOk (fun _ => True)) (fun _ => True) (getMd5Sum cfg ext b k) :=
      (safe_getMd5Sum (π := { rd := fun _ => True }) (fun _ _ => trivial)).mono
        (perm_read (fun _ h => h) (fun _ h => h) (fun _ h => h) (fun _ h => h) (fun _ h => h) (fun _ h => h) (fun _ h => h))
        (fun _ h => h)
    have hm : alwF cfg (PartsSafe cfg u b k fs) (getMd5Sum cfg ext b k) fs2 := by
      refine alwF_mono (J := fun x => x = fs2) (fun x hx => by rw [hx]; exact h2) (alwF_safe hs ?_ hw2 rfl)
      intro x c f hwx hx hc
      have hr := (exec_readOk cfg hwx hwx (fun q _ => ⟨rfl, fun _ _ => rfl⟩) hc).2.1
      cases f with
      | none => exact hr.trans hx
      | before => exact hx
      | after => exact hr.trans hx
      | during n rs => cases c <;> first | exact hx | exact hc.elim
    exact alwF_bind hw2 hm fun _ fs3 _ h3 => alwF_ret h3

theorem alwF_uploadPart {u : Bytes} (hu : (47 : UInt8) ∉ u) (n : Int) (body : Body) {fs : FS} (hw : WF fs) :
    alwF cfg (OldOrPrefix fs (partFile cfg u n) (received body)) (uploadPart cfg ext u n (some body)) fs := by
  have h0 : OldOrPrefix fs (partFile cfg u n) (received body) fs := Or.inl rfl
  simp only [uploadPart, bind_eq, pure_eq, partPath_eq cfg hu]
  refine alwF_orInternal h0 fun p hp => ?_
  cases hp
  refine alwF_create h0 fun ino hc => ?_
  have hw2 := exec_wf cfg hw (.create ⟨cfg.root ++ [partName u n], false⟩)
  have hh : Has _ (partFile cfg u n) ino [] := (exec_create_snd hc).1
  refine ⟨.inr ⟨[], List.nil_prefix, hh.content⟩, ?_⟩
  have hcb := alwF_mono (J' := OldOrPrefix fs (partFile cfg u n) (received body))
    (fun fs' ⟨x, hx, h⟩ => Or.inr ⟨x, hx, by simpa using h.content⟩) (alwF_copyBytes (cfg := cfg) body hw2 hh)
  exact alwF_bind hw2 hcb fun content fs3 hw3 h3 => alwF_ret h3

/-- the file `D` is as before, or holds a beginning of what `S` held before -/
def CopyMoment (fs : FS) (S D : Path) (fs' : FS) : Prop :=
  contentAt fs' D = contentAt fs D ∨ ∃ c x, contentAt fs S = some c ∧ x <+: c ∧ contentAt fs' D = some x

theorem alwF_copyFile {src dst : OsPath} (hne : src.comps ≠ dst.comps) {fs : FS} (hw : WF fs) :
    alwF cfg (CopyMoment fs src.comps dst.comps) (copyFile src dst) fs := by
  have h0 : CopyMoment fs src.comps dst.comps fs := Or.inl rfl
  simp only [copyFile, bind_eq, pure_eq]
  refine alwF_call h0 fun f => ?_
  cases f with
  | before => exact alwF_fail h0
  | after => exact alwF_fail h0
  | during n rs => exact alwF_fail h0
  | none =>
  show alwF cfg _ ((orInternal (exec cfg fs (.openRead src)).1).bind _) fs
  refine alwF_orInternal h0 fun h hh => ?_
  cases h with
  | dir => exact alwF_fail h0
  | file i =>
    have hat : fs.at src = some (.file i) := by
      cases ha : fs.at src with
      | none => simp only [exec, ha] at hh; cases hh
      | some n => cases n <;> simp only [exec, ha] at hh <;> cases hh; rfl
    have hS : contentAt fs src.comps = some (fs.data i) := by simp [contentAt, (at_file hat).1]
    refine alwF_create h0 fun j hc => ?_
    have hw1 := exec_wf cfg hw (.create dst)
    have hj := (exec_create_snd hc).1
    have hf1 : Frame (· = dst.comps) (fun _ => False) fs (exec cfg fs (.create dst)).2 := exec_frame cfg hw (by exact rfl)
    have hi : Has (exec cfg fs (.create dst)).2 src.comps i (fs.data i) := hf1.keep hw hne ⟨(at_file hat).1, rfl⟩
    have h1 : CopyMoment fs src.comps dst.comps (exec cfg fs (.create dst)).2 :=
      .inr ⟨fs.data i, [], hS, List.nil_prefix, hj.content⟩
    refine ⟨h1, ?_⟩
    refine alwF_call h1 fun f => ?_
    cases f with
    | before => exact alwF_fail h1
    | after => exact alwF_fail h1
    | during n rs => exact alwF_fail h1
    | none =>
    show alwF cfg _ ((orInternal (some ((exec cfg fs (.create dst)).2.data i))).bind _) (exec cfg fs (.create dst)).2
    rw [hi.data]
    refine alwF_orInternal h1 fun c hcc => ?_
    cases hcc
    have hwr : ∀ d : Bytes, d <+: fs.data i → CopyMoment fs src.comps dst.comps
        ((exec cfg fs (.create dst)).2.setData j (splice ((exec cfg fs (.create dst)).2.data j) 0 d)) := by
      intro d hd
      have h2 := hj.write (cfg := cfg) 0 d
      have e : splice ([] : Bytes) 0 d = d := by simpa using splice_end (c := ([] : Bytes)) (b := d)
      rw [e] at h2
      exact .inr ⟨fs.data i, d, hS, hd, h2.content⟩
    refine alwF_call h1 fun f => ?_
    cases f with
    | none => exact alwF_ret (hwr _ (List.prefix_refl _))
    | before => exact alwF_fail h1
    | after => exact alwF_fail (hwr _ (List.prefix_refl _))
    | during n rs =>
      refine alwF_fail ?_
      simp only [execF, partialEffect]
      split
      · exact h1
      · exact hwr _ (List.take_prefix n _)

/-! ### the region outside the storage root -/

theorem agree_eraseTree {Z : Path → Bool} {q : Path} (h : ∀ r, q <+: r → Z r = true) (a : FS) :
    Agree (fun q => !Z q) a (a.eraseTree q) := by
  refine ⟨?_, fun _ _ => rfl, fun _ _ => rfl⟩
  simp only [FS.eraseTree]
  rw [filter_tree_comm a.nodes (fun q => !Z q) q]
  symm; apply List.filter_eq_self.mpr
  intro e he
  have := (List.mem_filter.mp he).2
  simp only [Bool.not_eq_true'] at this ⊢
  cases hp : q.isPrefixOf e.1 with
  | false => rfl
  | true =>
    have hzz := h _ (isPrefixOf_iff.mp hp)
    rw [hzz] at this; cases this

theorem execF_outside {Z : Path → Bool} {a : FS} (hw : WF a) (ha : RegionRooted Z a) {c : Call} (hc : regionOk Z c) (f : Fault) :
    Agree (fun q => !Z q) a (execF cfg a c f).2 := by
  cases f with
  | none => exact exec_outside cfg hw ha hc
  | before => exact .refl ..
  | after => exact exec_outside cfg hw ha hc
  | during n rs =>
    cases c with
    | writeAt i off b =>
      have : Agree (fun q => !Z q) a (exec cfg a (.writeAt i off (b.take n))).2 := exec_outside cfg hw ha hc
      simp only [execF, partialEffect]
      split
      · exact .refl ..
      · exact this
    | rmtree p =>
      simp only [execF, partialEffect]
      split
      · split
        · have gen : ∀ (rs : List Path) (a : FS), Agree (fun q => !Z q) a
              (rs.foldl (fun fs q => if p.isPrefixOf q then fs.eraseTree q else fs) a) := by
            intro rs
            induction rs with
            | nil => exact fun a => .refl ..
            | cons r rs ih =>
              intro a
              rw [List.foldl_cons]
              refine Agree.trans (b := if p.isPrefixOf r then a.eraseTree r else a) ?_ (ih _)
              split
              · rename_i hr
                exact agree_eraseTree (fun q hq => hc q ((isPrefixOf_iff.mp hr).trans hq)) a
              · exact .refl ..
          exact gen rs a
        · exact .refl ..
      · exact .refl ..
    | _ => exact .refl ..

end S3
