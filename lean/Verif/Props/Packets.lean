import Verif.Spec.Packets
import Verif.Props.Unread
import Verif.Props.Chunked
import Verif.Props.Streaming
import Verif.Props.Form
import Verif.Props.SampleHttp
import Verif.Props.Racing
/-! C118: the pieces in which the body of a request arrives. -/
namespace S3
open Spec

/-! ### writing a body -/

theorem splice_splice {old a b : Bytes} {off : Nat} (ha : a ≠ []) (hb : b ≠ []) :
    splice (splice old off a) (off + a.length) b = splice old off (a ++ b) := by
  have e : (old.take off ++ List.replicate (off - old.length) 0).length = off := by simp; omega
  simp only [splice, ha, hb, if_false, List.append_eq_nil_iff, and_self]
  generalize hx : old.take off ++ List.replicate (off - old.length) 0 = x at *
  have h1 : (x ++ a ++ old.drop (off + a.length)).take (off + a.length) = x ++ a :=
    List.take_left' (by simp [e])
  have h2 : (x ++ a ++ old.drop (off + a.length)).drop (off + a.length + b.length) = old.drop (off + (a ++ b).length) := by
    rw [← List.drop_drop, List.drop_left' (by simp [e]), List.drop_drop]
    congr 1
    simp [Nat.add_assoc]
  have h3 : off + a.length - (x ++ a ++ old.drop (off + a.length)).length = 0 := by
    simp [e]
  rw [h1, h2, h3]
  simp

theorem setData_setData (fs : FS) (i : Ino) (a b : Bytes) : (fs.setData i a).setData i b = fs.setData i b := by
  simp only [FS.setData]
  congr 1
  funext j
  split <;> rfl

/-- what is left of a body that has been written by one who is alone -/
def writeOf (ino : Ino) (off : Nat) (s : Bytes) (fs : FS) : FS := if s = [] then fs else fs.setData ino (splice (fs.data ino) off s)

theorem writeOf_append (ino : Ino) (off : Nat) {a : Bytes} (ha : a ≠ []) (s : Bytes) (fs : FS) :
    writeOf ino (off + a.length) s (fs.setData ino (splice (fs.data ino) off a)) = writeOf ino off (a ++ s) fs := by
  simp only [writeOf]
  by_cases hs : s = []
  · simp [hs, ha]
  · have : (fs.setData ino (splice (fs.data ino) off a)).data ino = splice (fs.data ino) off a := by simp [FS.setData]
    simp only [hs, if_false, ha, List.append_eq_nil_iff, and_self, setData_setData, this, splice_splice ha hs]

open Classical in
theorem copyBytes_run (cfg : Cfg) (ino : Ino) (body : Body) (off : Nat) (fs : FS) :
    run cfg (copyBytes ino off body) fs =
      (if unbroken body then .ok (received body) else .err .InternalError, writeOf ino off (received body) fs) := by
  induction body generalizing off fs with
  | nil => simp [copyBytes, unbroken, received, writeOf, pure]
  | cons b rest ih =>
    cases b with
    | none => simp [copyBytes, unbroken, received, writeOf]
    | some b =>
      have hu : unbroken (some b :: rest) ↔ unbroken rest := by simp [unbroken]
      simp only [copyBytes, received, hu]
      by_cases hb : b = []
      · simp only [hb, if_true, List.nil_append]
        exact ih off fs
      · rw [if_neg hb]
        show run cfg ((copyBytes ino (off + b.length) rest).bind fun r => .ret (b ++ r)) (fs.setData ino (splice (fs.data ino) off b)) = _
        rw [run_bind, ih, writeOf_append _ _ hb]
        split <;> rfl

/-! ### programs that do the same when they run alone -/

def AloneEq (cfg : Cfg) {α : Type} (p q : Prog α) : Prop := ∀ fs, run cfg p fs = run cfg q fs

theorem AloneEq.refl {cfg : Cfg} {α : Type} (p : Prog α) : AloneEq cfg p p := fun _ => rfl

theorem AloneEq.of_eq {cfg : Cfg} {α : Type} {p q : Prog α} (h : p = q) : AloneEq cfg p q := h ▸ .refl p

theorem AloneEq.bind {cfg : Cfg} {α β : Type} {p q : Prog α} {f g : α → Prog β} (h : AloneEq cfg p q) (hf : ∀ a, AloneEq cfg (f a) (g a)) :
    AloneEq cfg (p.bind f) (q.bind g) := by
  intro fs
  rw [run_bind, run_bind, h fs]
  generalize run cfg q fs = x
  obtain ⟨o, fs1⟩ := x
  cases o with
  | ok a => exact hf a fs1
  | _ => rfl

/-- what follows an error -/
def caught {α : Type} (cfg : Cfg) (k : S3ErrorCode → Prog α) : Outcome α × FS → Outcome α × FS
  | (.err e, fs) => run cfg (k e) fs
  | x => x

theorem run_catch (cfg : Cfg) {α : Type} (p : Prog α) (k : S3ErrorCode → Prog α) (fs : FS) :
    run cfg (p.catch k) fs = caught cfg k (run cfg p fs) := by
  induction p generalizing fs with
  | sys c f ih => exact ih _ _
  | _ => rfl

theorem AloneEq.catch {cfg : Cfg} {α : Type} {p q : Prog α} {k : S3ErrorCode → Prog α} (h : AloneEq cfg p q) :
    AloneEq cfg (p.catch k) (q.catch k) := by
  intro fs
  rw [run_catch, run_catch, h fs]

theorem Spec.SameBytes.refl (b : Body) : SameBytes b b := ⟨rfl, Iff.rfl⟩

theorem Spec.SameBytes.wholeBody {b b' : Body} (h : SameBytes b b') : wholeBody b' = wholeBody b := by
  refine Option.ext fun s => ?_
  rw [wholeBody_some, wholeBody_some, h.bytes, h.whole]

theorem Spec.SameBytes.copyBytes {b b' : Body} (h : SameBytes b b') (cfg : Cfg) (ino : Ino) (off : Nat) :
    AloneEq cfg (copyBytes ino off b') (copyBytes ino off b) := by
  intro fs
  rw [copyBytes_run, copyBytes_run, h.bytes]
  by_cases hu : unbroken b
  · rw [if_pos hu, if_pos (h.whole.mpr hu)]
  · rw [if_neg hu, if_neg (fun hu' => hu (h.whole.mp hu'))]

theorem Spec.SameBytes.putObject {b b' : Body} (h : SameBytes b b') (cfg : Cfg) (ext : Ext) (i : PutInput) :
    AloneEq cfg (putObject cfg ext { i with body := some b' }) (putObject cfg ext { i with body := some b }) := by
  simp only [S3.putObject]
  split
  · exact .refl _
  · split
    · exact .refl _
    · refine .bind (.refl _) fun p => ?_
      have hc : AloneEq cfg
          (do let ino ← orInternal (← call (.create p)); let content ← S3.copyBytes ino 0 b'; saveOptional cfg ext i.bucket i.key i.metadata; return some (quoted (ext.md5hex content)))
          (do let ino ← orInternal (← call (.create p)); let content ← S3.copyBytes ino 0 b; saveOptional cfg ext i.bucket i.key i.metadata; return some (quoted (ext.md5hex content))) :=
        .bind (.refl _) fun _ => .bind (.refl _) fun ino => .bind (h.copyBytes cfg ino 0) fun _ => .refl _
      split
      · exact .bind (.refl _) fun _ => hc
      · exact hc

theorem Spec.SameBytes.uploadPart {b b' : Body} (h : SameBytes b b') (cfg : Cfg) (ext : Ext) (id : Bytes) (n : Int) :
    AloneEq cfg (uploadPart cfg ext id n (some b')) (uploadPart cfg ext id n (some b)) := by
  simp only [S3.uploadPart]
  exact .bind (.refl _) fun _ => .bind (.refl _) fun _ => .bind (.refl _) fun ino => .bind (h.copyBytes cfg ino 0) fun _ => .refl _

/-! ### contexts -/

structure SameForm (f f' : Form) : Prop where
  fields : f'.fields = f.fields
  fileName : f'.fileName = f.fileName
  contentType : f'.contentType = f.contentType
  file : SameBytes f.file.toBody f'.file.toBody

/-- contexts that differ by the pieces of body and file only -/
structure SameLoad (c c' : Ctx) : Prop where
  rest : c' = { c with body := c'.body, multipart := c'.multipart }
  body : SameBytes c.body c'.body
  form : (c.multipart = none ∧ c'.multipart = none) ∨ ∃ f f', c.multipart = some f ∧ c'.multipart = some f' ∧ SameForm f f'

section
variable {c c' : Ctx} (A : SameLoad c c')
include A

theorem SameLoad.isSome : c'.multipart.isSome = c.multipart.isSome := by
  rcases A.form with ⟨h, h'⟩ | ⟨f, f', h, h', _⟩ <;> rw [h, h'] <;> rfl

theorem SameLoad.isMatch : isMatch c' = isMatch c := by
  have e := A.isSome
  have r := A.rest
  generalize c'.body = b at r
  generalize c'.multipart = m at r e
  subst r
  funext h
  cases h <;> simp only [S3.isMatch, Ctx.query, Ctx.header, e]

theorem SameLoad.makeResponse (x : Texts) (h : Handler) : makeResponse x c' h = makeResponse x c h := by
  have r := A.rest
  generalize c'.body = b at r
  generalize c'.multipart = m at r
  subst r
  rfl

theorem SameLoad.putAddress : putAddress c' = putAddress c := by
  have r := A.rest
  have hf := A.form
  generalize c'.body = b at r
  generalize c'.multipart = m at r hf
  subst r
  have hm : m.map Form.fields = c.multipart.map Form.fields := by
    rcases hf with ⟨h, h'⟩ | ⟨f, f', h, h', hf⟩ <;> rw [h, h']
    simp [hf.fields]
  have hk : ∀ a : Bytes, (do let f ← unwrap m; let k ← formKey f; return (a, k) : Prog (Bytes × Bytes)) =
      (do let f ← unwrap c.multipart; let k ← formKey f; return (a, k)) := by
    intro a
    rcases hf with ⟨h, h'⟩ | ⟨f, f', h, h', hf⟩ <;> rw [h, h']
    show (formKey f').bind _ = (formKey f).bind _
    simp only [formKey, hf.fields]
  simp only [S3.putAddress, unwrapBucketPath, unwrapObjectPath]
  split
  · exact congrArg _ (funext hk)
  · rfl

theorem SameLoad.putInput (i : PutInput) : ∃ b b', SameBytes b b' ∧ putBody c i = { putBody c i with body := some b } ∧
    putBody c' i = { putBody c i with body := some b' } := by
  rcases A.form with ⟨h, h'⟩ | ⟨f, f', h, h', hf⟩
  · exact ⟨_, _, A.body, by simp only [putBody, h], by simp only [putBody, h, h']⟩
  · exact ⟨_, _, hf.file, by simp only [putBody, h, fromMultipart],
      by simp only [putBody, h, h', fromMultipart, assignField, formMeta, hf.fields]⟩

theorem SameLoad.runOp (cfg : Cfg) (ext : Ext) (lib : Lib) (env : Env) (h : Handler) :
    AloneEq cfg ((extract lib env c' h).bind (opProg cfg ext)) ((extract lib env c h).bind (opProg cfg ext)) := by
  have hhd : c'.headers = c.headers := by rw [A.rest]
  have hqs : c'.qs = c.qs := by rw [A.rest]
  have hp : c'.path = c.path := by rw [A.rest]
  have hx : ∀ {α : Type} (f : Bytes → Option α), xmlBody f c'.body = xmlBody f c.body := fun f => by simp only [xmlBody, A.body.wholeBody]
  by_cases hput : h = .putObject
  · subst hput
    simp only [S3.extract, extractPut, A.putAddress, Ctx.header, hhd, bind_eq, pure_eq, prog_bind_assoc, Prog.bind]
    refine .bind (.refl _) fun bk => .bind (.refl _) fun cl => ?_
    obtain ⟨b, b', hb, e, e'⟩ := A.putInput
      { bucket := bk.1, key := bk.2, body := none, contentLength := cl, metadata := collectMeta c.headers
        storageClass := orderedGet c.headers b!"x-amz-storage-class" }
    rw [e, e']
    exact .bind (hb.putObject cfg ext _) fun _ => .refl _
  · by_cases hpart : h = .uploadPart
    · subst hpart
      simp only [S3.extract, unwrapObjectPath, hp, Ctx.query, Ctx.header, hhd, hqs, bind_eq, pure_eq, prog_bind_assoc, Prog.bind]
      refine .bind (.refl _) fun _ => .bind (.refl _) fun _ => .bind (.refl _) fun _ => .bind (.refl _) fun _ => .bind (.refl _) fun _ => ?_
      exact .bind (A.body.uploadPart cfg ext _ _) fun _ => .refl _
    · refine .of_eq (congrArg (fun p : Prog Op => p.bind (opProg cfg ext)) ?_)
      cases h <;> first | exact absurd rfl hput | exact absurd rfl hpart |
        simp only [S3.extract, unwrapObjectPath, unwrapBucketPath, hp, Ctx.query, Ctx.header, hhd, hqs, hx]

theorem SameLoad.dispatchResponse (cfg : Cfg) (ext : Ext) (lib : Lib) (env : Env) (x : Texts) :
    AloneEq cfg (dispatchResponse cfg ext lib env x c') (dispatchResponse cfg ext lib env x c) := by
  have hm : c'.method = c.method := by rw [A.rest]
  have hp : c'.path = c.path := by rw [A.rest]
  simp only [S3.dispatchResponse, findHandler, A.isMatch, hm, hp, A.isSome]
  split
  · exact .refl _
  · split
    · rename_i h _
      simp only [runHandler, ← prog_bind_assoc, A.makeResponse]
      exact .bind (.bind (A.runOp cfg ext lib env h) fun _ => .refl _) fun _ => .refl _
    · exact .refl _

end

/-! ### the check of the signature -/

/-- the same error, or contexts that differ by the pieces only -/
def SameVerdict (x x' : Except S3ErrorCode Ctx) : Prop :=
  (∃ e, x = .error e ∧ x' = .error e) ∨ ∃ c c', x = .ok c ∧ x' = .ok c' ∧ SameLoad c c'

theorem SameVerdict.error (e : S3ErrorCode) : SameVerdict (.error e) (.error e) := .inl ⟨e, rfl, rfl⟩

theorem sameForm_of {boundary : Bytes} {b b' : Body} (h : SameBytes b b') (h1 : FirstLineUnsplit b) (h2 : FirstLineUnsplit b') :
    (∃ e e', transformMultipart boundary b = .error e ∧ transformMultipart boundary b' = .error e') ∨
    ∃ f f', transformMultipart boundary b = .ok f ∧ transformMultipart boundary b' = .ok f' ∧ SameForm f f' := by
  have hw : none ∈ b ↔ none ∈ b' := by
    have := h.whole
    simp only [unbroken] at this
    exact ⟨fun x => Classical.byContradiction fun y => this.mp y x, fun x => Classical.byContradiction fun y => this.mpr y x⟩
  have := C52_form_fragmentation_partial (boundary := boundary) h1 h2 h.bytes.symm hw
  simp only [formOutcome] at this
  cases ht : transformMultipart boundary b with
  | error e =>
    cases ht' : transformMultipart boundary b' with
    | error e' => exact .inl ⟨e, e', rfl, rfl⟩
    | ok f' => rw [ht, ht'] at this; cases this
  | ok f =>
    cases ht' : transformMultipart boundary b' with
    | error e' => rw [ht, ht'] at this; cases this
    | ok f' =>
      rw [ht, ht'] at this
      simp only [Except.toOption, Option.map_some, Option.some.injEq, Form.view, FormView.mk.injEq] at this
      obtain ⟨e1, e2, e3, e4, e5⟩ := this
      refine .inr ⟨f, f', rfl, rfl, e1.symm, e2.symm, e3.symm, ?_, ?_⟩
      · rw [received_fileBody, received_fileBody, e4]
      · have : ∀ d : FileData, unbroken d.toBody ↔ d.error = none := by
          intro d
          obtain ⟨ps, e⟩ := d
          cases e <;> simp [FileData.toBody, unbroken]
        rw [this, this, e5]

theorem sameVerdict {lib : Lib} {auth : Option Provider} {c : Ctx} (hc : c.multipart = none) {b' : Body} (h : SameBytes c.body b')
    (hf : c.formMime ≠ none → FirstLineUnsplit c.body ∧ FirstLineUnsplit b') :
    SameVerdict (checkSignature lib auth c) (checkSignature lib auth { c with body := b' }) := by
  have keep : SameLoad c { c with body := b' } := ⟨rfl, h, .inl ⟨hc, hc⟩⟩
  have e4 : Ctx.formMime { c with body := b' } = c.formMime := rfl
  have e5 : Ctx.presignedQuery { c with body := b' } = c.presignedQuery := rfl
  simp only [checkSignature, e4, e5]
  cases hm : c.formMime with
  | some mime =>
    obtain ⟨h1, h2⟩ := hf (by rw [hm]; simp)
    simp only [checkPostSignature]
    cases auth with
    | none => exact .error _
    | some p =>
      cases mime.boundary with
      | none => exact .error _
      | some b =>
        simp only [orErr, except_ok_bind]
        rcases sameForm_of (boundary := b) h h1 h2 with ⟨e, e', g, g'⟩ | ⟨f, f', g, g', hs⟩
        · rw [g, g']; exact .error _
        · rw [g, g']
          simp only [formOr, except_ok_bind]
          have : checkPostForm lib p f' = checkPostForm lib p f := by simp only [checkPostForm, hs.fields]
          rw [this]
          cases checkPostForm lib p f with
          | error e => exact .error _
          | ok _ => exact .inr ⟨_, _, rfl, rfl, rfl, .refl _, .inr ⟨f, f', rfl, rfl, hs⟩⟩
  | none =>
    simp only
    cases hq : c.presignedQuery with
    | some qs =>
      simp only [checkPresignedUrl]
      cases hu : PresignedUrl.fromQuery qs with
      | none => exact .error _
      | some u =>
        have e6 : ∀ s, presignedSignature lib.crypto { c with body := b' } qs u s = presignedSignature lib.crypto c qs u s := fun _ => rfl
        simp only [orErr, except_ok_bind, e6]
        cases extractSha c.headers with
        | error e => exact .error _
        | ok _ =>
          cases auth with
          | none => exact .error _
          | some p =>
            simp only [except_ok_bind]
            cases fetchSecretKey p u.credential.accessKeyId with
            | error e => exact .error _
            | ok s =>
              simp only [except_ok_bind]
              cases presignedSignature lib.crypto c qs u s == u.signature with
              | false => exact .error _
              | true => exact .inr ⟨_, _, rfl, rfl, keep⟩
    | none =>
      simp only [checkHeaderAuth]
      cases ha : extractAuthorization c.headers with
      | error e => exact .error _
      | ok x =>
        cases x with
        | none =>
          cases auth with
          | none => exact .inr ⟨_, _, rfl, rfl, keep⟩
          | some _ => exact .error _
        | some a =>
          have e7 : ∀ d pl s, headerSignature lib.crypto { c with body := b' } a d pl s = headerSignature lib.crypto c a d pl s := fun _ _ _ => rfl
          simp only [checkAuthorization, e7]
          cases auth with
          | none => exact .error _
          | some p =>
            simp only [orErr, except_ok_bind]
            cases extractSha c.headers with
            | error e => exact .error _
            | ok x =>
              cases x with
              | none => exact .error _
              | some sha =>
                simp only [except_ok_bind]
                cases fetchSecretKey p a.credential.accessKeyId with
                | error e => exact .error _
                | ok s =>
                  simp only [except_ok_bind]
                  cases extractDate c.headers with
                  | error e => exact .error _
                  | ok x =>
                    cases x with
                    | none => exact .error _
                    | some d =>
                      simp only [except_ok_bind]
                      by_cases hsha : sha = .multipleChunks
                      · subst hsha
                        simp only [headerPayload, if_true, except_ok_bind, checkedBody]
                        cases headerSignature lib.crypto c a d .multipleChunks s == a.signature with
                        | false => exact .error _
                        | true =>
                          refine .inr ⟨_, _, rfl, rfl, rfl, ?_, .inl ⟨hc, hc⟩⟩
                          have := C47_fragmentation (chunkSignature lib.crypto s d a.credential.region)
                            (headerSignature lib.crypto c a d .multipleChunks s) h.bytes h.whole
                          exact ⟨by simp only [received_toBody, this.1], by simp only [unbroken_toBody, this.2]⟩
                      · simp only [headerPayload, if_neg hsha, h.wholeBody, checkedBody]
                        cases wholeBody c.body with
                        | none => exact .error _
                        | some bytes =>
                          simp only [except_ok_bind]
                          cases headerSignature lib.crypto c a d (wholePayload sha bytes) s == a.signature with
                          | false => exact .error _
                          | true => exact .inr ⟨_, _, rfl, rfl, rfl, .refl _, .inl ⟨hc, hc⟩⟩

variable (cfg : Cfg) (ext : Ext) (lib : Lib) (auth : Option Provider) (env : Env)

theorem makeCtx_packets {r r' : Req} (h : SameButPackets r r') : makeCtx lib r' = (makeCtx lib r).map fun c => { c with body := r'.body } := by
  simp only [makeCtx, h.path, h.query, h.method, h.headers]
  cases urlDecode r.path with
  | none => rfl
  | some p =>
    simp only [orErr, except_ok_bind]
    cases extractS3Path p with
    | error e => rfl
    | ok s =>
      simp only [except_ok_bind]
      cases orderedHeaders r.headers with
      | none => rfl
      | some hs =>
        simp only [except_ok_bind]
        cases extractOpt .InvalidRequest lib.mime (orderedGet hs b!"content-type") <;> rfl

theorem admit_packets {r r' : Req} (h : SameButPackets r r') (hf : ∀ x, IsForm lib r x → FirstLineUnsplit r.body ∧ FirstLineUnsplit r'.body) :
    SameVerdict (admit lib auth r) (admit lib auth r') := by
  simp only [admit, makeCtx_packets lib h]
  cases hc : makeCtx lib r with
  | error e => exact .error _
  | ok c =>
    have M := makeCtx_ok.mp hc
    have hb := M.body
    refine sameVerdict M.multipart (hb ▸ h.body) fun hm => ?_
    obtain ⟨m, hm⟩ := Option.ne_none_iff_exists'.mp hm
    rw [hb]
    exact hf _ (formMime_some M hm)

/-- **C118** (partial) How the body of a request is cut into packets makes no difference: requests that are the same but for that, served
alone, get the same response and leave the same file tree, whatever they ask for, signed or not, admitted or not, and also if the connection
breaks behind the same bytes. Missing from the full property: forms whose first line is split, for which it is false
(`C118_form_fails`). -/
theorem C118_packets_partial {r r' : Req} (h : SameButPackets r r')
    (hf : ∀ x, IsForm lib r x → FirstLineUnsplit r.body ∧ FirstLineUnsplit r'.body) (x : Texts) (fs : FS) :
    responded cfg ext lib auth env x r' fs = responded cfg ext lib auth env x r fs ∧
    afterResponded cfg ext lib auth env x r' fs = afterResponded cfg ext lib auth env x r fs := by
  have : AloneEq cfg (hyperCall cfg ext lib auth env x r') (hyperCall cfg ext lib auth env x r) := by
    simp only [hyperCall, handleResponse]
    refine AloneEq.catch ?_
    rcases admit_packets lib auth h hf with ⟨e, h1, h2⟩ | ⟨c, c', h1, h2, hs⟩
    · rw [h1, h2]; exact .refl _
    · rw [h1, h2]; exact hs.dispatchResponse cfg ext lib env x
  exact ⟨congrArg Prod.fst (this fs), congrArg Prod.snd (this fs)⟩

/-- **C118** Requests that upload nothing (neither PUT to an object nor a form) even access the storage in the same way, so that the packets make
no difference to other clients either. -/
theorem C118_accesses {r r' : Req} (h : SameButPackets r r') (hp : ∀ b k, r.method = b!"PUT" → ¬ At r (.object b k))
    (hf : ∀ x, ¬ IsForm lib r x) (x : Texts) :
    hyperCall cfg ext lib auth env x r' = hyperCall cfg ext lib auth env x r := by
  simp only [hyperCall, handleResponse]
  congr 1
  rcases admit_packets lib auth h (fun x hx => absurd hx (hf x)) with ⟨e, h1, h2⟩ | ⟨c, c', h1, h2, A⟩
  · rw [h1, h2]
  · rw [h1, h2]
    have R := ready_of_admit h1
    have hm : c'.method = c.method := by rw [A.rest]
    have hp' : c'.path = c.path := by rw [A.rest]
    have hhd : c'.headers = c.headers := by rw [A.rest]
    have hqs : c'.qs = c.qs := by rw [A.rest]
    have hx : ∀ {α : Type} (f : Bytes → Option α), xmlBody f c'.body = xmlBody f c.body := fun f => by simp only [xmlBody, A.body.wholeBody]
    have hno : c.multipart = none := by
      cases hmp : c.multipart with
      | none => rfl
      | some f =>
        obtain ⟨b, hb, _⟩ := R.isForm f hmp
        exact absurd hb (hf _)
    have hno' : c'.multipart = none := by
      rcases A.form with ⟨_, g⟩ | ⟨f, _, g, _⟩
      · exact g
      · rw [hno] at g; cases g
    have hput : c.method = b!"PUT" → ∀ b k, c.path ≠ .object b k := by
      intro hc b k hk
      refine hp b k (R.method ▸ hc) ((R.path (.object b k)).mpr ?_)
      rw [hk]; rfl
    simp only [S3.dispatchResponse, findHandler, A.isMatch, hm, hp', A.isSome]
    split
    · rfl
    · split
      · rename_i h hh
        simp only [runHandler, A.makeResponse]
        congr 2
        have hmatch := List.find?_some hh
        cases h
        case putObject =>
          exfalso
          simp only [S3.isMatch, hno] at hmatch
          split at hmatch
          · simp at hmatch
          · split at hmatch
            · rename_i g
              cases hk : c.path with
              | object b k => exact hput (by simpa using g) b k hk
              | _ => rw [hk] at hmatch; simp [S3Path.isObject] at hmatch
            · cases hmatch
        case uploadPart =>
          simp only [S3.isMatch, Bool.and_eq_true, beq_iff_eq] at hmatch
          simp only [S3.extract, unwrapObjectPath, hp']
          cases hk : c.path with
          | object b k => exact absurd hk (hput hmatch.1.1 b k)
          | _ => rfl
        all_goals simp only [S3.extract, unwrapObjectPath, unwrapBucketPath, hp', Ctx.query, Ctx.header, hhd, hqs, hx]
      · rfl

/-! ### witnesses and examples -/

namespace Sample

/-- the body of a request in pieces: the first `n` bytes, a piece without bytes, and the rest -/
def cut (n : Nat) (r : Req) : Req := { r with body := [some ((received r.body).take n), some [], some ((received r.body).drop n)] }

theorem cut_same (n : Nat) {r : Req} (h : unbroken r.body) : SameButPackets r (cut n r) :=
  ⟨rfl, rfl, rfl, rfl, by simp [cut, received], by simp [cut, unbroken, h] ; exact h⟩

/-- a signed form -/
def signedForm : Req := formUpload (formFields b!"cG9saWN5" b!"k")

end Sample

/-- **C118** (negation) A signed form is accepted when it arrives in one piece, and refused when its first line arrives in two. -/
theorem C118_form_fails :
    ∃ (cfg : Cfg) (ext : Ext) (lib : Lib) (auth : Option Provider) (env : Env) (x : Texts) (fs : FS) (r r' : Req), WF fs ∧ SameButPackets r r' ∧
      unbroken r.body ∧ Sample.code (responded cfg ext lib auth env x r fs) = some 200 ∧
      stored cfg (afterResponded cfg ext lib auth env x r fs) b!"abc" b!"k" = some b!"content" ∧
      Sample.code (responded cfg ext lib auth env x r' fs) = some 400 ∧
      stored cfg (afterResponded cfg ext lib auth env x r' fs) b!"abc" b!"k" = none :=
  ⟨Sample.cfg, Sample.ext, Sample.lib, some Sample.provider, Sample.env, Sample.texts, Sample.fs, Sample.signedForm, Sample.cut 2 Sample.signedForm,
    Sample.fs_wf, Sample.cut_same _ (by simp [Sample.signedForm, Sample.formUpload, unbroken]),
    by simp [Sample.signedForm, Sample.formUpload, unbroken], by decide +kernel, by decide +kernel, by decide +kernel, by decide +kernel⟩

/-- a signed upload in two pieces is answered and stored like the one in one piece -/
example : responded Sample.cfg Sample.ext Sample.lib (some Sample.provider) Sample.env Sample.texts (Sample.cut 3 Sample.putZ) Sample.fs =
      responded Sample.cfg Sample.ext Sample.lib (some Sample.provider) Sample.env Sample.texts Sample.putZ Sample.fs ∧
    stored Sample.cfg (afterResponded Sample.cfg Sample.ext Sample.lib (some Sample.provider) Sample.env Sample.texts (Sample.cut 3 Sample.putZ) Sample.fs)
      b!"aaa" b!"z" = some b!"hello" ∧
    (Sample.cut 3 Sample.putZ).body = [some b!"hel", some [], some b!"lo"] := by
  have h := C118_packets_partial Sample.cfg Sample.ext Sample.lib (some Sample.provider) Sample.env
    (Sample.cut_same 3 (r := Sample.putZ) (by simp [Sample.putZ, Sample.signedRequest, unbroken]))
    (fun _ h => absurd h.1 (by decide)) Sample.texts Sample.fs
  exact ⟨h.1, by rw [h.2]; decide +kernel, by decide +kernel⟩

/-- a form whose second line is split is stored like the one in one piece -/
example : stored Sample.cfg (afterResponded Sample.cfg Sample.ext Sample.lib (some Sample.provider) Sample.env Sample.texts
    (Sample.cut 9 Sample.signedForm) Sample.fs) b!"abc" b!"k" = some b!"content" := by
  have h := C118_packets_partial Sample.cfg Sample.ext Sample.lib (some Sample.provider) Sample.env
    (Sample.cut_same 9 (r := Sample.signedForm) (by simp [Sample.signedForm, Sample.formUpload, unbroken]))
    (fun _ _ => ⟨?_, ?_⟩) Sample.texts Sample.fs
  · rw [h.2]; decide +kernel
  · rw [Sample.signedForm, Sample.formUpload]
    simp only [FirstLineUnsplit]
    rw [if_neg (by decide +kernel)]
    exact ⟨b!"--B", (received Sample.signedForm.body).drop 5, by decide +kernel, by decide⟩
  · rw [Sample.cut]
    simp only [FirstLineUnsplit]
    rw [if_neg (by decide +kernel)]
    exact ⟨b!"--B", ((received Sample.signedForm.body).take 9).drop 5, by decide +kernel, by decide⟩

/-- DeleteObjects with its document in two pieces -/
example : hyperCall Sample.cfg Sample.ext Sample.lib none Sample.env Sample.texts
      (Sample.cut 30 (Sample.plain b!"POST" b!"/aaa" (some b!"delete") [] [some Sample.delDoc])) =
    hyperCall Sample.cfg Sample.ext Sample.lib none Sample.env Sample.texts
      (Sample.plain b!"POST" b!"/aaa" (some b!"delete") [] [some Sample.delDoc]) :=
  C118_accesses Sample.cfg Sample.ext Sample.lib none Sample.env (Sample.cut_same 30 (by simp [Sample.plain, unbroken]))
    (fun _ _ h => absurd h (by decide)) (fun _ ⟨_, v, m, h1, h2, h3, _⟩ => by revert h1; simp [Sample.plain]) Sample.texts

end S3
