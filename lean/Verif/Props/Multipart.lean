import Verif.Lemmas.Multipart
import Verif.Props.DelCopy
/-! C24, C25, C35: multipart uploads. -/
namespace S3
open Spec

variable {cfg : Cfg} {ext : Ext}

/-! ### Vocabulary -/

/-- the bytes the request uploads as part `n` of `u` -/
def Spec.partOf (u : Bytes) (n : Int) : Op → Option Bytes
  | .uploadPart u' n' (some body) => if u' = u ∧ n' = n then some (received body) else none
  | _ => none

/-- the bytes uploaded last as part `n` of `u` -/
def Spec.lastPart (u : Bytes) (n : Int) : List Op → Option Bytes
  | [] => none
  | o :: os =>
    match lastPart u n os with
    | some c => some c
    | none => partOf u n o

/-- A request that leaves the parts of the upload `u` alone or uploads one: objects are addressed by plain keys in
legal buckets, upload ids contain no `/`, and the upload `u` is not completed. -/
def Spec.LeavesUpload (u : Bytes) : Op → Prop
  | .uploadPart u' _ _ => (47 : UInt8) ∉ u'
  | .completeMultipartUpload b k u' _ => checkBucketName b = true ∧ (∃ cs, PlainKey k cs) ∧ (47 : UInt8) ∉ u' ∧ u' ≠ u
  | .putObject i => checkBucketName i.bucket = true ∧ ∃ cs, PlainKey i.key cs
  | .copyObject b k _ => checkBucketName b = true ∧ ∃ cs, PlainKey k cs
  | .deleteObject b k => checkBucketName b = true ∧ ∃ cs, PlainKey k cs
  | .deleteObjects b ks => checkBucketName b = true ∧ ∀ k ∈ ks, ∃ cs, PlainKey k cs
  | .deleteBucket b | .createBucket b => checkBucketName b = true
  | _ => True

/-- A history in which parts of `u` are uploaded, in any order, possibly repeatedly and with other requests in between;
every upload of a part of `u` is answered with success. -/
def Spec.Uploads (cfg : Cfg) (ext : Ext) (u : Bytes) : List Op → FS → Prop
  | [], _ => True
  | o :: os, fs => LeavesUpload u o ∧ (∀ n body, o = .uploadPart u n body → ∃ a, answer cfg ext o fs = .ok a) ∧
      Uploads cfg ext u os (after cfg ext o fs)

/-! ### Frames including whole trees -/

/-- the paths a request may write or remove -/
def opTouch (cfg : Cfg) (o : Op) (q : Path) : Prop :=
  opOwn cfg o q ∨ ∃ p, (opPerm cfg o).tree p ∧ p <+: q

theorem op_frame_tree (cfg : Cfg) (ext : Ext) (o : Op) {fs : FS} (hw : WF fs) :
    Frame (opTouch cfg o) (opPerm cfg o).up fs (after cfg ext o fs) := by
  refine ((op_safe cfg ext o).mono (ok' := writeOk (opTouch cfg o) (opPerm cfg o).up) ?_ fun _ h => h).frame cfg hw
  intro c hc
  cases c with
  | mkdir p => exact .inl hc
  | create p => exact .inl (.inl hc)
  | writeAt i _ _ => exact .inl (.inl hc)
  | unlink p => exact .inl (.inr (.inl hc))
  | rmdir p => exact .inl (.inr (.inr hc))
  | rmtree p => exact fun q hq => .inr ⟨p, hc, hq⟩
  | _ => trivial

theorem bucket_not_part {b u : Bytes} {n : Int} (hb : checkBucketName b = true) : ¬ cfg.root ++ [b] <+: partFile cfg u n := by
  intro h
  have := List.IsPrefix.eq_of_length h (by simp [partFile])
  have := List.append_cancel_left (show cfg.root ++ [b] = cfg.root ++ [partName u n] from this)
  simp only [List.cons.injEq, and_true] at this
  subst this
  have := ((C02_bucket_name_rule _).mp hb).first 46 _ rfl
  rcases this with ⟨h, _⟩ | ⟨h, _⟩ <;> exact absurd h (by decide)

/-- a request that leaves the upload alone keeps its part files -/
theorem leaves_part {u : Bytes} {o : Op} (h : LeavesUpload u o) {n : Int} (hn : ∀ body, o ≠ .uploadPart u n body) {fs : FS}
    (hw : WF fs) : contentAt (after cfg ext o fs) (partFile cfg u n) = contentAt fs (partFile cfg u n) := by
  refine content_frame hw (op_frame_tree cfg ext o hw) ?_
  have hm : ∀ b k, metaP cfg b k (partFile cfg u n) → False := by
    intro b k hx
    have := List.append_cancel_left (show cfg.root ++ [partName u n] = cfg.root ++ [metadataName b k] from hx)
    simp only [List.cons.injEq, and_true] at this
    obtain ⟨t, ht⟩ := metadataName_last b k
    obtain ⟨t', d, hd, hdig⟩ := intDigits_last n
    rw [ht, partName, hd, ← List.append_assoc] at this
    have := (List.append_inj' this rfl).2
    simp only [List.cons.injEq, and_true] at this
    subst this
    revert hdig; decide
  have hpt : ∀ {u' n'}, (47 : UInt8) ∉ u' → partP cfg u' n' (partFile cfg u n) → u' = u ∧ n' = n := by
    rintro u' n' hu ⟨p, hp, hq⟩
    rw [partPath_eq cfg hu] at hp
    cases hp
    exact partFile_inj (cfg := cfg) hq.symm
  have ho : ∀ {b k}, checkBucketName b = true → (∃ cs, PlainKey k cs) → ¬ objP cfg b k (partFile cfg u n) := by
    rintro b k hb ⟨cs, hk⟩ hx
    exact plain_not_part hb hk hx rfl
  rintro ((hx | hx | hx) | ⟨p, hx, hpre⟩)
  · cases o <;> simp only [opPerm] at hx <;> simp only [LeavesUpload] at h
    case copyObject => exact hx.elim (ho h.1 h.2) (hm _ _)
    case putObject => exact hx.2.elim (ho h.1 h.2) fun hx => hm _ _ hx.2
    case uploadPart =>
      obtain ⟨rfl, rfl⟩ := hpt h hx
      exact hn _ rfl
    case completeMultipartUpload => exact ho h.1 h.2.1 hx
  · cases o <;> simp only [opPerm] at hx <;> simp only [LeavesUpload] at h
    case deleteObject => exact ho h.1 h.2 hx.2
    case deleteObjects =>
      obtain ⟨k, hk, hx⟩ := hx
      exact ho h.1 (h.2 k hk) hx
    case completeMultipartUpload =>
      obtain ⟨l, m, _, _, hx⟩ := hx
      exact h.2.2.2 (hpt h.2.2.1 hx).1
  · cases o <;> simp only [opPerm] at hx <;> simp only [LeavesUpload] at h
    case deleteObject => exact ho h.1 h.2 hx.2
  · cases o <;> simp only [opPerm] at hx <;> simp only [LeavesUpload] at h
    case deleteBucket b =>
      obtain ⟨p, hp, rfl⟩ := hx
      rw [bucketPath_legal cfg h] at hp
      cases hp
      exact bucket_not_part h hpre

theorem answer_uploadPart {u : Bytes} {n : Int} {body : Option Body} {fs : FS} {a : Answer}
    (h : answer cfg ext (.uploadPart u n body) fs = .ok a) :
    ∃ e, run cfg (uploadPart cfg ext u n body) fs = (.ok e, after cfg ext (.uploadPart u n body) fs) ∧ .etag (some e) = a := by
  obtain ⟨e, h1, h2⟩ := (run_map_fst (f := fun e => Answer.etag (some e))).mp h
  refine ⟨e, ?_, h2⟩
  have : after cfg ext (.uploadPart u n body) fs = (run cfg (uploadPart cfg ext u n body) fs).2 := run_map_snd
  rw [this, ← h1]

/-- after the history, the part file holds what was uploaded last -/
theorem uploads_content {u : Bytes} (os : List Op) :
    ∀ {fs : FS}, WF fs → Uploads cfg ext u os fs → ∀ n,
      contentAt (afterAll cfg ext os fs) (partFile cfg u n)
        = match lastPart u n os with
          | some c => some c
          | none => contentAt fs (partFile cfg u n) := by
  induction os with
  | nil => intro fs _ _ n; rfl
  | cons o os ih =>
    rintro fs hw ⟨h1, h2, h3⟩ n
    have := ih (wf_after hw) h3 n
    rw [show afterAll cfg ext (o :: os) fs = afterAll cfg ext os (after cfg ext o fs) from rfl, this]
    simp only [lastPart]
    cases lastPart u n os with
    | some c => rfl
    | none =>
      simp only
      by_cases hx : ∃ body, o = .uploadPart u n body
      · obtain ⟨body, rfl⟩ := hx
        obtain ⟨a, ha⟩ := h2 n body rfl
        obtain ⟨e, hr, _⟩ := answer_uploadPart ha
        cases body with
        | none => simp [uploadPart] at hr
        | some body =>
          rw [(uploadPart_run h1 hw hr).2.2.1]
          simp [partOf]
      · rw [leaves_part h1 (fun body e => hx ⟨body, e⟩) hw]
        have : partOf u n o = none := by
          cases o <;> try rfl
          case uploadPart u' n' body =>
            cases body with
            | none => rfl
            | some body =>
              simp only [partOf]
              rw [if_neg]
              rintro ⟨rfl, rfl⟩
              exact hx ⟨_, rfl⟩
        rw [this]

theorem wf_afterAll {os : List Op} {fs : FS} (hw : WF fs) : WF (afterAll cfg ext os fs) := by
  induction os generalizing fs with
  | nil => exact hw
  | cons o os ih => exact ih (wf_after hw)

/-- completing an upload whose parts are all there -/
theorem complete_run {b k u : Bytes} (hu : (47 : UInt8) ∉ u) {O : Path} (hO : ∀ m, O ≠ partFile cfg u m)
    (hp : objectPath cfg b k = some ⟨O, false⟩) {fs : FS} (hw : WF fs)
    (hc : ∃ i, (exec cfg fs (.create ⟨O, false⟩)).1 = some i) (contents : List Bytes)
    (hparts : ∀ (j : Nat) d, contents[j]? = some d → contentAt fs (partFile cfg u (0 + 1 + j)) = some d) :
    ∃ fs', run cfg (completeMultipartUpload cfg ext b k u (some (numbers 0 contents.length))) fs
        = (.ok (quoted (ext.md5hex contents.flatten)), fs') ∧
      contentAt fs' O = some contents.flatten ∧
      (∀ j : Nat, j < contents.length → fs'.lookup (partFile cfg u (0 + 1 + j)) = none) ∧
      Frame (fun q => q = O ∨ ∃ j : Nat, j < contents.length ∧ q = partFile cfg u (0 + 1 + j)) (fun _ => False) fs fs' := by
  obtain ⟨i, hi⟩ := hc
  have hw1 := exec_wf cfg hw (.create ⟨O, false⟩)
  have hf1 : Frame (· = O) (fun _ => False) fs (exec cfg fs (.create ⟨O, false⟩)).2 := exec_frame cfg hw (by exact rfl)
  have hh := (exec_create_snd hi).1
  obtain ⟨fs2, h1, h2, h3, h4, h5⟩ := completeLoop_run hu hO contents (cnt := 0) hw1 hh (by
    intro j d hj
    rw [content_frame hw hf1 (fun e => hO _ e.symm)]
    exact hparts j d hj)
  have h3' := h3.content
  rw [List.nil_append] at h3'
  refine ⟨fs2, ?_, h3', h4, ?_⟩
  · simp only [completeMultipartUpload, hp, bind_eq, pure_eq, run_orInternal_some]
    rw [run_call1, hi]
    simp only [run_orInternal_some]
    rw [run_bind, show (0 : Nat) = ([] : Bytes).length from rfl, h1]
    simp only [Outcome.andThen]
    rw [run_stat_bind, at_false, h3.node]
    simp only [Option.map_some, run_orInternal_some]
    rw [run_bind, getMd5Sum_run, hp]
    simp only [Option.bind_some, at_false, h3.node, h3.data, Outcome.andThen, List.nil_append, run_ret]
  · refine (hf1.mono (fun q e => .inl e) fun _ h => h).trans h5

theorem answer_complete {b k u : Bytes} {parts : Option (List (Option Int))} {fs : FS} {a : Answer} :
    answer cfg ext (.completeMultipartUpload b k u parts) fs = .ok a ↔
      ∃ e, (run cfg (completeMultipartUpload cfg ext b k u parts) fs).1 = .ok e ∧ .etag (some e) = a := run_map_fst

theorem after_complete {b k u : Bytes} {parts : Option (List (Option Int))} {fs : FS} :
    after cfg ext (.completeMultipartUpload b k u parts) fs
      = (run cfg (completeMultipartUpload cfg ext b k u parts) fs).2 := run_map_snd

theorem fits_name {c : Bytes} (h : PlainComp c) (hf : Fits c) : nameOk c = true := by
  simp [nameOk, h.nonempty, h.noSlash, h.notDot, h.notDotDot, hf.1, hf.2]

/-- completing an upload whose parts are all there stores their concatenation -/
theorem complete_stored {u b k : Bytes} {cs : List Bytes} (hu : (47 : UInt8) ∉ u) (hb : checkBucketName b = true)
    (hk : PlainKey k cs) (hfit : ∀ c ∈ cs, Fits c) {fs1 : FS} (hw1 : WF fs1) (contents : List Bytes)
    (hparts : ∀ (j : Nat) c, contents[j]? = some c → contentAt fs1 (partFile cfg u (j + 1)) = some c)
    (hdir : IsDir fs1 (cfg.root ++ b :: cs).dropLast) (hfree : ¬ IsDir fs1 (cfg.root ++ b :: cs)) :
    let o := Op.completeMultipartUpload b k u (some (numbers 0 contents.length))
    answer cfg ext o fs1 = .ok (.etag (some (quoted (ext.md5hex contents.flatten)))) ∧
    stored cfg (after cfg ext o fs1) b k = some contents.flatten ∧
    (∀ j : Nat, j < contents.length → contentAt (after cfg ext o fs1) (partFile cfg u (j + 1)) = none) ∧
    (∀ q, q ≠ cfg.root ++ b :: cs → (∀ j : Nat, j < contents.length → q ≠ partFile cfg u (j + 1)) →
      (after cfg ext o fs1).lookup q = fs1.lookup q ∧ contentAt (after cfg ext o fs1) q = contentAt fs1 q) := by
  intro o
  have hobj := objectPath_plain cfg hb hk
  have hcomm : ∀ j : Nat, (0 : Int) + 1 + j = j + 1 := fun j => by omega
  have hc : ∃ i, (exec cfg fs1 (.create ⟨cfg.root ++ b :: cs, false⟩)).1 = some i := by
    obtain ⟨t, l, htl⟩ : ∃ t l, cs = t ++ [l] := by
      rcases List.eq_nil_or_concat cs with h | ⟨t, l, h⟩
      · exact absurd h hk.nonempty
      · exact ⟨t, l, by simpa using h⟩
    subst htl
    have hl := hk.comps l (by simp)
    have e : cfg.root ++ b :: (t ++ [l]) = (cfg.root ++ b :: t) ++ [l] := by simp
    have hd : IsDir fs1 (cfg.root ++ b :: t) := by
      have := hdir
      rw [e, List.dropLast_concat] at this
      exact this
    rw [e]
    refine exec_create_ok ⟨hd, ?_, ?_⟩
    · intro c hc
      rcases List.mem_append.mp hc with h | h
      · have hne : cfg.root ++ b :: t ≠ [] := by simp
        exact (hw1.names _ (mem_of_lookup hne hd)).2 c h
      · rw [List.mem_singleton.mp h]; exact fits_name hl (hfit l (by simp))
    · have := hfree
      rw [e] at this
      exact this
  obtain ⟨fs', h1, h2, h3, h4⟩ := complete_run (ext := ext) hu
    (fun m => plain_not_part (u := u) (n := m) hb hk ((objP_plain hb hk).mpr rfl)) hobj hw1 hc contents (by
      intro j d hj
      rw [hcomm]
      exact hparts j d hj)
  have ha : after cfg ext o fs1 = fs' := by rw [after_complete, h1]
  rw [ha]
  refine ⟨answer_complete.mpr ⟨_, by rw [h1], rfl⟩, ?_, ?_, ?_⟩
  · simp [stored, hobj, h2]
  · intro j hj
    rw [← hcomm, contentAt, h3 j hj]
  · intro q hq hqp
    have hno : ¬ (q = cfg.root ++ b :: cs ∨ ∃ j : Nat, j < contents.length ∧ q = partFile cfg u (0 + 1 + j)) := by
      rintro (e | ⟨j, hj, e⟩)
      · exact hq e
      · rw [hcomm] at e; exact hqp j hj e
    refine ⟨?_, content_frame hw1 h4 hno⟩
    rcases h4.node q hno with h | h
    · exact h
    · exact absurd h.1 id

/-- **C24** (partial) In any history in which parts are uploaded under `u`, in any order, in any fragments, possibly
repeatedly and with other requests in between: if `contents` are the bytes uploaded last as the parts 1, 2, …, then
CompleteMultipartUpload with these part numbers succeeds, the object holds exactly the concatenation of the parts in
order, the answer carries its digest, the part files are gone, and nothing else has changed.
Missing from the full property: the directory the key lies in must exist already; otherwise the request fails, see
`C24_multipart_fails`. -/
theorem C24_multipart_partial {u b k : Bytes} {cs : List Bytes} (hu : (47 : UInt8) ∉ u) (hb : checkBucketName b = true)
    (hk : PlainKey k cs) (hfit : ∀ c ∈ cs, Fits c) {os : List Op} {fs : FS} (hw : WF fs)
    (hos : Uploads cfg ext u os fs) (contents : List Bytes)
    (hparts : ∀ (j : Nat) c, contents[j]? = some c → lastPart u (j + 1) os = some c)
    (hdir : IsDir (afterAll cfg ext os fs) (cfg.root ++ b :: cs).dropLast)
    (hfree : ¬ IsDir (afterAll cfg ext os fs) (cfg.root ++ b :: cs)) :
    let fs1 := afterAll cfg ext os fs
    let o := Op.completeMultipartUpload b k u (some (numbers 0 contents.length))
    answer cfg ext o fs1 = .ok (.etag (some (quoted (ext.md5hex contents.flatten)))) ∧
    stored cfg (after cfg ext o fs1) b k = some contents.flatten ∧
    (∀ j : Nat, j < contents.length → contentAt (after cfg ext o fs1) (partFile cfg u (j + 1)) = none) ∧
    (∀ q, q ≠ cfg.root ++ b :: cs → (∀ j : Nat, j < contents.length → q ≠ partFile cfg u (j + 1)) →
      (after cfg ext o fs1).lookup q = fs1.lookup q ∧ contentAt (after cfg ext o fs1) q = contentAt fs1 q) := by
  intro fs1 o
  refine complete_stored hu hb hk hfit (wf_afterAll hw) contents (fun j c hj => ?_) hdir hfree
  have := uploads_content (ext := ext) os hw hos (j + 1)
  rw [hparts j c hj] at this
  exact this

/-- parts 2, 1 (twice) and 3 are uploaded in this order, with a PUT in between -/
def Sample.ups : List Op :=
  [.uploadPart b!"id1" 2 (some [some b!"cd", some b!"e"]), .uploadPart b!"id1" 1 (some [some b!"old"]),
   .putObject Sample.put3, .uploadPart b!"id1" 1 (some [some b!"a", some [], some b!"b"]),
   .uploadPart b!"id1" 3 (some [])]

theorem plain2 {a c : Bytes} (h1 : PlainComp a) (h2 : PlainComp c) : PlainKey (a ++ 47 :: c) [a, c] :=
  ⟨by simp [joinWith], by simp, by simpa using ⟨h1, h2⟩⟩

example : Uploads Sample.cfg Sample.ext b!"id1" Sample.ups Sample.fs ∧
    (∀ (j : Nat) c, ([b!"ab", b!"cde", b!""] : List Bytes)[j]? = some c → lastPart b!"id1" (j + 1) Sample.ups = some c) ∧
    PlainKey b!"x" [b!"x"] ∧
    IsDir (afterAll Sample.cfg Sample.ext Sample.ups Sample.fs) (Sample.cfg.root ++ b!"aaa" :: [b!"x"]).dropLast ∧
    ¬ IsDir (afterAll Sample.cfg Sample.ext Sample.ups Sample.fs) (Sample.cfg.root ++ b!"aaa" :: [b!"x"]) ∧
    stored Sample.cfg (after Sample.cfg Sample.ext (.completeMultipartUpload b!"aaa" b!"x" b!"id1" (some (numbers 0 3)))
      (afterAll Sample.cfg Sample.ext Sample.ups Sample.fs)) b!"aaa" b!"x" = some b!"abcde" := by
  refine ⟨?_, ?_, plain1 (by decide), by unfold IsDir; decide +kernel, by unfold IsDir; decide +kernel, by decide +kernel⟩
  · refine ⟨by simp [LeavesUpload], fun n body h => ⟨.etag (some b!"\"md5:3\""), by decide +kernel⟩,
      by simp [LeavesUpload], fun n body h => ⟨.etag (some b!"\"md5:3\""), by decide +kernel⟩,
      ⟨by decide +kernel, _, plain2 (a := b!"d") (c := b!"e") ⟨by decide, by decide, by decide, by decide⟩
        ⟨by decide, by decide, by decide, by decide⟩⟩, (fun n body h => by cases h),
      by simp [LeavesUpload], fun n body h => ⟨.etag (some b!"\"md5:2\""), by decide +kernel⟩,
      by simp [LeavesUpload], fun n body h => ⟨.etag (some b!"\"md5:0\""), by decide +kernel⟩, trivial⟩
  · intro j c h
    rcases j with _ | _ | _ | j
    · simp at h; subst h; decide
    · simp at h; subst h; decide
    · simp at h; subst h; decide
    · simp at h

/-- C24 fails: the part has been uploaded, but the request to complete the upload under the key `a/b` is refused,
because the directory `a` does not exist. PutObject would have created it. -/
theorem C24_multipart_fails :
    ∃ (cfg : Cfg) (ext : Ext) (fs : FS) (b k u : Bytes) (body : Body) (a : Answer), WF fs ∧ checkBucketName b = true ∧
      PlainKey k [b!"a", b!"b"] ∧ (47 : UInt8) ∉ u ∧ unbroken body ∧
      answer cfg ext (.headBucket b) fs = .ok .done ∧
      answer cfg ext (.uploadPart u 1 (some body)) fs = .ok a ∧
      answer cfg ext (.completeMultipartUpload b k u (some [some 1])) (after cfg ext (.uploadPart u 1 (some body)) fs)
        = .err .InternalError :=
  ⟨Sample.cfg, Sample.ext, Sample.fs, b!"aaa", b!"a/b", b!"id1", [some b!"one"], .etag (some b!"\"md5:3\""), Sample.fs_wf,
    by decide +kernel, plain2 (a := b!"a") (c := b!"b") ⟨by decide, by decide, by decide, by decide⟩
        ⟨by decide, by decide, by decide, by decide⟩, by decide, by simp [unbroken], by decide +kernel, by decide +kernel,
    by decide +kernel⟩

/-! ### C35 -/

/-- all part files of `fs` are still there in `fs'`, or their bytes are in the file at `O` after the first `c` -/
def KeepsParts (cfg : Cfg) (u : Bytes) (O : Path) (c : Bytes) (fs fs' : FS) : Prop :=
  ∃ x, contentAt fs' O = some (c ++ x) ∧
    ∀ m d, contentAt fs (partFile cfg u m) = some d → contentAt fs' (partFile cfg u m) = some d ∨ d <:+: x

theorem alw_completeLoop {u : Bytes} (hu : (47 : UInt8) ∉ u) {ino : Ino} {O : Path} (hO : ∀ m, O ≠ partFile cfg u m)
    (parts : List (Option Int)) :
    ∀ {cnt : Int} {fs : FS} {c : Bytes}, WF fs → Has fs O ino c →
      alw cfg (KeepsParts cfg u O c fs) (completeLoop cfg u ino cnt c.length parts) fs := by
  induction parts with
  | nil =>
    intro cnt fs c hw h
    exact alw_ret ⟨[], by simpa using h.content, fun m d hd => .inl hd⟩
  | cons p parts ih =>
    intro cnt fs c hw h
    have h0 : KeepsParts cfg u O c fs fs := ⟨[], by simpa using h.content, fun m d hd => .inl hd⟩
    simp only [completeLoop, bind_eq]
    refine alw_orInternal h0 fun n _ => ?_
    split
    · exact alw_fail h0
    · rw [partPath_eq cfg hu]
      refine alw_orInternal h0 fun pp hpp => ?_
      cases hpp
      refine alw_call h0 ?_
      have hx : exec cfg fs (.openRead ⟨cfg.root ++ [partName u n], false⟩)
          = ((fs.lookup (partFile cfg u n)).map Node.handle, fs) := by
        simp only [exec, at_false]
        rw [show cfg.root ++ [partName u n] = partFile cfg u n from rfl]
        cases fs.lookup (partFile cfg u n) with
        | none => rfl
        | some x => cases x <;> rfl
      rw [hx]
      refine alw_orInternal h0 fun hd hhd => ?_
      cases hl : fs.lookup (partFile cfg u n) with
      | none => rw [hl] at hhd; cases hhd
      | some x =>
        cases x with
        | dir =>
          rw [hl] at hhd
          cases hhd
          refine alw_call h0 ?_
          exact alw_fail h0
        | file i =>
          rw [hl] at hhd
          cases hhd
          refine alw_call h0 ?_
          simp only [exec, Node.handle]
          refine alw_orInternal h0 fun content hcontent => ?_
          cases hcontent
          refine alw_call h0 ?_
          have hw1 := exec_wf cfg hw (.writeAt ino c.length (fs.data i))
          obtain ⟨hw2, h2, hg, hf⟩ := assemble_step hO hw h hl
          have h1 := h.write (cfg := cfg) c.length (fs.data i)
          rw [splice_end] at h1
          have hf1 : Frame (· = O) (fun _ => False) fs (exec cfg fs (.writeAt ino c.length (fs.data i))).2 :=
            exec_frame cfg hw (show ino.path = O from hw.of_file h.node)
          have hk1 : KeepsParts cfg u O c fs (exec cfg fs (.writeAt ino c.length (fs.data i))).2 :=
            ⟨fs.data i, h1.content, fun m d hd => .inl (by
              rw [content_frame hw hf1 (fun e => hO m e.symm)]; exact hd)⟩
          refine alw_call hk1 ?_
          have hux : exec cfg (exec cfg fs (.writeAt ino c.length (fs.data i))).2 (.unlink ⟨cfg.root ++ [partName u n], false⟩)
              = (true, (exec cfg fs (.writeAt ino c.length (fs.data i))).2.erase (partFile cfg u n)) := by
            have hl1 : (exec cfg fs (.writeAt ino c.length (fs.data i))).2.at ⟨partFile cfg u n, false⟩ = some (.file i) := by
              rw [at_false]; exact hl
            rw [show cfg.root ++ [partName u n] = partFile cfg u n from rfl]
            simp only [exec] at hl1
            simp only [exec, hl1]
          rw [hux]
          simp only [if_true]
          rw [show c.length + (fs.data i).length = (c ++ fs.data i).length by simp]
          refine alw_mono ?_ (ih hw2 h2)
          rintro fs' ⟨x, hx, hp⟩
          refine ⟨fs.data i ++ x, by rw [hx, List.append_assoc], ?_⟩
          intro m d hd
          by_cases hm : m = n
          · subst hm
            rw [contentAt, hl] at hd
            cases hd
            exact .inr ⟨[], x, by simp⟩
          · have := hp m d (by
              rw [content_frame hw hf]
              · exact hd
              · rintro (e | e)
                · exact hO m e.symm
                · exact hm (partFile_inj e).2)
            rcases this with h | ⟨y, z, h⟩
            · exact .inl h
            · exact .inr ⟨fs.data i ++ y, z, by rw [← h]; simp⟩

theorem exec_create_none {fs : FS} {p : OsPath} (h : (exec cfg fs (.create p)).1 = none) : (exec cfg fs (.create p)).2 = fs := by
  simp only [exec] at h ⊢
  split; · rfl
  rename_i h1
  simp only [if_neg h1] at h
  split; · rfl
  rename_i c h2
  simp only [h2] at h
  split
  · rfl
  · rename_i j h3; simp only [h3] at h; cases h
  · rename_i h3
    simp only [h3] at h
    split
    · rename_i h4
      simp only [h4] at h
      split
      · rename_i h5; simp only [if_pos h5] at h; cases h
      · rfl
    · rfl

/-- every part is still in its file or in the object -/
def Spec.PartsSafe (cfg : Cfg) (u b k : Bytes) (fs fs' : FS) : Prop :=
  ∀ m d, contentAt fs (partFile cfg u m) = some d →
    contentAt fs' (partFile cfg u m) = some d ∨ ∃ x, stored cfg fs' b k = some x ∧ d <:+: x

theorem alw_complete {b k u : Bytes} {cs : List Bytes} (hu : (47 : UInt8) ∉ u) (hb : checkBucketName b = true)
    (hk : PlainKey k cs) (parts : Option (List (Option Int))) {fs : FS} (hw : WF fs) :
    alw cfg (PartsSafe cfg u b k fs) (completeMultipartUpload cfg ext b k u parts) fs := by
  have hobj := objectPath_plain cfg hb hk
  have hO : ∀ m, cfg.root ++ b :: cs ≠ partFile cfg u m := fun m => plain_not_part hb hk ((objP_plain hb hk).mpr rfl)
  have h0 : PartsSafe cfg u b k fs fs := fun m d hd => .inl hd
  simp only [completeMultipartUpload, bind_eq, pure_eq]
  split
  · exact alw_fail h0
  · rename_i l
    rw [hobj]
    refine alw_orInternal h0 fun p hp => ?_
    cases hp
    refine alw_call h0 ?_
    have hw1 := exec_wf cfg hw (.create ⟨cfg.root ++ b :: cs, false⟩)
    cases hc : (exec cfg fs (.create ⟨cfg.root ++ b :: cs, false⟩)).1 with
    | none => exact alw_fail (by rw [exec_create_none hc]; exact h0)
    | some i =>
      have hh := (exec_create_snd hc).1
      have hf1 : Frame (· = cfg.root ++ b :: cs) (fun _ => False) fs (exec cfg fs (.create ⟨cfg.root ++ b :: cs, false⟩)).2 :=
        exec_frame cfg hw (by exact rfl)
      have hl := alw_completeLoop (cfg := cfg) hu hO l (cnt := 0) hw1 hh
      have hl' := alw_mono (J' := PartsSafe cfg u b k fs) (fun fs' ⟨x, hx, hp⟩ => by
        intro m d hd
        rcases hp m d (by rw [content_frame hw hf1 (fun e => hO m e.symm)]; exact hd) with h | h
        · exact .inl h
        · refine .inr ⟨x, ?_, h⟩
          simp [stored, hobj, hx]) hl
      show alw _ _ ((completeLoop cfg u i 0 0 l).bind _) _
      refine alw_bind hl' fun a fs2 e2 => ?_
      have h2 : PartsSafe cfg u b k fs fs2 := by
        have := alw_end hl'
        rw [show ([] : Bytes).length = 0 from rfl, e2] at this
        exact this
      refine alw_call h2 ?_
      have hx : (exec cfg fs2 (.stat ⟨cfg.root ++ b :: cs, false⟩)).2 = fs2 := rfl
      rw [hx]
      refine alw_orInternal h2 fun _ _ => ?_
      have hm : ∀ n, (runN cfg n (getMd5Sum cfg ext b k) fs2).2 = fs2 := by
        intro n
        have hs : Safe (readOk (fun _ => True)) (fun _ => True) (getMd5Sum cfg ext b k) :=
          (safe_getMd5Sum (π := { rd := fun _ => True }) (fun _ _ => trivial)).mono
            (perm_read (fun _ h => h) (fun _ h => h) (fun _ h => h) (fun _ h => h) (fun _ h => h) (fun _ h => h) (fun _ h => h))
            (fun _ h => h)
        have hw2 : WF fs2 := by
          have := run_wf cfg (completeLoop cfg u i 0 0 l) hw1
          rw [e2] at this; exact this
        refine hs.invN cfg (J := fun x => x = fs2) ?_ hw2 rfl n
        intro x c hwx hx hc
        have := (exec_readOk cfg hwx hwx (fun q _ => ⟨rfl, fun _ _ => rfl⟩) hc).2.1
        rw [this, hx]
      refine alw_bind (fun n => by rw [hm n]; exact h2) fun _ fs3 e3 => alw_ret ?_
      have : fs3 = fs2 := by
        have := getMd5Sum_run (cfg := cfg) (ext := ext) b k fs2
        rw [e3] at this
        split at this <;> cases this
        rfl
      rw [this]; exact h2

/-- **C35** At every crash point of CompleteMultipartUpload the bytes of every uploaded part are still in its part file,
or already in the object. -/
theorem C35_crash_in_complete {b k u : Bytes} {cs : List Bytes} (hu : (47 : UInt8) ∉ u) (hb : LegalBucket b)
    (hk : PlainKey k cs) (parts : Option (List (Option Int))) {fs : FS} (hw : WF fs) (n : Nat) (m : Int) (d : Bytes)
    (hd : contentAt fs (partFile cfg u m) = some d) :
    contentAt (runN cfg n (opProg cfg ext (.completeMultipartUpload b k u parts)) fs).2 (partFile cfg u m) = some d ∨
    ∃ x, stored cfg (runN cfg n (opProg cfg ext (.completeMultipartUpload b k u parts)) fs).2 b k = some x ∧ d <:+: x := by
  have hb' := (C02_bucket_name_rule b).mpr hb
  have h := alw_complete (cfg := cfg) (ext := ext) hu hb' hk parts hw
  exact (alw_bind h fun a fs' e => alw_ret (by have := alw_end h; rw [e] at this; exact this)) n m d hd

/-- crash after the first part has been appended and removed -/
example : contentAt (afterAll Sample.cfg Sample.ext Sample.ups Sample.fs) (partFile Sample.cfg b!"id1" 1) = some b!"ab" ∧
    contentAt (runN Sample.cfg 5 (opProg Sample.cfg Sample.ext (.completeMultipartUpload b!"aaa" b!"x" b!"id1" (some (numbers 0 3))))
      (afterAll Sample.cfg Sample.ext Sample.ups Sample.fs)).2 (partFile Sample.cfg b!"id1" 1) = none ∧
    stored Sample.cfg (runN Sample.cfg 5 (opProg Sample.cfg Sample.ext (.completeMultipartUpload b!"aaa" b!"x" b!"id1" (some (numbers 0 3))))
      (afterAll Sample.cfg Sample.ext Sample.ups Sample.fs)).2 b!"aaa" b!"x" = some b!"ab" :=
  ⟨by decide +kernel, by decide +kernel, by decide +kernel⟩

/-! ### C25 -/

/-- **C25** (partial) A CompleteMultipartUpload that is not answered with success leaves all objects other than the one
it names, and all parts it does not list, as they were; the bytes of a listed part are still in its file or in the
object; and without a list of parts nothing changes at all.
Missing from the full property: the named object and the listed parts may have changed, see
`C25_refused_complete_fails`. -/
theorem C25_refused_complete_partial {b k u : Bytes} {cs : List Bytes} (hu : (47 : UInt8) ∉ u) (hb : LegalBucket b)
    (hk : PlainKey k cs) (parts : Option (List (Option Int))) {fs : FS} (hw : WF fs) :
    let fs' := after cfg ext (.completeMultipartUpload b k u parts) fs
    (parts = none → answer cfg ext (.completeMultipartUpload b k u parts) fs = .err .InvalidPart ∧ fs' = fs) ∧
    (∀ b' k' cs', LegalBucket b' → PlainKey k' cs' → (b', k') ≠ (b, k) → stored cfg fs' b' k' = stored cfg fs b' k') ∧
    (∀ u' m, (u' ≠ u ∨ ∀ l, parts = some l → some m ∉ l) →
      contentAt fs' (partFile cfg u' m) = contentAt fs (partFile cfg u' m)) ∧
    (∀ m d, contentAt fs (partFile cfg u m) = some d →
      contentAt fs' (partFile cfg u m) = some d ∨ ∃ x, stored cfg fs' b k = some x ∧ d <:+: x) := by
  intro fs'
  have hb' := (C02_bucket_name_rule b).mpr hb
  have hfr := op_frame_tree cfg ext (.completeMultipartUpload b k u parts) hw
  refine ⟨?_, ?_, ?_, ?_⟩
  · rintro rfl
    exact ⟨rfl, rfl⟩
  · intro b1 k1 cs1 hb1 hk1 hne
    have hb1' := (C02_bucket_name_rule b1).mpr hb1
    simp only [stored, objectPath_plain cfg hb1' hk1]
    refine content_frame hw hfr ?_
    rintro ((h | ⟨l, m, _, _, h⟩ | h) | ⟨p, h, _⟩)
    · simp only [opPerm] at h
      rw [objP_plain hb' hk] at h
      have := plain_path_inj hk1 hk h
      exact hne (by rw [this.1, this.2])
    · refine plain_not_part (cfg := cfg) (u := u) (n := m) hb1' hk1 ((objP_plain hb1' hk1).mpr rfl) ?_
      obtain ⟨p, hp, hq⟩ := h
      rw [partPath_eq cfg hu] at hp
      cases hp
      exact hq
    · exact h
    · exact h
  · intro u' m hm
    refine content_frame hw hfr ?_
    rintro ((h | ⟨l, m', hl, hml, h⟩ | h) | ⟨p, h, _⟩)
    · exact plain_not_part hb' hk h rfl
    · obtain ⟨p, hp, hq⟩ := h
      rw [partPath_eq cfg hu] at hp
      cases hp
      obtain ⟨rfl, rfl⟩ := partFile_inj (cfg := cfg) hq
      rcases hm with h | h
      · exact h rfl
      · exact h l hl hml
    · exact h
    · exact h
  · intro m d hd
    have h := alw_end (alw_complete (cfg := cfg) (ext := ext) hu hb' hk parts hw)
    have e : fs' = _ := after_complete
    rw [e]
    exact h m d hd

example : answer Sample.cfg Sample.ext (.completeMultipartUpload b!"aaa" b!"x" b!"id1" (some [some 1, some 3]))
    (afterAll Sample.cfg Sample.ext Sample.ups Sample.fs) = .err .InternalError := by decide +kernel

/-- C25 fails: a CompleteMultipartUpload that lists the parts in the wrong order is refused, but the object it names has
lost its content; one that lists a part that is missing has consumed the part before it. -/
theorem C25_refused_complete_fails :
    ∃ (cfg : Cfg) (ext : Ext) (fs : FS) (b k u : Bytes), WF fs ∧ LegalBucket b ∧ PlainKey k [k] ∧ (47 : UInt8) ∉ u ∧
      stored cfg fs b k = some b!"hello" ∧
      answer cfg ext (.completeMultipartUpload b k u (some [some 2, some 1])) fs = .err .InternalError ∧
      stored cfg (after cfg ext (.completeMultipartUpload b k u (some [some 2, some 1])) fs) b k = some [] ∧
      contentAt fs (partFile cfg u 1) = some b!"ab" ∧
      answer cfg ext (.completeMultipartUpload b k u (some [some 1, some 3])) fs = .err .InternalError ∧
      contentAt (after cfg ext (.completeMultipartUpload b k u (some [some 1, some 3])) fs) (partFile cfg u 1) = none :=
  ⟨Sample.cfg, Sample.ext, afterAll Sample.cfg Sample.ext Sample.ups Sample.fs, b!"aaa", b!"x", b!"id1",
    wf_afterAll Sample.fs_wf, (C02_bucket_name_rule _).mp (by decide +kernel), plain1 (by decide), by decide,
    by decide +kernel, by decide +kernel, by decide +kernel, by decide +kernel, by decide +kernel, by decide +kernel⟩

end S3
