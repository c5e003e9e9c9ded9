import Verif.Lemmas.Place
import Verif.Props.DelCopy
import Verif.Props.Put
/-! C96: addresses that lead to the same place are the same object, all others are independent. -/
namespace S3
open Spec

variable {cfg : Cfg} {ext : Ext}

/-- a key of the form of a file name -/
theorem Sample.namesFile {k : Bytes} (h : k ≠ [] ∧ k ≠ b!"." ∧ endsAsDir k = false) : NamesFile k := by
  obtain ⟨h1, h2, h3⟩ := h
  refine ⟨h1, h2, ?_, ?_⟩
  · rintro t rfl
    simp [endsAsDir, endsWithByte] at h3
  · rintro t rfl
    simp [endsAsDir, endsWithByte] at h3

theorem Sample.names {b k : Bytes} {c d : Bytes} {r : List Bytes} (h1 : checkBucketName b = true)
    (h2 : k ≠ [] ∧ k ≠ b!"." ∧ endsAsDir k = false) (h3 : checkBucketName c = true)
    (h4 : if startsWith k b!"/" = true then Sample.cfg.root ++ c :: d :: r = (keyComps k).foldl dedotStep []
      else c :: d :: r = (keyComps k).foldl dedotStep [b]) : Names Sample.cfg.root b k (c :: d :: r) :=
  ⟨(C02_bucket_name_rule b).mp h1, Sample.namesFile h2, place_iff.mpr h4, c, d, r, rfl, (C02_bucket_name_rule c).mp h3⟩

/-- **C96** Every key that does not start with a slash leads to exactly one place; a key that starts with a slash leads
to at most one. The bytes of an object are those of the file at its place, whatever the spelling of its address. -/
theorem C96_place (root : List Bytes) (b k : Bytes) :
    ((∀ t, k ≠ b!"/" ++ t) → ∃ p, Place root b k p) ∧
    (∀ p p', Place root b k p → Place root b k p' → p = p') ∧
    (∀ cfg fs p, cfg.root = root → Names root b k p → stored cfg fs b k = contentAt fs (root ++ p)) := by
  refine ⟨fun h => ⟨(keyComps k).foldl dedotStep [b], ?_⟩, fun p p' h h' => ?_, ?_⟩
  · rw [place_iff, if_neg]
    intro hs
    obtain ⟨t, ht⟩ := startsWith_iff.mp hs
    exact h t ht
  · rw [place_iff] at h h'
    split at h
    · rename_i hs
      rw [if_pos hs] at h'
      rw [← h'] at h
      exact List.append_cancel_left h
    · rename_i hs
      rw [if_neg hs] at h'
      rw [h, h']
  · rintro cfg fs p rfl h
    exact stored_names h fs

example : Names Sample.cfg.root b!"aaa" b!"../bbb//./y" [b!"bbb", b!"y"] ∧ Names Sample.cfg.root b!"aaa" b!"/srv/bbb/y" [b!"bbb", b!"y"] ∧
    Names Sample.cfg.root b!"bbb" b!"y" [b!"bbb", b!"y"] ∧ Names Sample.cfg.root b!"bbb" b!"d/../y" [b!"bbb", b!"y"] ∧
    stored Sample.cfg Sample.fs b!"aaa" b!"../bbb//./y" = some b!"world!" ∧
    stored Sample.cfg Sample.fs b!"aaa" b!"/srv/bbb/y" = some b!"world!" :=
  ⟨Sample.names (by decide +kernel) (by decide) (by decide +kernel) (by decide +kernel),
    Sample.names (by decide +kernel) (by decide) (by decide +kernel) (by decide +kernel),
    Sample.names (by decide +kernel) (by decide) (by decide +kernel) (by decide +kernel),
    Sample.names (by decide +kernel) (by decide) (by decide +kernel) (by decide +kernel),
    by decide +kernel, by decide +kernel⟩

/-- **C96** Two addresses of the same place always show the same bytes: whatever GET delivers for the one (the whole
object or a range), it delivers for the other, with the same length and entity tag; only the metadata belongs to the
spelling of the address. If one does not exist, neither does the other. -/
theorem C96_same {b k b' k' : Bytes} {p : List Bytes} (h : Names cfg.root b k p) (h' : Names cfg.root b' k' p)
    (fs : FS) (r : Option Bytes) (w : Nat → Nat) :
    (∀ n md e body md', answer cfg ext (.getObject b k r w) fs = .ok (.object n md e body) →
      storedMeta cfg ext fs b' k' = some md' →
      answer cfg ext (.getObject b' k' r w) fs = .ok (.object n md' e body)) ∧
    (answer cfg ext (.getObject b k r w) fs = .err .NoSuchKey ↔
      answer cfg ext (.getObject b' k' r w) fs = .err .NoSuchKey) := by
  have hp := objectPath_names cfg h
  have hp' := objectPath_names cfg h'
  have ha : fs.at ⟨cfg.root ++ p, false⟩ = fs.lookup (cfg.root ++ p) := at_false _ _
  have hinv : ∀ b k fs, objectPath cfg b k = some ⟨cfg.root ++ p, false⟩ → rangeOf r = none →
      run cfg (getObjectFull cfg ext b k r w) fs = (.err .InvalidRequest, fs) := by
    intro b k fs hp hr
    simp only [getObjectFull, getObject, bind_eq, hp]
    rw [run_bind]
    rw [run_orInternal_some, parseRange_bind, hr]
    rfl
  have herr : ∀ b k, (answer cfg ext (.getObject b k r w) fs = .err .NoSuchKey ↔
      (run cfg (getObjectFull cfg ext b k r w) fs).1 = .err .NoSuchKey) := fun b k => run_map_err
  cases hr : rangeOf r with
  | none =>
    refine ⟨fun n md e body md' hg _ => ?_, ?_⟩
    · rw [answer_get] at hg
      obtain ⟨o, ho, _⟩ := hg
      rw [hinv b k fs hp hr] at ho; cases ho
    · rw [herr, herr, hinv b k fs hp hr, hinv b' k' fs hp' hr]
  | some x =>
    cases hl : fs.lookup (cfg.root ++ p) with
    | none =>
      rw [hl] at ha
      refine ⟨fun n md e body md' hg _ => ?_, ?_⟩
      · rw [answer_get] at hg
        obtain ⟨o, ho, _⟩ := hg
        rw [get_run_none hp ha hr] at ho; cases ho
      · rw [herr, herr, get_run_none hp ha hr, get_run_none hp' ha hr]
    | some nd =>
      rw [hl] at ha
      cases nd with
      | dir =>
        have hd := get_run_dir (cfg := cfg) (ext := ext) (r := r) (wants := w) hp ha
        have hd' := get_run_dir (cfg := cfg) (ext := ext) (r := r) (wants := w) hp' ha
        refine ⟨fun n md e body md' hg _ => ?_, ?_⟩
        · rw [answer_get] at hg
          obtain ⟨o, ho, _⟩ := hg
          rcases hd with hd | hd | hd <;> rw [ho] at hd <;> cases hd
        · rw [herr, herr]
          constructor
          · intro he; rcases hd with hd | hd | hd <;> rw [he] at hd <;> cases hd
          · intro he; rcases hd' with hd | hd | hd <;> rw [he] at hd <;> cases hd
      | file i =>
        have g := get_run_file (cfg := cfg) (ext := ext) (wants := w) hp ha hr
        have g' := get_run_file (cfg := cfg) (ext := ext) (wants := w) hp' ha hr
        refine ⟨fun n md e body md' hg hm => ?_, ?_⟩
        · rw [answer_get] at hg ⊢
          obtain ⟨o, ho, hx⟩ := hg
          rw [g] at ho
          rw [g', show metaAt ext fs (cfg.root ++ [metadataName b' k']) = some md' from hm]
          cases hs : rangeSlice (fs.data i).length x with
          | none => rw [hs] at ho; cases ho
          | some ol =>
            obtain ⟨off, len⟩ := ol
            rw [hs] at ho
            cases hmd : metaAt ext fs (cfg.root ++ [metadataName b k]) with
            | none => simp only [hmd] at ho; cases ho
            | some md0 =>
              simp only [hmd] at ho
              by_cases hlen : len ≤ i64Max
              · rw [if_pos hlen] at ho
                cases ho
                cases hx
                simp only [if_pos hlen]
                exact ⟨_, rfl, rfl⟩
              · rw [if_neg hlen] at ho; cases ho
        · rw [herr, herr, g, g']
          have hno : ∀ b k, ¬ (match rangeSlice (fs.data i).length x with
              | none => ((.err .InvalidRange, fs) : Outcome (GetOutput × Option Bytes) × FS)
              | some (off, len) =>
                match metaAt ext fs (cfg.root ++ [metadataName b k]) with
                | none => (.err .InternalError, fs)
                | some md =>
                  if len ≤ i64Max then
                    (.ok (⟨.file i, off, len, len, md, quoted (ext.md5hex (fs.data i))⟩,
                      some (((fs.data i).drop off).take len)), fs)
                  else (.err .InternalError, fs)).1 = .err .NoSuchKey := by
            intro b k hc
            split at hc
            · cases hc
            · split at hc
              · cases hc
              · split at hc <;> cases hc
          exact ⟨fun hc => (hno _ _ hc).elim, fun hc => (hno _ _ hc).elim⟩

example : answer Sample.cfg Sample.ext (.getObject b!"aaa" b!"../bbb//./y" (some b!"bytes=1-3") fun _ => 2) Sample.fs
      = .ok (.object 3 none b!"\"md5:6\"" (some b!"orl")) ∧
    storedMeta Sample.cfg Sample.ext Sample.fs b!"bbb" b!"y" = some none ∧
    answer Sample.cfg Sample.ext (.getObject b!"aaa" b!"../bbb//./zz" none fun _ => 2) Sample.fs = .err .NoSuchKey :=
  ⟨by decide +kernel, by decide +kernel, by decide +kernel⟩

/-- **C96** What is written under one address is read under every address of the same place: after a successful
PutObject the other address delivers the body; after a successful DeleteObject it is gone. -/
theorem C96_alias {b k b' k' : Bytes} {p : List Bytes} (h : Names cfg.root b k p) (h' : Names cfg.root b' k' p)
    {fs : FS} (hw : WF fs) (w : Nat → Nat) :
    (∀ i a md', i.bucket = b → i.key = k → answer cfg ext (.putObject i) fs = .ok a →
      storedMeta cfg ext (after cfg ext (.putObject i) fs) b' k' = some md' →
      ∃ body, i.body = some body ∧ unbroken body ∧ ((received body).length ≤ i64Max →
        answer cfg ext (.getObject b' k' none w) (after cfg ext (.putObject i) fs)
          = .ok (.object (received body).length md' (quoted (ext.md5hex (received body))) (some (received body))))) ∧
    (∀ a, answer cfg ext (.deleteObject b k) fs = .ok a →
      answer cfg ext (.getObject b' k' none w) (after cfg ext (.deleteObject b k) fs) = .err .NoSuchKey) := by
  constructor
  · rintro i a md' rfl rfl ha hm
    have hi : ObjectPut i := ⟨(C02_bucket_name_rule _).mpr h.bucket, namesFile_slash h.key⟩
    obtain ⟨e, rfl, hd⟩ := put_done hi hw ha
    obtain ⟨body, hb, hu, hs, _⟩ := hd.body
    refine ⟨body, hb, hu, fun hlen => ?_⟩
    rw [stored_names h, ← stored_names h'] at hs
    exact (get_stored hs hm hlen w).1
  · intro a ha
    obtain ⟨hr, -⟩ := answer_del.mp ha
    rw [after_del]
    have hp := objectPath_names cfg h
    have hp' := objectPath_names cfg h'
    have hrun := deleteObject_run (cfg := cfg) (b := b) (namesFile_slash h.key) fs
    rw [hp] at hrun
    rw [hrun] at hr
    have hgone : (run cfg (deleteObject cfg b k) fs).2.lookup (cfg.root ++ p) = none := by
      rw [hrun]
      simp only [unlinked, at_false] at hr ⊢
      split at hr
      · rename_i j hj
        simp only
        rw [lookup_erase, if_neg, if_pos rfl]
        have := inBucket_ne h.inside
        simp [this]
      · cases hr
    refine run_map_err.mpr ?_
    rw [get_run_none hp' (by rw [at_false]; exact hgone) (x := none) rfl]

example : answer Sample.cfg Sample.ext (.putObject (samplePut b!"aaa" b!"../bbb//./y" b!"new")) Sample.fs = .ok (.etag (some b!"\"md5:3\"")) ∧
    answer Sample.cfg Sample.ext (.getObject b!"bbb" b!"y" none fun _ => 9)
      (after Sample.cfg Sample.ext (.putObject (samplePut b!"aaa" b!"../bbb//./y" b!"new")) Sample.fs)
      = .ok (.object 3 none b!"\"md5:3\"" (some b!"new")) ∧
    answer Sample.cfg Sample.ext (.deleteObject b!"aaa" b!"../bbb//./y") Sample.fs = .ok .done :=
  ⟨by decide +kernel, by decide +kernel, by decide +kernel⟩

/-- **C96** Different places are independent: PutObject, DeleteObject, CopyObject, CompleteMultipartUpload (and
UploadPart) at one place change the content of no object at another place, whatever the spelling of the two addresses;
an object that exists there keeps its GET answer and its HEAD answer. -/
theorem C96_apart (o : Op) {fs : FS} (hw : WF fs) {b k b' k' : Bytes} {p p' : List Bytes}
    (h : Names cfg.root b k p) (h' : Names cfg.root b' k' p') (hwr : WritesTo b k o) (hne : p ≠ p') :
    stored cfg (after cfg ext o fs) b' k' = stored cfg fs b' k' ∧
    (stored cfg fs b' k' ≠ none → ∀ r w,
      answer cfg ext (.getObject b' k' r w) (after cfg ext o fs) = answer cfg ext (.getObject b' k' r w) fs ∧
      answer cfg ext (.headObject b' k') (after cfg ext o fs) = answer cfg ext (.headObject b' k') fs) := by
  have ht : ∀ q, ¬ (opPerm cfg o).tree q := by
    intro q h
    cases o <;> first | exact h.elim | exact hwr.elim
  have hf := op_frame cfg ext o ht hw
  have hobj : ¬ opOwn cfg o (cfg.root ++ p') := by
    intro ho
    rcases own_names h hwr ho with ho | ho | ⟨u, n, _, ho⟩
    · exact hne (List.append_cancel_left ho).symm
    · exact place_not_hidden h'.inside _ ho
    · exact place_not_hidden h'.inside _ ho
  have hdiff : ¬ (b' = b ∧ k' = k) := by
    rintro ⟨rfl, rfl⟩
    exact hne ((C96_place cfg.root b' k').2.1 p p' h.place h'.place)
  have hmeta : ¬ opOwn cfg o (metaFile cfg b' k') := by
    intro ho
    rcases own_names h hwr ho with ho | ho | ⟨u, n, hp, ho⟩
    · exact place_not_hidden h.inside _ ho.symm
    · simp only [metaFile, List.append_cancel_left_eq, List.cons.injEq, and_true] at ho
      exact hdiff (metadataName_inj ho)
    · exact metaFile_ne_part cfg b' k' hp rfl
  have hup : ¬ (opPerm cfg o).up (metaFile cfg b' k') := by
    intro hu
    cases o with
    | putObject i =>
      obtain ⟨rfl, rfl⟩ := hwr
      obtain ⟨q, hq, hd⟩ := hu
      rw [objP_names h] at hq
      subst hq
      refine place_not_meta h.inside b' k' (hd.trans ?_)
      split
      · exact List.prefix_refl _
      · exact List.dropLast_prefix _
    | _ => first | exact hu.elim | exact hwr.elim
  rw [stored_names h', stored_names h']
  refine ⟨frame_content hw hf hobj, ?_⟩
  intro hex r w
  have hl : fs.lookup (cfg.root ++ p') ≠ none := by
    intro h; simp [contentAt, h] at hex
  refine get_local cfg ext r w (run_wf cfg _ hw) hw ?_
  intro q hq
  rcases hq with hq | hq
  · rw [objP_names h'] at hq
    subst hq
    exact frame_same hf hobj (Or.inr hl)
  · rw [show q = metaFile cfg b' k' from hq]
    exact frame_same hf hmeta (Or.inl hup)

example : WritesTo b!"aaa" b!"../bbb/z" (.putObject (samplePut b!"aaa" b!"../bbb/z" b!"new")) ∧
    Names Sample.cfg.root b!"aaa" b!"../bbb/z" [b!"bbb", b!"z"] ∧ [b!"bbb", b!"z"] ≠ [b!"bbb", b!"y"] ∧
    stored Sample.cfg Sample.fs b!"bbb" b!"d/../y" = some b!"world!" :=
  ⟨⟨rfl, rfl⟩, Sample.names (by decide +kernel) (by decide) (by decide +kernel) (by decide +kernel), by decide, by decide +kernel⟩

/-- **C96** A successful CopyObject between different places copies: the destination has the bytes of the source, the
source keeps them. Between two addresses of the same place it destroys: both are empty afterwards. -/
theorem C96_copy {b k s sb sk : Bytes} {p sp : List Bytes} (h : Names cfg.root b k p)
    (hs : copySourceFromHeader s = .ok (sb, sk)) (hn : Names cfg.root sb sk sp) {fs : FS} (hw : WF fs) {a : Answer}
    (ha : answer cfg ext (.copyObject b k s) fs = .ok a) :
    ∃ c, stored cfg fs sb sk = some c ∧
      (p ≠ sp → stored cfg (after cfg ext (.copyObject b k s) fs) b k = some c ∧
        stored cfg (after cfg ext (.copyObject b k s) fs) sb sk = some c ∧
        a = .etag (some (quoted (ext.md5hex c)))) ∧
      (p = sp → stored cfg (after cfg ext (.copyObject b k s) fs) b k = some [] ∧
        stored cfg (after cfg ext (.copyObject b k s) fs) sb sk = some []) := by
  obtain ⟨e, he, rfl⟩ := answer_copy.mp ha
  rw [after_copy]
  have hsm : ∀ q, objP cfg sb sk q → q ≠ metaFile cfg b k := by
    intro q hq e
    rw [objP_names hn] at hq
    subst hq
    exact place_not_hidden hn.inside _ e
  obtain ⟨c, src, dst, h1, h2, h3, h4, h5, h6⟩ := copy_done ((C02_bucket_name_rule b).mpr h.bucket) hs hsm hw
    (show run cfg (copyObject cfg ext b k s) fs = (.ok e, _) from Prod.ext he rfl)
  rw [objectPath_names cfg hn] at h1
  rw [objectPath_names cfg h] at h2
  cases h1; cases h2
  refine ⟨c, h3, fun hne => ?_, fun heq => ?_⟩
  · have : ¬ (cfg.root ++ sp = cfg.root ++ p) := fun e => hne (List.append_cancel_left e).symm
    simp only [if_neg this] at h4 h5 h6
    exact ⟨h4, h5, by rw [h6]⟩
  · subst heq
    simp only [if_true] at h4 h5
    exact ⟨h4, h5⟩

example : copySourceFromHeader b!"bbb/y" = .ok (b!"bbb", b!"y") ∧
    answer Sample.cfg Sample.ext (.copyObject b!"aaa" b!"../bbb/z" b!"bbb/y") Sample.fs = .ok (.etag (some b!"\"md5:6\"")) ∧
    answer Sample.cfg Sample.ext (.copyObject b!"aaa" b!"../bbb/y" b!"bbb/y") Sample.fs = .ok (.etag (some b!"\"md5:0\"")) :=
  ⟨by decide +kernel, by decide +kernel, by decide +kernel⟩

end S3
