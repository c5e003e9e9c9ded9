import Verif.Props.Address
import Verif.Props.Put
import Verif.Lemmas.OpSafe
import Verif.Lemmas.DelCopy
import Verif.Lemmas.Crash
import Verif.Props.Sample
/-! C68: folder objects. -/
namespace S3
open Spec

variable {cfg : Cfg} {ext : Ext}

/-- **C68** (no content) PutObject to a key that ends with `/` is refused unless it announces an empty body (`Content-Length: 0`);
the error is UnexpectedContent if nothing else is wrong with the request; nothing changes. -/
theorem C68_folder_content {i : PutInput} {t : Bytes} (hk : i.key = t ++ b!"/") (hl : i.contentLength ≠ some 0) (fs : FS) :
    (∃ e, answer cfg ext (.putObject i) fs = .err e) ∧ after cfg ext (.putObject i) fs = fs ∧
    ((i.storageClass = none ∨ i.storageClass = some b!"STANDARD" ∨ i.storageClass = some b!"REDUCED_REDUNDANCY") →
      i.body ≠ none → answer cfg ext (.putObject i) fs = .err .UnexpectedContent) := by
  have he : endsWithByte i.key 47 = true := endsWithByte_iff.mpr ⟨t, hk⟩
  simp only [answer, after, opProg, putObject, he, if_true, hl, if_false]
  split
  · rename_i hsc
    refine ⟨⟨_, rfl⟩, rfl, ?_⟩
    rintro (h | h | h) <;> rw [h] at hsc <;> exact absurd hsc (by decide)
  · split
    · rename_i hb
      exact ⟨⟨_, rfl⟩, rfl, fun _ h => absurd hb h⟩
    · exact ⟨⟨_, rfl⟩, rfl, fun _ _ => rfl⟩

theorem createDirAllRev_done (l : List Bytes) : ∀ {fs fs' : FS}, run cfg (createDirAllRev l) fs = (.ok (), fs') →
    fs'.lookup l.reverse = some .dir := by
  have req : ∀ {p : Path} {fs fs' : FS}, run cfg (requireDir p) fs = (.ok (), fs') → fs'.lookup p = some .dir := by
    intro p fs fs' h
    simp only [requireDir, bind_eq, pure_eq] at h
    rw [run_call1] at h
    cases hc : (exec cfg fs (.stat ⟨p, false⟩)).1 with
    | none => rw [hc] at h; cases h
    | some s =>
      rw [hc] at h
      cases s with
      | file n => cases h
      | dir =>
        simp only [exec, FS.at, Bool.false_eq_true, if_false] at hc
        have : fs' = fs := by injection h with _ h; exact h.symm
        subst this
        split at hc
        · rename_i h'; split at h' <;> simp_all
        · cases hc
        · cases hc
  have mk : ∀ {p : Path} {fs : FS}, (exec cfg fs (.mkdir p)).1 = .ok → (exec cfg fs (.mkdir p)).2.lookup p = some .dir := by
    intro p fs h
    simp only [exec] at h ⊢
    split at h; · cases h
    rename_i h0
    rw [if_neg h0]
    split at h; · cases h
    rename_i c hc
    split at h
    · cases h
    · cases h
    · rename_i hd
      split at h
      · cases h
      · rename_i hn
        split at h
        · rename_i hok
          simp only [hok, if_true, lookup_set]
          split <;> rfl
        · cases h
  induction l with
  | nil => intro fs fs' _; exact lookup_nil _
  | cons c up ih =>
    intro fs fs' h
    simp only [createDirAllRev, bind_eq, pure_eq] at h
    rw [run_call1] at h
    cases hc : (exec cfg fs (.mkdir (c :: up).reverse)).1 with
    | ok =>
      rw [hc] at h
      have : fs' = (exec cfg fs (.mkdir (c :: up).reverse)).2 := by injection h with _ h; exact h.symm
      rw [this]; exact mk hc
    | failed => rw [hc] at h; exact req h
    | notFound =>
      rw [hc] at h
      simp only at h
      obtain ⟨_, fs1, _, h2⟩ := run_bind_ok h
      rw [run_call1] at h2
      cases hc2 : (exec cfg fs1 (.mkdir (c :: up).reverse)).1 with
      | ok =>
        rw [hc2] at h2
        have : fs' = (exec cfg fs1 (.mkdir (c :: up).reverse)).2 := by injection h2 with _ h; exact h.symm
        rw [this]; exact mk hc2
      | failed => rw [hc2] at h2; exact req h2
      | notFound => rw [hc2] at h2; exact req h2

theorem joinWith_slash {cs : List Bytes} (h : cs ≠ []) : joinWith 47 (cs ++ [[]]) = joinWith 47 cs ++ b!"/" := by
  induction cs with
  | nil => exact absurd rfl h
  | cons c r ih =>
    cases r with
    | nil => rfl
    | cons d r => simp only [List.cons_append, joinWith] at ih ⊢; rw [ih (by simp)]; simp

/-- a folder key names the directory of its components -/
theorem objectPath_folder {b k : Bytes} {cs : List Bytes} (hb : checkBucketName b = true) (hk : PlainKey k cs) :
    ∃ s, objectPath cfg b (k ++ b!"/") = some ⟨cfg.root ++ b :: cs, s⟩ := by
  have hsp : splitAll 47 (k ++ b!"/") = cs ++ [[]] := by
    have : k ++ b!"/" = joinWith 47 (cs ++ [[]]) := by
      rw [hk.text]; exact (joinWith_slash hk.nonempty).symm
    rw [this, splitAll_joinWith (by simp)]
    intro p hp
    rcases List.mem_append.mp hp with h | h
    · exact (hk.comps p h).noSlash
    · simp only [List.mem_cons, List.not_mem_nil, or_false] at h; rw [h]; simp
  have hc : keyComps (k ++ b!"/") = cs := by
    rw [keyComps, hsp, List.filter_append, List.filter_append]
    have h1 : cs.filter (· ≠ []) = cs := List.filter_eq_self.mpr fun c hc => by simpa using (hk.comps c hc).nonempty
    have h2 : cs.filter (· ≠ b!".") = cs := List.filter_eq_self.mpr fun c hc => by simpa using (hk.comps c hc).notDot
    rw [h1, h2]; simp
  have h1 : startsWith (k ++ b!"/") b!"/" = false := by
    obtain ⟨x, t, hx, hne⟩ : ∃ x t, k = x :: t ∧ x ≠ 47 := by
      cases hcs : cs with
      | nil => exact absurd hcs hk.nonempty
      | cons c r =>
        have hc := hk.comps c (by rw [hcs]; simp)
        cases hcc : c with
        | nil => exact absurd hcc hc.nonempty
        | cons x t =>
          refine ⟨x, ?_⟩
          have hx : x ≠ 47 := fun e => hc.noSlash (by rw [hcc, e]; simp)
          rw [hk.text, hcs, hcc]
          cases r with
          | nil => exact ⟨t, rfl, hx⟩
          | cons d r => exact ⟨_, rfl, hx⟩
    rw [hx]
    simp [startsWith, List.isPrefixOf, Ne.symm hne]
  have h2 : b!".." ∉ splitAll 47 (k ++ b!"/") := by
    rw [hsp]
    intro h
    rcases List.mem_append.mp h with h | h
    · exact (hk.comps _ h).notDotDot rfl
    · exact absurd h (by decide)
  obtain ⟨s, hs⟩ := objectPath_relative cfg hb h1 h2
  exact ⟨s, by rw [hs, hc]⟩

/-- **C68** (folder) When PutObject to `c1/../cn/` succeeds, it is answered without an ETag, there is a directory at that place,
and the content of no file anywhere has changed. -/
theorem C68_folder_created {i : PutInput} {k : Bytes} {cs : List Bytes} (hb : LegalBucket i.bucket) (hp : PlainKey k cs)
    (hk : i.key = k ++ b!"/") {fs : FS} (hw : WF fs) {a : Answer} (h : answer cfg ext (.putObject i) fs = .ok a) :
    a = .etag none ∧ IsDir (after cfg ext (.putObject i) fs) (bucketDir cfg i.bucket ++ cs) ∧
      ∀ q, contentAt (after cfg ext (.putObject i) fs) q = contentAt fs q := by
  have hb' := (C02_bucket_name_rule _).mpr hb
  have he : endsWithByte i.key 47 = true := endsWithByte_iff.mpr ⟨k, hk⟩
  obtain ⟨s, hs⟩ := objectPath_folder (cfg := cfg) hb' hp
  have hrun : run cfg (opProg cfg ext (.putObject i)) fs = (.ok a, after cfg ext (.putObject i) fs) := by
    rw [← h]; rfl
  generalize hfs : after cfg ext (.putObject i) fs = fs' at *
  simp only [opProg, putObject, he, if_true] at hrun
  split at hrun
  · cases hrun
  · split at hrun
    · cases hrun
    · split at hrun
      · rw [hk, hs] at hrun
        simp only [orInternal, bind_eq, pure_eq, Prog.bind] at hrun
        obtain ⟨e, fs1, h1, h2⟩ := run_bind_ok hrun
        obtain ⟨_, fs2, h3, h4⟩ := run_bind_ok h1
        cases h4; cases h2
        refine ⟨rfl, ?_, ?_⟩
        · have := createDirAllRev_done _ h3
          rw [List.reverse_reverse] at this
          simpa [IsDir, bucketDir] using this
        · intro q
          have hsafe := (safe_createDirAll (π := { st := fun _ => True, up := fun _ => True }) (cfg.root ++ i.bucket :: cs)
            fun _ _ => ⟨trivial, trivial⟩).mono (ok' := writeOk (fun _ => False) (fun _ => True)) (Q' := fun _ => True)
            (fun c hc => by cases c <;> first | exact .inl trivial | exact trivial | exact hc | exact hc.elim) (fun _ h => h)
          have hf := hsafe.frame cfg hw
          rw [h3] at hf
          exact content_frame hw hf (fun h => h)
      · cases hrun

/-- folders in the sample: created, refused -/
example :
    let i : PutInput := { bucket := b!"aaa", key := b!"d/", body := some [], contentLength := some 0, metadata := none, storageClass := none }
    PlainKey b!"d" [b!"d"] ∧ answer Sample.cfg Sample.ext (.putObject i) Sample.fs = .ok (.etag none) ∧
    answer Sample.cfg Sample.ext (.putObject { i with contentLength := (some 3), body := some [some b!"abc"] }) Sample.fs
      = .err .UnexpectedContent :=
  ⟨plain1 (by decide), by decide +kernel, by decide +kernel⟩

end S3
