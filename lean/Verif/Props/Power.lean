import Verif.Lemmas.Power
import Verif.Props.SameObject
/-! C109: failures of the power. -/
namespace S3
open Spec

variable {cfg : Cfg} {ext : Ext}

theorem power_kept {b k : Bytes} {cs : List Bytes} (hb : LegalBucket b) (hk : PlainKey k cs) {e : Epoch}
    (ho : ∀ o ∈ e.requests, OnOthers b (Away b k) o) {fs fs' : FS} (hw : WF fs) (hp : PowerLoss cfg ext e fs fs') :
    stored cfg fs' b k = stored cfg fs b k ∧ storedMeta cfg ext fs' b k = storedMeta cfg ext fs b k := by
  have hb' := (C02_bucket_name_rule _).mpr hb
  have hf : ∀ n, Frame (fun q => ¬ (q = cfg.root ++ b :: cs ∨ q = metaFile cfg b k)) (fun q => q ≠ metaFile cfg b k) fs (e.upTo cfg ext fs n) :=
    upTo_inv (ext := ext) (P := OnOthers b (Away b k)) (J := Frame _ _ fs)
      (fun _ ho _ _ f hwx hj hc => hj.trans (keep_object hb hk ho hwx hc f)) ho hw (.refl ..)
  obtain ⟨h1, h2⟩ := power_frame hp hf
  constructor
  · simp only [stored, objectPath_plain cfg hb' hk, Bool.false_eq_true, if_false]
    rcases h1 _ (fun h => h (.inl rfl)) with e | ⟨_, e1, e2⟩
    · simp only [contentAt, e]
      split
      · rename_i i hi
        rw [h2 i (fun h => h (.inl (hw.ino _ _ hi).1))]
      · rfl
    · simp only [contentAt, e1, e2]
  · refine metaAt_same ⟨?_, fun i hi => h2 i (fun h => h (.inr hi))⟩ hw
    rcases h1 _ (fun h => h (.inr rfl)) with e | ⟨e, _⟩
    · exact e
    · exact absurd rfl e

/-- **C109** An object (or the absence of one), and its metadata, survive any number of runs of the server that end with failures of the
power or with its death, if no request writes or deletes this object or its bucket. -/
theorem C109_untouched {b k : Bytes} {cs : List Bytes} (hb : LegalBucket b) (hk : PlainKey k cs) {es : List Epoch}
    (ho : ∀ e ∈ es, ∀ o ∈ e.requests, OnOthers b (Away b k) o) {fs fs' : FS} (hw : WF fs) (h : Outages cfg ext es fs fs') :
    stored cfg fs' b k = stored cfg fs b k ∧ storedMeta cfg ext fs' b k = storedMeta cfg ext fs b k := by
  induction h with
  | done => exact ⟨rfl, rfl⟩
  | @stopped e es fs fs' _ ih =>
    have h1 := C105_kept (cfg := cfg) (ext := ext) hb hk (es := [e]) (fun e' he' => by
      cases List.mem_singleton.mp he'; exact ho e (List.mem_cons_self ..)) hw
    have h2 := ih (fun e' he' => ho e' (List.mem_cons_of_mem _ he')) (runParF_wf hw)
    exact ⟨h2.1.trans h1.1, h2.2.trans h1.2⟩
  | @power e es fs fs₁ fs' hp _ ih =>
    have h1 := power_kept (ext := ext) hb hk (ho e (List.mem_cons_self ..)) hw hp
    have h2 := ih (fun e' he' => ho e' (List.mem_cons_of_mem _ he')) hp.tree
    exact ⟨h2.1.trans h1.1, h2.2.trans h1.2⟩

/-- **C109** After a failure of the power in a run in which an object was uploaded any number of times at the same time or deleted, the
object is gone, or every byte of it is a zero or stood at the same place in the former content or in one of the uploaded bodies, and it is no
longer than the longest of them. No byte of other objects gets into it. -/
theorem C109_bytes {b k : Bytes} {cs : List Bytes} (hb : LegalBucket b) (hk : PlainKey k cs) {e : Epoch}
    (ho : ∀ o ∈ e.requests, (∃ i, o = .putObject i ∧ i.bucket = b ∧ i.key = k) ∨ Deletes b k o ∨ OnOthers b (Away b k) o)
    {fs fs' : FS} (hw : WF fs) (hp : PowerLoss cfg ext e fs fs') {c : Bytes} (hc : stored cfg fs' b k = some c) :
    Mixed ((stored cfg fs b k).toList ++ uploadsTo b k e.requests) c := by
  have hb' := (C02_bucket_name_rule _).mpr hb
  have hst : ∀ x, stored cfg x b k = contentAt x (cfg.root ++ b :: cs) := by
    intro x; simp [stored, objectPath_plain cfg hb' hk]
  have hmix := upTo_mixed (cfg := cfg) (ext := ext) (bodies := (stored cfg fs b k).toList ++ uploadsTo b k e.requests) (e := e) hb' hk
    (fun o hmem => by
      rcases ho o hmem with ⟨i, rfl, rfl, rfl⟩ | h
      · exact .inl ⟨i, rfl, rfl, rfl, fun body hbody => List.mem_append_right _ (mem_uploadsTo hmem hbody)⟩
      · exact .inr h) hw (fun c hc => List.mem_append_left _ (by rw [hst, hc]; exact List.mem_singleton.mpr rfl))
  rw [hst] at hc
  unfold contentAt at hc
  split at hc
  · rename_i i hi
    cases hc
    have hpath := (hp.tree.ino _ _ hi).1
    have key : ∀ n m, n ≤ m → (e.upTo cfg ext fs n).lookup i.path = some (.file i) →
        Mixed ((stored cfg fs b k).toList ++ uploadsTo b k e.requests) ((e.upTo cfg ext fs m).data i) := by
      intro n m hnm hl
      rw [hpath] at hl
      exact (hmix m).data i hpath ((hmix n).node i hl)
        (Nat.lt_of_lt_of_le ((upTo_wf (ext := ext) hw n).ino _ _ hl).2 (upTo_gen e fs _ hnm))
    rw [← hpath] at hi
    constructor
    · intro j x hx
      rcases hp.byte i j x hi hx with h | ⟨n, m, hnm, hl, hd⟩
      · exact .inl h
      · exact (key n m hnm hl).byte j x hd
    · obtain ⟨n, m, hnm, hl, hlen⟩ := hp.length i hi
      rcases (key n m hnm hl).len with h | ⟨w, hw, hwl⟩
      · left
        rw [h] at hlen
        exact List.length_eq_zero_iff.mp (Nat.le_zero.mp hlen)
      · exact .inr ⟨w, hw, Nat.le_trans hlen hwl⟩
  · cases hc

/-- **C109** After a failure of the power in a run in which an object was deleted and not written, it is gone or it is as before. -/
theorem C109_deleted {b k : Bytes} {cs : List Bytes} (hb : LegalBucket b) (hk : PlainKey k cs) {e : Epoch}
    (ho : ∀ o ∈ e.requests, Deletes b k o ∨ OnOthers b (Away b k) o)
    {fs fs' : FS} (hw : WF fs) (hp : PowerLoss cfg ext e fs fs') :
    stored cfg fs' b k = none ∨ stored cfg fs' b k = stored cfg fs b k := by
  have hb' := (C02_bucket_name_rule _).mpr hb
  have hst : ∀ x, stored cfg x b k = contentAt x (cfg.root ++ b :: cs) := by
    intro x; simp [stored, objectPath_plain cfg hb' hk]
  have hq : ∀ n, Unwritten (cfg.root ++ b :: cs) fs (e.upTo cfg ext fs n) :=
    upTo_inv (ext := ext) (P := fun o => Deletes b k o ∨ OnOthers b (Away b k) o) (J := Unwritten _ fs)
      (fun o ho x c f hwx hj hc => hj.trans (unwritten_execF hwx (by
        rcases ho with h | h
        · have := deletes_shrink (cfg := cfg) hb' hk (.inl h) hc
          cases c <;> first | exact this.1 | trivial
        · have := away_ok (cfg := cfg) hb' hk h hc
          cases c <;> first | exact fun e => this (.inl e) | trivial) f)) ho hw (.refl ..)
  rw [hst, hst]
  cases hl : fs'.lookup (cfg.root ++ b :: cs) with
  | none => left; simp [contentAt, hl]
  | some nd =>
    cases nd with
    | dir => left; simp [contentAt, hl]
    | file i =>
      right
      obtain ⟨n, hn⟩ := hp.name (cfg.root ++ b :: cs)
      have h0 := (hq n).node i (hn.symm.trans hl)
      have hd := hp.kept i fun n => (hq n).data i (hw.ino _ _ h0).1
      simp [contentAt, hl, h0, hd]

/-- **C109** Nothing outside the storage root changes. -/
theorem C109_root {e : Epoch} {fs fs' : FS} (hw : WF fs) (hr : RootReachable cfg fs) (hp : PowerLoss cfg ext e fs fs')
    {q : Path} (hq : ¬ Above cfg.root q) : contentAt fs' q = contentAt fs q ∧ fs'.lookup q = fs.lookup q := by
  have h := upTo_inv (cfg := cfg) (ext := ext) (P := fun _ => True) (e := e)
    (J := fun x => Agree (fun q => !below cfg.root q) fs x ∧ RegionRooted (below cfg.root) x)
    (fun o _ x c f hx hj hc => by
      have := execF_outside (cfg := cfg) hx hj.2 (op_region cfg o c hc) f
      exact ⟨hj.1.trans this, hj.2.agree this⟩) (fun _ _ => trivial) hw ⟨.refl .., regionRooted_below hr⟩
  have hz : (!below cfg.root q) = true := by
    cases hb : below cfg.root q with
    | false => rfl
    | true =>
      obtain ⟨t, ht⟩ := isPrefixOf_iff.mp hb
      exact absurd ⟨t, ht.symm⟩ hq
  have hl : fs'.lookup q = fs.lookup q := by
    obtain ⟨n, hn⟩ := hp.name q
    rw [hn]
    exact ((h n).1.lookup (Z := fun q => !below cfg.root q) hz).symm
  refine ⟨?_, hl⟩
  simp only [contentAt, hl]
  split
  · rename_i i hi
    rw [hp.kept i fun n => ?_]
    exact ((h n).1.data i (by rw [(hw.ino _ _ hi).1]; exact hz)).symm
  · rfl

/-- a run of the server that serves one request to the end -/
def Sample.one (o : Op) : Epoch := ⟨[o], List.replicate 30 (0, .none)⟩

/-- the file of an object -/
def Sample.inoX : Ino := ⟨[b!"srv", b!"aaa", b!"x"], 0⟩

/-- C109 fails for what has been acknowledged: an upload that overwrites `hello` is answered with success, then the power fails, and the
object holds seven zeros, neither the old nor the new content; the upload of a new object is answered with success and there is no object; a
deletion is answered with success and the object is there. -/
theorem C109_acknowledged_fails :
    ∃ (cfg : Cfg) (ext : Ext) (fs : FS) (put new : PutInput) (b k : Bytes) (a a' : Answer), WF fs ∧ put.bucket = b ∧ put.key = k ∧
      put.body = some [some b!"one ", some b!"two"] ∧ stored cfg fs b k = some b!"hello" ∧
      (Sample.one (.putObject put)).answered cfg ext fs 0 = some (.ok a) ∧
      (∃ fs', PowerLoss cfg ext (Sample.one (.putObject put)) fs fs' ∧ stored cfg fs' b k = some [0, 0, 0, 0, 0, 0, 0]) ∧
      (Sample.one (.putObject new)).answered cfg ext fs 0 = some (.ok a') ∧
      (∃ fs', PowerLoss cfg ext (Sample.one (.putObject new)) fs fs' ∧ stored cfg fs' new.bucket new.key = none) ∧
      (Sample.one (.deleteObject b k)).answered cfg ext fs 0 = some (.ok .done) ∧
      ∃ fs', PowerLoss cfg ext (Sample.one (.deleteObject b k)) fs fs' ∧ stored cfg fs' b k = some b!"hello" :=
  ⟨Sample.cfg, Sample.ext, Sample.fs, Sample.overwrite, Sample.put3, b!"aaa", b!"x", .etag (some b!"\"md5:7\""), .etag (some b!"\"md5:7\""),
    Sample.fs_wf, rfl, rfl, rfl, by decide +kernel, by decide +kernel,
    ⟨_, power_zeros (i := Sample.inoX) Sample.fs_wf (by decide +kernel) (by decide +kernel), by decide +kernel⟩,
    by decide +kernel, ⟨_, power_first Sample.fs_wf, by decide +kernel⟩, by decide +kernel, _, power_first Sample.fs_wf, by decide +kernel⟩

/-- C109 fails for CompleteMultipartUpload even for bytes that were safe on the disk: the parts are on the disk when the run begins, the
completion is answered with success, the power fails, and neither the object nor the parts are there. -/
theorem C109_complete_fails :
    ∃ (cfg : Cfg) (ext : Ext) (fs fs' : FS) (b k u : Bytes) (parts : List (Option Int)) (a : Answer), WF fs ∧ LegalBucket b ∧
      PlainKey k [k] ∧ (47 : UInt8) ∉ u ∧ contentAt fs (partFile cfg u 1) = some b!"ab" ∧ contentAt fs (partFile cfg u 2) = some b!"cde" ∧
      (Sample.one (.completeMultipartUpload b k u (some parts))).answered cfg ext fs 0 = some (.ok a) ∧
      stored cfg ((Sample.one (.completeMultipartUpload b k u (some parts))).leaves cfg ext fs) b k = some b!"abcde" ∧
      PowerLoss cfg ext (Sample.one (.completeMultipartUpload b k u (some parts))) fs fs' ∧ stored cfg fs' b k = none ∧
      contentAt fs' (partFile cfg u 1) = none ∧ contentAt fs' (partFile cfg u 2) = none :=
  ⟨Sample.cfg, Sample.ext, afterAll Sample.cfg Sample.ext Sample.ups Sample.fs, _, b!"aaa", b!"new", b!"id1", numbers 0 3,
    .etag (some b!"\"md5:5\""), wf_afterAll Sample.fs_wf, Sample.legal (by decide +kernel), plain1 (by decide), by decide,
    by decide +kernel, by decide +kernel, by decide +kernel, by decide +kernel,
    power_lost (P := [b!"srv", b!"aaa", b!"new"]) (i := ⟨[b!"srv", b!"aaa", b!"new"], 0⟩) (wf_afterAll Sample.fs_wf) (by decide +kernel)
      (by decide +kernel), by decide +kernel, by decide +kernel, by decide +kernel⟩

/-- the object `bbb/y` while `aaa/x` is lost: a run that ends with a failure of the power, and a run that just ends -/
example : ∃ fs₁, PowerLoss Sample.cfg Sample.ext (Sample.one (.putObject Sample.overwrite)) Sample.fs fs₁ ∧
    stored Sample.cfg fs₁ b!"aaa" b!"x" = some [0, 0, 0, 0, 0, 0, 0] ∧
    Outages Sample.cfg Sample.ext [Sample.one (.putObject Sample.overwrite), Sample.epoch2] Sample.fs (Sample.epoch2.leaves Sample.cfg Sample.ext fs₁) ∧
    ∀ o ∈ (Sample.one (.putObject Sample.overwrite)).requests, OnOthers b!"bbb" (Away b!"bbb" b!"y") o := by
  refine ⟨_, power_zeros (i := Sample.inoX) Sample.fs_wf (by decide +kernel) (by decide +kernel), by decide +kernel,
    .power (power_zeros (i := Sample.inoX) Sample.fs_wf (by decide +kernel) (by decide +kernel)) (.stopped .done), ?_⟩
  intro o ho
  cases List.mem_singleton.mp ho
  exact ⟨Sample.legal (by decide +kernel), ⟨[b!"x"], plain1 (by decide)⟩, by decide⟩

/-- two uploads and a deletion of one object and something elsewhere, when the power fails: the hypotheses of `C109_bytes` -/
example : let e : Epoch := ⟨[.putObject Sample.overwrite, .putObject (Sample.uploadX [some b!"aaaa"]), .deleteObject b!"aaa" b!"x",
      .deleteObject b!"bbb" b!"y"], [0, 1, 2, 0, 1, 0, 3, 1, 2, 0, 1, 0, 3, 1].map fun j => (j, .none)⟩
    (∀ o ∈ e.requests, (∃ i, o = .putObject i ∧ i.bucket = b!"aaa" ∧ i.key = b!"x") ∨ Deletes b!"aaa" b!"x" o ∨
      OnOthers b!"aaa" (Away b!"aaa" b!"x") o) ∧
    (stored Sample.cfg Sample.fs b!"aaa" b!"x").toList ++ uploadsTo b!"aaa" b!"x" e.requests = [b!"hello", b!"one two", b!"aaaa"] := by
  refine ⟨?_, by decide +kernel⟩
  intro o ho
  simp only [List.mem_cons, List.not_mem_nil, or_false] at ho
  rcases ho with rfl | rfl | rfl | rfl
  · exact .inl ⟨_, rfl, rfl, rfl⟩
  · exact .inl ⟨_, rfl, rfl, rfl⟩
  · exact .inr (.inl ⟨rfl, rfl⟩)
  · exact .inr (.inr ⟨Sample.legal (by decide +kernel), ⟨[b!"y"], plain1 (by decide)⟩, by decide⟩)

/-- a deletion that is undone by a failure of the power, and nothing outside the root -/
example : (∀ o ∈ (Sample.one (.deleteObject b!"aaa" b!"x")).requests, Deletes b!"aaa" b!"x" o ∨ OnOthers b!"aaa" (Away b!"aaa" b!"x") o) ∧
    PowerLoss Sample.cfg Sample.ext (Sample.one (.deleteObject b!"aaa" b!"x")) Sample.fs Sample.fs ∧
    RootReachable Sample.cfg Sample.fs ∧ ¬ Above Sample.cfg.root [b!"etc", b!"passwd"] :=
  ⟨fun o ho => by cases List.mem_singleton.mp ho; exact .inl ⟨rfl, rfl⟩, power_first Sample.fs_wf, sample_reachable,
    by rintro ⟨t, h⟩; exact absurd (List.cons.inj h).1 (by decide)⟩

end S3
