import Verif.Lemmas.Clock
import Verif.Props.Life
import Verif.Props.Time
/-! C108: the times of objects and buckets. -/
namespace S3
open Spec

variable {cfg : Cfg} {ext : Ext} {lib : Lib} {auth : Option Provider} {env : Env}

theorem lastModified_plain {b k : Bytes} {cs : List Bytes} (hb : LegalBucket b) (hk : PlainKey k cs) (s : FS × Stamps) :
    lastModified cfg s b k = modifiedAt s (cfg.root ++ b :: cs) := by
  simp [lastModified, objectPath_plain cfg ((C02_bucket_name_rule b).mpr hb) hk]

/-- **C108** The time of the last modification of an object (or the absence of the object) stays the same through every life of the
server - any number of runs, each with any number of requests at the same time, on a disk that may fail at any call, each cut off at any
moment - if no request writes or deletes this object or its bucket. -/
theorem C108_kept {b k : Bytes} {cs : List Bytes} (hb : LegalBucket b) (hk : PlainKey k cs) {es : List TimedEpoch}
    (ho : ∀ e ∈ es, ∀ o ∈ e.requests, OnOthers b (Away b k) o) {s : FS × Stamps} (hw : WF s.1) :
    lastModified cfg (timedLife cfg ext es s) b k = lastModified cfg s b k := by
  rw [lastModified_plain hb hk, lastModified_plain hb hk]
  refine (timed_inv (P := OnOthers b (Away b k)) (J := fun s' => modifiedAt s' (cfg.root ++ b :: cs) = modifiedAt s (cfg.root ++ b :: cs))
    (fun o ho now _ s' c f hw' hj hc => ?_) ho hw rfl).1
  have := away_ok (cfg := cfg) ((C02_bucket_name_rule b).mpr hb) hk ho hc
  have weak : ∀ {q}, ¬ (q = cfg.root ++ b :: cs ∨ q = metaFile cfg b k) → q ≠ cfg.root ++ b :: cs := fun h e => h (.inl e)
  refine (modifiedAt_step (up := fun q => q ≠ metaFile cfg b k) hw' ?_ f now).trans hj
  cases c <;> first | exact this.imp id weak | exact weak this | exact fun q hq => weak (this q hq) | trivial

/-- `i` seconds and `i` milliseconds after the new year of 2020 -/
def Sample.time (i : Nat) : Time := ⟨1577836800 + i % 1000, i % 1000 * 1000000, by omega, by omega⟩

/-- a run with a clock that shows another second at each step, from `start` on -/
def Sample.timed (start : Nat) (e : Epoch) : TimedEpoch := ⟨e.requests, e.steps.zipIdx.map fun (s, i) => (s.1, s.2, Sample.time (start + i))⟩

/-- everything was written at the new year -/
def Sample.state : FS × Stamps := (Sample.fs, ⟨fun _ => Sample.time 0, fun _ => Sample.time 0⟩)

/-- `aaa/x` keeps its time through the two runs above, in which other objects get new ones -/
example : lastModified Sample.cfg Sample.state b!"aaa" b!"x" = some (Sample.time 0) ∧
    (∀ e ∈ [Sample.timed 100 Sample.epoch2], ∀ o ∈ e.requests, OnOthers b!"aaa" (Away b!"aaa" b!"x") o) ∧
    lastModified Sample.cfg (timedLife Sample.cfg Sample.ext [Sample.timed 100 Sample.epoch2] Sample.state) b!"aaa" b!"x" = some (Sample.time 0) ∧
    lastModified Sample.cfg (timedLife Sample.cfg Sample.ext [Sample.timed 10 Sample.epoch1, Sample.timed 100 Sample.epoch2] Sample.state)
      b!"ccc" b!"z" = some (Sample.time 106) := by
  refine ⟨by decide +kernel, ?_, by decide +kernel, by decide +kernel⟩
  intro e he o ho
  cases List.mem_singleton.mp he
  exact Sample.epoch2_away _ (List.mem_singleton.mpr rfl) o ho

/-- a request that writes an object makes its file -/
theorem makes_object {b k : Bytes} {cs : List Bytes} (hb : LegalBucket b) (hk : PlainKey k cs) {o : Op} (ho : Writes o b k) :
    Makes (Opens (cfg.root ++ b :: cs)) (opProg cfg ext o) := by
  have hp := objectPath_plain cfg ((C02_bucket_name_rule b).mpr hb) hk
  cases o <;> simp only [Writes] at ho
  case putObject i =>
    cases ho
    exact (makes_put hp (plain_no_slash hk)).left _
  case copyObject b' k' src =>
    cases ho
    exact (makes_copy hp).left _
  case completeMultipartUpload b' k' u ps =>
    cases ho
    exact (makes_complete hp).left _

/-- a request that writes an object does not remove it -/
theorem writer_spares {b k : Bytes} {cs : List Bytes} (hb : LegalBucket b) {o : Op} (ho : Writes o b k)
    (hu : ∀ b' k' u ps, o = .completeMultipartUpload b' k' u ps → (47 : UInt8) ∉ u) {c : Call}
    (hc : (opPerm cfg o).ok c) : Spares (cfg.root ++ b :: cs) c := by
  cases o <;> simp only [Writes] at ho
  case putObject i => cases c <;> first | trivial | exact hc.elim
  case copyObject b' k' src => cases c <;> first | trivial | exact hc.elim
  case completeMultipartUpload b' k' u ps =>
    cases c <;> try first | trivial | exact hc.elim
    case unlink p =>
      obtain ⟨l, n, _, _, hq⟩ := hc
      intro e
      exact part_not_prefix ((C02_bucket_name_rule b).mpr hb) (pfx_of_eq ((partP_eq (hu _ _ _ _ rfl) hq).symm.trans e))

/-- **C108** When an upload, a copy or the assembly of parts has been answered with success, the time of the last modification of the object
is one that the clock showed while the server worked on this very request, whatever happens afterwards and whatever happened meanwhile: other
requests, failing system calls, the death of the server, further runs of it - if no other request writes or deletes the object or its
bucket. -/
theorem C108_written {e : TimedEpoch} {n : Nat} {o : Op} {b k : Bytes} {cs : List Bytes} (hn : e.requests[n]? = some o) (hwr : Writes o b k)
    (hu : ∀ b' k' u ps, o = .completeMultipartUpload b' k' u ps → (47 : UInt8) ∉ u) (hb : LegalBucket b) (hk : PlainKey k cs)
    (ho : ∀ (j : Nat) o', j ≠ n → e.requests[j]? = some o' → OnOthers b (Away b k) o')
    {es : List TimedEpoch} (hos : ∀ e' ∈ es, ∀ o' ∈ e'.requests, OnOthers b (Away b k) o')
    {s : FS × Stamps} (hw : WF s.1) {a : Answer} (h : e.answered cfg ext s n = some (.ok a)) :
    ∃ now, e.During n now ∧ lastModified cfg (timedLife cfg ext (e :: es) s) b k = some now := by
  rw [timedLife, C108_kept hb hk hos (timed_wf hw), lastModified_plain hb hk]
  suffices Fresh (e.During n) (cfg.root ++ b :: cs) (e.leaves cfg ext s) by
    obtain ⟨now, h1, h2⟩ := this
    exact ⟨now, h2, h1⟩
  refine timed_makes (M := Opens (cfg.root ++ b :: cs)) hn ?_ ?_ (makes_object hb hk hwr) hw h
  · intro f now hd s c hw' hM
    cases c <;> try exact hM.elim
    rename_i p
    obtain ⟨hp, hr⟩ := hM
    cases f with
    | none =>
      obtain ⟨i, hi⟩ := Option.ne_none_iff_exists'.mp hr
      have hi : (exec cfg s.1 (.create p)).1 = some i := hi
      have := (exec_create_snd hi).1.node
      rw [hp] at this
      refine ⟨now, ?_, hd⟩
      simp only [modifiedAt, stepT, execF, this, stampF, stamp, hi, Stamps.touch, if_true]
    | _ => exact absurd rfl hr
  · intro j o' hj f now hd s c hw' hc hg
    by_cases e' : j = n
    · subst e'
      rw [hn] at hj
      cases hj
      exact hg.step hw' (writer_spares hb hwr hu hc) f hd
    · have := away_ok (cfg := cfg) ((C02_bucket_name_rule b).mpr hb) hk (ho j o' e' hj) hc
      have weak : ∀ {q}, ¬ (q = cfg.root ++ b :: cs ∨ q = metaFile cfg b k) → q ≠ cfg.root ++ b :: cs := fun h e => h (.inl e)
      obtain ⟨t0, h1, h2⟩ := hg
      refine ⟨t0, (modifiedAt_step (up := fun q => q ≠ metaFile cfg b k) hw' ?_ f now).trans h1, h2⟩
      cases c <;> first | exact this.imp id weak | exact weak this | exact fun q hq => weak (this q hq) | trivial

/-- the upload of `aaa/d/e` is acknowledged in the first run; its time is that of its last write -/
example : (Sample.timed 10 Sample.epoch1).requests[0]? = some (.putObject Sample.put3) ∧ Writes (.putObject Sample.put3) b!"aaa" b!"d/e" ∧
    (∀ (j : Nat) o, j ≠ 0 → (Sample.timed 10 Sample.epoch1).requests[j]? = some o → OnOthers b!"aaa" (Away b!"aaa" b!"d/e") o) ∧
    (Sample.timed 10 Sample.epoch1).answered Sample.cfg Sample.ext Sample.state 0 = some (.ok (.etag (some b!"\"md5:7\""))) ∧
    lastModified Sample.cfg Sample.state b!"aaa" b!"d/e" = none ∧
    lastModified Sample.cfg (timedLife Sample.cfg Sample.ext [Sample.timed 10 Sample.epoch1, Sample.timed 100 Sample.epoch2] Sample.state)
      b!"aaa" b!"d/e" = some (Sample.time 26) :=
  ⟨rfl, rfl, Sample.crowd_away, by decide +kernel, by decide +kernel, by decide +kernel⟩

/-- **C108** An object never changes without its time: if after any life of the server - whatever the requests, on whatever keys, on a disk
that may fail - it has a content that it had not before, its time is one that the clock showed during that life. -/
theorem C108_changed {es : List TimedEpoch} {s : FS × Stamps} (hw : WF s.1) {b k c : Bytes}
    (h : stored cfg (timedLife cfg ext es s).1 b k = some c) (hne : stored cfg s.1 b k ≠ some c) :
    ∃ now, InLife es now ∧ lastModified cfg (timedLife cfg ext es s) b k = some now := by
  obtain ⟨p, i, hp, hi, hd⟩ := stored_some.mp h
  obtain ⟨hi, hsl⟩ := at_file hi
  have hsl : p.slash = false := hsl
  have key := (timed_inv (cfg := cfg) (ext := ext) (es := es) (P := fun _ => True)
    (J := fun s' => SameFile p.comps s s' ∨ Stamped (InLife es) p.comps s')
    (fun o _ now hn s' c f hw' hj _ => ?_) (fun _ _ _ _ => trivial) hw (.inl (.refl ..))).1
  · rcases key with hs | hs
    · refine absurd ?_ hne
      have hi' := hs.node.symm.trans hi
      simp only [stored, hp, hsl, Bool.false_eq_true, if_false, contentAt, hi']
      rw [← (hs.data i hi').1, hd]
    · refine ⟨_, hs i hi, ?_⟩
      simp only [lastModified, hp, hsl, Bool.false_eq_true, if_false, modifiedAt, hi]
  · rcases hj with hj | hj
    · rcases step_effect (cfg := cfg) p.comps hw' c f now with hs | hs
      · exact .inl (hj.trans hs)
      · right
        intro i hi
        have : (stepT cfg s' c f now).2.modified i = now := hs i hi
        rw [this]
        exact hn
    · exact .inr (hj.step hw' c f hn)

/-- a run in which `aaa/x` is written, and the clock stands still -/
def Sample.rewrite (now : Time) : TimedEpoch :=
  ⟨[.putObject { bucket := b!"aaa", key := b!"x", body := some [some b!"fresh"], contentLength := none, metadata := none, storageClass := none }],
    List.replicate 12 (0, .none, now)⟩

/-- `aaa/x` gets another content, and another time -/
example : stored Sample.cfg Sample.state.1 b!"aaa" b!"x" = some b!"hello" ∧
    stored Sample.cfg (timedLife Sample.cfg Sample.ext [Sample.rewrite (Sample.time 7)] Sample.state).1 b!"aaa" b!"x" = some b!"fresh" ∧
    lastModified Sample.cfg (timedLife Sample.cfg Sample.ext [Sample.rewrite (Sample.time 7)] Sample.state) b!"aaa" b!"x" =
      some (Sample.time 7) := by decide +kernel

/-! ### what clients see -/

theorem get_ok_stored {b k : Bytes} {rg : Option Bytes} {w : Nat → Nat} {fs : FS} {a : Answer}
    (h : answer cfg ext (.getObject b k rg w) fs = .ok a) : ∃ c, stored cfg fs b k = some c := by
  obtain ⟨o, _, rfl⟩ := answer_get.mp h
  have h' : answerF cfg ext (fun _ => .none) (.getObject b k rg w) fs = .ok (.object o.1.contentLength o.1.metadata o.1.etag o.2) := by
    rw [answerF, runF_sound _ (fun _ => rfl)]; exact h
  obtain ⟨_, c, hc, _⟩ := (C101_read_partial (fun _ => .none)).1 _ _ _ _ _ _ h'
  exact ⟨c, hc⟩

theorem stored_lastModified {s : FS × Stamps} {b k c : Bytes} (h : stored cfg s.1 b k = some c) : ∃ now, lastModified cfg s b k = some now := by
  obtain ⟨p, i, hp, hi, _⟩ := stored_some.mp h
  obtain ⟨hi, hsl⟩ := at_file hi
  exact ⟨s.2.modified i, by simp [lastModified, hp, show p.slash = false from hsl, modifiedAt, hi]⟩

/-- **C108** A GetObject answered 200 shows in `Last-Modified` the time that is kept with the object, to the second. -/
theorem C108_get {r : Req} {c : Ctx} (h : admit lib auth r = .ok c) {b k : Bytes} {rg : Option Bytes}
    (ho : Requests lib env r c.body (.getObject b k rg env.wants)) {x : Texts} {s : FS × Stamps} (hx : ShowsTimes cfg s x) {res : Response}
    (ok : responded cfg ext lib auth env x r s.1 = .ok res) (hs : res.status = 200) :
    ∃ now, lastModified cfg s b k = some now ∧ ∀ v, (b!"last-modified", v) ∈ res.headers ↔ HttpDate v now.secs := by
  obtain ⟨a, m, ha, _, _⟩ := response_of_ok h ho ok hs
  obtain ⟨c, hc⟩ := get_ok_stored ha
  obtain ⟨now, hnow⟩ := stored_lastModified hc
  refine ⟨now, hnow, fun v => ?_⟩
  rw [C87_get (cfg := cfg) (ext := ext) (lib := lib) (auth := auth) (env := env) h ho ok hs v, hx.modified b k now hnow]

/-- texts that show the times kept with the file tree -/
def Sample.shows (s : FS × Stamps) : Texts :=
  { Sample.texts with
    modified := fun b k => (lastModified Sample.cfg s b k).getD (Sample.time 0)
    created := fun b => (bucketCreated Sample.cfg s b).getD (Sample.time 0) }

theorem Sample.shows_times (s : FS × Stamps) : ShowsTimes Sample.cfg s (Sample.shows s) :=
  ⟨fun b k now h => by simp [Sample.shows, h], fun b now h => by simp [Sample.shows, h]⟩

def Sample.getX : Req := Sample.plain b!"GET" b!"/aaa/x" none [] []

theorem Sample.getX_requests : ∃ c, admit Sample.lib none Sample.getX = .ok c ∧
    Requests Sample.lib Sample.env Sample.getX c.body (.getObject b!"aaa" b!"x" none Sample.env.wants) := by
  obtain ⟨c, hc, _⟩ := Sample.admit_of (r := Sample.getX) (by decide +kernel)
  exact ⟨c, hc, .getObject rfl (Sample.at_object rfl (by decide +kernel) (by decide +kernel) (by decide) (by decide))
    (Sample.selects_none rfl) (Sample.no_header (by decide +kernel))⟩

/-- the response to a GetObject for `aaa/x` after it has been written (the other hypotheses: `Sample.getX_requests`, `Sample.shows_times`) -/
example : responded Sample.cfg Sample.ext Sample.lib none Sample.env
      (Sample.shows (timedLife Sample.cfg Sample.ext [Sample.rewrite (Sample.time 7)] Sample.state)) Sample.getX
      (timedLife Sample.cfg Sample.ext [Sample.rewrite (Sample.time 7)] Sample.state).1 =
    .ok ⟨200, [(b!"last-modified", b!"Wed, 01 Jan 2020 00:00:07 GMT"), (b!"content-length", b!"5"), (b!"etag", b!"\"md5:5\"")],
      some b!"fresh"⟩ := by decide +kernel

/-- **C108** A HeadObject answered 200 for an object shows the same. -/
theorem C108_head {r : Req} {c : Ctx} (h : admit lib auth r = .ok c) {b k : Bytes}
    (ho : Requests lib env r c.body (.headObject b k)) {x : Texts} {s : FS × Stamps} (hx : ShowsTimes cfg s x) {content : Bytes}
    (hst : stored cfg s.1 b k = some content) {res : Response}
    (ok : responded cfg ext lib auth env x r s.1 = .ok res) (hs : res.status = 200) :
    ∃ now, lastModified cfg s b k = some now ∧ ∀ v, (b!"last-modified", v) ∈ res.headers ↔ HttpDate v now.secs := by
  obtain ⟨now, hnow⟩ := stored_lastModified hst
  refine ⟨now, hnow, fun v => ?_⟩
  rw [C87_head (cfg := cfg) (ext := ext) (lib := lib) (auth := auth) (env := env) h ho ok hs v, hx.modified b k now hnow]

/-- **C108** (partial) A cache may rely on `Last-Modified`: if after any life of the server (whatever the requests) a GetObject is answered
200 with a `Last-Modified` that the clock did not show during that life, then the object has the content that it had before. Missing from
the full property: that the content is the same whenever `Last-Modified` is; this is false, see `C108_same_second_fails`. -/
theorem C108_cache_partial {r : Req} {c : Ctx} (h : admit lib auth r = .ok c) {b k : Bytes} {rg : Option Bytes}
    (ho : Requests lib env r c.body (.getObject b k rg env.wants)) {x : Texts} {s : FS × Stamps} (hw : WF s.1) {es : List TimedEpoch}
    (hx : ShowsTimes cfg (timedLife cfg ext es s) x) {res : Response}
    (ok : responded cfg ext lib auth env x r (timedLife cfg ext es s).1 = .ok res) (hs : res.status = 200)
    {v : Bytes} (hv : (b!"last-modified", v) ∈ res.headers) (hclock : ∀ now, InLife es now → ¬ HttpDate v now.secs) :
    stored cfg (timedLife cfg ext es s).1 b k = stored cfg s.1 b k := by
  obtain ⟨now', h1, h2⟩ := C108_get h ho hx ok hs
  obtain ⟨a, m, ha, _, _⟩ := response_of_ok h ho ok hs
  obtain ⟨d, hd⟩ := get_ok_stored ha
  rw [hd]
  refine Classical.byContradiction fun hne => ?_
  obtain ⟨now, h3, h4⟩ := C108_changed hw hd (fun e => hne e.symm)
  rw [h1] at h4
  cases h4
  exact hclock _ h3 ((h2 v).mp hv)

/-- the hypotheses of `C108_cache_partial` are met: other objects are written, at other seconds -/
example : ∃ c res v, admit Sample.lib none Sample.getX = .ok c ∧
    Requests Sample.lib Sample.env Sample.getX c.body (.getObject b!"aaa" b!"x" none Sample.env.wants) ∧
    responded Sample.cfg Sample.ext Sample.lib none Sample.env
      (Sample.shows (timedLife Sample.cfg Sample.ext [Sample.timed 100 Sample.epoch2] Sample.state)) Sample.getX
      (timedLife Sample.cfg Sample.ext [Sample.timed 100 Sample.epoch2] Sample.state).1 = .ok res ∧ res.status = 200 ∧
    (b!"last-modified", v) ∈ res.headers ∧ ∀ now, InLife [Sample.timed 100 Sample.epoch2] now → ¬ HttpDate v now.secs := by
  obtain ⟨c, hc, hr⟩ := Sample.getX_requests
  have ok : responded Sample.cfg Sample.ext Sample.lib none Sample.env
      (Sample.shows (timedLife Sample.cfg Sample.ext [Sample.timed 100 Sample.epoch2] Sample.state)) Sample.getX
      (timedLife Sample.cfg Sample.ext [Sample.timed 100 Sample.epoch2] Sample.state).1 =
    .ok ⟨200, [(b!"last-modified", b!"Wed, 01 Jan 2020 00:00:00 GMT"), (b!"content-length", b!"5"), (b!"etag", b!"\"md5:5\"")],
      some b!"hello"⟩ := by decide +kernel
  refine ⟨c, _, _, hc, hr, ok, rfl, .head _, ?_⟩
  obtain ⟨now0, h0, hv⟩ := C108_get hc hr (Sample.shows_times _) ok rfl
  rw [show lastModified Sample.cfg (timedLife Sample.cfg Sample.ext [Sample.timed 100 Sample.epoch2] Sample.state) b!"aaa" b!"x" =
    some (Sample.time 0) by decide +kernel] at h0
  cases h0
  rintro now ⟨e, he, n, f, hm⟩ hd
  cases List.mem_singleton.mp he
  have := (C87_http_date_unique hd ((hv _).mp (.head _))).mp rfl
  have all : ∀ x ∈ (Sample.timed 100 Sample.epoch2).steps, x.2.2.secs ≠ (Sample.time 0).secs := by decide +kernel
  exact all _ hm (Int.ofNat.inj this)

/-- C108 fails for a cache that compares `Last-Modified` only: an object that is written twice within one second gets another content, and
GetObject shows the same `Last-Modified`. -/
theorem C108_same_second_fails : ∃ (s : FS × Stamps) (e : TimedEpoch) (x x' : Texts) (r : Req) (res res' : Response) (v : Bytes),
    WF s.1 ∧ ShowsTimes Sample.cfg s x ∧ ShowsTimes Sample.cfg (timedLife Sample.cfg Sample.ext [e] s) x' ∧
    e.answered Sample.cfg Sample.ext s 0 = some (.ok (.etag (some b!"\"md5:5\""))) ∧
    responded Sample.cfg Sample.ext Sample.lib none Sample.env x r s.1 = .ok res ∧
    responded Sample.cfg Sample.ext Sample.lib none Sample.env x' r (timedLife Sample.cfg Sample.ext [e] s).1 = .ok res' ∧
    res.status = 200 ∧ res'.status = 200 ∧ (b!"last-modified", v) ∈ res.headers ∧ (b!"last-modified", v) ∈ res'.headers ∧
    res.body = some b!"hello" ∧ res'.body = some b!"fresh" := by
  refine ⟨Sample.state, Sample.rewrite ⟨1577836800, 500000000, by decide, by decide⟩, Sample.shows _, Sample.shows _, Sample.getX,
    ⟨200, [(b!"last-modified", b!"Wed, 01 Jan 2020 00:00:00 GMT"), (b!"content-length", b!"5"), (b!"etag", b!"\"md5:5\"")], some b!"hello"⟩,
    ⟨200, [(b!"last-modified", b!"Wed, 01 Jan 2020 00:00:00 GMT"), (b!"content-length", b!"5"), (b!"etag", b!"\"md5:5\"")], some b!"fresh"⟩,
    b!"Wed, 01 Jan 2020 00:00:00 GMT", Sample.fs_wf, Sample.shows_times _, Sample.shows_times _, by decide +kernel, by decide +kernel,
    by decide +kernel, rfl, rfl, .head _, .head _, rfl, rfl⟩

/-! ### buckets -/

theorem bucket_ok {b : Bytes} (hb : LegalBucket b) {o : Op} (ho : OnOthers b PlainAddress o) {c : Call} (hc : (opPerm cfg o).ok c) :
    writeOk (· ≠ cfg.root ++ [b]) (fun _ => True) c := by
  have hb' := (C02_bucket_name_rule b).mpr hb
  have ht : ∀ {q}, opTouch cfg o q → q ≠ cfg.root ++ [b] := by
    rintro q h rfl
    rcases touch_cases (fun _ _ h => ⟨(C02_bucket_name_rule _).mpr h.1, h.2⟩) ho h with
      ⟨b', k', cs', _, hb1, hk', e | e⟩ | ⟨u, n, e⟩ | ⟨b', hb1, hne, hp⟩
    · have := (List.append_cancel_left e)
      simp only [List.cons.injEq] at this
      exact hk'.nonempty this.2.symm
    · exact metaFile_ne_bucket cfg b' k' hb' e.symm
    · exact part_not_prefix hb' (cs := []) (pfx_of_eq e.symm)
    · exact hne (prefix_root hp)
  cases c with
  | mkdir p => exact .inl trivial
  | create p => exact ht (.inl (.inl hc))
  | writeAt i _ _ => exact ht (.inl (.inl hc))
  | unlink p => exact ht (.inl (.inr (.inl hc)))
  | rmdir p => exact ht (.inl (.inr (.inr hc)))
  | rmtree p => exact fun q hq => ht (.inr ⟨p, hc, hq⟩)
  | _ => trivial

theorem mkdir_ok {fs : FS} {p : Path} (h : (exec cfg fs (.mkdir p)).1 = .ok) :
    fs.lookup p = none ∧ (exec cfg fs (.mkdir p)).2.lookup p = some .dir := by
  simp only [exec] at h ⊢
  repeat' split at h
  all_goals try cases h
  all_goals simp_all [lookup_set]

/-- a directory that is not removed keeps its time -/
theorem born_step {P : Path} {s : FS × Stamps} (hw : WF s.1) {c : Call} {up : Path → Prop} (h : writeOk (· ≠ P) up c) (f : Fault) (now : Time)
    (hd : s.1.lookup P = some .dir) :
    (stepT cfg s c f now).1.lookup P = some .dir ∧ (stepT cfg s c f now).2.created P = s.2.created P := by
  constructor
  · rcases (execF_frame (cfg := cfg) hw h f).node P (fun h => h rfl) with e | ⟨_, e1, _⟩
    · exact e.trans hd
    · rw [hd] at e1; cases e1
  · have hst : (stamp cfg s.1 c now s.2).created P = s.2.created P := by
      cases c with
      | mkdir p =>
        simp only [stamp]
        split
        · rename_i hr
          have : P ≠ p := by rintro rfl; rw [(mkdir_ok hr).1] at hd; cases hd
          simp [Stamps.born, this]
        · rfl
      | create p => simp only [stamp]; split <;> rfl
      | writeAt i off b => simp only [stamp]; split <;> rfl
      | _ => rfl
    cases f with
    | none => exact hst
    | before => rfl
    | after => exact hst
    | during n rs =>
      cases c with
      | writeAt i off b => simp only [stepT, stampF]; split <;> rfl
      | _ => rfl

/-- **C108** The time of the creation of a bucket stays the same through every life of the server in which no request deletes the bucket,
whatever is written to it (with plain keys). -/
theorem C108_bucket_kept {b : Bytes} (hb : LegalBucket b) {es : List TimedEpoch}
    (ho : ∀ e ∈ es, ∀ o ∈ e.requests, OnOthers b PlainAddress o) {s : FS × Stamps} (hw : WF s.1) {now : Time}
    (h : bucketCreated cfg s b = some now) : bucketCreated cfg (timedLife cfg ext es s) b = some now := by
  simp only [bucketCreated] at h
  split at h
  · rename_i hd
    cases h
    have key := (timed_inv (cfg := cfg) (ext := ext) (es := es) (P := OnOthers b PlainAddress)
      (J := fun s' => s'.1.lookup (cfg.root ++ [b]) = some .dir ∧ s'.2.created (cfg.root ++ [b]) = s.2.created (cfg.root ++ [b]))
      (fun o ho now _ s' c f hw' hj hc => by
        obtain ⟨h1, h2⟩ := born_step (cfg := cfg) hw' (bucket_ok hb ho hc) f now hj.1
        exact ⟨h1, h2.trans hj.2⟩) ho hw ⟨hd, rfl⟩).1
    simp only [bucketCreated, key.1, key.2]
  · cases h

/-- **C108** When CreateBucket has been answered with success, the time of the creation of the bucket is one that the clock showed while the
server worked on this very request, whatever happened meanwhile and happens afterwards, if no request deletes the bucket. -/
theorem C108_bucket {e : TimedEpoch} {n : Nat} {b : Bytes} (hn : e.requests[n]? = some (.createBucket b)) (hb : LegalBucket b)
    (ho : ∀ o ∈ e.requests, OnOthers b PlainAddress o) {es : List TimedEpoch} (hos : ∀ e' ∈ es, ∀ o ∈ e'.requests, OnOthers b PlainAddress o)
    {s : FS × Stamps} (hw : WF s.1) {a : Answer} (h : e.answered cfg ext s n = some (.ok a)) :
    ∃ now, e.During n now ∧ bucketCreated cfg (timedLife cfg ext (e :: es) s) b = some now := by
  suffices ∃ now, e.During n now ∧ (e.leaves cfg ext s).1.lookup (cfg.root ++ [b]) = some .dir ∧
      (e.leaves cfg ext s).2.created (cfg.root ++ [b]) = now by
    obtain ⟨now, h1, h2, h3⟩ := this
    refine ⟨now, h1, C108_bucket_kept hb hos (timed_wf hw) ?_⟩
    simp only [bucketCreated, h2, h3]
  have hp := bucketPath_legal cfg ((C02_bucket_name_rule b).mpr hb)
  refine timed_makes (M := MakesDir (cfg.root ++ [b]))
    (G := fun s => ∃ now, e.During n now ∧ s.1.lookup (cfg.root ++ [b]) = some .dir ∧ s.2.created (cfg.root ++ [b]) = now)
    hn ?_ ?_ ((makes_createBucket hp).left _) hw h
  · intro f now hd s c hw' hM
    cases c <;> try exact hM.elim
    obtain ⟨rfl, hr⟩ := hM
    cases f with
    | none =>
      have hr : (exec cfg s.1 (.mkdir (cfg.root ++ [b]))).1 = .ok := hr
      refine ⟨now, hd, (mkdir_ok hr).2, ?_⟩
      simp only [stepT, stampF, stamp, hr, Stamps.born, if_true]
    | _ => cases hr
  · rintro j o' hj f now hd s c hw' hc ⟨now0, h1, h2, h3⟩
    obtain ⟨h4, h5⟩ := born_step (cfg := cfg) hw' (bucket_ok hb (ho o' (List.mem_of_getElem? hj)) hc) f now h2
    exact ⟨now0, h1, h4, h5.trans h3⟩

/-- a bucket is made, while an object is put into it and another request tries to make it as well -/
def Sample.making : TimedEpoch :=
  ⟨[.createBucket b!"new", .putObject { Sample.put3 with bucket := b!"new" }, .createBucket b!"new"],
    (List.range 30).map fun i => (if i < 3 then i % 2 else i % 3, .none, Sample.time (10 + i))⟩

/-- the bucket is made at second 12; the upload into it afterwards, and the run of above, do not change this -/
example : Sample.making.requests[0]? = some (.createBucket b!"new") ∧ LegalBucket b!"new" ∧
    Sample.making.answered Sample.cfg Sample.ext Sample.state 0 = some (.ok .done) ∧
    Sample.making.answered Sample.cfg Sample.ext Sample.state 1 = some (.ok (.etag (some b!"\"md5:7\""))) ∧
    Sample.making.answered Sample.cfg Sample.ext Sample.state 2 = some (.err .BucketAlreadyExists) ∧
    bucketCreated Sample.cfg (timedLife Sample.cfg Sample.ext [Sample.making, Sample.timed 100 Sample.epoch2] Sample.state) b!"new" =
      some (Sample.time 12) ∧
    (∀ o ∈ Sample.making.requests, OnOthers b!"new" PlainAddress o) ∧
    ∀ e' ∈ [Sample.timed 100 Sample.epoch2], ∀ o ∈ e'.requests, OnOthers b!"new" PlainAddress o := by
  refine ⟨rfl, Sample.legal (by decide +kernel), by decide +kernel, by decide +kernel, by decide +kernel, by decide +kernel, ?_, ?_⟩
  · intro o ho
    rcases List.mem_cons.mp ho with rfl | ho
    · exact Sample.legal (by decide +kernel)
    rcases List.mem_cons.mp ho with rfl | ho
    · exact ⟨Sample.legal (by decide +kernel), _, Sample.plain_de⟩
    · cases List.mem_singleton.mp ho
      exact Sample.legal (by decide +kernel)
  · intro e' he' o ho
    cases List.mem_singleton.mp he'
    rcases List.mem_cons.mp ho with rfl | ho
    · exact ⟨Sample.legal (by decide +kernel), by decide⟩
    rcases List.mem_cons.mp ho with rfl | ho
    · trivial
    · cases List.mem_singleton.mp ho
      exact ⟨Sample.legal (by decide +kernel), _, plain1 (k := b!"z") (by decide)⟩

end S3
