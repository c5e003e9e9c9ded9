import Verif.Lemmas.DeletedBeside
import Verif.Props.Undisturbed
/-!
# C143: Deletions beside folders

Folder requests and requests about other objects run at the same time. A DELETE of an object is answered 204 if, and only if, the object is
there; and it is gone for good. So it is for the deletion of several objects that are there.
-/
namespace S3
open Spec

variable {cfg : Cfg} {ext : Ext} {lib : Lib} {auth : Option Provider}

theorem beside_same {b : Bytes} {ks : List Bytes} (hb : LegalBucket b) (hks : ∀ k ∈ ks, ∃ cs, PlainKey k cs) {o : Op}
    (ho : ∀ k ∈ ks, Beside b k o) {fs : FS} (hw : WF fs) {c : Call} (hc : (opPerm cfg o).ok c) (f : Fault) :
    SameStored cfg b ks fs (execF cfg fs c f).2 := by
  intro k hk
  obtain ⟨cs, hcs⟩ := hks k hk
  exact (object_stays (ext := Sample.ext) hb hcs hw (beside_stays hb hcs (ho k hk) hw hc f)).1

/-- **C143** (DELETE) Whatever folders are made and removed meanwhile, and whatever happens to other objects, the DELETE of an object, if its
own calls do not fail, is answered with success when the object is there, and with InternalError when it is not. Then it is not there. -/
theorem C143_delete {e : Epoch} {n : Nat} {b k : Bytes} {cs : List Bytes} (hn : e.requests[n]? = some (.deleteObject b k))
    (hb : LegalBucket b) (hk : PlainKey k cs) (ho : ∀ (j : Nat) o, j ≠ n → e.requests[j]? = some o → Beside b k o)
    (hok : ∀ f, (n, f) ∈ e.steps → f = .none) {fs : FS} (hw : WF fs) {r : Outcome Answer} (h : e.answered cfg ext fs n = some r) :
    (stored cfg fs b k ≠ none → r = .ok .done) ∧ (stored cfg fs b k = none → r = .err .InternalError) ∧
    stored cfg (e.leaves cfg ext fs) b k = none := by
  have hb' := (C02_bucket_name_rule _).mpr hb
  have hR := rely_same (cfg := cfg) b [k]
  refine epoch_wp_quiet (cfg := cfg) (ext := ext) hR hn
    (Q := fun r fs' => (stored cfg fs b k ≠ none → r = .ok .done) ∧ (stored cfg fs b k = none → r = .err .InternalError) ∧ stored cfg fs' b k = none)
    (fun j o hj hoj fs c f hwf hc => beside_same hb (fun k' hk' => by cases List.mem_singleton.mp hk'; exact ⟨cs, hk⟩)
      (fun k' hk' => by cases List.mem_singleton.mp hk'; exact ho j o hj hoj) hwf hc f) hok hw ?_ h
  have hp := objectPath_plain cfg hb' hk
  have hm : k ∈ [k] := List.mem_singleton.mpr rfl
  refine wp_bind hR hw ?_
  simp only [deleteObject, plain_no_slash hk, hp, orInternal, bind_eq, pure_eq, Prog.bind]
  refine wp_call fun fs1 hr1 hw1 => ?_
  obtain ⟨hu1, hu2⟩ := unlink_gone (fs := fs1) hp
  rw [hr1 k hm] at hu1
  cases ha : (exec cfg fs1 (.unlink ⟨cfg.root ++ b :: cs, false⟩)).1 with
  | false =>
    intro fs2 hr2 _
    refine ⟨fun h => ?_, fun _ => rfl, (hr2 k hm).trans hu2⟩
    rw [ha] at hu1
    exact absurd (hu1.mpr h) (fun h => nomatch h)
  | true =>
    intro fs2 hr2 _ fs3 hr3 _
    exact ⟨fun _ => rfl, fun h => absurd h (hu1.mp ha), (hr3 k hm).trans ((hr2 k hm).trans hu2)⟩

/-- **C143** (for good) If anything may fail, and the server may be stopped at any moment: a DELETE that has been answered with success has
deleted an object that was there, and it does not come back; no later GET of it succeeds, also when there is a folder of its name. -/
theorem C143_gone {e : Epoch} {n : Nat} {b k : Bytes} {cs : List Bytes} (hn : e.requests[n]? = some (.deleteObject b k))
    (hb : LegalBucket b) (hk : PlainKey k cs) (ho : ∀ (j : Nat) o, j ≠ n → e.requests[j]? = some o → Beside b k o)
    {es : List Epoch} (hos : ∀ e' ∈ es, ∀ o ∈ e'.requests, Beside b k o)
    {fs : FS} (hw : WF fs) {a : Answer} (h : e.answered cfg ext fs n = some (.ok a)) :
    stored cfg fs b k ≠ none ∧ stored cfg (life cfg ext (e :: es) fs) b k = none ∧
    ∀ (d : Disk) (rg : Option Bytes) (w : Nat → Nat) (len : Nat) md et body,
      answerF cfg ext d (.getObject b k rg w) (life cfg ext (e :: es) fs) ≠ .ok (.object len md et body) := by
  have hb' := (C02_bucket_name_rule _).mpr hb
  have hR := rely_same (cfg := cfg) b [k]
  have hm : k ∈ [k] := List.mem_singleton.mpr rfl
  have key : stored cfg fs b k ≠ none ∧ stored cfg (e.leaves cfg ext fs) b k = none := by
    refine epoch_wp (cfg := cfg) (ext := ext) hR hn (Q := fun _ fs' => stored cfg fs b k ≠ none ∧ stored cfg fs' b k = none)
      (fun j o hj hoj fs c f hwf hc => beside_same hb (fun k' hk' => by cases List.mem_singleton.mp hk'; exact ⟨cs, hk⟩)
        (fun k' hk' => by cases List.mem_singleton.mp hk'; exact ho j o hj hoj) hwf hc f) hw ?_ h
    have hp := objectPath_plain cfg hb' hk
    refine wpF_bind hR hw ?_
    simp only [deleteObject, plain_no_slash hk, hp, bind_eq, pure_eq]
    refine wpF_orInternal fun p hp' => wpF_call trivial fun fs1 hr1 hw1 => ?_
    cases hp'
    obtain ⟨hu1, hu2⟩ := unlink_gone (fs := fs1) hp
    rw [hr1 k hm] at hu1
    cases ha : (exec cfg fs1 (.unlink ⟨cfg.root ++ b :: cs, false⟩)).1 with
    | false => trivial
    | true =>
      intro fs2 hr2 _ fs3 hr3 _
      exact ⟨hu1.mp ha, (hr3 k hm).trans ((hr2 k hm).trans hu2)⟩
  have hgone : stored cfg (life cfg ext (e :: es) fs) b k = none :=
    (C141_kept (cfg := cfg) (ext := ext) hb hk hos (runParF_wf hw)).1.trans key.2
  refine ⟨key.1, hgone, fun d rg w len md et body hg => ?_⟩
  obtain ⟨-, c, hc, -⟩ := (C101_read_partial (cfg := cfg) (ext := ext) d (b := b) (k := k)).1 rg w len md et body hg
  rw [hgone] at hc
  cases hc

theorem plain_paths {b : Bytes} {ks : List Bytes} (hb : LegalBucket b) (hks : ∀ k ∈ ks, ∃ cs, PlainKey k cs) :
    ∀ k ∈ ks, ∀ k' ∈ ks, ∀ p p', objectPath cfg b k = some p → objectPath cfg b k' = some p' → k ≠ k' → p.comps ≠ p'.comps := by
  intro k hk k' hk' p p' hp hp' hne e
  have hb' := (C02_bucket_name_rule _).mpr hb
  obtain ⟨cs, hcs⟩ := hks k hk
  obtain ⟨cs', hcs'⟩ := hks k' hk'
  rw [objectPath_plain cfg hb' hcs] at hp
  rw [objectPath_plain cfg hb' hcs'] at hp'
  cases hp
  cases hp'
  have := List.append_cancel_left e
  simp only [List.cons.injEq, true_and] at this
  exact hne (by rw [hcs.text, hcs'.text, this])

theorem gone_for_good {b : Bytes} {ks : List Bytes} (hb : LegalBucket b) (hks : ∀ k ∈ ks, ∃ cs, PlainKey k cs)
    {es : List Epoch} (hos : ∀ e' ∈ es, ∀ o ∈ e'.requests, ∀ k ∈ ks, Beside b k o) {fs : FS} (hw : WF fs) :
    SameStored cfg b ks fs (life cfg ext es fs) := by
  intro k hk
  obtain ⟨cs, hcs⟩ := hks k hk
  exact (C141_kept (cfg := cfg) (ext := ext) hb hcs (fun e' he' o ho => hos e' he' o ho k hk) hw).1

/-- **C143** (DeleteObjects) The deletion of several different objects that are there, if its own calls do not fail, deletes them all, and
says so. They do not come back. -/
theorem C143_delete_objects {e : Epoch} {n : Nat} {b : Bytes} {ks : List Bytes} (hn : e.requests[n]? = some (.deleteObjects b ks))
    (hb : LegalBucket b) (hks : ∀ k ∈ ks, ∃ cs, PlainKey k cs) (hnd : ks.Nodup)
    (ho : ∀ (j : Nat) o, j ≠ n → e.requests[j]? = some o → ∀ k ∈ ks, Beside b k o)
    (hok : ∀ f, (n, f) ∈ e.steps → f = .none)
    {es : List Epoch} (hos : ∀ e' ∈ es, ∀ o ∈ e'.requests, ∀ k ∈ ks, Beside b k o)
    {fs : FS} (hw : WF fs) (hth : ∀ k ∈ ks, stored cfg fs b k ≠ none) {r : Outcome Answer} (h : e.answered cfg ext fs n = some r) :
    r = .ok (.keys ks) ∧ ∀ k ∈ ks, stored cfg (life cfg ext (e :: es) fs) b k = none := by
  have hR := rely_same (cfg := cfg) b ks
  obtain ⟨h1, h2⟩ := epoch_wp_quiet (cfg := cfg) (ext := ext) hR hn
    (Q := fun r fs' => r = .ok (.keys ks) ∧ ∀ k ∈ ks, stored cfg fs' b k = none)
    (fun j o hj hoj fs c f hwf hc => beside_same hb hks (ho j o hj hoj) hwf hc f) hok hw
    (wp_bind hR hw (wp_mono (by
      rintro o x _ ⟨rfl, h2⟩ y hr _
      exact ⟨rfl, fun k hk => (hr k hk).trans (h2 k hk)⟩) (wp_deleteObjects (plain_paths hb hks) hnd hw hth))) h
  exact ⟨h1, fun k hk => (gone_for_good (cfg := cfg) (ext := ext) hb hks hos (runParF_wf hw) k hk).trans (h2 k hk)⟩

/-- **C143** (DeleteObjects, what is reported) If anything may fail: the keys that are reported deleted are among those asked for, were
there, and are gone for good; the others are as they were. -/
theorem C143_reported {e : Epoch} {n : Nat} {b : Bytes} {ks l : List Bytes} (hn : e.requests[n]? = some (.deleteObjects b ks))
    (hb : LegalBucket b) (hks : ∀ k ∈ ks, ∃ cs, PlainKey k cs)
    (ho : ∀ (j : Nat) o, j ≠ n → e.requests[j]? = some o → ∀ k ∈ ks, Beside b k o)
    {es : List Epoch} (hos : ∀ e' ∈ es, ∀ o ∈ e'.requests, ∀ k ∈ ks, Beside b k o)
    {fs : FS} (hw : WF fs) (h : e.answered cfg ext fs n = some (.ok (.keys l))) :
    l.Sublist ks ∧ (∀ k ∈ l, stored cfg fs b k ≠ none ∧ stored cfg (life cfg ext (e :: es) fs) b k = none) ∧
    ∀ k ∈ ks, k ∉ l → stored cfg (life cfg ext (e :: es) fs) b k = stored cfg fs b k := by
  have hR := rely_same (cfg := cfg) b ks
  obtain ⟨l', h0, h1, h2, h3⟩ := epoch_wp (cfg := cfg) (ext := ext) hR hn
    (Q := fun a fs' => ∃ r, a = .keys r ∧ r.Sublist ks ∧ (∀ k ∈ r, stored cfg fs b k ≠ none ∧ stored cfg fs' b k = none) ∧
      ∀ k ∈ ks, k ∉ r → stored cfg fs' b k = stored cfg fs b k)
    (fun j o hj hoj fs c f hwf hc => beside_same hb hks (ho j o hj hoj) hwf hc f) hw
    (wpF_bind hR hw (wpF_mono (by
      rintro r x _ ⟨h1, h2, h3⟩ y hr _
      exact ⟨r, rfl, h1, fun k hk => ⟨(h2 k hk).1, (hr k (h1.subset hk)).trans (h2 k hk).2⟩, fun k hk hn => (hr k hk).trans (h3 k hk hn)⟩)
      (wpF_deleteObjects (plain_paths hb hks) hw))) h
  cases h0
  have hl := gone_for_good (cfg := cfg) (ext := ext) (es := es) hb hks hos (runParF_wf (cfg := cfg) (steps := e.steps)
    (ps := e.requests.map (opProg cfg ext)) hw)
  exact ⟨h1, fun k hk => ⟨(h2 k hk).1, (hl k (h1.subset hk)).trans (h2 k hk).2⟩, fun k hk hn => (hl k hk).trans (h3 k hk hn)⟩

/-- **C143** (over HTTP) A DELETE whose own calls do not fail is answered 204 if, and only if, the object is there. -/
theorem C143_web {w : WebEpoch} {n : Nat} {x : Exchange} {b k : Bytes} {cs : List Bytes} (hn : w.requests[n]? = some x)
    (hx : Asks lib auth x (.deleteObject b k)) (hb : LegalBucket b) (hk : PlainKey k cs)
    (ho : ∀ (j : Nat) y, j ≠ n → w.requests[j]? = some y → AsksIn cfg ext lib auth (Beside b k) y)
    (hok : ∀ f, (n, f) ∈ w.steps → f = .none) {fs : FS} (hw : WF fs) {res : Response}
    (h : w.response cfg ext lib auth fs n = some (.ok res)) : res.status = 204 ↔ stored cfg fs b k ≠ none := by
  obtain ⟨e, he, hen, hes, hfs⟩ := web_epoch_at (cfg := cfg) (ext := ext) (P := Beside _ _) (.inl trivial) hn hx ho
  obtain ⟨hlv, c, hc, hr, hcase⟩ := hfs fs
  have key := fun r hr => C143_delete (cfg := cfg) (ext := ext) (r := r) hen hb hk hes (by rw [he]; exact hok) hw hr
  by_cases hst : stored cfg fs b k = none
  · refine ⟨fun h204 => ?_, fun h => absurd hst h⟩
    obtain ⟨a, m, ha, -⟩ := web_success (hcase _ h) (by omega)
    have := (key _ ha).2.1 hst
    cases this
  · refine ⟨fun _ => hst, fun _ => ?_⟩
    rcases hcase _ h with ⟨a, ha, hra⟩ | ⟨err, _, ha, hra⟩ | ⟨ha, hra⟩
    · have := (key _ ha).1 hst
      cases this
      obtain ⟨res', hres, hst⟩ : ∃ res', (wrap x.texts c (Op.deleteObject b k).handler (.ret .done)).outcome = some (.ok res') ∧ res'.status = 204 :=
        ⟨_, rfl, rfl⟩
      rw [hres] at hra
      cases hra
      exact hst
    · have := (key _ ha).1 hst
      cases this
    · cases hra

/-- **C143** (over HTTP, for good) A deletion that has been answered 204 stays done, whatever fails. -/
theorem C143_web_gone {w : WebEpoch} {n : Nat} {x : Exchange} {b k : Bytes} {cs : List Bytes} (hn : w.requests[n]? = some x)
    (hx : Asks lib auth x (.deleteObject b k)) (hb : LegalBucket b) (hk : PlainKey k cs)
    (ho : ∀ (j : Nat) y, j ≠ n → w.requests[j]? = some y → AsksIn cfg ext lib auth (Beside b k) y)
    {ws : List WebEpoch} (hos : ∀ w' ∈ ws, ∀ y ∈ w'.requests, AsksIn cfg ext lib auth (Beside b k) y)
    {fs : FS} (hw : WF fs) {res : Response} (h : w.response cfg ext lib auth fs n = some (.ok res)) (hs : res.status = 204) :
    stored cfg fs b k ≠ none ∧ stored cfg (webLife cfg ext lib auth (w :: ws) fs) b k = none := by
  obtain ⟨e, he, hen, hes, hfs⟩ := web_epoch_at (cfg := cfg) (ext := ext) (P := Beside _ _) (.inl trivial) hn hx ho
  obtain ⟨es, hes', hlife⟩ := webLife_life (cfg := cfg) (ext := ext) (lib := lib) (auth := auth) (P := Beside _ _) (.inl trivial) hos
  obtain ⟨hlv, c, hc, hr, hcase⟩ := hfs fs
  obtain ⟨a, m, ha, hm, hra⟩ := web_success (hcase _ h) (by omega)
  obtain ⟨h1, h4, -⟩ := C143_gone (cfg := cfg) (ext := ext) hen hb hk hes hes' hw ha
  simp only [life, hlv, hlife] at h4
  exact ⟨h1, h4⟩

/-! ### the hypotheses are met -/

/-- `o` runs while the folder `d` is deleted, and a folder of the name `d/e` is asked for and deleted -/
def Sample.beneath (o : Op) (steps : List (Nat × Fault)) : Epoch :=
  ⟨[o, .deleteObject b!"aaa" b!"d/", .putObject { Sample.folderPut with bucket := b!"aaa", key := b!"d/e/" }, .deleteObject b!"aaa" b!"d/e/"], steps⟩

theorem Sample.beneath_folders {o : Op} {steps : List (Nat × Fault)} (j : Nat) (o' : Op) (hj : j ≠ 0)
    (h : (Sample.beneath o steps).requests[j]? = some o') : OnFolder o' := by
  match j, hj with
  | 1, _ => cases h; exact Sample.folder_d
  | 2, _ => cases h; exact Sample.folder_de
  | 3, _ => cases h; exact Sample.folder_de
  | j + 4, _ => simp [Sample.beneath] at h

/-- the removals look into the folders, then the object is deleted, then the folders are made and removed -/
def Sample.turns : List (Nat × Fault) :=
  [(1, .none), (3, .none), (0, .none), (0, .none)] ++ (List.replicate 8 [(0, .none), (2, .none)]).flatten ++ [(3, .none), (3, .none), (1, .before), (1, .none)]

theorem Sample.turns_quiet (f : Fault) (h : (0, f) ∈ Sample.turns) : f = .none := by
  simp only [Sample.turns, List.replicate, List.flatten, List.append_eq, List.cons_append, List.nil_append, List.append_nil, List.mem_cons, Prod.mk.injEq,
    List.not_mem_nil, or_false] at h
  simpa using h

/-- afterwards the folders are made and removed again, and nothing else -/
def Sample.afterwards : Epoch := ⟨(Sample.beneath (.deleteObject b!"aaa" b!"d/") []).requests, (List.replicate 6 [(2, .none), (1, .after)]).flatten⟩

theorem Sample.afterwards_folders : ∀ e' ∈ [Sample.afterwards], ∀ o ∈ e'.requests, OnFolder o := by
  intro e' he' o ho
  cases List.mem_singleton.mp he'
  obtain ⟨j, hj⟩ := List.getElem?_of_mem ho
  by_cases h0 : j = 0
  · subst h0; cases hj; exact Sample.folder_d
  · exact Sample.beneath_folders j o h0 hj

/-- `C143_delete`, `C143_gone`: the DELETE of `aaa/d/e`, which is there; a folder takes its place -/
example : (Sample.beneath (.deleteObject b!"aaa" b!"d/e") Sample.turns).answered Sample.cfg Sample.ext Sample.fs3 0 = some (.ok .done) ∧
    (Sample.beneath (.deleteObject b!"aaa" b!"d/e") Sample.turns).answered Sample.cfg Sample.ext Sample.fs3 2 = some (.ok (.etag none)) ∧
    stored Sample.cfg (life Sample.cfg Sample.ext [Sample.beneath (.deleteObject b!"aaa" b!"d/e") Sample.turns, Sample.afterwards] Sample.fs3)
      b!"aaa" b!"d/e" = none ∧
    (life Sample.cfg Sample.ext [Sample.beneath (.deleteObject b!"aaa" b!"d/e") Sample.turns, Sample.afterwards] Sample.fs3).lookup
      (Sample.cfg.root ++ [b!"aaa", b!"d", b!"e"]) = some .dir := by
  have hb : LegalBucket b!"aaa" := Sample.legal (by decide +kernel)
  have hw : WF Sample.fs3 := run_wf _ _ Sample.fs_wf
  have h : ∃ r, (Sample.beneath (.deleteObject b!"aaa" b!"d/e") Sample.turns).answered Sample.cfg Sample.ext Sample.fs3 0 = some r :=
    ⟨.ok .done, by decide +kernel⟩
  obtain ⟨r, h⟩ := h
  have h1 := (C143_delete (cfg := Sample.cfg) (ext := Sample.ext) (e := Sample.beneath (.deleteObject b!"aaa" b!"d/e") Sample.turns) rfl hb Sample.plain_de
    (fun j o hj hoj => .inr (Sample.beneath_folders j o hj hoj)) Sample.turns_quiet hw h).1 (by decide +kernel)
  subst h1
  exact ⟨h, by decide +kernel, (C143_gone (cfg := Sample.cfg) (ext := Sample.ext) (es := [Sample.afterwards]) rfl hb Sample.plain_de
    (fun j o hj hoj => .inr (Sample.beneath_folders j o hj hoj)) (fun e' he' o ho => .inr (Sample.afterwards_folders e' he' o ho)) hw h).2.1,
    by decide +kernel⟩

/-- `C143_delete`: the DELETE of an object that is not there, while a folder of its name is -/
example : ∃ r, (Sample.beneath (.deleteObject b!"aaa" b!"d/e") Sample.turns).answered Sample.cfg Sample.ext Sample.fs 0 = some r ∧
    r = .err .InternalError := by
  have h : ∃ r, (Sample.beneath (.deleteObject b!"aaa" b!"d/e") Sample.turns).answered Sample.cfg Sample.ext Sample.fs 0 = some r :=
    ⟨.err .InternalError, by decide +kernel⟩
  obtain ⟨r, h⟩ := h
  exact ⟨r, h, (C143_delete (cfg := Sample.cfg) (ext := Sample.ext) rfl (Sample.legal (by decide +kernel)) Sample.plain_de
    (fun j o hj hoj => .inr (Sample.beneath_folders j o hj hoj)) Sample.turns_quiet Sample.fs_wf h).2.1 (by decide +kernel)⟩

theorem Sample.both_plain : ∀ k ∈ [b!"d/e", b!"x"], ∃ cs, PlainKey k cs := by
  intro k hk
  simp only [List.mem_cons, List.not_mem_nil, or_false] at hk
  rcases hk with rfl | rfl
  · exact ⟨_, Sample.plain_de⟩
  · exact ⟨_, plain1 (k := b!"x") (by decide)⟩

/-- `C143_delete_objects`: both objects of the bucket -/
example : ∃ r, (Sample.beneath (.deleteObjects b!"aaa" [b!"d/e", b!"x"]) Sample.turns).answered Sample.cfg Sample.ext Sample.fs3 0 = some r ∧
    r = .ok (.keys [b!"d/e", b!"x"]) ∧ ∀ k ∈ [b!"d/e", b!"x"],
      stored Sample.cfg (life Sample.cfg Sample.ext [Sample.beneath (.deleteObjects b!"aaa" [b!"d/e", b!"x"]) Sample.turns, Sample.afterwards] Sample.fs3)
        b!"aaa" k = none := by
  have h : ∃ r, (Sample.beneath (.deleteObjects b!"aaa" [b!"d/e", b!"x"]) Sample.turns).answered Sample.cfg Sample.ext Sample.fs3 0 = some r :=
    ⟨.ok (.keys [b!"d/e", b!"x"]), by decide +kernel⟩
  obtain ⟨r, h⟩ := h
  exact ⟨r, h, C143_delete_objects (cfg := Sample.cfg) (ext := Sample.ext) rfl (Sample.legal (by decide +kernel)) Sample.both_plain (by decide)
    (fun j o hj hoj _ _ => .inr (Sample.beneath_folders j o hj hoj)) Sample.turns_quiet
    (fun e' he' o ho _ _ => .inr (Sample.afterwards_folders e' he' o ho)) (run_wf _ _ Sample.fs_wf) (by decide +kernel) h⟩

/-- `C143_reported`: the call that looks for `x` fails, only `d/e` is deleted and reported -/
example : ∃ steps, (Sample.beneath (.deleteObjects b!"aaa" [b!"d/e", b!"x"]) steps).answered Sample.cfg Sample.ext Sample.fs3 0
      = some (.ok (.keys [b!"d/e"])) ∧
    stored Sample.cfg (life Sample.cfg Sample.ext [Sample.beneath (.deleteObjects b!"aaa" [b!"d/e", b!"x"]) steps, Sample.afterwards] Sample.fs3)
      b!"aaa" b!"d/e" = none ∧
    stored Sample.cfg (life Sample.cfg Sample.ext [Sample.beneath (.deleteObjects b!"aaa" [b!"d/e", b!"x"]) steps, Sample.afterwards] Sample.fs3)
      b!"aaa" b!"x" = some b!"hello" := by
  have h : (Sample.beneath (.deleteObjects b!"aaa" [b!"d/e", b!"x"]) [(0, .none), (3, .none), (0, .before), (2, .none), (0, .none), (1, .none), (1, .none)]).answered
      Sample.cfg Sample.ext Sample.fs3 0 = some (.ok (.keys [b!"d/e"])) := by decide +kernel
  obtain ⟨-, h1, h2⟩ := C143_reported (cfg := Sample.cfg) (ext := Sample.ext) (es := [Sample.afterwards]) rfl (Sample.legal (by decide +kernel)) Sample.both_plain
    (fun j o hj hoj _ _ => .inr (Sample.beneath_folders j o hj hoj))
    (fun e' he' o ho _ _ => .inr (Sample.afterwards_folders e' he' o ho)) (run_wf _ _ Sample.fs_wf) h
  exact ⟨_, h, (h1 _ (by simp)).2, (h2 b!"x" (by simp) (by decide)).trans (by decide +kernel)⟩

/-- `C143_web`, `C143_web_gone`: a DELETE of `aaa/x` over HTTP -/
example : ∃ res, (Sample.withFolder Sample.webDelete).response Sample.cfg Sample.ext Sample.lib none Sample.fs 0 = some (.ok res) ∧ res.status = 204 ∧
    stored Sample.cfg (webLife Sample.cfg Sample.ext Sample.lib none
      [Sample.withFolder Sample.webDelete, Sample.withFolder Sample.webFolderDelete] Sample.fs) b!"aaa" b!"x" = none := by
  have hsome : (Sample.webStatus ((Sample.withFolder Sample.webDelete).response Sample.cfg Sample.ext Sample.lib none Sample.fs 0)).isSome := by decide +kernel
  obtain ⟨res, h⟩ : ∃ res, (Sample.withFolder Sample.webDelete).response Sample.cfg Sample.ext Sample.lib none Sample.fs 0 = some (.ok res) := by
    unfold Sample.webStatus at hsome
    split at hsome
    · exact ⟨_, by assumption⟩
    · cases hsome
  have h204 : res.status = 204 := (C143_web (cfg := Sample.cfg) (ext := Sample.ext) (w := Sample.withFolder Sample.webDelete) (n := 0) rfl Sample.webDelete_asks
    (Sample.legal (by decide +kernel)) (plain1 (k := b!"x") (by decide))
    (fun j y hj hy => Sample.withFolder_in (P := Beside _ _) (.inr Sample.folder_d) _ j y hj hy) (by
      intro f hf
      simp only [Sample.withFolder, List.replicate, List.flatten, List.append_eq, List.cons_append, List.nil_append, List.mem_cons, Prod.mk.injEq,
        List.not_mem_nil, or_false] at hf
      simpa using hf) Sample.fs_wf h).mpr (by decide +kernel)
  exact ⟨res, h, h204, (C143_web_gone (cfg := Sample.cfg) (ext := Sample.ext) (w := Sample.withFolder Sample.webDelete) (n := 0) rfl Sample.webDelete_asks
    (Sample.legal (by decide +kernel)) (plain1 (k := b!"x") (by decide))
    (fun j y hj hy => Sample.withFolder_in (P := Beside _ _) (.inr Sample.folder_d) _ j y hj hy)
    (Sample.later_in (P := Beside _ _) (.inr Sample.folder_d)) Sample.fs_wf h h204).2⟩

end S3
