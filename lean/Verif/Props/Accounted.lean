import Verif.Lemmas.Accounted
import Verif.Props.Root
/-! C122: what is on the disk is accounted for. -/
namespace S3
open Spec

variable {cfg : Cfg} {ext : Ext} {lib : Lib} {auth : Option Provider}

/-- **C122** Every file below the storage directory is accounted for. After any life of the server - any requests at the same time, any failing
system calls, cut off and started again at any moment - a file there was there before with this content, or it is a file that one of the
requests may write: the file an upload, a copy or a completion is addressed to, its metadata file, or the file of an uploaded part. The
server leaves no temporary files, no logs and no other traces. -/
theorem C122_files {ws : List WebEpoch} (h : ∀ w ∈ ws, ∀ x ∈ w.requests, AsksIn cfg ext lib auth (fun _ => True) x) {fs : FS} (hw : WF fs)
    {p : List Bytes} {c : Bytes} (hc : contentAt (webLife cfg ext lib auth ws fs) (cfg.root ++ p) = some c) :
    contentAt fs (cfg.root ++ p) = some c ∨ ∃ w ∈ ws, ∃ x ∈ w.requests, ∃ o, Asks lib auth x o ∧ WritesFile cfg.root o p := by
  by_cases hn : ∃ w ∈ ws, ∃ x ∈ w.requests, ∃ o, Asks lib auth x o ∧ WritesFile cfg.root o p
  · exact .inr hn
  left
  obtain ⟨es, h1, h2⟩ := asked_life h
  rw [← h2] at hc
  refine (life_inv (J := fun x => ∀ c, contentAt x (cfg.root ++ p) = some c → contentAt fs (cfg.root ++ p) = some c)
    (fun o ho x call f hx hj hk => ?_) h1 hw (fun _ h => h)).1 c hc
  intro c hc
  refine hj c ((execF_noNew hx f).1 (fun hcw => ?_) c hc)
  rcases ho with rfl | ⟨w, hw, y, hy, ha⟩
  · cases ok_writes (o := silent) trivial hk hcw
  · exact hn ⟨w, hw, y, hy, o, ha, ok_writes (asks_legalWrite ha) hk hcw⟩

/-- **C122** Every folder below the storage directory is accounted for as well: it was there before, or a request created a bucket of that name,
or an upload led through it. -/
theorem C122_folders {ws : List WebEpoch} (h : ∀ w ∈ ws, ∀ x ∈ w.requests, AsksIn cfg ext lib auth (fun _ => True) x) {fs : FS} (hw : WF fs)
    {d : List Bytes} (hd : IsDir (webLife cfg ext lib auth ws fs) (cfg.root ++ d)) :
    IsDir fs (cfg.root ++ d) ∨ ∃ w ∈ ws, ∃ x ∈ w.requests, ∃ o, Asks lib auth x o ∧ MakesFolder cfg.root o d := by
  by_cases hn : ∃ w ∈ ws, ∃ x ∈ w.requests, ∃ o, Asks lib auth x o ∧ MakesFolder cfg.root o d
  · exact .inr hn
  left
  obtain ⟨es, h1, h2⟩ := asked_life h
  rw [← h2] at hd
  refine (life_inv (J := fun x => IsDir x (cfg.root ++ d) → IsDir fs (cfg.root ++ d)) (fun o ho x call f hx hj hk => ?_) h1 hw (fun h => h)).1 hd
  intro hd
  refine hj ((execF_noNew hx f).2 (fun hcw => ?_) hd)
  rcases ho with rfl | ⟨w, hw, y, hy, ha⟩
  · cases ok_makes (o := silent) trivial hk hcw
  · exact hn ⟨w, hw, y, hy, o, ha, ok_makes (asks_legalWrite ha) hk hcw⟩

/-- **C122** Nothing outside the storage directory is ever touched, in any life of the server, whatever the requests, well-formed or not: no file and no folder
appears, changes or disappears there. (The folders above the storage directory are there.) -/
theorem C122_outside {ws : List WebEpoch} {fs : FS} (hw : WF fs)
    (hr : ∀ q, Spec.Above q cfg.root → q ≠ cfg.root → IsDir fs q) {q : Path} (hq : ¬ Spec.Above cfg.root q) :
    contentAt (webLife cfg ext lib auth ws fs) q = contentAt fs q ∧ (IsDir (webLife cfg ext lib auth ws fs) q ↔ IsDir fs q) := by
  obtain ⟨es, h1, h2⟩ := any_life (cfg := cfg) (ext := ext) (lib := lib) (auth := auth) ws
  have hr : RootReachable cfg fs := fun q hq hne => hr q (by obtain ⟨t, ht⟩ := hq; exact ⟨t, ht.symm⟩) hne
  rw [← h2]
  have hj := (life_inv (cfg := cfg) (ext := ext) (J := fun x => Spec.Agree (fun q => !below cfg.root q) fs x ∧ RegionRooted (below cfg.root) x)
    (fun o _ x c f hx hj hk => by
      have := execF_outside (cfg := cfg) hx hj.2 (op_region cfg o c hk) f
      exact ⟨hj.1.trans this, hj.2.agree this⟩) h1 hw ⟨.refl .., regionRooted_below hr⟩).1.1
  have hz : (!below cfg.root q) = true := by
    cases hb : below cfg.root q with
    | false => rfl
    | true =>
      obtain ⟨t, ht⟩ := isPrefixOf_iff.mp hb
      exact absurd ⟨t, ht.symm⟩ hq
  have hl := (hj.lookup (Z := fun q => !below cfg.root q) hz).symm
  exact ⟨content_of_agree hw hj (Z := fun q => !below cfg.root q) hz, by rw [IsDir, IsDir, hl]⟩

/-- an upload into a new folder -/
def Sample.webDeep : Exchange := Sample.exchange (Sample.plain b!"PUT" b!"/aaa/p/q/r" none [] [some b!"deep"])

theorem Sample.webDeep_asks : Asks Sample.lib none Sample.webDeep (.putObject ⟨b!"aaa", b!"p/q/r", some [some b!"deep"], none, none, none⟩) := by
  refine Sample.asks (by decide +kernel) (.putObject rfl
    (Sample.at_object rfl (by decide +kernel) (by decide +kernel) (by decide) (by decide)) (Sample.selects_none rfl)
    (Sample.no_header (by decide +kernel)) ⟨none, Sample.no_header (by decide +kernel), trivial⟩ ?_ (Sample.no_header (by decide +kernel)))
  intro n v _ hh
  simp [headerMeta, Sample.plain] at hh

/-- a life with two uploads, a copy that fails, a deletion that is cut off and a request that is refused: the files `aaa/x` and `aaa/p/q/r`,
the metadata file of `aaa/x` and the folder `aaa/p` are new -/
def Sample.webRun5 : WebEpoch :=
  ⟨[Sample.webPut, Sample.webDeep, Sample.webDelete2, Sample.webBad], (List.replicate 12 [(0, .none), (1, .none)]).flatten ++ [(2, .none)]⟩

theorem Sample.webRun5_asks : ∀ w ∈ [Sample.webRun5, Sample.webRun2], ∀ x ∈ w.requests,
    AsksIn Sample.cfg Sample.ext Sample.lib none (fun _ => True) x := by
  intro w hw x hx
  by_cases h1 : x = Sample.webPut
  · subst h1; exact .inl ⟨_, trivial, Sample.webPut_asks⟩
  by_cases h2 : x = Sample.webDeep
  · subst h2; exact .inl ⟨_, trivial, Sample.webDeep_asks⟩
  refine Sample.web_others trivial trivial ?_
  simp only [List.mem_cons, List.not_mem_nil, or_false] at hw
  rcases hw with rfl | rfl
  · simp only [Sample.webRun5, List.mem_cons, List.not_mem_nil, or_false] at hx ⊢
    rcases hx with h | h | h | h
    · exact absurd h h1
    · exact absurd h h2
    · exact .inr (.inl h)
    · exact .inr (.inr h)
  · simp only [Sample.webRun2, List.mem_cons, List.not_mem_nil, or_false] at hx ⊢
    rcases hx with h | h
    · exact .inl h
    · exact .inr (.inr h)

example : WF Sample.fs ∧
    (∀ w ∈ [Sample.webRun5, Sample.webRun2], ∀ x ∈ w.requests, AsksIn Sample.cfg Sample.ext Sample.lib none (fun _ => True) x) ∧
    contentAt (webLife Sample.cfg Sample.ext Sample.lib none [Sample.webRun5, Sample.webRun2] Sample.fs) (Sample.cfg.root ++ [b!"aaa", b!"x"]) = some b!"new" ∧
    contentAt Sample.fs (Sample.cfg.root ++ [b!"aaa", b!"x"]) ≠ some b!"new" ∧
    contentAt (webLife Sample.cfg Sample.ext Sample.lib none [Sample.webRun5, Sample.webRun2] Sample.fs)
      (Sample.cfg.root ++ [b!"aaa", b!"p", b!"q", b!"r"]) = some b!"deep" ∧
    IsDir (webLife Sample.cfg Sample.ext Sample.lib none [Sample.webRun5, Sample.webRun2] Sample.fs) (Sample.cfg.root ++ [b!"aaa", b!"p"]) ∧
    ¬ IsDir Sample.fs (Sample.cfg.root ++ [b!"aaa", b!"p"]) ∧
    MakesFolder Sample.cfg.root (.putObject ⟨b!"aaa", b!"p/q/r", some [some b!"deep"], none, none, none⟩) [b!"aaa", b!"p"] ∧
    (∀ q, Spec.Above q Sample.cfg.root → q ≠ Sample.cfg.root → IsDir Sample.fs q) ∧ ¬ Spec.Above Sample.cfg.root [b!"etc", b!"passwd"] := by
  refine ⟨Sample.fs_wf, Sample.webRun5_asks, by decide +kernel, by decide +kernel, by decide +kernel, by unfold IsDir; decide +kernel,
    by unfold IsDir; decide +kernel, ?_, ?_, by rintro ⟨t, h⟩; exact absurd (List.cons.inj h).1 (by decide)⟩
  · refine .parent (p := [b!"aaa", b!"p", b!"q", b!"r"]) (noSlash_of (by decide)) ?_ ⟨[b!"q", b!"r"], rfl⟩ (by decide)
    rw [place_iff]; decide +kernel
  · rintro q ⟨t, ht⟩ hne
    refine sample_reachable q ⟨t, ht.symm⟩ hne

/-- **C123** (partial) What was uploaded and is deleted leaves no trace. Where there was no object, let any uploads without metadata of objects
at this place (however their keys are spelled) be sent into a bucket and folder that exist, together with deletions of it and any requests that read, at
the same time, on a disk that fails at any system call, the server dying and being started again at any moment; when then the object is
deleted by one more DELETE, the disk holds exactly what it held before: the same folders and files with the same content. This is so whatever
the requests were answered. Missing from the full property: metadata, parts and new folders, for which it is false, see `C123_litter_fails`
and `C123_folder_fails`. -/
theorem C123_undone_partial {ws : List WebEpoch} {p : List Bytes} (h : ∀ w ∈ ws, ∀ x ∈ w.requests, AsksIn cfg ext lib auth (OnlyAt cfg.root p) x)
    {fs : FS} (hw : WF fs) (hf : IsDir fs (cfg.root ++ p.dropLast)) (h0 : contentAt fs (cfg.root ++ p) = none) (h1 : ¬ IsDir fs (cfg.root ++ p))
    {x : Exchange} {b k : Bytes} (hx : Asks lib auth x (.deleteObject b k)) (hn : Names cfg.root b k p) :
    SameDisk (afterResponded cfg ext lib auth x.env x.texts x.req (webLife cfg ext lib auth ws fs)) fs := by
  have hp : p ≠ [] := inBucket_ne hn.inside
  obtain ⟨c, hc, hr⟩ := hx
  rw [(responded_of hc hr x.texts _).1]
  obtain ⟨es, he, hl⟩ := webLife_life (P := OnlyAt cfg.root p) .initiate h
  rw [← hl]
  obtain ⟨⟨hj, hk⟩, hw'⟩ := life_inv (cfg := cfg) (ext := ext)
    (J := fun x => Frame (· = cfg.root ++ p) (· <+: (cfg.root ++ p).dropLast) fs x ∧ ¬ IsDir x (cfg.root ++ p))
    (fun o ho x c f hx hj hk => ⟨hj.1.trans (execF_frame hx (onlyAt_ok ho hk).1 f), fun hd => hj.2 ((execF_noNew hx f).2 ((onlyAt_ok ho hk).2 hp) hd)⟩)
    he hw ⟨.refl .., h1⟩
  have hF : Frame (· = cfg.root ++ p) (· <+: (cfg.root ++ p).dropLast) fs (after cfg ext (.deleteObject b k) (life cfg ext es fs)) :=
    hj.trans (Safe.frame cfg ((op_safe cfg ext (.deleteObject b k)).mono (fun _ hc => (onlyAt_ok (.delete hn) hc).1) (fun _ h => h)) hw')
  have hP := delete_clears (cfg := cfg) (ext := ext) hn hk
  have hnone : fs.lookup (cfg.root ++ p) = none := by
    cases hl : fs.lookup (cfg.root ++ p) with
    | none => rfl
    | some n =>
      cases n with
      | dir => exact absurd hl h1
      | file i => simp [contentAt, hl] at h0
  have hsame : ∀ q, (after cfg ext (.deleteObject b k) (life cfg ext es fs)).lookup q = fs.lookup q := by
    intro q
    by_cases hq : q = cfg.root ++ p
    · rw [hq, hP, hnone]
    · rcases hF.node q hq with e | ⟨hu, e, _⟩
      · exact e
      · rw [List.dropLast_append_of_ne_nil hp] at hu
        have : fs.lookup q = some .dir := by
          by_cases hq' : q = cfg.root ++ p.dropLast
          · rw [hq']; exact hf
          · exact hw.above hf hu hq'
        rw [this] at e; cases e
  intro q
  refine ⟨?_, by rw [IsDir, IsDir, hsame]⟩
  simp only [contentAt, hsame]
  split
  · rename_i i hi
    rw [hF.data i (fun e => ?_)]
    rw [(hw.ino _ _ hi).1] at e
    rw [e, hnone] at hi; cases hi
  · rfl

/-- uploads of the objects `n` and `./n` -/
def Sample.webNew : Exchange := Sample.exchange (Sample.plain b!"PUT" b!"/aaa/n" none [] [some b!"fresh"])
def Sample.webNew2 : Exchange := Sample.exchange (Sample.plain b!"PUT" b!"/aaa/./n" none [] [some b!"other", some b!"pieces"])
def Sample.webGone : Exchange := Sample.exchange (Sample.plain b!"DELETE" b!"/aaa/n" none [] [])

theorem Sample.webNew_asks : Asks Sample.lib none Sample.webNew (.putObject ⟨b!"aaa", b!"n", some [some b!"fresh"], none, none, none⟩) := by
  refine Sample.asks (by decide +kernel) (.putObject rfl
    (Sample.at_object rfl (by decide +kernel) (by decide +kernel) (by decide) (by decide)) (Sample.selects_none rfl)
    (Sample.no_header (by decide +kernel)) ⟨none, Sample.no_header (by decide +kernel), trivial⟩ ?_ (Sample.no_header (by decide +kernel)))
  intro n v _ hh
  simp [headerMeta, Sample.plain] at hh

theorem Sample.webNew2_asks :
    Asks Sample.lib none Sample.webNew2 (.putObject ⟨b!"aaa", b!"./n", some [some b!"other", some b!"pieces"], none, none, none⟩) := by
  refine Sample.asks (by decide +kernel) (.putObject rfl
    (Sample.at_object rfl (by decide +kernel) (by decide +kernel) (by decide) (by decide)) (Sample.selects_none rfl)
    (Sample.no_header (by decide +kernel)) ⟨none, Sample.no_header (by decide +kernel), trivial⟩ ?_ (Sample.no_header (by decide +kernel)))
  intro n v _ hh
  simp [headerMeta, Sample.plain] at hh

theorem Sample.webGone_asks : Asks Sample.lib none Sample.webGone (.deleteObject b!"aaa" b!"n") :=
  Sample.asks (by decide +kernel) (.deleteObject rfl
    (Sample.at_object rfl (by decide +kernel) (by decide +kernel) (by decide) (by decide)) (Sample.selects_none rfl)
    ⟨none, Sample.no_header (by decide +kernel), .inl rfl⟩)

/-- two uploads at once beside a reader, on a disk on which a write of the second breaks off; the server dies before the first is done -/
def Sample.webRun6 : WebEpoch :=
  ⟨[Sample.webNew, Sample.webNew2, Sample.webGet], (List.replicate 4 [(0, .none), (1, .none), (2, .none)]).flatten ++ [(1, .during 2 [])]⟩

example : WF Sample.fs ∧
    (∀ w ∈ [Sample.webRun6], ∀ x ∈ w.requests, AsksIn Sample.cfg Sample.ext Sample.lib none (OnlyAt Sample.cfg.root [b!"aaa", b!"n"]) x) ∧
    IsDir Sample.fs (Sample.cfg.root ++ [b!"aaa"]) ∧ contentAt Sample.fs (Sample.cfg.root ++ [b!"aaa", b!"n"]) = none ∧
    ¬ IsDir Sample.fs (Sample.cfg.root ++ [b!"aaa", b!"n"]) ∧
    contentAt (webLife Sample.cfg Sample.ext Sample.lib none [Sample.webRun6] Sample.fs) (Sample.cfg.root ++ [b!"aaa", b!"n"]) = some b!"otherpi" ∧
    Asks Sample.lib none Sample.webGone (.deleteObject b!"aaa" b!"n") ∧ Names Sample.cfg.root b!"aaa" b!"n" [b!"aaa", b!"n"] := by
  have hl : LegalBucket b!"aaa" := Sample.legal (by decide +kernel)
  have hn : Names Sample.cfg.root b!"aaa" b!"n" [b!"aaa", b!"n"] :=
    ⟨hl, ⟨by decide, by decide, noSlash_of (by decide), fun t e => by
      have := congrArg List.length e; simp at this⟩, by rw [place_iff]; decide +kernel, ⟨_, _, _, rfl, hl⟩⟩
  have hn2 : Names Sample.cfg.root b!"aaa" b!"./n" [b!"aaa", b!"n"] :=
    ⟨hl, ⟨by decide, by decide, noSlash_of (by decide), fun t e => by
      have := congrArg List.getLast? e; simp at this⟩, by rw [place_iff]; decide +kernel, ⟨_, _, _, rfl, hl⟩⟩
  refine ⟨Sample.fs_wf, ?_, by unfold IsDir; decide +kernel, by decide +kernel, by unfold IsDir; decide +kernel, by decide +kernel, Sample.webGone_asks, hn⟩
  intro w hw x hx
  cases List.mem_singleton.mp hw
  simp only [Sample.webRun6, List.mem_cons, List.not_mem_nil, or_false] at hx
  rcases hx with rfl | rfl | rfl
  · exact .inl ⟨_, .put rfl hn, Sample.webNew_asks⟩
  · exact .inl ⟨_, .put rfl hn2, Sample.webNew2_asks⟩
  · exact .inl ⟨_, .get, Sample.webGet_asks⟩

/-- **C123** (negation) An upload may make folders, and they stay: when the object `p/q` is uploaded and deleted (200 and 204), the folder `p` is
left in the bucket, and an upload of the object `p`, which was possible before, is answered 500. -/
theorem C123_folder_fails :
    ∃ (cfg : Cfg) (ext : Ext) (lib : Lib) (env : Env) (x : Texts) (fs0 fs1 fs2 : FS) (put delete other : Req),
      WF fs0 ∧ put.method = b!"PUT" ∧ At put (.object b!"aaa" b!"p/q") ∧ delete.method = b!"DELETE" ∧ At delete (.object b!"aaa" b!"p/q") ∧
      other.method = b!"PUT" ∧ At other (.object b!"aaa" b!"p") ∧
      Sample.code (responded cfg ext lib none env x other fs0) = some 200 ∧
      Sample.code (responded cfg ext lib none env x put fs0) = some 200 ∧ afterResponded cfg ext lib none env x put fs0 = fs1 ∧
      Sample.code (responded cfg ext lib none env x delete fs1) = some 204 ∧ afterResponded cfg ext lib none env x delete fs1 = fs2 ∧
      ¬ IsDir fs0 (cfg.root ++ [b!"aaa", b!"p"]) ∧ IsDir fs2 (cfg.root ++ [b!"aaa", b!"p"]) ∧
      Sample.code (responded cfg ext lib none env x other fs2) = some 500 :=
  ⟨Sample.cfg, Sample.ext, Sample.lib, Sample.env, Sample.texts, Sample.fs, _, _,
    Sample.plain b!"PUT" b!"/aaa/p/q" none [] [some b!"hello"], Sample.plain b!"DELETE" b!"/aaa/p/q" none [] [],
    Sample.plain b!"PUT" b!"/aaa/p" none [] [some b!"hello"], Sample.fs_wf,
    rfl, Sample.at_object rfl (by decide +kernel) (by decide +kernel) (by decide) (by decide),
    rfl, Sample.at_object rfl (by decide +kernel) (by decide +kernel) (by decide) (by decide),
    rfl, Sample.at_object rfl (by decide +kernel) (by decide +kernel) (by decide) (by decide),
    by decide +kernel, by decide +kernel, rfl, by decide +kernel, rfl, by unfold IsDir; decide +kernel, by unfold IsDir; decide +kernel, by decide +kernel⟩

/-- **C123** (negation) Deleting does not free everything. An upload with metadata, the upload of a part, the DELETE of the object and the
DELETE of the bucket are all answered with success. The bucket is gone, but the metadata file of the object and the file of the part are
still on the disk. -/
theorem C123_litter_fails :
    ∃ (cfg : Cfg) (ext : Ext) (lib : Lib) (env : Env) (x : Texts) (fs0 fs1 fs2 fs3 fs4 fs5 : FS) (create put part delete remove : Req),
      WF fs0 ∧ IsDir fs0 cfg.root ∧ (∀ n, fs0.lookup (cfg.root ++ [n]) = none) ∧
      create.method = b!"PUT" ∧ At create (.bucket b!"aaa") ∧
      put.method = b!"PUT" ∧ At put (.object b!"aaa" b!"x") ∧ put.body = [some b!"hello"] ∧
      part.method = b!"PUT" ∧ At part (.object b!"aaa" b!"x") ∧ part.query = some b!"partNumber=1&uploadId=u" ∧
      delete.method = b!"DELETE" ∧ At delete (.object b!"aaa" b!"x") ∧
      remove.method = b!"DELETE" ∧ At remove (.bucket b!"aaa") ∧
      Sample.code (responded cfg ext lib none env x create fs0) = some 200 ∧ afterResponded cfg ext lib none env x create fs0 = fs1 ∧
      Sample.code (responded cfg ext lib none env x put fs1) = some 200 ∧ afterResponded cfg ext lib none env x put fs1 = fs2 ∧
      Sample.code (responded cfg ext lib none env x part fs2) = some 200 ∧ afterResponded cfg ext lib none env x part fs2 = fs3 ∧
      Sample.code (responded cfg ext lib none env x delete fs3) = some 204 ∧ afterResponded cfg ext lib none env x delete fs3 = fs4 ∧
      Sample.code (responded cfg ext lib none env x remove fs4) = some 204 ∧ afterResponded cfg ext lib none env x remove fs4 = fs5 ∧
      fs5.lookup (cfg.root ++ [b!"aaa"]) = none ∧
      contentAt fs5 (cfg.root ++ [metadataName b!"aaa" b!"x"]) ≠ none ∧
      contentAt fs5 (cfg.root ++ [partName b!"u" 1]) = some b!"part" :=
  ⟨Sample.cfg, Sample.ext, Sample.lib, Sample.env, Sample.texts, Sample.emptyStore, _, _, _, _, _, Sample.plain b!"PUT" b!"/aaa" none [] [],
    Sample.plain b!"PUT" b!"/aaa/x" none [(b!"x-amz-meta-a", b!"1")] [some b!"hello"],
    Sample.plain b!"PUT" b!"/aaa/x" (some b!"partNumber=1&uploadId=u") [] [some b!"part"],
    Sample.plain b!"DELETE" b!"/aaa/x" none [] [], Sample.plain b!"DELETE" b!"/aaa" none [] [],
    run_wf _ _ Sample.empty_wf, by unfold IsDir; decide +kernel, fun n => by
      have hn : Sample.emptyStore.nodes = [([b!"srv"], .dir)] := by decide +kernel
      simp [FS.lookup, hn, Sample.cfg], rfl, Sample.at_bucket rfl (by decide +kernel) (by decide +kernel),
    rfl, Sample.at_object rfl (by decide +kernel) (by decide +kernel) (by decide) (by decide), rfl,
    rfl, Sample.at_object rfl (by decide +kernel) (by decide +kernel) (by decide) (by decide), rfl,
    rfl, Sample.at_object rfl (by decide +kernel) (by decide +kernel) (by decide) (by decide),
    rfl, Sample.at_bucket rfl (by decide +kernel) (by decide +kernel),
    by decide +kernel, rfl, by decide +kernel, rfl, by decide +kernel, rfl, by decide +kernel, rfl, by decide +kernel, rfl,
    by decide +kernel, by decide +kernel, by decide +kernel⟩

end S3
