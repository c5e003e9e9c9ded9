import Verif.Lemmas.Retried
import Verif.Props.Sweep
import Verif.Props.FolderMade
/-! C146: an HTTP client that tries again and again. -/
namespace S3
open Spec

variable {cfg : Cfg} {ext : Ext} {lib : Lib} {auth : Option Provider}

/-- **C146** An upload of an object or of a part, the making of a folder, or a copy, that would have been answered with success: after any number of attempts that
were cut off or that failed on the disk in any way, while others read, the same request is given the very same response, and what is stored then is what would
have been stored without the attempts. -/
theorem C146_same_answer {x : Exchange} {o : Op} (hx : Asks lib auth x o) (ho : Refills o) {fs : FS} (hw : WF fs) (hr : IsDir fs cfg.root)
    {res : Response} (h : responded cfg ext lib auth x.env x.texts x.req fs = .ok res) (hs : res.status / 100 = 2)
    {ws : List WebEpoch} (hws : Attempts cfg ext lib auth x ws) :
    responded cfg ext lib auth x.env x.texts x.req (webLife cfg ext lib auth ws fs) = .ok res ∧
    Spec.Alike (afterResponded cfg ext lib auth x.env x.texts x.req (webLife cfg ext lib auth ws fs))
      (afterResponded cfg ext lib auth x.env x.texts x.req fs) := by
  obtain ⟨a, ha⟩ := answered_success hx h hs
  obtain ⟨c, hc⟩ := responded_asks (cfg := cfg) (ext := ext) hx
  obtain ⟨h1, h2⟩ := refills_life hx ho hws hw hr ha
  rw [(hc _).2, (hc fs).2]
  refine ⟨?_, h2⟩
  rw [(hc fs).1, ha] at h
  rw [(hc _).1, h1]
  exact h

/-- **C146** A deletion of an object, of several objects or of a bucket, or the making of a bucket: after any number of attempts that were
cut off or failed on the disk in any way, while others read, and whatever they were answered, the same request leaves what it would have left without the
attempts. -/
theorem C146_same_effect {x : Exchange} {o : Op} (hx : Asks lib auth x o) {fs : FS} (ho : Settles cfg fs o) (hw : WF fs) {ws : List WebEpoch}
    (hws : Attempts cfg ext lib auth x ws) :
    Spec.Alike (afterResponded cfg ext lib auth x.env x.texts x.req (webLife cfg ext lib auth ws fs))
      (afterResponded cfg ext lib auth x.env x.texts x.req fs) := by
  obtain ⟨c, hc⟩ := responded_asks (cfg := cfg) (ext := ext) hx
  rw [(hc _).2, (hc fs).2]
  exact (settles_life hx hws ho hw).2

/-! ### the hypotheses are met -/

theorem Sample.webPut_succeeds :
    ∃ res, responded Sample.cfg Sample.ext Sample.lib none Sample.webPut.env Sample.webPut.texts Sample.webPut.req Sample.fs = .ok res ∧
      res.status / 100 = 2 := by
  have h : (match responded Sample.cfg Sample.ext Sample.lib none Sample.webPut.env Sample.webPut.texts Sample.webPut.req Sample.fs with
      | .ok res => decide (res.status / 100 = 2)
      | _ => false) = true := by decide +kernel
  split at h
  · rename_i res hres
    exact ⟨res, hres, of_decide_eq_true h⟩
  · exact absurd h (by decide)

/-- a PUT over HTTP that dies when the file has been opened, then fails on the disk after one byte has been written, while somebody
reads the object -/
def Sample.webTries : List WebEpoch :=
  [⟨[Sample.webPut], List.replicate 3 (0, .none)⟩,
   ⟨[Sample.webGet, Sample.webPut], [(1, .none), (0, .none), (1, .none), (1, .none), (0, .after), (1, .during 1 []), (1, .none)]⟩]

theorem Sample.alone_attempts (x : Exchange) (steps : List (Nat × Fault)) : Attempts Sample.cfg Sample.ext Sample.lib none x [⟨[x], steps⟩] := by
  intro w hw
  cases List.mem_singleton.mp hw
  refine ⟨0, rfl, ?_⟩
  intro j y hj hy
  match j with
  | 0 => exact (hj rfl).elim
  | j + 1 => simp at hy

example : Asks Sample.lib none Sample.webPut (.putObject Sample.webInput) ∧ Refills (.putObject Sample.webInput) ∧ IsDir Sample.fs Sample.cfg.root ∧
    Attempts Sample.cfg Sample.ext Sample.lib none Sample.webPut Sample.webTries ∧
    (∃ res, responded Sample.cfg Sample.ext Sample.lib none Sample.webPut.env Sample.webPut.texts Sample.webPut.req Sample.fs = .ok res ∧
      res.status / 100 = 2) ∧
    stored Sample.cfg Sample.fs b!"aaa" b!"x" = some b!"hello" ∧
    stored Sample.cfg (webLife Sample.cfg Sample.ext Sample.lib none Sample.webTries Sample.fs) b!"aaa" b!"x" = some b!"n" := by
  refine ⟨Sample.webPut_asks, ⟨Sample.legal (by decide +kernel), b!"x", [b!"x"], plain1 (by decide), .inl rfl⟩, by show _ = _; decide +kernel, ?_, ?_,
    by decide +kernel, by decide +kernel⟩
  · intro w hw
    rcases List.mem_cons.mp hw with rfl | hw
    · exact Sample.alone_attempts Sample.webPut _ _ (List.mem_cons_self ..)
    · cases List.mem_singleton.mp hw
      refine ⟨1, rfl, ?_⟩
      intro j y hj hy
      match j with
      | 0 =>
        cases hy
        exact .inl ⟨.getObject b!"aaa" b!"x" none Sample.env.wants, trivial, Sample.webGet_asks⟩
      | 1 => exact (hj rfl).elim
      | j + 2 => simp at hy
  · exact Sample.webPut_succeeds

/-- a DELETE that is carried out although the disk reports an error, and is sent again -/
example : Asks Sample.lib none Sample.webDelete (.deleteObject b!"aaa" b!"x") ∧ Settles Sample.cfg Sample.fs (.deleteObject b!"aaa" b!"x") ∧
    Attempts Sample.cfg Sample.ext Sample.lib none Sample.webDelete [⟨[Sample.webDelete], [(0, .after)]⟩] ∧
    stored Sample.cfg Sample.fs b!"aaa" b!"x" = some b!"hello" ∧
    stored Sample.cfg (webLife Sample.cfg Sample.ext Sample.lib none [⟨[Sample.webDelete], [(0, .after)]⟩] Sample.fs) b!"aaa" b!"x" = none := by
  refine ⟨Sample.webDelete_asks, trivial, Sample.alone_attempts _ _, by decide +kernel, by decide +kernel⟩

/-- a folder that is made although the disk reports an error, and is asked for again -/
example : Asks Sample.lib none Sample.webFolderMake (.putObject ⟨b!"aaa", b!"d/", some [], some 0, none, none⟩) ∧
    Refills (.putObject ⟨b!"aaa", b!"d/", some [], some 0, none, none⟩) ∧
    Attempts Sample.cfg Sample.ext Sample.lib none Sample.webFolderMake [⟨[Sample.webFolderMake], [(0, .after), (0, .before)]⟩] ∧
    ¬ IsDir Sample.fs [b!"srv", b!"aaa", b!"d"] ∧
    IsDir (webLife Sample.cfg Sample.ext Sample.lib none [⟨[Sample.webFolderMake], [(0, .after), (0, .before)]⟩] Sample.fs) [b!"srv", b!"aaa", b!"d"] :=
  ⟨Sample.webFolderMake_asks, ⟨Sample.legal (by decide +kernel), b!"d", [b!"d"], plain1 (by decide), .inr rfl⟩, Sample.alone_attempts _ _,
    by unfold IsDir; decide +kernel, by unfold IsDir; decide +kernel⟩

/-- a copy that dies halfway -/
example : Refills (.copyObject b!"aaa" b!"z" b!"aaa/x") :=
  ⟨Sample.legal (by decide +kernel), ⟨[b!"z"], plain1 (by decide)⟩, b!"aaa", b!"x", by decide +kernel, Sample.legal (by decide +kernel),
    ⟨[b!"x"], plain1 (by decide)⟩, by decide⟩

/-- the making of `ccc`, and the removal of `bbb`, each carried out although the disk reports an error -/
def Sample.webMakeTry : WebEpoch := ⟨[Sample.webMake], [(0, .none), (0, .after)]⟩
def Sample.webDropTry : WebEpoch := ⟨[Sample.webDrop], [(0, .after)]⟩

example : Settles Sample.cfg Sample.fs (.createBucket b!"ccc") ∧ Settles Sample.cfg Sample.fs (.deleteBucket b!"bbb") ∧
    Attempts Sample.cfg Sample.ext Sample.lib none Sample.webMake [Sample.webMakeTry] ∧ Attempts Sample.cfg Sample.ext Sample.lib none Sample.webDrop [Sample.webDropTry] ∧
    ¬ IsDir Sample.fs [b!"srv", b!"ccc"] ∧
    IsDir (webLife Sample.cfg Sample.ext Sample.lib none [Sample.webMakeTry] Sample.fs) [b!"srv", b!"ccc"] := by
  exact ⟨Sample.legal (by decide +kernel), Sample.legal (by decide +kernel), Sample.alone_attempts _ _, Sample.alone_attempts _ _, by unfold IsDir; decide +kernel,
    by unfold IsDir; decide +kernel⟩

/-- the status of the response to a request that is sent on its own -/
def Sample.statusOn (x : Exchange) (fs : FS) : Option Nat :=
  (Sample.webStatus (some (responded Sample.cfg Sample.ext Sample.lib none x.env x.texts x.req fs))).map Prod.fst

/-- **C146** The answers of the second group do change: the removal of `bbb` would be answered 204, but after an attempt that removed it
without saying so it is answered 500; and the making of `ccc` 409 instead of 200. -/
theorem C146_answer_fails :
    Sample.statusOn Sample.webDrop Sample.fs = some 204 ∧
    Sample.statusOn Sample.webDrop (webLife Sample.cfg Sample.ext Sample.lib none [Sample.webDropTry] Sample.fs) = some 500 ∧
    Sample.statusOn Sample.webMake Sample.fs = some 200 ∧
    Sample.statusOn Sample.webMake (webLife Sample.cfg Sample.ext Sample.lib none [Sample.webMakeTry] Sample.fs) = some 409 := by
  decide +kernel

end S3
