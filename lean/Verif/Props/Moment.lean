import Verif.Lemmas.Moment
import Verif.Props.Concerns
import Verif.Props.XmlBody
/-! C125: a creation or deletion happens at one moment. -/
namespace S3
open Spec

variable {cfg : Cfg} {ext : Ext} {lib : Lib} {auth : Option Provider}

/-- **C125** A creation of a bucket, a deletion of an object, a list of the buckets and a question whether a bucket is there take effect at one moment: among the system calls made for the request, one at most changes anything, and it leaves the disk as if the request
had been served there and then, alone, from beginning to end; a response of success is what it would have been there and then. This holds
whatever other requests - of any kind, well formed or not - are served at the same time, in whatever order the system calls are made, and
whatever fails in the calls of the others. -/
theorem C125_one_moment {w : WebEpoch} {n : Nat} {x : Exchange} {o : Op} (hn : w.requests[n]? = some x) (hx : Asks lib auth x o)
    (ho : OneChange o) (hf : ∀ s ∈ w.steps, s.1 = n → s.2 = .none) {fs : FS} (hw : WF fs) :
    ∃ t, TakesEffectAt cfg ext lib auth w fs n x t :=
  takesEffect_of hn hx ho hf hw

theorem oneByOne_append {xs : List Exchange} (l l' : List Nat) (fs : FS) :
    oneByOne cfg ext lib auth xs (l ++ l') fs = oneByOne cfg ext lib auth xs l' (oneByOne cfg ext lib auth xs l fs) := by
  induction l generalizing fs with
  | nil => rfl
  | cons n l ih => exact ih _

/-- the request that takes effect with call number `s` -/
def effectAt (w : WebEpoch) (T : Nat → Option Nat) (s : Nat) : Option Nat :=
  match w.steps[s]? with
  | some (n, _) => if T n = some s ∧ n < w.requests.length then some n else none
  | none => none

theorem effectAt_iff {w : WebEpoch} {T : Nat → Option Nat} {s n : Nat} :
    effectAt w T s = some n ↔ T n = some s ∧ n < w.requests.length ∧ ∃ f, w.steps[s]? = some (n, f) := by
  unfold effectAt
  split
  · rename_i n' f hs
    split
    · rename_i h
      constructor
      · rintro ⟨⟩; exact ⟨h.1, h.2, f, hs⟩
      · rintro ⟨_, _, f', hf⟩; rw [hs] at hf; cases hf; rfl
    · rename_i h
      constructor
      · intro h; cases h
      · rintro ⟨h1, h2, f', hf⟩; rw [hs] at hf; cases hf; exact absurd ⟨h1, h2⟩ h
  · rename_i hs
    constructor
    · intro h; cases h
    · rintro ⟨_, _, f', hf⟩; rw [hs] at hf; cases hf

theorem range_split {α : Type} (g : Nat → Option α) {s m : Nat} {n : α} (hs : s < m) (hg : g s = some n) :
    ∃ later, (List.range m).filterMap g = (List.range s).filterMap g ++ n :: later := by
  induction m with
  | zero => exact absurd hs (Nat.not_lt_zero _)
  | succ m ih =>
    rw [List.range_succ, List.filterMap_append]
    rcases Nat.lt_succ_iff_lt_or_eq.mp hs with h | rfl
    · obtain ⟨later, h⟩ := ih h
      rw [h]
      exact ⟨later ++ [m].filterMap g, by simp⟩
    · exact ⟨[], by simp [hg]⟩

/-- **C125** When every PUT, POST and DELETE that is served at the same time is such a request (or is refused at once), the requests can be
put in an order - one after the other, each in between its first and its last system call - such that the disk ends as if they had been
served one by one in that order, and every response of success is the one given in that order. -/
theorem C125_serial {w : WebEpoch} (hf : ∀ s ∈ w.steps, s.2 = .none)
    (hx : ∀ x ∈ w.requests, x.req.method ≠ b!"PUT" ∧ x.req.method ≠ b!"POST" ∧ x.req.method ≠ b!"DELETE" ∨
      AsksIn cfg ext lib auth OneChange x) {fs : FS} (hw : WF fs) :
    ∃ order : List Nat, order.Nodup ∧
      (order.Pairwise fun m n => ∃ i j : Nat, i < j ∧ w.steps[i]? = some (m, .none) ∧ w.steps[j]? = some (n, .none)) ∧
      w.leaves cfg ext lib auth fs = oneByOne cfg ext lib auth w.requests order fs ∧
      ∀ (n : Nat) x o res, w.requests[n]? = some x → Asks lib auth x o → OneChange o →
        w.response cfg ext lib auth fs n = some (.ok res) → res.status / 100 = 2 →
        ∃ before later, order = before ++ n :: later ∧
          responded cfg ext lib auth x.env x.texts x.req (oneByOne cfg ext lib auth w.requests before fs) = .ok res := by
  have hT : ∀ n : Nat, ∃ t : Option Nat, ∀ x, w.requests[n]? = some x →
      (∀ (s : Nat) f, t ≠ some s → w.steps[s]? = some (n, f) → (w.cut (s + 1)).leaves cfg ext lib auth fs = (w.cut s).leaves cfg ext lib auth fs) ∧
      (∀ s, t = some s → w.steps[s]? = some (n, .none) ∧
        (w.cut (s + 1)).leaves cfg ext lib auth fs = afterResponded cfg ext lib auth x.env x.texts x.req ((w.cut s).leaves cfg ext lib auth fs)) ∧
      ((∃ o, OneChange o ∧ Asks lib auth x o) → TakesEffectAt cfg ext lib auth w fs n x t) := by
    intro n
    cases hn : w.requests[n]? with
    | none => exact ⟨none, fun _ h => nomatch h⟩
    | some x =>
      by_cases ha : ∃ o, OneChange o ∧ Asks lib auth x o
      · obtain ⟨o, ho, ha'⟩ := ha
        obtain ⟨t, ht⟩ := C125_one_moment (cfg := cfg) (ext := ext) hn ha' ho (fun s hs _ => hf s hs) hw
        exact ⟨t, fun y hy => by cases hy; exact ⟨ht.still, ht.change, fun _ => ht⟩⟩
      · refine ⟨none, fun y hy => ?_⟩
        cases hy
        refine ⟨fun s f _ hs => ?_, (fun _ h => nomatch h), fun h => absurd h ha⟩
        rcases hx x (List.mem_of_getElem? hn) with hm | h | h
        · exact still_method hn hm hw hs
        · exact absurd h ha
        · exact still_refused hn h hw hs
  obtain ⟨T, hT⟩ := Classical.axiomOfChoice hT
  have hstep : ∀ m, (w.cut m).leaves cfg ext lib auth fs = oneByOne cfg ext lib auth w.requests ((List.range m).filterMap (effectAt w T)) fs := by
    intro m
    induction m with
    | zero => rfl
    | succ m ih =>
      rw [List.range_succ, List.filterMap_append, oneByOne_append, ← ih]
      simp only [List.filterMap_cons, List.filterMap_nil]
      cases he : effectAt w T m with
      | some n =>
        obtain ⟨h1, h2, f, hs⟩ := effectAt_iff.mp he
        have hn : w.requests[n]? = some w.requests[n] := List.getElem?_eq_getElem h2
        simp only [oneByOne, hn]
        exact ((hT n _ hn).2.1 m h1).2
      | none =>
        show _ = (w.cut m).leaves cfg ext lib auth fs
        cases hs : w.steps[m]? with
        | none => exact congrArg Prod.snd (stepsDone_end hs _ fs)
        | some s =>
          obtain ⟨n, f⟩ := s
          cases hn : w.requests[n]? with
          | none =>
            rw [leaves_cut, leaves_cut, stepsDone_succ hs]
            have hlen : (stepsDone cfg w.steps (w.requests.map fun x => hyperCall cfg ext lib auth x.env x.texts x.req) fs m).1[n]? = none := by
              rw [List.getElem?_eq_none_iff] at hn ⊢
              rw [stepsDone, runParF_length]
              simpa using hn
            simp only [runParF, hlen]
          | some x =>
            refine (hT n x hn).1 m f (fun e => ?_) hs
            have := effectAt_iff.mpr ⟨e, (List.getElem?_eq_some_iff.mp hn).1, f, hs⟩
            rw [he] at this
            cases this
  have hall : w.leaves cfg ext lib auth fs = (w.cut w.steps.length).leaves cfg ext lib auth fs := by
    rw [WebEpoch.cut, List.take_length]
  refine ⟨(List.range w.steps.length).filterMap (effectAt w T), ?_, ?_, by rw [hall, hstep], ?_⟩
  · rw [List.Nodup, List.pairwise_filterMap]
    refine List.pairwise_lt_range.imp fun {i j} hij a ha b hb e => ?_
    have h1 := (effectAt_iff.mp ha).1
    have h2 := (effectAt_iff.mp hb).1
    rw [e, h2] at h1
    cases h1
    exact Nat.lt_irrefl _ hij
  · rw [List.pairwise_filterMap]
    refine List.pairwise_lt_range.imp fun {i j} hij a ha b hb => ⟨i, j, hij, ?_, ?_⟩
    · obtain ⟨_, _, f, h⟩ := effectAt_iff.mp ha
      rw [h, show f = .none from hf _ (List.mem_of_getElem? h)]
    · obtain ⟨_, _, f, h⟩ := effectAt_iff.mp hb
      rw [h, show f = .none from hf _ (List.mem_of_getElem? h)]
  · intro n x o res hn ha ho hr hs
    have hm := (hT n x hn).2.2 ⟨o, ho, ha⟩
    obtain ⟨s, hts, hres⟩ := hm.success res hr hs
    obtain ⟨hss, _⟩ := hm.change s hts
    have he : effectAt w T s = some n := effectAt_iff.mpr ⟨hts, (List.getElem?_eq_some_iff.mp hn).1, _, hss⟩
    obtain ⟨later, hl⟩ := range_split (effectAt w T) (List.getElem?_eq_some_iff.mp hss).1 he
    refine ⟨_, later, hl, ?_⟩
    rw [← hstep]
    exact hres

/-! ### the hypotheses are met -/

/-- the object `aaa/x` is deleted in the middle of an upload and a copy of it, on a disk on which the calls for these meet errors: 204, and the
upload goes on -/
def Sample.webRun7 : WebEpoch :=
  ⟨[Sample.webPut, Sample.webCopy, Sample.webDelete], List.replicate 3 (0, .none) ++ [(1, .none), (1, .before), (2, .none), (0, .during 1 [])]⟩

example : Sample.webRun7.requests[2]? = some Sample.webDelete ∧ Asks Sample.lib none Sample.webDelete (.deleteObject b!"aaa" b!"x") ∧
    OneChange (.deleteObject b!"aaa" b!"x") ∧ (∀ s ∈ Sample.webRun7.steps, s.1 = 2 → s.2 = .none) ∧ WF Sample.fs ∧
    Sample.webStatus (Sample.webRun7.response Sample.cfg Sample.ext Sample.lib none Sample.fs 2) = some (204, some []) ∧
    contentAt ((Sample.webRun7.cut 5).leaves Sample.cfg Sample.ext Sample.lib none Sample.fs) (Sample.cfg.root ++ [b!"aaa", b!"x"]) ≠ none ∧
    contentAt ((Sample.webRun7.cut 6).leaves Sample.cfg Sample.ext Sample.lib none Sample.fs) (Sample.cfg.root ++ [b!"aaa", b!"x"]) = none :=
  ⟨rfl, Sample.webDelete_asks, .deleteObject, by simp [Sample.webRun7], Sample.fs_wf, by decide +kernel, by decide +kernel, by decide +kernel⟩

def Sample.webMake : Exchange := Sample.exchange Sample.createReq
def Sample.webBuckets : Exchange := Sample.exchange (Sample.plain b!"GET" b!"/" none [] [])

theorem Sample.webMake_asks : Asks Sample.lib none Sample.webMake (.createBucket b!"ccc") := by
  obtain ⟨c, hc, hb⟩ := Sample.admit_of (r := Sample.createReq) (by decide +kernel)
  have ht : Text c.body Sample.locationDoc := by rw [hb]; exact ⟨show none ∉ _ by decide +kernel, by decide +kernel⟩
  exact ⟨c, hc, .createBucket rfl (Sample.at_bucket rfl (by decide +kernel) (by decide +kernel)) (Sample.selects_none rfl) ht
    (by rw [Lib.xmlCreateBucket, Sample.lib_xml.document _ _ Sample.location_document]; exact readCreateBucket_request _)
    ⟨none, Sample.no_header (by decide +kernel), .inl rfl⟩⟩

/-- A bucket is created by two clients at the same time, the buckets are listed by a third, and an object elsewhere is read and deleted. -/
def Sample.webRun8 : WebEpoch :=
  ⟨[Sample.webMake, Sample.webMake, Sample.webBuckets, Sample.webDelete, Sample.webGet, Sample.webBad],
    [(0, .none), (1, .none), (4, .none), (2, .none), (1, .none), (3, .none), (0, .none), (2, .none), (2, .none), (4, .none)]⟩

example : (∀ s ∈ Sample.webRun8.steps, s.2 = .none) ∧
    (∀ x ∈ Sample.webRun8.requests, x.req.method ≠ b!"PUT" ∧ x.req.method ≠ b!"POST" ∧ x.req.method ≠ b!"DELETE" ∨
      AsksIn Sample.cfg Sample.ext Sample.lib none OneChange x) ∧ WF Sample.fs ∧
    (∀ n ∈ [0, 1, 2, 3], (Sample.webStatus (Sample.webRun8.response Sample.cfg Sample.ext Sample.lib none Sample.fs n)).map Prod.fst =
      some (if n = 0 then 500 else if n = 3 then 204 else 200)) := by
  refine ⟨by simp [Sample.webRun8], ?_, Sample.fs_wf, by decide +kernel⟩
  intro x hx
  simp only [Sample.webRun8, List.mem_cons, List.not_mem_nil, or_false] at hx
  rcases hx with rfl | rfl | rfl | rfl | rfl | rfl
  · exact .inr (.inl ⟨_, .createBucket, Sample.webMake_asks⟩)
  · exact .inr (.inl ⟨_, .createBucket, Sample.webMake_asks⟩)
  · exact .inl (by decide)
  · exact .inr (.inl ⟨_, .deleteObject, Sample.webDelete_asks⟩)
  · exact .inl (by decide)
  · exact .inl (by decide)

/-- an upload with nobody else about -/
def Sample.webRun9 : WebEpoch := ⟨[Sample.webPut], List.replicate 12 (0, .none)⟩

/-- **C125** (negation) An upload does not happen at one moment: while `aaa/x` is replaced, it is empty for a while. -/
theorem C125_upload_fails :
    ∃ (cfg : Cfg) (ext : Ext) (lib : Lib) (w : WebEpoch) (x : Exchange) (i : PutInput) (fs : FS) (res : Response), WF fs ∧
      w.requests = [x] ∧ Asks lib none x (.putObject i) ∧ (∀ s ∈ w.steps, s.2 = .none) ∧
      w.response cfg ext lib none fs 0 = some (.ok res) ∧ res.status = 200 ∧ ¬ ∃ t, TakesEffectAt cfg ext lib none w fs 0 x t := by
  obtain ⟨res, h1, h2⟩ : ∃ res, Sample.webRun9.response Sample.cfg Sample.ext Sample.lib none Sample.fs 0 = some (.ok res) ∧ res.status = 200 := by
    have : Sample.webStatus (Sample.webRun9.response Sample.cfg Sample.ext Sample.lib none Sample.fs 0) = some (200, some []) := by decide +kernel
    unfold Sample.webStatus at this
    split at this
    · rename_i r hr
      exact ⟨r, hr, (Prod.mk.inj (Option.some.inj this)).1⟩
    · cases this
  refine ⟨Sample.cfg, Sample.ext, Sample.lib, Sample.webRun9, Sample.webPut, Sample.webInput, Sample.fs, res, Sample.fs_wf, rfl, Sample.webPut_asks,
    by simp [Sample.webRun9], h1, h2, ?_⟩
  rintro ⟨t, ht⟩
  have key : ∀ s, contentAt ((Sample.webRun9.cut (s + 1)).leaves Sample.cfg Sample.ext Sample.lib none Sample.fs) (Sample.cfg.root ++ [b!"aaa", b!"x"]) ≠
      contentAt ((Sample.webRun9.cut s).leaves Sample.cfg Sample.ext Sample.lib none Sample.fs) (Sample.cfg.root ++ [b!"aaa", b!"x"]) →
      Sample.webRun9.steps[s]? = some (0, .none) → t = some s := by
    intro s hne hs
    refine Classical.byContradiction fun hts => hne ?_
    rw [ht.still s .none hts hs]
  have h2 := key 2 (by decide +kernel) rfl
  rw [key 3 (by decide +kernel) rfl] at h2
  cases h2

end S3
