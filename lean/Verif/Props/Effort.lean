import Verif.Lemmas.Effort
import Verif.Lemmas.Handler
import Verif.Spec.WebLife
import Verif.Props.Response
import Verif.Props.Clock
/-! C117: no client can hold up another, and a request costs what it asks for. -/
namespace S3
open Spec

variable (cfg : Cfg) (ext : Ext) (lib : Lib) (auth : Option Provider)

theorem hyperCall_answers {env : Env} {r : Req} {c : Ctx} (hc : admit lib auth r = .ok c) {o : Op} (ho : Requests lib env r c.body o) {e : Nat}
    (he : Effort cfg o e) (x : Texts) : Answers (hyperCall cfg ext lib auth env x r) e := by
  obtain ⟨K, hK, h⟩ := hyperCall_eq cfg ext lib auth env x r
  rw [h, handle_ok hc, dispatch_requests (ready_of_admit hc) ho]
  refine Within.catch ?_ (errorResponse_ret x)
  refine Within.bind (n := e) (m := 0) (Within.bind (n := e) (m := 0) (effort_within he) fun a => ?_) fun rep => ?_
  · unfold respond
    split
    · exact within_ret _ _
    · exact within_fail _ _
  · obtain ⟨res, hr, _⟩ := hK rep
    rw [hr]; exact within_ret _ _

/-- **C117** (partial) Any requests served at the same time, in any order of their steps, on a disk that may fail: a request is answered as soon
as it has had as many turns as `Effort` says, which depends on that request only: not on what is stored, not on what the other requests
do, not on what goes wrong. Missing from the full property: GET of a whole object or of a range without end, whose work grows with the object,
and the listings, whose work grows with all that is stored below the bucket, see `C117_listing_fails`; and that the work for a range is not
about the range only, see `C117_range_fails`. -/
theorem C117_effort_partial (w : WebEpoch) (fs : FS) {n : Nat} {x : Exchange} (hn : w.requests[n]? = some x) {c : Ctx}
    (hc : admit lib auth x.req = .ok c) {o : Op} (ho : Requests lib x.env x.req c.body o) {e : Nat} (he : Effort cfg o e) (ht : e ≤ turns n w.steps) :
    ∃ res, w.response cfg ext lib auth fs n = some (.ok res) := by
  obtain ⟨q, h1, h2⟩ := runParF_answers (cfg := cfg) w.steps (ps := w.requests.map fun x => hyperCall cfg ext lib auth x.env x.texts x.req) (fs := fs)
    (by rw [List.getElem?_map, hn]; rfl) (hyperCall_answers cfg ext lib auth hc ho he x.texts)
  rw [show e - turns n w.steps = 0 by omega] at h2
  obtain ⟨res, rfl⟩ := h2.done
  exact ⟨res, by rw [WebEpoch.response, h1]; rfl⟩

/-- the hypotheses are met: a PUT of a new object in two fragments, between whose steps another client uploads, a HEAD and a GET of two bytes;
the HEAD has had its five turns (the first four were those of the PUT), the GET its ten, and both are answered; the PUT has had four of fifteen -/
example : let put := Sample.plain b!"PUT" b!"/aaa/x" none [] [some b!"ab", some b!"cd"]
    let head := Sample.plain b!"HEAD" b!"/aaa/x" none [] []
    let get := Sample.plain b!"GET" b!"/aaa/x" none [(b!"range", b!"bytes=0-1")] []
    let w : WebEpoch := ⟨[⟨Sample.env, Sample.texts, put⟩, ⟨Sample.env, Sample.texts, head⟩, ⟨Sample.env, Sample.texts, get⟩],
      List.replicate 4 (0, .none) ++ List.replicate 5 (1, .none) ++ (2, .before) :: List.replicate 9 (2, .none)⟩
    ∃ cp ch cg, admit Sample.lib none put = .ok cp ∧ admit Sample.lib none head = .ok ch ∧ admit Sample.lib none get = .ok cg ∧
      Requests Sample.lib Sample.env head ch.body (.headObject b!"aaa" b!"x") ∧ Effort Sample.cfg (.headObject b!"aaa" b!"x") 5 ∧
      Requests Sample.lib Sample.env get cg.body (.getObject b!"aaa" b!"x" (some b!"bytes=0-1") Sample.env.wants) ∧
      Effort Sample.cfg (.getObject b!"aaa" b!"x" (some b!"bytes=0-1") Sample.env.wants) 10 ∧ turns 1 w.steps = 5 ∧ turns 2 w.steps = 10 ∧
      (w.response Sample.cfg Sample.ext Sample.lib none Sample.fs 0).isSome = false ∧
      (w.response Sample.cfg Sample.ext Sample.lib none Sample.fs 1).isSome = true := by
  intro put head get w
  obtain ⟨cp, hp, _⟩ := Sample.admit_of (r := put) (by decide +kernel)
  obtain ⟨ch, hh, _⟩ := Sample.admit_of (r := head) (by decide +kernel)
  obtain ⟨cg, hg, _⟩ := Sample.admit_of (r := get) (by decide +kernel)
  refine ⟨cp, ch, cg, hp, hh, hg, .headObject rfl (Sample.at_object rfl (by decide +kernel) (by decide +kernel) (by decide) (by decide)) (Sample.selects_none rfl), .headObject _ _,
    .getObject rfl (Sample.at_object rfl (by decide +kernel) (by decide +kernel) (by decide) (by decide)) (Sample.selects_none rfl)
      (Sample.value_header (by decide +kernel)),
    .getFromTo _ _ _ 0 1 _ (.closed 0 1 b!"0" b!"1" ⟨⟨by decide, by decide, by decide⟩, by decide⟩ ⟨⟨by decide, by decide, by decide⟩, by decide⟩ (by decide)) (by decide),
    by decide +kernel, by decide +kernel, by decide +kernel, by decide +kernel⟩

/-- **C117** A request that is refused (no valid signature, malformed address, ...) is answered without any access to the storage. -/
theorem C117_refused (w : WebEpoch) (fs : FS) {n : Nat} {x : Exchange} (hn : w.requests[n]? = some x) {e : S3ErrorCode}
    (hc : admit lib auth x.req = .error e) : ∃ res, w.response cfg ext lib auth fs n = some (.ok res) := by
  have : Answers (hyperCall cfg ext lib auth x.env x.texts x.req) 0 := by
    obtain ⟨K, hK, h⟩ := hyperCall_eq cfg ext lib auth x.env x.texts x.req
    rw [h, handle_error hc]
    obtain ⟨res, hr⟩ := errorResponse_ret x.texts e
    show Answers (errorResponse x.texts e) 0
    rw [hr]; exact answers_ret _ _
  obtain ⟨q, h1, h2⟩ := runParF_answers (cfg := cfg) w.steps (ps := w.requests.map fun x => hyperCall cfg ext lib auth x.env x.texts x.req) (fs := fs)
    (by rw [List.getElem?_map, hn]; rfl) this
  obtain ⟨res, rfl⟩ := (h2.mono (Nat.le_of_eq (Nat.zero_sub _))).done
  exact ⟨res, by rw [WebEpoch.response, h1]; rfl⟩

/-- **C117** A successful GET of any part of an object reads the whole object (to compute its ETag). -/
theorem C117_range_reads_all {fs : FS} {b k c : Bytes} (hs : stored cfg fs b k = some c) {range : Option Bytes} {w : Nat → Nat} {a : Answer}
    (h : answer cfg ext (.getObject b k range w) fs = .ok a) : c.length ≤ bytesRead cfg (opProg cfg ext (.getObject b k range w)) fs := by
  obtain ⟨p, i, hp, ha, rfl⟩ := stored_some.mp hs
  exact reads_get b k range w fs hp ha a h

namespace Sample
/-- the tree in which the object `x` of the bucket `aaa` has `n` bytes -/
def big (n : Nat) : FS := Sample.fs.setData ⟨[b!"srv", b!"aaa", b!"x"], 0⟩ (List.replicate n 7)
end Sample

/-- **C117** (negation) There is no bound on what the server reads to answer a GET for a range of one byte. -/
theorem C117_range_fails : ∃ (cfg : Cfg) (ext : Ext) (b k h : Bytes) (w : Nat → Nat), RangeHeader h (.fromTo 0 0) ∧ ∀ N, ∃ fs md e, WF fs ∧
    answer cfg ext (.getObject b k (some h) w) fs = .ok (.object 1 md e (some [7])) ∧
    N < bytesRead cfg (opProg cfg ext (.getObject b k (some h) w)) fs := by
  refine ⟨Sample.cfg, Sample.ext, b!"aaa", b!"x", b!"bytes=0-0", fun _ => 4096, ?_, fun N => ?_⟩
  · exact .closed 0 0 b!"0" b!"0" ⟨⟨by decide, by decide, by decide⟩, by decide⟩ ⟨⟨by decide, by decide, by decide⟩, by decide⟩ (by decide)
  · have hd : (Sample.big (N + 1)).data ⟨[b!"srv", b!"aaa", b!"x"], 0⟩ = 7 :: List.replicate N 7 := by
      rw [Sample.big, data_setData, if_pos rfl, List.replicate_succ]
    have hp : objectPath Sample.cfg b!"aaa" b!"x" = some ⟨[b!"srv", b!"aaa", b!"x"], false⟩ := by decide +kernel
    have ha : (Sample.big (N + 1)).at ⟨[b!"srv", b!"aaa", b!"x"], false⟩ = some (.file ⟨[b!"srv", b!"aaa", b!"x"], 0⟩) :=
      show Sample.fs.at ⟨[b!"srv", b!"aaa", b!"x"], false⟩ = _ by decide +kernel
    have hm : metaAt Sample.ext (Sample.big (N + 1)) (Sample.cfg.root ++ [metadataName b!"aaa" b!"x"]) = some none := by
      have : (Sample.big (N + 1)).lookup (Sample.cfg.root ++ [metadataName b!"aaa" b!"x"]) = none :=
        show Sample.fs.lookup (Sample.cfg.root ++ [metadataName b!"aaa" b!"x"]) = none by decide +kernel
      rw [metaAt, this]
    have hr : rangeOf (some b!"bytes=0-0") = some (some (.normal 0 (some 0))) := by decide +kernel
    have hg := get_run_file (cfg := Sample.cfg) (ext := Sample.ext) (wants := fun _ => 4096) hp ha hr
    rw [hd, hm] at hg
    have hs : rangeSlice (7 :: List.replicate N 7 : Bytes).length (some (.normal 0 (some 0))) = some (0, 1) := by
      simp [rangeSlice, u64Max]
    rw [hs] at hg
    have h1 : answer Sample.cfg Sample.ext (.getObject b!"aaa" b!"x" (some b!"bytes=0-0") fun _ => 4096) (Sample.big (N + 1))
        = .ok (.object 1 none (quoted (Sample.ext.md5hex (7 :: List.replicate N 7))) (some [7])) :=
      answer_get.mpr ⟨_, by rw [hg]; rfl, rfl⟩
    refine ⟨Sample.big (N + 1), none, _, ?_, h1, ?_⟩
    · exact ⟨Sample.fs_wf.nodup, Sample.fs_wf.names, Sample.fs_wf.parent, Sample.fs_wf.ino⟩
    · refine Nat.lt_of_lt_of_le ?_ (C117_range_reads_all Sample.cfg Sample.ext (stored_some.mpr ⟨_, _, hp, ha, hd⟩) h1)
      simp

theorem accesses_bind {α β : Type} {p : Prog α} {f : α → Prog β} {fs fs' : FS} {a : α} (h : run cfg p fs = (.ok a, fs')) :
    accesses cfg (p.bind f) fs = accesses cfg p fs + accesses cfg (f a) fs' := by
  induction p generalizing fs with
  | ret b => cases h; simp [Prog.bind, accesses]
  | sys c k ih =>
    simp only [Prog.bind, accesses]
    rw [ih _ h]
    omega
  | _ => cases h

namespace Sample
/-- a folder in a folder in a folder ... of the bucket `ccc` -/
def nested : Nat → Path
  | 0 => [b!"srv", b!"ccc"]
  | n + 1 => nested n ++ [b!"d"]
/-- the tree with `n` folders in the bucket `ccc`, and no object there -/
def deep : Nat → FS
  | 0 => (exec Sample.cfg Sample.fs (.mkdir [b!"srv", b!"ccc"])).2
  | n + 1 => (exec Sample.cfg (deep n) (.mkdir (nested (n + 1)))).2

theorem nested_length (n : Nat) : (nested n).length = n + 2 := by
  induction n with
  | zero => rfl
  | succ n ih => simp [nested, ih]

theorem nested_noNul (n : Nat) : noNul (nested n) = true := by
  induction n with
  | zero => decide
  | succ n ih => rw [noNul, nested, List.all_append, ← noNul, ih]; decide

theorem nested_inj {n m : Nat} (h : nested n = nested m) : n = m := by
  have := congrArg List.length h
  rw [nested_length, nested_length] at this
  omega

theorem nested_ne (n : Nat) : nested n ≠ [] := by
  intro h
  have := congrArg List.length h
  rw [nested_length] at this
  cases this

theorem deep_wf (n : Nat) : WF (deep n) := by
  cases n <;> exact exec_wf _ (by first | exact Sample.fs_wf | exact deep_wf _) _

theorem mem_short : ∀ e ∈ (deep 0).nodes, e.1.length ≤ 3 ∧ (e.1.length = 3 → e.1.dropLast ≠ nested 0) := by decide +kernel

theorem deep_spec (n : Nat) : (∀ m, (deep n).lookup (nested m) = if m ≤ n then some .dir else none) ∧
    ∀ m, (deep n).children (nested m) = if m < n then [(b!"d", .dir)] else [] := by
  induction n with
  | zero =>
    constructor
    · intro m
      cases m with
      | zero => decide +kernel
      | succ m =>
        rw [if_neg (by omega), FS.lookup, if_neg (nested_ne _), Option.map_eq_none_iff, List.find?_eq_none]
        intro e he heq
        have h1 := mem_short e he
        rw [eq_of_beq heq, nested_length] at h1
        have : m = 0 := by omega
        subst this
        exact h1.2 rfl (by simp [nested])
    · intro m
      rw [if_neg (by omega), FS.children, List.filterMap_eq_nil_iff]
      intro e he
      have h1 := mem_short e he
      unfold childOf
      split
      · rw [if_neg]
        intro hd
        have h2 := congrArg List.length hd
        rw [List.length_dropLast, nested_length] at h2
        have : m = 0 := by omega
        subst this
        exact h1.2 (by omega) hd
      · rfl
  | succ n ih =>
    obtain ⟨h1, h2⟩ := ih
    have hn : (deep n).lookup (nested (n + 1)) = none := by rw [h1, if_neg (by omega)]
    have hset : deep (n + 1) = (deep n).set (nested (n + 1)) .dir := by
      have e1 : (nested (n + 1)).getLast? = some b!"d" := by simp [nested]
      have e2 : (nested (n + 1)).dropLast = nested n := by simp [nested]
      rw [deep]
      simp only [exec, nested_noNul, e1, e2, h1]
      rw [if_neg (by simp), if_pos (Nat.le_refl _), if_neg (by omega)]
      simp only
      rw [if_pos (by decide)]
    have hfil : (deep n).nodes.filter (fun e => e.1 != nested (n + 1)) = (deep n).nodes := by
      rw [FS.lookup, if_neg (nested_ne _), Option.map_eq_none_iff, List.find?_eq_none] at hn
      rw [List.filter_eq_self]
      intro e he
      have := hn e he
      simpa using this
    constructor
    · intro m
      rw [hset, FS.lookup, if_neg (nested_ne _), FS.set, hfil, List.find?_cons]
      have := h1 m
      rw [FS.lookup, if_neg (nested_ne _)] at this
      by_cases e : n + 1 = m
      · subst e; simp
      · have : nested (n + 1) ≠ nested m := fun h => e (nested_inj h)
        rw [show ((nested (n + 1), Node.dir).1 == nested m) = false by simpa using this]
        simp only
        rw [‹Option.map _ _ = _›]
        split <;> split <;> first | rfl | omega
    · intro m
      rw [hset, FS.children, FS.set, hfil, List.filterMap_cons]
      have e0 : childOf (nested m) (nested (n + 1), Node.dir) = if n = m then some (b!"d", .dir) else none := by
        unfold childOf
        simp only [nested, List.getLast?_append, List.getLast?_singleton, Option.some_or, List.dropLast_concat]
        by_cases e : n = m
        · subst e; simp
        · rw [if_neg (fun h => e (nested_inj h)), if_neg e]
      rw [e0]
      have := h2 m
      rw [FS.children] at this
      by_cases e : n = m
      · subst e
        simp only [if_true]
        rw [this, if_neg (by omega), if_pos (by omega)]
      · simp only [if_neg e]
        rw [this]
        split <;> split <;> first | rfl | omega

theorem deep_loop (n k m : Nat) (pfx : Option Bytes) (fuel : Nat) (hk : m + k = n) (hf : k < fuel) :
    run Sample.cfg (listLoop Sample.cfg (nested 0) pfx fuel [nested m]) (deep n) = (.ok [], deep n) ∧
    accesses Sample.cfg (listLoop Sample.cfg (nested 0) pfx fuel [nested m]) (deep n) = k + 1 := by
  induction k generalizing m fuel with
  | zero =>
    cases fuel with
    | zero => omega
    | succ fuel =>
      have hc : (exec Sample.cfg (deep n) (.readDir ⟨nested m, false⟩)) = (some [], deep n) := by
        simp only [exec, (deep_spec n).1, (deep_spec n).2]
        rw [if_pos (by omega), if_neg (by omega)]; rfl
      simp only [listLoop, bind, Prog.bind, call, run, accesses, hc, orInternal, listEntries, pure, List.append_nil]
      exact ⟨trivial, trivial⟩
  | succ k ih =>
    cases fuel with
    | zero => omega
    | succ fuel =>
      have hc : (exec Sample.cfg (deep n) (.readDir ⟨nested m, false⟩)) = (some [(b!"d", true)], deep n) := by
        simp only [exec, (deep_spec n).1, (deep_spec n).2]
        rw [if_pos (by omega), if_pos (by omega)]; rfl
      obtain ⟨i1, i2⟩ := ih (m + 1) fuel (by omega) (by omega)
      simp only [listLoop, bind, Prog.bind, call, run, accesses, hc, orInternal, listEntries, pure, List.nil_append, if_true]
      rw [show nested m ++ [b!"d"] = nested (m + 1) from rfl]
      have := accesses_bind Sample.cfg (f := fun rest => Prog.ret (rest : List (Bytes × Nat))) i1
      constructor
      · rw [run_bind, i1]; rfl
      · rw [this, i2]; rfl
end Sample

/-- **C117** (negation) There is no bound on the accesses to the storage that a listing makes, even if the prefix is that of no object and the
answer is empty: all folders of the bucket are visited. -/
theorem C117_listing_fails : ∃ (cfg : Cfg) (ext : Ext) (b pfx : Bytes), ∀ N, ∃ fs, WF fs ∧ ∀ fuel, N < fuel →
    answer cfg ext (.listObjects b (some pfx) fuel) fs = .ok (.objects []) ∧ N < accesses cfg (opProg cfg ext (.listObjects b (some pfx) fuel)) fs := by
  refine ⟨Sample.cfg, Sample.ext, b!"ccc", b!"z", fun N => ⟨Sample.deep N, Sample.deep_wf N, fun fuel hf => ?_⟩⟩
  obtain ⟨h1, h2⟩ := Sample.deep_loop N N 0 (some b!"z") fuel (by omega) hf
  have hb : bucketPath Sample.cfg b!"ccc" = some ⟨Sample.nested 0, false⟩ := by decide +kernel
  have e : ∀ fs', run Sample.cfg (listObjects Sample.cfg b!"ccc" (some b!"z") fuel) fs' =
    run Sample.cfg ((listLoop Sample.cfg (Sample.nested 0) (some b!"z") fuel [Sample.nested 0]).bind fun os => .ret (isort objLe os)) fs' := by
    intro fs'; simp only [listObjects, hb, bind, Prog.bind, orInternal, pure]
  have r1 : run Sample.cfg (listObjects Sample.cfg b!"ccc" (some b!"z") fuel) (Sample.deep N) = (.ok [], Sample.deep N) := by
    rw [e, run_bind, h1]; rfl
  constructor
  · simp only [answer, opProg, run_bind, r1]; rfl
  · have a1 : accesses Sample.cfg (listObjects Sample.cfg b!"ccc" (some b!"z") fuel) (Sample.deep N) = N + 1 := by
      simp only [listObjects, hb, bind, Prog.bind, orInternal, pure]
      rw [accesses_bind _ h1, h2]; rfl
    simp only [opProg]
    rw [accesses_bind _ r1, a1]
    omega

end S3
