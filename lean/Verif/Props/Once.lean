import Verif.Lemmas.Once
/-! C111: what can happen only once is confirmed only once. -/
namespace S3
open Spec

variable {cfg : Cfg} {ext : Ext}

/-- **C111** In the life of a server, over any number of runs, at the same time or one after the other, cut off or not, on a disk that may
fail: as long as nobody stores the object `(b, k)`, at most one request is told that it deleted it. -/
theorem C111_delete_once {b k : Bytes} {cs : List Bytes} (hb : LegalBucket b) (hk : PlainKey k cs) {es : List Epoch}
    (hs : ∀ e ∈ es, ∀ o ∈ e.requests, Tidy o ∧ ¬ Writes o b k) {fs : FS} (hw : WF fs) {r r' : Nat × Nat}
    (h : SaidAt cfg ext (SaysDeleted b k) es fs r) (h' : SaidAt cfg ext (SaysDeleted b k) es fs r') : r = r' := by
  refine said_once (single_removes (cfg := cfg) (P := cfg.root ++ b :: cs)) ?_ (innocent_delete ((C02_bucket_name_rule _).mpr hb) hk)
    (fun e he o ho => noOpen_object hb hk (hs e he o ho).1 (hs e he o ho).2) hw h h'
  intro o r h
  cases r with
  | ok a => exact ⟨a, rfl⟩
  | _ => cases o <;> exact h.elim


/-- three deletions of an object in two runs of the server; the second run begins after the first was cut off on a failing disk -/
def Sample.rivals : List Epoch :=
  [⟨[.deleteObjects b!"bbb" [b!"y"], .deleteObject b!"bbb" b!"y", .putObject Sample.put3],
      [(0, .none), (2, .none), (1, .before), (0, .none), (2, .none)]⟩,
    ⟨[.deleteObject b!"bbb" b!"y", .putObject Sample.put3], [(1, .none), (0, .none)]⟩]

/-- one of the three is told that it deleted the object, the other two are answered with an error -/
example : stored Sample.cfg Sample.fs b!"bbb" b!"y" = some b!"world!" ∧
    (∀ e ∈ Sample.rivals, ∀ o ∈ e.requests, Tidy o ∧ ¬ Writes o b!"bbb" b!"y") ∧
    SaidAt Sample.cfg Sample.ext (SaysDeleted b!"bbb" b!"y") Sample.rivals Sample.fs (0, 0) ∧
    (Sample.rivals[0]?.bind fun e => e.answered Sample.cfg Sample.ext Sample.fs 1) = some (.err .InternalError) ∧
    (Sample.rivals[1]?.bind fun e => e.answered Sample.cfg Sample.ext (life Sample.cfg Sample.ext (Sample.rivals.take 1) Sample.fs) 0)
      = some (.err .InternalError) := by
  have hy : PlainAddress b!"bbb" b!"y" := ⟨Sample.legal (by decide +kernel), _, plain1 (by decide)⟩
  have hput : Tidy (.putObject Sample.put3) ∧ ¬ Writes (.putObject Sample.put3) b!"bbb" b!"y" :=
    ⟨⟨Sample.legal (by decide +kernel), _, Sample.plain_de⟩, fun e => absurd (congrArg Prod.fst e) (by decide)⟩
  refine ⟨by decide +kernel, ?_, ⟨_, _, .ok (.keys [b!"y"]), rfl, rfl, by decide +kernel, rfl, by decide⟩, by decide +kernel, by decide +kernel⟩
  intro e he o ho
  simp only [Sample.rivals, List.mem_cons, List.not_mem_nil, or_false] at he
  rcases he with rfl | rfl <;> simp only [List.mem_cons, List.not_mem_nil, or_false] at ho
  · rcases ho with rfl | rfl | rfl
    · exact ⟨fun k hk => by rcases List.mem_singleton.mp hk with rfl; exact hy, id⟩
    · exact ⟨hy, id⟩
    · exact hput
  · rcases ho with rfl | rfl
    · exact ⟨hy, id⟩
    · exact hput

/-- **C111** As long as nobody uploads part `n` of the upload `u` again, at most one CompleteMultipartUpload that lists the part is answered
with success, for this object or another. -/
theorem C111_use_once {u : Bytes} {n : Int} (hu : (47 : UInt8) ∉ u) {es : List Epoch}
    (hs : ∀ e ∈ es, ∀ o ∈ e.requests, Tidy o ∧ ∀ body, o ≠ .uploadPart u n body) {fs : FS} (hw : WF fs) {r r' : Nat × Nat}
    (h : SaidAt cfg ext (SaysUsed u n) es fs r) (h' : SaidAt cfg ext (SaysUsed u n) es fs r') : r = r' := by
  refine said_once (single_removes (cfg := cfg) (P := partFile cfg u n)) ?_ (innocent_complete hu)
    (fun e he o ho => noOpen_part (hs e he o ho).1 (hs e he o ho).2) hw h h'
  intro o r h
  cases r with
  | ok a => exact ⟨a, rfl⟩
  | _ =>
    cases o <;> try exact h.elim
    rename_i p
    cases p <;> exact h.elim


/-- two completions that share part 2 of an upload, and a third in the next run: the first that comes through is the only one -/
example :
    let es : List Epoch := [⟨[.completeMultipartUpload b!"aaa" b!"x" b!"id1" (some (numbers 0 3)),
        .completeMultipartUpload b!"bbb" b!"y" b!"id1" (some (numbers 0 2))], List.replicate 20 (0, .none) ++ List.replicate 20 (1, .none)⟩,
      ⟨[.completeMultipartUpload b!"aaa" b!"x" b!"id1" (some (numbers 0 3))], List.replicate 20 (0, .none)⟩]
    let fs := afterAll Sample.cfg Sample.ext Sample.ups Sample.fs
    (∀ e ∈ es, ∀ o ∈ e.requests, Tidy o ∧ ∀ body, o ≠ .uploadPart b!"id1" 2 body) ∧ WF fs ∧
    SaidAt Sample.cfg Sample.ext (SaysUsed b!"id1" 2) es fs (0, 0) ∧
    (es[0]?.bind fun e => e.answered Sample.cfg Sample.ext fs 1) = some (.err .InternalError) := by
  have hx : PlainAddress b!"aaa" b!"x" := ⟨Sample.legal (by decide +kernel), _, plain1 (by decide)⟩
  have hy : PlainAddress b!"bbb" b!"y" := ⟨Sample.legal (by decide +kernel), _, plain1 (by decide)⟩
  refine ⟨?_, wf_afterAll Sample.fs_wf, ⟨_, _, .ok (.etag (some b!"\"md5:5\"")), rfl, rfl, Eq.trans rfl (by decide +kernel), rfl, by decide⟩, Eq.trans rfl (by decide +kernel)⟩
  intro e he o ho
  simp only [List.mem_cons, List.not_mem_nil, or_false] at he
  rcases he with rfl | rfl <;> simp only [List.mem_cons, List.not_mem_nil, or_false] at ho
  · rcases ho with rfl | rfl
    · exact ⟨⟨hx, by decide⟩, fun _ e => nomatch e⟩
    · exact ⟨⟨hy, by decide⟩, fun _ e => nomatch e⟩
  · subst ho
    exact ⟨⟨hx, by decide⟩, fun _ e => nomatch e⟩

/-- **C111** As long as nobody deletes the bucket `b`, at most one CreateBucket for it is answered with success. -/
theorem C111_create_once {b : Bytes} (hb : LegalBucket b) {es : List Epoch}
    (hs : ∀ e ∈ es, ∀ o ∈ e.requests, Tidy o ∧ o ≠ .deleteBucket b) {fs : FS} (hw : WF fs) {r r' : Nat × Nat}
    (h : SaidAt cfg ext (SaysCreated b) es fs r) (h' : SaidAt cfg ext (SaysCreated b) es fs r') : r = r' := by
  refine said_once (single_madeDir (cfg := cfg) (P := cfg.root ++ [b])) ?_ (innocent_createBucket ((C02_bucket_name_rule _).mpr hb))
    (fun e he o ho => keeps_bucket hb ?_) hw h h'
  · intro o r h
    cases r with
    | ok a => exact ⟨a, rfl⟩
    | _ => cases o <;> exact h.elim
  · obtain ⟨h1, h2⟩ := hs e he o ho
    cases o with
    | deleteBucket b' => exact ⟨h1.1, fun x => h2 (x ▸ rfl)⟩
    | _ => exact h1


/-- of three CreateBucket, two at the same time on a failing disk and one after a restart, one is answered with success -/
example :
    let es : List Epoch := [⟨[.createBucket b!"new", .createBucket b!"new"], [(0, .none), (1, .none), (0, .before), (1, .none)]⟩,
      ⟨[.createBucket b!"new", .deleteBucket b!"bbb"], [(1, .none), (0, .none)]⟩]
    (∀ e ∈ es, ∀ o ∈ e.requests, Tidy o ∧ o ≠ .deleteBucket b!"new") ∧
    SaidAt Sample.cfg Sample.ext (SaysCreated b!"new") es Sample.fs (0, 1) ∧
    (es[0]?.bind fun e => e.answered Sample.cfg Sample.ext Sample.fs 0) = some (.err .InternalError) := by
  have hn : LegalBucket b!"new" := Sample.legal (by decide +kernel)
  refine ⟨?_, ⟨_, _, .ok .done, rfl, rfl, by decide +kernel, rfl⟩, by decide +kernel⟩
  intro e he o ho
  simp only [List.mem_cons, List.not_mem_nil, or_false] at he
  rcases he with rfl | rfl <;> simp only [List.mem_cons, List.not_mem_nil, or_false] at ho
  · rcases ho with rfl | rfl <;> exact ⟨hn, fun e => nomatch e⟩
  · rcases ho with rfl | rfl
    · exact ⟨hn, fun e => nomatch e⟩
    · exact ⟨⟨Sample.legal (by decide +kernel), by decide⟩, fun e => absurd e (by simp)⟩

/-- the system call of a deletion and its two answers -/
def deletion (P : Path) : Prog Answer := .sys (.unlink ⟨P, false⟩) fun r => cond r (.ret .done) (.fail .InternalError)

theorem delete_prog {b k : Bytes} {cs : List Bytes} (hb : checkBucketName b = true) (hk : PlainKey k cs) :
    opProg cfg ext (.deleteObject b k) = deletion (cfg.root ++ b :: cs) := by
  simp only [deletion, opProg, deleteObject, objectPath_plain cfg hb hk, plain_no_slash hk, bind_eq, orInternal, ret_bind]
  show Prog.sys _ _ = _
  congr 1
  funext r
  cases (show Bool from r) <;> rfl

theorem exec_unlink_file {fs : FS} {P : Path} {i : Ino} (h : fs.lookup P = some (.file i)) :
    exec cfg fs (.unlink ⟨P, false⟩) = (true, fs.erase P) := by
  have : fs.at ⟨P, false⟩ = some (.file i) := by simp [FS.at, h]
  simp only [exec, this]

theorem exec_unlink_noFile {fs : FS} {P : Path} (h : NoFile P fs) : exec cfg fs (.unlink ⟨P, false⟩) = (false, fs) := by
  simp only [exec]
  split
  · rename_i i hi; exact absurd (at_file hi).1 (h i)
  · rfl

/-- the deletions of a file: all are still to come, or one of them has removed it -/
structure Raced (P : Path) (D : Prog Answer) (T : Nat → Prop) (i : Nat) (ps : List (Prog Answer)) (fs : FS) : Prop where
  mine : T i
  winner : ps[i]? = some (.ret .done)
  gone : NoFile P fs
  losers : ∀ j, j ≠ i → T j → ps[j]? = some D ∨ ps[j]? = some (.fail .InternalError)

theorem race {P : Path} {T : Nat → Prop} {D : Prog Answer}
    (hD : D = deletion P)
    {sched : List Nat} {ps : List (Prog Answer)} {fs : FS} (hw : WF fs)
    (hs : ∀ j p, ¬ T j → ps[j]? = some p → Safe (writeOk (· ≠ P) (fun _ => True)) (fun _ => True) p)
    (h : ((∃ i, fs.lookup P = some (.file i)) ∧ ∀ j, T j → ps[j]? = some D) ∨ ∃ i, Raced P D T i ps fs) :
    (∀ j, T j → (runPar cfg sched ps fs).1[j]? = some D) ∨ ∃ i, Raced P D T i (runPar cfg sched ps fs).1 (runPar cfg sched ps fs).2 := by
  induction sched generalizing ps fs with
  | nil => exact h.imp (fun h => h.2) id
  | cons x s ih =>
    simp only [runPar]
    split
    · exact ih hw hs h
    · rename_i p hx
      have hlt : x < ps.length := by
        by_cases e : x < ps.length
        · exact e
        · rw [List.getElem?_eq_none (by omega)] at hx; cases hx
      have hself : ∀ q : Prog Answer, (ps.set x q)[x]? = some q := fun q => by simp [hlt]
      have hother : ∀ (q : Prog Answer) j, j ≠ x → (ps.set x q)[j]? = ps[j]? := fun q j hj => by simp [List.getElem?_set, Ne.symm hj]
      have hfinish : ∀ q : Prog Answer, (∀ c k, q ≠ .sys c k) → (stepProg cfg q fs) = (q, fs) := by
        intro q hq
        cases q with
        | sys c k => exact absurd rfl (hq c k)
        | _ => rfl
      by_cases hT : T x
      · refine ih (stepProg_wf hw) ?_ ?_
        · intro j q hj hq
          have hjx : j ≠ x := fun e => hj (e ▸ hT)
          rw [hother _ _ hjx] at hq
          exact hs j q hj hq
        · rcases h with ⟨⟨i, hi⟩, h⟩ | ⟨i, h⟩
          · have e : p = D := by have := h x hT; rw [hx] at this; exact Option.some.inj this
            subst e
            refine .inr ⟨x, hT, ?_, ?_, ?_⟩
            · rw [hself, hD]
              simp only [deletion, stepProg, exec_unlink_file hi, cond]
            · rw [hD]
              simp only [deletion, stepProg, exec_unlink_file hi, cond]
              intro j hj
              rw [lookup_erase] at hj
              split at hj
              · cases hj
              · simp at hj
            · intro j hj hTj
              rw [hother _ _ hj]
              exact .inl (h j hTj)
          · by_cases hxi : x = i
            · subst hxi
              have e : p = .ret .done := by have := h.winner; rw [hx] at this; exact Option.some.inj this
              subst e
              refine .inr ⟨x, hT, hself _, h.gone, ?_⟩
              intro j hj hTj
              rw [hother _ _ hj]
              exact h.losers j hj hTj
            · have hlost : (stepProg cfg p fs) = (.fail .InternalError, fs) := by
                rcases h.losers x hxi hT with e | e
                · have e : p = D := by rw [hx] at e; exact Option.some.inj e
                  rw [e, hD]
                  simp only [deletion, stepProg, exec_unlink_noFile h.gone, cond]
                · have e : p = .fail .InternalError := by rw [hx] at e; exact Option.some.inj e
                  rw [e]; rfl
              rw [hlost]
              refine .inr ⟨i, h.mine, ?_, h.gone, ?_⟩
              · rw [hother _ _ (Ne.symm hxi)]; exact h.winner
              · intro j hj hTj
                by_cases hjx : j = x
                · subst hjx; exact .inr (hself _)
                · rw [hother _ _ hjx]; exact h.losers j hj hTj
      · have hsafe := hs x p hT hx
        have hframe : (stepProg cfg p fs).2.lookup P = fs.lookup P ∨ fs.lookup P = none ∧ (stepProg cfg p fs).2.lookup P = some .dir := by
          cases p with
          | sys c k => exact ((exec_frame cfg hw hsafe.1).node P (fun e => e rfl)).imp id fun h => h.2
          | _ => exact .inl rfl
        refine ih (stepProg_wf hw) ?_ ?_
        · intro j q hj hq
          by_cases hjx : j = x
          · subst hjx
            rw [hself] at hq
            cases hq
            cases p with
            | sys c k => exact hsafe.2 _ (exec_respOk cfg hw c)
            | _ => exact hsafe
          · rw [hother _ _ hjx] at hq
            exact hs j q hj hq
        · have hTne : ∀ {j}, T j → j ≠ x := fun hj e => hT (e ▸ hj)
          rcases h with ⟨⟨i, hi⟩, h⟩ | ⟨i, h⟩
          · refine .inl ⟨⟨i, ?_⟩, fun j hj => by rw [hother _ _ (hTne hj)]; exact h j hj⟩
            rcases hframe with e | ⟨e, _⟩
            · rw [e]; exact hi
            · rw [hi] at e; cases e
          · refine .inr ⟨i, h.mine, by rw [hother _ _ (hTne h.mine)]; exact h.winner, ?_, ?_⟩
            · intro j hj
              rcases hframe with e | ⟨_, e⟩
              · exact h.gone j (e ▸ hj)
              · rw [e] at hj; cases hj
            · intro j hj hTj
              rw [hother _ _ (hTne hTj)]
              exact h.losers j hj hTj

/-- **C111** Among deletions of one existing object that run at the same time, with requests about other objects beside them, exactly one
is answered with success: as soon as one of them is answered, one is answered with success, and every other answer is an error. -/
theorem C111_one_wins {os : List Op} {b k : Bytes} {cs : List Bytes} (hb : LegalBucket b) (hk : PlainKey k cs)
    (ho : ∀ o ∈ os, o = .deleteObject b k ∨ OnOthers b (Away b k) o) {fs : FS} (hw : WF fs) (hst : stored cfg fs b k ≠ none)
    (sched : List Nat) {n : Nat} {r : Outcome Answer} (hn : os[n]? = some (.deleteObject b k)) (h : answerAt cfg ext sched os fs n = some r) :
    ∃ i, os[i]? = some (.deleteObject b k) ∧ answerAt cfg ext sched os fs i = some (.ok .done) ∧
      ∀ j, j ≠ i → os[j]? = some (.deleteObject b k) → ∀ r', answerAt cfg ext sched os fs j = some r' → r' = .err .InternalError := by
  have hb' := (C02_bucket_name_rule _).mpr hb
  have hD := delete_prog (cfg := cfg) (ext := ext) hb' hk
  have hfile : ∃ i, fs.lookup (cfg.root ++ b :: cs) = some (.file i) := by
    simp only [stored, objectPath_plain cfg hb' hk, contentAt] at hst
    cases hl : fs.lookup (cfg.root ++ b :: cs) with
    | none => simp [hl] at hst
    | some x =>
      cases x with
      | dir => simp [hl] at hst
      | file i => exact ⟨i, rfl⟩
  have hall := race (cfg := cfg) (T := fun j => os[j]? = some (.deleteObject b k)) hD (sched := sched) (ps := os.map (opProg cfg ext)) hw
    (by
      intro j p hT hp
      rw [List.getElem?_map] at hp
      cases hj : os[j]? with
      | none => rw [hj] at hp; cases hp
      | some o =>
        rw [hj] at hp
        cases hp
        rcases ho o (List.mem_of_getElem? hj) with rfl | ho
        · exact absurd hj hT
        · refine (op_safe cfg ext o).mono (fun c hc => ?_) fun _ _ => trivial
          have := away_ok (cfg := cfg) hb' hk ho hc
          cases c with
          | mkdir p => exact .inl trivial
          | create p => exact fun e => this (.inl e)
          | writeAt i off x => exact fun e => this (.inl e)
          | unlink p => exact fun e => this (.inl e)
          | rmdir p => exact fun e => this (.inl e)
          | rmtree p => exact fun q hq e => this q hq (.inl e)
          | _ => trivial)
    (.inl ⟨hfile, fun j hj => by rw [List.getElem?_map, hj]; rfl⟩)
  unfold answerAt at h ⊢
  rcases hall with hall | ⟨i, hi⟩
  · rw [hall n hn, hD] at h
    cases h
  · refine ⟨i, hi.mine, by rw [hi.winner]; rfl, fun j hj hTj r' hr => ?_⟩
    rcases hi.losers j hj hTj with e | e
    · rw [e, hD] at hr; cases hr
    · rw [e] at hr; cases hr; rfl

/-- three deletions of an object and an upload of another: the third deletion wins -/
example :
    let os : List Op := [.deleteObject b!"bbb" b!"y", .putObject Sample.put3, .deleteObject b!"bbb" b!"y", .deleteObject b!"bbb" b!"y"]
    (∀ o ∈ os, o = .deleteObject b!"bbb" b!"y" ∨ OnOthers b!"bbb" (Away b!"bbb" b!"y") o) ∧
    stored Sample.cfg Sample.fs b!"bbb" b!"y" ≠ none ∧
    answerAt Sample.cfg Sample.ext [1, 1, 3, 1, 0, 2] os Sample.fs 0 = some (.err .InternalError) ∧
    answerAt Sample.cfg Sample.ext [1, 1, 3, 1, 0, 2] os Sample.fs 3 = some (.ok .done) := by
  refine ⟨?_, by decide +kernel, by decide +kernel, by decide +kernel⟩
  intro o ho
  simp only [List.mem_cons, List.not_mem_nil, or_false] at ho
  rcases ho with rfl | rfl | rfl | rfl
  · exact .inl rfl
  · exact .inr ⟨Sample.legal (by decide +kernel), ⟨_, Sample.plain_de⟩, fun e => absurd (congrArg Prod.fst e) (by decide)⟩
  · exact .inl rfl
  · exact .inl rfl

/-- C111 fails for DeleteObjects: it may be that an object is deleted and nobody is told. Of two requests under way at the same time the
first has deleted `x` when it finds that the second has deleted another of its keys, and is answered with an error. -/
theorem C111_nobody_told_fails :
    ∃ (cfg : Cfg) (ext : Ext) (fs : FS) (b k k' : Bytes) (sched : List Nat) (r r' : Outcome Answer), WF fs ∧ LegalBucket b ∧
      PlainKey k [k] ∧ stored cfg fs b k ≠ none ∧
      let os : List Op := [.deleteObjects b [k, k'], .deleteObject b k']
      answerAt cfg ext sched os fs 0 = some r ∧ answerAt cfg ext sched os fs 1 = some r' ∧
      stored cfg (runPar cfg sched (os.map (opProg cfg ext)) fs).2 b k = none ∧
      ¬ SaysDeleted b k (.deleteObjects b [k, k']) r ∧ ¬ SaysDeleted b k (.deleteObject b k') r' :=
  ⟨Sample.cfg, Sample.ext, Sample.fs3, b!"aaa", b!"x", b!"d/e", [0, 0, 0, 1, 0], .err .InternalError, .ok .done, wf_after Sample.fs_wf,
    Sample.legal (by decide +kernel), plain1 (by decide), by decide +kernel, by decide +kernel, by decide +kernel, by decide +kernel,
    id, fun e => absurd (congrArg Prod.snd e) (by decide)⟩

end S3
