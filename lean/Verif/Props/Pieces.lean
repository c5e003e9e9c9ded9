import Verif.Lemmas.Pieces
import Verif.Props.Sweep
import Verif.Props.Parts
/-! C129: reads, writes, copies and removals happen in pieces. -/
namespace S3
open Spec

variable {cfg : Cfg} {ext : Ext} {lib : Lib} {auth : Option Provider}

/-! ### the threads -/

theorem runParF_alone {α : Type} (d : Nat → Fault) (m : Nat) (p : Prog α) (fs : FS) :
    runParF cfg ((List.range m).map fun i => (0, d i)) [p] fs = ([(runFN cfg d m p fs).1], (runFN cfg d m p fs).2) := by
  induction m generalizing d p fs with
  | zero => cases p <;> rfl
  | succ m ih =>
    rw [List.range_succ_eq_map, List.map_cons, List.map_map]
    have := ih (fun i => d (i + 1)) (stepProgF cfg p (d 0) fs).1 (stepProgF cfg p (d 0) fs).2
    simp only [runParF, List.getElem?_cons_zero, List.set_cons_zero]
    refine this.trans ?_
    cases p with
    | sys c k => rfl
    | _ => cases m <;> rfl

theorem Spec.PieceEpoch.Serves.of_thread {w : PieceEpoch} (h : w.Serves cfg ext lib auth) {n : Nat} {q : Prog Response} (hq : w.threads[n]? = some q) :
    ∃ x, w.requests[n]? = some x ∧ InPieces (hyperCall cfg ext lib auth x.env x.texts x.req) q := by
  have hlt := (List.getElem?_eq_some_iff.mp hq).1
  rw [h.1] at hlt
  exact ⟨_, List.getElem?_eq_getElem hlt, h.2 n _ q (List.getElem?_eq_getElem hlt) hq⟩

theorem Spec.PieceEpoch.Serves.of_request {w : PieceEpoch} (h : w.Serves cfg ext lib auth) {n : Nat} {x : Exchange} (hx : w.requests[n]? = some x) :
    ∃ q, w.threads[n]? = some q ∧ InPieces (hyperCall cfg ext lib auth x.env x.texts x.req) q := by
  have hlt := (List.getElem?_eq_some_iff.mp hx).1
  rw [← h.1] at hlt
  exact ⟨_, List.getElem?_eq_getElem hlt, h.2 n x _ hx (List.getElem?_eq_getElem hlt)⟩

/-- the removals entry by entry, as failing removals by further threads -/
theorem piece_sim {w : PieceEpoch} (h : w.Serves cfg ext lib auth) {fs : FS} (hw : WF fs) :
    ∃ gs : List (Prog Response), (∀ g ∈ gs, InTree g ∧ g ∈ w.threads) ∧ ∃ steps, Simulates cfg w.strides w.threads gs fs steps (w.threads.length + gs.length) := by
  obtain ⟨gs, h1, h2⟩ := sweep_sim (cfg := cfg) (init := w.threads) w.strides (ps := w.threads) (fun q hq => by
    obtain ⟨n, hn⟩ := List.getElem?_of_mem hq
    obtain ⟨x, _, hp⟩ := h.of_thread hn
    rcases request_tree (cfg := cfg) (ext := ext) (lib := lib) (auth := auth) x with hx | ⟨hx, _⟩
    · exact .inl (pieces_safe closed_notTree hp hx)
    · exact .inr ⟨inPieces_tree hp hx, hq⟩) hw
  exact ⟨gs, h1, h2 _ (Nat.le_refl _)⟩

theorem Simulates.leaves {w : PieceEpoch} {gs : List (Prog Response)} {fs : FS} {steps : List (Nat × Fault)} {N : Nat}
    (h : Simulates cfg w.strides w.threads gs fs steps N) : (runParF cfg steps (w.threads ++ gs) fs).2 = w.leaves cfg fs := by
  have := h.tree w.strides.length
  rw [← h.length, List.take_length, h.length, List.take_length] at this
  exact this

theorem Simulates.at {w : PieceEpoch} {gs : List (Prog Response)} {fs : FS} {steps : List (Nat × Fault)} {N : Nat}
    (h : Simulates cfg w.strides w.threads gs fs steps N) {n : Nat} (hn : n < w.threads.length) :
    (runParF cfg steps (w.threads ++ gs) fs).1[n]? = (runParS cfg w.strides w.threads fs).1[n]? := by
  have := h.thread w.strides.length n hn
  rw [← h.length, List.take_length, h.length, List.take_length] at this
  exact this

/-- an invariant of all calls -/
theorem piece_inv {ok : Call → Prop} (hc : Closed ok) {J : FS → Prop} (hJ : ∀ fs c f, WF fs → J fs → ok c → J (execF cfg fs c f).2)
    {ws : List PieceEpoch} (hs : ∀ w ∈ ws, w.Serves cfg ext lib auth)
    (ho : ∀ w ∈ ws, ∀ x ∈ w.requests, Safe ok (fun _ => True) (hyperCall cfg ext lib auth x.env x.texts x.req)) :
    ∀ {fs : FS}, WF fs → J fs → J (pieceLife cfg ws fs) ∧ WF (pieceLife cfg ws fs) := by
  induction ws with
  | nil => exact fun hw h => ⟨h, hw⟩
  | cons w ws ih =>
    intro fs hw h0
    obtain ⟨gs, h1, steps, h2⟩ := piece_sim (hs w (List.mem_cons_self ..)) hw
    have hsafe : ∀ q ∈ w.threads, Safe ok (fun _ => True) q := fun q hq => by
      obtain ⟨n, hn⟩ := List.getElem?_of_mem hq
      obtain ⟨x, hx, hp⟩ := (hs w (List.mem_cons_self ..)).of_thread hn
      exact pieces_safe hc hp (ho w (List.mem_cons_self ..) x (List.mem_of_getElem? hx))
    refine ih (fun w' h => hs w' (List.mem_cons_of_mem _ h)) (fun w' h => ho w' (List.mem_cons_of_mem _ h)) ?_ ?_
    · rw [← h2.leaves]; exact runParF_wf hw
    · rw [← h2.leaves]
      refine runParF_inv hJ (fun q hq => ?_) hw h0
      rcases List.mem_append.mp hq with hq | hq
      · exact hsafe q hq
      · exact hsafe q (h1 q hq).2

/-! ### alone -/

/-- **C129** When nobody else is about, it makes no difference in which pieces the system calls of a request happen: the same result, the same
tree. -/
theorem C129_alone {α : Type} {p q : Prog α} (h : InPieces p q) (fs : FS) : run cfg q fs = run cfg p fs := by
  have fin : ∀ (q : Prog α) (fs : FS), ∃ m, (runFN cfg (fun _ => .none) m q fs).1.outcome = some (run cfg q fs).1 ∧
      (runFN cfg (fun _ => .none) m q fs).2 = (run cfg q fs).2 := by
    intro q
    induction q with
    | sys c k ih =>
      intro fs
      obtain ⟨m, h1, h2⟩ := ih (exec cfg fs c).1 (exec cfg fs c).2
      exact ⟨m + 1, h1, h2⟩
    | _ => exact fun fs => ⟨0, rfl, rfl⟩
  obtain ⟨m, h1, h2⟩ := fin q fs
  obtain ⟨d, m', h3, h4⟩ := pieces_gets (cfg := cfg) h (fun _ => .none) m (fs0 := fs) rfl
  obtain ⟨h5, h6⟩ := h4 _ h1
  have h7 := runFN_done p d m' fs h5
  rw [runF_sound p (h6 fun _ => rfl)] at h7
  rw [h7]
  exact Prod.ext rfl (h2.symm.trans h3.symm)

/-! ### among others -/

/-- **C129** A request about objects, served in pieces while the other requests are served in pieces too, buckets are deleted entry by entry and
the disk fails, does what it does when it is alone and its system calls happen in one step each, on a disk on which only its own calls
fail: the objects, metadata and parts it is about are as at some moment of that run, and if it has been answered, the response is the
same. -/
theorem C129_isolation {w : PieceEpoch} (hs : w.Serves cfg ext lib auth) {n : Nat} {x : Exchange} {o : Op} (hn : w.requests[n]? = some x)
    (hx : Asks lib auth x o) (ho : AboutObjects o)
    (hothers : ∀ (j : Nat) y, j ≠ n → w.requests[j]? = some y → AsksIn cfg ext lib auth (Elsewhere o) y) {fs : FS} (hw : WF fs)
    (hfold : FoldersExist cfg o fs) :
    ∃ alone : WebEpoch, alone.requests = [x] ∧
      (∀ r, w.response cfg fs n = some r → alone.response cfg ext lib auth fs 0 = some r ∧
        ((∀ f, (n, .call f) ∈ w.strides → f = .none) → ∀ s ∈ alone.steps, s.2 = .none)) ∧
      (∀ b k, Uses o b k →
        stored cfg (w.leaves cfg fs) b k = stored cfg (alone.leaves cfg ext lib auth fs) b k ∧
        storedMeta cfg ext (w.leaves cfg fs) b k = storedMeta cfg ext (alone.leaves cfg ext lib auth fs) b k) ∧
      ∀ u m, UsesPart o u m → contentAt (w.leaves cfg fs) (partFile cfg u m) = contentAt (alone.leaves cfg ext lib auth fs) (partFile cfg u m) := by
  obtain ⟨gs, h1, steps, h2⟩ := piece_sim hs hw
  obtain ⟨q, hq, hp⟩ := hs.of_request hn
  have hlt := (List.getElem?_eq_some_iff.mp hq).1
  obtain ⟨c, hc, hr⟩ := hx
  have hall : hyperCall cfg ext lib auth x.env x.texts x.req = wrap x.texts c o.handler (opProg cfg ext o) := hyperCall_asks hc hr
  have hloc : Safe (localCall (region cfg o)) (fun _ => True) q := pieces_safe (closed_local _) hp (by
    rw [hall]
    exact (through_wrap x.texts c o.handler).2 _ _ ((op_safe cfg ext o).mono (fun c hc => op_local ho hc) fun _ h => h))
  have hcl : Closed fun c => ∃ o', Elsewhere o o' ∧ (opPerm cfg o').ok c := Closed.exists fun o' => closed_perm (opPerm cfg o')
  have hoth : ∀ (j : Nat) g, j ≠ n → w.threads[j]? = some g → Safe (fun c => ∃ o', Elsewhere o o' ∧ (opPerm cfg o').ok c) (fun _ => True) g := by
    intro j g hj hg
    obtain ⟨y, hy, hp⟩ := hs.of_thread hg
    exact pieces_safe hcl hp (request_safe (hothers j y hj hy))
  obtain ⟨d, m, h3, h4, h5⟩ := isolatedF (cfg := cfg) (U := upRegion cfg o) (Z := region cfg o) (n := n)
    (ok := fun _ c => ∃ o', Elsewhere o o' ∧ (opPerm cfg o').ok c)
    (fun j fs c f _ hwf hc => by
      obtain ⟨o', ho', hc⟩ := hc
      exact elsewhere_frame ho ho' hc fun hx => execF_frame hwf hx f)
    steps (ps := w.threads ++ gs) hw hw (folders_dirs hw hfold) (.refl _ _)
    (fun j g hj hg => by
      by_cases hl : j < w.threads.length
      · rw [List.getElem?_append_left hl] at hg
        exact hoth j g hj hg
      · rw [List.getElem?_append_right (by omega)] at hg
        obtain ⟨ht, hin⟩ := h1 g (List.mem_of_getElem? hg)
        obtain ⟨i, hi⟩ := List.getElem?_of_mem hin
        refine hoth i g (fun e => ?_) hi
        rw [e, hq] at hi
        cases hi
        obtain ⟨t, k, rfl, _⟩ := ht
        exact hloc.1)
    (p := q) (by rw [List.getElem?_append_left hlt]; exact hq) hloc
  obtain ⟨d', m', h6, h7⟩ := pieces_gets (cfg := cfg) hp d m (fs0 := fs) rfl
  rw [h2.leaves] at h5
  have hal := runParF_alone (cfg := cfg) d' m' (hyperCall cfg ext lib auth x.env x.texts x.req) fs
  have hlv : (⟨[x], (List.range m').map fun i => (0, d' i)⟩ : WebEpoch).leaves cfg ext lib auth fs = (runFN cfg d m q fs).2 := by
    show (runParF cfg _ [_] fs).2 = _
    rw [hal]; exact h6
  refine ⟨⟨[x], (List.range m').map fun i => (0, d' i)⟩, rfl, fun r hr => ?_, ?_⟩
  · rw [PieceEpoch.response, ← h2.at hlt, h4] at hr
    obtain ⟨h8, h9⟩ := h7 r hr
    refine ⟨?_, fun hok s hs => ?_⟩
    · show ((runParF cfg _ [_] fs).1[0]?).bind Prog.outcome = _
      rw [hal]; exact h8
    · obtain ⟨i, _, rfl⟩ := List.mem_map.mp hs
      refine h9 (fun i => ?_) i
      rcases h3 i with h | h
      · exact h
      · obtain ⟨t, ht⟩ := List.getElem?_of_mem h
        exact hok _ (List.mem_of_getElem? ((h2.own t n (d i) hlt).mp ht))
  · rw [hlv]
    refine region_match ho ?_ h5
    rw [← h2.leaves]; exact runParF_wf hw

theorem alone_others {x : Exchange} {w : WebEpoch} (h : w.requests = [x]) {P : Exchange → Prop} :
    w.requests[0]? = some x ∧ ∀ (j : Nat) y, j ≠ 0 → w.requests[j]? = some y → P y := by
  refine ⟨by rw [h]; rfl, fun j y hj hy => ?_⟩
  rw [h] at hy
  cases j with
  | zero => exact absurd rfl hj
  | succ j => cases hy

/-- **C129** If its own calls do not fail, the response is that of the request alone, and so is what it does. -/
theorem C129_sound {w : PieceEpoch} (hs : w.Serves cfg ext lib auth) {n : Nat} {x : Exchange} {o : Op} (hn : w.requests[n]? = some x)
    (hx : Asks lib auth x o) (ho : AboutObjects o)
    (hothers : ∀ (j : Nat) y, j ≠ n → w.requests[j]? = some y → AsksIn cfg ext lib auth (Elsewhere o) y)
    (hok : ∀ f, (n, .call f) ∈ w.strides → f = .none) {fs : FS} (hw : WF fs) (hfold : FoldersExist cfg o fs) {r : Outcome Response}
    (h : w.response cfg fs n = some r) :
    r = responded cfg ext lib auth x.env x.texts x.req fs ∧
    (∀ b k, Uses o b k →
      stored cfg (w.leaves cfg fs) b k = stored cfg (afterResponded cfg ext lib auth x.env x.texts x.req fs) b k ∧
      storedMeta cfg ext (w.leaves cfg fs) b k = storedMeta cfg ext (afterResponded cfg ext lib auth x.env x.texts x.req fs) b k) ∧
    ∀ u m, UsesPart o u m → contentAt (w.leaves cfg fs) (partFile cfg u m)
      = contentAt (afterResponded cfg ext lib auth x.env x.texts x.req fs) (partFile cfg u m) := by
  obtain ⟨a, h1, h2, h3, h4⟩ := C129_isolation hs hn hx ho hothers hw hfold
  obtain ⟨h5, h6⟩ := h2 r h
  obtain ⟨k1, k2⟩ := alone_others (P := AsksIn cfg ext lib auth (Elsewhere o)) h1
  obtain ⟨g1, g2, g3⟩ := C107_isolation k1 hx ho k2 (fun f hf => h6 hok _ hf) hw hfold h5
  exact ⟨g1, fun b k hu => ⟨(h3 b k hu).1.trans (g2 b k hu).1, (h3 b k hu).2.trans (g2 b k hu).2⟩, fun u m hu => (h4 u m hu).trans (g3 u m hu)⟩

/-! ### what is stored -/

theorem piece_safe_in {P : Op → Prop} {ws : List PieceEpoch} (ho : ∀ w ∈ ws, ∀ y ∈ w.requests, AsksIn cfg ext lib auth P y) :
    ∀ w ∈ ws, ∀ y ∈ w.requests, Safe (fun c => ∃ o, P o ∧ (opPerm cfg o).ok c) (fun _ => True) (hyperCall cfg ext lib auth y.env y.texts y.req) :=
  fun w hw y hy => request_safe (ho w hw y hy)

/-- **C129** An object (or the absence of one), and its metadata, outlive every life of the server in which everything happens in pieces, if no
request writes or deletes this object or its bucket. -/
theorem C129_kept {b k : Bytes} {cs : List Bytes} (hb : LegalBucket b) (hk : PlainKey k cs) {ws : List PieceEpoch}
    (hs : ∀ w ∈ ws, w.Serves cfg ext lib auth) (ho : ∀ w ∈ ws, ∀ y ∈ w.requests, AsksIn cfg ext lib auth (OnOthers b (Away b k)) y)
    {fs : FS} (hw : WF fs) :
    stored cfg (pieceLife cfg ws fs) b k = stored cfg fs b k ∧ storedMeta cfg ext (pieceLife cfg ws fs) b k = storedMeta cfg ext fs b k :=
  object_frame hb hk hw (piece_inv (Closed.exists fun o => closed_perm (opPerm cfg o)) (J := Frame _ _ fs)
    (fun _ _ f hwx hj hc => by obtain ⟨o, ho, hc⟩ := hc; exact hj.trans (keep_object hb hk ho hwx hc f)) hs (piece_safe_in ho) hw (.refl ..)).1

theorem piece_safe_any {ws : List PieceEpoch} : ∀ w ∈ ws, ∀ x ∈ w.requests,
    Safe (fun c => ∃ xo : Exchange × Op, (∃ w ∈ ws, xo.1 ∈ w.requests ∧ Concerns xo.1.req xo.2) ∧ (opPerm cfg xo.2).ok c) (fun _ => True)
      (hyperCall cfg ext lib auth x.env x.texts x.req) := by
  intro w hw x hx
  obtain ⟨o, F, h1, _, h2, h3⟩ := any_through (cfg := cfg) (ext := ext) (lib := lib) (auth := auth) x
  rw [h2]
  exact h3.2 _ _ ((op_safe cfg ext o).mono (fun c hc => ⟨(x, o), ⟨w, hw, hx, h1⟩, hc⟩) fun _ h => h)

/-- **C129** Whatever is sent, in whatever pieces it is served, a file keeps its content, and none appears, unless one of the requests is about it. -/
theorem C129_files {ws : List PieceEpoch} (hs : ∀ w ∈ ws, w.Serves cfg ext lib auth) {fs : FS} (hw : WF fs) {p : List Bytes}
    (h : ∀ w ∈ ws, ∀ x ∈ w.requests, ¬ TouchesFile cfg.root x.req p) :
    contentAt (pieceLife cfg ws fs) (cfg.root ++ p) = contentAt fs (cfg.root ++ p) := by
  have hF := (piece_inv (Closed.exists fun xo : Exchange × Op => closed_perm (opPerm cfg xo.2))
    (J := fun t => Frame (· ≠ cfg.root ++ p) (fun _ => True) fs t) (fun t c f ht hj hc => by
    obtain ⟨⟨x, o⟩, ⟨w, hw, hx, ho⟩, hc⟩ := hc
    exact hj.trans (execF_frame ht (concerns_file ho (h w hw x hx) hc) f)) hs piece_safe_any hw (.refl ..)).1
  rcases hF.node (cfg.root ++ p) (fun h => h rfl) with e | ⟨_, e1, e2⟩
  · simp only [contentAt, e]
    split
    · rename_i i hi
      rw [hF.data i (fun h => h (hw.ino _ _ hi).1)]
    · rfl
  · simp only [contentAt, e1, e2]

/-- **C129** Nor does a folder appear or disappear. -/
theorem C129_folders {ws : List PieceEpoch} (hs : ∀ w ∈ ws, w.Serves cfg ext lib auth) {fs : FS} (hw : WF fs) {d : List Bytes}
    (h : ∀ w ∈ ws, ∀ x ∈ w.requests, ¬ TouchesFolder cfg.root x.req d) :
    IsDir (pieceLife cfg ws fs) (cfg.root ++ d) ↔ IsDir fs (cfg.root ++ d) := by
  refine (piece_inv (Closed.exists fun xo : Exchange × Op => closed_perm (opPerm cfg xo.2))
    (J := fun t => IsDir t (cfg.root ++ d) ↔ IsDir fs (cfg.root ++ d)) (fun t c f ht hj hc => ?_) hs piece_safe_any hw .rfl).1
  obtain ⟨⟨x, o⟩, ⟨w, hw, hx, ho⟩, hc⟩ := hc
  obtain ⟨k1, k2⟩ := concerns_folder ho (h w hw x hx) hc
  exact ⟨fun hd => hj.mp ((execF_noNew ht f).2 k2 hd), fun hd => execF_sparesDir k1 f (hj.mpr hd)⟩

theorem piece_wf {w : PieceEpoch} (hs : w.Serves cfg ext lib auth) {fs : FS} (hw : WF fs) : WF (w.leaves cfg fs) := by
  obtain ⟨_, _, _, h⟩ := piece_sim hs hw
  rw [← h.leaves]; exact runParF_wf hw

/-- **C129** An upload that is answered 200 while everything happens in pieces is there, complete, and stays. -/
theorem C129_put (hl : MetaLaw ext) {w : PieceEpoch} (hs : w.Serves cfg ext lib auth) {n : Nat} {x : Exchange} {i : PutInput} {cs : List Bytes}
    (hn : w.requests[n]? = some x) (hx : Asks lib auth x (.putObject i)) (hb : LegalBucket i.bucket) (hk : PlainKey i.key cs)
    (hv : ∀ m, i.metadata = some m → ValidMeta m)
    (ho : ∀ (j : Nat) y, j ≠ n → w.requests[j]? = some y → AsksIn cfg ext lib auth (Elsewhere (.putObject i)) y)
    {ws : List PieceEpoch} (hss : ∀ w' ∈ ws, w'.Serves cfg ext lib auth)
    (hos : ∀ w' ∈ ws, ∀ y ∈ w'.requests, AsksIn cfg ext lib auth (OnOthers i.bucket (Away i.bucket i.key)) y)
    {fs : FS} (hw : WF fs) (hfold : FoldersExist cfg (.putObject i) fs) {res : Response}
    (h : w.response cfg fs n = some (.ok res)) (hst : res.status = 200) :
    ∃ body, i.body = some body ∧ unbroken body ∧ HasETag res (quoted (ext.md5hex (received body))) ∧
      stored cfg (pieceLife cfg (w :: ws) fs) i.bucket i.key = some (received body) ∧
      storedMeta cfg ext (pieceLife cfg (w :: ws) fs) i.bucket i.key =
        (match i.metadata with
          | some m => some (some m)
          | none => storedMeta cfg ext fs i.bucket i.key) := by
  have hab : AboutObjects (.putObject i) := ⟨⟨hb, cs, hk⟩, fun b' k' h => by cases h; exact ⟨hb, cs, hk⟩, trivial⟩
  obtain ⟨a, h1, h2, h3, _⟩ := C129_isolation hs hn hx hab ho hw hfold
  obtain ⟨k1, k2⟩ := alone_others (P := AsksIn cfg ext lib auth (OnOthers i.bucket (Away i.bucket i.key))) h1
  obtain ⟨body, a1, a2, a3, a4, a5⟩ := C107_put (ws := []) hl k1 hx hb hk hv k2 (fun _ h => nomatch h) hw (h2 _ h).1 hst
  obtain ⟨g1, g2⟩ := h3 i.bucket i.key rfl
  obtain ⟨g3, g4⟩ := C129_kept (cfg := cfg) (ext := ext) hb hk hss hos (piece_wf hs hw)
  exact ⟨body, a1, a2, a3, g3.trans (g1.trans a4), g4.trans (g2.trans (a5.trans (by cases i.metadata <;> rfl)))⟩

/-- **C129** What a client reads, in pieces, of an object that is there and that nobody else writes: a response 200 has its ETag and length, and
the whole object as its body or a body that breaks off. -/
theorem C129_get {w : PieceEpoch} (hs : w.Serves cfg ext lib auth) {n : Nat} {x : Exchange} {b k : Bytes} {cs : List Bytes} {wants : Nat → Nat}
    (hn : w.requests[n]? = some x) (hx : Asks lib auth x (.getObject b k none wants)) (hb : LegalBucket b) (hk : PlainKey k cs)
    (ho : ∀ (j : Nat) y, j ≠ n → w.requests[j]? = some y → AsksIn cfg ext lib auth (Elsewhere (.getObject b k none wants)) y)
    {fs : FS} (hw : WF fs) (hroot : IsDir fs cfg.root) {res : Response} (h : w.response cfg fs n = some (.ok res)) (hst : res.status = 200) :
    ∃ c, stored cfg fs b k = some c ∧ (res.body = some c ∨ res.body = none) ∧ HasETag res (quoted (ext.md5hex c)) ∧ HasLength res c.length := by
  have hab : AboutObjects (.getObject b k none wants) := ⟨trivial, fun b' k' h => by cases h; exact ⟨hb, cs, hk⟩, trivial⟩
  obtain ⟨a, h1, h2, _⟩ := C129_isolation hs hn hx hab ho hw ⟨hroot, fun _ _ _ h => h.elim⟩
  obtain ⟨k1, k2⟩ := alone_others (P := AsksIn cfg ext lib auth (Elsewhere (.getObject b k none wants))) h1
  exact C107_get k1 hx hb hk k2 hw hroot (h2 _ h).1 hst

/-- **C129** A copy that is answered 200 while everything happens in pieces has the content of its source. -/
theorem C129_copy {w : PieceEpoch} (hs : w.Serves cfg ext lib auth) {n : Nat} {x : Exchange} {b k s sb sk : Bytes} {cs scs : List Bytes}
    (hn : w.requests[n]? = some x) (hx : Asks lib auth x (.copyObject b k s)) (hb : LegalBucket b) (hk : PlainKey k cs)
    (hsrc : copySourceFromHeader s = .ok (sb, sk)) (hsk : PlainKey sk scs) (hne : (b, k) ≠ (sb, sk))
    (ho : ∀ (j : Nat) y, j ≠ n → w.requests[j]? = some y → AsksIn cfg ext lib auth (Elsewhere (.copyObject b k s)) y)
    {ws : List PieceEpoch} (hss : ∀ w' ∈ ws, w'.Serves cfg ext lib auth)
    (hos : ∀ w' ∈ ws, ∀ y ∈ w'.requests, AsksIn cfg ext lib auth (OnOthers b (Away b k)) y)
    {fs : FS} (hw : WF fs) (hroot : IsDir fs cfg.root) (hfold : IsDir fs (cfg.root ++ b :: cs.dropLast))
    {res : Response} (h : w.response cfg fs n = some (.ok res)) (hst : res.status = 200) :
    ∃ c, stored cfg fs sb sk = some c ∧ stored cfg (pieceLife cfg (w :: ws) fs) b k = some c := by
  obtain ⟨hs', hsb, -⟩ := (C62_copy_source s sb sk).mp hsrc
  have hab : AboutObjects (.copyObject b k s) := by
    refine ⟨⟨hb, cs, hk⟩, ?_, trivial⟩
    rintro b' k' (h | ⟨hb', e'⟩)
    · cases h; exact ⟨hb, cs, hk⟩
    · have h1 : splitOnce 47 s = some (b', k') := splitOnce_some.mpr ⟨e', legal_no_slash hb'⟩
      have h2 : splitOnce 47 s = some (sb, sk) := splitOnce_some.mpr ⟨by rw [hs']; simp, legal_no_slash hsb⟩
      rw [h1] at h2
      cases h2
      exact ⟨hsb, scs, hsk⟩
  obtain ⟨a, h1, h2, h3, _⟩ := C129_isolation hs hn hx hab ho hw
    ⟨hroot, fun b' k' cs' h hk' => by cases h; rw [plainKey_unique hk' hk]; exact hfold⟩
  obtain ⟨k1, k2⟩ := alone_others (P := AsksIn cfg ext lib auth (Elsewhere (.copyObject b k s))) h1
  obtain ⟨c, a1, a2⟩ := C107_copy (ws := []) k1 hx hb hk hsrc hsk hne k2 (fun _ h => nomatch h) hw hroot hfold (h2 _ h).1 hst
  exact ⟨c, a1, (C129_kept (cfg := cfg) (ext := ext) hb hk hss hos (piece_wf hs hw)).1.trans ((h3 b k (.inl rfl)).1.trans a2)⟩

/-- **C129** So has an object whose assembly from parts is answered 200 while everything happens in pieces. -/
theorem C129_complete {w : PieceEpoch} (hs : w.Serves cfg ext lib auth) {n : Nat} {x : Exchange} {u b k : Bytes} {cs : List Bytes} {contents : List Bytes}
    (hn : w.requests[n]? = some x) (hx : Asks lib auth x (.completeMultipartUpload b k u (some (numbers 0 contents.length))))
    (hu : (47 : UInt8) ∉ u) (hb : LegalBucket b) (hk : PlainKey k cs)
    (ho : ∀ (j : Nat) y, j ≠ n → w.requests[j]? = some y →
      AsksIn cfg ext lib auth (Elsewhere (.completeMultipartUpload b k u (some (numbers 0 contents.length)))) y)
    {ws : List PieceEpoch} (hss : ∀ w' ∈ ws, w'.Serves cfg ext lib auth)
    (hos : ∀ w' ∈ ws, ∀ y ∈ w'.requests, AsksIn cfg ext lib auth (OnOthers b (Away b k)) y)
    {fs : FS} (hw : WF fs) (hroot : IsDir fs cfg.root) (hfold : IsDir fs (cfg.root ++ b :: cs.dropLast))
    (hparts : ∀ (j : Nat) c, contents[j]? = some c → contentAt fs (partFile cfg u (j + 1)) = some c)
    {res : Response} (h : w.response cfg fs n = some (.ok res)) (hst : res.status = 200) :
    stored cfg (pieceLife cfg (w :: ws) fs) b k = some contents.flatten := by
  have hab : AboutObjects (.completeMultipartUpload b k u (some (numbers 0 contents.length))) :=
    ⟨⟨⟨hb, cs, hk⟩, hu⟩, fun b' k' h => by cases h; exact ⟨hb, cs, hk⟩, trivial⟩
  obtain ⟨a, h1, h2, h3, _⟩ := C129_isolation hs hn hx hab ho hw
    ⟨hroot, fun b' k' cs' h hk' => by cases h; rw [plainKey_unique hk' hk]; exact hfold⟩
  obtain ⟨k1, k2⟩ := alone_others (P := AsksIn cfg ext lib auth (Elsewhere (.completeMultipartUpload b k u (some (numbers 0 contents.length))))) h1
  have a2 := C107_complete (ws := []) k1 hx hu hb hk k2 (fun _ h => nomatch h) hw hroot hfold hparts (h2 _ h).1 hst
  exact (C129_kept (cfg := cfg) (ext := ext) hb hk hss hos (piece_wf hs hw)).1.trans ((h3 b k rfl).1.trans a2)

/-! ### the hypotheses are met -/

/-- a call in pieces: a write writes its first byte first, a read to the end reads up to two bytes first -/
def Sample.chopCall {α : Type} : (c : Call) → (Resp c → Prog α) → Prog α
  | .writeAt i off (x :: y :: b), k => .sys (.writeAt i off [x]) fun ok => if ok then .sys (.writeAt i (off + 1) (y :: b)) k else k false
  | .readAll h, k => .sys (.readAt h 0 2 2) fun r => match r with
    | none => k none
    | some [] => k (some [])
    | some (x :: b) => .sys (.readAll h) fun r => match r with
      | none => k none
      | some c => k (some (x :: b ++ c.drop (b.length + 1)))
  | c, k => .sys c k

/-- all calls of a program in pieces -/
def Sample.chop {α : Type} : Prog α → Prog α
  | .ret a => .ret a
  | .fail e => .fail e
  | .panic => .panic
  | .diverge => .diverge
  | .sys c k => Sample.chopCall c fun r => Sample.chop (k r)

theorem Sample.chopped {α : Type} (p : Prog α) : InPieces p (Sample.chop p) := by
  induction p with
  | ret a => exact .ret a
  | fail e => exact .fail e
  | panic => exact .panic
  | diverge => exact .diverge
  | sys c k ih =>
    cases c
    case writeAt i off b =>
      match b with
      | [] => exact .sys _ ih
      | [x] => exact .sys _ ih
      | x :: y :: b => exact .write [x] (y :: b) (.sys (.writeAt i (off + 1) (y :: b)) ih) (ih false)
    case readAll h =>
      refine .read (.readSome (buf := []) 2 2 (by decide) (ih none) (ih (some [])) fun b hb => ?_)
      match b with
      | [] => exact absurd rfl hb
      | x :: b => exact .readRest (buf := x :: b) (ih none) fun c => ih _
    all_goals exact .sys _ ih

/-- some requests, served in pieces -/
def Sample.chopRun (xs : List Exchange) (strides : List (Nat × Stride)) : PieceEpoch :=
  ⟨xs, xs.map fun x => Sample.chop (hyperCall Sample.cfg Sample.ext Sample.lib none x.env x.texts x.req), strides⟩

theorem Sample.chopRun_serves (xs : List Exchange) (strides : List (Nat × Stride)) :
    (Sample.chopRun xs strides).Serves Sample.cfg Sample.ext Sample.lib none := by
  refine ⟨by simp [Sample.chopRun], fun n x q hx hq => ?_⟩
  have hx : xs[n]? = some x := hx
  have hq : (xs.map fun x => Sample.chop (hyperCall Sample.cfg Sample.ext Sample.lib none x.env x.texts x.req))[n]? = some q := hq
  rw [List.getElem?_map, hx] at hq
  cases hq
  exact Sample.chopped _

/-- A copy as `copyFile` makes it, with a first read of two bytes, of which one is written before the rest is read. -/
example (i : Ino) (h : Handle) : InPieces (α := Unit)
    (.sys (.readAll h) fun r => match r with
      | none => .fail .InternalError
      | some c => .sys (.writeAt i 0 c) fun ok => if ok then .ret () else .fail .InternalError)
    (.sys (.readAt h 0 2 2) fun r => match r with
      | none => .fail .InternalError
      | some [] => .sys (.writeAt i 0 []) fun ok => if ok then .ret () else .fail .InternalError
      | some (x :: b) => .sys (.writeAt i 0 [x]) fun ok => match ok with
        | false => .fail .InternalError
        | true => .sys (.readAll h) fun r => match r with
          | none => .fail .InternalError
          | some c => .sys (.writeAt i 1 (b ++ c.drop (1 + b.length))) fun ok => if ok then .ret () else .fail .InternalError) := by
  have hw : ∀ off c, InPieces (α := Unit) (.sys (.writeAt i off c) fun ok => if ok then .ret () else .fail .InternalError)
      (.sys (.writeAt i off c) fun ok => if ok then .ret () else .fail .InternalError) :=
    fun off c => .sys _ fun ok => by cases ok <;> constructor
  refine .copy (i := i) (off := 0) (k := fun _ => .ret ()) (e := .fail .InternalError) (fun _ _ => .inr rfl) rfl (fun _ => rfl) ?_
  refine .copyRead (buf := []) (pending := []) 2 2 (by decide) (.fail _) (hw 0 []) fun b hb => ?_
  match b with
  | [] => exact absurd rfl hb
  | x :: b =>
    refine .copyWrite (buf := []) [x] b (.fail _) ?_
    exact .copyRest (buf := [x]) (.fail _) fun c => hw 1 _

/-- an upload to `aaa/x` and the creation of a bucket, while the bucket `bbb` is deleted; the upload is written in two pieces -/
def Sample.pieceRun : PieceEpoch := Sample.chopRun [Sample.webPut, Sample.webDrop, Sample.webMake]
    (List.replicate 4 (0, .call .none) ++ [(2, .call .none), (1, .sweep [[b!"srv", b!"bbb", b!"y"]])] ++ List.replicate 2 (0, .call .none) ++
      [(1, .sweep [[b!"srv", b!"bbb", b!"z"]]), (2, .call .none), (1, .call .none)] ++ List.replicate 12 (0, .call .none))

theorem Sample.bucket_legal : ∀ b ∈ [b!"aaa", b!"bbb", b!"ccc"], LegalBucket b := fun b hb => by
  simp only [List.mem_cons, List.not_mem_nil, or_false] at hb
  rcases hb with rfl | rfl | rfl <;> exact Sample.legal (by decide +kernel)

/-- The three requests are answered 200, 204 and 200; in between, one of the three bytes of the upload is there. -/
example : Sample.pieceRun.Serves Sample.cfg Sample.ext Sample.lib none ∧ Sample.pieceRun.requests[0]? = some Sample.webPut ∧
    Asks Sample.lib none Sample.webPut (.putObject Sample.webInput) ∧ AboutObjects (.putObject Sample.webInput) ∧
    (∀ (j : Nat) y, j ≠ 0 → Sample.pieceRun.requests[j]? = some y →
      AsksIn Sample.cfg Sample.ext Sample.lib none (Elsewhere (.putObject Sample.webInput)) y) ∧
    (∀ f, (0, .call f) ∈ Sample.pieceRun.strides → f = .none) ∧ WF Sample.fuller ∧ FoldersExist Sample.cfg (.putObject Sample.webInput) Sample.fuller ∧
    (∀ n ∈ [0, 1, 2], (Sample.webStatus (Sample.pieceRun.response Sample.cfg Sample.fuller n)).map Prod.fst = some (if n = 1 then 204 else 200)) ∧
    stored Sample.cfg ((Sample.pieceRun.cut 4).leaves Sample.cfg Sample.fuller) b!"aaa" b!"x" = some b!"n" ∧
    stored Sample.cfg (Sample.pieceRun.leaves Sample.cfg Sample.fuller) b!"aaa" b!"x" = some b!"new" := by
  refine ⟨Sample.chopRun_serves _ _, rfl, Sample.webPut_asks, ?_, Sample.slow_asks ?_ ?_, ?_, Sample.fuller_wf, ?_, by decide +kernel, by decide +kernel,
    by decide +kernel⟩
  · have ha : PlainAddress b!"aaa" b!"x" := ⟨Sample.bucket_legal _ (by simp), _, plain1 (k := b!"x") (by decide)⟩
    exact ⟨ha, fun b k h => by cases h; exact ha, trivial⟩
  · exact ⟨⟨Sample.bucket_legal _ (by simp), by decide⟩, fun b k h => by cases h; exact ⟨Sample.bucket_legal _ (by simp), by decide⟩, fun _ _ h => h.elim⟩
  · exact ⟨Sample.bucket_legal _ (by simp), fun b k h => by cases h; exact Sample.bucket_legal _ (by simp), fun _ _ h => h.elim⟩
  · simp [Sample.pieceRun, Sample.chopRun]
  · refine ⟨by unfold IsDir; decide +kernel, fun b k cs h hk => ?_⟩
    cases h
    cases plainKey_unique hk (plain1 (k := b!"x") (by decide))
    unfold IsDir; decide +kernel

theorem Sample.beside {x : Exchange} {strides : List (Nat × Stride)} {P : Op → Prop} (h1 : P (.deleteBucket b!"bbb")) (h2 : P (.createBucket b!"ccc")) :
    ∀ (j : Nat) y, j ≠ 0 → (Sample.chopRun [x, Sample.webDrop, Sample.webMake] strides).requests[j]? = some y →
      AsksIn Sample.cfg Sample.ext Sample.lib none P y := by
  intro j y hj hy
  rcases j with _ | _ | _ | j
  · exact absurd rfl hj
  all_goals cases hy
  · exact .inl ⟨_, h1, Sample.webDrop_asks⟩
  · exact .inl ⟨_, h2, Sample.webMake_asks⟩

def Sample.someStrides : List (Nat × Stride) :=
  (List.replicate 12 [(0, .call .none), (1, .sweep [[b!"srv", b!"bbb", b!"y"]]), (2, .call .before), (0, .call .none)]).flatten

/-- Beside the removal of `bbb` and a creation that meets errors, `aaa/x` is read in pieces, and copied in pieces; both are answered 200. -/
example : Asks Sample.lib none Sample.webGet (.getObject b!"aaa" b!"x" none Sample.env.wants) ∧
    (∀ (j : Nat) y, j ≠ 0 → (Sample.chopRun [Sample.webGet, Sample.webDrop, Sample.webMake] Sample.someStrides).requests[j]? = some y →
      AsksIn Sample.cfg Sample.ext Sample.lib none (Elsewhere (.getObject b!"aaa" b!"x" none Sample.env.wants)) y) ∧
    IsDir Sample.fuller Sample.cfg.root ∧
    Sample.webStatus ((Sample.chopRun [Sample.webGet, Sample.webDrop, Sample.webMake] Sample.someStrides).response Sample.cfg Sample.fuller 0)
      = some (200, some b!"hello") ∧
    Asks Sample.lib none Sample.webCopy (.copyObject b!"aaa" b!"z" b!"aaa/x") ∧
    (∀ (j : Nat) y, j ≠ 0 → (Sample.chopRun [Sample.webCopy, Sample.webDrop, Sample.webMake] Sample.someStrides).requests[j]? = some y →
      AsksIn Sample.cfg Sample.ext Sample.lib none (Elsewhere (.copyObject b!"aaa" b!"z" b!"aaa/x")) y) ∧
    copySourceFromHeader b!"aaa/x" = .ok (b!"aaa", b!"x") ∧ PlainKey b!"x" [b!"x"] ∧ PlainKey b!"z" [b!"z"] ∧
    IsDir Sample.fuller (Sample.cfg.root ++ b!"aaa" :: [b!"z"].dropLast) ∧
    (Sample.webStatus ((Sample.chopRun [Sample.webCopy, Sample.webDrop, Sample.webMake] Sample.someStrides).response Sample.cfg Sample.fuller 0)).map Prod.fst
      = some 200 ∧
    (∃ m, stored Sample.cfg (((Sample.chopRun [Sample.webCopy, Sample.webDrop, Sample.webMake] Sample.someStrides).cut m).leaves Sample.cfg Sample.fuller)
      b!"aaa" b!"z" = some b!"h") := by
  have hsrc : copySourceFromHeader b!"aaa/x" = .ok (b!"aaa", b!"x") := by decide +kernel
  refine ⟨Sample.webGet_asks, Sample.beside ?_ ?_, by unfold IsDir; decide +kernel, by decide +kernel, ?_, Sample.beside ?_ ?_, hsrc,
    plain1 (by decide), plain1 (by decide), by unfold IsDir; decide +kernel, by decide +kernel, 12, by decide +kernel⟩
  · exact ⟨⟨Sample.bucket_legal _ (by simp), by decide⟩, fun b k h => by cases h; exact ⟨Sample.bucket_legal _ (by simp), by decide⟩, fun _ _ h => h.elim⟩
  · exact ⟨Sample.bucket_legal _ (by simp), fun b k h => by cases h; exact Sample.bucket_legal _ (by simp), fun _ _ h => h.elim⟩
  · exact Sample.asks (by decide +kernel) (.copyObject (sb := b!"aaa") (sk := b!"x") rfl
      (Sample.at_object rfl (by decide +kernel) (by decide +kernel) (by decide) (by decide))
      (Sample.selects_none rfl) (Sample.value_header (by decide +kernel)) (Sample.legal (by decide +kernel)) (by decide) (by decide) (by decide))
  · refine ⟨⟨Sample.bucket_legal _ (by simp), by decide⟩, fun b k h => ?_, fun _ _ h => h.elim⟩
    rcases h with h | ⟨hb, h⟩
    · cases h; exact ⟨Sample.bucket_legal _ (by simp), by decide⟩
    · refine ⟨Sample.bucket_legal _ (by simp), fun e => ?_⟩
      subst e
      exact absurd h (by simp)
  · refine ⟨Sample.bucket_legal _ (by simp), fun b k h => ?_, fun _ _ h => h.elim⟩
    rcases h with h | ⟨hb, h⟩
    · cases h; exact Sample.bucket_legal _ (by simp)
    · exact Sample.bucket_legal _ (by simp)

/-- The completion of an upload in parts, in pieces: in between, one byte of the first part is there; at the end, both parts. -/
example : (Sample.chopRun [Sample.exchange Sample.complete2Req, Sample.webBad] (List.replicate 30 (0, .call .none))).requests[0]?
      = some (Sample.exchange Sample.complete2Req) ∧
    Asks Sample.lib none (Sample.exchange Sample.complete2Req) (.completeMultipartUpload b!"aaa" b!"y" b!"id1" (some (numbers 0 [b!"one", b!"two"].length))) ∧
    (∀ (j : Nat) y, j ≠ 0 → (Sample.chopRun [Sample.exchange Sample.complete2Req, Sample.webBad] (List.replicate 30 (0, .call .none))).requests[j]? = some y →
      AsksIn Sample.cfg Sample.ext Sample.lib none (Elsewhere (.completeMultipartUpload b!"aaa" b!"y" b!"id1" (some (numbers 0 [b!"one", b!"two"].length)))) y) ∧
    (∀ (j : Nat) c, [b!"one", b!"two"][j]? = some c →
      contentAt (webLife Sample.cfg Sample.ext Sample.lib none Sample.partRuns Sample.fs) (partFile Sample.cfg b!"id1" (j + 1)) = some c) ∧
    (Sample.webStatus ((Sample.chopRun [Sample.exchange Sample.complete2Req, Sample.webBad] (List.replicate 30 (0, .call .none))).response Sample.cfg
      (webLife Sample.cfg Sample.ext Sample.lib none Sample.partRuns Sample.fs) 0)).map Prod.fst = some 200 ∧
    (∃ m, stored Sample.cfg (((Sample.chopRun [Sample.exchange Sample.complete2Req, Sample.webBad] (List.replicate 30 (0, .call .none))).cut m).leaves
      Sample.cfg (webLife Sample.cfg Sample.ext Sample.lib none Sample.partRuns Sample.fs)) b!"aaa" b!"y" = some b!"o") := by
  refine ⟨rfl, Sample.asks_complete2, ?_, ?_, by decide +kernel, 5, by decide +kernel⟩
  · intro j y hj hy
    rcases j with _ | _ | j
    · exact absurd rfl hj
    · cases hy
      exact .inr ⟨_, Sample.refused (err := .InvalidBucketName) (by decide +kernel)⟩
    · cases hy
  · intro j c h
    rcases j with _ | _ | j
    · cases h; decide +kernel
    · cases h; decide +kernel
    · cases h

/-- While `bbb` is deleted and an upload to it breaks off after its first byte, `aaa/x` and `aaa` are no concern of anybody. -/
example : (∀ w ∈ [Sample.chopRun [Sample.webDrop] [(0, .sweep [[b!"srv", b!"bbb", b!"y"]])]], w.Serves Sample.cfg Sample.ext Sample.lib none) ∧
    (∀ w ∈ [Sample.chopRun [Sample.webDrop] [(0, .sweep [[b!"srv", b!"bbb", b!"y"]])]], ∀ x ∈ w.requests,
      ¬ TouchesFile Sample.cfg.root x.req [b!"aaa", b!"x"] ∧ ¬ TouchesFolder Sample.cfg.root x.req [b!"aaa"]) := by
  refine ⟨fun w hw => ?_, fun w hw x hx => ?_⟩
  · cases List.mem_singleton.mp hw
    exact Sample.chopRun_serves _ _
  cases List.mem_singleton.mp hw
  cases List.mem_singleton.mp hx
  have hat : At Sample.webDrop.req (.bucket b!"bbb") := Sample.at_bucket rfl (by decide +kernel) (by decide +kernel)
  refine ⟨fun h => ?_, fun h => ?_⟩
  · cases h
    case delete _ h _ => cases Sample.at_unique hat h
    case remove h => cases Sample.at_unique hat h
    all_goals exact absurd (by assumption) (show Sample.webDrop.req.method ≠ _ by decide +kernel)
  · cases h
    case delete _ h _ _ => cases Sample.at_unique hat h
    case remove h => cases Sample.at_unique hat h
    all_goals exact absurd (by assumption) (show Sample.webDrop.req.method ≠ _ by decide +kernel)

/-! ### what does not hold -/

/-- `aaa/x` is read: its first two bytes, then an upload truncates it, then the rest -/
def Sample.tornRun : PieceEpoch := Sample.chopRun [Sample.webGet, Sample.webPut]
  (List.replicate 5 (0, .call .none) ++ List.replicate 3 (1, .call .none) ++ List.replicate 8 (0, .call .none) ++ List.replicate 12 (1, .call .none))

/-- **C129** (negation) What a client reads while the object is overwritten need not be anything the object has ever been: two requests, no
failure, a response 200, and its ETag is that of none of the contents the object has had at any moment. -/
theorem C129_etag_fails :
    ∃ (cfg : Cfg) (ext : Ext) (lib : Lib) (w : PieceEpoch) (x y : Exchange) (i : PutInput) (wants : Nat → Nat) (fs : FS) (res : Response) (e : Bytes), WF fs ∧
      w.requests = [x, y] ∧ Asks lib none x (.getObject i.bucket i.key none wants) ∧ Asks lib none y (.putObject i) ∧
      w.Serves cfg ext lib none ∧ (∀ s ∈ w.strides, s.2 = .call .none) ∧
      w.response cfg fs 0 = some (.ok res) ∧ res.status = 200 ∧ HasETag res e ∧
      ∀ m, ∃ c, stored cfg ((w.cut m).leaves cfg fs) i.bucket i.key = some c ∧ e ≠ quoted (ext.md5hex c) := by
  have hr : (match Sample.tornRun.response Sample.cfg Sample.fs 0 with
      | some (.ok r) => some (r.status, r.headers)
      | _ => none) = some (200, [(b!"last-modified", b!"Wed, 01 Jan 2020 00:00:00 GMT"), (b!"content-length", b!"5"), (b!"etag", b!"\"md5:2\"")]) := by
    decide +kernel
  split at hr
  case h_2 => cases hr
  rename_i res hres
  obtain ⟨h1, h2⟩ := Prod.mk.inj (Option.some.inj hr)
  refine ⟨Sample.cfg, Sample.ext, Sample.lib, Sample.tornRun, Sample.webGet, Sample.webPut, Sample.webInput, Sample.env.wants, Sample.fs, res, b!"\"md5:2\"",
    Sample.fs_wf, rfl, Sample.webGet_asks, Sample.webPut_asks, Sample.chopRun_serves _ _, ?_, hres, h1, ?_, ?_⟩
  · simp [Sample.tornRun, Sample.chopRun]
  · intro v
    rw [h2]
    simp only [List.mem_cons, List.not_mem_nil, or_false, Prod.mk.injEq]
    constructor
    · rintro (⟨h, _⟩ | ⟨h, _⟩ | ⟨_, h⟩)
      · exact absurd h (by decide)
      · exact absurd h (by decide)
      · exact h
    · exact fun h => .inr (.inr ⟨trivial, h⟩)
  · have hall : ∀ m, m < 29 → (match stored Sample.cfg ((Sample.tornRun.cut m).leaves Sample.cfg Sample.fs) b!"aaa" b!"x" with
        | some c => b!"\"md5:2\"" ≠ quoted (Sample.ext.md5hex c)
        | none => False) := by
      have : ∀ m ∈ List.range 29, (match stored Sample.cfg ((Sample.tornRun.cut m).leaves Sample.cfg Sample.fs) b!"aaa" b!"x" with
        | some c => decide (b!"\"md5:2\"" ≠ quoted (Sample.ext.md5hex c))
        | none => false) = true := by decide +kernel
      intro m hm
      have := this m (List.mem_range.mpr hm)
      revert this
      generalize stored Sample.cfg ((Sample.tornRun.cut m).leaves Sample.cfg Sample.fs) b!"aaa" b!"x" = o
      cases o with
      | none => exact fun h => nomatch h
      | some c => exact fun h => of_decide_eq_true h
    intro m
    have hcut : Sample.tornRun.cut m = Sample.tornRun.cut (min m 28) := by
      simp only [PieceEpoch.cut]
      congr 1
      by_cases hm : m ≤ 28
      · rw [Nat.min_eq_left hm]
      · have hl : Sample.tornRun.strides.length = 28 := by decide
        rw [Nat.min_eq_right (by omega), List.take_of_length_le (by omega), List.take_of_length_le (by omega)]
    have := hall (min m 28) (by omega)
    rw [← hcut] at this
    split at this
    · rename_i c hc
      exact ⟨c, hc, this⟩
    · exact this.elim

end S3
