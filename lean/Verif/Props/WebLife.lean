import Verif.Lemmas.WebLife
import Verif.Props.Life
import Verif.Props.Client
import Verif.Props.Session
import Verif.Props.XmlBody
/-! C107: what an HTTP client has been told stays true. -/
namespace S3
open Spec

variable {cfg : Cfg} {ext : Ext} {lib : Lib} {auth : Option Provider}

theorem catch_run {α β : Type} {g : α → Prog β} {k : S3ErrorCode → Prog β} (p : Prog α) (fs : FS) :
    (∀ a b, (run cfg p fs).1 = .ok a → (g a).catch k = .ret b → run cfg ((p.bind g).catch k) fs = (.ok b, (run cfg p fs).2)) ∧
    (∀ e b, (run cfg p fs).1 = .err e → k e = .ret b → run cfg ((p.bind g).catch k) fs = (.ok b, (run cfg p fs).2)) ∧
    ((run cfg p fs).1 = .diverge → run cfg ((p.bind g).catch k) fs = (.diverge, (run cfg p fs).2)) := by
  induction p generalizing fs with
  | ret a =>
    refine ⟨?_, fun e b h => (by cases h), fun h => (by cases h)⟩
    intro a' b h hb
    cases h
    simp only [Prog.bind, hb]
    rfl
  | fail e =>
    refine ⟨fun a b h => (by cases h), ?_, fun h => (by cases h)⟩
    intro e' b h hb
    cases h
    simp only [Prog.bind, Prog.catch, hb]
    rfl
  | panic => exact ⟨fun a b h => (by cases h), fun a b h => (by cases h), fun h => (by cases h)⟩
  | diverge => exact ⟨fun a b h => (by cases h), fun a b h => (by cases h), fun _ => rfl⟩
  | sys c f ih => exact ih _ _

theorem ret_outcome {α : Type} {p : Prog α} {a : α} {r : Outcome α} (h : p = .ret a) (h' : p.outcome = some r) : r = .ok a := by
  subst h; cases h'; rfl

/-- **C107** In a run of the server - any HTTP requests at the same time, any failing system calls of others, cut off anywhere - a
request about objects and parts whose own system calls do not fail is answered, if at all, as if it were alone, and its effect is the
same; the others may be about anything else or be refused. -/
theorem C107_isolation {w : WebEpoch} {n : Nat} {x : Exchange} {o : Op} (hn : w.requests[n]? = some x) (hx : Asks lib auth x o)
    (ho : AboutObjects o) (hothers : ∀ (j : Nat) y, j ≠ n → w.requests[j]? = some y → AsksIn cfg ext lib auth (Elsewhere o) y)
    (hok : ∀ f, (n, f) ∈ w.steps → f = .none) {fs : FS} (hw : WF fs) (hfold : FoldersExist cfg o fs) {r : Outcome Response}
    (h : w.response cfg ext lib auth fs n = some r) :
    r = responded cfg ext lib auth x.env x.texts x.req fs ∧
    (∀ b k, Uses o b k →
      stored cfg (w.leaves cfg ext lib auth fs) b k = stored cfg (afterResponded cfg ext lib auth x.env x.texts x.req fs) b k ∧
      storedMeta cfg ext (w.leaves cfg ext lib auth fs) b k = storedMeta cfg ext (afterResponded cfg ext lib auth x.env x.texts x.req fs) b k) ∧
    ∀ u m, UsesPart o u m → contentAt (w.leaves cfg ext lib auth fs) (partFile cfg u m)
      = contentAt (afterResponded cfg ext lib auth x.env x.texts x.req fs) (partFile cfg u m) := by
  obtain ⟨e, he, hen, hes, hfs⟩ := web_epoch_at (cfg := cfg) (ext := ext) (P := Elsewhere o) ⟨trivial, fun _ _ _ => trivial, fun _ _ _ h => h⟩ hn hx hothers
  obtain ⟨hlv, c, hc, hr, hcase⟩ := hfs fs
  have hall : hyperCall cfg ext lib auth x.env x.texts x.req = wrap x.texts c o.handler (opProg cfg ext o) := hyperCall_asks hc hr
  obtain ⟨g1, g2, g3⟩ := catch_run (cfg := cfg) (g := fun a => (respond o.handler a).bind (makeResponse x.texts c o.handler))
    (k := errorResponse x.texts) (opProg cfg ext o) fs
  suffices hrun : ∃ r', e.answered cfg ext fs n = some r' ∧
      run cfg (hyperCall cfg ext lib auth x.env x.texts x.req) fs = (r, (run cfg (opProg cfg ext o) fs).2) by
    obtain ⟨r', hr', hrun⟩ := hrun
    obtain ⟨_, k2, k3⟩ := C106_sound (cfg := cfg) (ext := ext) hen ho hes (by rw [he]; exact hok) hw hfold hr'
    rw [hlv] at k2 k3
    have h2 : afterResponded cfg ext lib auth x.env x.texts x.req fs = after cfg ext o fs := by simp only [afterResponded, hrun, after]
    have h1 : r = responded cfg ext lib auth x.env x.texts x.req fs := by simp only [responded, hrun]
    rw [h2]
    exact ⟨h1, k2, k3⟩
  have key : ∀ {r'}, e.answered cfg ext fs n = some r' → (run cfg (opProg cfg ext o) fs).1 = r' := fun {r'} hr' =>
    (C106_sound (cfg := cfg) (ext := ext) hen ho hes (by rw [he]; exact hok) hw hfold hr').1.symm
  rcases hcase r h with ⟨a, ha, hra⟩ | ⟨err, _, ha, hra⟩ | ⟨ha, rfl⟩
  · obtain ⟨res, hres⟩ := respond_caught x.texts c o.handler a
    obtain rfl := ret_outcome (p := wrap x.texts c o.handler (.ret a)) hres hra
    exact ⟨_, ha, by rw [hall]; exact g1 a res (key ha) hres⟩
  · obtain ⟨res, hres⟩ := errorResponse_ret x.texts err
    obtain rfl := ret_outcome hres hra
    exact ⟨_, ha, by rw [hall]; exact g2 err res (key ha) hres⟩
  · exact ⟨_, ha, by rw [hall]; exact g3 (key ha)⟩

/-- a response with success means success -/
theorem web_success {x : Exchange} {c : Ctx} {o : Op} {e : Epoch} {fs : FS} {n : Nat} {res : Response}
    (h : (∃ a, e.answered cfg ext fs n = some (.ok a) ∧ (wrap x.texts c o.handler (.ret a)).outcome = some (.ok res)) ∨
      (∃ err ∈ operationErrors o, e.answered cfg ext fs n = some (.err err) ∧ (errorResponse x.texts err).outcome = some (.ok res)) ∨
      e.answered cfg ext fs n = some .diverge ∧ (.ok res : Outcome Response) = .diverge)
    (hs : res.status / 100 = 2) :
    ∃ a m, e.answered cfg ext fs n = some (.ok a) ∧ metadataHeaders a.meta = some m ∧
      makeResponse x.texts c o.handler ⟨o.handler.status, m, a⟩ = .ret res := by
  rcases h with ⟨a, ha, h⟩ | ⟨err, herr, _, h⟩ | ⟨_, h⟩
  · rw [wrap, Prog.bind, respond] at h
    cases hm : metadataHeaders a.meta with
    | none =>
      rw [hm] at h
      obtain ⟨res', hres⟩ := errorResponse_ret x.texts .InternalError
      cases ret_outcome hres h
      exact absurd ((errorResponse_status hres) ▸ hs) (by decide)
    | some m =>
      rw [hm] at h
      obtain ⟨res', hres, _⟩ := makeResponse_ret x.texts c o.handler ⟨o.handler.status, m, a⟩
      simp only [Prog.bind, hres, Prog.catch] at h
      cases h
      exact ⟨a, m, ha, hm, hres⟩
  · obtain ⟨res', hres⟩ := errorResponse_ret x.texts err
    cases ret_outcome hres h
    have : ∀ e ∈ operationErrors o, e.httpStatus / 100 ≠ 2 := by
      cases o <;> simp only [operationErrors] <;> decide
    exact absurd ((errorResponse_status hres) ▸ hs) (this err herr)
  · cases h

/-- **C107** An upload that has been answered 200 is there, with the ETag that was announced and the metadata of the request, whatever
else is asked for at the same time and afterwards - about other objects and buckets, or refused -, whatever fails, however often the
server dies and is started again. -/
theorem C107_put (hl : MetaLaw ext) {w : WebEpoch} {n : Nat} {x : Exchange} {i : PutInput} {cs : List Bytes} (hn : w.requests[n]? = some x)
    (hx : Asks lib auth x (.putObject i)) (hb : LegalBucket i.bucket) (hk : PlainKey i.key cs)
    (hv : ∀ m, i.metadata = some m → ValidMeta m)
    (ho : ∀ (j : Nat) y, j ≠ n → w.requests[j]? = some y → AsksIn cfg ext lib auth (OnOthers i.bucket (Away i.bucket i.key)) y)
    {ws : List WebEpoch} (hos : ∀ w' ∈ ws, ∀ y ∈ w'.requests, AsksIn cfg ext lib auth (OnOthers i.bucket (Away i.bucket i.key)) y)
    {fs : FS} (hw : WF fs) {res : Response} (h : w.response cfg ext lib auth fs n = some (.ok res)) (hs : res.status = 200) :
    ∃ body, i.body = some body ∧ unbroken body ∧ HasETag res (quoted (ext.md5hex (received body))) ∧
      stored cfg (webLife cfg ext lib auth (w :: ws) fs) i.bucket i.key = some (received body) ∧
      storedMeta cfg ext (webLife cfg ext lib auth (w :: ws) fs) i.bucket i.key =
        (match i.metadata with
          | some m => some (some m)
          | none => storedMeta cfg ext fs i.bucket i.key) := by
  obtain ⟨e, he, hen, hes, hfs⟩ := web_epoch_at (cfg := cfg) (ext := ext) trivial hn hx ho
  obtain ⟨es, hes', hlife⟩ := webLife_life (cfg := cfg) (ext := ext) (lib := lib) (auth := auth) trivial hos
  obtain ⟨hlv, c, hc, hr, hcase⟩ := hfs fs
  obtain ⟨a, m, ha, hm, hra⟩ := web_success (hcase _ h) (by omega)
  obtain ⟨body, h1, h2, rfl, h4, h5⟩ := C105_put (cfg := cfg) (ext := ext) hl hen hb hk hv hes hes' hw ha
  simp only [life, hlv, hlife] at h4 h5
  refine ⟨body, h1, h2, ?_, h4, h5⟩
  cases hm
  simp only [makeResponse, Op.handler, answerHeaders, document] at hra
  injection hra with hra
  rw [← hra]
  intro v
  simp [optHeader]

/-- **C107** A deletion that has been answered 204 stays done. -/
theorem C107_delete {w : WebEpoch} {n : Nat} {x : Exchange} {b k : Bytes} {cs : List Bytes} (hn : w.requests[n]? = some x)
    (hx : Asks lib auth x (.deleteObject b k)) (hb : LegalBucket b) (hk : PlainKey k cs)
    (ho : ∀ (j : Nat) y, j ≠ n → w.requests[j]? = some y → AsksIn cfg ext lib auth (OnOthers b (Away b k)) y)
    {ws : List WebEpoch} (hos : ∀ w' ∈ ws, ∀ y ∈ w'.requests, AsksIn cfg ext lib auth (OnOthers b (Away b k)) y)
    {fs : FS} (hw : WF fs) {res : Response} (h : w.response cfg ext lib auth fs n = some (.ok res)) (hs : res.status = 204) :
    stored cfg (webLife cfg ext lib auth (w :: ws) fs) b k = none := by
  obtain ⟨e, he, hen, hes, hfs⟩ := web_epoch_at (cfg := cfg) (ext := ext) trivial hn hx ho
  obtain ⟨es, hes', hlife⟩ := webLife_life (cfg := cfg) (ext := ext) (lib := lib) (auth := auth) trivial hos
  obtain ⟨hlv, c, hc, hr, hcase⟩ := hfs fs
  obtain ⟨a, m, ha, hm, hra⟩ := web_success (hcase _ h) (by omega)
  have h4 := C105_delete (cfg := cfg) (ext := ext) hen hb hk hes hes' hw ha
  simp only [life, hlv, hlife] at h4
  exact h4

theorem webLife_wf {ws : List WebEpoch} {fs : FS} (hw : WF fs) : WF (webLife cfg ext lib auth ws fs) := by
  induction ws generalizing fs with
  | nil => exact hw
  | cons w ws ih => exact ih (runParF_wf hw)

/-- **C107** What a client reads when it asks for an object that is there: whoever else is served at the same time, whatever fails, a
response 200 has the ETag and the length of the object, and the whole object as its body or a body that breaks off. -/
theorem C107_get {w : WebEpoch} {n : Nat} {x : Exchange} {b k : Bytes} {cs : List Bytes} {wants : Nat → Nat} (hn : w.requests[n]? = some x)
    (hx : Asks lib auth x (.getObject b k none wants)) (hb : LegalBucket b) (hk : PlainKey k cs)
    (ho : ∀ (j : Nat) y, j ≠ n → w.requests[j]? = some y → AsksIn cfg ext lib auth (Elsewhere (.getObject b k none wants)) y)
    {fs : FS} (hw : WF fs) (hroot : IsDir fs cfg.root) {res : Response}
    (h : w.response cfg ext lib auth fs n = some (.ok res)) (hs : res.status = 200) :
    ∃ c, stored cfg fs b k = some c ∧ (res.body = some c ∨ res.body = none) ∧ HasETag res (quoted (ext.md5hex c)) ∧ HasLength res c.length := by
  have hab : AboutObjects (.getObject b k none wants) := ⟨trivial, fun b' k' h => by cases h; exact ⟨hb, cs, hk⟩, trivial⟩
  obtain ⟨e, he, hen, hes, hfs⟩ := web_epoch_at (cfg := cfg) (ext := ext) (P := Elsewhere (.getObject b k none wants))
    ⟨trivial, fun _ _ _ => trivial, fun _ _ _ h => h⟩ hn hx ho
  obtain ⟨hlv, c, hc, hr, hcase⟩ := hfs fs
  obtain ⟨a, m, ha, hm, hra⟩ := web_success (hcase _ h) (by omega)
  obtain ⟨d, fs', _, _, h1, _⟩ := C106_isolation (cfg := cfg) (ext := ext) hen hab hes hw ⟨hroot, fun _ _ _ h => h.elim⟩
  obtain ⟨h2, _⟩ := h1 _ ha
  obtain ⟨⟨y, body⟩, _, rfl⟩ := runF_map (answerF_ok.mp h2.symm)
  obtain ⟨_, c', h3, h4, _, h5, _⟩ := (C101_read_partial (cfg := cfg) (ext := ext) d).1 none wants _ _ _ _ h2.symm
  obtain ⟨h5, h6⟩ := h5 rfl
  obtain ⟨t, _, hh⟩ := get_headers x.texts c y.contentLength y.metadata y.etag body
  simp only [makeResponse, Op.handler, hh, document, Answer.content] at hra
  injection hra with hra
  have hnm : ∀ {q : Bytes}, q.head? ≠ some 120 → ∀ v, (q, v) ∉ m := by
    intro q hq v hv
    obtain ⟨s, hs⟩ := metadata_name hm hv
    rw [hs] at hq
    exact hq rfl
  subst hra
  refine ⟨c', h3, h6.symm, ?_, ?_⟩
  · intro v
    rw [← h4]
    exact header_iff (hnm (by decide)) (fun v => by simp)
  · refine ⟨_, natDigits_spec _, fun v => ?_⟩
    rw [← h5]
    exact header_iff (hnm (by decide)) (fun v => by simp)

theorem tidy_of_away {b k : Bytes} {o : Op} (h : OnOthers b (Away b k) o) : Tidy o := by
  cases o with
  | putObject i => exact ⟨h.bucket, h.key⟩
  | copyObject b' k' s => exact ⟨h.bucket, h.key⟩
  | deleteObject b' k' => exact ⟨h.bucket, h.key⟩
  | deleteObjects b' ks => exact fun k' hk' => ⟨(h k' hk').bucket, (h k' hk').key⟩
  | completeMultipartUpload b' k' u ps => exact ⟨⟨h.1.bucket, h.1.key⟩, h.2⟩
  | uploadPart u n body => exact h
  | deleteBucket b' => exact ⟨h.1, fun e => absurd h.1.len.1 (by rw [e]; decide)⟩
  | createBucket b' => exact h
  | _ => trivial

/-- the storage directory stays -/
theorem life_root {es : List Epoch} (h : ∀ e ∈ es, ∀ o ∈ e.requests, Tidy o) {fs : FS} (hw : WF fs) (hr : IsDir fs cfg.root) :
    IsDir (life cfg ext es fs) cfg.root := by
  refine (life_inv (P := Tidy) (J := fun x => IsDir x cfg.root) (fun o ho x c f hwx hj hc => ?_) h hw hr).1
  have := execF_frame (cfg := cfg) hwx (tidy_ok (cfg := cfg) ho hc) f
  rcases this.node cfg.root (fun h => h (.inl (List.prefix_refl _))) with h | ⟨_, _, h⟩
  · rw [IsDir, h]; exact hj
  · exact h

/-- **C107** The response to a later request for an object whose upload has been answered 200: it is answered, if at all, 200, with the
body that was uploaded, the ETag that was announced, and the metadata - if its own system calls do not fail. -/
theorem C107_put_get (hl : MetaLaw ext) {w : WebEpoch} {n : Nat} {x : Exchange} {i : PutInput} {cs : List Bytes} (hn : w.requests[n]? = some x)
    (hx : Asks lib auth x (.putObject i)) (hb : LegalBucket i.bucket) (hk : PlainKey i.key cs)
    (hv : ∀ m, i.metadata = some m → ValidMeta m)
    (ho : ∀ (j : Nat) y, j ≠ n → w.requests[j]? = some y → AsksIn cfg ext lib auth (OnOthers i.bucket (Away i.bucket i.key)) y)
    {ws : List WebEpoch} (hos : ∀ w' ∈ ws, ∀ y ∈ w'.requests, AsksIn cfg ext lib auth (OnOthers i.bucket (Away i.bucket i.key)) y)
    {fs : FS} (hw : WF fs) {res : Response} (h : w.response cfg ext lib auth fs n = some (.ok res)) (hs : res.status = 200)
    {body : Body} (hbody : i.body = some body) (hlen : (received body).length ≤ i64Max)
    {md : Option Meta} (hmd : storedMeta cfg ext (webLife cfg ext lib auth (w :: ws) fs) i.bucket i.key = some md) (hsend : SendableMeta md)
    {w' : WebEpoch} {n' : Nat} {y : Exchange} {wants : Nat → Nat} (hn' : w'.requests[n']? = some y)
    (hy : Asks lib auth y (.getObject i.bucket i.key none wants))
    (ho' : ∀ (j : Nat) z, j ≠ n' → w'.requests[j]? = some z → AsksIn cfg ext lib auth (Elsewhere (.getObject i.bucket i.key none wants)) z)
    (hok : ∀ f, (n', f) ∈ w'.steps → f = .none) {r : Outcome Response}
    (h' : w'.response cfg ext lib auth (webLife cfg ext lib auth (w :: ws) fs) n' = some r) :
    ∃ res', r = .ok res' ∧ res'.status = 200 ∧ res'.body = some (received body) ∧ HasLength res' (received body).length ∧ HasMeta res' md ∧
      ∀ v, (b!"etag", v) ∈ res'.headers ↔ (b!"etag", v) ∈ res.headers := by
  obtain ⟨body', hb1, _, het, hst, _⟩ := C107_put hl hn hx hb hk hv ho hos hw h hs
  rw [hbody] at hb1
  cases hb1
  have hwl : WF (webLife cfg ext lib auth (w :: ws) fs) := webLife_wf hw
  have hroot : IsDir (webLife cfg ext lib auth (w :: ws) fs) cfg.root := by
    rw [stored_plain (cfg := cfg) ((C02_bucket_name_rule _).mpr hb) hk, contentAt] at hst
    split at hst
    · rename_i j hj
      exact hwl.above hj (List.prefix_append _ _) (by simp)
    · cases hst
  have hab : AboutObjects (.getObject i.bucket i.key none wants) := ⟨trivial, fun b' k' h => by cases h; exact ⟨hb, cs, hk⟩, trivial⟩
  obtain ⟨h1, _, _⟩ := C107_isolation hn' hy hab ho' hok hwl ⟨hroot, fun _ _ _ h => h.elim⟩ h'
  obtain ⟨c, hc, hr⟩ := hy
  obtain ⟨t, _, hh⟩ := get_headers y.texts c (received body).length md (quoted (ext.md5hex (received body))) (some (received body))
  have h2 := (responded_of (cfg := cfg) (ext := ext) hc hr y.texts (webLife cfg ext lib auth (w :: ws) fs)).2.2 _
    (get_stored hst hmd hlen wants).1 md rfl hsend _ (by simp only [makeResponse, Op.handler, hh, document, Answer.content]; rfl)
  refine ⟨_, h1.trans h2, rfl, rfl, ?_, ?_, ?_⟩
  · refine ⟨_, natDigits_spec _, fun v => ?_⟩
    exact header_iff (not_meta (by decide)) (fun v => by simp)
  · intro n v
    exact meta_headers (by simp) n v
  · intro v
    rw [het v]
    exact header_iff (not_meta (by decide)) (fun v => by simp)

/-- **C107** No later request for an object whose deletion has been answered 204 is answered 200, whatever fails. -/
theorem C107_delete_get {w : WebEpoch} {n : Nat} {x : Exchange} {b k : Bytes} {cs : List Bytes} (hn : w.requests[n]? = some x)
    (hx : Asks lib auth x (.deleteObject b k)) (hb : LegalBucket b) (hk : PlainKey k cs)
    (ho : ∀ (j : Nat) y, j ≠ n → w.requests[j]? = some y → AsksIn cfg ext lib auth (OnOthers b (Away b k)) y)
    {ws : List WebEpoch} (hos : ∀ w' ∈ ws, ∀ y ∈ w'.requests, AsksIn cfg ext lib auth (OnOthers b (Away b k)) y)
    {fs : FS} (hw : WF fs) (hroot : IsDir fs cfg.root) {res : Response} (h : w.response cfg ext lib auth fs n = some (.ok res))
    (hs : res.status = 204)
    {w' : WebEpoch} {n' : Nat} {y : Exchange} {wants : Nat → Nat} (hn' : w'.requests[n']? = some y)
    (hy : Asks lib auth y (.getObject b k none wants))
    (ho' : ∀ (j : Nat) z, j ≠ n' → w'.requests[j]? = some z → AsksIn cfg ext lib auth (Elsewhere (.getObject b k none wants)) z)
    {res' : Response} (h' : w'.response cfg ext lib auth (webLife cfg ext lib auth (w :: ws) fs) n' = some (.ok res')) : res'.status ≠ 200 := by
  intro h200
  have hgone := C107_delete hn hx hb hk ho hos hw h hs
  have hroot' : IsDir (webLife cfg ext lib auth (w :: ws) fs) cfg.root := by
    obtain ⟨es, hes, hlife⟩ := webLife_life (cfg := cfg) (ext := ext) (lib := lib) (auth := auth) (P := Tidy) (ws := w :: ws) trivial (by
      intro w1 hw1 z hz
      have weaken : AsksIn cfg ext lib auth (OnOthers b (Away b k)) z → AsksIn cfg ext lib auth Tidy z := fun h =>
        h.imp (fun ⟨o, h1, h2⟩ => ⟨o, tidy_of_away h1, h2⟩) id
      rcases List.mem_cons.mp hw1 with rfl | hw1
      · obtain ⟨j, hj⟩ := List.getElem?_of_mem hz
        by_cases e : j = n
        · rw [e, hn] at hj
          cases hj
          exact .inl ⟨.deleteObject b k, ⟨hb, cs, hk⟩, hx⟩
        · exact weaken (ho j z e hj)
      · exact weaken (hos w1 hw1 z hz))
    rw [← hlife]
    exact life_root hes hw hroot
  obtain ⟨c, h1, _⟩ := C107_get hn' hy hb hk ho' (webLife_wf hw) hroot' h' h200
  rw [hgone] at h1
  cases h1

/-- **C107** A part whose upload has been answered 200 is there, with the ETag that was announced. -/
theorem C107_part {w : WebEpoch} {n : Nat} {x : Exchange} {u : Bytes} {m : Int} {body : Body} (hn : w.requests[n]? = some x)
    (hx : Asks lib auth x (.uploadPart u m (some body))) (hu : (47 : UInt8) ∉ u)
    (ho : ∀ (j : Nat) y, j ≠ n → w.requests[j]? = some y → AsksIn cfg ext lib auth (fun o => Tidy o ∧ ¬ UsesPart o u m) y)
    {ws : List WebEpoch} (hos : ∀ w' ∈ ws, ∀ y ∈ w'.requests, AsksIn cfg ext lib auth (fun o => Tidy o ∧ ¬ UsesPart o u m) y)
    {fs : FS} (hw : WF fs) {res : Response} (h : w.response cfg ext lib auth fs n = some (.ok res)) (hs : res.status = 200) :
    unbroken body ∧ HasETag res (quoted (ext.md5hex (received body))) ∧
      contentAt (webLife cfg ext lib auth (w :: ws) fs) (partFile cfg u m) = some (received body) := by
  obtain ⟨e, he, hen, hes, hfs⟩ := web_epoch_at (cfg := cfg) (ext := ext) (P := fun o => Tidy o ∧ ¬ UsesPart o u m) ⟨trivial, fun h => h⟩ hn hx ho
  obtain ⟨es, hes', hlife⟩ := webLife_life (cfg := cfg) (ext := ext) (lib := lib) (auth := auth) (P := fun o => Tidy o ∧ ¬ UsesPart o u m)
    ⟨trivial, fun h => h⟩ hos
  obtain ⟨hlv, c, hc, hr, hcase⟩ := hfs fs
  obtain ⟨a, l, ha, hm, hra⟩ := web_success (hcase _ h) (by omega)
  obtain ⟨h1, rfl, h2⟩ := C105_part (cfg := cfg) (ext := ext) hen hu hes hes' hw ha
  simp only [life, hlv, hlife] at h2
  refine ⟨h1, ?_, h2⟩
  cases hm
  simp only [makeResponse, Op.handler, answerHeaders, document] at hra
  injection hra with hra
  rw [← hra]
  intro v
  simp [optHeader]

/-- **C107** An object whose assembly from parts has been answered 200 is the concatenation of the parts. -/
theorem C107_complete {w : WebEpoch} {n : Nat} {x : Exchange} {u b k : Bytes} {cs : List Bytes} {contents : List Bytes}
    (hn : w.requests[n]? = some x) (hx : Asks lib auth x (.completeMultipartUpload b k u (some (numbers 0 contents.length))))
    (hu : (47 : UInt8) ∉ u) (hb : LegalBucket b) (hk : PlainKey k cs)
    (ho : ∀ (j : Nat) y, j ≠ n → w.requests[j]? = some y →
      AsksIn cfg ext lib auth (Elsewhere (.completeMultipartUpload b k u (some (numbers 0 contents.length)))) y)
    {ws : List WebEpoch} (hos : ∀ w' ∈ ws, ∀ y ∈ w'.requests, AsksIn cfg ext lib auth (OnOthers b (Away b k)) y)
    {fs : FS} (hw : WF fs) (hroot : IsDir fs cfg.root) (hfold : IsDir fs (cfg.root ++ b :: cs.dropLast))
    (hparts : ∀ (j : Nat) c, contents[j]? = some c → contentAt fs (partFile cfg u (j + 1)) = some c)
    {res : Response} (h : w.response cfg ext lib auth fs n = some (.ok res)) (hs : res.status = 200) :
    stored cfg (webLife cfg ext lib auth (w :: ws) fs) b k = some contents.flatten := by
  obtain ⟨e, he, hen, hes, hfs⟩ := web_epoch_at (cfg := cfg) (ext := ext) (P := Elsewhere _)
    ⟨trivial, fun _ _ _ => trivial, fun _ _ _ h => h⟩ hn hx ho
  obtain ⟨es, hes', hlife⟩ := webLife_life (cfg := cfg) (ext := ext) (lib := lib) (auth := auth) trivial hos
  obtain ⟨hlv, c, hc, hr, hcase⟩ := hfs fs
  obtain ⟨a, l, ha, hm, hra⟩ := web_success (hcase _ h) (by omega)
  have h2 := (C105_complete (cfg := cfg) (ext := ext) hen hu hb hk hes hes' hw hroot hfold hparts ha).1
  simp only [life, hlv, hlife] at h2
  exact h2

/-- **C107** A copy that has been answered 200 has the content of its source. -/
theorem C107_copy {w : WebEpoch} {n : Nat} {x : Exchange} {b k s sb sk : Bytes} {cs scs : List Bytes} (hn : w.requests[n]? = some x)
    (hx : Asks lib auth x (.copyObject b k s)) (hb : LegalBucket b) (hk : PlainKey k cs) (hsrc : copySourceFromHeader s = .ok (sb, sk))
    (hsk : PlainKey sk scs) (hne : (b, k) ≠ (sb, sk))
    (ho : ∀ (j : Nat) y, j ≠ n → w.requests[j]? = some y → AsksIn cfg ext lib auth (Elsewhere (.copyObject b k s)) y)
    {ws : List WebEpoch} (hos : ∀ w' ∈ ws, ∀ y ∈ w'.requests, AsksIn cfg ext lib auth (OnOthers b (Away b k)) y)
    {fs : FS} (hw : WF fs) (hroot : IsDir fs cfg.root) (hfold : IsDir fs (cfg.root ++ b :: cs.dropLast))
    {res : Response} (h : w.response cfg ext lib auth fs n = some (.ok res)) (hs : res.status = 200) :
    ∃ c, stored cfg fs sb sk = some c ∧ stored cfg (webLife cfg ext lib auth (w :: ws) fs) b k = some c := by
  obtain ⟨e, he, hen, hes, hfs⟩ := web_epoch_at (cfg := cfg) (ext := ext) (P := Elsewhere _)
    ⟨trivial, fun _ _ _ => trivial, fun _ _ _ h => h⟩ hn hx ho
  obtain ⟨es, hes', hlife⟩ := webLife_life (cfg := cfg) (ext := ext) (lib := lib) (auth := auth) trivial hos
  obtain ⟨hlv, c, hc, hr, hcase⟩ := hfs fs
  obtain ⟨a, l, ha, hm, hra⟩ := web_success (hcase _ h) (by omega)
  obtain ⟨c', h1, h2, _⟩ := C105_copy (cfg := cfg) (ext := ext) hen hb hk hsrc hsk hne hes hes' hw hroot hfold ha
  simp only [life, hlv, hlife] at h2
  exact ⟨c', h1, h2⟩

/-! ### the hypotheses are met -/

def Sample.webPut : Exchange := Sample.exchange (Sample.plain b!"PUT" b!"/aaa/x" none [(b!"x-amz-meta-a", b!"1")] [some b!"new"])
def Sample.webCopy : Exchange := Sample.exchange (Sample.plain b!"PUT" b!"/aaa/z" none [(b!"x-amz-copy-source", b!"aaa/x")] [])
def Sample.webDelete : Exchange := Sample.exchange (Sample.plain b!"DELETE" b!"/aaa/x" none [] [])
def Sample.webDelete2 : Exchange := Sample.exchange (Sample.plain b!"DELETE" b!"/bbb/y" none [] [])
def Sample.webBad : Exchange := Sample.exchange (Sample.plain b!"GET" b!"/A" none [] [])
def Sample.webGet : Exchange := Sample.exchange (Sample.plain b!"GET" b!"/aaa/x" none [] [])

def Sample.webInput : PutInput := ⟨b!"aaa", b!"x", some [some b!"new"], none, some [(b!"a", b!"1")], none⟩

theorem Sample.webPut_asks : Asks Sample.lib none Sample.webPut (.putObject Sample.webInput) := by
  refine Sample.asks (by decide +kernel) (.putObject rfl
    (Sample.at_object rfl (by decide +kernel) (by decide +kernel) (by decide) (by decide)) (Sample.selects_none rfl)
    (Sample.no_header (by decide +kernel)) ⟨none, Sample.no_header (by decide +kernel), trivial⟩ ?_ (Sample.no_header (by decide +kernel)))
  refine ⟨by decide, by decide, fun n v => ?_⟩
  simp only [headerMeta, Sample.plain, List.mem_cons, List.not_mem_nil, or_false, Prod.mk.injEq]
  constructor
  · rintro ⟨rfl, rfl⟩
    exact ⟨by decide, by decide, rfl⟩
  · rintro ⟨_, h, rfl⟩
    exact ⟨List.append_cancel_left (as := b!"x-amz-meta-") (bs := n) (cs := b!"a") h, rfl⟩

theorem Sample.webDelete_asks : Asks Sample.lib none Sample.webDelete (.deleteObject b!"aaa" b!"x") :=
  Sample.asks (by decide +kernel) (.deleteObject rfl
    (Sample.at_object rfl (by decide +kernel) (by decide +kernel) (by decide) (by decide)) (Sample.selects_none rfl)
    ⟨none, Sample.no_header (by decide +kernel), .inl rfl⟩)

theorem Sample.webGet_asks : Asks Sample.lib none Sample.webGet (.getObject b!"aaa" b!"x" none Sample.env.wants) :=
  Sample.asks (by decide +kernel) (.getObject rfl (Sample.at_object rfl (by decide +kernel) (by decide +kernel) (by decide) (by decide))
    (Sample.selects_none rfl) (Sample.no_header (by decide +kernel)))

/-- the other requests: a copy of `aaa/x`, the deletion of `bbb/y`, a request that is refused -/
theorem Sample.web_others {P : Op → Prop} (h1 : P (.copyObject b!"aaa" b!"z" b!"aaa/x")) (h2 : P (.deleteObject b!"bbb" b!"y")) {y : Exchange}
    (hy : y ∈ [Sample.webCopy, Sample.webDelete2, Sample.webBad]) : AsksIn Sample.cfg Sample.ext Sample.lib none P y := by
  simp only [List.mem_cons, List.not_mem_nil, or_false] at hy
  rcases hy with rfl | rfl | rfl
  · exact .inl ⟨_, h1, Sample.asks (by decide +kernel) (.copyObject (sb := b!"aaa") (sk := b!"x") rfl
      (Sample.at_object rfl (by decide +kernel) (by decide +kernel) (by decide) (by decide))
      (Sample.selects_none rfl) (Sample.value_header (by decide +kernel)) (Sample.legal (by decide +kernel)) (by decide) (by decide) (by decide))⟩
  · exact .inl ⟨_, h2, Sample.asks (by decide +kernel) (.deleteObject rfl
      (Sample.at_object rfl (by decide +kernel) (by decide +kernel) (by decide) (by decide)) (Sample.selects_none rfl)
      ⟨none, Sample.no_header (by decide +kernel), .inl rfl⟩)⟩
  · exact .inr ⟨_, Sample.refused (err := .InvalidBucketName) (by decide +kernel)⟩

theorem Sample.web_away {y : Exchange} (hy : y ∈ [Sample.webCopy, Sample.webDelete2, Sample.webBad]) :
    AsksIn Sample.cfg Sample.ext Sample.lib none (OnOthers b!"aaa" (Away b!"aaa" b!"x")) y :=
  Sample.web_others ⟨Sample.legal (by decide +kernel), ⟨_, plain1 (k := b!"z") (by decide)⟩, by decide⟩
    ⟨Sample.legal (by decide +kernel), ⟨_, plain1 (k := b!"y") (by decide)⟩, by decide⟩ hy

theorem Sample.web_elsewhere {y : Exchange} (hy : y ∈ [Sample.webCopy, Sample.webDelete2, Sample.webBad]) :
    AsksIn Sample.cfg Sample.ext Sample.lib none (Elsewhere (.getObject b!"aaa" b!"x" none Sample.env.wants)) y := by
  have hz : PlainAddress b!"aaa" b!"z" := ⟨Sample.legal (by decide +kernel), _, plain1 (k := b!"z") (by decide)⟩
  have hy' : PlainAddress b!"bbb" b!"y" := ⟨Sample.legal (by decide +kernel), _, plain1 (k := b!"y") (by decide)⟩
  refine Sample.web_others ⟨hz, ?_, fun _ _ h => h.elim⟩ ⟨hy', ?_, fun _ _ h => h.elim⟩ hy
  · intro b k h
    cases h
    exact ⟨⟨hz.1, hz.2, by decide⟩, fun _ => Sample.not_nested (by decide), fun _ => Sample.not_nested (by decide)⟩
  · intro b k h
    cases h
    exact ⟨⟨hy'.1, hy'.2, by decide⟩, fun _ => Sample.not_nested (by decide), fun _ => Sample.not_nested (by decide)⟩

/-- the upload of `aaa/x` while the copy beside it meets errors all the time and the server dies before the deletion is done -/
def Sample.webRun : WebEpoch :=
  ⟨[Sample.webPut, Sample.webCopy, Sample.webDelete2, Sample.webBad], (List.replicate 12 [(0, .none), (1, .before)]).flatten ++ [(2, .none)]⟩

/-- a run with a copy that breaks off in the middle of a write -/
def Sample.webRun2 : WebEpoch :=
  ⟨[Sample.webCopy, Sample.webBad], List.replicate 4 (0, .none) ++ [(0, .during 2 [])]⟩

/-- a run in which the object is read while the copy meets errors -/
def Sample.webRun3 : WebEpoch :=
  ⟨[Sample.webGet, Sample.webCopy], (List.replicate 12 [(0, .none), (1, .during 1 [])]).flatten⟩

/-- a run in which the object is deleted -/
def Sample.webRun4 : WebEpoch :=
  ⟨[Sample.webCopy, Sample.webDelete], (List.replicate 12 [(1, .none), (0, .before)]).flatten⟩

def Sample.webStatus (o : Option (Outcome Response)) : Option (Nat × Option Bytes) := match o with
  | some (.ok r) => some (r.status, r.body)
  | _ => none

/-- the upload is answered 200 and the read 200 with what was uploaded -/
example : Sample.webRun.requests[0]? = some Sample.webPut ∧ Asks Sample.lib none Sample.webPut (.putObject Sample.webInput) ∧
    ValidMeta [(b!"a", b!"1")] ∧ SendableMeta (some [(b!"a", b!"1")]) ∧
    (∀ (j : Nat) y, j ≠ 0 → Sample.webRun.requests[j]? = some y →
      AsksIn Sample.cfg Sample.ext Sample.lib none (OnOthers b!"aaa" (Away b!"aaa" b!"x")) y) ∧
    (∀ w' ∈ [Sample.webRun2], ∀ y ∈ w'.requests, AsksIn Sample.cfg Sample.ext Sample.lib none (OnOthers b!"aaa" (Away b!"aaa" b!"x")) y) ∧
    Sample.webStatus (Sample.webRun.response Sample.cfg Sample.ext Sample.lib none Sample.fs 0) = some (200, some []) ∧
    (Sample.webStatus (Sample.webRun.response Sample.cfg Sample.ext Sample.lib none Sample.fs 1)).map (·.1) = some 500 ∧
    Asks Sample.lib none Sample.webGet (.getObject b!"aaa" b!"x" none Sample.env.wants) ∧
    (∀ (j : Nat) y, j ≠ 0 → Sample.webRun3.requests[j]? = some y →
      AsksIn Sample.cfg Sample.ext Sample.lib none (Elsewhere (.getObject b!"aaa" b!"x" none Sample.env.wants)) y) ∧
    (∀ f, (0, f) ∈ Sample.webRun3.steps → f = .none) ∧
    storedMeta Sample.cfg Sample.ext (webLife Sample.cfg Sample.ext Sample.lib none [Sample.webRun, Sample.webRun2] Sample.fs) b!"aaa" b!"x"
      = some (some [(b!"a", b!"1")]) ∧
    Sample.webStatus (Sample.webRun3.response Sample.cfg Sample.ext Sample.lib none
      (webLife Sample.cfg Sample.ext Sample.lib none [Sample.webRun, Sample.webRun2] Sample.fs) 0) = some (200, some b!"new") := by
  refine ⟨rfl, Sample.webPut_asks, ⟨by decide, by decide +kernel⟩, ?_, ?_, ?_, by decide +kernel, by decide +kernel, Sample.webGet_asks, ?_, ?_,
    by decide +kernel, by decide +kernel⟩
  · intro l hl
    cases hl
    unfold Sendable
    decide +kernel
  · intro j y hj hy
    rcases j with _ | _ | _ | _ | j
    · exact absurd rfl hj
    all_goals cases hy
    all_goals exact Sample.web_away (by simp)
  · intro w' hw' y hy
    cases List.mem_singleton.mp hw'
    refine Sample.web_away ?_
    simp only [Sample.webRun2, List.mem_cons, List.not_mem_nil, or_false] at hy ⊢
    exact hy.imp id fun h => .inr h
  · intro j y hj hy
    rcases j with _ | _ | j
    · exact absurd rfl hj
    all_goals cases hy
    exact Sample.web_elsewhere (by simp)
  · intro f hf
    simp only [Sample.webRun3, List.replicate, List.flatten, List.append_eq, List.cons_append, List.nil_append, List.mem_cons, Prod.mk.injEq,
      List.not_mem_nil, or_false] at hf
    simpa using hf

/-- the deletion is answered 204, and the read that follows is not answered 200 -/
example : Sample.webRun4.requests[1]? = some Sample.webDelete ∧ Asks Sample.lib none Sample.webDelete (.deleteObject b!"aaa" b!"x") ∧
    (∀ (j : Nat) y, j ≠ 1 → Sample.webRun4.requests[j]? = some y →
      AsksIn Sample.cfg Sample.ext Sample.lib none (OnOthers b!"aaa" (Away b!"aaa" b!"x")) y) ∧
    stored Sample.cfg Sample.fs b!"aaa" b!"x" = some b!"hello" ∧
    (Sample.webStatus (Sample.webRun4.response Sample.cfg Sample.ext Sample.lib none Sample.fs 1)).map (·.1) = some 204 ∧
    (Sample.webStatus (Sample.webRun3.response Sample.cfg Sample.ext Sample.lib none
      (webLife Sample.cfg Sample.ext Sample.lib none [Sample.webRun4, Sample.webRun2] Sample.fs) 0)).map (·.1) = some 404 := by
  refine ⟨rfl, Sample.webDelete_asks, ?_, by decide +kernel, by decide +kernel, by decide +kernel⟩
  intro j y hj hy
  rcases j with _ | _ | j
  · cases hy
    exact Sample.web_away (by simp)
  · exact absurd rfl hj
  · cases hy

/-- a read that meets errors of its own is answered 200 with a body that breaks off -/
example : (Sample.webStatus ((⟨[Sample.webGet], [(0, .none), (0, .none), (0, .none), (0, .none), (0, .none), (0, .before), (0, .before)]⟩ : WebEpoch).response
      Sample.cfg Sample.ext Sample.lib none Sample.fs 0)) = some (200, none) := by decide +kernel

/-- the first part of an upload, and the request to assemble an object from it -/
def Sample.webPart : Exchange := Sample.exchange (Sample.plain b!"PUT" b!"/aaa/z" (some b!"partNumber=1&uploadId=id1") [] [some b!"one"])
def Sample.webDone : Exchange := Sample.exchange (Sample.plain b!"POST" b!"/aaa/z" (some b!"uploadId=id1") []
  [some b!"<CompleteMultipartUpload><Part><PartNumber>1</PartNumber></Part></CompleteMultipartUpload>"])

/-- a part is acknowledged while the deletion beside it fails, and then the object is assembled from it; a copy is acknowledged -/
example : Asks Sample.lib none Sample.webPart (.uploadPart b!"id1" 1 (some [some b!"one"])) ∧
    AsksIn Sample.cfg Sample.ext Sample.lib none (fun o => Tidy o ∧ ¬ UsesPart o b!"id1" 1) Sample.webDelete2 ∧
    Asks Sample.lib none Sample.webDone (.completeMultipartUpload b!"aaa" b!"z" b!"id1" (some (numbers 0 1))) ∧
    AsksIn Sample.cfg Sample.ext Sample.lib none (Elsewhere (.completeMultipartUpload b!"aaa" b!"z" b!"id1" (some (numbers 0 1)))) Sample.webDelete2 ∧
    (Sample.webStatus ((⟨[Sample.webDelete2, Sample.webPart], (List.replicate 6 [(0, .before), (1, .none)]).flatten⟩ : WebEpoch).response
      Sample.cfg Sample.ext Sample.lib none Sample.fs 1)).map (·.1) = some 200 ∧
    contentAt (webLife Sample.cfg Sample.ext Sample.lib none
      [⟨[Sample.webDelete2, Sample.webPart], (List.replicate 6 [(0, .before), (1, .none)]).flatten⟩] Sample.fs) (partFile Sample.cfg b!"id1" 1) = some b!"one" ∧
    (Sample.webStatus ((⟨[Sample.webDelete2, Sample.webDone], (List.replicate 18 [(0, .before), (1, .none)]).flatten⟩ : WebEpoch).response
      Sample.cfg Sample.ext Sample.lib none (webLife Sample.cfg Sample.ext Sample.lib none
      [⟨[Sample.webDelete2, Sample.webPart], (List.replicate 6 [(0, .before), (1, .none)]).flatten⟩] Sample.fs) 1)).map (·.1) = some 200 ∧
    Asks Sample.lib none Sample.webCopy (.copyObject b!"aaa" b!"z" b!"aaa/x") ∧
    (Sample.webStatus ((⟨[Sample.webDelete2, Sample.webCopy], (List.replicate 18 [(0, .before), (1, .none)]).flatten⟩ : WebEpoch).response
      Sample.cfg Sample.ext Sample.lib none Sample.fs 1)).map (·.1) = some 200 := by
  have hy' : PlainAddress b!"bbb" b!"y" := ⟨Sample.legal (by decide +kernel), _, plain1 (k := b!"y") (by decide)⟩
  have hd : Asks Sample.lib none Sample.webDelete2 (.deleteObject b!"bbb" b!"y") := Sample.asks (by decide +kernel) (.deleteObject rfl
      (Sample.at_object rfl (by decide +kernel) (by decide +kernel) (by decide) (by decide)) (Sample.selects_none rfl)
      ⟨none, Sample.no_header (by decide +kernel), .inl rfl⟩)
  refine ⟨?_, .inl ⟨.deleteObject b!"bbb" b!"y", ⟨hy', fun h => h⟩, hd⟩, ?_, .inl ⟨.deleteObject b!"bbb" b!"y", ⟨hy', ?_, fun _ _ _ h => h⟩, hd⟩, by decide +kernel, by decide +kernel, by decide +kernel,
    ?_, by decide +kernel⟩
  · exact Sample.asks (by decide +kernel) (.uploadPart (l := none) rfl
      (Sample.at_object (b := b!"aaa") (k := b!"z") rfl (by decide +kernel) (by decide +kernel) (by decide) (by decide))
      (Sample.selects_of (by decide +kernel)) (Sample.no_header (by decide +kernel))
      (Sample.only_query (v := b!"1") (by decide +kernel) (by decide +kernel)) (parseI64_iff.mp (by decide +kernel))
      (Sample.only_query (by decide +kernel) (by decide +kernel)) ⟨none, Sample.no_header (by decide +kernel), trivial⟩)
  · exact Sample.asks (by decide +kernel) (.completeMultipartUpload rfl
      (Sample.at_object (b := b!"aaa") (k := b!"z") rfl (by decide +kernel) (by decide +kernel) (by decide) (by decide))
      (Sample.selects_of (by decide +kernel)) (fun _ ⟨_, _, _, h, _⟩ => nomatch h) ⟨by unfold unbroken; decide +kernel, rfl⟩ (by decide +kernel)
      (Sample.only_query (by decide +kernel) (by decide +kernel)))
  · intro b k h
    cases h
    exact ⟨⟨hy'.1, hy'.2, by decide⟩, fun _ => Sample.not_nested (by decide), fun _ => Sample.not_nested (by decide)⟩
  · exact Sample.asks (by decide +kernel) (.copyObject (sb := b!"aaa") (sk := b!"x") rfl
      (Sample.at_object rfl (by decide +kernel) (by decide +kernel) (by decide) (by decide))
      (Sample.selects_none rfl) (Sample.value_header (by decide +kernel)) (Sample.legal (by decide +kernel)) (by decide) (by decide) (by decide))

end S3
