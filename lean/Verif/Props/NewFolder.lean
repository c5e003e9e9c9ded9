import Verif.Spec.NewFolder
import Verif.Lemmas.NewFolder
import Verif.Props.Multipart
import Verif.Lemmas.Machine
/-! C135: uploads at the same time into folders that are not there yet. -/
namespace S3
open Spec

variable {cfg : Cfg} {ext : Ext} {lib : Lib} {auth : Option Provider}

theorem put_about {i : PutInput} {cs : List Bytes} (hb : LegalBucket i.bucket) (hk : PlainKey i.key cs) : AboutObjects (.putObject i) :=
  ⟨⟨hb, cs, hk⟩, fun b k hu => by cases hu; exact ⟨hb, cs, hk⟩, trivial⟩

/-- PutObject is refused at once, or makes the folders first -/
theorem put_shape (cfg : Cfg) (ext : Ext) {i : PutInput} {cs : List Bytes} (hb : LegalBucket i.bucket) (hk : PlainKey i.key cs) :
    (¬ Acceptable i ∧ ∃ e, putObject cfg ext i = .fail e) ∨
    (Acceptable i ∧ ∃ g, putObject cfg ext i = (createDirAllRev (cfg.root ++ i.bucket :: cs.dropLast).reverse).bind g) := by
  have hb' := (C02_bucket_name_rule _).mpr hb
  have hdl : (cfg.root ++ i.bucket :: cs).dropLast = cfg.root ++ i.bucket :: cs.dropLast := by
    rw [List.dropLast_append_of_ne_nil (by simp), List.dropLast_cons_of_ne_nil hk.nonempty]
  have hcl : i.storageClass.all storageClassOk = true ↔
      (i.storageClass = none ∨ i.storageClass = some b!"STANDARD" ∨ i.storageClass = some b!"REDUCED_REDUNDANCY") := by
    cases i.storageClass <;> simp [storageClassOk]
  simp only [putObject, bind_eq, pure_eq, Acceptable]
  cases hc : i.storageClass.all storageClassOk with
  | false => exact .inl ⟨fun h => by rw [hcl.mpr h.2] at hc; simp at hc, _, rfl⟩
  | true =>
    cases hbody : i.body with
    | none => exact .inl ⟨fun h => h.1 rfl, _, rfl⟩
    | some body =>
      refine .inr ⟨⟨by simp, hcl.mp hc⟩, ?_⟩
      simp only [plain_no_slash hk, Bool.false_eq_true, if_false, objectPath_plain cfg hb' hk, orInternal, Bool.not_true]
      show ∃ g, (if cfg.root ++ i.bucket :: cs ≠ [] then _ else _) = _
      rw [if_pos (by simp), hdl]
      exact ⟨_, rfl⟩

/-- trees that others and the making of folders have changed differently agree on what the upload is about, once the folders are there -/
theorem new_match {i : PutInput} {cs : List Bytes} (hb : LegalBucket i.bucket) (hk : PlainKey i.key cs) {fs a b : FS} (hwa : WF a) (hwb : WF b)
    (ha : PutRely (cfg.root ++ i.bucket :: cs) (metaFile cfg i.bucket i.key) fs a)
    (hb' : PutRely (cfg.root ++ i.bucket :: cs) (metaFile cfg i.bucket i.key) fs b)
    (hda : Dirs (upRegion cfg (.putObject i)) a) (hdb : Dirs (upRegion cfg (.putObject i)) b) :
    Match (region cfg (.putObject i)) a b := by
  have hin : ∀ {q}, region cfg (.putObject i) q → q <+: cfg.root ++ i.bucket :: cs ∨ q = metaFile cfg i.bucket i.key := by
    rintro q ((hq | ⟨b, k, cs', hu, hk', hq, _⟩) | ⟨b, k, cs', hu, hk', rfl | rfl⟩ | ⟨u, n, hu, _⟩)
    · exact .inl (hq.trans (List.prefix_append ..))
    · cases hu; obtain rfl := plainKey_unique hk hk'; exact .inl hq
    · cases hu; obtain rfl := plainKey_unique hk hk'; exact .inl (List.prefix_refl _)
    · cases hu; exact .inr rfl
    · exact hu.elim
  have hup : ∀ {q}, q <+: cfg.root ++ i.bucket :: cs ∧ q ≠ cfg.root ++ i.bucket :: cs → upRegion cfg (.putObject i) q :=
    fun h => .inr ⟨_, _, cs, rfl, hk, h⟩
  refine ⟨fun q hq => ?_, fun j hj => ?_, fun q hq => ?_⟩
  · rcases ha.node q (not_not_intro (hin hq)) with e | ⟨hu, _⟩
    · rcases hb'.node q (not_not_intro (hin hq)) with e' | ⟨hu, _⟩
      · rw [e, e']
      · rw [hda q (hup hu), hdb q (hup hu)]
    · rw [hda q (hup hu), hdb q (hup hu)]
  · rw [ha.data j (not_not_intro (hin hj)), hb'.data j (not_not_intro (hin hj))]
  · rw [ha.gen q (not_not_intro (hin hq)), hb'.gen q (not_not_intro (hin hq))]

theorem lastFolder_above {b k : Bytes} {cs : List Bytes} (hk : PlainKey k cs) :
    cfg.root ++ b :: cs.dropLast <+: cfg.root ++ b :: cs ∧ cfg.root ++ b :: cs.dropLast ≠ cfg.root ++ b :: cs := by
  refine ⟨?_, fun e => ?_⟩
  · rw [List.prefix_append_right_inj, List.cons_prefix_cons]; exact ⟨rfl, List.dropLast_prefix _⟩
  · have := congrArg List.length e
    have := List.length_pos_iff.mpr hk.nonempty
    simp only [List.length_append, List.length_cons, List.length_dropLast] at *
    omega

theorem put_rely {i : PutInput} {cs : List Bytes} (hb : LegalBucket i.bucket) (hk : PlainKey i.key cs) {o' : Op} (h : Elsewhere (.putObject i) o')
    {fs : FS} (hw : WF fs) {c : Call} (hc : (opPerm cfg o').ok c) (f : Fault) :
    PutRely (cfg.root ++ i.bucket :: cs) (metaFile cfg i.bucket i.key) fs (execF cfg fs c f).2 :=
  execF_frame hw (apart_ok ((C02_bucket_name_rule _).mpr hb) hk (h.objects i.bucket i.key rfl) hc) f

/-- the folders are made, whatever the others do meanwhile -/
theorem folders_made {i : PutInput} {cs : List Bytes} (hb : LegalBucket i.bucket) (hk : PlainKey i.key cs) {fs : FS} (hw : WF fs)
    (hfree : FoldersFree cfg i.bucket cs fs) :
    wp cfg (PutRely (cfg.root ++ i.bucket :: cs) (metaFile cfg i.bucket i.key))
      (fun o t => o = .ok () ∧ t.lookup (cfg.root ++ i.bucket :: cs.dropLast) = some .dir ∧
        PutRely (cfg.root ++ i.bucket :: cs) (metaFile cfg i.bucket i.key) fs t)
      (createDirAllRev (cfg.root ++ i.bucket :: cs.dropLast).reverse) fs := by
  have hb' := (C02_bucket_name_rule _).mpr hb
  have hR := rely_put (cfg.root ++ i.bucket :: cs) (metaFile cfg i.bucket i.key)
  obtain ⟨hdP, hneP⟩ := lastFolder_above (cfg := cfg) (b := i.bucket) hk
  have hlt : ∀ {q}, q <+: cfg.root ++ i.bucket :: cs.dropLast → q ≠ cfg.root ++ i.bucket :: cs := fun hq e => by
    subst e
    exact hneP (hdP.eq_of_length_le hq.length_le)
  have hgrow : ∀ a b, PutRely (cfg.root ++ i.bucket :: cs) (metaFile cfg i.bucket i.key) a b → Grow (cfg.root ++ i.bucket :: cs.dropLast) a b := by
    intro a b h q hq
    rcases h.node q (not_not_intro (.inl (hq.trans hdP))) with e | ⟨_, h1, h2⟩
    · exact .inl e
    · exact .inr ⟨h1, h2⟩
  have hnames : ∀ c ∈ cfg.root ++ i.bucket :: cs.dropLast, nameOk c = true := by
    intro c hc
    simp only [List.mem_append, List.mem_cons] at hc
    rcases hc with hc | rfl | hc
    · exact dir_names hw hfree.root c hc
    · exact legal_name hb'
    · exact fits_name (hk.comps c (List.dropLast_subset _ hc)) (hfree.names c hc)
  have hclear : Clear (cfg.root ++ i.bucket :: cs.dropLast) fs := by
    intro q hq
    rcases List.prefix_or_prefix_of_prefix hq (List.prefix_append cfg.root _) with h | ⟨t, rfl⟩
    · by_cases e : q = cfg.root
      · exact .inr (e ▸ hfree.root)
      · exact .inr (hw.above hfree.root h e)
    · have ht := (List.prefix_append_right_inj _).mp hq
      cases t with
      | nil => exact .inr (by rw [List.append_nil]; exact hfree.root)
      | cons b t =>
        obtain ⟨rfl, ht'⟩ := List.cons_prefix_cons.mp ht
        exact clear_look (hfree.above t ht')
  have h1 := createDirAllRev_wp (cfg := cfg) hR hgrow hnames (cfg.root ++ i.bucket :: cs.dropLast).reverse (by rw [List.reverse_reverse]; exact List.prefix_refl _) hw hclear
  rw [List.reverse_reverse] at h1
  have hsafe : Safe (fun c => writeOk (fun q => ¬ (q <+: cfg.root ++ i.bucket :: cs ∨ q = metaFile cfg i.bucket i.key))
      (fun q => q <+: cfg.root ++ i.bucket :: cs ∧ q ≠ cfg.root ++ i.bucket :: cs) c) (fun _ => True)
      (createDirAllRev (cfg.root ++ i.bucket :: cs.dropLast).reverse) := by
    refine (safe_createDirAllRev (π := { st := fun _ => True, up := fun q => q <+: cfg.root ++ i.bucket :: cs.dropLast }) _ (fun q hq => ⟨trivial, by
      rw [List.reverse_reverse] at hq; exact hq⟩)).mono (fun c hc => ?_) fun _ h => h
    cases c <;> first | trivial | exact (hc : False).elim | exact .inl ⟨(hc : _ <+: _).trans hdP, hlt hc⟩
  have h2 := wp_inv (cfg := cfg) (R := PutRely (cfg.root ++ i.bucket :: cs) (metaFile cfg i.bucket i.key)) hsafe
    (J := fun t => PutRely (cfg.root ++ i.bucket :: cs) (metaFile cfg i.bucket i.key) fs t)
    (Q := fun _ t => PutRely (cfg.root ++ i.bucket :: cs) (metaFile cfg i.bucket i.key) fs t)
    (fun t c hwt hj hc => hR.trans _ _ _ hj (exec_frame cfg hwt hc)) (fun a b h hj => hR.trans _ _ _ hj h) (hR.refl _) (fun _ _ h _ => h)
  exact wp_mono (fun o t _ h => ⟨h.1.1, h.1.2.1, h.2⟩) (wp_and h1 h2)

theorem made_dirs {i : PutInput} {cs : List Bytes} (hk : PlainKey i.key cs) {a : FS} (hw : WF a)
    (h : a.lookup (cfg.root ++ i.bucket :: cs.dropLast) = some .dir) : Dirs (upRegion cfg (.putObject i)) a := by
  refine folders_dirs hw ⟨?_, fun b k cs' hu hk' => ?_⟩
  · exact hw.above h (List.prefix_append ..) (by simp)
  · cases hu; obtain rfl := plainKey_unique hk hk'; exact h

/-! ### the theorems -/

/-- **C135** An upload whose folders are not all there yet, served in pieces while other requests are served in pieces too (and make
folders, perhaps the same ones), is answered as when it is alone, leaves the same object and the same metadata, and its folder is there in
the end. -/
theorem C135_put {w : PieceEpoch} (hs : w.Serves cfg ext lib auth) {n : Nat} {x : Exchange} {i : PutInput} {cs : List Bytes}
    (hn : w.requests[n]? = some x) (hx : Asks lib auth x (.putObject i)) (hb : LegalBucket i.bucket) (hk : PlainKey i.key cs)
    (hothers : ∀ (j : Nat) y, j ≠ n → w.requests[j]? = some y → AsksIn cfg ext lib auth (Elsewhere (.putObject i)) y)
    (hok : ∀ f, (n, .call f) ∈ w.strides → f = .none) {fs : FS} (hw : WF fs) (hfree : FoldersFree cfg i.bucket cs fs) {r : Outcome Response}
    (h : w.response cfg fs n = some r) :
    r = responded cfg ext lib auth x.env x.texts x.req fs ∧
    stored cfg (w.leaves cfg fs) i.bucket i.key = stored cfg (afterResponded cfg ext lib auth x.env x.texts x.req fs) i.bucket i.key ∧
    storedMeta cfg ext (w.leaves cfg fs) i.bucket i.key
      = storedMeta cfg ext (afterResponded cfg ext lib auth x.env x.texts x.req fs) i.bucket i.key ∧
    (Acceptable i → IsDir (w.leaves cfg fs) (cfg.root ++ i.bucket :: cs.dropLast)) := by
  have ho := put_about hb hk
  obtain ⟨gs, h1, steps, h2⟩ := piece_sim hs hw
  obtain ⟨q, hq, hp⟩ := hs.of_request hn
  have hlt := (List.getElem?_eq_some_iff.mp hq).1
  obtain ⟨c, hc, hr⟩ := hx
  have hall : hyperCall cfg ext lib auth x.env x.texts x.req = wrap x.texts c (Op.putObject i).handler (opProg cfg ext (.putObject i)) :=
    hyperCall_asks hc hr
  have hthr := through_wrap x.texts c (Op.putObject i).handler
  have hcl : Closed fun c => ∃ o', Elsewhere (.putObject i) o' ∧ (opPerm cfg o').ok c := Closed.exists fun o' => closed_perm (opPerm cfg o')
  have hoth : ∀ (j : Nat) g, j ≠ n → w.threads[j]? = some g →
      Safe (fun c => ∃ o', Elsewhere (.putObject i) o' ∧ (opPerm cfg o').ok c) (fun _ => True) g := by
    intro j g hj hg
    obtain ⟨y, hy, hp⟩ := hs.of_thread hg
    exact pieces_safe hcl hp (request_safe (hothers j y hj hy))
  have hloc : Safe (localCall (region cfg (.putObject i))) (fun _ => True) q := pieces_safe (closed_local _) hp (by
    rw [hall]
    exact hthr.2 _ _ ((op_safe cfg ext (.putObject i)).mono (fun c hc => op_local ho hc) fun _ h => h))
  have hoths : ∀ (j : Nat) g, j ≠ n → (w.threads ++ gs)[j]? = some g →
      Safe (fun c => ∃ o', Elsewhere (.putObject i) o' ∧ (opPerm cfg o').ok c) (fun _ => True) g := by
    intro j g hj hg
    by_cases hl : j < w.threads.length
    · rw [List.getElem?_append_left hl] at hg
      exact hoth j g hj hg
    · rw [List.getElem?_append_right (by omega)] at hg
      obtain ⟨ht, hin⟩ := h1 g (List.mem_of_getElem? hg)
      obtain ⟨i, hi⟩ := List.getElem?_of_mem hin
      refine hoth i g (fun e => ?_) hi
      rw [e, hq] at hi
      cases hi
      obtain ⟨t, k, rfl, _⟩ := ht
      exact hloc.1
  have hqn : (w.threads ++ gs)[n]? = some q := by rw [List.getElem?_append_left hlt]; exact hq
  have hsteps : ∀ f, (n, f) ∈ steps → f = .none := fun f hf => by
    obtain ⟨t, ht⟩ := List.getElem?_of_mem hf
    exact hok _ (List.mem_of_getElem? ((h2.own t n f hlt).mp ht))
  have hres : ((runParF cfg steps (w.threads ++ gs) fs).1[n]?).bind Prog.outcome = some r := by
    rw [h2.at hlt]; exact h
  have hresp : responded cfg ext lib auth x.env x.texts x.req fs = (run cfg (hyperCall cfg ext lib auth x.env x.texts x.req) fs).1 := rfl
  have hafter : afterResponded cfg ext lib auth x.env x.texts x.req fs = (run cfg (hyperCall cfg ext lib auth x.env x.texts x.req) fs).2 := rfl
  have hwl : WF (w.leaves cfg fs) := by rw [← h2.leaves]; exact runParF_wf hw
  rcases put_shape cfg ext hb hk with ⟨hna, e, hfail⟩ | ⟨hacc, g, hg⟩
  · -- refused before anything happens: as a request that only looks at the object
    have hoH : AboutObjects (.headObject i.bucket i.key) := ⟨trivial, fun b k hu => by cases hu; exact ⟨hb, cs, hk⟩, trivial⟩
    have hsafe : Safe (localCall (region cfg (.headObject i.bucket i.key))) (fun _ => True) (hyperCall cfg ext lib auth x.env x.texts x.req) := by
      rw [hall]
      refine hthr.2 _ _ ?_
      simp only [opProg, hfail]
      trivial
    obtain ⟨e1, e2, _⟩ := rest_alone (cfg := cfg) hoH hw (folders_dirs hw ⟨hfree.root, fun _ _ _ hu => hu.elim⟩) hsteps
      (fun j g hj hg => (hoths j g hj hg).mono (fun c ⟨o', h', hc⟩ => ⟨o', ⟨h'.tidy, fun b k hu => by cases hu; exact h'.objects _ _ rfl, fun _ _ hu => hu.elim⟩, hc⟩)
        fun _ h => h) hqn hsafe hp hres
    rw [h2.leaves] at e2
    obtain ⟨e3, _⟩ := region_match (ext := ext) hoH hwl e2
    exact ⟨e1, (e3 _ _ rfl).1, (e3 _ _ rfl).2, fun h => absurd h hna⟩
  · have hshape : hyperCall cfg ext lib auth x.env x.texts x.req = wrap x.texts c (Op.putObject i).handler
        ((createDirAllRev (cfg.root ++ i.bucket :: cs.dropLast).reverse).bind fun u => (g u).bind fun t => .ret (.etag t)) := by
      rw [hall, ← bind_assoc, ← hg]; rfl
    have hwp := folders_made (cfg := cfg) hb hk hw hfree
    obtain ⟨steps', ps', q', a', h3, h4, h5, ⟨_, h6, h7⟩, h8, h9, h10⟩ := phase (cfg := cfg) (rely_put _ _) (n := n)
      (ok := fun _ c => ∃ o', Elsewhere (.putObject i) o' ∧ (opPerm cfg o').ok c)
      (fun j fs c f _ hwf ⟨o', ho', hc⟩ => put_rely hb hk ho' hwf hc f) hthr.1 (fun _ _ h => h.1) steps hw hoths hqn (hshape ▸ hp)
      (solid_createDirAllRev _) hwp hsteps hres
    have hb1 := wp_run hw (wp_anti (R' := fun a b => a = b) (fun a b _ _ e => e ▸ (rely_put _ _).refl _) hw hwp)
    have hwb := run_wf cfg (createDirAllRev (cfg.root ++ i.bucket :: cs.dropLast).reverse) hw
    have hrun := run_phase (cfg := cfg) hthr.1 (g := fun u => (g u).bind fun t => .ret (.etag t)) _ hb1.1
    rw [← hshape] at hrun
    have hrest : Safe (localCall (region cfg (.putObject i))) (fun _ => True)
        (wrap x.texts c (Op.putObject i).handler ((g ()).bind fun t => .ret (.etag t))) := by
      refine hthr.2 _ _ (Safe.mono (fun c hc => op_local ho hc) (fun _ h => h) ?_)
      refine safe_rest (cfg := cfg) (g := fun u => (g u).bind fun t => .ret (Answer.etag t)) ?_ hw hb1.1
      rw [← bind_assoc, ← hg]
      exact op_safe cfg ext (.putObject i)
    rw [h3] at hres
    obtain ⟨e1, e2, e3⟩ := rest_alone (cfg := cfg) ho h5 (made_dirs hk h5 h6) (fun f hf => hsteps f (h4 _ hf)) h8 h9 hrest h10 hres
    obtain ⟨e4, e5⟩ := run_match cfg hrest hwb (new_match hb hk h5 hwb h7 hb1.2.2 (made_dirs hk h5 h6) (made_dirs hk hwb hb1.2.1))
    rw [← h3, h2.leaves] at e2 e3
    obtain ⟨e6, _⟩ := region_match (ext := ext) ho hwl (e2.trans e5)
    rw [hresp, hafter, hrun]
    exact ⟨e1.trans e4, (e6 _ _ rfl).1, (e6 _ _ rfl).2, fun _ => e3 _ (.inr ⟨_, _, cs, rfl, hk, lastFolder_above hk⟩)⟩

end S3
