import Verif.Lemmas.PutOk
import Verif.Lemmas.Crash
import Verif.Lemmas.DelCopy
import Verif.Props.Frame
/-! Part files: uploading and assembling. -/
namespace S3
open Spec

variable {cfg : Cfg} {ext : Ext}

theorem intDigits_bytes (n : Int) : ∀ c ∈ intDigits n, c = 45 ∨ isDigit c = true := by
  intro c hc
  cases n with
  | ofNat m => exact .inr ((natDigits_spec m).2.1 c hc)
  | negSucc m =>
    simp only [intDigits, List.mem_cons] at hc
    rcases hc with h | h
    · exact .inl h
    · exact .inr ((natDigits_spec (m + 1)).2.1 c h)

theorem intDigits_inj {a b : Int} (h : intDigits a = intDigits b) : a = b := by
  have hm : ∀ m, (45 : UInt8) ∉ natDigits m := by
    intro m hx
    have := (natDigits_spec m).2.1 _ hx
    revert this; decide
  cases a with
  | ofNat m =>
    cases b with
    | ofNat n => rw [natDigits_inj h]
    | negSucc n =>
      simp only [intDigits] at h
      exact absurd (by rw [h]; simp) (hm m)
  | negSucc m =>
    cases b with
    | ofNat n =>
      simp only [intDigits] at h
      exact absurd (by rw [← h]; simp) (hm n)
    | negSucc n =>
      simp only [intDigits, List.cons.injEq, true_and] at h
      have := natDigits_inj h
      rw [show m = n by omega]

/-- two texts that end after the last `.` in the same way are split there in the same way -/
theorem split_last_dot {c : UInt8} {s s' t t' : Bytes} (h : s ++ c :: t = s' ++ c :: t') (ht : c ∉ t) (ht' : c ∉ t') :
    s = s' ∧ t = t' := by
  rcases List.append_eq_append_iff.mp h with ⟨x, h1, h2⟩ | ⟨x, h1, h2⟩
  · cases x with
    | nil => simp at h1 h2; exact ⟨h1.symm, h2⟩
    | cons y x =>
      simp only [List.cons_append, List.cons.injEq] at h2
      exact absurd (by rw [h2.2]; simp) ht
  · cases x with
    | nil => simp at h1 h2; exact ⟨h1, h2.symm⟩
    | cons y x =>
      simp only [List.cons_append, List.cons.injEq] at h2
      exact absurd (by rw [h2.2]; simp) ht'

theorem partName_inj {u u' : Bytes} {n n' : Int} (h : partName u n = partName u' n') : u = u' ∧ n = n' := by
  have e : ∀ (u : Bytes) n, partName u n = (b!".upload_id-" ++ u) ++ 46 :: (b!"part-" ++ intDigits n) := by
    intro u n; simp [partName]
  rw [e, e] at h
  have hd : ∀ n, (46 : UInt8) ∉ b!"part-" ++ intDigits n := by
    intro n hx
    rcases List.mem_append.mp hx with hx | hx
    · revert hx; decide
    · rcases intDigits_bytes n _ hx with h | h <;> revert h <;> decide
  obtain ⟨h1, h2⟩ := split_last_dot h (hd n) (hd n')
  exact ⟨List.append_cancel_left h1, intDigits_inj (List.append_cancel_left h2)⟩

/-- the file of an uploaded part -/
def Spec.partFile (cfg : Cfg) (u : Bytes) (n : Int) : Path := cfg.root ++ [partName u n]

theorem partFile_inj {u u' : Bytes} {n n' : Int} (h : partFile cfg u n = partFile cfg u' n') : u = u' ∧ n = n' := by
  have := List.append_cancel_left (show cfg.root ++ [partName u n] = cfg.root ++ [partName u' n'] from h)
  simp only [List.cons.injEq, and_true] at this
  exact partName_inj this

theorem plain_not_part {b k u : Bytes} {cs : List Bytes} {n : Int} (hb : checkBucketName b = true) (hk : PlainKey k cs)
    {q : Path} (h : objP cfg b k q) : q ≠ partFile cfg u n := by
  rw [objP_plain hb hk] at h
  subst h
  intro e
  have := List.append_cancel_left (show cfg.root ++ (b :: cs) = cfg.root ++ [partName u n] from e)
  simp only [List.cons.injEq] at this
  exact hk.nonempty this.2

theorem safe_copyBytes_own {i : Ino} {P : Path} (h : i.path = P) (body : Body) (off : Nat) :
    Safe (writeOk (· = P) (fun _ => False)) (fun _ => True) (copyBytes i off body) := by
  refine (safe_copyBytes (π := { wr := (· = P) }) (by exact h) body off).mono ?_ (fun _ h => h)
  intro c hc
  cases c <;> first | exact hc | trivial | exact absurd hc (fun h => h)

theorem Frame.mono {own own' up up' : Path → Prop} {a b : FS} (h : Frame own up a b) (h1 : ∀ q, own q → own' q)
    (h2 : ∀ q, up q → up' q) : Frame own' up' a b :=
  ⟨fun q hq => (h.node q fun h => hq (h1 q h)).imp id fun ⟨x, y⟩ => ⟨h2 q x, y⟩,
    fun i hi => h.data i fun h => hi (h1 _ h), fun q hq => h.gen q fun h => hq (h1 q h)⟩

/-- what an accepted UploadPart does -/
theorem uploadPart_run {u : Bytes} (hu : (47 : UInt8) ∉ u) {n : Int} {body : Body} {fs fs' : FS} (hw : WF fs) {e : Bytes}
    (h : run cfg (uploadPart cfg ext u n (some body)) fs = (.ok e, fs')) :
    unbroken body ∧ e = quoted (ext.md5hex (received body)) ∧
      contentAt fs' (partFile cfg u n) = some (received body) ∧
      Frame (· = partFile cfg u n) (fun _ => False) fs fs' := by
  simp only [uploadPart, partPath_eq cfg hu, bind_eq, pure_eq, run_orInternal_some] at h
  rw [run_call1] at h
  have hw1 := exec_wf cfg hw (.create ⟨cfg.root ++ [partName u n], false⟩)
  have hf1 : Frame (· = partFile cfg u n) (fun _ => False) fs (exec cfg fs (.create ⟨cfg.root ++ [partName u n], false⟩)).2 :=
    exec_frame cfg hw (by exact rfl)
  cases hc : (exec cfg fs (.create ⟨cfg.root ++ [partName u n], false⟩)).1 with
  | none => rw [hc] at h; cases h
  | some i =>
    rw [hc] at h
    have hh := (exec_create_snd hc).1
    simp only [run_orInternal_some] at h
    obtain ⟨c, fs2, h1, h2⟩ := run_bind_ok h
    cases h2
    have hq := wp_run hw1 (copyBytes_wp (cfg := cfg) rely_eq (own := fun _ => True) (fun a b _ _ e => by subst e; exact (rely_keepFiles _).refl a)
      trivial body hw1 hh)
    rw [show ([] : Bytes).length = 0 from rfl, h1] at hq
    have hip : i.path = partFile cfg u n := (hw1.ino _ _ hh.node).1
    have hf2 := (safe_copyBytes_own hip body 0).frame cfg hw1
    rw [h1] at hf2
    obtain ⟨h3, h4⟩ := hq
    rcases h4 with ⟨h5, h6⟩ | ⟨_, h6⟩
    · cases h6
      exact ⟨h5, rfl, by have := h3.content; rw [List.nil_append] at this; exact this, hf1.trans hf2⟩
    · cases h6

/-- an UploadPart whose body arrives is accepted when the part file can be written -/
theorem uploadPart_ok {u : Bytes} (hu : (47 : UInt8) ∉ u) {n : Int} {body : Body} (hb : unbroken body) {fs : FS} (hw : WF fs)
    (hr : Writable cfg.root (partName u n) fs) :
    ∃ e, (run cfg (uploadPart cfg ext u n (some body)) fs).1 = .ok e := by
  simp only [uploadPart, partPath_eq cfg hu, bind_eq, pure_eq, run_orInternal_some]
  rw [run_call1]
  obtain ⟨i, hc⟩ := exec_create_ok (cfg := cfg) hr
  have hw1 := exec_wf cfg hw (.create ⟨cfg.root ++ [partName u n], false⟩)
  have hh := (exec_create_snd hc).1
  rw [hc]
  simp only [run_orInternal_some]
  have hq := wp_run hw1 (copyBytes_wp (cfg := cfg) rely_eq (own := fun _ => True) (fun a b _ _ e => by subst e; exact (rely_keepFiles _).refl a)
      trivial body hw1 hh)
  rw [show ([] : Bytes).length = 0 from rfl] at hq
  rw [run_bind]
  obtain ⟨_, h4⟩ := hq
  rcases hx : run cfg (copyBytes i 0 body) (exec cfg fs (.create ⟨cfg.root ++ [partName u n], false⟩)).2 with ⟨o, fs2⟩
  rw [hx] at h4
  rcases h4 with ⟨_, h6⟩ | ⟨h5, _⟩
  · simp only at h6
    rw [h6]
    exact ⟨_, rfl⟩
  · exact absurd hb h5

/-- one step of assembling: the part is appended and its file removed -/
theorem completeLoop_cons {u : Bytes} (hu : (47 : UInt8) ∉ u) {ino : Ino} {cnt : Int} {off : Nat} {n : Int}
    {rest : List (Option Int)} {fs : FS} :
    run cfg (completeLoop cfg u ino cnt off (some n :: rest)) fs =
      if n ≠ cnt + 1 then (.err .InternalError, fs)
      else match fs.lookup (partFile cfg u n) with
        | some (.file i) =>
          run cfg (completeLoop cfg u ino (cnt + 1) (off + (fs.data i).length) rest)
            ((exec cfg fs (.writeAt ino off (fs.data i))).2.erase (partFile cfg u n))
        | _ => (.err .InternalError, fs) := by
  simp only [completeLoop, bind_eq, run_orInternal_some]
  split
  · rfl
  · rw [partPath_eq cfg hu]
    simp only [run_orInternal_some, run_open_bind, at_false]
    change run cfg ((orInternal ((fs.lookup (partFile cfg u n)).map Node.handle)).bind _) fs = _
    cases hl : fs.lookup (partFile cfg u n) with
    | none => rfl
    | some x =>
      cases x with
      | dir => rfl
      | file i =>
        simp only [Option.map_some, Node.handle, run_orInternal_some]
        rw [run_readAll_bind]
        simp only [run_orInternal_some]
        rw [run_call1]
        simp only [exec, if_true]
        rw [run_call1]
        have hx : exec cfg (fs.setData ino (splice (fs.data ino) off (fs.data i))) (.unlink ⟨cfg.root ++ [partName u n], false⟩)
            = (true, (fs.setData ino (splice (fs.data ino) off (fs.data i))).erase (partFile cfg u n)) := by
          simp only [exec, at_false, lookup_setData]
          rw [show fs.lookup (cfg.root ++ [partName u n]) = _ from hl]
          rfl
        rw [hx]
        rfl

theorem Has.erase {fs : FS} {p q : Path} {i : Ino} {c : Bytes} (h : Has fs p i c) (hne : p ≠ q) : Has (fs.erase q) p i c := by
  refine ⟨?_, h.data⟩
  rw [lookup_erase, if_neg hne]
  split
  · rename_i e
    have := h.node
    rw [e, lookup_nil] at this; cases this
  · exact h.node

theorem Spec.WF.of_file {fs : FS} (hw : WF fs) {p : Path} {i : Ino} (h : fs.lookup p = some (.file i)) : i.path = p :=
  (hw.ino p i h).1

/-- the file tree after one assembled part -/
theorem assemble_step {u : Bytes} {ino : Ino} {n : Int} {O : Path} (hO : ∀ m, O ≠ partFile cfg u m) {fs : FS} (hw : WF fs)
    {c : Bytes} (h : Has fs O ino c) {i : Ino} (hi : fs.lookup (partFile cfg u n) = some (.file i)) :
    WF ((exec cfg fs (.writeAt ino c.length (fs.data i))).2.erase (partFile cfg u n)) ∧
    Has ((exec cfg fs (.writeAt ino c.length (fs.data i))).2.erase (partFile cfg u n)) O ino (c ++ fs.data i) ∧
    ((exec cfg fs (.writeAt ino c.length (fs.data i))).2.erase (partFile cfg u n)).lookup (partFile cfg u n) = none ∧
    Frame (fun q => q = O ∨ q = partFile cfg u n) (fun _ => False) fs
      ((exec cfg fs (.writeAt ino c.length (fs.data i))).2.erase (partFile cfg u n)) := by
  have hw1 := exec_wf cfg hw (.writeAt ino c.length (fs.data i))
  have h1 := h.write (cfg := cfg) c.length (fs.data i)
  rw [splice_end] at h1
  have hl1 : (exec cfg fs (.writeAt ino c.length (fs.data i))).2.at ⟨partFile cfg u n, false⟩ = some (.file i) := by
    rw [at_false]; exact hi
  have hu : exec cfg (exec cfg fs (.writeAt ino c.length (fs.data i))).2 (.unlink ⟨partFile cfg u n, false⟩)
      = (true, (exec cfg fs (.writeAt ino c.length (fs.data i))).2.erase (partFile cfg u n)) := by
    simp only [exec] at hl1
    simp only [exec, hl1]
  have hw2 := exec_wf cfg hw1 (.unlink ⟨partFile cfg u n, false⟩)
  rw [hu] at hw2
  have hf1 : Frame (fun q => q = O ∨ q = partFile cfg u n) (fun _ => False) fs (exec cfg fs (.writeAt ino c.length (fs.data i))).2 :=
    exec_frame cfg hw (show ino.path = O ∨ ino.path = _ from .inl (hw.of_file h.node))
  have hf2 : Frame (fun q => q = O ∨ q = partFile cfg u n) (fun _ => False) (exec cfg fs (.writeAt ino c.length (fs.data i))).2 _ :=
    exec_frame cfg hw1 (c := .unlink ⟨partFile cfg u n, false⟩) (Or.inr rfl)
  rw [hu] at hf2
  refine ⟨hw2, h1.erase (hO n), ?_, hf1.trans hf2⟩
  rw [lookup_erase, if_neg (by simp [partFile]), if_pos rfl]

/-- the numbers `cnt+1, …, cnt+len` -/
def Spec.numbers (cnt : Int) : Nat → List (Option Int)
  | 0 => []
  | k + 1 => some (cnt + 1) :: numbers (cnt + 1) k

/-- assembling all parts -/
theorem completeLoop_run {u : Bytes} (hu : (47 : UInt8) ∉ u) {ino : Ino} {O : Path} (hO : ∀ m, O ≠ partFile cfg u m)
    (contents : List Bytes) :
    ∀ {cnt : Int} {fs : FS} {c : Bytes}, WF fs → Has fs O ino c →
      (∀ (j : Nat) d, contents[j]? = some d → contentAt fs (partFile cfg u (cnt + 1 + j)) = some d) →
      ∃ fs', run cfg (completeLoop cfg u ino cnt c.length (numbers cnt contents.length)) fs = (.ok (), fs') ∧ WF fs' ∧
        Has fs' O ino (c ++ contents.flatten) ∧
        (∀ j : Nat, j < contents.length → fs'.lookup (partFile cfg u (cnt + 1 + j)) = none) ∧
        Frame (fun q => q = O ∨ ∃ j : Nat, j < contents.length ∧ q = partFile cfg u (cnt + 1 + j)) (fun _ => False) fs fs' := by
  induction contents with
  | nil =>
    intro cnt fs c hw h _
    exact ⟨fs, rfl, hw, by simpa using h, by simp, Frame.refl ..⟩
  | cons d ds ih =>
    intro cnt fs c hw h hc
    have h0 := hc 0 d rfl
    simp only [contentAt, Int.natCast_zero, Int.add_zero] at h0
    split at h0
    · rename_i i hi
      have hd : fs.data i = d := Option.some.inj h0
      obtain ⟨hw2, h2, hg, hf⟩ := assemble_step hO hw h hi
      simp only [List.length_cons, numbers]
      rw [completeLoop_cons hu, if_neg (by simp), hi]
      simp only
      rw [show c.length + (fs.data i).length = (c ++ fs.data i).length by simp]
      have hc' : ∀ (j : Nat) d', ds[j]? = some d' → contentAt ((exec cfg fs (.writeAt ino c.length (fs.data i))).2.erase (partFile cfg u (cnt + 1)))
          (partFile cfg u (cnt + 1 + 1 + j)) = some d' := by
        intro j d' hj
        have := hc (j + 1) d' (by simpa using hj)
        rw [content_frame hw hf]
        · rw [← this]; congr 2; omega
        · rintro (e | e)
          · exact hO _ e.symm
          · have := (partFile_inj e).2; omega
      obtain ⟨fs', r1, r2, r3, r4, r5⟩ := ih hw2 h2 hc'
      refine ⟨fs', r1, r2, ?_, ?_, ?_⟩
      · rw [hd] at r3; simpa [List.append_assoc] using r3
      · intro j hj
        cases j with
        | zero =>
          rcases r5.node (partFile cfg u (cnt + 1 + (0 : Nat))) (by
            rintro (e | ⟨j, _, e⟩)
            · exact hO _ e.symm
            · have := (partFile_inj e).2; omega) with h | h
          · rw [h]; simpa using hg
          · exact absurd h.1 id
        | succ j =>
          have := r4 j (by simpa using hj)
          rw [← this]; congr 2; omega
      · have hf' : Frame (fun q => q = O ∨ ∃ j : Nat, j < (d :: ds).length ∧ q = partFile cfg u (cnt + 1 + j)) (fun _ => False) fs
            ((exec cfg fs (.writeAt ino c.length (fs.data i))).2.erase (partFile cfg u (cnt + 1))) := by
          refine hf.mono ?_ (fun _ h => h)
          rintro q (e | e)
          · exact .inl e
          · exact .inr ⟨0, by simp, by rw [e]; simp⟩
        refine hf'.trans (r5.mono ?_ (fun _ h => h))
        rintro q (e | ⟨j, hj, e⟩)
        · exact .inl e
        · refine .inr ⟨j + 1, by simpa using hj, ?_⟩
          rw [e]; congr 1; omega
    · cases h0

end S3
