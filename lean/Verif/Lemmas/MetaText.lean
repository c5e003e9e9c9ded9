import Verif.Lemmas.Served
import Verif.Spec.Ops
/-! The metadata of a request are texts. -/
namespace S3
open Spec

theorem utf8Valid_ascii : ∀ {s : Bytes}, (∀ b ∈ s, b < 128) → utf8Valid s = true
  | [], _ => by rw [utf8Valid]
  | a :: r, h => by
    rw [utf8Valid]
    have ha : a < 128 := h a (by simp)
    simp only [utf8Step, if_pos ha]
    rw [if_neg (by decide)]
    exact utf8Valid_ascii (s := r) fun b hb => h b (by simp [hb])

/-- the header values of an admitted request are ASCII -/
theorem admitted_ascii {lib : Lib} {auth : Option Provider} {r : Req} {c : Ctx} (h : admit lib auth r = .ok c) {n v : Bytes}
    (hv : (n, v) ∈ r.headers) : ∀ b ∈ v, b < 128 := by
  obtain ⟨c0, hm, _⟩ := admit_ok.mp h
  have := hm.headers
  simp only [orderedHeaders] at this
  split at this
  · rename_i hall
    simp only [List.all_eq_true] at hall
    have hok := hall _ hv
    simp only [toStrOk, List.all_eq_true] at hok
    intro b hb
    have := hok b hb
    revert this
    revert b
    intro b hb
    revert b
    have : ∀ b : UInt8, (!((32 ≤ b && b < 127) || b == 9) || decide (b < 128)) = true := by apply forall_byte; decide +kernel
    intro b _ h
    have := this b
    simp only [Bool.or_eq_true, Bool.not_eq_true', decide_eq_true_eq, Bool.or_eq_false_iff] at this h
    rcases this with h' | h'
    · rcases h with h | h
      · rw [h] at h'; cases h'.1
      · rw [h] at h'; cases h'.2
    · exact h'
  · cases this

theorem partsLoop_utf8 (pat : Bytes) : ∀ (n : Nat) (fields : List (Bytes × Bytes)) (s : Bytes), (∀ p ∈ fields, utf8Valid p.2 = true) →
    ∀ {fs : List (Bytes × Bytes)} {fn ct rest : Bytes}, partsLoop pat n fields s = .form fs fn ct rest → ∀ p ∈ fs, utf8Valid p.2 = true
  | 0, _, _, _ => by intro h; cases h
  | n + 1, fields, s, hf => by
    intro h
    simp only [partsLoop] at h
    repeat' split at h
    all_goals first
      | cases h; done
      | skip
    · rename_i hu
      refine partsLoop_utf8 pat n _ _ ?_ h
      intro p hp
      rcases List.mem_append.mp hp with hp | hp
      · exact hf p hp
      · simp only [List.mem_cons, List.not_mem_nil, or_false] at hp
        subst hp
        simpa using hu
    · injection h with h1 _ _ _
      subst h1
      exact hf

theorem tryParse_utf8 {boundary buf : Bytes} {fs : List (Bytes × Bytes)} {fn ct rest : Bytes} (h : tryParse boundary buf = .form fs fn ct rest) :
    ∀ p ∈ fs, utf8Valid p.2 = true := by
  simp only [tryParse] at h
  repeat' split at h
  all_goals first
    | cases h; done
    | exact partsLoop_utf8 _ _ _ _ (by simp) h

theorem transformLoop_utf8 {boundary : Bytes} : ∀ (body : Body) (buf : Bytes) {f : Form}, transformLoop boundary buf body = .ok f →
    ∀ p ∈ f.fields, utf8Valid p.2 = true
  | [], _, _, h => by cases h
  | none :: _, _, _, h => by cases h
  | some b :: rest, buf, f, h => by
    simp only [transformLoop] at h
    split at h
    · exact transformLoop_utf8 rest _ h
    · cases h
    · rename_i hp
      cases h
      exact tryParse_utf8 hp

/-- the field values of a form are texts -/
theorem uploadsForm_utf8 {lib : Lib} {r : Req} {f : Form} (h : UploadsForm lib r f) {n v : Bytes} (hp : (n, v) ∈ f.fields) : utf8Valid v = true := by
  obtain ⟨_, _, h⟩ := h
  exact transformLoop_utf8 _ _ h _ hp

theorem sendable_name {n v : Bytes} (h : Sendable (b!"x-amz-meta-" ++ n) v) : utf8Valid n = true := by
  apply utf8Valid_ascii
  intro b hb
  have := (h.2.2.1 b (by simp [hb])).1
  have key : ∀ b : UInt8, (!isTchar b || decide (b < 128)) = true := by apply forall_byte; decide +kernel
  have h2 := key b
  rw [this] at h2
  simpa using h2

/-- the metadata of an upload, if they can be sent back -/
theorem requests_validMeta {lib : Lib} {auth : Option Provider} {env : Env} {r : Req} {c : Ctx} (hc : admit lib auth r = .ok c) {i : PutInput}
    (hr : Requests lib env r c.body (.putObject i)) (hsend : ∀ l, i.metadata = some l → ∀ p ∈ l, utf8Valid p.1 = true) :
    ∀ m, i.metadata = some m → ValidMeta m := by
  intro m hm
  have hn := hsend m hm
  have header : MetaOf (headerMeta r) i.metadata → ValidMeta m := by
    intro h
    rw [hm] at h
    exact ⟨h.2.1, fun p hp => ⟨hn p hp, utf8Valid_ascii (admitted_ascii hc ((h.2.2 p.1 p.2).mp hp).2)⟩⟩
  generalize ho : Op.putObject i = o at hr
  cases hr <;> cases ho
  · rename_i hform _ _ _ _ hfm hhm he _ _ _
    rcases he with ⟨_, rfl⟩ | ⟨_, rfl⟩
    · exact header hhm
    · simp only at hm
      rw [hm] at hfm
      refine ⟨hfm.2.1, fun p hp => ⟨hn p hp, ?_⟩⟩
      obtain ⟨_, _, a, n, b, e, _⟩ := (hfm.2.2 p.1 p.2).mp hp
      exact uploadsForm_utf8 hform (n := n) (by rw [e]; simp)
  · rename_i h _
    exact header h

end S3
