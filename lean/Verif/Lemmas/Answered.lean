import Verif.Lemmas.Fair
/-! Requests under unending schedules. -/
namespace S3
open Spec

variable {cfg : Cfg} {ext : Ext} {lib : Lib} {auth : Option Provider} {env : Env}

/-- the operation with another bound on the number of directories visited -/
def Op.within (n : Nat) : Op → Op
  | .listObjects b p _ => .listObjects b p n
  | .listObjectsV2 b p _ => .listObjectsV2 b p n
  | o => o

theorem extract_within (n : Nat) (c : Ctx) (h : Handler) :
    extract lib (atMost env n) c h = (extract lib (atMost env 0) c h).bind fun o => .ret (o.within n) := by
  cases h <;> simp only [extract, bind_eq, pure_eq, prog_bind_assoc, atMost, Prog.bind, Op.within]
  congr 1; funext bk; congr 1; funext source
  split <;> rfl

/-- a request is a program that does not depend on the bound, or a listing -/
theorem handle_cases (cfg : Cfg) (ext : Ext) (lib : Lib) (auth : Option Provider) (env : Env) (r : Req) :
    (∃ p, (∀ n, handle cfg ext lib auth (atMost env n) r = p) ∧ (Ends False (fun _ => True) p ∨ p = .panic)) ∨
    ∃ base pfx K, (∀ l, Quiet cfg (K l)) ∧ (∀ l, Ends False (fun _ => True) (K l)) ∧
      ∀ n, handle cfg ext lib auth (atMost env n) r = (listLoop cfg base pfx n [base]).bind K := by
  cases hc : admit lib auth r with
  | error e => exact .inl ⟨.fail e, fun n => handle_error hc, .inl trivial⟩
  | ok c =>
    simp only [handle_ok hc]
    by_cases hp : c.method = b!"PUT" ∧ c.path = .root ∧ (c.query b!"partNumber").isSome = true ∧ (c.query b!"uploadId").isSome = true
    · exact .inl ⟨.panic, fun n => dispatch_panic hp, .inr rfl⟩
    · simp only [dispatch]
      split
      · exact .inl ⟨_, fun n => rfl, .inl trivial⟩
      · cases hf : findHandler c with
        | none => exact .inl ⟨_, fun n => rfl, .inl trivial⟩
        | some h =>
          have hm := find_first hf
          have hpart : h = .uploadPart → c.path.isObject = true := by
            rintro rfl
            simp only [isMatch, Bool.and_eq_true, beq_iff_eq] at hm
            rcases part_at_root hf with h1 | h1
            · exact h1
            · exact absurd ⟨hm.1.1, h1, hm.1.2, hm.2⟩ hp
          have ht := extract_total (lib := lib) (env := atMost env 0) hm hpart
          have hn : ∀ n, runHandler cfg ext lib (atMost env n) c h =
              (extract lib (atMost env 0) c h).bind fun o => (opProg cfg ext (o.within n)).bind (respond h) := by
            intro n
            rw [runHandler, extract_within, prog_bind_assoc]; rfl
          simp only [hn]
          cases he : extract lib (atMost env 0) c h with
          | fail e => exact .inl ⟨_, fun n => rfl, .inl trivial⟩
          | panic => rw [he] at ht; exact ht.elim
          | diverge => rw [he] at ht; exact ht.elim
          | sys c k => rw [he] at ht; exact ht.elim
          | ret o =>
            simp only [Prog.bind]
            have hquiet : ∀ a, Quiet cfg (respond h a) := by
              intro a; simp only [respond]; split <;> trivial
            have hends : ∀ a, Ends False (fun _ => True) (respond h a) := fun a => fails_respond trivial h a
            cases o with
            | listObjects b pfx f =>
              simp only [Op.within, opProg, listObjects, bind_eq, pure_eq]
              cases hb : bucketPath cfg b with
              | none => exact .inl ⟨_, fun n => rfl, .inl trivial⟩
              | some p =>
                refine .inr ⟨p.comps, pfx, fun l => respond h (.objects (isort objLe l)), fun l => hquiet _, fun l => hends _, fun n => ?_⟩
                simp only [orInternal, Prog.bind, prog_bind_assoc]
            | listObjectsV2 b pfx f =>
              simp only [Op.within, opProg, listObjectsV2, bind_eq, pure_eq]
              cases hb : bucketPath cfg b with
              | none => exact .inl ⟨_, fun n => rfl, .inl trivial⟩
              | some p =>
                simp only [orInternal, Prog.bind, prog_bind_assoc]
                refine .inr ⟨p.comps, pfx, _, fun l => ?_, fun l => ?_, fun n => rfl⟩
                · split
                  · exact hquiet (.objectsV2 _ _)
                  · trivial
                · split
                  · exact hends (.objectsV2 _ _)
                  · trivial
            | _ =>
              simp only [Op.within]
              refine .inl ⟨_, fun n => rfl, .inl ?_⟩
              exact Ends.bind (((ends_op cfg ext _).mono fun _ _ => trivial).weaken (fun h => nomatch h)) fun a => hends a

/-- every request that comes up again and again ends, and with a large enough bound it does not run out of fuel -/
theorem all_handled (cfg : Cfg) (ext : Ext) (lib : Lib) (auth : Option Provider) (env : Env) (rs : List Req) (σ : Nat → Nat)
    (fs : FS) : ∃ N, ∀ i, i < rs.length → KeepsRunning σ i → ∃ T p, p.done = true ∧ p ≠ .diverge ∧ ∀ n, N ≤ n →
      (runPar cfg (firstSteps σ T) (rs.map (handle cfg ext lib auth (atMost env n))) fs).1[i]? = some p := by
  let ps : Nat → List (Prog Reply) := fun n => rs.map (handle cfg ext lib auth (atMost env n))
  have hlen : ∀ n, (ps n).length = rs.length := fun n => by simp [ps]
  have hget : ∀ n i (hi : i < rs.length), (ps n)[i]? = some (handle cfg ext lib auth (atMost env n) rs[i]) := by
    intro n i hi; simp [ps, hi]
  have hsame : ∀ n, trees cfg σ (ps n) fs = trees cfg σ (ps 0) fs := by
    intro n
    funext t
    refine trees_alike t (by rw [hlen, hlen]) fun i p q hp hq => ?_
    have hi : i < rs.length := by
      obtain ⟨h, _⟩ := List.getElem?_eq_some_iff.mp hp
      rwa [hlen] at h
    rw [hget n i hi] at hp
    rw [hget 0 i hi] at hq
    cases hp; cases hq
    rcases handle_cases cfg ext lib auth env rs[i] with ⟨p, hp, _⟩ | ⟨base, pfx, K, hq, _, hl⟩
    · exact .inl ((hp n).trans (hp 0).symm)
    · rw [hl n, hl 0]
      exact .inr ⟨Quiet.bind (quiet_listLoop ..) hq, Quiet.bind (quiet_listLoop ..) hq⟩
  obtain ⟨T, hT⟩ := trees_rest (cfg := cfg) σ (ps 0) fs
  obtain ⟨N, hN⟩ := all_of_each (n := rs.length)
    (P := fun i n => ∀ t p, (runPar cfg (firstSteps σ t) (ps n) fs).1[i]? = some p → p ≠ .diverge) (by
    intro i hi
    rcases handle_cases cfg ext lib auth env rs[i] with ⟨p, hp, he⟩ | ⟨base, pfx, K, hq, he, hl⟩
    · refine ⟨0, fun n _ t q hq => ?_⟩
      rw [adv_par (hget n i hi) t, hp n] at hq
      cases hq
      rcases he with he | rfl
      · exact adv_ne_diverge he _ _ _ _
      · rw [adv_done rfl]; intro h; cases h
    · obtain ⟨N, hN⟩ := adv_listing (cfg := cfg) (F := trees cfg σ (ps 0) fs T) (base := base) (pfx := pfx) i T (σ := σ) (G := trees cfg σ (ps 0) fs)
        hT (P := .ret ([base], [])) (ds := fun x => x.1) (K := fun _ l => K l) trivial trivial (fun _ l => hq l) (fun _ l => he l)
      refine ⟨N, fun n hn t q hq => ?_⟩
      rw [adv_par (hget n i hi) t, hl n, hsame n] at hq
      cases hq
      exact hN n hn t)
  refine ⟨N, fun i hi hσ => ?_⟩
  obtain ⟨T', hT'⟩ := thread_ends (cfg := cfg) (ps := ps N) (by rw [hlen]; exact hi) hσ fs
  obtain ⟨p, h1, h2⟩ := hT' T' (Nat.le_refl _)
  have h3 := hN N (Nat.le_refl _) i hi T' p h1
  refine ⟨T', p, h2, h3, fun n hn => ?_⟩
  rw [adv_par (hget N i hi) T', hsame N] at h1
  show (runPar cfg (firstSteps σ T') (ps n) fs).1[i]? = some p
  rw [adv_par (hget n i hi) T', hsame n]
  have hx : Extends (handle cfg ext lib auth (atMost env N) rs[i]) (handle cfg ext lib auth (atMost env n) rs[i]) := by
    rcases handle_cases cfg ext lib auth env rs[i] with ⟨p, hp, _⟩ | ⟨base, pfx, K, _, _, hl⟩
    · rw [hp N, hp n]; exact .refl _
    · rw [hl N, hl n]; exact (extends_listLoop hn _).bind fun _ => .refl _
  have := hx.adv (cfg := cfg) i T' σ (trees cfg σ (ps 0) fs)
  cases h1
  exact congrArg some (this.done h2 h3)

end S3
