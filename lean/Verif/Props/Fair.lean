import Verif.Lemmas.Answered
import Verif.Props.Response
/-! C94: every request is answered, whatever becomes of the others. -/
namespace S3
open Spec

variable (cfg : Cfg) (ext : Ext) (lib : Lib) (auth : Option Provider) (env : Env)

/-- **C94** Any requests, under any unending schedule: each request that comes up again and again is answered after finitely many steps, with
one response, even if the others never make another step; the listings among them visit a bounded number of directories. Not
answered are the requests of C56, which panic. -/
theorem C94_answered (js : List (Texts × Req)) (σ : Nat → Nat) (fs : FS) : ∃ N, ∀ i x r, js[i]? = some (x, r) →
    KeepsRunning σ i → ¬ (r.method = b!"PUT" ∧ At r .root ∧ HasParam r b!"partNumber" ∧ HasParam r b!"uploadId") →
    ∃ T res, ∀ n, N ≤ n → ∀ t, T ≤ t → responseAt cfg ext lib auth (atMost env n) js (firstSteps σ t) fs i = some (.ok res) := by
  obtain ⟨N, hN⟩ := all_handled cfg ext lib auth env (js.map (·.2)) σ fs
  refine ⟨N, fun i x r hi hσ hp => ?_⟩
  have hlt : i < (js.map (·.2)).length := by
    obtain ⟨h, _⟩ := List.getElem?_eq_some_iff.mp hi
    simpa using h
  have hr : (js.map (·.2))[i]? = some r := by rw [List.getElem?_map, hi]; rfl
  obtain ⟨T, p, h1, h2, h3⟩ := hN i hlt hσ
  obtain ⟨K, hK, hc⟩ := hyperCall_pars cfg ext lib auth js
  have hres : ∃ res, finish (K i) (errorResponse x) p = .ret res := by
    cases p with
    | ret a =>
      obtain ⟨res, h, _⟩ := hK i a
      exact ⟨res, by simp only [finish, Prog.bind, h, Prog.catch]⟩
    | fail e => exact errorResponse_ret x e
    | panic =>
      have := (C56_panic_partial cfg ext lib auth (atMost env N) (js.map (·.2)) (firstSteps σ T) fs i r hr).mpr (by rw [h3 N (Nat.le_refl _)]; rfl)
      exact absurd this.2 hp
    | diverge => exact absurd rfl h2
    | sys c k => cases h1
  obtain ⟨res, hres⟩ := hres
  refine ⟨T, res, fun n hn t ht => ?_⟩
  have hT := hc (atMost env n) (firstSteps σ T) fs i x r hi
  rw [h3 n hn, Option.map_some, hres] at hT
  rw [responseAt, thread_stays hT rfl ht]
  rfl

/-- a GET and a listing that take turns with each other, and a PUT that stops after three system calls: the first two keep running, the
last does not; the listing is answered when it may visit one directory, with one response; the PUT is not -/
example : let σ : Nat → Nat := fun t => if t < 3 then 2 else t % 2
    let js := [(Sample.texts, Sample.plain b!"GET" b!"/aaa/x" none [] []), (Sample.texts, Sample.plain b!"GET" b!"/bbb" none [] []),
      (Sample.texts, Sample.plain b!"PUT" b!"/aaa/n" none [] [some b!"abc", some b!"def"])]
    KeepsRunning σ 0 ∧ KeepsRunning σ 1 ∧ ¬ KeepsRunning σ 2 ∧
    (∀ j ∈ js, ¬ (j.2.method = b!"PUT" ∧ At j.2 .root ∧ HasParam j.2 b!"partNumber" ∧ HasParam j.2 b!"uploadId")) ∧
    (responseAt Sample.cfg Sample.ext Sample.lib none (atMost Sample.env 0) js (firstSteps σ 40) Sample.fs 1) = some .diverge ∧
    (responseAt Sample.cfg Sample.ext Sample.lib none (atMost Sample.env 1) js (firstSteps σ 40) Sample.fs 1).isSome = true ∧
    (responseAt Sample.cfg Sample.ext Sample.lib none (atMost Sample.env 1) js (firstSteps σ 40) Sample.fs 1) ≠ some .diverge ∧
    (responseAt Sample.cfg Sample.ext Sample.lib none (atMost Sample.env 1) js (firstSteps σ 40) Sample.fs 0).isSome = true ∧
    (responseAt Sample.cfg Sample.ext Sample.lib none (atMost Sample.env 1) js (firstSteps σ 40) Sample.fs 2) = none := by
  refine ⟨fun t => ⟨2 * t + 4, by omega, ?_⟩, fun t => ⟨2 * t + 5, by omega, ?_⟩, fun h => ?_, ?_, by decide +kernel, by decide +kernel, by decide +kernel,
    by decide +kernel, by decide +kernel⟩
  · show (if 2 * t + 4 < 3 then 2 else (2 * t + 4) % 2) = 0
    rw [if_neg (by omega)]; omega
  · show (if 2 * t + 5 < 3 then 2 else (2 * t + 5) % 2) = 1
    rw [if_neg (by omega)]; omega
  · obtain ⟨s, h1, h2⟩ := h 3
    have h2' : (if s < 3 then 2 else s % 2) = 2 := h2
    rw [if_neg (by omega)] at h2'
    omega
  · intro j hj
    simp only [List.mem_cons, List.not_mem_nil, or_false] at hj
    rcases hj with rfl | rfl | rfl
    · exact fun h => absurd h.1 (by decide)
    · exact fun h => absurd h.1 (by decide)
    · rintro ⟨_, _, ⟨v, hv⟩, _⟩
      cases hv

end S3
