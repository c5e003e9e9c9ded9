import Verif.Lemmas.Outsider
import Verif.Props.WebLife
import Verif.Props.Signature
/-! C127: who has no key changes nothing, learns nothing and is not noticed. -/
namespace S3
open Spec

variable {cfg : Cfg} {ext : Ext} {lib : Lib}

/-! ### C127 -/

/-- **C127** (refused) Who does not sign with a known key gets one fixed error response: it is the same wherever the root directory is,
whatever is stored, and nothing is changed on the way. `hp`: an authentication provider that reports errors of its own reports errors. -/
theorem C127_refused (hc : CryptoLaw lib.crypto) {p : Provider} (hp : ∀ key e, p key = .error (.other e) → 400 ≤ e.httpStatus) (x : Exchange)
    (h : Outsider lib p x.req) :
    ∃ res : Response, 400 ≤ res.status ∧ ∀ cfg ext env fs,
      responded cfg ext lib (some p) env x.texts x.req fs = .ok res ∧ afterResponded cfg ext lib (some p) env x.texts x.req fs = fs := by
  obtain ⟨res, hs, hr⟩ := outsider_ret hc hp h x.texts
  exact ⟨res, hs, fun cfg ext env fs => ⟨by rw [responded, hr]; rfl, by rw [afterResponded, hr]; rfl⟩⟩

/-- **C127** (refused, among others) The same in a run of the server with other requests beside it, whatever they do and whatever goes
wrong with the disk: the outsider is answered, with the same response. -/
theorem C127_refused_among (hc : CryptoLaw lib.crypto) {p : Provider} (hp : ∀ key e, p key = .error (.other e) → 400 ≤ e.httpStatus) (x : Exchange)
    (h : Outsider lib p x.req) :
    ∃ res : Response, 400 ≤ res.status ∧ ∀ cfg ext (w : WebEpoch) fs (n : Nat), w.requests[n]? = some x →
      w.response cfg ext lib (some p) fs n = some (.ok res) := by
  obtain ⟨res, hs, hr⟩ := outsider_ret hc hp h x.texts
  refine ⟨res, hs, fun cfg ext w fs n hn => ?_⟩
  rw [WebEpoch.response, idle_step (a := res)]
  · rfl
  · rw [List.getElem?_map, hn, Option.map_some, hr]

/-- **C127** (unnoticed) What outsiders send, and whether they send anything, makes no difference: not for what is on the disk in the end,
and not for the response to any request signed with a known key, on whatever disk, failing in whatever way. -/
theorem C127_unnoticed (hc : CryptoLaw lib.crypto) {p : Provider} (hp : ∀ key e, p key = .error (.other e) → 400 ≤ e.httpStatus)
    {w w' : WebEpoch} (h : SameInsiders lib p w w') (fs : FS) :
    w'.leaves cfg ext lib (some p) fs = w.leaves cfg ext lib (some p) fs ∧
    ∀ (n : Nat) x, w.requests[n]? = some x → Insider lib p x.req →
      w'.response cfg ext lib (some p) fs n = w.response cfg ext lib (some p) fs n := by
  have key := idle_sim (cfg := cfg) w.steps _ _ fs (same_progs (cfg := cfg) (ext := ext) hc hp h)
  refine ⟨?_, fun n x hx hi => ?_⟩
  · rw [WebEpoch.leaves, WebEpoch.leaves, h.steps]
    exact key.1
  · rw [WebEpoch.response, WebEpoch.response, h.steps, key.2 n]
    rcases h.requests n with e | ⟨h1, _⟩
    · rw [List.getElem?_map, List.getElem?_map, e]
    · exact absurd hi (h1 x hx)

/-- **C127** (for good) over several runs of the server -/
theorem C127_life (hc : CryptoLaw lib.crypto) {p : Provider} (hp : ∀ key e, p key = .error (.other e) → 400 ≤ e.httpStatus) :
    ∀ {ws ws' : List WebEpoch}, ws'.length = ws.length →
      (∀ (n : Nat) w w', ws[n]? = some w → ws'[n]? = some w' → SameInsiders lib p w w') →
      ∀ fs, webLife cfg ext lib (some p) ws' fs = webLife cfg ext lib (some p) ws fs
  | [], [], _, _, _ => rfl
  | [], _ :: _, hl, _, _ => nomatch hl
  | _ :: _, [], hl, _, _ => nomatch hl
  | w :: ws, w' :: ws', hl, h, fs => by
    simp only [webLife]
    rw [(C127_unnoticed hc hp (h 0 w w' rfl rfl) fs).1]
    exact C127_life hc hp (by simpa using hl) (fun n v v' hv hv' => h (n + 1) v v' hv hv') _

/-- who names no key that the server knows is an outsider -/
theorem outsider_of_unknown {p : Provider} {r : Req} (h : ∀ key, NamesKey lib r key → ∀ secret, p key ≠ .ok secret) : Outsider lib p r :=
  fun ⟨key, secret, hk, hn, _⟩ => h key hn secret hk

theorem insider_of_served (hc : CryptoLaw lib.crypto) {p : Provider} {env : Env} {r : Req} (h : ∀ e, handle cfg ext lib (some p) env r ≠ .fail e) :
    Insider lib p r := C37_only_signed cfg ext lib hc p env r h

/-- a client who signs uploads, and somebody without a key wants to delete what is there -/
def Sample.signedWeb : Exchange := Sample.exchange Sample.signedPut
def Sample.withAbc : FS := (exec Sample.cfg Sample.fs (.mkdir [b!"srv", b!"abc"])).2
def Sample.openRun : WebEpoch := ⟨[Sample.signedWeb, Sample.webDelete], (List.replicate 12 (1, Fault.none)) ++ List.replicate 12 (0, Fault.none)⟩
def Sample.closedRun : WebEpoch := ⟨[Sample.signedWeb], Sample.openRun.steps⟩

theorem Sample.unsigned {m t : Bytes} {hs : List (Bytes × Bytes)} {b : Body} (hh : ∀ v, (b!"authorization", v) ∉ hs)
    (hm : m ≠ b!"POST") (p : Provider) : Outsider Sample.lib p (Sample.plain m t none hs b) := by
  refine outsider_of_unknown fun key hk => ?_
  rcases hk with ⟨v, _, h, _⟩ | ⟨v, _, h, _⟩ | ⟨f, _, _, _, ⟨bd, hf, _⟩, _⟩
  · exact absurd h (hh v)
  · cases h
  · exact absurd hf.1 hm

example : Outsider Sample.lib Sample.provider Sample.webDelete.req ∧ Insider Sample.lib Sample.provider Sample.signedWeb.req ∧
    SameInsiders Sample.lib Sample.provider Sample.openRun Sample.closedRun ∧
    (∀ key e, Sample.provider key = .error (.other e) → 400 ≤ e.httpStatus) ∧
    Sample.webStatus (Sample.openRun.response Sample.cfg Sample.ext Sample.lib (some Sample.provider) Sample.withAbc 0) = some (200, some []) ∧
    (Sample.webStatus (Sample.openRun.response Sample.cfg Sample.ext Sample.lib (some Sample.provider) Sample.withAbc 1)).map Prod.fst = some 403 := by
  have ho : Outsider Sample.lib Sample.provider Sample.webDelete.req := Sample.unsigned (by simp) (by decide) _
  refine ⟨ho, insider_of_served (cfg := Sample.cfg) (ext := Sample.ext) (env := Sample.env) Sample.cryptoLaw ?_, ⟨rfl, fun n => ?_⟩, ?_,
    by decide +kernel, by decide +kernel⟩
  · intro e he
    have : Sample.steps (handle Sample.cfg Sample.ext Sample.lib (some Sample.provider) Sample.env Sample.signedPut) = true := by decide +kernel
    rw [show Sample.signedPut = Sample.signedWeb.req from rfl, he] at this
    cases this
  · match n with
    | 0 => exact .inl rfl
    | 1 => exact .inr ⟨fun x hx => by cases hx; exact ho, fun x hx => by cases hx⟩
    | n + 2 => exact .inl rfl
  · intro key e h
    simp only [Sample.provider] at h
    split at h <;> cases h

end S3
