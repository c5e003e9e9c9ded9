import Verif.Spec.Binary
import Verif.Lemmas.Place
import Verif.Props.Access
import Verif.Props.Auth
/-! C97: who may use a server started from the command line, and which directory it serves. -/
namespace S3
open Spec

theorem walk_cons {p : List Bytes} {c : Bytes} {segs q : List Bytes} :
    Walk p (c :: segs) q ↔ Walk (if c = [] ∨ c = b!"." then p else dedotStep p c) segs q := by
  rw [walk_fold, walk_fold]
  by_cases h1 : c = []
  · subst h1; simp
  · by_cases h2 : c = b!"."
    · subst h2
      rw [if_pos (Or.inr rfl), List.filter_cons_of_pos (by decide), List.filter_cons_of_neg (by decide)]
    · rw [if_neg (by simp [h1, h2]), List.filter_cons_of_pos (by simpa using h1),
        List.filter_cons_of_pos (by simpa using h2), List.foldl_cons]

theorem walk_nil {p q : List Bytes} : Walk p [] q ↔ q = p := by rw [walk_fold]; rfl

theorem canonical_iff {fs : FS} {segs : List Bytes} (hs : segs ≠ []) :
    ∀ {p q : List Bytes}, segs.foldlM (canonicalStep fs) p = some q ↔
      Walk p segs q ∧ fs.lookup q ≠ none ∧ ∀ s1 x s2 d, segs = s1 ++ x :: s2 → Walk p s1 d → IsDir fs d := by
  induction segs with
  | nil => exact absurd rfl hs
  | cons c segs ih =>
    intro p q
    rw [List.foldlM_cons]
    have hstep : ∀ r, canonicalStep fs p c = some r ↔
        IsDir fs p ∧ r = (if c = [] ∨ c = b!"." then p else dedotStep p c) ∧ fs.lookup r ≠ none := by
      intro r
      simp only [canonicalStep, IsDir]
      cases hl : fs.lookup p with
      | none => simp
      | some n =>
        cases n with
        | file i => simp
        | dir =>
          simp only [true_and]
          generalize (if c = [] ∨ c = b!"." then p else dedotStep p c) = q
          cases hx : fs.lookup q with
          | none =>
            simp only [Option.isSome_none]
            constructor
            · intro h; cases h
            · rintro ⟨rfl, hq⟩; exact absurd hx hq
          | some n =>
            simp only [Option.isSome_some, if_true, Option.some.injEq]
            constructor
            · rintro rfl; exact ⟨rfl, by rw [hx]; simp⟩
            · rintro ⟨rfl, _⟩; rfl
    constructor
    · intro h
      obtain ⟨r, hr, hrest⟩ := Option.bind_eq_some_iff.mp h
      obtain ⟨hd, hre, hex⟩ := (hstep r).mp hr
      by_cases hn : segs = []
      · subst hn
        cases hrest
        refine ⟨by rw [walk_cons, walk_nil]; exact hre, hex, ?_⟩
        intro s1 x s2 d he hw
        cases s1 with
        | nil => rw [walk_nil] at hw; subst hw; exact hd
        | cons y s1 =>
          simp only [List.cons_append, List.cons.injEq] at he
          simp at he
      · obtain ⟨h1, h2, h3⟩ := (ih hn).mp hrest
        refine ⟨by rw [walk_cons, ← hre]; exact h1, h2, ?_⟩
        intro s1 x s2 d he hw
        cases s1 with
        | nil => rw [walk_nil] at hw; subst hw; exact hd
        | cons y s1 =>
          simp only [List.cons_append, List.cons.injEq] at he
          obtain ⟨rfl, he⟩ := he
          rw [walk_cons, ← hre] at hw
          exact h3 s1 x s2 d he hw
    · rintro ⟨h1, h2, h3⟩
      have hd : IsDir fs p := h3 [] c segs p rfl .arrived
      rw [walk_cons] at h1
      refine Option.bind_eq_some_iff.mpr ⟨_, (hstep _).mpr ⟨hd, rfl, ?_⟩, ?_⟩
      · by_cases hn : segs = []
        · subst hn
          rw [walk_nil] at h1
          rw [← h1]; exact h2
        · obtain ⟨x, s, hx⟩ := List.exists_cons_of_ne_nil hn
          have := h3 [c] x s _ (by rw [hx]; rfl) (walk_cons.mpr .arrived)
          rw [IsDir] at this
          rw [this]; simp
      · by_cases hn : segs = []
        · subst hn
          rw [walk_nil] at h1
          subst h1; rfl
        · exact (ih hn).mpr ⟨h1, h2, fun s1 x s2 d he hw => h3 (c :: s1) x s2 d (by rw [he]; rfl) (walk_cons.mpr hw)⟩

theorem fileSystemNew_iff {env : Cfg} {fs : FS} {root : Bytes} {cfg : Cfg} :
    fileSystemNew env fs root = some cfg ↔ ∃ q, OsNames fs env.cwd root q ∧ cfg = { env with root := q } := by
  simp only [fileSystemNew, Option.map_eq_some_iff]
  constructor
  · rintro ⟨q, hq, rfl⟩
    refine ⟨q, ⟨_, _, segments_split.mpr rfl, ?_, (canonical_iff (splitAll_ne_nil _ _)).mp hq⟩, rfl⟩
    cases hs : startsWith root b!"/" with
    | true => exact Or.inr ⟨startsWith_iff.mp hs, rfl⟩
    | false => exact Or.inl ⟨fun t ht => (by rw [startsWith_iff.mpr ⟨t, ht⟩] at hs; cases hs), rfl⟩
  · rintro ⟨q, ⟨start, segs, hseg, hst, h⟩, rfl⟩
    rw [segments_split] at hseg
    subst hseg
    refine ⟨q, ?_, rfl⟩
    have : (if startsWith root b!"/" = true then [] else env.cwd) = start := by
      rcases hst with ⟨hn, rfl⟩ | ⟨hn, rfl⟩
      · rw [if_neg]
        intro hs
        obtain ⟨t, ht⟩ := startsWith_iff.mp hs
        exact hn t ht
      · rw [if_pos (startsWith_iff.mpr hn)]
    rw [this]
    exact (canonical_iff (splitAll_ne_nil _ _)).mpr h

/-- **C97** The server starts exactly if the keys are given both or not at all and the storage directory exists; it serves
that directory, whatever the spelling of its path. -/
theorem C97_start (env : Cfg) (fs : FS) (a : Args) :
    ((∃ srv, serverMain env fs a = some srv) ↔
      (a.accessKey = none ↔ a.secretKey = none) ∧ ∃ q, OsNames fs env.cwd a.fsRoot q) ∧
    (∀ srv, serverMain env fs a = some srv → OsNames fs env.cwd a.fsRoot srv.cfg.root) := by
  have hacc : a.accepted = true ↔ (a.accessKey = none ↔ a.secretKey = none) := by
    simp only [Args.accepted]
    cases a.accessKey <;> cases a.secretKey <;> simp
  constructor
  · rw [← hacc]
    constructor
    · rintro ⟨srv, h⟩
      simp only [serverMain] at h
      split at h
      · rename_i ha
        obtain ⟨cfg, hc, _⟩ := Option.map_eq_some_iff.mp h
        obtain ⟨q, hq, _⟩ := fileSystemNew_iff.mp hc
        exact ⟨ha, q, hq⟩
      · cases h
    · rintro ⟨ha, q, hq⟩
      simp only [serverMain, if_pos ha]
      rw [fileSystemNew_iff.mpr ⟨q, hq, rfl⟩]
      exact ⟨_, rfl⟩
  · intro srv h
    simp only [serverMain] at h
    split at h
    · obtain ⟨cfg, hc, hs⟩ := Option.map_eq_some_iff.mp h
      obtain ⟨q, hq, rfl⟩ := fileSystemNew_iff.mp hc
      have : srv.cfg.root = q := by
        split at hs <;> (subst hs; rfl)
      rw [this]; exact hq
    · cases h

/-- **C97** A server started with a pair of keys does something only for requests that name this access key and are signed
with this secret. -/
theorem C97_keys {env : Cfg} {fs : FS} {a : Args} {srv : Server} (h : serverMain env fs a = some srv) {key secret : Bytes}
    (hk : a.accessKey = some key) (hs : a.secretKey = some secret) (ext : Ext) (lib : Lib) (hc : CryptoLaw lib.crypto)
    (e : Env) (r : Req) :
    (∃ c, handle srv.cfg ext lib srv.auth e r = .fail c) ∨
    NamesKey lib r key ∧
      (HeaderSigned lib.crypto r (awsEncode true r.path) key secret ∨
       PresignedBy lib.crypto r (awsEncode true r.path) key secret ∨
       ∃ f, UploadsForm lib r f ∧ FormSigned lib.crypto f key secret) := by
  have hauth : srv.auth = some (SimpleAuth.new.register key secret).getSecret := by
    simp only [serverMain, hk, hs] at h
    split at h
    · obtain ⟨cfg, _, rfl⟩ := Option.map_eq_some_iff.mp h
      rfl
    · cases h
  rw [hauth]
  by_cases hf : ∃ c, handle srv.cfg ext lib (some (SimpleAuth.new.register key secret).getSecret) e r = .fail c
  · exact Or.inl hf
  · refine Or.inr ?_
    obtain ⟨k, s, hp, hn, hsig⟩ := C37_only_signed srv.cfg ext lib hc _ e r (fun c hc => hf ⟨c, hc⟩)
    have hks : k = key ∧ s = secret := by
      have := C63_access_key_store [(key, secret)] k
      rw [show registerAll SimpleAuth.new [(key, secret)] = SimpleAuth.new.register key secret from rfl, hp] at this
      simp only [Spec.lastRegistered] at this
      by_cases hkk : key = k
      · rw [if_pos hkk] at this
        cases this
        exact ⟨hkk.symm, rfl⟩
      · rw [if_neg hkk] at this; cases this
    obtain ⟨rfl, rfl⟩ := hks
    exact ⟨hn, hsig⟩

/-- **C97** A server started without keys serves every unsigned request that is not a form upload and refuses every request
with credentials. -/
theorem C97_open {env : Cfg} {fs : FS} {a : Args} {srv : Server} (h : serverMain env fs a = some srv)
    (hk : a.accessKey = none) (ext : Ext) (lib : Lib) (e : Env) (r : Req) :
    (WellFormed lib r → (∀ b, ¬ IsForm lib r b) → (∀ v, (b!"X-Amz-Signature", v) ∉ queryOf r) →
      (∀ v, (b!"authorization", v) ∉ r.headers) →
      ∃ c, makeCtx lib r = .ok c ∧ handle srv.cfg ext lib srv.auth e r = dispatch srv.cfg ext lib e c) ∧
    ((∃ v, (b!"authorization", v) ∈ r.headers) ∨ (∃ v, (b!"X-Amz-Signature", v) ∈ queryOf r) →
      ∃ c, handle srv.cfg ext lib srv.auth e r = .fail c) := by
  have hauth : srv.auth = none := by
    simp only [serverMain, hk] at h
    split at h
    · obtain ⟨cfg, _, rfl⟩ := Option.map_eq_some_iff.mp h
      rfl
    · cases h
  rw [hauth]
  exact ⟨fun hw hf hq hh => C42_unsigned_served srv.cfg ext lib e r hw hf hq hh,
    fun hcred => C42_credentials_refused srv.cfg ext lib e r hcred⟩

example : (∃ srv, serverMain { Sample.cfg with root := [] } Sample.fs
      { fsRoot := b!"/srv/./aaa/..", accessKey := some b!"AK", secretKey := some b!"SK" } = some srv ∧ srv.cfg.root = [b!"srv"]) ∧
    (serverMain Sample.cfg Sample.fs { fsRoot := b!"srv", accessKey := some b!"AK", secretKey := none }).isNone = true ∧
    (serverMain Sample.cfg Sample.fs { fsRoot := b!"nothing", accessKey := none, secretKey := none }).isNone = true ∧
    (serverMain Sample.cfg Sample.fs { fsRoot := b!"srv/aaa", accessKey := none, secretKey := none }).isSome = true :=
  ⟨⟨_, rfl, by decide +kernel⟩, by decide +kernel, by decide +kernel, by decide +kernel⟩

end S3
