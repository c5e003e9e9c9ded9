import Verif.Spec.Ops
import Verif.Lemmas.OpFails
import Verif.Props.Access
import Verif.Props.CopySource
import Verif.Props.Form
/-! Lemmas about the context of an admitted request and the choice of the handler. -/
namespace S3
open Spec

/-! ### integers -/

theorem accDigits_numeral {max : Nat} {s : Bytes} {n : Nat} (hs : s ≠ []) : accDigits max 0 s = some n ↔ IsNumeral s n ∧ n ≤ max := by
  rw [accDigits_iff (Nat.zero_le _)]
  simp only [IsNumeral, Nat.zero_mul, Nat.zero_add]
  constructor
  · rintro ⟨h1, h2, h3⟩; exact ⟨⟨hs, h1, h2⟩, h3⟩
  · rintro ⟨⟨_, h1, h2⟩, h3⟩; exact ⟨h1, h2, h3⟩

theorem numeral_head {c : UInt8} {s : Bytes} {n : Nat} (h : IsNumeral (c :: s) n) : c ≠ 43 ∧ c ≠ 45 := by
  have := h.2.1 c List.mem_cons_self
  constructor <;> (rintro rfl; exact absurd this (by decide))

theorem parseI64_iff {s : Bytes} {i : Int} : parseI64 s = some i ↔ IsI64 s i := by
  have up : ∀ n : Nat, n ≤ 2 ^ 63 - 1 ↔ ((-2 ^ 63 : Int) ≤ (n : Int) ∧ (n : Int) < 2 ^ 63) := by intro n; omega
  have dn : ∀ n : Nat, n ≤ 2 ^ 63 ↔ ((-2 ^ 63 : Int) ≤ -(n : Int) ∧ -(n : Int) < 2 ^ 63) := by intro n; omega
  cases s with
  | nil =>
    refine ⟨fun h => (by cases h), ?_⟩
    rintro ⟨h, _⟩
    generalize hs : ([] : Bytes) = s at h
    cases h with
    | plain h => exact absurd hs.symm h.1
    | plus h => cases hs
    | minus h => cases hs
  | cons c cs =>
    simp only [parseI64, parseSigned]
    have inv : ∀ i, IsInteger (c :: cs) i ↔ (c = 43 ∧ ∃ n : Nat, IsNumeral cs n ∧ i = n) ∨ (c = 45 ∧ ∃ n : Nat, IsNumeral cs n ∧ i = -n) ∨
        (∃ n : Nat, IsNumeral (c :: cs) n ∧ i = n) := by
      intro i
      constructor
      · intro h
        generalize hs : c :: cs = s at h
        cases h with
        | plain h => subst hs; exact .inr (.inr ⟨_, h, rfl⟩)
        | plus h =>
          simp only [List.cons_append, List.nil_append, List.cons.injEq] at hs
          obtain ⟨rfl, rfl⟩ := hs
          exact .inl ⟨rfl, _, h, rfl⟩
        | minus h =>
          simp only [List.cons_append, List.nil_append, List.cons.injEq] at hs
          obtain ⟨rfl, rfl⟩ := hs
          exact .inr (.inl ⟨rfl, _, h, rfl⟩)
      · rintro (⟨rfl, n, h, rfl⟩ | ⟨rfl, n, h, rfl⟩ | ⟨n, h, rfl⟩)
        · exact .plus h
        · exact .minus h
        · exact .plain h
    simp only [IsI64, inv]
    by_cases h1 : c = 43
    · subst h1
      simp only [if_true, true_and]
      by_cases hc : cs = []
      · subst hc
        simp only [if_true]
        refine ⟨fun h => (by cases h), ?_⟩
        rintro ⟨⟨n, h, _⟩ | ⟨h, _⟩ | ⟨n, h, _⟩, _⟩
        · exact absurd rfl h.1
        · cases h
        · exact absurd rfl (numeral_head h).1
      · simp only [hc, if_false, Option.map_eq_some_iff, accDigits_numeral hc]
        constructor
        · rintro ⟨n, ⟨h, hn⟩, rfl⟩; exact ⟨.inl ⟨n, h, rfl⟩, (up n).mp hn⟩
        · rintro ⟨⟨n, h, rfl⟩ | ⟨h, _⟩ | ⟨n, h, _⟩, hb⟩
          · exact ⟨n, ⟨h, (up n).mpr hb⟩, rfl⟩
          · cases h
          · exact absurd rfl (numeral_head h).1
    · by_cases h2 : c = 45
      · subst h2
        simp only [if_neg h1, if_true, true_and]
        by_cases hc : cs = []
        · subst hc
          simp only [if_true]
          refine ⟨fun h => (by cases h), ?_⟩
          rintro ⟨⟨h, _⟩ | ⟨n, h, _⟩ | ⟨n, h, _⟩, _⟩
          · cases h
          · exact absurd rfl h.1
          · exact absurd rfl (numeral_head h).2
        · simp only [hc, if_false, Option.map_eq_some_iff, accDigits_numeral hc]
          constructor
          · rintro ⟨n, ⟨h, hn⟩, rfl⟩; exact ⟨.inr (.inl ⟨n, h, rfl⟩), (dn n).mp hn⟩
          · rintro ⟨⟨h, _⟩ | ⟨n, h, rfl⟩ | ⟨n, h, _⟩, hb⟩
            · cases h
            · exact ⟨n, ⟨h, (dn n).mpr hb⟩, rfl⟩
            · exact absurd rfl (numeral_head h).2
      · simp only [if_neg h1, if_neg h2, Option.map_eq_some_iff, accDigits_numeral (List.cons_ne_nil c cs)]
        constructor
        · rintro ⟨n, ⟨h, hn⟩, rfl⟩; exact ⟨.inr (.inr ⟨n, h, rfl⟩), (up n).mp hn⟩
        · rintro ⟨⟨h, _⟩ | ⟨h, _⟩ | ⟨n, h, rfl⟩, hb⟩
          · exact absurd h h1
          · exact absurd h h2
          · exact ⟨n, ⟨h, (up n).mpr hb⟩, rfl⟩

theorem assign_i64 {s : Option Bytes} {i : Option Int} : assign parseI64 s = .ret i ↔ MaybeI64 s i := by
  cases s with
  | none => cases i <;> simp [assign, MaybeI64]
  | some s =>
    simp only [assign]
    cases h : parseI64 s with
    | none =>
      cases i with
      | none => simp [MaybeI64]
      | some i =>
        simp only [MaybeI64, ← parseI64_iff, h, reduceCtorEq]
    | some j =>
      cases i with
      | none => simp [MaybeI64]
      | some i => simp [MaybeI64, ← parseI64_iff, h]

theorem assign_cases {α : Type} (parse : Bytes → Option α) (s : Option Bytes) :
    (∃ x, assign parse s = .ret x) ∨ assign parse s = .fail .InvalidRequest := by
  cases s with
  | none => exact .inl ⟨_, rfl⟩
  | some s =>
    simp only [assign]
    split
    · exact .inr rfl
    · exact .inl ⟨_, rfl⟩

theorem assign_bool {s : Option Bytes} : (∃ x, assign parseBool s = .ret x) ↔ MaybeBool s := by
  cases s with
  | none => simp [assign, MaybeBool]
  | some s =>
    simp only [assign, MaybeBool, parseBool]
    by_cases h1 : s = b!"true"
    · simp [h1]
    · by_cases h2 : s = b!"false"
      · simp [h2]
      · simp [h1, h2]

/-! ### metadata -/

theorem mem_metaInsert {m : Meta} (hm : (m.map (·.1)).Pairwise fun a b => bytesCmp a b = .lt) (n v : Bytes) :
    ((metaInsert m n v).map (·.1)).Pairwise (fun a b => bytesCmp a b = .lt) ∧
    (∀ x w, (x, w) ∈ metaInsert m n v ↔ (x = n ∧ w = v) ∨ (x ≠ n ∧ (x, w) ∈ m)) := by
  induction m with
  | nil => simp [metaInsert]
  | cons p r ih =>
    obtain ⟨a, u⟩ := p
    simp only [List.map_cons, List.pairwise_cons, List.mem_map] at hm
    obtain ⟨h1, h2⟩ := hm
    have h1' : ∀ x w, (x, w) ∈ r → bytesCmp a x = .lt := fun x w hx => h1 x ⟨(x, w), hx, rfl⟩
    obtain ⟨i1, i2⟩ := ih h2
    simp only [metaInsert]
    split
    · rename_i hc
      refine ⟨?_, fun x w => ?_⟩
      · simp only [List.map_cons, List.pairwise_cons, List.mem_cons, List.mem_map]
        refine ⟨?_, fun x hx => ?_, h2⟩
        · rintro x (rfl | ⟨⟨y, w⟩, hy, rfl⟩)
          · exact hc
          · exact bytesCmp_lt_trans hc (h1' y w hy)
        · exact h1 x hx
      · have ne : ∀ x w, (x, w) ∈ (a, u) :: r → x ≠ n := by
          intro x w hx e
          subst e
          rcases List.mem_cons.mp hx with hx | hx
          · cases hx; rw [bytesCmp_refl] at hc; cases hc
          · have := bytesCmp_lt_trans hc (h1' _ _ hx)
            rw [bytesCmp_refl] at this; cases this
        rw [List.mem_cons]
        constructor
        · rintro (hx | hx)
          · cases hx; exact .inl ⟨rfl, rfl⟩
          · exact .inr ⟨ne x w hx, hx⟩
        · rintro (⟨rfl, rfl⟩ | ⟨_, hx⟩)
          · exact .inl rfl
          · exact .inr hx
    · rename_i hc
      rw [bytesCmp_eq] at hc
      subst hc
      refine ⟨?_, fun x w => ?_⟩
      · simp only [List.map_cons, List.pairwise_cons, List.mem_map]; exact ⟨h1, h2⟩
      · have ne : (x, w) ∈ r → x ≠ n := by
          intro hx e; subst e
          have := h1' _ _ hx; rw [bytesCmp_refl] at this; cases this
        simp only [List.mem_cons, Prod.mk.injEq]
        constructor
        · rintro (hx | hx)
          · exact .inl hx
          · exact .inr ⟨ne hx, .inr hx⟩
        · rintro (hx | ⟨hne, hx | hx⟩)
          · exact .inl hx
          · exact absurd hx.1 hne
          · exact .inr hx
    · rename_i hc
      have hc' : bytesCmp a n = .lt := bytesCmp_gt_iff.mp hc
      refine ⟨?_, fun x w => ?_⟩
      · simp only [List.map_cons, List.pairwise_cons, List.mem_map]
        refine ⟨?_, i1⟩
        rintro x ⟨⟨y, w⟩, hy, rfl⟩
        rcases (i2 y w).mp hy with ⟨rfl, _⟩ | ⟨_, hy⟩
        · exact hc'
        · exact h1' y w hy
      · have hne : a ≠ n := by rintro rfl; rw [bytesCmp_refl] at hc'; cases hc'
        simp only [List.mem_cons, Prod.mk.injEq, i2]
        constructor
        · rintro (⟨rfl, rfl⟩ | hx | ⟨h, hx⟩)
          · exact .inr ⟨hne, .inl ⟨rfl, rfl⟩⟩
          · exact .inl hx
          · exact .inr ⟨h, .inr hx⟩
        · rintro (hx | ⟨h, hx | hx⟩)
          · exact .inr (.inl hx)
          · exact .inl hx
          · exact .inr (.inr ⟨h, hx⟩)

/-- the last pair of a name -/
def LastPair (l : List (Bytes × Bytes)) (n v : Bytes) : Prop := ∃ a b, l = a ++ (n, v) :: b ∧ ∀ p ∈ b, p.1 ≠ n

theorem lastPair_append {l : List (Bytes × Bytes)} {p : Bytes × Bytes} {n v : Bytes} :
    LastPair (l ++ [p]) n v ↔ (p = (n, v)) ∨ (p.1 ≠ n ∧ LastPair l n v) := by
  constructor
  · rintro ⟨a, b, e, hb⟩
    rcases List.eq_nil_or_concat b with rfl | ⟨b', q, rfl⟩
    · have := List.append_inj' e rfl
      left; simpa using this.2
    · rw [List.concat_eq_append, ← List.cons_append, ← List.append_assoc] at e
      obtain ⟨e1, e2⟩ := List.append_inj' e rfl
      simp only [List.cons.injEq, and_true] at e2
      subst e2
      rw [List.concat_eq_append] at hb
      exact .inr ⟨hb p (by simp), a, b', e1, fun q hq => hb q (by simp [hq])⟩
  · rintro (rfl | ⟨h, a, b, rfl, hb⟩)
    · exact ⟨l, [], rfl, fun p hp => by cases hp⟩
    · refine ⟨a, b ++ [p], by simp, fun q hq => ?_⟩
      rcases List.mem_append.mp hq with hq | hq
      · exact hb q hq
      · rw [List.mem_singleton] at hq; rw [hq]; exact h

theorem collect_fold (l : List (Bytes × Bytes)) :
    ((l.foldl metaStep []).map (·.1)).Pairwise (fun a b => bytesCmp a b = .lt) ∧
    ∀ n v, (n, v) ∈ l.foldl metaStep [] ↔ n ≠ [] ∧ LastPair l (metaPrefix ++ n) v := by
  induction l using snoc_induction with
  | h0 =>
    refine ⟨by simp, fun n v => ⟨fun h => (by cases h), ?_⟩⟩
    rintro ⟨_, a, b, e, _⟩
    exact absurd e (by simp)
  | h1 l p ih =>
    obtain ⟨i1, i2⟩ := ih
    simp only [List.foldl_append, List.foldl_cons, List.foldl_nil, lastPair_append]
    obtain ⟨pn, pv⟩ := p
    simp only [metaStep]
    split
    · rename_i hs
      simp only [Bool.and_eq_true, bne_iff_ne, ne_eq, startsWith_iff] at hs
      obtain ⟨⟨t, rfl⟩, ht⟩ := hs
      simp only [List.drop_left] at ht ⊢
      obtain ⟨j1, j2⟩ := mem_metaInsert i1 t pv
      refine ⟨j1, fun n v => ?_⟩
      rw [j2, i2]
      simp only [Prod.mk.injEq, List.append_cancel_left_eq, ne_eq]
      constructor
      · rintro (⟨rfl, rfl⟩ | ⟨hne, h1, h2⟩)
        · exact ⟨ht, .inl ⟨rfl, rfl⟩⟩
        · exact ⟨h1, .inr ⟨fun e => hne e.symm, h2⟩⟩
      · rintro ⟨h0, ⟨rfl, rfl⟩ | ⟨h1, h2⟩⟩
        · exact .inl ⟨rfl, rfl⟩
        · exact .inr ⟨fun e => h1 e.symm, h0, h2⟩
    · rename_i hs
      refine ⟨i1, fun n v => ?_⟩
      rw [i2]
      have key : n ≠ [] → pn ≠ metaPrefix ++ n := by
        rintro hn rfl
        apply hs
        simp [startsWith_iff, hn]
      constructor
      · rintro ⟨h0, h⟩; exact ⟨h0, .inr ⟨key h0, h⟩⟩
      · rintro ⟨h0, h | ⟨_, h⟩⟩
        · injection h with h _; exact absurd h (key h0)
        · exact ⟨h0, h⟩

theorem collectMeta_of {l : List (Bytes × Bytes)} {has : Bytes → Bytes → Prop}
    (h : ∀ n v, n ≠ [] → (LastPair l (metaPrefix ++ n) v ↔ has n v)) : MetaOf has (collectMeta l) := by
  obtain ⟨h1, h2⟩ := collect_fold l
  simp only [collectMeta]
  split
  · rename_i he
    intro n v hn hh
    have := (h2 n v).mpr ⟨hn, (h n v hn).mpr hh⟩
    rw [he] at this; cases this
  · rename_i he
    refine ⟨he, h1, fun n v => ?_⟩
    rw [h2]
    constructor
    · rintro ⟨hn, hl⟩; exact ⟨hn, (h n v hn).mp hl⟩
    · rintro ⟨hn, hl⟩; exact ⟨hn, (h n v hn).mpr hl⟩

theorem strict_names_ext {l l' : List (Bytes × Bytes)} (h : (l.map (·.1)).Pairwise fun a b => bytesCmp a b = .lt)
    (h' : (l'.map (·.1)).Pairwise fun a b => bytesCmp a b = .lt) (hm : ∀ p, p ∈ l ↔ p ∈ l') : l = l' := by
  rw [List.pairwise_map] at h h'
  have nd : ∀ {m : List (Bytes × Bytes)}, m.Pairwise (fun a b => bytesCmp a.1 b.1 = .lt) → m.Nodup := by
    intro m hm
    exact hm.imp fun {a b} hab e => by rw [e, bytesCmp_refl] at hab; cases hab
  apply List.Perm.eq_of_pairwise (le := fun a b => bytesCmp a.1 b.1 = .lt)
  · intro a b _ _ h1 h2
    have := bytesCmp_lt_trans h1 h2
    rw [bytesCmp_refl] at this; cases this
  · exact h
  · exact h'
  · exact (List.perm_ext_iff_of_nodup (nd h) (nd h')).mpr hm

/-- metadata are determined by what the request says -/
theorem Spec.MetaOf.unique {has : Bytes → Bytes → Prop} {m m' : Option Meta} (h : MetaOf has m) (h' : MetaOf has m') : m = m' := by
  cases m with
  | none =>
    cases m' with
    | none => rfl
    | some m' =>
      exfalso
      obtain ⟨h1, _, h3⟩ := h'
      cases m' with
      | nil => exact h1 rfl
      | cons p r =>
        obtain ⟨g1, g2⟩ := (h3 p.1 p.2).mp List.mem_cons_self
        exact h _ _ g1 g2
  | some m =>
    obtain ⟨h1, h2, h3⟩ := h
    cases m' with
    | none =>
      exfalso
      cases m with
      | nil => exact h1 rfl
      | cons p r =>
        obtain ⟨g1, g2⟩ := (h3 p.1 p.2).mp List.mem_cons_self
        exact h' _ _ g1 g2
    | some m' =>
      obtain ⟨_, g2, g3⟩ := h'
      congr 1
      exact strict_names_ext h2 g2 fun p => by
        obtain ⟨n, v⟩ := p
        rw [h3, g3]

/-! ### the context of an admitted request -/

/-- what the context of an admitted request says about the request -/
structure Admits (lib : Lib) (r : Req) (c : Ctx) : Prop where
  method : c.method = r.method
  path : ∀ a, At r a ↔ c.path.address = a
  header_mem : ∀ n v, c.header n = some v → (n, v) ∈ r.headers
  header_none : ∀ n, c.header n = none ↔ ∀ v, (n, v) ∉ r.headers
  headers : ∀ p, p ∈ c.headers ↔ p ∈ r.headers
  query_mem : ∀ n v, c.query n = some v → (n, v) ∈ queryOf r
  query_none : ∀ n, c.query n = none ↔ ∀ v, (n, v) ∉ queryOf r
  noForm : (∀ b, ¬ IsForm lib r b) → c.multipart = none
  isForm : ∀ f, c.multipart = some f → UploadsForm lib r f
  onlyForm : ∀ f v, UploadsForm lib r f → OnlyHeader r b!"content-type" v → c.multipart = some f
  noForm' : c.multipart = none → ∀ v, HeaderValue r b!"content-type" v → ∀ b, ¬ IsForm lib r b

theorem ready_of_admit {lib : Lib} {auth : Option Provider} {r : Req} {c : Ctx} (h : admit lib auth r = .ok c) : Admits lib r c := by
  obtain ⟨c0, hm, hs⟩ := admit_ok.mp h
  have ha := checkSignature_admitted hs
  have hh : ∀ n, c.header n = c0.header n := fun n => by simp only [Ctx.header, ha.headers]
  have hq : ∀ n, c.query n = c0.query n := fun n => by simp only [Ctx.query, ha.qs]
  have form : (c0.formMime = none ∧ c.multipart = none) ∨
      ∃ m b f, c0.formMime = some m ∧ m.boundary = some b ∧ transformMultipart b r.body = .ok f ∧ c.multipart = some f := by
    simp only [checkSignature] at hs
    split at hs
    · rename_i m hfm
      obtain ⟨p, b, f, h1, h2, h3, h4, rfl⟩ := checkPostSignature_ok.mp hs
      exact .inr ⟨m, b, f, hfm, h2, hm.body ▸ h3, rfl⟩
    · rename_i hfm
      refine .inl ⟨hfm, ?_⟩
      split at hs
      · obtain ⟨p, x, pr, secret, _, _, _, _, _, rfl⟩ := checkPresignedUrl_ok.mp hs
        exact hm.multipart
      · rcases checkHeaderAuth_ok.mp hs with ⟨_, _, rfl⟩ | ⟨v, a, _, _, hca⟩
        · exact hm.multipart
        · obtain ⟨p, ts, secret, sha, date, payload, body, _, hok⟩ := checkAuthorization_ok.mp hca
          rw [hok.result]; exact hm.multipart
  have addr : ∀ a, At r a ↔ c.path.address = a := by
    intro a
    obtain ⟨p, hp1, hp2⟩ := hm.path
    rw [ha.path]
    constructor
    · rintro ⟨p', h1, h2⟩
      rw [hp1] at h1; cases h1
      obtain ⟨s, h3, h4⟩ := (C01_path_addressing p a).mpr h2
      rw [hp2] at h3; cases h3; exact h4
    · intro h3
      exact ⟨p, hp1, (C01_path_addressing p a).mp ⟨_, hp2, h3⟩⟩
  have only : ∀ b v, IsForm lib r b → OnlyHeader r b!"content-type" v → ∃ m, c0.formMime = some m ∧ m.boundary = b := by
    rintro b v ⟨hpost, w, m, h1, h2, h3, h4⟩ ho
    have := ho.2 w h1
    subst this
    exact ⟨m, formMime_only hm hpost ho h2 h3, h4⟩
  refine ⟨ha.method.trans hm.method, addr, fun n v hv => hm.header_mem (hh n ▸ hv), fun n => by rw [hh, hm.header_none], ?_,
    fun n v hv => hm.query_mem (hq n ▸ hv), fun n => by rw [hq, hm.query_none], ?_, ?_, ?_, ?_⟩
  · intro p
    rw [ha.headers]
    have := hm.headers
    simp only [orderedHeaders] at this
    split at this
    · injection this with this; rw [← this]; exact (sortPairs_perm _).mem_iff
    · cases this
  · intro hf
    rcases form with ⟨_, h2⟩ | ⟨m, b, f, h1, _⟩
    · exact h2
    · rw [formMime_none hm hf] at h1; cases h1
  · intro f hf
    rcases form with ⟨_, h2⟩ | ⟨m, b, f', h1, h2, h3, h4⟩
    · rw [h2] at hf; cases hf
    · rw [h4] at hf; cases hf
      exact ⟨b, h2 ▸ formMime_some hm h1, h3⟩
  · rintro f v ⟨b, hf, ht⟩ ho
    obtain ⟨m, h1, h2⟩ := only _ v hf ho
    rcases form with ⟨h3, _⟩ | ⟨m', b', f', h3, h4, h5, h6⟩
    · rw [h1] at h3; cases h3
    · rw [h1] at h3; cases h3
      rw [h2] at h4; cases h4
      rw [ht] at h5; cases h5
      exact h6
  · intro hn v hv b hf
    cases v with
    | none => exact hv _ hf.2.choose_spec.choose_spec.1
    | some v =>
      obtain ⟨m, h1, _⟩ := only b v hf hv
      rcases form with ⟨h3, _⟩ | ⟨m', b', f', h3, h4, h5, h6⟩
      · rw [h1] at h3; cases h3
      · rw [hn] at h6; cases h6

section
variable {lib : Lib} {r : Req} {c : Ctx} (R : Admits lib r c)
include R

theorem Admits.queryValue {n : Bytes} {x : Option Bytes} (h : QueryValue r n x) : c.query n = x := by
  cases x with
  | none => exact (R.query_none n).mpr fun v hv => h ⟨v, hv⟩
  | some v =>
    cases hq : c.query n with
    | none => exact absurd h.1 ((R.query_none n).mp hq v)
    | some w => rw [h.2 w (R.query_mem n w hq)]

theorem Admits.headerValue {n : Bytes} {x : Option Bytes} (h : HeaderValue r n x) : c.header n = x := by
  cases x with
  | none => exact (R.header_none n).mpr h
  | some v =>
    cases hq : c.header n with
    | none => exact absurd h.1 ((R.header_none n).mp hq v)
    | some w => rw [h.2 w (R.header_mem n w hq)]

theorem Admits.valueQuery (hn : NoRepeats r) (n : Bytes) : QueryValue r n (c.query n) := by
  cases hq : c.query n with
  | none => rintro ⟨v, hv⟩; exact (R.query_none n).mp hq v hv
  | some v => exact ⟨R.query_mem n v hq, fun w hw => hn.query n w v hw (R.query_mem n v hq)⟩

theorem Admits.valueHeader (hn : NoRepeats r) (n : Bytes) : HeaderValue r n (c.header n) := by
  cases hq : c.header n with
  | none => exact (R.header_none n).mp hq
  | some v => exact ⟨R.header_mem n v hq, fun w hw => hn.headers n w v hw (R.header_mem n v hq)⟩

theorem Admits.hasParam (n : Bytes) : (c.query n).isSome = true ↔ HasParam r n := by
  cases hq : c.query n with
  | none => simp only [Option.isSome_none, Bool.false_eq_true, false_iff]; rintro ⟨v, hv⟩; exact (R.query_none n).mp hq v hv
  | some v => simp only [Option.isSome_some, true_iff]; exact ⟨v, R.query_mem n v hq⟩

theorem Admits.selects {names : List Bytes} (h : Selects r names) {n : Bytes} (hn : n ∈ subresources) :
    (c.query n).isSome = decide (n ∈ names) := by
  rw [Bool.eq_iff_iff, R.hasParam, h n hn, decide_eq_true_iff]

theorem Admits.object {b k : Bytes} (h : At r (.object b k)) : c.path = .object b k := by
  have := (R.path _).mp h
  cases hp : c.path <;> rw [hp] at this <;> simp only [S3Path.address, reduceCtorEq, Address.object.injEq] at this
  obtain ⟨rfl, rfl⟩ := this; rfl

theorem Admits.bucket {b : Bytes} (h : At r (.bucket b)) : c.path = .bucket b := by
  have := (R.path _).mp h
  cases hp : c.path <;> rw [hp] at this <;> simp only [S3Path.address, reduceCtorEq, Address.bucket.injEq] at this
  subst this; rfl

theorem Admits.root (h : At r .root) : c.path = .root := by
  have := (R.path _).mp h
  cases hp : c.path <;> rw [hp] at this <;> simp only [S3Path.address, reduceCtorEq] at this

theorem Admits.headerMeta (hf : ∀ n v w, n ≠ [] → headerMeta r n v → headerMeta r n w → v = w) :
    MetaOf (headerMeta r) (collectMeta c.headers) := by
  apply collectMeta_of
  intro n v hn
  constructor
  · rintro ⟨a, b, e, _⟩
    exact (R.headers _).mp (by rw [e]; simp [metaPrefix])
  · intro h
    have hm := (R.headers _).mpr h
    have key : ∀ l : List (Bytes × Bytes), (∀ p ∈ l, p ∈ c.headers) → (metaPrefix ++ n, v) ∈ l → LastPair l (metaPrefix ++ n) v := by
      intro l
      induction l using snoc_induction with
      | h0 => intro _ h; cases h
      | h1 l p ih =>
        intro hl hp
        rw [lastPair_append]
        by_cases hpn : p.1 = metaPrefix ++ n
        · left
          obtain ⟨pn, pv⟩ := p
          simp only at hpn
          subst hpn
          rw [hf n pv v hn ((R.headers _).mp (hl (metaPrefix ++ n, pv) (List.mem_append_right _ (List.mem_singleton.mpr rfl)))) h]
        · right
          refine ⟨hpn, ih (fun q hq => hl q (by simp [hq])) ?_⟩
          rcases List.mem_append.mp hp with hp | hp
          · exact hp
          · rw [List.mem_singleton] at hp; rw [← hp] at hpn; exact absurd rfl hpn
    exact key _ (fun _ h => h) hm
end

theorem Spec.MetaOf.functional {has : Bytes → Bytes → Prop} {m : Option Meta} (h : MetaOf has m) :
    ∀ n v w, n ≠ [] → has n v → has n w → v = w := by
  intro n v w hn hv hw
  cases m with
  | none => exact absurd hv (h n v hn)
  | some m =>
    obtain ⟨h1, h2, h3⟩ := h
    clear h1
    have a := (h3 n v).mpr ⟨hn, hv⟩
    have b := (h3 n w).mpr ⟨hn, hw⟩
    rw [List.pairwise_map] at h2
    clear h3
    induction m with
    | nil => cases a
    | cons p m ih =>
      rw [List.pairwise_cons] at h2
      rcases List.mem_cons.mp a with a' | a' <;> rcases List.mem_cons.mp b with b' | b'
      · rw [← a'] at b'; cases b'; rfl
      · have := h2.1 _ b'; rw [← a'] at this; simp only [bytesCmp_refl, reduceCtorEq] at this
      · have := h2.1 _ a'; rw [← b'] at this; simp only [bytesCmp_refl, reduceCtorEq] at this
      · exact ih h2.2 a' b'

theorem fieldMeta_collect (f : Form) : MetaOf (fieldMeta f) (collectMeta (f.fields.map fun p => (p.1.map toLower, p.2))) := by
  have idem : ∀ s : Bytes, (s.map toLower).map toLower = s.map toLower := by
    intro s
    have : ∀ b, toLower (toLower b) = toLower b := by
      intro b; revert b; apply forall_byte; decide +kernel
    simp [this]
  have hpre : metaPrefix.map toLower = metaPrefix := by decide
  apply collectMeta_of
  intro n v hn
  constructor
  · rintro ⟨a, b, e, hb⟩
    obtain ⟨a', t, e1, rfl, e2⟩ := List.map_eq_append_iff.mp e
    obtain ⟨q, b', rfl, e3, rfl⟩ := List.map_eq_cons_iff.mp e2
    obtain ⟨qn, qv⟩ := q
    simp only [Prod.mk.injEq] at e3
    obtain ⟨e3, rfl⟩ := e3
    have hlow : (metaPrefix ++ n).map toLower = metaPrefix ++ n := by rw [← e3, idem]
    refine ⟨?_, a', qn, b', e1, ?_, fun p hp hs => ?_⟩
    · rw [List.map_append, hpre, List.append_cancel_left_eq] at hlow; exact hlow
    · show qn.map toLower = (metaPrefix ++ n).map toLower
      rw [hlow, e3]
    · have := hb (p.1.map toLower, p.2) (List.mem_map.mpr ⟨p, hp, rfl⟩)
      apply this
      show p.1.map toLower = _
      rw [← hlow]; exact hs
  · rintro ⟨hl, a, q, b, e, hq, hb⟩
    have hlow : (metaPrefix ++ n).map toLower = metaPrefix ++ n := by rw [List.map_append, hpre, hl]
    refine ⟨a.map fun p => (p.1.map toLower, p.2), b.map fun p => (p.1.map toLower, p.2), ?_, ?_⟩
    · rw [e, List.map_append, List.map_cons]
      congr 3
      rw [← hlow]; exact hq
    · intro p hp
      obtain ⟨p', hp', rfl⟩ := List.mem_map.mp hp
      intro he
      apply hb p' hp'
      show p'.1.map toLower = (metaPrefix ++ n).map toLower
      rw [hlow]; exact he

theorem findField_value {f : Form} {n : Bytes} : FieldValue f n (findField f.fields n) := by
  cases h : findField f.fields n with
  | none => exact (C53_field_lookup f.fields n).2.mp h
  | some v => exact ((C53_field_lookup f.fields n).1 v).mp h

theorem fieldValue_unique {f : Form} {n : Bytes} {v : Option Bytes} (h : FieldValue f n v) : findField f.fields n = v := by
  cases v with
  | none => exact (C53_field_lookup f.fields n).2.mpr h
  | some v => exact ((C53_field_lookup f.fields n).1 v).mpr h

theorem tryMatch_of {l r : Bytes} {a c : UInt8} (ha : a ≠ 10) (hc : c ≠ 10) : copySourceTryMatch (l ++ a :: 47 :: c :: r) = true := by
  induction l with
  | nil => simp [copySourceTryMatch, ha, hc]
  | cons x l ih =>
    cases l with
    | nil => simp only [List.cons_append, List.nil_append] at ih ⊢; rw [copySourceTryMatch, ih]; simp
    | cons y l =>
      cases l with
      | nil => simp only [List.cons_append, List.nil_append] at ih ⊢; rw [copySourceTryMatch, ih]; simp
      | cons z l => simp only [List.cons_append] at ih ⊢; rw [copySourceTryMatch, ih]; simp

theorem tryMatch_source {b k : Bytes} (hb : LegalBucket b) (hk : k ≠ []) (h10 : (10 : UInt8) ∉ k) :
    copySourceTryMatch (b ++ b!"/" ++ k) = true := by
  rcases List.eq_nil_or_concat b with rfl | ⟨b', a, rfl⟩
  · exact absurd rfl (legal_nonempty hb)
  · cases k with
    | nil => exact absurd rfl hk
    | cons c r =>
      rw [List.concat_eq_append] at hb ⊢
      have ha : a ≠ 10 := by
        rintro rfl
        rcases hb.chars 10 (by simp) with (h | h) | h | h <;> revert h <;> decide
      have hc : c ≠ 10 := by rintro rfl; exact h10 (by simp)
      have := tryMatch_of (l := b') (r := r) ha hc
      simpa using this

end S3
