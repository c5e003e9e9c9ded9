import Verif.Model.Resolve
import Verif.Model.Path
import Verif.Spec.Key
import Verif.Props.Encoding
import Verif.Props.Path
import Verif.Lemmas.Bytes
/-! Lemmas about path resolution. -/
namespace S3
open Spec

theorem foldl_dedot_mem {l st : List Bytes} {c : Bytes} (h : c ∈ l.foldl dedotStep st) :
    c ∈ st ∨ c ∈ l := by
  induction l generalizing st with
  | nil => exact Or.inl h
  | cons x l ih =>
    rcases ih h with h | h
    · simp only [dedotStep] at h
      split at h
      · exact Or.inl (List.dropLast_subset _ h)
      · rcases List.mem_append.mp h with h | h
        · exact Or.inl h
        · simp at h; simp [h]
    · simp [h]

theorem foldl_dedot_plain {l st : List Bytes} (h : b!".." ∉ l) : l.foldl dedotStep st = st ++ l := by
  induction l generalizing st with
  | nil => simp
  | cons x l ih =>
    simp only [List.mem_cons, not_or] at h
    rw [List.foldl_cons, ih h.2]
    have : x ≠ b!".." := fun e => h.1 e.symm
    simp [dedotStep, this]

theorem resolve_under {cfg : Cfg} {s : Bytes} {p : OsPath} (h : resolveVirtual cfg s = some p) :
    cfg.root <+: p.comps := by
  simp only [resolveVirtual] at h
  split at h
  · split at h
    · rename_i hp
      cases h
      exact List.isPrefixOf_iff_prefix.mp hp
    · cases h
  · cases h
    exact ⟨_, rfl⟩

theorem pathComps_of_plain {cs : List Bytes} (hne : cs ≠ []) (h : ∀ c ∈ cs, PlainComp c) :
    pathComps (joinWith 47 cs) = cs ∧ startsWith (joinWith 47 cs) b!"/" = false := by
  have hs : splitAll 47 (joinWith 47 cs) = cs := splitAll_joinWith hne (fun p hp => (h p hp).noSlash)
  have hf : cs.filter (· ≠ []) = cs := List.filter_eq_self.mpr (fun c hc => by
    simpa using (h c hc).nonempty)
  have hst : startsWith (joinWith 47 cs) b!"/" = false := by
    cases cs with
    | nil => exact absurd rfl hne
    | cons c r =>
      have hc := h c (by simp)
      cases c with
      | nil => exact absurd rfl hc.nonempty
      | cons x xs =>
        have hx : x ≠ 47 := fun e => hc.noSlash (by simp [e])
        have : ∃ t, joinWith 47 ((x :: xs) :: r) = x :: t := by
          cases r with
          | nil => exact ⟨xs, rfl⟩
          | cons y r => exact ⟨xs ++ 47 :: joinWith 47 (y :: r), rfl⟩
        obtain ⟨t, ht⟩ := this
        rw [ht, startsWith]
        simp [List.isPrefixOf, hx.symm]
  refine ⟨?_, hst⟩
  simp only [pathComps, hst, hs, hf]
  cases cs with
  | nil => exact absurd rfl hne
  | cons c r =>
    simp only [Bool.false_eq_true, if_false]
    congr 1
    exact List.filter_eq_self.mpr (fun x hx => by simpa using (h x (by simp [hx])).notDot)

theorem joinWith_last {cs : List Bytes} (hne : cs ≠ []) (h : ∀ c ∈ cs, PlainComp c) :
    ∃ t l, joinWith 47 cs = t ++ l ∧ PlainComp l ∧ (t = [] ∨ ∃ u, t = u ++ [47]) := by
  induction cs with
  | nil => exact absurd rfl hne
  | cons c r ih =>
    cases r with
    | nil => exact ⟨[], c, rfl, h c (by simp), Or.inl rfl⟩
    | cons y r =>
      obtain ⟨t, l, he, hl, ht⟩ := ih (by simp) (fun x hx => h x (List.mem_cons_of_mem _ hx))
      refine ⟨c ++ 47 :: t, l, ?_, hl, Or.inr ?_⟩
      · show c ++ 47 :: joinWith 47 (y :: r) = _
        rw [he]; simp
      · rcases ht with rfl | ⟨u, rfl⟩
        · exact ⟨c, rfl⟩
        · exact ⟨c ++ 47 :: u, by simp⟩

theorem endsAsDir_plain {cs : List Bytes} (hne : cs ≠ []) (h : ∀ c ∈ cs, PlainComp c) :
    endsAsDir (joinWith 47 cs) = false := by
  obtain ⟨t, l, he, hl, ht⟩ := joinWith_last hne h
  rw [he]
  have hne : l ≠ [] := hl.nonempty
  have h1 : endsWithByte (t ++ l) 47 = false := by
    cases hb : endsWithByte (t ++ l) 47 with
    | false => rfl
    | true =>
      simp only [endsWithByte, beq_iff_eq] at hb
      rw [List.getLast?_append, List.getLast?_eq_some_getLast hne] at hb
      simp at hb
      exact absurd (hb ▸ List.getLast_mem hne) hl.noSlash
  have h2 : ((t ++ l).reverse.take 2 == b!"./") = false := by
    rw [beq_eq_false_iff_ne]
    intro e
    rw [List.reverse_append] at e
    -- reversed last component starts with '.', second character is '/'
    match hr : l.reverse with
    | [] => exact hne (by simpa using hr)
    | [x] =>
      rw [hr] at e
      have hx : x = 46 := by simpa using congrArg List.head? e
      exact hl.notDot (by
        have := congrArg List.reverse hr
        simp at this; rw [this, hx])
    | x :: y :: r =>
      rw [hr] at e
      simp at e
      have : y ∈ l := by
        rw [← List.mem_reverse, hr]; simp
      rw [e.2] at this
      exact hl.noSlash this
  rw [endsAsDir, h1, h2]; rfl

/-- a plain relative path resolves to the root followed by its components -/
theorem resolve_plain (cfg : Cfg) {cs : List Bytes} (hne : cs ≠ []) (h : ∀ c ∈ cs, PlainComp c) :
    resolveVirtual cfg (joinWith 47 cs) = some ⟨cfg.root ++ cs, false⟩ := by
  obtain ⟨hp, hs⟩ := pathComps_of_plain hne h
  have hpd : parseDot cfg (joinWith 47 cs) = (false, cs) := by
    simp only [parseDot, hs, hp]
    cases cs with
    | nil => exact absurd rfl hne
    | cons c r =>
      have hc := h c (by simp)
      have hd : b!".." ∉ r := fun hm => (h _ (by simp [hm])).notDotDot rfl
      simp only [Bool.false_eq_true, if_false, hc.notDot, hc.notDotDot, foldl_dedot_plain hd]
      rfl
  simp only [resolveVirtual, hpd, endsAsDir_plain hne h]
  cases cs with
  | nil => exact absurd rfl hne
  | cons c r => simp

theorem legal_plain {b : Bytes} (h : checkBucketName b = true) : PlainComp b := by
  have hl := (C02_bucket_name_rule b).mp h
  have hne : b ≠ [] := by rintro rfl; have := hl.len.1; simp at this
  refine ⟨hne, ?_, ?_, ?_⟩
  · intro hm
    rcases hl.chars _ hm with h | h | h
    · rcases h with h | h <;> exact absurd h (by decide)
    · exact absurd h (by decide)
    · exact absurd h (by decide)
  · rintro rfl; have := hl.len.1; simp at this
  · rintro rfl; have := hl.len.1; simp at this

theorem legal_nameOk {b : Bytes} (h : checkBucketName b = true) : b.length ≤ 255 ∧ (0 : UInt8) ∉ b := by
  have hl := (C02_bucket_name_rule b).mp h
  refine ⟨by have := hl.len.2; omega, ?_⟩
  intro hm
  rcases hl.chars _ hm with h | h | h
  · rcases h with h | h <;> exact absurd h (by decide)
  · exact absurd h (by decide)
  · exact absurd h (by decide)

theorem bucketPath_legal (cfg : Cfg) {b : Bytes} (h : checkBucketName b = true) :
    bucketPath cfg b = some ⟨cfg.root ++ [b], false⟩ := by
  have := resolve_plain cfg (cs := [b]) (by simp) (by
    intro c hc; simp at hc; subst hc; exact legal_plain h)
  simpa [bucketPath, joinWith] using this

theorem objectPath_plain (cfg : Cfg) {b k : Bytes} {cs : List Bytes} (h : checkBucketName b = true)
    (hk : PlainKey k cs) : objectPath cfg b k = some ⟨cfg.root ++ b :: cs, false⟩ := by
  have hb := legal_plain h
  have hj : pathJoin b k = joinWith 47 (b :: cs) := by
    have hs := (pathComps_of_plain hk.nonempty hk.comps).2
    have he : endsWithByte b 47 = false := by
      cases hb' : endsWithByte b 47 with
      | false => rfl
      | true =>
        simp only [endsWithByte, beq_iff_eq] at hb'
        exact absurd (List.mem_of_getLast? hb') hb.noSlash
    rw [hk.text]
    simp only [pathJoin, hs, he, hb.nonempty]
    cases hcs : cs with
    | nil => exact absurd hcs hk.nonempty
    | cons c r => simp [joinWith]
  rw [objectPath, hj]
  have := resolve_plain cfg (cs := b :: cs) (by simp) (by
    intro c hc
    rcases List.mem_cons.mp hc with rfl | hc
    · exact hb
    · exact hk.comps c hc)
  simpa using this

theorem single_resolve (cfg : Cfg) {s : Bytes} (h : PlainComp s) :
    resolveVirtual cfg s = some ⟨cfg.root ++ [s], false⟩ := by
  have := resolve_plain cfg (cs := [s]) (by simp) (by intro c hc; simp at hc; subst hc; exact h)
  simpa [joinWith] using this

theorem metadataName_plain (b k : Bytes) : PlainComp (metadataName b k) := by
  refine ⟨by simp [metadataName], ?_, ?_, ?_⟩
  · intro h
    have ha : ∀ s : Bytes, (47 : UInt8) ∉ b64Encode s := by
      intro s hm
      have := b64Encode_alpha s _ hm
      exact absurd this (by decide)
    simp only [metadataName, List.mem_append] at h
    rcases h with (((h | h) | h) | h) | h
    · exact absurd h (by decide)
    · exact ha _ h
    · exact absurd h (by decide)
    · exact ha _ h
    · exact absurd h (by decide)
  · intro h
    have := congrArg List.length h
    simp [metadataName] at this
  · intro h
    have := congrArg List.length h
    simp [metadataName] at this

theorem metadataPath_eq (cfg : Cfg) (b k : Bytes) :
    metadataPath cfg b k = some ⟨cfg.root ++ [metadataName b k], false⟩ :=
  single_resolve cfg (metadataName_plain b k)

theorem partName_plain {u : Bytes} (h : (47 : UInt8) ∉ u) (n : Int) : PlainComp (partName u n) := by
  refine ⟨by simp [partName], ?_, ?_, ?_⟩
  · intro hm
    simp only [partName, List.mem_append] at hm
    rcases hm with ((hm | hm) | hm) | hm
    · exact absurd hm (by decide)
    · exact h hm
    · exact absurd hm (by decide)
    · have hd : ∀ m : Nat, (47 : UInt8) ∉ natDigits m := by
        intro m hm
        have := (natDigits_spec m).2.1 _ hm
        exact absurd this (by decide)
      cases n with
      | ofNat m => exact hd _ hm
      | negSucc m =>
        simp only [intDigits, List.mem_cons] at hm
        rcases hm with hm | hm
        · exact absurd hm (by decide)
        · exact hd _ hm
  · intro h
    have := congrArg List.length h
    simp [partName] at this
  · intro h
    have := congrArg List.length h
    simp [partName] at this

theorem partPath_eq (cfg : Cfg) {u : Bytes} (h : (47 : UInt8) ∉ u) (n : Int) :
    partPath cfg u n = some ⟨cfg.root ++ [partName u n], false⟩ :=
  single_resolve cfg (partName_plain h n)

/-- the components of a key that name something: no empty ones, no `.` -/
def keyComps (k : Bytes) : List Bytes := ((splitAll 47 k).filter (· ≠ [])).filter (· ≠ b!".")

theorem join_relative {b k : Bytes} (h : checkBucketName b = true) (h1 : startsWith k b!"/" = false) :
    pathJoin b k = b ++ 47 :: k ∧ startsWith (b ++ 47 :: k) b!"/" = false ∧
      pathComps (b ++ 47 :: k) = b :: keyComps k := by
  have hb := legal_plain h
  have he : endsWithByte b 47 = false := by
    cases hb' : endsWithByte b 47 with
    | false => rfl
    | true =>
      obtain ⟨t, ht⟩ := endsWithByte_iff.mp hb'
      exact absurd (by rw [ht]; simp) hb.noSlash
  have hj : pathJoin b k = b ++ 47 :: k := by
    simp [pathJoin, h1, he, hb.nonempty]
  have hsp : splitAll 47 (b ++ 47 :: k) = b :: splitAll 47 k := splitAll_append hb.noSlash
  have hst : startsWith (b ++ 47 :: k) b!"/" = false := by
    cases hx : startsWith (b ++ 47 :: k) b!"/" with
    | false => rfl
    | true =>
      obtain ⟨t, ht⟩ := startsWith_iff.mp hx
      cases b with
      | nil => exact absurd rfl hb.nonempty
      | cons x b =>
        simp at ht
        exact absurd (by simp [ht.1]) hb.noSlash
  refine ⟨hj, hst, ?_⟩
  simp only [pathComps, hsp, hst, keyComps]
  rw [List.filter_cons_of_pos (by simpa using hb.nonempty)]
  simp

theorem parseDot_relative (cfg : Cfg) {b k : Bytes} (h : checkBucketName b = true) (h1 : startsWith k b!"/" = false) :
    parseDot cfg (b ++ 47 :: k) = (false, (keyComps k).foldl dedotStep [b]) := by
  have hb := legal_plain h
  obtain ⟨_, hst, hpc⟩ := join_relative h h1
  simp only [parseDot, hst, hpc]
  rw [if_neg (by decide), if_neg hb.notDot, if_neg hb.notDotDot]

/-- a key that is relative and never goes up is resolved below its bucket -/
theorem objectPath_relative (cfg : Cfg) {b k : Bytes} (h : checkBucketName b = true)
    (h1 : startsWith k b!"/" = false) (h2 : b!".." ∉ splitAll 47 k) :
    ∃ s, objectPath cfg b k = some ⟨cfg.root ++ b :: keyComps k, s⟩ := by
  obtain ⟨hj, hst, hpc⟩ := join_relative h h1
  have hpd : parseDot cfg (b ++ 47 :: k) = (false, b :: keyComps k) := by
    rw [parseDot_relative cfg h h1, foldl_dedot_plain]
    · rfl
    · intro hm
      exact h2 (List.mem_filter.mp (List.mem_filter.mp hm).1).1
  refine ⟨cfg.keepSlash && !hasDots (b ++ 47 :: k) && endsAsDir (b ++ 47 :: k), ?_⟩
  simp only [objectPath, hj, resolveVirtual, hpd]
  simp

theorem plain_relative {k : Bytes} {cs : List Bytes} (h : PlainKey k cs) :
    startsWith k b!"/" = false ∧ b!".." ∉ splitAll 47 k ∧ splitAll 47 k = cs := by
  have hs : splitAll 47 k = cs := by
    rw [h.text]; exact splitAll_joinWith h.nonempty (fun p hp => (h.comps p hp).noSlash)
  refine ⟨?_, ?_, hs⟩
  · rw [h.text]; exact (pathComps_of_plain h.nonempty h.comps).2
  · rw [hs]; exact fun hm => (h.comps _ hm).notDotDot rfl

theorem plainKey_unique {k : Bytes} {cs ds : List Bytes} (h : PlainKey k cs) (g : PlainKey k ds) : cs = ds := by
  rw [← (plain_relative h).2.2, (plain_relative g).2.2]

theorem splitAll_snoc {c x : UInt8} (h : x ≠ c) (s : Bytes) :
    ∃ init l, splitAll c (s ++ [x]) = init ++ [l ++ [x]] := by
  induction s with
  | nil => exact ⟨[], [], by simp [splitAll, h]⟩
  | cons y s ih =>
    obtain ⟨init, l, e⟩ := ih
    simp only [List.cons_append, splitAll, e]
    by_cases hy : y = c
    · exact ⟨[] :: init, l, by simp [hy]⟩
    · cases init with
      | nil => exact ⟨[], y :: l, by simp [hy]⟩
      | cons a r => exact ⟨(y :: a) :: r, l, by simp [hy]⟩

/-- if the text ends in a byte other than `/` and `.`, so does the last component of the resolved
path -/
theorem resolve_last {cfg : Cfg} {s : Bytes} {x : UInt8} (h1 : x ≠ 47) (h2 : x ≠ 46) {p : OsPath}
    (h : resolveVirtual cfg (s ++ [x]) = some p) : ∃ q l, p.comps = q ++ [l ++ [x]] := by
  obtain ⟨init, l, e⟩ := splitAll_snoc h1 s
  have hl : l ++ [x] ≠ b!"." ∧ l ++ [x] ≠ b!".." := by
    constructor <;> intro hh <;> have := congrArg List.getLast? hh <;> simp at this <;> exact h2 this
  have hpc : ∃ r, pathComps (s ++ [x]) = r ++ [l ++ [x]] := by
    simp only [pathComps, e, List.filter_append]
    have f1 : [l ++ [x]].filter (· ≠ []) = [l ++ [x]] := by simp
    have f2 : [l ++ [x]].filter (· ≠ b!".") = [l ++ [x]] := by
      rw [List.filter_cons_of_pos (by simpa using hl.1)]; rfl
    rw [f1]
    split
    · rw [f2]; exact ⟨_, rfl⟩
    · cases init.filter (· ≠ []) with
      | nil => exact ⟨[], rfl⟩
      | cons c r =>
        simp only [List.cons_append, List.filter_append]
        rw [f2]
        exact ⟨c :: r.filter (· ≠ b!"."), rfl⟩
  have hfold : ∀ (r : List Bytes) st, (r ++ [l ++ [x]]).foldl dedotStep st
      = (r.foldl dedotStep st) ++ [l ++ [x]] := by
    intro r st
    rw [List.foldl_append]
    simp only [List.foldl_cons, List.foldl_nil, dedotStep, if_neg hl.2]
  obtain ⟨r, hr⟩ := hpc
  have hpd : ∃ q, (parseDot cfg (s ++ [x])).2 = q ++ [l ++ [x]] := by
    simp only [parseDot, hr]
    split
    · exact ⟨_, hfold ..⟩
    · cases r with
      | nil =>
        simp only [List.nil_append]
        rw [if_neg hl.1, if_neg hl.2]
        exact ⟨[], rfl⟩
      | cons c r =>
        simp only [List.cons_append]
        split
        · exact ⟨_, hfold ..⟩
        · split
          · exact ⟨_, hfold ..⟩
          · exact ⟨_, hfold ..⟩
  obtain ⟨q, hq⟩ := hpd
  simp only [resolveVirtual] at h
  split at h
  · split at h
    · cases h; exact ⟨q, l, hq⟩
    · cases h
  · cases h; exact ⟨cfg.root ++ q, l, by simp [hq]⟩

theorem intDigits_last (n : Int) : ∃ t d, intDigits n = t ++ [d] ∧ isDigit d = true := by
  have key : ∀ m, ∃ t d, natDigits m = t ++ [d] ∧ isDigit d = true := by
    intro m
    have := natDigits_spec m
    obtain ⟨h1, h2, _⟩ := this
    have hne : natDigits m ≠ [] := h1
    exact ⟨_, _, (List.dropLast_concat_getLast hne).symm, h2 _ (List.getLast_mem hne)⟩
  cases n with
  | ofNat m => exact key m
  | negSucc m =>
    obtain ⟨t, d, h, hd⟩ := key (m + 1)
    exact ⟨45 :: t, d, by simp [intDigits, h], hd⟩

/-- the last component of any part path ends in a digit -/
theorem partPath_last {cfg : Cfg} {u : Bytes} {n : Int} {p : OsPath} (h : partPath cfg u n = some p) :
    ∃ q l d, p.comps = q ++ [l ++ [d]] ∧ isDigit d = true := by
  obtain ⟨t, d, ht, hd⟩ := intDigits_last n
  have : partName u n = (b!".upload_id-" ++ u ++ b!".part-" ++ t) ++ [d] := by
    simp [partName, ht]
  rw [partPath, this] at h
  obtain ⟨q, l, e⟩ := resolve_last (by rintro rfl; revert hd; decide) (by rintro rfl; revert hd; decide) h
  exact ⟨q, l, d, e, hd⟩

theorem metadataName_inj {b k b' k' : Bytes} (h : metadataName b k = metadataName b' k') :
    b = b' ∧ k = k' := by
  have nodot : ∀ s : Bytes, (46 : UInt8) ∉ b64Encode s := by
    intro s hm
    exact absurd (b64Encode_alpha s _ hm) (by decide)
  have h' : b64Encode b ++ 46 :: (b!"object-" ++ b64Encode k ++ b!".metadata.json")
      = b64Encode b' ++ 46 :: (b!"object-" ++ b64Encode k' ++ b!".metadata.json") := by
    simp only [metadataName] at h
    simpa using h
  obtain ⟨e1, e2⟩ := sep_inj h' (nodot b) (nodot b')
  refine ⟨b64Encode_inj e1, ?_⟩
  have e3 : b64Encode k ++ b!".metadata.json" = b64Encode k' ++ b!".metadata.json" := by simpa using e2
  exact b64Encode_inj (List.append_cancel_right e3)

theorem metadataName_last (b k : Bytes) : ∃ t, metadataName b k = t ++ [110] :=
  ⟨b!".bucket-" ++ b64Encode b ++ b!".object-" ++ b64Encode k ++ b!".metadata.jso", by simp [metadataName]⟩

theorem b64Encode_length (s : Bytes) : s.length ≤ (b64Encode s).length := by
  induction s using b64Encode.induct with
  | case1 => simp [b64Encode]
  | case2 a => simp [b64Encode]
  | case3 a b => simp [b64Encode]
  | case4 a b c r ih => simp [b64Encode] at ih ⊢; omega

end S3
