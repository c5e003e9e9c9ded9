import Verif.Spec.Place
import Verif.Lemmas.Resolve
import Verif.Props.Path
import Verif.Props.Frame
/-! Path resolution follows the segments of the key. -/
namespace S3
open Spec

theorem walk_fold {p segs q : List Bytes} :
    Walk p segs q ↔ q = ((segs.filter (· ≠ [])).filter (· ≠ b!".")).foldl dedotStep p := by
  constructor
  · intro h
    induction h with
    | arrived => rfl
    | empty _ ih => simpa using ih
    | dot _ ih => rw [List.filter_cons_of_pos (by decide), List.filter_cons_of_neg (by decide)]; exact ih
    | top _ ih =>
      rw [List.filter_cons_of_pos (by decide), List.filter_cons_of_pos (by decide)]
      exact ih
    | @parent p segs q d _ ih =>
      rw [List.filter_cons_of_pos (by decide), List.filter_cons_of_pos (by decide), List.foldl_cons]
      have : dedotStep (p ++ [d]) b!".." = p := by simp [dedotStep]
      rw [this]; exact ih
    | @enter p segs q n h1 h2 h3 _ ih =>
      rw [List.filter_cons_of_pos (by simpa using h1), List.filter_cons_of_pos (by simpa using h2), List.foldl_cons]
      have : dedotStep p n = p ++ [n] := by simp [dedotStep, h3]
      rw [this]; exact ih
  · rintro rfl
    induction segs generalizing p with
    | nil => exact .arrived
    | cons s segs ih =>
      by_cases h1 : s = []
      · subst h1
        rw [List.filter_cons_of_neg (by simp)]
        exact .empty ih
      · rw [List.filter_cons_of_pos (by simpa using h1)]
        by_cases h2 : s = b!"."
        · subst h2
          rw [List.filter_cons_of_neg (by decide)]
          exact .dot ih
        · rw [List.filter_cons_of_pos (by simpa using h2), List.foldl_cons]
          by_cases h3 : s = b!".."
          · subst h3
            rcases List.eq_nil_or_concat p with rfl | ⟨p', d, rfl⟩
            · exact .top ih
            · rw [List.concat_eq_append]
              have : dedotStep (p' ++ [d]) b!".." = p' := by simp [dedotStep]
              rw [this]
              exact .parent ih
          · have : dedotStep p s = p ++ [s] := by simp [dedotStep, h3]
            rw [this]
            exact .enter h1 h2 h3 ih

theorem segments_split {k : Bytes} {segs : List Bytes} : Segments k segs ↔ segs = splitAll 47 k := by
  constructor
  · intro h
    rw [h.text, splitAll_joinWith h.nonempty h.noSlash]
  · rintro rfl
    exact ⟨(joinWith_splitAll 47 k).symm, splitAll_ne_nil _ _, fun s hs => not_mem_of_mem_splitAll hs⟩

theorem place_iff {root p : List Bytes} {b k : Bytes} :
    Place root b k p ↔
      if startsWith k b!"/" = true then root ++ p = (keyComps k).foldl dedotStep []
      else p = (keyComps k).foldl dedotStep [b] := by
  constructor
  · rintro (⟨hs, hn, hw⟩ | ⟨hs, hn, hw⟩)
    · rw [if_neg (fun h => by obtain ⟨t, ht⟩ := startsWith_iff.mp h; exact hn t ht)]
      rw [segments_split] at hs; subst hs
      exact walk_fold.mp hw
    · rw [if_pos (startsWith_iff.mpr hn)]
      rw [segments_split] at hs; subst hs
      exact walk_fold.mp hw
  · intro h
    split at h
    · rename_i h1
      exact .absolute (segments_split.mpr rfl) (startsWith_iff.mp h1) (walk_fold.mpr h)
    · rename_i h1
      exact .relative (segments_split.mpr rfl) (fun t ht => h1 (startsWith_iff.mpr ⟨t, ht⟩)) (walk_fold.mpr h)

theorem endsAsDir_iff {s : Bytes} (h : endsAsDir s = true) : (∃ t, s = t ++ b!"/") ∨ ∃ t, s = t ++ b!"/." := by
  simp only [endsAsDir, Bool.or_eq_true, beq_iff_eq] at h
  rcases h with h | h
  · exact Or.inl (endsWithByte_iff.mp h)
  · refine Or.inr ⟨(s.reverse.drop 2).reverse, ?_⟩
    have h2 := List.take_append_drop 2 s.reverse
    rw [h] at h2
    have := congrArg List.reverse h2
    rw [List.reverse_reverse, List.reverse_append] at this
    exact this.symm

/-- what a text that ends in `x` and is cut off before `x` says about its own tail -/
theorem tail_cases {b k t x : Bytes} (h : b ++ 47 :: k = t ++ x) :
    (∃ t', k = t' ++ x) ∨ ∃ y, x = y ++ 47 :: k := by
  rcases List.append_eq_append_iff.mp h with ⟨y, h1, h2⟩ | ⟨y, h1, h2⟩
  · cases y with
    | nil => exact Or.inr ⟨[], h2.symm⟩
    | cons a y =>
      simp only [List.cons_append, List.cons.injEq] at h2
      exact Or.inl ⟨y, h2.2⟩
  · exact Or.inr ⟨y, h2⟩

theorem namesFile_dir {b k : Bytes} (h : NamesFile k) : endsAsDir (b ++ 47 :: k) = false ∧ endsAsDir k = false := by
  constructor
  · cases he : endsAsDir (b ++ 47 :: k) with
    | false => rfl
    | true =>
      rcases endsAsDir_iff he with ⟨t, ht⟩ | ⟨t, ht⟩
      · rcases tail_cases ht with ⟨t', h'⟩ | ⟨y, h'⟩
        · exact absurd h' (h.noSlash t')
        · rcases y with _ | ⟨_, _ | _⟩ <;> simp at h'
          exact absurd h'.symm (by simpa using h.nonempty)
      · rcases tail_cases ht with ⟨t', h'⟩ | ⟨y, h'⟩
        · exact absurd h' (h.noSlashDot t')
        · have hl := congrArg List.length h'
          simp at hl
          rcases y with _ | ⟨_, y⟩
          · simp at h'
            exact absurd h'.symm h.notDot
          · exact absurd (List.eq_nil_of_length_eq_zero (by simp at hl; omega)) h.nonempty
  · cases he : endsAsDir k with
    | false => rfl
    | true =>
      rcases endsAsDir_iff he with ⟨t, ht⟩ | ⟨t, ht⟩
      · exact absurd ht (h.noSlash t)
      · exact absurd ht (h.noSlashDot t)

theorem namesFile_slash {k : Bytes} (h : NamesFile k) : endsWithByte k 47 = false := by
  cases he : endsWithByte k 47 with
  | false => rfl
  | true => obtain ⟨t, ht⟩ := endsWithByte_iff.mp he; exact absurd ht (h.noSlash t)

theorem inBucket_ne {p : List Bytes} (h : InBucket p) : p ≠ [] := by
  obtain ⟨c, d, r, rfl, _⟩ := h; simp

/-- the model resolves an address to its place -/
theorem objectPath_names (cfg : Cfg) {b k : Bytes} {p : List Bytes} (h : Names cfg.root b k p) :
    objectPath cfg b k = some ⟨cfg.root ++ p, false⟩ := by
  have hb := (C02_bucket_name_rule b).mpr h.bucket
  obtain ⟨e1, e2⟩ := namesFile_dir (b := b) h.key
  have hp := place_iff.mp h.place
  split at hp
  · rename_i h1
    have hj : pathJoin b k = k := by simp only [pathJoin, h1, if_true]
    have hd : parseDot cfg k = (true, cfg.root ++ p) := by
      simp only [parseDot, h1, if_true, pathComps]
      rw [hp]; rfl
    simp only [objectPath, hj, resolveVirtual, hd, e2, Bool.and_false, if_true]
    rw [if_pos]
    rw [List.isPrefixOf_iff_prefix]; exact List.prefix_append _ _
  · rename_i h1
    have h1 : startsWith k b!"/" = false := by simpa using h1
    obtain ⟨hj, _, _⟩ := join_relative hb h1
    have hd := parseDot_relative cfg hb h1
    rw [← hp] at hd
    have hne : p.isEmpty = false := by
      cases hx : p with
      | nil => exact absurd hx (inBucket_ne h.inside)
      | cons => rfl
    simp only [objectPath, hj, resolveVirtual, hd, e1, hne, Bool.and_false, Bool.or_false]
    rfl

theorem stored_names {cfg : Cfg} {b k : Bytes} {p : List Bytes} (h : Names cfg.root b k p) (fs : FS) :
    stored cfg fs b k = contentAt fs (cfg.root ++ p) := by
  simp [stored, objectPath_names cfg h]

theorem objP_names {cfg : Cfg} {b k : Bytes} {p : List Bytes} (h : Names cfg.root b k p) {q : Path} :
    objP cfg b k q ↔ q = cfg.root ++ p := by
  constructor
  · rintro ⟨o, ho, rfl⟩
    rw [objectPath_names cfg h] at ho
    cases ho; rfl
  · rintro rfl
    exact ⟨_, objectPath_names cfg h, rfl⟩

theorem place_not_meta {cfg : Cfg} {p : List Bytes} (h : InBucket p) (b k : Bytes) :
    ¬ metaFile cfg b k <+: cfg.root ++ p := by
  obtain ⟨c, d, r, rfl, hc⟩ := h
  intro hp
  rw [metaFile, List.prefix_append_right_inj] at hp
  have := (List.cons_prefix_cons.mp hp).1
  exact metaFile_ne_bucket cfg b k ((C02_bucket_name_rule c).mpr hc) (by rw [metaFile, this])

theorem place_not_hidden {cfg : Cfg} {p : List Bytes} (h : InBucket p) (n : Bytes) : cfg.root ++ p ≠ cfg.root ++ [n] := by
  obtain ⟨c, d, r, rfl, hc⟩ := h
  simp

theorem own_names {cfg : Cfg} {o : Op} {b k : Bytes} {p : List Bytes} (hn : Names cfg.root b k p)
    (hwr : WritesTo b k o) {q : Path} (h : opOwn cfg o q) :
    q = cfg.root ++ p ∨ q = metaFile cfg b k ∨
      ∃ u n, partP cfg u n q ∧ q = cfg.root ++ [partName u n] := by
  have hm : ∀ {q}, metaP cfg b k q → q = metaFile cfg b k := fun h => h
  cases o with
  | putObject i =>
    obtain ⟨rfl, rfl⟩ := hwr
    rcases h with h | h | h
    · rcases h.2 with h | h
      · exact Or.inl ((objP_names hn).mp h)
      · exact Or.inr (Or.inl (hm h.2))
    · exact h.elim
    · exact h.elim
  | deleteObject b' k' =>
    obtain ⟨rfl, rfl⟩ := hwr
    rcases h with h | h | h
    · exact h.elim
    · exact Or.inl ((objP_names hn).mp h.2)
    · exact Or.inl ((objP_names hn).mp h.2)
  | copyObject b' k' s =>
    obtain ⟨rfl, rfl⟩ := hwr
    rcases h with h | h | h
    · rcases h with h | h
      · exact Or.inl ((objP_names hn).mp h)
      · exact Or.inr (Or.inl (hm h))
    · exact h.elim
    · exact h.elim
  | completeMultipartUpload b' k' u parts =>
    obtain ⟨rfl, rfl, hu⟩ := hwr
    rcases h with h | h | h
    · exact Or.inl ((objP_names hn).mp h)
    · obtain ⟨l, n, _, _, h⟩ := h
      exact Or.inr (Or.inr ⟨u, n, h, partP_eq hu h⟩)
    · exact h.elim
  | uploadPart u n body =>
    rcases h with h | h | h
    · exact Or.inr (Or.inr ⟨u, n, h, partP_eq hwr h⟩)
    · exact h.elim
    · exact h.elim
  | _ => exact hwr.elim

end S3
