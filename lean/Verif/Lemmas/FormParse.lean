import Verif.Lemmas.Form
import Verif.Lemmas.Utf8
/-! How the form parser behaves when more text arrives. -/
namespace S3
open Spec

theorem takeWhile_more {p : UInt8 → Bool} {s t : Bytes} (h : s.drop (s.takeWhile p).length ≠ []) :
    (s ++ t).takeWhile p = s.takeWhile p := by
  induction s with
  | nil => exact absurd rfl h
  | cons c r ih =>
    simp only [List.cons_append, List.takeWhile_cons] at h ⊢
    split
    · rename_i hc
      rw [if_pos hc] at h
      rw [ih (by simpa using h)]
    · rfl

theorem dropWhile_more {p : UInt8 → Bool} {s t : Bytes} (h : s.dropWhile p ≠ []) : (s ++ t).dropWhile p = s.dropWhile p ++ t := by
  induction s with
  | nil => exact absurd rfl h
  | cons c r ih =>
    simp only [List.cons_append, List.dropWhile_cons] at h ⊢
    split
    · rename_i hc
      rw [if_pos hc] at h
      exact ih h
    · rfl

theorem drop_takeWhile_more {p : UInt8 → Bool} {s t r : Bytes} {c : UInt8} (h : s.drop (s.takeWhile p).length = c :: r) :
    (s ++ t).takeWhile p = s.takeWhile p ∧ (s ++ t).drop ((s ++ t).takeWhile p).length = c :: (r ++ t) := by
  have h1 : (s ++ t).takeWhile p = s.takeWhile p := takeWhile_more (by rw [h]; simp)
  refine ⟨h1, ?_⟩
  rw [h1, List.drop_append_of_le_length (List.takeWhile_prefix p).length_le, h]
  rfl

theorem parseHeaderLine_more {s : Bytes} (t : Bytes) :
    (∀ h r, parseHeaderLine s = .inl (h, r) → parseHeaderLine (s ++ t) = .inl (h, r ++ t)) ∧
    (parseHeaderLine s = .inr false → parseHeaderLine (s ++ t) = .inr false) := by
  unfold parseHeaderLine
  simp only []
  cases h1 : s.drop (s.takeWhile isTchar).length with
  | nil => exact ⟨by simp, by simp⟩
  | cons c r =>
    obtain ⟨e1, e2⟩ := drop_takeWhile_more (t := t) h1
    rw [e2, e1]
    simp only []
    by_cases hc : c ≠ 58
    · rw [if_pos hc, if_pos hc]
      exact ⟨fun h r e => (by cases e), fun _ => rfl⟩
    · rw [if_neg hc, if_neg hc]
      cases h2 : (r.dropWhile isBlank).drop ((r.dropWhile isBlank).takeWhile isValueChar).length with
      | nil => exact ⟨by simp, by simp⟩
      | cons c2 r2 =>
        have hne : r.dropWhile isBlank ≠ [] := by
          intro e; rw [e] at h2; simp at h2
        rw [dropWhile_more hne]
        obtain ⟨e3, e4⟩ := drop_takeWhile_more (t := t) h2
        rw [e4, e3]
        simp only []
        by_cases hc2 : c2 = 10
        · rw [if_pos hc2, if_pos hc2]
          exact ⟨fun h r e => (by cases e; rfl), fun e => (by cases e)⟩
        · rw [if_neg hc2, if_neg hc2]
          by_cases hc3 : c2 ≠ 13
          · rw [if_pos hc3, if_pos hc3]
            exact ⟨fun h r e => (by cases e), fun _ => rfl⟩
          · rw [if_neg hc3, if_neg hc3]
            cases r2 with
            | nil => exact ⟨fun h r e => (by cases e), fun e => (by cases e)⟩
            | cons c4 r4 =>
              simp only [List.cons_append]
              split
              · exact ⟨fun h r e => (by cases e; rfl), fun e => (by cases e)⟩
              · exact ⟨fun h r e => (by cases e), fun _ => rfl⟩

theorem parseHeaders_more (n : Nat) {s : Bytes} (t : Bytes) :
    (∀ hs r, parseHeaders n s = .complete hs r → parseHeaders n (s ++ t) = .complete hs (r ++ t)) ∧
    (parseHeaders n s = .bad → parseHeaders n (s ++ t) = .bad) := by
  induction n generalizing s with
  | zero =>
    rw [parseHeaders.eq_def 0 s, parseHeaders.eq_def 0 (s ++ t)]
    cases s with
    | nil => exact ⟨fun hs r e => (by cases e), fun e => (by cases e)⟩
    | cons c r =>
      simp only [List.cons_append]
      split
      · exact ⟨fun hs r e => (by cases e; rfl), fun e => (by cases e)⟩
      · split
        · cases r with
          | nil => exact ⟨fun hs r e => (by cases e), fun e => (by cases e)⟩
          | cons c2 r2 =>
            simp only [List.cons_append]
            split
            · exact ⟨fun hs r e => (by cases e; rfl), fun e => (by cases e)⟩
            · exact ⟨fun hs r e => (by cases e), fun _ => rfl⟩
        · split
          · exact ⟨fun hs r e => (by cases e), fun _ => rfl⟩
          · exact ⟨fun hs r e => (by cases e), fun _ => rfl⟩
  | succ n ih =>
    rw [parseHeaders.eq_def (n + 1) s, parseHeaders.eq_def (n + 1) (s ++ t)]
    cases s with
    | nil => exact ⟨fun hs r e => (by cases e), fun e => (by cases e)⟩
    | cons c r =>
      simp only [List.cons_append]
      split
      · exact ⟨fun hs r e => (by cases e; rfl), fun e => (by cases e)⟩
      · split
        · cases r with
          | nil => exact ⟨fun hs r e => (by cases e), fun e => (by cases e)⟩
          | cons c2 r2 =>
            simp only [List.cons_append]
            split
            · exact ⟨fun hs r e => (by cases e; rfl), fun e => (by cases e)⟩
            · exact ⟨fun hs r e => (by cases e), fun _ => rfl⟩
        · split
          · exact ⟨fun hs r e => (by cases e), fun _ => rfl⟩
          · obtain ⟨l1, l2⟩ := parseHeaderLine_more (s := c :: r) t
            rw [← List.cons_append]
            cases hl : parseHeaderLine (c :: r) with
            | inr b =>
              cases b with
              | true => exact ⟨fun hs r e => (by cases e), fun e => (by cases e)⟩
              | false =>
                rw [l2 hl]
                exact ⟨fun hs r e => (by cases e), fun _ => rfl⟩
            | inl p =>
              obtain ⟨h, r'⟩ := p
              rw [l1 _ _ hl]
              simp only []
              obtain ⟨i1, i2⟩ := ih (s := r')
              cases hr : parseHeaders n r' with
              | more => exact ⟨fun hs r e => (by cases e), fun e => (by cases e)⟩
              | bad => rw [i2 hr]; exact ⟨fun hs r e => (by cases e), fun _ => rfl⟩
              | complete hs' r'' =>
                rw [i1 _ _ hr]
                exact ⟨fun hs r e => (by cases e; rfl), fun e => (by cases e)⟩

/-! ### lines -/

theorem splitCrlf_some {s l r : Bytes} (h : splitCrlf s = some (l, r)) : s = l ++ b!"\r\n" ++ r := by
  induction s generalizing l with
  | nil => cases h
  | cons c s ih =>
    simp only [splitCrlf] at h
    split at h
    · rename_i hs
      cases h
      obtain ⟨t, e⟩ := startsWith_pre.mp hs
      cases s with
      | nil => cases e
      | cons d s => cases e; rfl
    · split at h
      · cases h
      · rename_i l' r' h'
        cases h
        rw [ih h']
        rfl

theorem splitCrlf_more {s l r : Bytes} (h : splitCrlf s = some (l, r)) (t : Bytes) : splitCrlf (s ++ t) = some (l, r ++ t) := by
  induction s generalizing l with
  | nil => cases h
  | cons c s ih =>
    simp only [splitCrlf] at h
    simp only [List.cons_append, splitCrlf]
    split at h
    · rename_i hs
      cases h
      have : startsWith (c :: (s ++ t)) b!"\r\n" = true :=
        startsWith_pre.mpr ((startsWith_pre.mp hs).trans ⟨t, rfl⟩)
      rw [if_pos this]
      cases s with
      | nil => exact absurd (startsWith_pre.mp hs).length_le (by simp)
      | cons d s => rfl
    · rename_i hs
      split at h
      · cases h
      · rename_i l' r' h'
        cases h
        have : ¬ startsWith (c :: (s ++ t)) b!"\r\n" = true := by
          intro hp
          cases s with
          | nil => cases h'
          | cons d s =>
            rw [startsWith_pre] at hs hp
            apply hs
            have e : (c :: ((d :: s) ++ t)) = [c, d] ++ (s ++ t) := rfl
            rw [e] at hp
            exact (List.prefix_of_prefix_length_le hp (List.prefix_append _ _) (by simp)).trans ⟨s, rfl⟩
        rw [if_neg this, ih h']

theorem splitCrlf_exists {l r : Bytes} : ∃ l' r', splitCrlf (l ++ b!"\r\n" ++ r) = some (l', r') ∧ l'.length ≤ l.length := by
  induction l with
  | nil => exact ⟨[], r, rfl, Nat.le_refl _⟩
  | cons c l ih =>
    obtain ⟨l', r', h, hl⟩ := ih
    simp only [List.cons_append, splitCrlf]
    split
    · exact ⟨_, _, rfl, by simp⟩
    · simp only [List.append_assoc] at h
      simp only [List.append_assoc, List.cons_append, List.nil_append] at h ⊢
      rw [h]
      exact ⟨_, _, rfl, by simp [hl]⟩

theorem nextLine_more {s l r : Bytes} (h : splitCrlf s = some (l, r)) (t : Bytes) : nextLine (s ++ t) = some (l, r ++ t) := by
  rw [nextLine, splitCrlf_more h]

theorem firstLineWhole_split {s : Bytes} (h : FirstLineWhole s) :
    ∃ l r, splitCrlf s = some (l, r) ∧ (l = [] → ∃ l2 r2, splitCrlf r = some (l2, r2)) := by
  obtain ⟨l, rest, e, hl⟩ := h
  obtain ⟨l', r', h1, h2⟩ := splitCrlf_exists (l := l) (r := rest)
  rw [← e] at h1
  refine ⟨l', r', h1, ?_⟩
  rintro rfl
  have e2 := splitCrlf_some h1
  rw [e2] at e
  cases l with
  | nil => exact absurd rfl hl
  | cons c l =>
    cases l with
    | nil => simp at e
    | cons d l =>
      simp only [List.nil_append, List.cons_append, List.cons.injEq] at e
      rw [e.2.2]
      obtain ⟨l2, r2, h3, _⟩ := splitCrlf_exists (l := l) (r := rest)
      exact ⟨l2, r2, h3⟩

/-! ### the field value -/

/-- `splitTo` without indices -/
def splitRec (pat : Bytes) : Nat → Bytes → Option (Bytes × Bytes)
  | 0, _ => none
  | fuel + 1, s =>
    match nextLine s with
    | none => none
    | some (l, r) => if l = pat then some ([], r) else (splitRec pat fuel r).map fun p => (l ++ b!"\r\n" ++ p.1, p.2)

theorem nextLine_none {s : Bytes} (h : nextLine s = none) : s = [] := by
  simp only [nextLine] at h
  split at h
  · cases h
  · split at h
    · assumption
    · cases h

theorem nextLine_nil : nextLine [] = none := rfl

theorem splitToLoop_rec {pat slice pre rest : Bytes} (fuel : Nat) (h : slice = pre ++ rest) :
    splitToLoop pat slice fuel pre.length rest = (splitRec pat fuel rest).map fun p => (pre ++ p.1, p.2) := by
  induction fuel generalizing pre rest with
  | zero => rfl
  | succ fuel ih =>
    rw [splitToLoop, splitRec]
    cases hs : splitCrlf rest with
    | some p =>
      obtain ⟨l, r⟩ := p
      have hn : nextLine rest = some (l, r) := by rw [nextLine, hs]
      rw [hn]
      simp only []
      split
      · simp [h]
      · have e := splitCrlf_some hs
        have := ih (pre := pre ++ (l ++ b!"\r\n")) (rest := r) (by rw [h, e]; simp)
        simp only [List.length_append, List.length_cons, List.length_nil] at this
        rw [Nat.add_assoc, this, Option.map_map]
        congr 1
        funext p
        simp
    | none =>
      cases rest with
      | nil => rw [nextLine_nil]; rfl
      | cons c rest =>
        have hn : nextLine (c :: rest) = some (c :: rest, []) := by rw [nextLine, hs]; rfl
        rw [hn]
        simp only []
        split
        · simp [h]
        · cases fuel with
          | zero => rfl
          | succ fuel => rw [splitToLoop, splitRec, nextLine_nil]; rfl

theorem splitTo_rec (pat s : Bytes) : splitTo pat s = splitRec pat (s.length + 1) s := by
  have := splitToLoop_rec (pat := pat) (pre := []) (rest := s) (s.length + 1) rfl
  simp only [List.length_nil, List.nil_append] at this
  rw [splitTo, this]
  cases splitRec pat (s.length + 1) s <;> rfl

theorem splitRec_shape {pat : Bytes} {f : Nat} {s b r : Bytes} (h : splitRec pat f s = some (b, r)) : b = [] ∨ ∃ v, b = v ++ b!"\r\n" := by
  induction f generalizing s b with
  | zero => cases h
  | succ f ih =>
    rw [splitRec] at h
    split at h
    · cases h
    · split at h
      · cases h; exact .inl rfl
      · rw [Option.map_eq_some_iff] at h
        obtain ⟨⟨b', r'⟩, h1, h2⟩ := h
        cases h2
        rcases ih h1 with e | ⟨v, e⟩
        · exact .inr ⟨_, by rw [e, List.append_nil]⟩
        · exact .inr ⟨_, by rw [e, ← List.append_assoc]⟩

theorem splitRec_more {pat : Bytes} {f f' : Nat} {s b r : Bytes} (hf : f ≤ f') (h : splitRec pat f s = some (b, r)) (t : Bytes) :
    (r ≠ [] → splitRec pat f' (s ++ t) = some (b, r ++ t)) ∧
    (∀ b' r', splitRec pat f' (s ++ t) = some (b', r') → b' = b ∨ ∃ x, b' = b ++ x ++ b!"\r\n") := by
  induction f generalizing s b f' with
  | zero => cases h
  | succ f ih =>
    cases f' with
    | zero => exact absurd hf (by omega)
    | succ f' =>
      rw [splitRec] at h
      cases hs : splitCrlf s with
      | some p =>
        obtain ⟨l, r0⟩ := p
        have hn : nextLine s = some (l, r0) := by rw [nextLine, hs]
        rw [hn] at h
        simp only [] at h
        rw [splitRec, nextLine_more hs]
        simp only []
        split
        · rename_i hl
          rw [if_pos hl] at h
          cases h
          exact ⟨fun _ => rfl, fun b' r' e => (by cases e; exact .inl rfl)⟩
        · rename_i hl
          rw [if_neg hl, Option.map_eq_some_iff] at h
          obtain ⟨⟨b1, r1⟩, h1, h2⟩ := h
          cases h2
          obtain ⟨i1, i2⟩ := ih (f' := f') (by omega) h1
          constructor
          · intro hr
            rw [i1 hr]
            rfl
          · intro b' r' e
            rw [Option.map_eq_some_iff] at e
            obtain ⟨⟨b2, r2⟩, e1, e2⟩ := e
            cases e2
            rcases i2 _ _ e1 with e3 | ⟨x, e3⟩
            · exact .inl (by rw [e3])
            · refine .inr ⟨x, ?_⟩
              rw [e3]
              simp
      | none =>
        cases s with
        | nil => rw [nextLine_nil] at h; cases h
        | cons c s =>
          have hn : nextLine (c :: s) = some (c :: s, []) := by rw [nextLine, hs]; rfl
          rw [hn] at h
          simp only [] at h
          split at h
          · cases h
            refine ⟨fun h => absurd rfl h, fun b' r' e => ?_⟩
            rcases splitRec_shape e with e | ⟨v, e⟩
            · exact .inl e
            · exact .inr ⟨v, by rw [e]; simp⟩
          · rw [Option.map_eq_some_iff] at h
            obtain ⟨⟨b1, r1⟩, h1, h2⟩ := h
            cases f with
            | zero => cases h1
            | succ f => rw [splitRec, nextLine_nil] at h1; cases h1

/-! ### the parts -/

theorem partsLoop_nil (pat : Bytes) (f : Nat) (fields : List (Bytes × Bytes)) : partsLoop pat f fields [] = .more := by
  cases f <;> rfl

/-- the value of a field, `b` with its line end -/
theorem value_cut {b : Bytes} (hs : b = [] ∨ ∃ v, b = v ++ b!"\r\n") (hv : utf8Valid (b.take (b.length - 2)) = false) (x : Bytes) :
    utf8Valid ((b ++ x ++ b!"\r\n").take ((b ++ x ++ b!"\r\n").length - 2)) = false := by
  rcases hs with rfl | ⟨v, rfl⟩
  · rw [show utf8Valid (([] : Bytes).take _) = true from by simp [utf8Valid]] at hv; cases hv
  · have e1 : (v ++ b!"\r\n").take ((v ++ b!"\r\n").length - 2) = v := by simp
    have e2 : (v ++ b!"\r\n" ++ x ++ b!"\r\n").take ((v ++ b!"\r\n" ++ x ++ b!"\r\n").length - 2) = v ++ 13 :: (10 :: x) := by
      rw [show (v ++ b!"\r\n" ++ x ++ b!"\r\n").length - 2 = (v ++ 13 :: (10 :: x)).length by simp; omega]
      rw [show v ++ b!"\r\n" ++ x ++ b!"\r\n" = (v ++ 13 :: (10 :: x)) ++ b!"\r\n" by simp]
      exact List.take_left
    rw [e1] at hv
    rw [e2]
    cases h : utf8Valid (v ++ 13 :: (10 :: x)) with
    | false => rfl
    | true => rw [utf8Valid_cut (by decide) h] at hv; cases hv

theorem partsLoop_more {pat : Bytes} {f f' : Nat} (hf : f ≤ f') {fields : List (Bytes × Bytes)} {s : Bytes} (t : Bytes) :
    (∀ fs n c r, partsLoop pat f fields s = .form fs n c r → partsLoop pat f' fields (s ++ t) = .form fs n c (r ++ t)) ∧
    (partsLoop pat f fields s = .bad → ∀ fs n c r, partsLoop pat f' fields (s ++ t) ≠ .form fs n c r) := by
  induction f generalizing f' fields s with
  | zero => exact ⟨fun fs n c r e => (by cases e), fun e => (by cases e)⟩
  | succ f ih =>
    cases f' with
    | zero => exact absurd hf (by omega)
    | succ f' =>
      obtain ⟨p1, p2⟩ := parseHeaders_more 2 (s := s) t
      simp only [partsLoop]
      cases hp : parseHeaders 2 s with
      | more => exact ⟨fun fs n c r e => (by cases e), fun e => (by cases e)⟩
      | bad => rw [p2 hp]; exact ⟨fun fs n c r e => (by cases e), fun _ fs n c r e => (by cases e)⟩
      | complete hs s1 =>
        rw [p1 _ _ hp]
        simp only []
        split
        · exact ⟨fun fs n c r e => (by cases e), fun e => (by cases e)⟩
        · split
          · exact ⟨fun fs n c r e => (by cases e), fun _ fs n c r e => (by cases e)⟩
          · rename_i name _
            rw [splitTo_rec, splitTo_rec]
            cases hr : splitRec pat (s1.length + 1) s1 with
            | none => exact ⟨fun fs n c r e => (by cases e), fun e => (by cases e)⟩
            | some q =>
              obtain ⟨b, r⟩ := q
              obtain ⟨m1, m2⟩ := splitRec_more (f' := (s1 ++ t).length + 1) (by simp) hr t
              simp only []
              cases hv : utf8Valid (b.take (b.length - 2)) with
              | false =>
                refine ⟨fun fs n c r e => (by cases e), fun _ fs n c r e => ?_⟩
                cases hr2 : splitRec pat ((s1 ++ t).length + 1) (s1 ++ t) with
                | none => rw [hr2] at e; cases e
                | some q2 =>
                  obtain ⟨b2, r2⟩ := q2
                  rw [hr2] at e
                  simp only [] at e
                  have : utf8Valid (b2.take (b2.length - 2)) = false := by
                    rcases m2 _ _ hr2 with e1 | ⟨x, e1⟩
                    · rw [e1]; exact hv
                    · rw [e1]; exact value_cut (splitRec_shape hr) hv x
                  rw [this] at e
                  cases e
              | true =>
                by_cases hnil : r = []
                · subst hnil
                  simp only [partsLoop_nil, Bool.not_true]
                  exact ⟨fun fs n c r e => (by cases e), fun e => (by cases e)⟩
                · rw [m1 hnil]
                  simp only [hv, Bool.not_true]
                  exact ih (by omega)
          · rename_i file _
            split
            · exact ⟨fun fs n c r e => (by cases e), fun e => (by cases e)⟩
            · split
              · exact ⟨fun fs n c r e => (by cases e), fun _ fs n c r e => (by cases e)⟩
              · exact ⟨fun fs n c r e => (by cases e; rfl), fun e => (by cases e)⟩

theorem tryParse_more {boundary s : Bytes} (hw : FirstLineWhole s) (t : Bytes) :
    (∀ fs n c r, tryParse boundary s = .form fs n c r → tryParse boundary (s ++ t) = .form fs n c (r ++ t)) ∧
    (tryParse boundary s = .bad → ∀ fs n c r, tryParse boundary (s ++ t) ≠ .form fs n c r) := by
  obtain ⟨l, r, h1, h2⟩ := firstLineWhole_split hw
  have hn : nextLine s = some (l, r) := by rw [nextLine, h1]
  have hle : s.length + 1 ≤ (s ++ t).length + 1 := by simp
  unfold tryParse
  simp only []
  rw [hn, nextLine_more h1]
  cases l with
  | nil =>
    obtain ⟨l2, r2, h3⟩ := h2 rfl
    have hn2 : nextLine r = some (l2, r2) := by rw [nextLine, h3]
    simp only []
    rw [hn2, nextLine_more h3]
    simp only []
    split
    · exact ⟨fun fs n c r e => (by cases e), fun _ fs n c r e => (by cases e)⟩
    · exact partsLoop_more hle t
  | cons c l =>
    simp only []
    split
    · exact ⟨fun fs n c r e => (by cases e), fun _ fs n c r e => (by cases e)⟩
    · exact partsLoop_more hle t

end S3
