import Verif.Model.Xml
import Verif.Spec.Xml
/-! C65: text in XML responses. -/
namespace S3
open Spec

/-- `]]>` occurs in `s` -/
def Spec.HasCdataEnd (s : Bytes) : Prop := ∃ a b, s = a ++ b!"]]>" ++ b

theorem normalizeEol_id {s : Bytes} (h : 13 ∉ s) : normalizeEol s = s := by
  induction s with
  | nil => rfl
  | cons c r ih =>
    simp only [List.mem_cons, not_or] at h
    rw [normalizeEol.eq_4]
    · rw [ih h.2]
    · rintro r' rfl; exact absurd rfl h.1
    · rintro rfl; exact absurd rfl h.1

theorem xmlText_cons (gt : Bool) (b : UInt8) (t : Bytes) :
    xmlText gt (b :: t) = xmlEscapeByte gt b ++ xmlText gt t := by simp [xmlText]

theorem not_mem_xmlText {gt : Bool} {s : Bytes} (h : 13 ∉ s) : 13 ∉ xmlText gt s := by
  induction s with
  | nil => exact h
  | cons c r ih =>
    simp only [List.mem_cons, not_or] at h
    rw [xmlText_cons, List.mem_append, not_or]
    refine ⟨?_, ih h.2⟩
    unfold xmlEscapeByte
    repeat' split
    · decide
    · decide
    · decide
    · simpa using h.1

theorem readCharData_plain {c : UInt8} {r : Bytes} (h1 : c ≠ 38) (h2 : c ≠ 60)
    (h3 : ¬ ∃ t, c :: r = 93 :: 93 :: 62 :: t) (hok : xmlCharOk c = true) :
    readCharData (c :: r) = (readCharData r).map (c :: ·) := by
  rw [readCharData.eq_10]
  · simp [hok]
  all_goals try (intros; subst_vars; exact absurd rfl ‹_›)
  all_goals (first | (rintro rfl; exact absurd rfl h1) | (rintro rfl; exact absurd rfl h2) | skip)
  intro t e1 e2; exact h3 ⟨t, by rw [e1, e2]⟩

theorem xmlText_head_of_plain {gt : Bool} {r t : Bytes} {c : UInt8} (hc : c ≠ 38)
    (h : xmlText gt r = c :: t) : ∃ r', r = c :: r' ∧ xmlText gt r' = t := by
  cases r with
  | nil => cases h
  | cons x xs =>
    rw [xmlText_cons] at h
    unfold xmlEscapeByte at h
    split at h
    · simp at h; exact absurd h.1.symm hc
    · split at h
      · simp at h; exact absurd h.1.symm hc
      · split at h
        · simp at h; exact absurd h.1.symm hc
        · simp only [List.singleton_append, List.cons.injEq] at h
          exact ⟨xs, by rw [h.1], h.2⟩

theorem xmlText_gt_no_gt (r : Bytes) : 62 ∉ xmlText true r := by
  induction r with
  | nil => decide
  | cons x xs ih =>
    rw [xmlText_cons, List.mem_append, not_or]
    refine ⟨?_, ih⟩
    unfold xmlEscapeByte
    repeat' split
    · decide
    · decide
    · decide
    · rename_i h; simp at h; simpa using fun e => h e.symm

/-- **C65** (what holds) a text without carriage returns and control characters (and without `]]>`
when the writer leaves `>` as it is) is recovered by an XML reader. Missing: the other texts, see
the witnesses below. -/
theorem C65_xml_text_partial (gt : Bool) (s : Bytes) (hcr : 13 ∉ s)
    (hok : ∀ c ∈ s, 32 ≤ c ∨ c = 9 ∨ c = 10) (hcd : gt = true ∨ ¬ HasCdataEnd s) :
    xmlRead (xmlText gt s) = some s := by
  rw [xmlRead, normalizeEol_id (not_mem_xmlText hcr)]
  clear hcr
  induction s with
  | nil => rfl
  | cons c r ih =>
    have ih := ih (fun x hx => hok x (by simp [hx])) (by
      rcases hcd with h | h
      · exact .inl h
      · refine .inr fun ⟨a, b, e⟩ => h ⟨c :: a, b, by simp [e]⟩)
    rw [xmlText_cons]
    unfold xmlEscapeByte
    split
    · rename_i h; subst h
      show readCharData (38 :: 108 :: 116 :: 59 :: xmlText gt r) = _
      simp [readCharData, ih]
    · rename_i h60
      split
      · rename_i h; subst h
        show readCharData (38 :: 97 :: 109 :: 112 :: 59 :: xmlText gt r) = _
        simp [readCharData, ih]
      · rename_i h38
        split
        · rename_i h; rw [h.1]
          show readCharData (38 :: 103 :: 116 :: 59 :: xmlText gt r) = _
          simp [readCharData, ih]
        · rw [List.singleton_append, readCharData_plain h38 h60, ih]
          · rfl
          · rintro ⟨t, e⟩
            simp only [List.cons.injEq] at e
            rcases hcd with h | h
            · subst h
              exact xmlText_gt_no_gt r (by rw [e.2]; simp)
            · obtain ⟨r1, rfl, e1⟩ := xmlText_head_of_plain (by decide) e.2
              obtain ⟨r2, rfl, _⟩ := xmlText_head_of_plain (by decide) e1
              exact h ⟨[], r2, by rw [e.1]; rfl⟩
          · have := hok c (by simp)
            simp only [xmlCharOk, Bool.or_eq_true, decide_eq_true_eq, beq_iff_eq]
            rcases this with h | h | h <;> simp [h]

/-- **C65** (no injection) whatever the text, the written text contains no `<`, so it can not open
or close an element. -/
theorem C65_no_markup (gt : Bool) (s : Bytes) : 60 ∉ xmlText gt s := by
  induction s with
  | nil => simp [xmlText]
  | cons x xs ih =>
    rw [xmlText_cons, List.mem_append, not_or]
    refine ⟨?_, ih⟩
    unfold xmlEscapeByte
    repeat' split
    · decide
    · decide
    · decide
    · simpa using fun e => ‹¬ x = 60› e.symm

/-- **C65** is false for all texts: a key with a carriage return comes back with a line feed. -/
theorem C65_carriage_return_witness (gt : Bool) : xmlRead (xmlText gt b!"a\rb") = some b!"a\nb" := by
  cases gt <;> decide +kernel

/-- **C65** is false for all texts: a control character makes the document unreadable. -/
theorem C65_control_witness (gt : Bool) : xmlRead (xmlText gt [97, 1]) = none := by
  cases gt <;> decide +kernel

/-! Non-vacuity -/
example : xmlText false b!"a<b>&c" = b!"a&lt;b>&amp;c" ∧ xmlRead b!"a&lt;b>&amp;c" = some b!"a<b>&c" := by
  decide +kernel
example : ¬ HasCdataEnd b!"a<b>&c" := by
  rintro ⟨a, b, h⟩
  have : (93 : UInt8) ∈ b!"a<b>&c" := by rw [h]; simp
  revert this; decide

end S3
