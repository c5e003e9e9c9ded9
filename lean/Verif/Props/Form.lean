import Verif.Lemmas.FormParse
import Verif.Lemmas.Nom
/-! # C51, C52, C53, C66: form uploads -/
namespace S3
open Spec

/-! ### C51 -/

/-- **C51** The file of a form upload (behind its header, of which `prev` has arrived together with the header) is the text before
the first line end and delimiter, whatever the fragments; without a delimiter the stream ends with an error (and what it delivered
is a beginning of the text). -/
theorem C51_file_end (boundary prev : Bytes) (body : Body) :
    (∀ b, BeforeFirst (fileDelimiter boundary) (prev ++ received body) b →
      (fileStream boundary prev body).pieces.flatten = b ∧ (fileStream boundary prev body).error = none) ∧
    (¬ Occurs (fileDelimiter boundary) (prev ++ received body) →
      (fileStream boundary prev body).error = some (if none ∈ body then .io else .incomplete) ∧
      (fileStream boundary prev body).pieces.flatten <+: prev ++ received body) := by
  have h := fileStream_flat boundary prev body
  simp only [FileData.flat, Prod.mk.injEq] at h
  rw [h.1, h.2]
  have hpat : crlfPat boundary = 13 :: (b!"\n--" ++ boundary) := rfl
  have hdel : fileDelimiter boundary = 13 :: (b!"\n--" ++ boundary) := rfl
  rw [hpat, hdel]
  have hbr : (if none ∈ body then FileError.io else .incomplete) = if broken body = true then FileError.io else .incomplete := by
    simp only [broken_iff]
  rw [hbr]
  constructor
  · intro b hb
    cases hs : scanFile (13 :: (b!"\n--" ++ boundary)) 0 (prev ++ received body) with
    | found i => exact ⟨(scanFile_before hs).unique hb, rfl⟩
    | maybe i =>
      obtain ⟨⟨rest, e⟩, _⟩ := hb
      exact absurd (occurs_iff_drop.mp ⟨b, rest, e⟩) (fun ⟨j, hj⟩ => scanFile_not_found (by rw [hs]; intro i; simp) j hj)
    | clear =>
      obtain ⟨⟨rest, e⟩, _⟩ := hb
      exact absurd (occurs_iff_drop.mp ⟨b, rest, e⟩) (fun ⟨j, hj⟩ => scanFile_not_found (by rw [hs]; intro i; simp) j hj)
  · intro hn
    cases hs : scanFile (13 :: (b!"\n--" ++ boundary)) 0 (prev ++ received body) with
    | found i =>
      obtain ⟨⟨rest, e⟩, _⟩ := scanFile_before hs
      exact absurd ⟨_, rest, e⟩ hn
    | maybe i => exact ⟨rfl, List.take_prefix _ _⟩
    | clear => exact ⟨rfl, List.prefix_refl _⟩

/-- a first occurrence exists whenever there is an occurrence, so the two cases of C51 cover every body -/
theorem beforeFirst_of_occurs {d s : Bytes} (h : Occurs d s) : ∃ b, BeforeFirst d s b := by
  obtain ⟨a, rest, e⟩ := h
  generalize hn : a.length = n
  induction n using Nat.strongRecOn generalizing a rest with
  | ind n ih =>
    by_cases hx : ∃ a' rest', s = a' ++ d ++ rest' ∧ a'.length < n
    · obtain ⟨a', rest', e', hl⟩ := hx
      exact ih _ hl a' rest' e' rfl
    · refine ⟨a, ⟨rest, e⟩, fun a' rest' e' => ?_⟩
      rw [hn]
      exact Nat.le_of_not_lt fun hl => hx ⟨a', rest', e', hl⟩

/-- the delimiter in four fragments, after something that looks like its beginning -/
example : BeforeFirst (fileDelimiter b!"XX") (b!"ab" ++ received [some b!"\r\n-", some b!"\r", some b!"\n--", some b!"XX--\r\n"]) b!"ab\r\n-" ∧
    fileStream b!"XX" b!"ab" [some b!"\r\n-", some b!"\r", some b!"\n--", some b!"XX--\r\n"] = ⟨[b!"ab", b!"", b!"\r\n-", b!"", b!""], none⟩ := by
  refine ⟨scanFile_before (p := b!"\n--XX") (i := 5) (by decide +kernel), by decide +kernel⟩

example : ¬ Occurs (fileDelimiter b!"XX") (b!"ab" ++ received [some b!"\r\n--", some b!"X"]) ∧
    fileStream b!"XX" b!"ab" [some b!"\r\n--", some b!"X"] = ⟨[b!"ab", b!"", b!""], some .incomplete⟩ := by
  refine ⟨fun h => ?_, by decide +kernel⟩
  obtain ⟨j, hj⟩ := occurs_iff_drop.mp h
  exact scanFile_not_found (p := b!"\n--XX") (s := b!"ab\r\n--X") (by intro i h; rw [show scanFile _ 0 _ = .maybe 2 by decide +kernel] at h; cases h) j hj

/-! ### C53 -/

/-- **C53** The lookup of a form field finds the value of the last field of that name (ASCII case ignored), and nothing exactly
when there is none. -/
theorem C53_field_lookup (fields : List (Bytes × Bytes)) (name : Bytes) :
    (∀ v, findField fields name = some v ↔
      ∃ before n after, fields = before ++ (n, v) :: after ∧ SameName n name ∧ ∀ f ∈ after, ¬ SameName f.1 name) ∧
    (findField fields name = none ↔ ∀ f ∈ fields, ¬ SameName f.1 name) := by
  have hsame : ∀ a b : Bytes, eqIgnoreCase a b = true ↔ SameName a b := by
    intro a b; simp [eqIgnoreCase, SameName]
  have hnone : findField fields name = none ↔ ∀ f ∈ fields, ¬ SameName f.1 name := by
    simp only [findField, List.findSome?_eq_none_iff, List.mem_reverse]
    constructor
    · intro h f hf hs
      have := h f hf
      rw [if_pos ((hsame _ _).mpr hs)] at this
      cases this
    · intro h f hf
      rw [if_neg (fun e => h f hf ((hsame _ _).mp e))]
  refine ⟨fun v => ?_, hnone⟩
  simp only [findField, List.findSome?_eq_some_iff]
  constructor
  · rintro ⟨l1, ⟨n, w⟩, l2, e, h1, h2⟩
    split at h1
    · rename_i hs
      cases h1
      refine ⟨l2.reverse, n, l1.reverse, ?_, (hsame _ _).mp hs, ?_⟩
      · have := congrArg List.reverse e
        simpa using this
      · intro f hf hsf
        have := h2 f (List.mem_reverse.mp hf)
        rw [if_pos ((hsame _ _).mpr hsf)] at this
        cases this
    · cases h1
  · rintro ⟨before, n, after, e, h1, h2⟩
    refine ⟨after.reverse, (n, v), before.reverse, by rw [e]; simp, by rw [if_pos ((hsame _ _).mpr h1)], ?_⟩
    intro f hf
    rw [if_neg (fun e => h2 f (List.mem_reverse.mp hf) ((hsame _ _).mp e))]

example : findField [(b!"Key", b!"1"), (b!"acl", b!"x"), (b!"kEY", b!"2"), (b!"k", b!"3")] b!"key" = some b!"2" ∧
    findField [(b!"Key", b!"1")] b!"keys" = none := by decide +kernel

/-! ### C52 -/

/-- what can be seen of a parsed form: fields, file name, content type, the bytes of the file and the error its stream ends with -/
structure FormView where
  fields : List (Bytes × Bytes)
  fileName : Bytes
  contentType : Bytes
  content : Bytes
  error : Option FileError
  deriving DecidableEq

/-- the form as the storage sees it: the pieces of the file joined -/
def Form.view (f : Form) : FormView := ⟨f.fields, f.fileName, f.contentType, f.file.pieces.flatten, f.file.error⟩

/-- the outcome of parsing a form; `none` when it is refused -/
def formOutcome (boundary : Bytes) (body : Body) : Option FormView := (transformMultipart boundary body).toOption.map Form.view

/-- the outcome as a function of the whole text -/
def TryRes.outcome (boundary : Bytes) (br : Bool) : TryRes → Option FormView
  | .form fs n c r => some ⟨fs, n, c, (scanFile (crlfPat boundary) 0 r).cut r, (scanFile (crlfPat boundary) 0 r).error br⟩
  | _ => none

theorem transformLoop_flat {boundary buf : Bytes} {body : Body} (hbuf : (buf = [] ∧ FirstLineUnsplit body) ∨ FirstLineWhole buf)
    (hm : tryParse boundary buf = .more) :
    (transformLoop boundary buf body).toOption.map Form.view = (tryParse boundary (buf ++ received body)).outcome boundary (broken body) := by
  induction body generalizing buf with
  | nil => simp only [transformLoop, received, List.append_nil, hm]; rfl
  | cons x rest ih =>
    cases x with
    | none => simp only [transformLoop, received, List.append_nil, hm]; rfl
    | some b =>
      simp only [received, ← List.append_assoc]
      have hbr : broken (some b :: rest) = broken rest := by simp [broken]
      rw [hbr]
      by_cases he : buf ++ b = []
      · have h1 : buf = [] := (List.append_eq_nil_iff.mp he).1
        have h2 : b = [] := (List.append_eq_nil_iff.mp he).2
        subst h1 h2
        simp only [transformLoop, List.nil_append] at hm ⊢
        rw [hm]
        simp only []
        have hu : FirstLineUnsplit rest := by
          rcases hbuf with ⟨_, h⟩ | ⟨l, r, e, hl⟩
          · simpa [FirstLineUnsplit] using h
          · simp at e
        have := ih (buf := []) (.inl ⟨rfl, hu⟩) hm
        simpa using this
      · have hw : FirstLineWhole (buf ++ b) := by
          rcases hbuf with ⟨h1, h⟩ | ⟨l, r, e, hl⟩
          · subst h1
            simp only [List.nil_append] at he ⊢
            simpa [FirstLineUnsplit, he] using h
          · exact ⟨l, r ++ b, by rw [e]; simp, hl⟩
        obtain ⟨t1, t2⟩ := tryParse_more (boundary := boundary) hw (received rest)
        simp only [transformLoop]
        cases ht : tryParse boundary (buf ++ b) with
        | more => exact ih (.inr hw) ht
        | bad =>
          simp only [Except.toOption, Option.map_none]
          have := t2 ht
          cases h3 : tryParse boundary (buf ++ b ++ received rest) with
          | more => rfl
          | bad => rfl
          | form fs n c r => exact absurd h3 (this _ _ _ _)
        | form fs n c r =>
          rw [t1 _ _ _ _ ht]
          have := fileStream_flat boundary r rest
          simp only [FileData.flat, Prod.mk.injEq] at this
          simp only [Except.toOption, Option.map_some, Form.view, TryRes.outcome, this.1, this.2]

theorem formOutcome_flat {boundary : Bytes} {body : Body} (h : FirstLineUnsplit body) :
    formOutcome boundary body = (tryParse boundary (received body)).outcome boundary (broken body) :=
  transformLoop_flat (.inl ⟨rfl, h⟩) rfl

/-- **C52** (partial) Two bodies with the same bytes (both cut off by an I/O error or both not) are both refused or give the same
fields, file name, content type, file bytes and end of the file, if in both the first line is not split.
Missing from the full property: fragments that split the first line, for which it is false (`C52_form_fragmentation_fails`). -/
theorem C52_form_fragmentation_partial {boundary : Bytes} {b1 b2 : Body} (h1 : FirstLineUnsplit b1) (h2 : FirstLineUnsplit b2)
    (hr : received b1 = received b2) (hb : none ∈ b1 ↔ none ∈ b2) : formOutcome boundary b1 = formOutcome boundary b2 := by
  rw [formOutcome_flat h1, formOutcome_flat h2, hr]
  have : broken b1 = broken b2 := by rw [Bool.eq_iff_iff, broken_iff, broken_iff, hb]
  rw [this]

/-- a form with two fields and a file -/
def Sample.form : Bytes :=
  formText b!"XX" [(b!"key", b!"a/b.txt"), (b!"policy", b!"line 1\r\n--X\r\nline 3")] b!"file" b!"b.txt" b!"text/plain" b!"hello\r\n--X\r" b!"--\r\n"

example : FirstLineUnsplit [some [], some (Sample.form.take 80), some (Sample.form.drop 80)] ∧
    FirstLineUnsplit (some (Sample.form.take 7) :: (Sample.form.drop 7).map fun c => some [c]) ∧
    formOutcome b!"XX" (some (Sample.form.take 7) :: (Sample.form.drop 7).map fun c => some [c]) =
      some ⟨[(b!"key", b!"a/b.txt"), (b!"policy", b!"line 1\r\n--X\r\nline 3")], b!"b.txt", b!"text/plain", b!"hello\r\n--X\r", none⟩ := by
  refine ⟨?_, ?_, by decide +kernel⟩
  · simp only [FirstLineUnsplit]
    rw [if_pos trivial, if_neg (by decide +kernel)]
    exact ⟨b!"--XX", Sample.form.take 80 |>.drop 6, by decide +kernel, by decide⟩
  · simp only [FirstLineUnsplit]
    rw [if_neg (by decide +kernel)]
    exact ⟨b!"--XX", Sample.form.take 7 |>.drop 6, by decide +kernel, by decide⟩

/-- C52 fails: the same bytes, in one fragment and with the first line split, are accepted and refused. -/
theorem C52_form_fragmentation_fails : ∃ (boundary : Bytes) (b1 b2 : Body), unbroken b1 ∧ unbroken b2 ∧ received b1 = received b2 ∧
    (formOutcome boundary b1).isSome = true ∧ transformMultipart boundary b2 = .error .format := by
  refine ⟨b!"XX", [some Sample.form], [some (Sample.form.take 3), some (Sample.form.drop 3)], ?_, ?_, by decide +kernel, by decide +kernel,
    by decide +kernel⟩
  · simp [unbroken]
  · simp [unbroken]

/-! ### C66 -/

theorem takeWhile_stop {p : UInt8 → Bool} {a r : Bytes} {c : UInt8} (ha : ∀ x ∈ a, p x = true) (hc : p c = false) :
    (a ++ c :: r).takeWhile p = a := by
  induction a with
  | nil => simp [hc]
  | cons x a ih =>
    simp only [List.cons_append, List.takeWhile_cons]
    rw [if_pos (ha x (by simp)), ih (fun y hy => ha y (by simp [hy]))]

theorem dropWhile_blank {s : Bytes} (h : ∀ c r, s = c :: r → c ≠ 32 ∧ c ≠ 9) : s.dropWhile isBlank = s := by
  cases s with
  | nil => rfl
  | cons c r =>
    have := h c r rfl
    simp [isBlank, this.1, this.2]

theorem trimEnd_trimmed {s : Bytes} (h : ∀ c r, s = r ++ [c] → c ≠ 32 ∧ c ≠ 9) : trimEnd s = s := by
  unfold trimEnd
  rw [dropWhile_blank, List.reverse_reverse]
  intro c r e
  exact h c r.reverse (by rw [← List.reverse_reverse (as := s), e]; simp)

theorem printable_value {s : Bytes} (h : Printable s) : ∀ c ∈ s, isValueChar c = true := by
  intro c hc
  simp only [isValueChar, Bool.or_eq_true, beq_iff_eq, Bool.and_eq_true, decide_eq_true_eq, bne_iff_ne, ne_eq]
  rcases h c hc with e | ⟨e1, e2⟩
  · exact .inl e
  · exact .inr ⟨UInt8.le_iff_toNat_le.mpr (by simpa using e1), e2⟩

/-- one header line as written by a client -/
theorem parseHeaderLine_text {n v r : Bytes} (hn : ∀ c ∈ n, isTchar c = true) (hv : Printable v) (ht : Trimmed v) :
    parseHeaderLine (n ++ b!": " ++ v ++ b!"\r\n" ++ r) = .inl ((n, v), r) := by
  have hv' := printable_value hv
  have e1 : n ++ b!": " ++ v ++ b!"\r\n" ++ r = n ++ 58 :: (32 :: (v ++ 13 :: (10 :: r))) := by simp
  have e2 : (n ++ 58 :: (32 :: (v ++ 13 :: (10 :: r)))).takeWhile isTchar = n := takeWhile_stop hn (by decide)
  have e3 : (v ++ 13 :: (10 :: r)).dropWhile isBlank = v ++ 13 :: (10 :: r) := by
    apply dropWhile_blank
    intro c r' e
    cases v with
    | nil => cases e; decide
    | cons d v => cases e; exact ht.1 _ _ rfl
  have e4 : (v ++ 13 :: (10 :: r)).takeWhile isValueChar = v := takeWhile_stop hv' (by decide)
  rw [e1]
  unfold parseHeaderLine
  simp only []
  rw [e2, List.drop_left]
  simp only [ne_eq, not_true_eq_false, if_false]
  have e5 : (32 :: (v ++ 13 :: (10 :: r))).dropWhile isBlank = v ++ 13 :: (10 :: r) := by
    rw [List.dropWhile_cons, if_pos (by decide)]
    exact e3
  rw [e5, e4, List.drop_left]
  simp only []
  rw [if_neg (by decide), if_neg (by decide), trimEnd_trimmed ht.2]
  simp

theorem parseHeaders_line {n v r : Bytes} {k : Nat} (hne : n ≠ []) (hn : ∀ c ∈ n, isTchar c = true) (hv : Printable v) (ht : Trimmed v)
    {hs : List (Bytes × Bytes)} {r' : Bytes} (h : parseHeaders k r = .complete hs r') :
    parseHeaders (k + 1) (n ++ b!": " ++ v ++ b!"\r\n" ++ r) = .complete ((n, v) :: hs) r' := by
  rw [parseHeaders.eq_def]
  have hl := parseHeaderLine_text (r := r) hn hv ht
  cases n with
  | nil => exact absurd rfl hne
  | cons c n =>
    have hc := hn c (by simp)
    have hc1 : ¬ c = 10 := by rintro rfl; revert hc; decide
    have hc2 : ¬ c = 13 := by rintro rfl; revert hc; decide
    simp only [List.cons_append] at hl ⊢
    rw [if_neg hc1, if_neg hc2, if_neg (by simp [hc]), hl]
    simp only []
    rw [h]

theorem parseHeaders_end (k : Nat) (r : Bytes) : parseHeaders k (b!"\r\n" ++ r) = .complete [] r := by
  rw [parseHeaders.eq_def]
  simp

theorem splitCrlf_line {l r : Bytes} (h : (13 : UInt8) ∉ l) : splitCrlf (l ++ b!"\r\n" ++ r) = some (l, r) := by
  induction l with
  | nil => rfl
  | cons c l ih =>
    have hc : ¬ startsWith (c :: (l ++ b!"\r\n" ++ r)) b!"\r\n" = true := by
      rw [startsWith_pre]
      intro hp
      exact h (by rw [(List.cons_prefix_cons.mp hp).1]; simp)
    have := ih (fun hm => h (by simp [hm]))
    rw [List.append_assoc] at this hc
    simp only [List.append_assoc, List.cons_append] at this hc ⊢
    rw [splitCrlf, if_neg hc, this]

theorem splitRec_value {pat rest : Bytes} (h13 : (13 : UInt8) ∉ pat) {f : Nat} {v : Bytes}
    (hfree : ¬ Occurs (b!"\r\n" ++ pat ++ b!"\r\n") (b!"\r\n" ++ v ++ b!"\r\n")) (hf : v.length + 1 < f) :
    splitRec pat f (v ++ b!"\r\n" ++ (pat ++ b!"\r\n" ++ rest)) = some (v ++ b!"\r\n", rest) := by
  induction f generalizing v with
  | zero => exact absurd hf (Nat.not_lt_zero _)
  | succ f ih =>
    obtain ⟨l, r, h1, h2⟩ := splitCrlf_exists (l := v) (r := [])
    rw [List.append_nil] at h1
    have e := splitCrlf_some h1
    have hl : l ≠ pat := by
      rintro rfl
      exact hfree ⟨[], r, by rw [List.append_assoc, e]; simp⟩
    rw [splitRec, nextLine_more h1]
    simp only []
    rw [if_neg hl]
    have last : splitRec pat f (pat ++ b!"\r\n" ++ rest) = some ([], rest) := by
      cases f with
      | zero => omega
      | succ f => rw [splitRec, nextLine, splitCrlf_line h13]; simp
    rcases List.append_eq_append_iff.mp e with ⟨a, ha, hb⟩ | ⟨c, hc, hr⟩
    · match a, hb with
      | [], hb =>
        simp only [List.nil_append, List.append_nil] at ha hb
        subst hb
        have hfree' : ¬ Occurs (b!"\r\n" ++ pat ++ b!"\r\n") (b!"\r\n" ++ [] ++ b!"\r\n") := by
          rintro ⟨x, y, e'⟩
          exact hfree ⟨b!"\r\n" ++ l ++ x, y, by rw [← ha]; simp only [List.append_assoc] at e' ⊢; rw [← e']; simp⟩
        have hlen : v.length = l.length + 2 := by rw [← ha]; simp
        have := ih (v := []) hfree' (by simp; omega)
        simp only [List.nil_append] at this
        rw [this, ← ha]
        simp
      | [13], hb =>
        have := congrArg List.getLast? ha
        simp at this
      | [13, 10], hb =>
        simp at hb
        subst hb
        have hv : l = v := by simpa using ha
        subst hv
        rw [List.nil_append, last]
        simp
      | [x], hb => simp at hb; obtain ⟨rfl, _⟩ := hb; have := congrArg List.getLast? ha; simp at this
      | x :: y :: z :: a, hb => simp at hb
      | [x, y], hb =>
        simp only [List.cons_append, List.nil_append, List.cons.injEq] at hb
        obtain ⟨rfl, rfl, hb⟩ := hb
        subst hb
        have hv : l = v := by simpa using ha
        subst hv
        rw [List.nil_append, last]
        simp
    · subst hr
      have hfree' : ¬ Occurs (b!"\r\n" ++ pat ++ b!"\r\n") (b!"\r\n" ++ c ++ b!"\r\n") := by
        rintro ⟨x, y, e'⟩
        exact hfree ⟨b!"\r\n" ++ l ++ x, y, by rw [hc]; simp only [List.append_assoc] at e' ⊢; rw [← e']⟩
      have hlen : v.length = l.length + 2 + c.length := by rw [hc]; simp; omega
      rw [ih hfree' (by omega), hc]
      simp

theorem quotedParam_text {t v r : Bytes} (h : QuotedText v) : quotedParam t (t ++ v ++ 34 :: r) = some (v, r) := by
  obtain ⟨h1, _, h3, h4⟩ := h
  have e1 : takeTill1 (· == 34) (v ++ 34 :: r) = some (v, 34 :: r) :=
    takeTill1_some.mpr ⟨rfl, h1, fun c hc => by simpa using (fun e : c = 34 => h3 (e ▸ hc)), headIs_cons (by rfl)⟩
  have e2 : takeN 1 (34 :: r) = some ([34], r) := takeN_append (a := [34]) rfl
  simp only [quotedParam, List.append_assoc, tag_append, e1, h4, e2, Option.bind_eq_bind, Option.bind_some]
  rfl

theorem optFilename_none : optFilename [] = (none, []) := rfl

theorem optFilename_some {f : Bytes} (h : QuotedText f) : optFilename (b!"; filename=\"" ++ f ++ [34]) = (some f, []) := by
  have e : b!"; filename=\"" ++ f ++ [34] = b!"; " ++ (b!"filename=\"" ++ f ++ 34 :: []) := by simp
  rw [optFilename, e, tag_append, Option.bind_some, quotedParam_text h]

theorem parseContentDisposition_field {n : Bytes} (h : QuotedText n) :
    parseContentDisposition (b!"form-data; name=\"" ++ n ++ [34]) = some (n, none) := by
  have e : b!"form-data; name=\"" ++ n ++ [34] = b!"form-data; " ++ (b!"name=\"" ++ n ++ 34 :: []) := by simp
  rw [parseContentDisposition, e, tag_append]
  simp only [Option.bind_eq_bind, Option.bind_some]
  rw [quotedParam_text h]
  rfl

theorem parseContentDisposition_file {n f : Bytes} (h : QuotedText n) (hf : QuotedText f) :
    parseContentDisposition (b!"form-data; name=\"" ++ n ++ b!"\"; filename=\"" ++ f ++ [34]) = some (n, some f) := by
  have e : b!"form-data; name=\"" ++ n ++ b!"\"; filename=\"" ++ f ++ [34] =
      b!"form-data; " ++ (b!"name=\"" ++ n ++ 34 :: (b!"; filename=\"" ++ f ++ [34])) := by simp
  rw [parseContentDisposition, e, tag_append]
  simp only [Option.bind_eq_bind, Option.bind_some]
  rw [quotedParam_text h]
  simp only [Option.bind_some]
  rw [optFilename_some hf]
  rfl

theorem printable_append {a b : Bytes} (ha : Printable a) (hb : Printable b) : Printable (a ++ b) := by
  intro c hc
  rcases List.mem_append.mp hc with h | h
  · exact ha c h
  · exact hb c h

theorem trimmed_of {a b c : Bytes} {x y : UInt8} (hx : x ≠ 32 ∧ x ≠ 9) (hy : y ≠ 32 ∧ y ≠ 9) (h1 : a = x :: b) (h2 : a = c ++ [y]) : Trimmed a := by
  constructor
  · intro d r e
    rw [h1] at e
    cases e
    exact hx
  · intro d r e
    rw [h2] at e
    have := (List.append_inj' e rfl).2
    cases this
    exact hy

theorem partsLoop_field {boundary : Bytes} (h13 : (13 : UInt8) ∉ boundary) {n v : Bytes} (h : FieldText boundary n v) (f : Nat)
    (acc : List (Bytes × Bytes)) (rest : Bytes) :
    partsLoop (b!"--" ++ boundary) (f + 1) acc (fieldPart boundary (n, v) ++ rest) = partsLoop (b!"--" ++ boundary) f (acc ++ [(n, v)]) rest := by
  have e : fieldPart boundary (n, v) ++ rest = b!"Content-Disposition" ++ b!": " ++ (b!"form-data; name=\"" ++ n ++ [34]) ++ b!"\r\n" ++
      (b!"\r\n" ++ (v ++ b!"\r\n" ++ ((b!"--" ++ boundary) ++ b!"\r\n" ++ rest))) := by
    simp [fieldPart]
  have hp : Printable (b!"form-data; name=\"" ++ n ++ [34]) :=
    printable_append (printable_append (by unfold Printable; decide +kernel) h.name.2.1) (by unfold Printable; decide +kernel)
  have ht : Trimmed (b!"form-data; name=\"" ++ n ++ [34]) := trimmed_of (x := 102) (y := 34) (by decide) (by decide) rfl rfl
  rw [e, partsLoop, parseHeaders_line (k := 1) (by decide) (by decide +kernel) hp ht (parseHeaders_end _ _)]
  simp only []
  have e2 : lastHeader [(b!"Content-Disposition", b!"form-data; name=\"" ++ n ++ [34])] b!"Content-Disposition" =
      some (b!"form-data; name=\"" ++ n ++ [34]) := by
    simp only [lastHeader, List.foldl_cons, List.foldl_nil]
    rw [if_pos (by decide +kernel)]
  rw [e2]
  simp only []
  rw [parseContentDisposition_field h.name]
  simp only []
  have h13' : (13 : UInt8) ∉ b!"--" ++ boundary := by
    intro hm
    rcases List.mem_append.mp hm with hm | hm
    · revert hm; decide
    · exact h13 hm
  have hfree : ¬ Occurs (b!"\r\n" ++ (b!"--" ++ boundary) ++ b!"\r\n") (b!"\r\n" ++ v ++ b!"\r\n") := by
    have := h.free
    simpa using this
  rw [splitTo_rec, splitRec_value h13' hfree (by simp)]
  simp [h.utf8]

theorem partsLoop_file {boundary field fileName contentType : Bytes} (h1 : QuotedText field) (h2 : QuotedText fileName) (h3 : Printable contentType)
    (h4 : Trimmed contentType) (h5 : utf8Valid contentType = true) (f : Nat) (acc : List (Bytes × Bytes)) (content closing : Bytes) :
    partsLoop (b!"--" ++ boundary) (f + 1) acc (filePart boundary field fileName contentType content ++ closing) =
      .form acc fileName contentType (content ++ fileDelimiter boundary ++ closing) := by
  have e : filePart boundary field fileName contentType content ++ closing =
      b!"Content-Disposition" ++ b!": " ++ (b!"form-data; name=\"" ++ field ++ b!"\"; filename=\"" ++ fileName ++ [34]) ++ b!"\r\n" ++
      (b!"Content-Type" ++ b!": " ++ contentType ++ b!"\r\n" ++ (b!"\r\n" ++ (content ++ fileDelimiter boundary ++ closing))) := by
    simp [filePart, fileDelimiter]
  have hp : Printable (b!"form-data; name=\"" ++ field ++ b!"\"; filename=\"" ++ fileName ++ [34]) :=
    printable_append (printable_append (printable_append (printable_append (by unfold Printable; decide +kernel) h1.2.1)
      (by unfold Printable; decide +kernel)) h2.2.1) (by unfold Printable; decide +kernel)
  have ht : Trimmed (b!"form-data; name=\"" ++ field ++ b!"\"; filename=\"" ++ fileName ++ [34]) :=
    trimmed_of (x := 102) (y := 34) (by decide) (by decide) rfl rfl
  rw [e, partsLoop, parseHeaders_line (k := 1) (by decide) (by decide +kernel) hp ht
    (parseHeaders_line (k := 0) (by decide) (by decide +kernel) h3 h4 (parseHeaders_end _ _))]
  simp only []
  have e2 : lastHeader [(b!"Content-Disposition", b!"form-data; name=\"" ++ field ++ b!"\"; filename=\"" ++ fileName ++ [34]),
      (b!"Content-Type", contentType)] b!"Content-Disposition" =
      some (b!"form-data; name=\"" ++ field ++ b!"\"; filename=\"" ++ fileName ++ [34]) := by
    simp only [lastHeader, List.foldl_cons, List.foldl_nil]
    rw [if_neg (by decide +kernel), if_pos (by decide +kernel)]
  have e3 : lastHeader [(b!"Content-Disposition", b!"form-data; name=\"" ++ field ++ b!"\"; filename=\"" ++ fileName ++ [34]),
      (b!"Content-Type", contentType)] b!"Content-Type" = some contentType := by
    simp only [lastHeader, List.foldl_cons, List.foldl_nil]
    rw [if_pos (by decide +kernel)]
  rw [e2]
  simp only []
  rw [parseContentDisposition_file h1 h2]
  simp only []
  rw [e3]
  simp [h5]

theorem partsLoop_fields {boundary : Bytes} (h13 : (13 : UInt8) ∉ boundary) {fields : List (Bytes × Bytes)}
    (hf : ∀ f ∈ fields, FieldText boundary f.1 f.2) (k : Nat) (acc : List (Bytes × Bytes)) (rest : Bytes) :
    partsLoop (b!"--" ++ boundary) (k + fields.length) acc (fields.flatMap (fieldPart boundary) ++ rest) =
      partsLoop (b!"--" ++ boundary) k (acc ++ fields) rest := by
  induction fields generalizing acc with
  | nil => simp
  | cons x fields ih =>
    rw [List.flatMap_cons, List.append_assoc, List.length_cons, ← Nat.add_assoc, partsLoop_field h13 (hf x (by simp)),
      ih (fun f hm => hf f (by simp [hm]))]
    simp

theorem beforeFirst_content {boundary content closing : Bytes} (h13 : (13 : UInt8) ∉ boundary) (h : ¬ Occurs (fileDelimiter boundary) content) :
    BeforeFirst (fileDelimiter boundary) (content ++ fileDelimiter boundary ++ closing) content := by
  refine ⟨⟨closing, rfl⟩, fun a rest e => ?_⟩
  refine Nat.le_of_not_lt fun hl => ?_
  have hd : fileDelimiter boundary = 13 :: (b!"\n--" ++ boundary) := rfl
  have hno : (13 : UInt8) ∉ b!"\n--" ++ boundary := by
    intro hm
    rcases List.mem_append.mp hm with hm | hm
    · revert hm; decide
    · exact h13 hm
  rw [List.append_assoc, List.append_assoc] at e
  rcases List.append_eq_append_iff.mp e with ⟨c, hc, hb⟩ | ⟨c, hc, hb⟩
  · rw [hc] at hl; simp at hl; omega
  · -- the occurrence begins inside the content
    rcases List.append_eq_append_iff.mp hb with ⟨x, hx, hy⟩ | ⟨x, hx, hy⟩
    · exact h ⟨a, x, by rw [hc, hx]; simp⟩
    · -- and ends behind it: the carriage return of the delimiter would be inside the delimiter
      cases x with
      | nil =>
        rw [List.append_nil] at hx
        exact h ⟨a, [], by rw [hc, ← hx]; simp⟩
      | cons y x =>
        rw [hd] at hy
        have hy1 : y = 13 := by
          simp only [List.cons_append, List.cons.injEq] at hy
          exact hy.1.symm
        subst hy1
        cases c with
        | nil => simp at hc; rw [hc] at hl; exact absurd hl (Nat.lt_irrefl _)
        | cons z c =>
          rw [hd] at hx
          simp only [List.cons_append, List.cons.injEq] at hx
          exact hno (by rw [show b!"\n--" ++ boundary = c ++ 13 :: x from hx.2]; simp)

/-- **C66** A form written as browsers write it (any number of fields, then the file) is accepted with exactly these fields, file
name, content type and content, in whatever fragments it arrives, if the first line arrives in one. -/
theorem C66_form_round_trip {boundary : Bytes} (h13 : (13 : UInt8) ∉ boundary) {fields : List (Bytes × Bytes)}
    (hf : ∀ f ∈ fields, FieldText boundary f.1 f.2) {field fileName contentType : Bytes} (h1 : QuotedText field) (h2 : QuotedText fileName)
    (h3 : Printable contentType) (h4 : Trimmed contentType) (h5 : utf8Valid contentType = true) {content : Bytes}
    (hc : ¬ Occurs (fileDelimiter boundary) content) (closing : Bytes) {body : Body} (hu : FirstLineUnsplit body)
    (hr : received body = formText boundary fields field fileName contentType content closing) :
    formOutcome boundary body = some ⟨fields, fileName, contentType, content, none⟩ := by
  rw [formOutcome_flat hu, hr]
  have hline : (13 : UInt8) ∉ b!"--" ++ boundary := by
    intro hm
    rcases List.mem_append.mp hm with hm | hm
    · revert hm; decide
    · exact h13 hm
  have e : formText boundary fields field fileName contentType content closing =
      (b!"--" ++ boundary) ++ b!"\r\n" ++ (fields.flatMap (fieldPart boundary) ++ (filePart boundary field fileName contentType content ++ closing)) := by
    simp [formText]
  have hlen : ∃ k, (formText boundary fields field fileName contentType content closing).length + 1 = (k + 1) + fields.length := by
    have : fields.length ≤ (fields.flatMap (fieldPart boundary)).length := by
      clear hf e hr
      induction fields with
      | nil => simp
      | cons x fields ih => simp [fieldPart] at ih ⊢; omega
    refine ⟨(formText boundary fields field fileName contentType content closing).length - fields.length, ?_⟩
    have h2 : fields.length ≤ (formText boundary fields field fileName contentType content closing).length := by
      rw [e]
      simp only [List.length_append]
      omega
    omega
  obtain ⟨k, hk⟩ := hlen
  have ht : tryParse boundary (formText boundary fields field fileName contentType content closing) =
      .form fields fileName contentType (content ++ fileDelimiter boundary ++ closing) := by
    unfold tryParse
    simp only []
    rw [hk, e, nextLine, splitCrlf_line hline]
    simp only [List.cons_append, List.nil_append]
    rw [if_neg (by simp)]
    have := partsLoop_fields h13 hf (k + 1) [] (filePart boundary field fileName contentType content ++ closing)
    simp only [List.cons_append, List.nil_append] at this
    rw [this]
    exact partsLoop_file h1 h2 h3 h4 h5 k fields content closing
  rw [ht]
  simp only [TryRes.outcome]
  have hb := beforeFirst_content (closing := closing) h13 hc
  cases hs : scanFile (crlfPat boundary) 0 (content ++ fileDelimiter boundary ++ closing) with
  | found i => rw [Scan.cut, (scanFile_before hs).unique hb]; rfl
  | maybe i =>
    obtain ⟨⟨rest, e⟩, _⟩ := hb
    exact absurd (occurs_iff_drop.mp ⟨content, rest, e⟩) (fun ⟨j, hj⟩ => scanFile_not_found (p := b!"\n--" ++ boundary)
      (by intro i; rw [show (13 :: (b!"\n--" ++ boundary)) = crlfPat boundary from rfl, hs]; simp) j hj)
  | clear =>
    obtain ⟨⟨rest, e⟩, _⟩ := hb
    exact absurd (occurs_iff_drop.mp ⟨content, rest, e⟩) (fun ⟨j, hj⟩ => scanFile_not_found (p := b!"\n--" ++ boundary)
      (by intro i; rw [show (13 :: (b!"\n--" ++ boundary)) = crlfPat boundary from rfl, hs]; simp) j hj)

example : (∀ f ∈ [(b!"key", b!"a/b.txt"), (b!"policy", b!"line 1\r\n--X\r\nline 3")], FieldText b!"XX" f.1 f.2) ∧ QuotedText b!"file" ∧
    QuotedText b!"b.txt" ∧ Printable b!"text/plain" ∧ Trimmed b!"text/plain" ∧ utf8Valid b!"text/plain" = true ∧
    ¬ Occurs (fileDelimiter b!"XX") b!"hello\r\n--X\r" ∧
    received (some (Sample.form.take 7) :: (Sample.form.drop 7).map fun c => some [c]) =
      formText b!"XX" [(b!"key", b!"a/b.txt"), (b!"policy", b!"line 1\r\n--X\r\nline 3")] b!"file" b!"b.txt" b!"text/plain" b!"hello\r\n--X\r" b!"--\r\n" := by
  have none : ∀ p s : Bytes, (match scanFile (13 :: p) 0 s with | .found _ => false | _ => true) = true → ¬ Occurs (13 :: p) s := by
    intro p s h ho
    obtain ⟨j, hj⟩ := occurs_iff_drop.mp ho
    exact scanFile_not_found (fun i e => by rw [e] at h; cases h) j hj
  have quoted : ∀ s : Bytes, s ≠ [] ∧ (∀ c ∈ s, c = 9 ∨ (32 ≤ c.toNat ∧ c ≠ 127)) ∧ (34 : UInt8) ∉ s ∧ utf8Valid s = true → QuotedText s := fun _ h => h
  refine ⟨?_, quoted _ (by decide +kernel), quoted _ (by decide +kernel), by unfold Printable; decide +kernel,
    trimmed_of (x := 116) (y := 110) (b := b!"ext/plain") (c := b!"text/plai") (by decide) (by decide) rfl rfl, by decide +kernel,
    none b!"\n--XX" _ (by decide +kernel), by decide +kernel⟩
  intro f hf
  simp only [List.mem_cons, List.not_mem_nil, or_false] at hf
  rcases hf with rfl | rfl
  · exact ⟨quoted _ (by decide +kernel), by decide +kernel, none b!"\n--XX\r\n" _ (by decide +kernel)⟩
  · exact ⟨quoted _ (by decide +kernel), by decide +kernel, none b!"\n--XX\r\n" _ (by decide +kernel)⟩

end S3
