import Verif.Props.Response
import Verif.Props.Form
import Verif.Spec.Malformed
/-! C83, C84: malformed requests and forms are refused for the right reason. -/
namespace S3
open Spec

/-! ### C83: paths and headers -/

theorem urlDecode_unique {p a b : Bytes} (h : urlDecode p = some a) (h' : urlDecode p = some b) : a = b := by
  rw [h] at h'; exact Option.some.inj h'

theorem extract_fault {path : Bytes} {e : S3ErrorCode} (h : PathFault path e) :
    (urlDecode path = none ∧ e = .InvalidURI) ∨ ∃ p, urlDecode path = some p ∧ extractS3Path p = .error e := by
  cases h with
  | undecodable h => exact .inl ⟨h, rfl⟩
  | relative p h hp =>
    refine .inr ⟨p, h, ?_⟩
    unfold extractS3Path tryFromPath
    split
    · rename_i heq
      split at heq
      · rename_i t ht
        have := (splitOnce_some.mp ht).1
        exact absurd this (by simpa using hp t)
      · cases heq
    · rename_i heq
      split at heq
      · rename_i t ht
        have := (splitOnce_some.mp ht).1
        exact absurd this (by simpa using hp t)
      · cases heq; rfl
  | bucket b t h ht hb hl =>
    refine .inr ⟨_, h, ?_⟩
    have hc : checkBucketName b = false := by
      rw [← Bool.not_eq_true]; exact mt (C02_bucket_name_rule b).mp hl
    have e : b!"/" ++ b ++ t = 47 :: (b ++ t) := by simp
    rw [e]
    rcases ht with ⟨rfl, hne⟩ | ⟨k, rfl⟩
    · have hs : splitOnce 47 b = none := splitOnce_none.mpr hb
      simp only [extractS3Path, tryFromPath, splitOnce_slash_cons, List.append_nil, hne, if_false, hs, hc]
      rfl
    · have hs : splitOnce 47 (b ++ 47 :: k) = some (b, k) := splitOnce_some.mpr ⟨rfl, hb⟩
      have hne : b ++ 47 :: k ≠ [] := by simp
      simp only [extractS3Path, tryFromPath, splitOnce_slash_cons, List.cons_append, List.nil_append, hne, if_false, hs]
      cases k <;> simp only [hc] <;> rfl
  | key b k h hl hk =>
    refine .inr ⟨_, h, ?_⟩
    have hc := (C02_bucket_name_rule b).mpr hl
    have e : b!"/" ++ b ++ b!"/" ++ k = 47 :: (b ++ 47 :: k) := by simp
    rw [e]
    have hs : splitOnce 47 (b ++ 47 :: k) = some (b, k) := splitOnce_some.mpr ⟨rfl, legal_no_slash hl⟩
    have hkl : checkKey k = false := by simp [checkKey, hk]
    cases k with
    | nil => simp at hk
    | cons x xs =>
      simp only [extractS3Path, tryFromPath, splitOnce_slash_cons, hs, hc, hkl]
      simp [pathErrorCode]

/-- **C83** Every path has a fault or addresses something, and not both. -/
theorem C83_fault_or_address (r : Req) :
    ((∃ a, At r a) ∨ ∃ e, PathFault r.path e) ∧ ¬ ((∃ a, At r a) ∧ ∃ e, PathFault r.path e) := by
  constructor
  · cases hd : urlDecode r.path with
    | none => exact .inr ⟨_, .undecodable hd⟩
    | some p =>
      cases ht : tryFromPath p with
      | ok a => exact .inl ⟨a.address, p, hd, (C01_path_addressing p _).mp ⟨a, ht, rfl⟩⟩
      | error k =>
        obtain ⟨h1, h2⟩ := C01_refusal_reason p k ht
        cases k with
        | invalidPath => exact .inr ⟨_, .relative p hd fun t e => h1.mp rfl ⟨t, e⟩⟩
        | keyTooLong =>
          obtain ⟨b, k, hl, rfl, hk⟩ := h2.mp rfl
          exact .inr ⟨_, .key b k hd hl hk⟩
        | invalidBucketName =>
          refine .inr ⟨.InvalidBucketName, ?_⟩
          have : ∃ t, p = b!"/" ++ t := Classical.byContradiction fun h => by cases h1.mpr h
          obtain ⟨t, rfl⟩ := this
          have hall : ∀ a, ¬ Addresses (b!"/" ++ t) a := by
            intro a ha
            obtain ⟨x, hx, _⟩ := (C01_path_addressing _ a).mpr ha
            rw [ht] at hx; cases hx
          cases hs : splitOnce 47 t with
          | none =>
            have hn := splitOnce_none.mp hs
            have hne : t ≠ [] := by rintro rfl; exact hall _ .root
            exact .bucket t [] (by rw [hd]; simp) (.inl ⟨rfl, hne⟩) hn fun hl => hall _ (.bucket t hl)
          | some x =>
            obtain ⟨b, k⟩ := x
            obtain ⟨rfl, hn⟩ := splitOnce_some.mp hs
            refine .bucket b (b!"/" ++ k) (by rw [hd]; simp) (.inr ⟨k, rfl⟩) hn fun hl => ?_
            by_cases hk : k = []
            · subst hk; exact hall _ (by simpa using Addresses.bucketSlash b hl)
            · by_cases hlen : k.length ≤ 1024
              · exact hall _ (by simpa using Addresses.object b k hl hk hlen)
              · have := h2.mpr ⟨b, k, hl, by simp, by omega⟩
                cases this
  · rintro ⟨⟨a, p, hp, ha⟩, e, he⟩
    obtain ⟨x, hx, _⟩ := (C01_path_addressing _ a).mpr ha
    rcases extract_fault he with ⟨h, _⟩ | ⟨q, h, h2⟩
    · rw [hp] at h; cases h
    · cases urlDecode_unique hp h
      rw [extractS3Path, hx] at h2; cases h2

variable (cfg : Cfg) (ext : Ext) (lib : Lib) (auth : Option Provider) (env : Env)

theorem refused_early {r : Req} {e : S3ErrorCode} (h : makeCtx lib r = .error e) (x : Texts) (hm : ∀ m, x.message = some m → CleanText m) (fs : FS) :
    (∃ res es, responded cfg ext lib auth env x r fs = .ok res ∧ Shows res e.httpStatus es ∧
      textsAt [b!"Error", b!"Code"] es = [e.asStr]) ∧ afterResponded cfg ext lib auth env x r fs = fs := by
  have ha : admit lib auth r = .error e := by rw [admit, h]; rfl
  constructor
  · obtain ⟨res, es, h1, h2, h3, _⟩ := C72_error_document cfg ext lib auth env x hm r fs (e := e)
      (by rw [served, handle, ha]; rfl)
    exact ⟨res, es, h1, h2, h3⟩
  · obtain ⟨res, h1, _⟩ := errorResponse_shows x hm e (clean_code e)
    rw [afterResponded, hyperCall, handleResponse, ha]
    show (run cfg (errorResponse x e) fs).2 = fs
    rw [h1]; rfl

/-- **C83** A request whose path addresses nothing is refused with status 400 and the code of the fault, whatever else it holds and
whoever sends it, and nothing changes. -/
theorem C83_bad_address {r : Req} {e : S3ErrorCode} (h : PathFault r.path e) (x : Texts) (hm : ∀ m, x.message = some m → CleanText m) (fs : FS) :
    (∃ res es, responded cfg ext lib auth env x r fs = .ok res ∧ Shows res 400 es ∧ textsAt [b!"Error", b!"Code"] es = [e.asStr]) ∧
    afterResponded cfg ext lib auth env x r fs = fs := by
  have hc : makeCtx lib r = .error e := by
    rcases extract_fault h with ⟨h1, rfl⟩ | ⟨p, h1, h2⟩
    · simp only [makeCtx, h1, orErr]; rfl
    · simp only [makeCtx, h1, orErr, except_ok_bind, h2]; rfl
  have hs : e.httpStatus = 400 := by cases h <;> rfl
  have := refused_early cfg ext lib auth env hc x hm fs
  rwa [hs] at this

theorem plainValue_iff {v : Bytes} : toStrOk v = true ↔ PlainValue v := by
  simp [toStrOk, PlainValue]

/-- **C83** A request with a header value that is not plain text, or with a content type that cannot be read, is refused as invalid. -/
theorem C83_bad_header {r : Req} {a : Address} (hp : At r a)
    (h : (∃ n v, (n, v) ∈ r.headers ∧ ¬ PlainValue v) ∨ ((∀ n v, (n, v) ∈ r.headers → PlainValue v) ∧ ∃ v, HeaderValue r b!"content-type" (some v) ∧ lib.mime v = none))
    (x : Texts) (hm : ∀ m, x.message = some m → CleanText m) (fs : FS) :
    (∃ res es, responded cfg ext lib auth env x r fs = .ok res ∧ Shows res 400 es ∧
      textsAt [b!"Error", b!"Code"] es = [b!"InvalidRequest"]) ∧
    afterResponded cfg ext lib auth env x r fs = fs := by
  obtain ⟨p, hd, ha⟩ := hp
  obtain ⟨s, hs, _⟩ := (C01_path_addressing _ a).mpr ha
  have he : extractS3Path p = .ok s := by rw [extractS3Path, hs]
  refine refused_early cfg ext lib auth env (e := .InvalidRequest) ?_ x hm fs
  rcases h with ⟨n, v, hv, hn⟩ | ⟨hall, v, hv, hmime⟩
  · have : orderedHeaders r.headers = none := by
      rw [orderedHeaders, if_neg]
      intro h
      exact hn (plainValue_iff.mp (List.all_eq_true.mp h _ hv))
    simp only [makeCtx, hd, orErr, except_ok_bind, he, this]; rfl
  · have ho : orderedHeaders r.headers = some (sortPairs r.headers) := by
      rw [orderedHeaders, if_pos]
      exact List.all_eq_true.mpr fun x hx => plainValue_iff.mpr (hall x.1 x.2 hx)
    have hg : orderedGet (sortPairs r.headers) b!"content-type" = some v := by
      cases hq : orderedGet (sortPairs r.headers) b!"content-type" with
      | none => exact absurd ((sortPairs_perm _).mem_iff.mpr hv.1) ((orderedGet_none_iff (sortPairs_sorted _)).mp hq v)
      | some w => rw [hv.2 w ((sortPairs_perm _).mem_iff.mp (orderedGet_some_mem hq))]
    simp only [makeCtx, hd, orErr, except_ok_bind, he, ho, hg, extractOpt, hmime]; rfl

/-- every fault occurs, and both faults of headers -/
example : PathFault b!"/%ff" .InvalidURI ∧ PathFault b!"abc" .InvalidURI ∧ PathFault b!"/a%20b/c" .InvalidBucketName ∧
    PathFault b!"//x" .InvalidBucketName ∧ PathFault (b!"/abc/" ++ List.replicate 1025 98) .KeyTooLongError ∧
    At (Sample.plain b!"GET" b!"/aaa/k" none [(b!"x-a", [200])] []) (.object b!"aaa" b!"k") ∧ ¬ PlainValue [200] ∧
    HeaderValue (Sample.plain b!"GET" b!"/aaa/k" none [(b!"content-type", b!"nonsense")] []) b!"content-type" (some b!"nonsense") ∧
    ({ Sample.lib with mime := fun s => if s = b!"nonsense" then none else Sample.lib.mime s } : Lib).mime b!"nonsense" = none := by
  have illegal : ∀ b, checkBucketName b = false → ¬ LegalBucket b := fun b h hl => by
    rw [(C02_bucket_name_rule b).mpr hl] at h; cases h
  refine ⟨.undecodable (by decide +kernel), .relative b!"abc" (by decide +kernel) (fun t e => by cases e),
    .bucket b!"a b" b!"/c" (by decide +kernel) (.inr ⟨b!"c", rfl⟩) (by decide) (illegal _ (by decide +kernel)),
    .bucket [] b!"/x" (by decide +kernel) (.inr ⟨b!"x", rfl⟩) (by decide) (illegal _ (by decide +kernel)),
    .key b!"abc" (List.replicate 1025 98) (by decide +kernel) ((C02_bucket_name_rule _).mp (by decide +kernel)) (by decide +kernel),
    Sample.at_object rfl (by decide +kernel) (by decide +kernel) (by decide) (by decide), ?_, Sample.value_header (by decide +kernel), by decide +kernel⟩
  intro h
  rcases h 200 (by simp) with h | h
  · exact absurd h.2 (by decide)
  · exact absurd h (by decide)

/-! ### C84: the header of a part of a form -/

theorem quotedParam_some {t s v r : Bytes} (h : quotedParam t s = some (v, r)) :
    s = t ++ v ++ 34 :: r ∧ v ≠ [] ∧ (34 : UInt8) ∉ v ∧ utf8Valid v = true := by
  simp only [quotedParam, Option.bind_eq_bind, Option.bind_eq_some_iff] at h
  obtain ⟨s1, h1, ⟨v', s2⟩, h2, h3⟩ := h
  simp only [] at h3
  split at h3
  · cases h3
  · rename_i hu
    simp only [Option.bind_eq_some_iff] at h3
    obtain ⟨⟨q, s3⟩, h3, h4⟩ := h3
    cases h4
    obtain ⟨e2, hne, hq, hh⟩ := takeTill1_some.mp h2
    obtain ⟨e3, hl⟩ := takeN_some.mp h3
    have e1 := tag_some.mp h1
    match q, hl with
    | [c], _ =>
      have hc := hh c _ (by rw [e3]; rfl)
      have hc : c = 34 := by simpa using hc
      subst hc
      refine ⟨by rw [e1, e2, e3]; simp, hne, fun hm => ?_, by simpa using hu⟩
      have := hq _ hm
      simp at this

theorem quotedParam_of {t v r : Bytes} (h1 : v ≠ []) (h3 : (34 : UInt8) ∉ v) (h4 : utf8Valid v = true) :
    quotedParam t (t ++ v ++ 34 :: r) = some (v, r) := by
  have e1 : takeTill1 (· == 34) (v ++ 34 :: r) = some (v, 34 :: r) :=
    takeTill1_some.mpr ⟨rfl, h1, fun c hc => by simpa using (fun e : c = 34 => h3 (e ▸ hc)), headIs_cons (by rfl)⟩
  have e2 : takeN 1 (34 :: r) = some ([34], r) := takeN_append (a := [34]) rfl
  simp only [quotedParam, List.append_assoc, tag_append, e1, h4, e2, Option.bind_eq_bind, Option.bind_some]
  rfl

/-- **C84** The `Content-Disposition` of a part is read exactly: a field name, or a field name and a file name, with nothing before,
between or behind. -/
theorem C84_part_header (s n : Bytes) (f : Option Bytes) : parseContentDisposition s = some (n, f) ↔ PartHeader s n f := by
  constructor
  · intro h
    simp only [parseContentDisposition, Option.bind_eq_bind, Option.bind_eq_some_iff] at h
    obtain ⟨s1, h1, ⟨n', s2⟩, h2, h3⟩ := h
    obtain ⟨e2, hn1, hn2, hn3⟩ := quotedParam_some h2
    have e1 := tag_some.mp h1
    cases hb : (tag b!"; " s2).bind (quotedParam b!"filename=\"") with
    | none =>
      have eo : optFilename s2 = (none, s2) := by rw [optFilename, hb]
      simp only [eo] at h3
      split at h3
      · cases h3
      · rename_i hs
        cases h3
        have hs : s2 = [] := Classical.not_not.mp hs
        have := PartHeader.field n hn1 hn2 hn3
        rw [e1, e2, hs]
        simpa using this
    | some p =>
      obtain ⟨g, s3⟩ := p
      have eo : optFilename s2 = (some g, s3) := by rw [optFilename, hb]
      simp only [eo] at h3
      split at h3
      · cases h3
      · rename_i hs
        cases h3
        have hs : s3 = [] := Classical.not_not.mp hs
        obtain ⟨s4, h4, h5⟩ := Option.bind_eq_some_iff.mp hb
        obtain ⟨e5, hf1, hf2, hf3⟩ := quotedParam_some h5
        have e4 := tag_some.mp h4
        have := PartHeader.file n g hn1 hn2 hn3 hf1 hf2 hf3
        rw [e1, e2, e4, e5, hs]
        simpa using this
  · intro h
    cases h with
    | field n h1 h2 h3 =>
      have e : b!"form-data; name=\"" ++ n ++ b!"\"" = b!"form-data; " ++ (b!"name=\"" ++ n ++ 34 :: []) := by simp
      rw [parseContentDisposition, e, tag_append]
      simp only [Option.bind_eq_bind, Option.bind_some]
      rw [quotedParam_of h1 h2 h3]
      rfl
    | file n f h1 h2 h3 h4 h5 h6 =>
      have e : b!"form-data; name=\"" ++ n ++ b!"\"; filename=\"" ++ f ++ b!"\"" =
          b!"form-data; " ++ (b!"name=\"" ++ n ++ 34 :: (b!"; " ++ (b!"filename=\"" ++ f ++ 34 :: []))) := by simp
      rw [parseContentDisposition, e, tag_append]
      simp only [Option.bind_eq_bind, Option.bind_some]
      rw [quotedParam_of h1 h2 h3]
      simp only [Option.bind_some]
      have e3 : optFilename (b!"; " ++ (b!"filename=\"" ++ f ++ 34 :: [])) = (some f, []) := by
        rw [optFilename, tag_append, Option.bind_some, quotedParam_of h4 h5 h6]
      rw [e3]
      rfl

/-- **C84** A form is refused if, behind any number of fields, a part has a `Content-Disposition` of another form, whatever follows and in
whatever fragments it arrives, if the first line arrives in one. -/
theorem C84_malformed_part {boundary : Bytes} (h13 : (13 : UInt8) ∉ boundary) {fields : List (Bytes × Bytes)}
    (hf : ∀ f ∈ fields, FieldText boundary f.1 f.2) {s : Bytes} (h1 : Printable s) (h2 : Trimmed s) (h3 : ∀ n f, ¬ PartHeader s n f)
    (rest : Bytes) {body : Body} (hu : FirstLineUnsplit body)
    (hr : received body = b!"--" ++ boundary ++ b!"\r\n" ++ fields.flatMap (fieldPart boundary) ++ b!"Content-Disposition: " ++ s ++
      b!"\r\n\r\n" ++ rest) : formOutcome boundary body = none := by
  rw [formOutcome_flat hu, hr]
  have hline : (13 : UInt8) ∉ b!"--" ++ boundary := by
    intro hm
    rcases List.mem_append.mp hm with hm | hm
    · revert hm; decide
    · exact h13 hm
  generalize ht : b!"--" ++ boundary ++ b!"\r\n" ++ fields.flatMap (fieldPart boundary) ++ b!"Content-Disposition: " ++ s ++
      b!"\r\n\r\n" ++ rest = t
  have e : t = (b!"--" ++ boundary) ++ b!"\r\n" ++ (fields.flatMap (fieldPart boundary) ++
      (b!"Content-Disposition" ++ b!": " ++ s ++ b!"\r\n" ++ (b!"\r\n" ++ rest))) := by
    rw [← ht]; simp
  have hlen : ∃ k, t.length + 1 = (k + 1) + fields.length := by
    have : fields.length ≤ (fields.flatMap (fieldPart boundary)).length := by
      clear hf e hr ht
      induction fields with
      | nil => simp
      | cons x fields ih => simp [fieldPart] at ih ⊢; omega
    refine ⟨t.length - fields.length, ?_⟩
    have h2 : fields.length ≤ t.length := by
      rw [e]
      simp only [List.length_append]
      omega
    omega
  obtain ⟨k, hk⟩ := hlen
  have hp : parseContentDisposition s = none := by
    cases h : parseContentDisposition s with
    | none => rfl
    | some p => exact absurd ((C84_part_header s p.1 p.2).mp h) (h3 _ _)
  have ht : tryParse boundary t = .bad := by
    unfold tryParse
    simp only []
    rw [hk, e, nextLine, splitCrlf_line hline]
    simp only [List.cons_append, List.nil_append]
    rw [if_neg (by simp)]
    have := partsLoop_fields h13 hf (k + 1) [] (b!"Content-Disposition" ++ b!": " ++ s ++ b!"\r\n" ++ (b!"\r\n" ++ rest))
    simp only [List.cons_append, List.nil_append] at this
    rw [this]
    have hh := parseHeaders_line (n := b!"Content-Disposition") (k := 1) (by decide) (by decide +kernel) h1 h2 (parseHeaders_end 1 rest)
    simp only [List.cons_append, List.nil_append] at hh
    rw [partsLoop, hh]
    have e2 : lastHeader [(b!"Content-Disposition", s)] b!"Content-Disposition" = some s := by
      simp only [lastHeader, List.foldl_cons, List.foldl_nil]
      rw [if_pos (by decide +kernel)]
    simp only [e2, hp]
  rw [ht]
  rfl

/-- a header with something behind the file name is no header of a part -/
theorem Sample.no_part_header {s : Bytes} (h : parseContentDisposition s = none) (n : Bytes) (f : Option Bytes) : ¬ PartHeader s n f := by
  intro hp
  rw [(C84_part_header s n f).mpr hp] at h
  cases h

example : PartHeader b!"form-data; name=\"file\"; filename=\"b.txt\"" b!"file" (some b!"b.txt") ∧
    (∀ n f, ¬ PartHeader b!"form-data; name=\"file\"; size=3" n f) ∧ Printable b!"form-data; name=\"file\"; size=3" ∧
    Trimmed b!"form-data; name=\"file\"; size=3" ∧
    FirstLineUnsplit [some b!"--XX\r\n", some b!"Content-Disposition: form-data; name=\"file\"; size=3\r\n\r\nrest"] := by
  refine ⟨(C84_part_header _ _ _).mp (by decide +kernel), Sample.no_part_header (by decide +kernel), by unfold Printable; decide +kernel,
    trimmed_of (x := 102) (y := 51) (b := b!"orm-data; name=\"file\"; size=3") (c := b!"form-data; name=\"file\"; size=") (by decide) (by decide) rfl rfl, ?_⟩
  simp only [FirstLineUnsplit]
  rw [if_neg (by decide)]
  exact ⟨b!"--XX", [], by decide, by decide⟩

end S3
