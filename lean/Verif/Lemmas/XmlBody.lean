import Verif.Spec.XmlBody
import Verif.Lemmas.XmlDoc
import Verif.Props.SampleXml
import Verif.Lemmas.Dispatch
/-! The elements of request bodies, and an XML reader that does what is expected. -/
namespace S3
open Spec

/-! ### the deserialisers -/

theorem textOf_leaf (t : Bytes) : textOf (if t = [] then [] else [.text t]) = some t := by
  split
  · rename_i h; subst h; rfl
  · rfl

theorem named_self (n : Bytes) (x : List XmlNode) : (XmlNode.elem n x).named n = some x := by simp [XmlNode.named]

theorem named_ne {n m : Bytes} (h : m ≠ n) (x : List XmlNode) : (XmlNode.elem m x).named n = none := by simp [XmlNode.named, h]

theorem readObject_element (o : Bytes × Option Bytes) {inner : List XmlNode} (h : objectElement o = .elem b!"Object" inner) :
    readObjectIdentifier inner = some o.1 := by
  simp only [objectElement, XmlNode.elem.injEq, true_and] at h
  subst h
  obtain ⟨k, v⟩ := o
  cases v with
  | none => simp [readObjectIdentifier, field, leaf, XmlNode.named, optField, textOf_leaf]
  | some v => simp [readObjectIdentifier, field, leaf, XmlNode.named, optField, textOf_leaf]

def objectInner (o : Bytes × Option Bytes) : List XmlNode :=
  leaf b!"Key" o.1 :: match o.2 with
    | none => []
    | some v => [leaf b!"VersionId" v]

theorem objectElement_eq (o : Bytes × Option Bytes) : objectElement o = .elem b!"Object" (objectInner o) := rfl

theorem readList_map {α β : Type} {read : List XmlNode → Option β} {f : α → List XmlNode} {g : α → β} (h : ∀ a, read (f a) = some (g a)) (l : List α) :
    readList read (l.map f) = some (l.map g) := by
  induction l with
  | nil => rfl
  | cons a l ih => simp [readList, h, ih]

theorem takeWhile_run {α : Type} {p : α → Bool} (l r : List α) (h : ∀ x ∈ l, p x = true) (hr : ∀ x, r.head? = some x → p x = false) :
    (l ++ r).takeWhile p = l ∧ (l ++ r).dropWhile p = r := by
  induction l with
  | nil =>
    cases r with
    | nil => exact ⟨rfl, rfl⟩
    | cons x r => simp [List.takeWhile, List.dropWhile, hr x rfl]
  | cons a l ih =>
    have := ih fun x hx => h x (List.mem_cons_of_mem _ hx)
    simp [List.takeWhile, List.dropWhile, h a (by simp), this.1, this.2]

theorem listField_run {n : Bytes} {a c : List XmlNode} {b : List (List XmlNode)} (hb : b ≠ []) (ha : ∀ x ∈ a, x.named n = none)
    (hc : ∀ x ∈ c, ∃ m inner, x = .elem m inner ∧ m ≠ n) : listField n (a ++ b.map (.elem n) ++ c) = some (some b) := by
  have hcn : ∀ x ∈ c, x.named n = none := by
    intro x hx
    obtain ⟨m, inner, rfl, hm⟩ := hc x hx
    exact named_ne hm _
  have h1 : (a ++ (b.map (XmlNode.elem n) ++ c)).dropWhile (fun x => (x.named n).isNone) = b.map (XmlNode.elem n) ++ c := by
    refine (takeWhile_run a _ (fun x hx => by simp [ha x hx]) ?_).2
    intro x hx
    cases b with
    | nil => exact absurd rfl hb
    | cons y b =>
      simp only [List.map_cons, List.cons_append, List.head?_cons, Option.some.injEq] at hx
      subst hx
      simp [named_self]
  have h2 := takeWhile_run (p := fun x : XmlNode => (x.named n).isSome) (b.map (.elem n)) c
    (fun x hx => by
      obtain ⟨y, _, rfl⟩ := List.mem_map.mp hx
      simp [named_self])
    (fun x hx => by simp [hcn x (List.mem_of_mem_head? hx)])
  have h3 : (b.map (XmlNode.elem n) ++ c).isEmpty = false := by
    cases b with
    | nil => exact absurd rfl hb
    | cons y b => rfl
  have h4 : (c.any fun x => (x.named n).isSome) = false := by
    rw [List.any_eq_false]
    intro x hx
    simp [hcn x hx]
  have h5 : (b.map (XmlNode.elem n)).filterMap (XmlNode.named n) = b := by
    rw [List.filterMap_map]
    have : (XmlNode.named n ∘ XmlNode.elem n) = some := by funext x; exact named_self n x
    rw [this, List.filterMap_some]
  simp only [listField, List.append_assoc, h1, h2.1, h2.2, h3, h4, h5]
  cases c with
  | nil => rfl
  | cons x c =>
    obtain ⟨m, inner, rfl, _⟩ := hc x (by simp)
    rfl

theorem optField_none {α : Type} {n : Bytes} {read : Bytes → Option α} {l : List XmlNode} (h : ∀ x ∈ l, x.named n = none) :
    optField n read l = some none := by
  have : l.filterMap (XmlNode.named n) = [] := by
    rw [List.filterMap_eq_nil_iff]; exact h
  simp [optField, field, this]

theorem optField_one {α : Type} {n t : Bytes} {v : α} {read : Bytes → Option α} {a c : List XmlNode} (ha : ∀ x ∈ a, x.named n = none)
    (hc : ∀ x ∈ c, x.named n = none) (hr : read t = some v) : optField n read (a ++ leaf n t :: c) = some (some v) := by
  have h1 : a.filterMap (XmlNode.named n) = [] := by rw [List.filterMap_eq_nil_iff]; exact ha
  have h2 : c.filterMap (XmlNode.named n) = [] := by rw [List.filterMap_eq_nil_iff]; exact hc
  simp only [optField, field, List.filterMap_append, List.filterMap_cons, h1, h2, leaf, named_self, List.nil_append, textOf_leaf, Option.bind_some, hr,
    Option.map_some]

/-- the keys of a DeleteObjects request -/
theorem readDelete_request {root : XmlNode} {objs : List (Bytes × Option Bytes)} {q : Option Bool} (h : DeleteRequest root objs q) :
    readDelete (some root) = some (objs.map (·.1)) := by
  have hobj : objs.map objectElement = (objs.map objectInner).map (.elem b!"Object") := by
    rw [List.map_map]; rfl
  have hl := readList_map (read := readObjectIdentifier) (f := objectInner) (g := (·.1)) (fun o => readObject_element o (objectElement_eq o)) objs
  have hq : ∀ x ∈ (objs.map objectInner).map (XmlNode.elem b!"Object"), x.named b!"Quiet" = none := by
    intro x hx
    obtain ⟨y, _, rfl⟩ := List.mem_map.mp hx
    exact named_ne (by decide) _
  have hbool : ∀ q : Bool, xmlBool (if q then b!"true" else b!"false") = some q := by decide +kernel
  cases h with
  | plain hne =>
    have h1 := listField_run (n := b!"Object") (a := []) (c := []) (b := objs.map objectInner) (by simpa using hne) (by simp) (by simp)
    simp only [List.nil_append, List.append_nil] at h1
    simp only [readDelete, hobj, h1, hl, Option.bind_some, optField_none hq, Option.map_some]
  | @quietLast _ q hne =>
    have h1 := listField_run (n := b!"Object") (a := []) (c := [quietElement q]) (b := objs.map objectInner) (by simpa using hne) (by simp)
      (by simp [quietElement, leaf])
    simp only [List.nil_append] at h1
    have h2 := optField_one (n := b!"Quiet") (read := xmlBool) (c := []) hq (by simp) (hbool q)
    simp only [quietElement] at h1
    simp only [readDelete, hobj, h1, hl, Option.bind_some, quietElement, h2, Option.map_some]
  | @quietFirst _ q hne =>
    have h1 := listField_run (n := b!"Object") (a := [quietElement q]) (c := []) (b := objs.map objectInner) (by simpa using hne)
      (by simp [quietElement, leaf, XmlNode.named]) (by simp)
    simp only [List.append_nil, List.singleton_append] at h1
    have h2 := optField_one (n := b!"Quiet") (read := xmlBool) (a := []) (by simp) hq (hbool q)
    simp only [List.nil_append] at h2
    simp only [quietElement] at h1
    simp only [readDelete, hobj, h1, hl, Option.bind_some, quietElement, h2, Option.map_some]

theorem readPart_element {x : XmlNode} {n : Int} {e : Bytes} (h : PartElement x n e) :
    ∃ inner, x = .elem b!"Part" inner ∧ readCompletedPart inner = some (some n) := by
  cases h with
  | @numberFirst _ _ s hs =>
    have hs : parseSigned (2 ^ 63) s = some n := parseI64_iff.mpr hs
    refine ⟨_, rfl, ?_⟩
    have h1 := optField_one (n := b!"ETag") (t := e) (v := e) (read := some) (a := [leaf b!"PartNumber" s]) (c := [])
      (by simp [leaf, XmlNode.named]) (by simp) rfl
    have h2 := optField_one (n := b!"PartNumber") (read := parseSigned (2 ^ 63)) (a := []) (c := [leaf b!"ETag" e]) (by simp)
      (by simp [leaf, XmlNode.named]) hs
    simp only [List.singleton_append, List.nil_append] at h1 h2
    simp only [readCompletedPart, h1, h2, Option.bind_some]
  | @etagFirst _ _ s hs =>
    have hs : parseSigned (2 ^ 63) s = some n := parseI64_iff.mpr hs
    refine ⟨_, rfl, ?_⟩
    have h1 := optField_one (n := b!"PartNumber") (read := parseSigned (2 ^ 63)) (a := [leaf b!"ETag" e]) (c := [])
      (by simp [leaf, XmlNode.named]) (by simp) hs
    have h2 := optField_one (n := b!"ETag") (t := e) (v := e) (read := some) (a := []) (c := [leaf b!"PartNumber" s]) (by simp)
      (by simp [leaf, XmlNode.named]) rfl
    simp only [List.singleton_append, List.nil_append] at h1 h2
    simp only [readCompletedPart, h1, h2, Option.bind_some]

theorem partElements_inner {xs : List XmlNode} {ps : List (Int × Bytes)} (h : PartElements xs ps) :
    ∃ l : List (List XmlNode), xs = l.map (.elem b!"Part") ∧ readList readCompletedPart l = some (ps.map fun p => some p.1) := by
  induction h with
  | nil => exact ⟨[], rfl, rfl⟩
  | cons hx _ ih =>
    obtain ⟨l, rfl, hl⟩ := ih
    obtain ⟨inner, rfl, hi⟩ := readPart_element hx
    exact ⟨inner :: l, rfl, by simp [readList, hi, hl]⟩

/-- the part numbers of a CompleteMultipartUpload request -/
theorem readComplete_request {root : XmlNode} {parts : List (Int × Bytes)} (h : CompleteRequest root parts) :
    readComplete (some root) = some (some (parts.map fun p => some p.1)) := by
  obtain ⟨xs, hx, rfl⟩ := h
  obtain ⟨l, rfl, hl⟩ := partElements_inner hx
  cases l with
  | nil =>
    simp only [readList, Option.some.injEq] at hl
    simp only [readComplete, ← hl]
    rfl
  | cons y l =>
    have h1 := listField_run (n := b!"Part") (a := []) (c := []) (b := y :: l) (by simp) (by simp) (by simp)
    simp only [List.nil_append, List.append_nil] at h1
    simp only [readComplete, h1, hl, Option.map_some]

theorem readCreateBucket_request (location : Bytes) : readCreateBucket (some (createRequest location)) = true := by
  simp [createRequest, readCreateBucket, optField, field, leaf, XmlNode.named, textOf_leaf]

/-! ### the XML reader of the samples does what is expected -/

theorem plainUnescape_escaped {t s : Bytes} (h : Escaped t s) : plainUnescape s = some t := by
  induction h with
  | nil => rfl
  | @raw c t s h1 h2 _ ih =>
    rw [plainUnescape]
    · simp [h2, ih]
    all_goals intro r hr; exact absurd hr h2
  | lt _ ih => simp [plainUnescape, ih]
  | gt _ ih => simp [plainUnescape, ih]
  | amp _ ih => simp [plainUnescape, ih]
  | quot _ ih => simp [plainUnescape, ih]
  | apos _ ih => simp [plainUnescape, ih]

theorem isWhite_iff {c : UInt8} : isWhite c = true ↔ White [c] := by
  simp [isWhite, White, or_assoc]

theorem white_all {w : Bytes} (h : White w) : ∀ c ∈ w, isWhite c = true := by
  intro c hc
  have := h c hc
  simpa [isWhite, or_assoc] using this

theorem plainTrim_white {w : Bytes} (h : White w) : plainTrim w = [] := by
  have : w.dropWhile isWhite = [] := by
    have := (takeWhile_run w [] (white_all h) (by simp)).2
    simpa using this
  simp [plainTrim, this]

theorem dropWhile_edge {p : UInt8 → Bool} {s : Bytes} (h : ∀ c, s.head? = some c → p c = false) : s.dropWhile p = s := by
  cases s with
  | nil => rfl
  | cons c s => simp [List.dropWhile, h c rfl]

theorem plainTrim_edges {s : Bytes} (h : ∀ c, s.head? = some c ∨ s.getLast? = some c → isWhite c = false) : plainTrim s = s := by
  rw [plainTrim, dropWhile_edge fun c hc => h c (.inl hc), dropWhile_edge fun c hc => h c (.inr (by simpa using hc)), List.reverse_reverse]

/-- the ends of a written text are no white space either -/
theorem escaped_edges {t s : Bytes} (h : Escaped t s) :
    (∀ c, s.head? = some c → isWhite c = true → t.head? = some c) ∧ (∀ c, s.getLast? = some c → isWhite c = true → t.getLast? = some c) ∧ (t = [] ↔ s = []) := by
  induction h with
  | nil => simp
  | @raw c t s h1 h2 _ ih =>
    refine ⟨fun _ h _ => h, fun x hx hw => ?_, by simp⟩
    cases s with
    | nil => rw [ih.2.2.mpr rfl]; exact hx
    | cons y s =>
      rw [List.getLast?_cons_cons] at hx
      cases t with
      | nil => exact absurd (ih.2.2.mp rfl) (by simp)
      | cons z t => rw [List.getLast?_cons_cons]; exact ih.2.1 x hx hw
  | @lt t s _ ih | @gt t s _ ih | @amp t s _ ih | @quot t s _ ih | @apos t s _ ih =>
    refine ⟨fun x hx hw => ?_, fun x hx hw => ?_, by simp⟩
    · simp only [List.cons_append, List.head?_cons, Option.some.injEq] at hx
      subst hx; exact absurd hw (by decide)
    · cases s with
      | nil =>
        simp only [List.append_nil] at hx
        injection hx with hx; subst hx; exact absurd hw (by decide)
      | cons y s =>
        cases t with
        | nil => exact absurd (ih.2.2.mp rfl) (by simp)
        | cons z t =>
          rw [List.getLast?_cons_cons]
          refine ih.2.1 x ?_ hw
          simpa [List.getLast?_append, List.getLast?_cons_cons] using hx

theorem escaped_no_lt {t s : Bytes} (h : Escaped t s) : (60 : UInt8) ∉ s := by
  induction h with
  | nil => simp
  | raw h1 _ _ ih => simp [ih, Ne.symm h1]
  | lt _ ih | gt _ ih | amp _ ih | quot _ ih | apos _ ih => simp [ih]

theorem tokens_plain_text {s : Bytes} (h : (60 : UInt8) ∉ s) (acc rest : Bytes) : xmlTokens false acc (s ++ rest) = xmlTokens false (acc ++ s) rest := by
  induction s generalizing acc with
  | nil => simp
  | cons c s ih =>
    have hc : c ≠ 60 := fun e => h (e ▸ List.mem_cons_self ..)
    rw [List.cons_append, xmlTokens, if_neg hc, ih (fun hs => h (List.mem_cons_of_mem _ hs))]
    simp

theorem tokens_plain_tag {s : Bytes} (h : (62 : UInt8) ∉ s) (acc rest : Bytes) :
    xmlTokens true acc (s ++ 62 :: rest) = (xmlTokens false [] rest).map (.tag (acc ++ s) :: ·) := by
  induction s generalizing acc with
  | nil => simp [xmlTokens]
  | cons c s ih =>
    have hc : c ≠ 62 := fun e => h (e ▸ List.mem_cons_self ..)
    rw [List.cons_append, xmlTokens, if_neg hc, ih (fun hs => h (List.mem_cons_of_mem _ hs))]
    simp

theorem white_no_lt {w : Bytes} (h : White w) : (60 : UInt8) ∉ w := fun hc => by
  have := h _ hc
  revert this; decide

/-- text, then a tag -/
theorem tokens_both {s g : Bytes} (h : (60 : UInt8) ∉ s) (hg : (62 : UInt8) ∉ g) (acc rest : Bytes) :
    xmlTokens false acc (s ++ (60 :: (g ++ (62 :: rest)))) = (xmlTokens false [] rest).map ([.text (acc ++ s), .tag g] ++ ·) := by
  rw [tokens_plain_text h, xmlTokens, if_pos rfl, tokens_plain_tag hg, Option.map_map, List.nil_append]
  rfl

theorem name_letter {n : Bytes} (h : xmlName n = true) : n ≠ [] ∧ ∀ c ∈ n, (isLower c || isUpper c) = true := by
  simpa [xmlName] using h

theorem letter_plain : ∀ c : UInt8, (isLower c || isUpper c) = true → c ≠ 62 ∧ c ≠ 47 ∧ c ≠ 63 :=
  forall_byte (by decide +kernel)

theorem attributes_shape {a : Bytes} (h : Attributes a) :
    (62 : UInt8) ∉ a ∧ (∀ x, a.head? = some x → (isLower x || isUpper x) = false) ∧ a.getLast? ≠ some 47 := by
  rcases h with rfl | ⟨u, rfl, hu⟩
  · simp
  · refine ⟨fun hm => ?_, fun x hx => ?_, by rw [List.getLast?_append]; simp⟩
    · simp only [List.mem_append] at hm
      rcases hm with (hm | hm) | hm
      · revert hm; decide
      · exact (hu _ hm).2.2.2.2.2 rfl
      · revert hm; decide
    · simp only [List.cons_append, List.head?_cons, Option.some.injEq] at hx
      subst hx; decide

theorem build_white {s : Bytes} (h : White s) (n : Bytes) (l : List XmlNode) (up r) :
    plainBuild ((n, l) :: up) (.text s :: r) = plainBuild ((n, l) :: up) r := by
  rw [plainBuild, if_pos (plainTrim_white h)]

theorem build_open {m a : Bytes} (hm : xmlName m = true) (ha : Attributes a) (n : Bytes) (l : List XmlNode) (up r) :
    plainBuild ((n, l) :: up) (.tag (m ++ a) :: r) = plainBuild ((m, []) :: (n, l) :: up) r := by
  obtain ⟨h1, h2⟩ := name_letter hm
  obtain ⟨h3, h4, h5⟩ := attributes_shape ha
  have ht := (takeWhile_run m a h2 h4).1
  have hlast : (m ++ a).getLast? ≠ some 47 := by
    rw [List.getLast?_append]
    cases hl : a.getLast? with
    | none =>
      simp only [Option.none_or]
      intro e
      exact (letter_plain _ (h2 _ (List.mem_of_getLast? e))).2.1 rfl
    | some x => simp only [Option.some_or]; exact hl ▸ h5
  cases m with
  | nil => exact absurd rfl h1
  | cons c m =>
    have hc := letter_plain c (h2 c (by simp))
    rw [List.cons_append, plainBuild]
    · rw [← List.cons_append, if_neg hlast, ht]
    · intro x hx; exact hc.2.2 (by injection hx)
    · intro x hx; exact hc.2.1 (by injection hx)

theorem build_void {m a z : Bytes} (hm : xmlName m = true) (ha : Attributes a) (hz : z = [] ∨ z = b!" ") (n : Bytes) (l : List XmlNode) (up r) :
    plainBuild ((n, l) :: up) (.tag (m ++ a ++ z ++ b!"/") :: r) = plainBuild ((n, .elem m [] :: l) :: up) r := by
  obtain ⟨h1, h2⟩ := name_letter hm
  obtain ⟨h3, h4, h5⟩ := attributes_shape ha
  have ht : (m ++ (a ++ (z ++ b!"/"))).takeWhile (fun c => isLower c || isUpper c) = m := by
    refine (takeWhile_run m _ h2 ?_).1
    intro x hx
    cases a with
    | nil => rcases hz with rfl | rfl <;> · injection hx with hx; subst hx; decide
    | cons y a => exact h4 x hx
  have hlast : (m ++ (a ++ (z ++ b!"/"))).getLast? = some 47 := by simp
  rw [List.append_assoc, List.append_assoc]
  cases m with
  | nil => exact absurd rfl h1
  | cons c m =>
    have hc := letter_plain c (h2 c (by simp))
    rw [List.cons_append, plainBuild]
    · rw [← List.cons_append, if_pos hlast, ht]
    · intro x hx; exact hc.2.2 (by injection hx)
    · intro x hx; exact hc.2.1 (by injection hx)

theorem build_close (m : Bytes) (l n l' up r) :
    plainBuild ((m, l) :: (n, l') :: up) (.tag (47 :: m) :: r) = plainBuild ((n, .elem m l.reverse :: l') :: up) r := by
  rw [plainBuild, if_pos rfl]

theorem build_text {t s : Bytes} (ht : PlainText t) (h : Escaped t s) (n l up r) :
    plainBuild ((n, l) :: up) (.text s :: r) = plainBuild ((n, .text t :: l) :: up) r := by
  have he := escaped_edges h
  have htrim : plainTrim s = s := by
    apply plainTrim_edges
    intro c hc
    cases hw : isWhite c with
    | false => rfl
    | true => exact absurd (isWhite_iff.mp hw) (ht.edges c (hc.imp (fun h => he.1 c h hw) (fun h => he.2.1 c h hw)))
  rw [plainBuild, htrim, if_neg (fun e => ht.nonempty (he.2.2.mpr e)), plainUnescape_escaped h]

theorem name_no_gt {n : Bytes} (h : xmlName n = true) : (62 : UInt8) ∉ n := fun hc => (letter_plain _ ((name_letter h).2 _ hc)).1 rfl

theorem white_append {a b : Bytes} (ha : White a) (hb : White b) : White (a ++ b) := fun c hc => (List.mem_append.mp hc).elim (ha c) (hb c)

/-- what is written is read -/
theorem plain_writes {l : List XmlNode} {s : Bytes} (h : Written l s) : ∀ acc, White acc → ∃ T acc', White acc' ∧
    (∀ rest, xmlTokens false acc (s ++ rest) = (xmlTokens false acc' rest).map (T ++ ·)) ∧
    ∀ n c up R, plainBuild ((n, c) :: up) (T ++ R) = plainBuild ((n, l.reverse ++ c) :: up) R := by
  induction h with
  | @nil w hw =>
    intro acc ha
    exact ⟨[], acc ++ w, white_append ha hw, fun rest => by rw [tokens_plain_text (white_no_lt hw)]; cases xmlTokens false (acc ++ w) rest <;> rfl, fun _ _ _ _ => rfl⟩
  | @leaf w m a t s r sr hw hm hat ht he _ ih =>
    intro acc ha
    obtain ⟨T, acc', ha', h1, h2⟩ := ih [] (by simp [White])
    refine ⟨[.text (acc ++ w), .tag (m ++ a)] ++ ([.text s, .tag (47 :: m)] ++ T), acc', ha', fun rest => ?_, fun n c up R => ?_⟩
    · have e : w ++ b!"<" ++ m ++ a ++ b!">" ++ s ++ b!"</" ++ m ++ b!">" ++ sr ++ rest =
          w ++ (60 :: ((m ++ a) ++ (62 :: (s ++ (60 :: ((47 :: m) ++ (62 :: (sr ++ rest)))))))) := by simp
      rw [e, tokens_both (white_no_lt hw) (by simp [name_no_gt hm, (attributes_shape hat).1]),
        tokens_both (escaped_no_lt he) (by simp [name_no_gt hm]), h1]
      cases xmlTokens false acc' rest <;> simp
    · simp only [List.append_assoc, List.cons_append, List.nil_append]
      rw [build_white (white_append ha hw), build_open hm hat, build_text ht he, build_close, h2]
      simp
  | @node w m a inner s r sr hw hm hat _ _ ih1 ih2 =>
    intro acc ha
    obtain ⟨T1, acc1, ha1, h1, h2⟩ := ih1 [] (by simp [White])
    obtain ⟨T2, acc2, ha2, h3, h4⟩ := ih2 [] (by simp [White])
    refine ⟨[.text (acc ++ w), .tag (m ++ a)] ++ (T1 ++ ([.text acc1, .tag (47 :: m)] ++ T2)), acc2, ha2, fun rest => ?_, fun n c up R => ?_⟩
    · have e : w ++ b!"<" ++ m ++ a ++ b!">" ++ s ++ b!"</" ++ m ++ b!">" ++ sr ++ rest =
          w ++ (60 :: ((m ++ a) ++ (62 :: (s ++ ([] ++ (60 :: ((47 :: m) ++ (62 :: (sr ++ rest))))))))) := by simp
      rw [e, tokens_both (white_no_lt hw) (by simp [name_no_gt hm, (attributes_shape hat).1]), h1,
        tokens_both (by simp) (by simp [name_no_gt hm]), h3]
      cases xmlTokens false acc2 rest <;> simp
    · simp only [List.append_assoc, List.cons_append, List.nil_append]
      rw [build_white (white_append ha hw), build_open hm hat, h2, build_white ha1, build_close, h4]
      simp
  | @void w m a z r sr hw hm hat hz _ ih =>
    intro acc ha
    obtain ⟨T, acc', ha', h1, h2⟩ := ih [] (by simp [White])
    refine ⟨[.text (acc ++ w), .tag (m ++ a ++ z ++ b!"/")] ++ T, acc', ha', fun rest => ?_, fun n c up R => ?_⟩
    · have e : w ++ b!"<" ++ m ++ a ++ z ++ b!"/>" ++ sr ++ rest = w ++ (60 :: ((m ++ a ++ z ++ b!"/") ++ (62 :: (sr ++ rest)))) := by simp
      have hz' : (62 : UInt8) ∉ z := by rcases hz with rfl | rfl <;> decide
      rw [e, tokens_both (white_no_lt hw) (by simp [name_no_gt hm, (attributes_shape hat).1, hz']), h1]
      cases xmlTokens false acc' rest <;> simp
    · simp only [List.append_assoc, List.cons_append, List.nil_append]
      have := build_void hm hat hz n c up (T ++ R)
      simp only [List.append_assoc, List.cons_append, List.nil_append] at this
      rw [build_white (white_append ha hw), this, h2]
      simp

/-- the reader does what is expected -/
theorem plainXml_document {root : XmlNode} {s : Bytes} (h : Document root s) : plainXml s = some (some root) := by
  obtain ⟨d, body, hd, hb, rfl⟩ := h
  have hroot : ∃ n l, root = .elem n l := by
    cases hb with
    | leaf => exact ⟨_, _, rfl⟩
    | node => exact ⟨_, _, rfl⟩
    | void => exact ⟨_, _, rfl⟩
  obtain ⟨n, l, rfl⟩ := hroot
  obtain ⟨T, acc, ha, h1, h2⟩ := plain_writes hb [] (by simp [White])
  have hT := h1 []
  rw [List.append_nil, xmlTokens] at hT
  have hend : plainBuild [([], [])] (T ++ [.text acc]) = some [.elem n l] := by
    rw [h2, build_white ha]; rfl
  rcases hd with rfl | ⟨m, rfl, hm⟩
  · simp only [plainXml, List.nil_append, hT, Option.map_some, hend]
  · have e : b!"<?xml " ++ m ++ b!"?>" ++ body = [] ++ (60 :: ((b!"?xml " ++ m ++ b!"?") ++ (62 :: body))) := by simp
    have hg : (62 : UInt8) ∉ b!"?xml " ++ m ++ b!"?" := by
      simp only [List.mem_append, not_or]
      exact ⟨⟨by decide, fun hc => (hm _ hc).2.1 rfl⟩, by decide⟩
    rw [plainXml, e, tokens_both (by simp) hg, hT]
    have : plainBuild [([], [])] ([.text ([] ++ []), .tag (b!"?xml " ++ m ++ b!"?")] ++ (T ++ [.text acc])) = some [.elem n l] := by
      simp only [List.cons_append, List.nil_append]
      rw [build_white (by simp [White]), plainBuild, hend]
    simp only [Option.map_some, this]

theorem plainXml_white {w : Bytes} (h : White w) : plainXml w = some none := by
  have := tokens_plain_text (white_no_lt h) [] []
  rw [List.append_nil, List.nil_append, xmlTokens] at this
  rw [plainXml, this]
  have hb : plainBuild [([], [])] [.text w] = some [] := by rw [build_white h]; rfl
  simp only [hb]

/-- The expectation can be met. -/
theorem plainXml_law {lib : Lib} (h : lib.xml = plainXml) : XmlLaw lib :=
  ⟨fun _ _ hd => h ▸ plainXml_document hd, fun _ hw => h ▸ plainXml_white hw⟩

end S3
