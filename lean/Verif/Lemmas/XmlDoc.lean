import Verif.Model.Response
import Verif.Spec.XmlDoc
import Verif.Props.Xml
/-! Reading back the documents of the XML writer. -/
namespace S3
open Spec

theorem clean_cr {s : Bytes} (h : CleanText s) : (13 : UInt8) ∉ s := by
  intro hm
  rcases h.chars _ hm with h | h | h <;> revert h <;> decide

theorem clean_read {gt : Bool} {s : Bytes} (h : CleanText s) : readCharData (xmlText gt s) = some s := by
  have := C65_xml_text_partial gt s (clean_cr h) h.chars (.inr h.cdata)
  rwa [xmlRead, normalizeEol_id (not_mem_xmlText (clean_cr h))] at this

theorem tokens_text {s : Bytes} (h : (60 : UInt8) ∉ s) (acc rest : Bytes) :
    xmlTokens false acc (s ++ 60 :: rest) = (xmlTokens true [] rest).map (.text (acc ++ s) :: ·) := by
  induction s generalizing acc with
  | nil => simp [xmlTokens]
  | cons c s ih =>
    have hc : c ≠ 60 := fun e => h (e ▸ List.mem_cons_self ..)
    rw [List.cons_append, xmlTokens, if_neg hc, ih (fun hm => h (List.mem_cons_of_mem _ hm))]
    simp

theorem tokens_tag {s : Bytes} (h : (62 : UInt8) ∉ s) (acc rest : Bytes) :
    xmlTokens true acc (s ++ 62 :: rest) = (xmlTokens false [] rest).map (.tag (acc ++ s) :: ·) := by
  induction s generalizing acc with
  | nil => simp [xmlTokens]
  | cons c s ih =>
    have hc : c ≠ 62 := fun e => h (e ▸ List.mem_cons_self ..)
    rw [List.cons_append, xmlTokens, if_neg hc, ih (fun hm => h (List.mem_cons_of_mem _ hm))]
    simp

theorem name_letters {n : Bytes} (h : xmlName n = true) : ∀ c ∈ n, isLower c = true ∨ isUpper c = true := by
  simp only [xmlName, Bool.and_eq_true, List.all_eq_true, Bool.or_eq_true] at h
  exact h.2

theorem name_not {n : Bytes} (h : xmlName n = true) {c : UInt8} (hc : isLower c = false ∧ isUpper c = false) : c ∉ n := by
  intro hm
  rcases name_letters h c hm with h | h
  · rw [hc.1] at h; cases h
  · rw [hc.2] at h; cases h

theorem name_ne {n : Bytes} (h : xmlName n = true) : n ≠ [] := by
  simp only [xmlName, Bool.and_eq_true] at h
  intro e
  subst e
  exact absurd h.1 (by decide)

theorem elements_start {n : Bytes} (h : xmlName n = true) (up : List (Bytes × Bytes)) (r : List XmlToken) :
    xmlElements up (.tag n :: r) = xmlElements ((n, []) :: up) r := by
  cases n with
  | nil => exact absurd h (by decide)
  | cons c n =>
    have hc : c ≠ 47 := fun e => name_not h (c := 47) (by decide) (e ▸ List.mem_cons_self ..)
    cases up <;> simp [xmlElements, h, hc]

theorem elements_stop (n t : Bytes) (up : List (Bytes × Bytes)) (r : List XmlToken) :
    xmlElements ((n, t) :: up) (.tag (47 :: n) :: r) = (xmlElements up r).map (xmlEntry up n t :: ·) := by
  simp [xmlElements]

theorem elements_void {n : Bytes} (h : xmlName n = true) (up : List (Bytes × Bytes)) (r : List XmlToken) :
    xmlElements up (.tag (n ++ b!" /") :: r) = (xmlElements up r).map (xmlEntry up n [] :: ·) := by
  have hx : xmlName (n ++ b!" /") = false := by
    cases hb : xmlName (n ++ b!" /") with
    | false => rfl
    | true => exact absurd (by simp) (name_not hb (c := 47) (by decide))
  cases n with
  | nil => exact absurd h (by decide)
  | cons c n =>
    have hc : c ≠ 47 := fun e => name_not h (c := 47) (by decide) (e ▸ List.mem_cons_self ..)
    rw [List.cons_append] at hx ⊢
    cases up <;> simp [xmlElements, hx, hc, h]

theorem elements_text {s t' : Bytes} (h : readCharData s = some t') (n t : Bytes) (up : List (Bytes × Bytes)) (r : List XmlToken) :
    xmlElements ((n, t) :: up) (.text s :: r) = xmlElements ((n, t ++ t') :: up) r := by
  simp [xmlElements, h]

theorem elements_noText (up : List (Bytes × Bytes)) (r : List XmlToken) : xmlElements up (.text [] :: r) = xmlElements up r := by
  cases up with
  | nil => simp [xmlElements]
  | cons p up => rw [elements_text rfl]; simp

/-- the same entries below the open elements -/
def below_ (up : List (Bytes × Bytes)) (es : List XmlEntry) : List XmlEntry :=
  es.map fun e => ((up.map (·.1)).reverse ++ e.1, e.2)

/-- a sequence of events, what is written for it and what is read from that -/
structure Part (gt : Bool) (evs : List XmlEvent) (out : Bytes) (es : List XmlEntry) : Prop where
  empty : evs = [] → out = []
  writes : evs ≠ [] → ∀ w : XmlWriter, w.writeAll gt evs = some { out := w.closeTag ++ out, names := w.names, open_ := false }
  eol : (13 : UInt8) ∉ out
  reads : ∃ T : List XmlToken, (∀ rest, xmlTokens false [] (out ++ rest) = (xmlTokens false [] rest).map (T ++ ·)) ∧
    ∀ up R, xmlElements up (T ++ R) = (xmlElements up R).map (below_ up es ++ ·)
  paths : ∀ e ∈ es, e.1 ≠ []

theorem writeAll_append (gt : Bool) (w : XmlWriter) (a b : List XmlEvent) :
    w.writeAll gt (a ++ b) = (w.writeAll gt a).bind fun w => w.writeAll gt b := by
  induction a generalizing w with
  | nil => rfl
  | cons e a ih =>
    simp only [List.cons_append, XmlWriter.writeAll]
    cases w.write gt e with
    | none => rfl
    | some w => simp only [Option.bind_some]; exact ih w

theorem Part.nil (gt : Bool) : Part gt [] [] [] where
  empty _ := rfl
  writes h := absurd rfl h
  eol := by simp
  reads := ⟨[], fun rest => by simp, fun up R => by simp [below_]⟩
  paths := by simp

theorem Part.append {gt : Bool} {a b : List XmlEvent} {oa ob : Bytes} {ea eb : List XmlEntry} (ha : Part gt a oa ea)
    (hb : Part gt b ob eb) : Part gt (a ++ b) (oa ++ ob) (ea ++ eb) where
  empty h := by
    rw [List.append_eq_nil_iff] at h
    rw [ha.empty h.1, hb.empty h.2]; rfl
  writes h w := by
    rw [writeAll_append]
    by_cases h1 : a = []
    · have h2 : b ≠ [] := by
        intro e
        exact h (by rw [h1, e]; rfl)
      subst h1
      rw [ha.empty rfl]
      simp only [XmlWriter.writeAll, Option.bind_some, List.nil_append]
      exact hb.writes h2 w
    · rw [ha.writes h1]
      by_cases h2 : b = []
      · subst h2
        rw [hb.empty rfl]
        simp [XmlWriter.writeAll]
      · rw [Option.bind_some, hb.writes h2]
        simp [XmlWriter.closeTag]
  eol h := by
    rcases List.mem_append.mp h with h | h
    · exact ha.eol h
    · exact hb.eol h
  reads := by
    obtain ⟨ta, ra, sa⟩ := ha.reads
    obtain ⟨tb, rb, sb⟩ := hb.reads
    refine ⟨ta ++ tb, fun rest => ?_, fun up R => ?_⟩
    · rw [List.append_assoc, ra, rb, Option.map_map]
      congr 1
      funext l
      simp
    · rw [List.append_assoc, sa, sb, Option.map_map]
      congr 1
      funext l
      simp [below_]
  paths e he := by
    rcases List.mem_append.mp he with he | he
    · exact ha.paths e he
    · exact hb.paths e he

theorem Part.element {gt : Bool} {n t : Bytes} (hn : xmlName n = true) (ht : CleanText t) :
    Part gt (elementEvents n t) (b!"<" ++ n ++ b!">" ++ xmlText gt t ++ b!"</" ++ n ++ b!">") [([n], t)] where
  empty h := by cases h
  writes _ w := by
    simp [elementEvents, XmlWriter.writeAll, XmlWriter.write, XmlWriter.closeTag]
  eol := by
    have h1 := name_not hn (c := 13) (by decide)
    have h2 := not_mem_xmlText (gt := gt) (clean_cr ht)
    simp [h1, h2]
  reads := by
    refine ⟨[.text [], .tag n, .text (xmlText gt t), .tag (47 :: n)], fun rest => ?_, fun up R => ?_⟩
    · have e : b!"<" ++ n ++ b!">" ++ xmlText gt t ++ b!"</" ++ n ++ b!">" ++ rest
          = [] ++ 60 :: (n ++ 62 :: (xmlText gt t ++ 60 :: ((47 :: n) ++ 62 :: rest))) := by simp
      have h62 := name_not hn (c := 62) (by decide)
      rw [e, tokens_text (by simp), tokens_tag h62, tokens_text (C65_no_markup gt t), tokens_tag (by simp [h62])]
      simp [Option.map_map, Function.comp_def]
    · simp only [List.cons_append, List.nil_append]
      rw [elements_noText, elements_start hn, elements_text (clean_read ht), elements_stop]
      simp [below_, xmlEntry]
  paths := by simp

theorem Part.stack {gt : Bool} {n : Bytes} (hn : xmlName n = true) {evs : List XmlEvent} {out : Bytes} {es : List XmlEntry}
    (h : Part gt evs out es) :
    ∃ out', Part gt (stackEvents n evs) out' (es.map (fun e => (n :: e.1, e.2)) ++ [([n], [])]) := by
  have h62 := name_not hn (c := 62) (by decide)
  have h13 := name_not hn (c := 13) (by decide)
  have paths : ∀ e ∈ es.map (fun e : XmlEntry => (n :: e.1, e.2)) ++ [([n], [])], e.1 ≠ [] := by
    intro e he
    simp only [List.mem_append, List.mem_map, List.mem_singleton] at he
    rcases he with ⟨x, _, rfl⟩ | rfl <;> simp
  by_cases hv : evs = []
  · subst hv
    have hes : es = [] := by
      obtain ⟨T, r1, r2⟩ := h.reads
      rw [h.empty rfl] at r1
      have hT : T = [] := by
        have := r1 []
        simp [xmlTokens] at this
        cases T with
        | nil => rfl
        | cons a T => have := congrArg List.length this; simp at this
      subst hT
      have := r2 [] []
      simp [xmlElements, below_] at this
      exact this
    subst hes
    refine ⟨b!"<" ++ n ++ b!" />", ?_, ?_, ?_, ?_, paths⟩
    · intro h; cases h
    · intro _ w
      simp [stackEvents, XmlWriter.writeAll, XmlWriter.write, XmlWriter.closeTag]
    · simp [h13]
    · refine ⟨[.text [], .tag (n ++ b!" /")], fun rest => ?_, fun up R => ?_⟩
      · have e : b!"<" ++ n ++ b!" />" ++ rest = [] ++ 60 :: ((n ++ b!" /") ++ 62 :: rest) := by simp
        rw [e, tokens_text (by simp), tokens_tag (by simp [h62])]
        simp [Option.map_map, Function.comp_def]
      · simp only [List.cons_append, List.nil_append]
        rw [elements_noText, elements_void hn]
        simp [below_, xmlEntry]
  · refine ⟨b!"<" ++ n ++ b!">" ++ out ++ b!"</" ++ n ++ b!">", ?_, ?_, ?_, ?_, paths⟩
    · intro h; cases h
    · intro _ w
      rw [stackEvents, List.cons_append, XmlWriter.writeAll, XmlWriter.write, Option.bind_some, writeAll_append, h.writes hv]
      simp [XmlWriter.writeAll, XmlWriter.write, XmlWriter.closeTag]
    · simp [h13, h.eol]
    · obtain ⟨T, r1, r2⟩ := h.reads
      refine ⟨.text [] :: .tag n :: T ++ [.text [], .tag (47 :: n)], fun rest => ?_, fun up R => ?_⟩
      · have e : b!"<" ++ n ++ b!">" ++ out ++ b!"</" ++ n ++ b!">" ++ rest
            = [] ++ 60 :: (n ++ 62 :: (out ++ ([] ++ 60 :: ((47 :: n) ++ 62 :: rest)))) := by simp
        rw [e, tokens_text (by simp), tokens_tag h62, r1, tokens_text (by simp), tokens_tag (by simp [h62])]
        simp [Option.map_map, Function.comp_def]
      · have e : (XmlToken.text [] :: .tag n :: T ++ [.text [], .tag (47 :: n)]) ++ R
            = .text [] :: .tag n :: (T ++ (.text [] :: .tag (47 :: n) :: R)) := by simp
        rw [e, elements_noText, elements_start hn, r2, elements_noText, elements_stop, Option.map_map]
        congr 1
        funext l
        simp [below_, xmlEntry]

theorem Part.flatMap {gt : Bool} {α : Type} {f : α → List XmlEvent} {g : α → List XmlEntry} (l : List α)
    (h : ∀ a ∈ l, ∃ out, Part gt (f a) out (g a)) : ∃ out, Part gt (l.flatMap f) out (l.flatMap g) := by
  induction l with
  | nil => exact ⟨[], Part.nil gt⟩
  | cons a l ih =>
    obtain ⟨o1, h1⟩ := h a (List.mem_cons_self ..)
    obtain ⟨o2, h2⟩ := ih fun a ha => h a (List.mem_cons_of_mem _ ha)
    exact ⟨_, by simpa using h1.append h2⟩

/-- the entry of an optional element -/
def optEntry (n : Bytes) : Option Bytes → List XmlEntry
  | none => []
  | some t => [([n], t)]

theorem Part.opt {gt : Bool} {n : Bytes} (hn : xmlName n = true) {t : Option Bytes} (ht : ∀ v, t = some v → CleanText v) :
    ∃ out, Part gt (optElement n t) out (optEntry n t) := by
  cases t with
  | none => exact ⟨[], Part.nil gt⟩
  | some t => exact ⟨_, Part.element hn (ht t rfl)⟩

theorem oneRoot_of {l : List XmlEntry} {e : XmlEntry} (hl : ∀ x ∈ l, x.1.length ≠ 1) (he : e.1.length = 1) : oneRoot (l ++ [e]) = true := by
  have : (l.map fun e => e.1.length == 1) = List.replicate l.length false := by
    rw [List.eq_replicate_iff]
    refine ⟨by simp, ?_⟩
    intro b hb
    obtain ⟨x, hx, rfl⟩ := List.mem_map.mp hb
    simpa using hl x hx
  simp [oneRoot, this, he]

/-- the document of a part with one root, read back -/
theorem Part.document {gt : Bool} {evs : List XmlEvent} {out : Bytes} {es : List XmlEntry} (h : Part gt evs out es) (hv : evs ≠ [])
    (ho : oneRoot es = true) : ∃ doc, xmlDocument gt evs = some doc ∧ readXml doc = some es := by
  refine ⟨xmlDeclaration ++ out, ?_, ?_⟩
  · rw [xmlDocument, h.writes hv]; rfl
  · have h13 : (13 : UInt8) ∉ xmlDeclaration ++ out := by
      intro hm
      rcases List.mem_append.mp hm with hm | hm
      · exact absurd hm (by decide)
      · exact h.eol hm
    obtain ⟨T, r1, r2⟩ := h.reads
    have e : xmlDeclaration ++ out = [] ++ 60 :: (b!"?xml version=\"1.0\" encoding=\"UTF-8\"?" ++ 62 :: (out ++ [])) := by
      simp [xmlDeclaration]
    have e2 : xmlElements [] (T ++ [.text []]) = some es := by
      rw [r2]
      simp [xmlElements, below_]
    rw [readXml, normalizeEol_id h13, e, tokens_text (by simp), tokens_tag (by decide), r1]
    simp [xmlTokens, e2, ho]

/-- the document of a root element with parts inside -/
theorem Part.rooted {gt : Bool} {n : Bytes} (hn : xmlName n = true) {evs : List XmlEvent} {out : Bytes} {es : List XmlEntry}
    (h : Part gt evs out es) :
    ∃ doc, xmlDocument gt (stackEvents n evs) = some doc ∧ readXml doc = some (es.map (fun e => (n :: e.1, e.2)) ++ [([n], [])]) := by
  obtain ⟨out', h'⟩ := h.stack hn
  refine h'.document (by simp [stackEvents]) (oneRoot_of ?_ rfl)
  intro x hx
  obtain ⟨e, he, rfl⟩ := List.mem_map.mp hx
  have := h.paths e he
  cases hp : e.1 with
  | nil => exact absurd hp this
  | cons a r => simp

end S3
