import Verif.Spec.Xml
/-! How a client reads an XML document: the declaration, then elements without attributes, nested properly, with one
root. The reader reports the elements in the order in which they end, each with its path from the root and its own
text. -/
namespace S3.Spec

/-- markup and text -/
inductive XmlToken where
  | text (s : Bytes)
  | tag (s : Bytes)
  deriving DecidableEq, Repr

/-- Cut a document into text and tags; `inTag` tells whether a tag is open, `acc` is what was read of the current token. -/
def xmlTokens : Bool → Bytes → Bytes → Option (List XmlToken)
  | false, acc, [] => some [.text acc]
  | true, _, [] => none
  | false, acc, c :: r => if c = 60 then (xmlTokens true [] r).map (.text acc :: ·) else xmlTokens false (acc ++ [c]) r
  | true, acc, c :: r => if c = 62 then (xmlTokens false [] r).map (.tag acc :: ·) else xmlTokens true (acc ++ [c]) r

/-- names of elements: ASCII letters, at least one (all that S3 documents use) -/
def xmlName (s : Bytes) : Bool := s != [] && s.all fun c => isLower c || isUpper c

/-- an element that was read: path from the root, own text -/
abbrev XmlEntry := List Bytes × Bytes

/-- an element of this name with the text ends; `up` are the elements around it, innermost first -/
def xmlEntry (up : List (Bytes × Bytes)) (name text : Bytes) : XmlEntry := ((up.map (·.1)).reverse ++ [name], text)

/-- Read the tokens after the declaration. The stack holds the open elements, innermost first, with their text so far. Outside
of the root there is no text. -/
def xmlElements : List (Bytes × Bytes) → List XmlToken → Option (List XmlEntry)
  | [], [] => some []
  | _ :: _, [] => none
  | [], .text s :: r => if s = [] then xmlElements [] r else none
  | (n, t) :: up, .text s :: r =>
    match readCharData s with
    | none => none
    | some t' => xmlElements ((n, t ++ t') :: up) r
  | up, .tag s :: r =>
    match s with
    | 47 :: name =>
      match up with
      | [] => none
      | (n, t) :: up => if name = n then (xmlElements up r).map (xmlEntry up n t :: ·) else none
    | _ =>
      if xmlName s then xmlElements ((s, []) :: up) r
      else if s.drop (s.length - 2) = b!" /" ∧ xmlName (s.take (s.length - 2)) = true then
        (xmlElements up r).map (xmlEntry up (s.take (s.length - 2)) [] :: ·)
      else none

/-- there is one root, and it ends last -/
def oneRoot (l : List XmlEntry) : Bool := (l.map fun e => e.1.length == 1) == List.replicate (l.length - 1) false ++ [true]

/-- what a client reads from a document -/
def readXml (doc : Bytes) : Option (List XmlEntry) :=
  match xmlTokens false [] (normalizeEol doc) with
  | some (.text [] :: .tag decl :: r) =>
    if decl = b!"?xml version=\"1.0\" encoding=\"UTF-8\"?" then (xmlElements [] r).filter oneRoot else none
  | _ => none

/-- the texts of the elements at a path, in the order of the document -/
def textsAt (path : List Bytes) (l : List XmlEntry) : List Bytes := (l.filter fun e => e.1 == path).map (·.2)

/-- texts that survive in a document: no control characters but tab and line feed, no `]]>` -/
structure CleanText (s : Bytes) : Prop where
  chars : ∀ c ∈ s, 32 ≤ c ∨ c = 9 ∨ c = 10
  cdata : ¬ ∃ a b, s = a ++ b!"]]>" ++ b

end S3.Spec
