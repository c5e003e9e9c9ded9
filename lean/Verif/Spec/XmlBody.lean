import Verif.Spec.XmlDoc
import Verif.Spec.Num
import Verif.Spec.Ops
/-! The XML documents that clients send (S3 API reference), and what is expected of the XML reader. -/
namespace S3.Spec

/-- white space -/
def White (s : Bytes) : Prop := ∀ c ∈ s, c = 32 ∨ c = 9 ∨ c = 10 ∨ c = 13

/-- character data: characters as they are, or as predefined entities where the client likes; `<` and `&` always so -/
inductive Escaped : Bytes → Bytes → Prop where
  | nil : Escaped [] []
  | raw {c t s} : c ≠ 60 → c ≠ 38 → Escaped t s → Escaped (c :: t) (c :: s)
  | lt {t s} : Escaped t s → Escaped (60 :: t) (b!"&lt;" ++ s)
  | gt {t s} : Escaped t s → Escaped (62 :: t) (b!"&gt;" ++ s)
  | amp {t s} : Escaped t s → Escaped (38 :: t) (b!"&amp;" ++ s)
  | quot {t s} : Escaped t s → Escaped (34 :: t) (b!"&quot;" ++ s)
  | apos {t s} : Escaped t s → Escaped (39 :: t) (b!"&apos;" ++ s)

/-- a text that can be the content of an element: UTF-8, not empty, no control characters but tab and line feed, no `]]>`, no white space at its ends -/
structure PlainText (t : Bytes) : Prop where
  utf8 : utf8Valid t = true
  nonempty : t ≠ []
  clean : CleanText t
  edges : ∀ c, t.head? = some c ∨ t.getLast? = some c → ¬ White [c]

/-- what stands behind the name in a start tag: nothing, or the declaration of a namespace -/
def Attributes (a : Bytes) : Prop := a = [] ∨ ∃ u, a = b!" xmlns=\"" ++ u ++ b!"\"" ∧ ∀ c ∈ u, 33 ≤ c ∧ c < 127 ∧ c ≠ 34 ∧ c ≠ 38 ∧ c ≠ 60 ∧ c ≠ 62

/-- a piece of a document, and the elements that are written in it, with white space around them as the client likes -/
inductive Written : List XmlNode → Bytes → Prop where
  | nil {w} : White w → Written [] w
  | leaf {w n a t s r sr} : White w → xmlName n = true → Attributes a → PlainText t → Escaped t s → Written r sr →
      Written (.elem n [.text t] :: r) (w ++ b!"<" ++ n ++ a ++ b!">" ++ s ++ b!"</" ++ n ++ b!">" ++ sr)
  | node {w n a inner s r sr} : White w → xmlName n = true → Attributes a → Written inner s → Written r sr →
      Written (.elem n inner :: r) (w ++ b!"<" ++ n ++ a ++ b!">" ++ s ++ b!"</" ++ n ++ b!">" ++ sr)
  | void {w n a z r sr} : White w → xmlName n = true → Attributes a → z = [] ∨ z = b!" " → Written r sr →
      Written (.elem n [] :: r) (w ++ b!"<" ++ n ++ a ++ z ++ b!"/>" ++ sr)

/-- the declaration at the beginning of a document, if there is one -/
def Declaration (d : Bytes) : Prop := d = [] ∨ ∃ m, d = b!"<?xml " ++ m ++ b!"?>" ∧ ∀ c ∈ m, c ≠ 60 ∧ c ≠ 62 ∧ c ≠ 63

/-- a document with this root -/
def Document (root : XmlNode) (s : Bytes) : Prop := ∃ d body, Declaration d ∧ Written [root] body ∧ s = d ++ body

/-- What is expected of the XML reader: it reads documents as they are written, and takes white space for a missing document. `quick_xml` is
assumed to do this; `plainXml_law` shows that it can be done. -/
structure XmlLaw (lib : Lib) : Prop where
  document : ∀ root s, Document root s → lib.xml s = some (some root)
  none : ∀ w, White w → lib.xml w = some none

/-- an element with a text, which may be empty -/
def leaf (n t : Bytes) : XmlNode := .elem n (if t = [] then [] else [.text t])

/-- an object to delete: its key, and a version perhaps -/
def objectElement (o : Bytes × Option Bytes) : XmlNode :=
  .elem b!"Object" (leaf b!"Key" o.1 :: match o.2 with
    | none => []
    | some v => [leaf b!"VersionId" v])

/-- the `Quiet` element -/
def quietElement (q : Bool) : XmlNode := leaf b!"Quiet" (if q then b!"true" else b!"false")

/-- the root element of a DeleteObjects request: at least one object, and the choice of quiet mode behind or before the objects -/
inductive DeleteRequest : XmlNode → List (Bytes × Option Bytes) → Option Bool → Prop where
  | plain {objs} : objs ≠ [] → DeleteRequest (.elem b!"Delete" (objs.map objectElement)) objs none
  | quietLast {objs q} : objs ≠ [] → DeleteRequest (.elem b!"Delete" (objs.map objectElement ++ [quietElement q])) objs (some q)
  | quietFirst {objs q} : objs ≠ [] → DeleteRequest (.elem b!"Delete" (quietElement q :: objs.map objectElement)) objs (some q)

/-- a part: its number and its ETag, in any order -/
inductive PartElement : XmlNode → Int → Bytes → Prop where
  | numberFirst {n e s} : IsI64 s n → PartElement (.elem b!"Part" [leaf b!"PartNumber" s, leaf b!"ETag" e]) n e
  | etagFirst {n e s} : IsI64 s n → PartElement (.elem b!"Part" [leaf b!"ETag" e, leaf b!"PartNumber" s]) n e

/-- the elements of the parts -/
inductive PartElements : List XmlNode → List (Int × Bytes) → Prop where
  | nil : PartElements [] []
  | cons {x n e xs ps} : PartElement x n e → PartElements xs ps → PartElements (x :: xs) ((n, e) :: ps)

/-- the root element of a CompleteMultipartUpload request -/
def CompleteRequest (root : XmlNode) (parts : List (Int × Bytes)) : Prop :=
  ∃ xs, PartElements xs parts ∧ root = .elem b!"CompleteMultipartUpload" xs

/-- the root element of a CreateBucket request -/
def createRequest (location : Bytes) : XmlNode := .elem b!"CreateBucketConfiguration" [leaf b!"LocationConstraint" location]

end S3.Spec
