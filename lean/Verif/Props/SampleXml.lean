import Verif.Spec.XmlDoc
import Verif.Model.Deserialize
/-! An XML reader for the samples; it stands for `quick_xml`. -/
namespace S3
open Spec

/-- the entities of a text, replaced -/
def plainUnescape : Bytes → Option Bytes
  | [] => some []
  | 38 :: 108 :: 116 :: 59 :: r => (plainUnescape r).map (60 :: ·)
  | 38 :: 103 :: 116 :: 59 :: r => (plainUnescape r).map (62 :: ·)
  | 38 :: 97 :: 109 :: 112 :: 59 :: r => (plainUnescape r).map (38 :: ·)
  | 38 :: 113 :: 117 :: 111 :: 116 :: 59 :: r => (plainUnescape r).map (34 :: ·)
  | 38 :: 97 :: 112 :: 111 :: 115 :: 59 :: r => (plainUnescape r).map (39 :: ·)
  | c :: r => if c = 38 then none else (plainUnescape r).map (c :: ·)

def isWhite (c : UInt8) : Bool := c == 32 || c == 9 || c == 10 || c == 13

def plainTrim (s : Bytes) : Bytes := ((s.dropWhile isWhite).reverse.dropWhile isWhite).reverse

/-- Build the tree from the tokens; the stack holds the open elements, innermost first, with what was read of them, last first. -/
def plainBuild : List (Bytes × List XmlNode) → List XmlToken → Option (List XmlNode)
  | [(_, l)], [] => some l.reverse
  | _, [] => none
  | [], _ => none
  | (n, l) :: up, .text s :: r =>
    if plainTrim s = [] then plainBuild ((n, l) :: up) r
    else match plainUnescape (plainTrim s) with
      | none => none
      | some t => plainBuild ((n, .text t :: l) :: up) r
  | (n, l) :: up, .tag s :: r =>
    match s with
    | 63 :: _ => plainBuild ((n, l) :: up) r
    | 47 :: m =>
      match up with
      | [] => none
      | (n', l') :: up => if m = n then plainBuild ((n', .elem n l.reverse :: l') :: up) r else none
    | _ =>
      if s.getLast? = some 47 then plainBuild ((n, .elem (s.takeWhile fun c => isLower c || isUpper c) [] :: l) :: up) r
      else plainBuild ((s.takeWhile (fun c => isLower c || isUpper c), []) :: (n, l) :: up) r

/-- a reader of documents without comments, processing instructions, CDATA and numeric references -/
def plainXml (s : Bytes) : Option (Option XmlNode) :=
  match xmlTokens false [] s with
  | none => none
  | some ts =>
    match plainBuild [([], [])] ts with
    | some [] => some none
    | some [.elem n l] => some (some (.elem n l))
    | _ => none

end S3
