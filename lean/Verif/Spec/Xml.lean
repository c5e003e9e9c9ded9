import Verif.Base.Bytes
/-! How an XML 1.0 reader reads character data: line-end normalisation (XML 1.0 §2.11), the
predefined entities (§4.6), rejection of `<`, of bare `&`, of `]]>` (§2.4) and of control characters
(§2.2). Numeric character references are not part of this specification (the writer makes none). -/
namespace S3.Spec

/-- §2.11: CR LF and CR become LF -/
def normalizeEol : Bytes → Bytes
  | [] => []
  | 13 :: 10 :: r => 10 :: normalizeEol r
  | 13 :: r => 10 :: normalizeEol r
  | c :: r => c :: normalizeEol r

/-- characters allowed by §2.2, among ASCII: no control characters but tab, LF, CR -/
def xmlCharOk (c : UInt8) : Bool := 32 ≤ c || c == 9 || c == 10 || c == 13

/-- parse character data up to the end -/
def readCharData : Bytes → Option Bytes
  | [] => some []
  | 38 :: 108 :: 116 :: 59 :: r => (readCharData r).map (60 :: ·)
  | 38 :: 103 :: 116 :: 59 :: r => (readCharData r).map (62 :: ·)
  | 38 :: 97 :: 109 :: 112 :: 59 :: r => (readCharData r).map (38 :: ·)
  | 38 :: 113 :: 117 :: 111 :: 116 :: 59 :: r => (readCharData r).map (34 :: ·)
  | 38 :: 97 :: 112 :: 111 :: 115 :: 59 :: r => (readCharData r).map (39 :: ·)
  | 38 :: _ => none
  | 60 :: _ => none
  | 93 :: 93 :: 62 :: _ => none
  | c :: r => if xmlCharOk c then (readCharData r).map (c :: ·) else none

/-- what an XML reader reports for the text between two tags -/
def xmlRead (s : Bytes) : Option Bytes := readCharData (normalizeEol s)

end S3.Spec
